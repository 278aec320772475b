/-!
# The quasi-normal-mode tables of `IMRPhenomD` (ml4gw/waveforms/cbc/phenom_d_data.py)

Each table is generated from the source literals and holds them scaled to integers: spins by 10^3, frequencies by 10^7 and damping by 10^8.
-/
namespace Verif.PhenomD

/-- Entries 0 to 49 of `QNMData_a`, times 10^3. (phenom_d_data.py:6-55) -/
def tabA0 : List Int := [-1000, -999, -998, -996, -994, -992, -990, -988, -986, -984, -982, -980, -978, -976, -974, -972, -970, -968, -966, -964, -962, -960, -958, -956, -954,
  -952, -950, -948, -946, -944, -942, -940, -938, -936, -934, -932, -930, -928, -926, -924, -922, -920, -918, -916, -914, -912, -910, -908, -906, -904]

/-- Entries 50 to 99 of `QNMData_a`, times 10^3. (phenom_d_data.py:56-105) -/
def tabA1 : List Int := [-902, -900, -898, -896, -894, -892, -890, -888, -886, -884, -882, -880, -878, -876, -874, -872, -870, -868, -866, -864, -862, -860, -858, -856, -854,
  -852, -850, -848, -846, -844, -842, -840, -838, -836, -834, -832, -830, -828, -826, -824, -822, -820, -818, -816, -814, -812, -810, -808, -806, -804]

/-- Entries 100 to 149 of `QNMData_a`, times 10^3. (phenom_d_data.py:106-155) -/
def tabA2 : List Int := [-802, -800, -798, -796, -794, -792, -790, -788, -786, -784, -782, -780, -778, -776, -774, -772, -770, -768, -766, -764, -762, -760, -758, -756, -754,
  -752, -750, -748, -746, -744, -742, -740, -738, -736, -734, -732, -730, -728, -726, -724, -722, -720, -718, -716, -714, -712, -710, -708, -706, -704]

/-- Entries 150 to 199 of `QNMData_a`, times 10^3. (phenom_d_data.py:156-205) -/
def tabA3 : List Int := [-702, -700, -698, -696, -694, -692, -690, -688, -686, -684, -682, -680, -678, -676, -674, -672, -670, -668, -666, -664, -662, -660, -658, -656, -654,
  -652, -650, -648, -646, -644, -642, -640, -638, -636, -634, -632, -630, -628, -626, -624, -622, -620, -618, -616, -614, -612, -610, -608, -606, -604]

/-- Entries 200 to 249 of `QNMData_a`, times 10^3. (phenom_d_data.py:206-255) -/
def tabA4 : List Int := [-602, -600, -598, -596, -594, -592, -590, -588, -586, -584, -582, -580, -578, -576, -574, -572, -570, -568, -566, -564, -562, -560, -558, -556, -554,
  -552, -550, -548, -546, -544, -542, -540, -538, -536, -534, -532, -530, -528, -526, -524, -522, -520, -518, -516, -514, -512, -510, -508, -506, -504]

/-- Entries 250 to 299 of `QNMData_a`, times 10^3. (phenom_d_data.py:256-305) -/
def tabA5 : List Int := [-502, -500, -498, -496, -494, -492, -490, -488, -486, -484, -482, -480, -478, -476, -474, -472, -470, -468, -466, -464, -462, -460, -458, -456, -454,
  -452, -450, -448, -446, -444, -442, -440, -438, -436, -434, -432, -430, -428, -426, -424, -422, -420, -418, -416, -414, -412, -410, -408, -406, -404]

/-- Entries 300 to 349 of `QNMData_a`, times 10^3. (phenom_d_data.py:306-355) -/
def tabA6 : List Int := [-402, -400, -398, -396, -394, -392, -390, -388, -386, -384, -382, -380, -378, -376, -374, -372, -370, -368, -366, -364, -362, -360, -358, -356, -354,
  -352, -350, -348, -346, -344, -342, -340, -338, -336, -334, -332, -330, -328, -326, -324, -322, -320, -318, -316, -314, -312, -310, -308, -306, -304]

/-- Entries 350 to 399 of `QNMData_a`, times 10^3. (phenom_d_data.py:356-405) -/
def tabA7 : List Int := [-302, -300, -298, -296, -294, -292, -290, -288, -286, -284, -282, -280, -278, -276, -274, -272, -270, -268, -266, -264, -262, -260, -258, -256, -254,
  -252, -250, -248, -246, -244, -242, -240, -238, -236, -234, -232, -230, -228, -226, -224, -222, -220, -218, -216, -214, -212, -210, -208, -206, -204]

/-- Entries 400 to 449 of `QNMData_a`, times 10^3. (phenom_d_data.py:406-455) -/
def tabA8 : List Int := [-202, -200, -198, -196, -194, -192, -190, -188, -186, -184, -182, -180, -178, -176, -174, -172, -170, -168, -166, -164, -162, -160, -158, -156, -154,
  -152, -150, -148, -146, -144, -142, -140, -138, -136, -134, -132, -130, -128, -126, -124, -122, -120, -118, -116, -114, -112, -110, -108, -106, -104]

/-- Entries 450 to 499 of `QNMData_a`, times 10^3. (phenom_d_data.py:456-505) -/
def tabA9 : List Int := [-102, -100, -98, -96, -94, -92, -90, -88, -86, -84, -82, -80, -78, -76, -74, -72, -70, -68, -66, -64, -62, -60, -58, -56, -54,
  -52, -50, -48, -46, -44, -42, -40, -38, -36, -34, -32, -30, -28, -26, -24, -22, -20, -18, -16, -14, -12, -10, -8, -6, -4]

/-- Entries 500 to 549 of `QNMData_a`, times 10^3. (phenom_d_data.py:506-555) -/
def tabA10 : List Int := [-2, 0, 2, 4, 6, 8, 10, 12, 14, 16, 18, 20, 22, 24, 26, 28, 30, 32, 34, 36, 38, 40, 42, 44, 46,
  48, 50, 52, 54, 56, 58, 60, 62, 64, 66, 68, 70, 72, 74, 76, 78, 80, 82, 84, 86, 88, 90, 92, 94, 96]

/-- Entries 550 to 599 of `QNMData_a`, times 10^3. (phenom_d_data.py:556-605) -/
def tabA11 : List Int := [98, 100, 102, 104, 106, 108, 110, 112, 114, 116, 118, 120, 122, 124, 126, 128, 130, 132, 134, 136, 138, 140, 142, 144, 146,
  148, 150, 152, 154, 156, 158, 160, 162, 164, 166, 168, 170, 172, 174, 176, 178, 180, 182, 184, 186, 188, 190, 192, 194, 196]

/-- Entries 600 to 649 of `QNMData_a`, times 10^3. (phenom_d_data.py:606-655) -/
def tabA12 : List Int := [198, 200, 202, 204, 206, 208, 210, 212, 214, 216, 218, 220, 222, 224, 226, 228, 230, 232, 234, 236, 238, 240, 242, 244, 246,
  248, 250, 252, 254, 256, 258, 260, 262, 264, 266, 268, 270, 272, 274, 276, 278, 280, 282, 284, 286, 288, 290, 292, 294, 296]

/-- Entries 650 to 699 of `QNMData_a`, times 10^3. (phenom_d_data.py:656-705) -/
def tabA13 : List Int := [298, 300, 302, 304, 306, 308, 310, 312, 314, 316, 318, 320, 322, 324, 326, 328, 330, 332, 334, 336, 338, 340, 342, 344, 346,
  348, 350, 352, 354, 356, 358, 360, 362, 364, 366, 368, 370, 372, 374, 376, 378, 380, 382, 384, 386, 388, 390, 392, 394, 396]

/-- Entries 700 to 749 of `QNMData_a`, times 10^3. (phenom_d_data.py:706-755) -/
def tabA14 : List Int := [398, 400, 402, 404, 406, 408, 410, 412, 414, 416, 418, 420, 422, 424, 426, 428, 430, 432, 434, 436, 438, 440, 442, 444, 446,
  448, 450, 452, 454, 456, 458, 460, 462, 464, 466, 468, 470, 472, 474, 476, 478, 480, 482, 484, 486, 488, 490, 492, 494, 496]

/-- Entries 750 to 799 of `QNMData_a`, times 10^3. (phenom_d_data.py:756-805) -/
def tabA15 : List Int := [498, 500, 502, 504, 506, 508, 510, 512, 514, 516, 518, 520, 522, 524, 526, 528, 530, 532, 534, 536, 538, 540, 542, 544, 546,
  548, 550, 552, 554, 556, 558, 560, 562, 564, 566, 568, 570, 572, 574, 576, 578, 580, 582, 584, 586, 588, 590, 592, 594, 596]

/-- Entries 800 to 849 of `QNMData_a`, times 10^3. (phenom_d_data.py:806-855) -/
def tabA16 : List Int := [598, 600, 602, 604, 606, 608, 610, 612, 614, 616, 618, 620, 622, 624, 626, 628, 630, 632, 634, 636, 638, 640, 642, 644, 646,
  648, 650, 652, 654, 656, 658, 660, 662, 664, 666, 668, 670, 672, 674, 676, 678, 680, 682, 684, 686, 688, 690, 692, 694, 696]

/-- Entries 850 to 899 of `QNMData_a`, times 10^3. (phenom_d_data.py:856-905) -/
def tabA17 : List Int := [698, 700, 702, 704, 706, 708, 710, 712, 714, 716, 718, 720, 722, 724, 726, 728, 730, 732, 734, 736, 738, 740, 742, 744, 746,
  748, 750, 752, 754, 756, 758, 760, 762, 764, 766, 768, 770, 772, 774, 776, 778, 780, 782, 784, 786, 788, 790, 792, 794, 796]

/-- Entries 900 to 949 of `QNMData_a`, times 10^3. (phenom_d_data.py:906-955) -/
def tabA18 : List Int := [798, 800, 802, 804, 806, 808, 810, 812, 814, 816, 818, 820, 822, 824, 826, 828, 830, 832, 834, 836, 838, 840, 842, 844, 846,
  848, 850, 852, 854, 856, 858, 860, 862, 864, 866, 868, 870, 872, 874, 876, 878, 880, 882, 884, 886, 888, 890, 892, 894, 896]

/-- Entries 950 to 999 of `QNMData_a`, times 10^3. (phenom_d_data.py:956-1005) -/
def tabA19 : List Int := [898, 900, 902, 904, 906, 908, 910, 912, 914, 916, 918, 920, 922, 924, 926, 928, 930, 932, 934, 936, 938, 940, 942, 944, 946,
  948, 950, 952, 954, 956, 958, 960, 962, 964, 966, 968, 970, 972, 974, 976, 978, 980, 982, 984, 986, 988, 990, 992, 994, 996]

/-- Entries 1000 to 1002 of `QNMData_a`, times 10^3. (phenom_d_data.py:1006-1008) -/
def tabA20 : List Int := [998, 999, 1000]

/-- `QNMData_a` (phenom_d_data.py:4-1010), times 10^3. -/
def tabA : List Int :=
  tabA0 ++ tabA1 ++ tabA2 ++ tabA3 ++ tabA4 ++ tabA5 ++ tabA6 ++ tabA7 ++ tabA8 ++ tabA9 ++ tabA10 ++ tabA11 ++ tabA12 ++ tabA13 ++ tabA14 ++ tabA15 ++ tabA16 ++ tabA17 ++ tabA18 ++ tabA19 ++ tabA20

/-- `QNMData_fring` (phenom_d_data.py:1012-2018), times 10^7. -/
def tabRing : List Int := [
  464014, 464110, 464197, 464373, 464526, 464730, 464909, 465084, 465259, 465435, 465611, 465789, 465966, 466144, 466322, 466501, 466679, 466858, 467038, 467217,
  467397, 467577, 467757, 467937, 468117, 468298, 468479, 468660, 468842, 469024, 469205, 469388, 469570, 469752, 469935, 470118, 470302, 470485, 470669, 470853,
  471037, 471221, 471406, 471591, 471776, 471962, 472147, 472333, 472519, 472705, 472892, 473079, 473266, 473453, 473641, 473829, 474017, 474205, 474393, 474582,
  474771, 474960, 475150, 475340, 475530, 475720, 475910, 476101, 476292, 476483, 476675, 476866, 477058, 477251, 477443, 477636, 477829, 478022, 478216, 478409,
  478603, 478798, 478992, 479187, 479382, 479577, 479773, 479969, 480165, 480361, 480558, 480755, 480952, 481149, 481347, 481545, 481743, 481942, 482140, 482339,
  482539, 482738, 482938, 483138, 483339, 483539, 483740, 483941, 484143, 484345, 484547, 484749, 484951, 485154, 485357, 485561, 485764, 485968, 486173, 486377,
  486582, 486787, 486992, 487198, 487404, 487610, 487817, 488024, 488231, 488438, 488646, 488854, 489062, 489270, 489479, 489688, 489898, 490108, 490318, 490528,
  490739, 490949, 491161, 491372, 491584, 491796, 492008, 492221, 492434, 492647, 492861, 493075, 493289, 493504, 493719, 493934, 494149, 494365, 494581, 494797,
  495014, 495231, 495448, 495666, 495884, 496102, 496321, 496540, 496759, 496979, 497198, 497419, 497639, 497860, 498081, 498302, 498524, 498746, 498969, 499192,
  499415, 499638, 499862, 500086, 500310, 500535, 500760, 500986, 501212, 501438, 501664, 501891, 502118, 502345, 502573, 502801, 503030, 503259, 503488, 503717,
  503947, 504177, 504408, 504639, 504870, 505102, 505334, 505566, 505799, 506032, 506265, 506499, 506733, 506967, 507202, 507437, 507673, 507909, 508145, 508381,
  508618, 508856, 509093, 509332, 509570, 509809, 510048, 510288, 510527, 510768, 511008, 511249, 511491, 511733, 511975, 512217, 512460, 512704, 512947, 513192,
  513436, 513681, 513926, 514172, 514418, 514664, 514911, 515158, 515406, 515654, 515902, 516151, 516400, 516650, 516900, 517150, 517401, 517652, 517904, 518156,
  518408, 518661, 518914, 519168, 519422, 519677, 519931, 520187, 520443, 520699, 520955, 521212, 521470, 521727, 521986, 522244, 522503, 522763, 523023, 523283,
  523544, 523805, 524067, 524329, 524592, 524855, 525118, 525382, 525646, 525911, 526176, 526442, 526708, 526975, 527242, 527509, 527777, 528045, 528314, 528583,
  528853, 529123, 529394, 529665, 529936, 530208, 530481, 530754, 531027, 531301, 531576, 531850, 532126, 532402, 532678, 532954, 533232, 533509, 533788, 534066,
  534345, 534625, 534905, 535186, 535467, 535749, 536031, 536313, 536596, 536880, 537164, 537449, 537734, 538019, 538305, 538592, 538879, 539167, 539455, 539744,
  540033, 540322, 540613, 540903, 541195, 541486, 541779, 542072, 542365, 542659, 542953, 543248, 543544, 543840, 544136, 544433, 544731, 545029, 545328, 545627,
  545927, 546228, 546529, 546830, 547132, 547435, 547738, 548042, 548346, 548651, 548956, 549262, 549569, 549876, 550184, 550492, 550801, 551111, 551421, 551731,
  552043, 552354, 552667, 552980, 553293, 553608, 553922, 554238, 554554, 554870, 555188, 555505, 555824, 556143, 556463, 556783, 557104, 557425, 557747, 558070,
  558393, 558717, 559042, 559367, 559693, 560020, 560347, 560675, 561003, 561333, 561662, 561993, 562324, 562656, 562988, 563321, 563655, 563989, 564324, 564660,
  564996, 565333, 565671, 566010, 566349, 566688, 567029, 567370, 567712, 568054, 568398, 568742, 569086, 569432, 569778, 570124, 570472, 570820, 571169, 571519,
  571869, 572220, 572572, 572924, 573278, 573632, 573986, 574342, 574698, 575055, 575413, 575771, 576130, 576490, 576851, 577213, 577575, 577938, 578302, 578666,
  579032, 579398, 579765, 580132, 580501, 580870, 581240, 581611, 581983, 582355, 582728, 583102, 583477, 583853, 584230, 584607, 584985, 585364, 585744, 586125,
  586506, 586888, 587272, 587656, 588040, 588426, 588813, 589200, 589589, 589978, 590368, 590759, 591151, 591543, 591937, 592331, 592727, 593123, 593520, 593918,
  594317, 594717, 595118, 595519, 595922, 596326, 596730, 597135, 597542, 597949, 598357, 598767, 599177, 599588, 600000, 600413, 600827, 601242, 601658, 602074,
  602492, 602911, 603331, 603752, 604174, 604597, 605020, 605445, 605871, 606298, 606726, 607155, 607585, 608016, 608448, 608881, 609315, 609751, 610187, 610624,
  611063, 611502, 611943, 612385, 612827, 613271, 613716, 614162, 614609, 615058, 615507, 615958, 616409, 616862, 617316, 617771, 618227, 618684, 619143, 619603,
  620064, 620526, 620989, 621453, 621919, 622385, 622853, 623323, 623793, 624265, 624737, 625212, 625687, 626163, 626641, 627120, 627600, 628082, 628565, 629049,
  629534, 630021, 630509, 630998, 631489, 631981, 632474, 632968, 633464, 633961, 634460, 634960, 635461, 635964, 636468, 636973, 637480, 637988, 638497, 639008,
  639520, 640034, 640549, 641066, 641584, 642103, 642624, 643147, 643671, 644196, 644723, 645251, 645781, 646312, 646845, 647379, 647915, 648453, 648992, 649532,
  650074, 650618, 651163, 651710, 652258, 652808, 653360, 653913, 654468, 655024, 655582, 656142, 656703, 657266, 657831, 658398, 658966, 659535, 660107, 660680,
  661255, 661832, 662411, 662991, 663573, 664157, 664742, 665330, 665919, 666510, 667103, 667697, 668294, 668892, 669493, 670095, 670699, 671305, 671913, 672523,
  673134, 673748, 674364, 674981, 675601, 676222, 676846, 677471, 678099, 678729, 679360, 679994, 680630, 681268, 681908, 682550, 683194, 683841, 684489, 685140,
  685793, 686448, 687105, 687765, 688426, 689090, 689757, 690425, 691096, 691769, 692444, 693122, 693802, 694484, 695169, 695856, 696546, 697238, 697932, 698629,
  699328, 700030, 700734, 701441, 702151, 702862, 703577, 704294, 705013, 705735, 706460, 707188, 707918, 708651, 709386, 710124, 710865, 711609, 712355, 713105,
  713857, 714612, 715369, 716130, 716893, 717660, 718429, 719201, 719976, 720755, 721536, 722320, 723107, 723898, 724691, 725488, 726287, 727090, 727896, 728705,
  729518, 730333, 731152, 731975, 732800, 733629, 734462, 735297, 736136, 736979, 737825, 738675, 739528, 740384, 741245, 742109, 742976, 743847, 744722, 745601,
  746483, 747369, 748259, 749153, 750050, 750952, 751857, 752767, 753680, 754597, 755519, 756445, 757374, 758308, 759246, 760188, 761135, 762086, 763041, 764001,
  764965, 765933, 766906, 767883, 768865, 769852, 770843, 771839, 772840, 773845, 774855, 775870, 776890, 777915, 778945, 779980, 781020, 782065, 783115, 784170,
  785231, 786297, 787368, 788445, 789527, 790614, 791708, 792806, 793911, 795021, 796137, 797259, 798386, 799520, 800660, 801805, 802957, 804115, 805279, 806449,
  807626, 808809, 809999, 811195, 812398, 813608, 814824, 816048, 817278, 818515, 819759, 821010, 822269, 823534, 824808, 826088, 827376, 828672, 829975, 831286,
  832605, 833932, 835267, 836610, 837962, 839321, 840689, 842066, 843451, 844845, 846248, 847660, 849080, 850510, 851949, 853398, 854856, 856323, 857800, 859287,
  860784, 862292, 863809, 865336, 866875, 868423, 869983, 871553, 873135, 874727, 876331, 877947, 879574, 881213, 882864, 884527, 886202, 887890, 889591, 891304,
  893031, 894770, 896523, 898290, 900070, 901865, 903674, 905497, 907335, 909188, 911056, 912939, 914838, 916753, 918684, 920631, 922595, 924576, 926574, 928590,
  930623, 932675, 934745, 936834, 938942, 941069, 943216, 945384, 947571, 949780, 952010, 954262, 956536, 958832, 961151, 963494, 965860, 968251, 970667, 973109,
  975576, 978069, 980590, 983138, 985715, 988320, 990955, 993620, 996316, 999043, 1001800, 1004600, 1007420, 1010280, 1013180, 1016110, 1019080, 1022090, 1025140, 1028230,
  1031360, 1034540, 1037750, 1041020, 1044320, 1047680, 1051090, 1054540, 1058050, 1061610, 1065230, 1068910, 1072640, 1076440, 1080300, 1084220, 1088220, 1092280, 1096420, 1100630,
  1104930, 1109300, 1113760, 1118310, 1122950, 1127690, 1132540, 1137480, 1142540, 1147720, 1153020, 1158450, 1164010, 1169720, 1175590, 1181610, 1187810, 1194180, 1200760, 1207540,
  1214540, 1221790, 1229300, 1237090, 1245190, 1253620, 1262430, 1271650, 1281320, 1291510, 1302280, 1313710, 1325920, 1339040, 1353250, 1368810, 1386070, 1405600, 1428330, 1456111,
  1493707, 1521282, 1579619]

/-- `QNMData_fdamp` (phenom_d_data.py:2020-3026), times 10^8. -/
def tabDamp : List Int := [
  1400980, 1401020, 1401060, 1401140, 1401770, 1401540, 1401480, 1401500, 1401560, 1401640, 1401720, 1401810, 1401890, 1401980, 1402060, 1402140, 1402230, 1402310, 1402390, 1402470,
  1402560, 1402640, 1402720, 1402800, 1402880, 1402960, 1403050, 1403130, 1403210, 1403290, 1403370, 1403450, 1403530, 1403610, 1403690, 1403770, 1403850, 1403930, 1404010, 1404090,
  1404170, 1404250, 1404330, 1404400, 1404480, 1404560, 1404640, 1404720, 1404800, 1404870, 1404950, 1405030, 1405110, 1405190, 1405260, 1405340, 1405420, 1405490, 1405570, 1405650,
  1405720, 1405800, 1405870, 1405950, 1406030, 1406100, 1406180, 1406250, 1406330, 1406400, 1406480, 1406550, 1406630, 1406700, 1406770, 1406850, 1406920, 1407000, 1407070, 1407140,
  1407220, 1407290, 1407360, 1407440, 1407510, 1407580, 1407650, 1407720, 1407800, 1407870, 1407940, 1408010, 1408080, 1408150, 1408220, 1408290, 1408370, 1408440, 1408510, 1408580,
  1408650, 1408720, 1408790, 1408850, 1408920, 1408990, 1409060, 1409130, 1409200, 1409270, 1409340, 1409400, 1409470, 1409540, 1409610, 1409670, 1409740, 1409810, 1409880, 1409940,
  1410010, 1410070, 1410140, 1410210, 1410270, 1410340, 1410400, 1410470, 1410530, 1410600, 1410660, 1410730, 1410790, 1410860, 1410920, 1410980, 1411050, 1411110, 1411170, 1411240,
  1411300, 1411360, 1411420, 1411490, 1411550, 1411610, 1411670, 1411730, 1411800, 1411860, 1411920, 1411980, 1412040, 1412100, 1412160, 1412220, 1412280, 1412340, 1412400, 1412460,
  1412520, 1412570, 1412630, 1412690, 1412750, 1412810, 1412870, 1412920, 1412980, 1413040, 1413090, 1413150, 1413210, 1413260, 1413320, 1413380, 1413430, 1413490, 1413540, 1413600,
  1413650, 1413710, 1413760, 1413820, 1413870, 1413920, 1413980, 1414030, 1414080, 1414140, 1414190, 1414240, 1414290, 1414350, 1414400, 1414450, 1414500, 1414550, 1414600, 1414660,
  1414710, 1414760, 1414810, 1414860, 1414910, 1414960, 1415000, 1415050, 1415100, 1415150, 1415200, 1415250, 1415300, 1415340, 1415390, 1415440, 1415490, 1415530, 1415580, 1415620,
  1415670, 1415720, 1415760, 1415810, 1415850, 1415900, 1415940, 1415990, 1416030, 1416080, 1416120, 1416160, 1416210, 1416250, 1416290, 1416330, 1416380, 1416420, 1416460, 1416500,
  1416540, 1416580, 1416620, 1416670, 1416710, 1416750, 1416790, 1416830, 1416860, 1416900, 1416940, 1416980, 1417020, 1417060, 1417100, 1417130, 1417170, 1417210, 1417240, 1417280,
  1417320, 1417350, 1417390, 1417420, 1417460, 1417490, 1417530, 1417560, 1417600, 1417630, 1417660, 1417700, 1417730, 1417760, 1417800, 1417830, 1417860, 1417890, 1417920, 1417960,
  1417990, 1418020, 1418050, 1418080, 1418110, 1418140, 1418170, 1418190, 1418220, 1418250, 1418280, 1418310, 1418330, 1418360, 1418390, 1418420, 1418440, 1418470, 1418490, 1418520,
  1418540, 1418570, 1418590, 1418620, 1418640, 1418670, 1418690, 1418710, 1418740, 1418760, 1418780, 1418800, 1418820, 1418840, 1418870, 1418890, 1418910, 1418930, 1418950, 1418970,
  1418990, 1419000, 1419020, 1419040, 1419060, 1419080, 1419090, 1419110, 1419130, 1419140, 1419160, 1419170, 1419190, 1419200, 1419220, 1419230, 1419250, 1419260, 1419270, 1419290,
  1419300, 1419310, 1419320, 1419340, 1419350, 1419360, 1419370, 1419380, 1419390, 1419400, 1419410, 1419420, 1419420, 1419430, 1419440, 1419450, 1419460, 1419460, 1419470, 1419470,
  1419480, 1419490, 1419490, 1419490, 1419500, 1419500, 1419510, 1419510, 1419510, 1419510, 1419520, 1419520, 1419520, 1419520, 1419520, 1419520, 1419520, 1419520, 1419520, 1419520,
  1419520, 1419510, 1419510, 1419510, 1419500, 1419500, 1419500, 1419490, 1419490, 1419480, 1419480, 1419470, 1419460, 1419460, 1419450, 1419440, 1419430, 1419420, 1419410, 1419400,
  1419390, 1419380, 1419370, 1419360, 1419350, 1419340, 1419330, 1419310, 1419300, 1419290, 1419270, 1419260, 1419240, 1419230, 1419210, 1419190, 1419180, 1419160, 1419140, 1419120,
  1419110, 1419090, 1419070, 1419050, 1419030, 1419010, 1418980, 1418960, 1418940, 1418920, 1418890, 1418870, 1418850, 1418820, 1418800, 1418770, 1418740, 1418720, 1418690, 1418660,
  1418630, 1418600, 1418580, 1418550, 1418520, 1418480, 1418450, 1418420, 1418390, 1418360, 1418320, 1418290, 1418260, 1418220, 1418190, 1418150, 1418110, 1418080, 1418040, 1418000,
  1417960, 1417920, 1417880, 1417840, 1417800, 1417760, 1417720, 1417680, 1417630, 1417590, 1417550, 1417500, 1417460, 1417410, 1417360, 1417320, 1417270, 1417220, 1417170, 1417120,
  1417070, 1417020, 1416970, 1416920, 1416870, 1416810, 1416760, 1416710, 1416650, 1416590, 1416540, 1416480, 1416420, 1416370, 1416310, 1416250, 1416190, 1416130, 1416070, 1416000,
  1415940, 1415880, 1415820, 1415750, 1415690, 1415620, 1415550, 1415490, 1415420, 1415350, 1415280, 1415210, 1415140, 1415070, 1415000, 1414920, 1414850, 1414780, 1414700, 1414620,
  1414550, 1414470, 1414390, 1414310, 1414240, 1414160, 1414070, 1413990, 1413910, 1413830, 1413740, 1413660, 1413570, 1413490, 1413400, 1413310, 1413220, 1413130, 1413040, 1412950,
  1412860, 1412770, 1412670, 1412580, 1412480, 1412390, 1412290, 1412190, 1412100, 1412000, 1411900, 1411800, 1411690, 1411590, 1411490, 1411380, 1411280, 1411170, 1411060, 1410950,
  1410850, 1410740, 1410620, 1410510, 1410400, 1410290, 1410170, 1410060, 1409940, 1409820, 1409700, 1409580, 1409460, 1409340, 1409220, 1409100, 1408970, 1408850, 1408720, 1408590,
  1408460, 1408330, 1408200, 1408070, 1407940, 1407810, 1407670, 1407530, 1407400, 1407260, 1407120, 1406980, 1406840, 1406700, 1406550, 1406410, 1406260, 1406120, 1405970, 1405820,
  1405670, 1405520, 1405360, 1405210, 1405050, 1404900, 1404740, 1404580, 1404420, 1404260, 1404100, 1403930, 1403770, 1403600, 1403430, 1403270, 1403100, 1402920, 1402750, 1402580,
  1402400, 1402230, 1402050, 1401870, 1401690, 1401510, 1401320, 1401140, 1400950, 1400760, 1400570, 1400380, 1400190, 1400000, 1399800, 1399610, 1399410, 1399210, 1399010, 1398810,
  1398600, 1398400, 1398190, 1397980, 1397770, 1397560, 1397350, 1397130, 1396910, 1396700, 1396480, 1396250, 1396030, 1395810, 1395580, 1395350, 1395120, 1394890, 1394660, 1394420,
  1394190, 1393950, 1393710, 1393460, 1393220, 1392970, 1392730, 1392480, 1392230, 1391970, 1391720, 1391460, 1391200, 1390940, 1390680, 1390410, 1390140, 1389870, 1389600, 1389330,
  1389060, 1388780, 1388500, 1388220, 1387930, 1387650, 1387360, 1387070, 1386780, 1386480, 1386190, 1385890, 1385590, 1385280, 1384980, 1384670, 1384360, 1384050, 1383730, 1383410,
  1383090, 1382770, 1382440, 1382120, 1381790, 1381450, 1381120, 1380780, 1380440, 1380100, 1379750, 1379400, 1379050, 1378700, 1378340, 1377980, 1377620, 1377260, 1376890, 1376520,
  1376150, 1375770, 1375390, 1375010, 1374620, 1374240, 1373840, 1373450, 1373050, 1372650, 1372250, 1371840, 1371430, 1371020, 1370600, 1370180, 1369760, 1369330, 1368900, 1368470,
  1368030, 1367590, 1367150, 1366700, 1366250, 1365790, 1365330, 1364870, 1364410, 1363940, 1363460, 1362980, 1362500, 1362020, 1361530, 1361030, 1360540, 1360040, 1359530, 1359020,
  1358510, 1357990, 1357470, 1356940, 1356410, 1355870, 1355330, 1354790, 1354240, 1353680, 1353120, 1352560, 1351990, 1351420, 1350840, 1350260, 1349670, 1349070, 1348480, 1347870,
  1347260, 1346650, 1346030, 1345410, 1344780, 1344140, 1343500, 1342850, 1342200, 1341540, 1340880, 1340210, 1339530, 1338850, 1338160, 1337470, 1336760, 1336060, 1335340, 1334620,
  1333900, 1333160, 1332420, 1331680, 1330920, 1330160, 1329400, 1328620, 1327840, 1327050, 1326250, 1325450, 1324640, 1323820, 1322990, 1322160, 1321310, 1320460, 1319600, 1318740,
  1317860, 1316970, 1316080, 1315180, 1314270, 1313350, 1312420, 1311480, 1310540, 1309580, 1308610, 1307640, 1306650, 1305660, 1304650, 1303630, 1302610, 1301570, 1300520, 1299460,
  1298390, 1297310, 1296220, 1295120, 1294000, 1292880, 1291740, 1290590, 1289420, 1288250, 1287060, 1285860, 1284640, 1283420, 1282180, 1280920, 1279650, 1278370, 1277070, 1275760,
  1274430, 1273090, 1271740, 1270360, 1268980, 1267570, 1266150, 1264720, 1263260, 1261790, 1260310, 1258800, 1257280, 1255740, 1254180, 1252600, 1251000, 1249380, 1247740, 1246090,
  1244410, 1242710, 1240990, 1239250, 1237480, 1235700, 1233890, 1232050, 1230200, 1228320, 1226410, 1224480, 1222520, 1220540, 1218530, 1216500, 1214430, 1212340, 1210220, 1208070,
  1205890, 1203680, 1201440, 1199170, 1196860, 1194520, 1192150, 1189740, 1187300, 1184820, 1182300, 1179750, 1177160, 1174520, 1171850, 1169140, 1166380, 1163580, 1160740, 1157850,
  1154920, 1151930, 1148900, 1145820, 1142690, 1139500, 1136260, 1132960, 1129610, 1126200, 1122730, 1119200, 1115610, 1111950, 1108220, 1104420, 1100560, 1096620, 1092610, 1088520,
  1084350, 1080090, 1075760, 1071330, 1066820, 1062210, 1057510, 1052700, 1047800, 1042780, 1037660, 1032430, 1027070, 1021590, 1015990, 1010250, 1004380, 998358, 992191, 985869,
  979385, 972732, 965903, 958889, 951682, 944272, 936650, 928805, 920725, 912399, 903811, 894949, 885795, 876332, 866542, 856403, 845893, 834985, 823651, 811860,
  799576, 786760, 773366, 759343, 744631, 729164, 712861, 695629, 677358, 657914, 637134, 614819, 590712, 564485, 535699, 503750, 467763, 426389, 377349, 316180,
  231310, 167620, 29080]

end Verif.PhenomD
