import Verif.Props.PhenomDBounds
/-!
# IMRPhenomPv2: the final spin with in-plane spin on the physical domain (C72)

Each bound is a polynomial identity with nonnegative coefficients in the distances to the edges of a rectangle.
-/
namespace Verif.PhenomD

/-- The final spin is the spin combination plus `eta` times this. -/
noncomputable def spinG (eta s : ℝ) : ℝ :=
  3.4641016151377544 - 4.399247300629289 * eta + 9.397292189321194 * eta ^ 2 - 13.180949901606242 * eta ^ 3 + (-0.0850917821418767 - 5.837029316602263 * eta + (0.1014665242971878 - 2.0967746996832157 * eta) * s
    + ((-1.3546806617824356) + 4.108962025369336 * eta) * s ^ 2 + ((-0.8676969352555539) + 2.064046835273906 * eta) * s ^ 3) * s

theorem finalSpinOf_eq (eta s : ℝ) (h : eta ≠ 0) : finalSpinOf eta (eta * eta) s = s + eta * spinG eta s := by
  unfold finalSpinOf spinG; field_simp; ring

/-- The margin left by the final spin when the heavier body carries all the spin. -/
noncomputable def margin (eta s : ℝ) : ℝ := 4 - 4 * eta - 2 * s * spinG eta s - eta * spinG eta s ^ 2 - 16 * eta ^ 3

set_option maxHeartbeats 4000000 in
theorem margin_0 (eta s : ℝ) (h1 : 0 ≤ eta) (h2 : eta ≤ 1 / 4) (h3 : -1 ≤ s) (h4 : s ≤ 0) : 0.01 ≤ margin eta s := by
  obtain ⟨b, hb⟩ : ∃ b, b = 1 / 4 - eta := ⟨_, rfl⟩
  obtain ⟨t, ht⟩ : ∃ t, t = s - (-1) := ⟨_, rfl⟩
  obtain ⟨w, hw⟩ : ∃ w, w = 0 - s := ⟨_, rfl⟩
  have b0 : 0 ≤ b := by linarith
  have t0 : 0 ≤ t := by linarith
  have w0 : 0 ≤ w := by linarith
  have key : margin eta s - 0.01 =
      30663218240518503 / 152587890625 * b ^ 7 * w ^ 8 + 440422264616645607 / 305175781250 * b ^ 7 * t * w ^ 7 + 682110845289604114 / 152587890625 * b ^ 7 * t ^ 2 * w ^ 6
       + 480462166255010009 / 61035156250 * b ^ 7 * t ^ 3 * w ^ 5 + 2640319465452179291 / 305175781250 * b ^ 7 * t ^ 4 * w ^ 4 + 925390755675206452 / 152587890625 * b ^ 7 * t ^ 5 * w ^ 3
       + 32077521235242463 / 12207031250 * b ^ 7 * t ^ 6 * w ^ 2 + 97120508075688772 / 152587890625 * b ^ 7 * t ^ 7 * w + 1634304 / 25 * b ^ 7 * t ^ 8
       + 7922503339687574750955541714638991 / 6103515625000000000000000000 * eta * b ^ 6 * w ^ 8 + 56792412178005361088242953434999733 / 6103515625000000000000000000 * eta * b ^ 6 * t * w ^ 7
       + 701864762281665392495004034353897763 / 24414062500000000000000000000 * eta * b ^ 6 * t ^ 2 * w ^ 6 + 123058853464280376573409307564267083 / 2441406250000000000000000000 * eta * b ^ 6 * t ^ 3 * w ^ 5
       + 1343123681016226717622992767229800369 / 24414062500000000000000000000 * eta * b ^ 6 * t ^ 4 * w ^ 4 + 93234145842292873445005236014941967 / 2441406250000000000000000000 * eta * b ^ 6 * t ^ 5 * w ^ 3
       + 398810061592621390072209358130014767 / 24414062500000000000000000000 * eta * b ^ 6 * t ^ 6 * w ^ 2 + 5939760391790940179760281143268001 / 1525878906250000000000000000 * eta * b ^ 6 * t ^ 7 * w
       + 149562500000000002024928612070751 / 381469726562500000000000000 * eta * b ^ 6 * t ^ 8 + 17628184367156232928233967570654087 / 4882812500000000000000000000 * eta ^ 2 * b ^ 5 * w ^ 8
       + 1260502739360739677304739117103767561 / 48828125000000000000000000000 * eta ^ 2 * b ^ 5 * t * w ^ 7
       + 776346135220376854343233897127079209 / 9765625000000000000000000000 * eta ^ 2 * b ^ 5 * t ^ 2 * w ^ 6
       + 3385882504555243462333288335209772793 / 24414062500000000000000000000 * eta ^ 2 * b ^ 5 * t ^ 3 * w ^ 5
       + 7334995615322125836576454783456396879 / 48828125000000000000000000000 * eta ^ 2 * b ^ 5 * t ^ 4 * w ^ 4
       + 5039176620153947965266322895599104777 / 48828125000000000000000000000 * eta ^ 2 * b ^ 5 * t ^ 5 * w ^ 3
       + 265910849791994725155760086603471459 / 6103515625000000000000000000 * eta ^ 2 * b ^ 5 * t ^ 6 * w ^ 2
       + 249465444814364426750890331168599691 / 24414062500000000000000000000 * eta ^ 2 * b ^ 5 * t ^ 7 * w + 3084746497996877136031270518949933 / 3051757812500000000000000000 * eta ^ 2 * b ^ 5 * t ^ 8
       + 2180351064086251328627908686017282071 / 390625000000000000000000000000 * eta ^ 3 * b ^ 4 * w ^ 8 + 121359107833951293607605145828397383 / 3051757812500000000000000000 * eta ^ 3 * b ^ 4 * t * w ^ 7
       + 23810744128761038051318207133786272053 / 195312500000000000000000000000 * eta ^ 3 * b ^ 4 * t ^ 2 * w ^ 6
       + 20638320916580657859122580138725454941 / 97656250000000000000000000000 * eta ^ 3 * b ^ 4 * t ^ 3 * w ^ 5
       + 88622717511567068338120435458743372371 / 390625000000000000000000000000 * eta ^ 3 * b ^ 4 * t ^ 4 * w ^ 4
       + 3008515702153484025517379167490395217 / 19531250000000000000000000000 * eta ^ 3 * b ^ 4 * t ^ 5 * w ^ 3
       + 625838204862683331546735202954501773 / 9765625000000000000000000000 * eta ^ 3 * b ^ 4 * t ^ 6 * w ^ 2 + 72156562667089435380097800613635929 / 4882812500000000000000000000 * eta ^ 3 * b ^ 4 * t ^ 7 * w
       + 28033589301330106846148876137965947 / 19531250000000000000000000000 * eta ^ 3 * b ^ 4 * t ^ 8 + 1008117028684316199173220661503762457 / 195312500000000000000000000000 * eta ^ 4 * b ^ 3 * w ^ 8
       + 7144635960274021465180864272761945413 / 195312500000000000000000000000 * eta ^ 4 * b ^ 3 * t * w ^ 7
       + 1360226284717099686797888646213358087 / 12207031250000000000000000000 * eta ^ 4 * b ^ 3 * t ^ 2 * w ^ 6
       + 37414711809365227861952667031275914703 / 195312500000000000000000000000 * eta ^ 4 * b ^ 3 * t ^ 3 * w ^ 5
       + 39721659370849844315066819578337446727 / 195312500000000000000000000000 * eta ^ 4 * b ^ 3 * t ^ 4 * w ^ 4
       + 5317770347097031982529675718123822019 / 39062500000000000000000000000 * eta ^ 4 * b ^ 3 * t ^ 5 * w ^ 3
       + 1087380639898979476324373158672886347 / 19531250000000000000000000000 * eta ^ 4 * b ^ 3 * t ^ 6 * w ^ 2
       + 491731849643991603928701950402394113 / 39062500000000000000000000000 * eta ^ 4 * b ^ 3 * t ^ 7 * w + 23392084238871042682104111603902177 / 19531250000000000000000000000 * eta ^ 4 * b ^ 3 * t ^ 8
       + 2221994510035433808165139465564551877 / 781250000000000000000000000000 * eta ^ 5 * b ^ 2 * w ^ 8 + 1953623831678142659374855378444021901 / 97656250000000000000000000000 * eta ^ 5 * b ^ 2 * t * w ^ 7
       + 47177038464554301686240370113294509367 / 781250000000000000000000000000 * eta ^ 5 * b ^ 2 * t ^ 2 * w ^ 6
       + 40092478979094942762520199359575406989 / 390625000000000000000000000000 * eta ^ 5 * b ^ 2 * t ^ 3 * w ^ 5
       + 83902928408836339896653422957283800567 / 781250000000000000000000000000 * eta ^ 5 * b ^ 2 * t ^ 4 * w ^ 4
       + 2757836051062446808984031330092367741 / 39062500000000000000000000000 * eta ^ 5 * b ^ 2 * t ^ 5 * w ^ 3
       + 882954389546155407683703387073989553 / 31250000000000000000000000000 * eta ^ 5 * b ^ 2 * t ^ 6 * w ^ 2
       + 486908565624477760724756801966699833 / 78125000000000000000000000000 * eta ^ 5 * b ^ 2 * t ^ 7 * w + 22566909550215107100185204578721141 / 39062500000000000000000000000 * eta ^ 5 * b ^ 2 * t ^ 8
       + 673132675698710513267350838124767251 / 781250000000000000000000000000 * eta ^ 6 * b * w ^ 8 + 1171063972331178347723147498170740779 / 195312500000000000000000000000 * eta ^ 6 * b * t * w ^ 7
       + 6978470157462179603303082291823785837 / 390625000000000000000000000000 * eta ^ 6 * b * t ^ 2 * w ^ 6
       + 2918173024231741230534265435085861739 / 97656250000000000000000000000 * eta ^ 6 * b * t ^ 3 * w ^ 5
       + 1496715513117826027240656852305675291 / 48828125000000000000000000000 * eta ^ 6 * b * t ^ 4 * w ^ 4 + 30725024231731694896537255008282699 / 1562500000000000000000000000 * eta ^ 6 * b * t ^ 5 * w ^ 3
       + 2984901553789821696317455568730525387 / 390625000000000000000000000000 * eta ^ 6 * b * t ^ 6 * w ^ 2 + 19880116351812217196295142276958443 / 12207031250000000000000000000 * eta ^ 6 * b * t ^ 7 * w
       + 113619201855632287666799870207690893 / 781250000000000000000000000000 * eta ^ 6 * b * t ^ 8 + 689545348073921157351084874388997031 / 6250000000000000000000000000000 * eta ^ 7 * w ^ 8
       + 590887680907959099566882485505638639 / 781250000000000000000000000000 * eta ^ 7 * t * w ^ 7 + 3456066006426324647883919419324387759 / 1562500000000000000000000000000 * eta ^ 7 * t ^ 2 * w ^ 6
       + 2824427892728387705409075574898749859 / 781250000000000000000000000000 * eta ^ 7 * t ^ 3 * w ^ 5 + 11261643516958300142739385697252077169 / 3125000000000000000000000000000 * eta ^ 7 * t ^ 4 * w ^ 4
       + 1742868859391191279556914861874261197 / 781250000000000000000000000000 * eta ^ 7 * t ^ 5 * w ^ 3 + 1295880461660953803781131884416384219 / 1562500000000000000000000000000 * eta ^ 7 * t ^ 6 * w ^ 2
       + 130736812225024422700806575382933217 / 781250000000000000000000000000 * eta ^ 7 * t ^ 7 * w + 87585435719415889221921148224500559 / 6250000000000000000000000000000 * eta ^ 7 * t ^ 8 := by
    unfold margin spinG; rw [hb, ht, hw]; ring
  have : 0 ≤ margin eta s - 0.01 := by rw [key]; positivity
  linarith

set_option maxHeartbeats 4000000 in
theorem margin_1 (eta s : ℝ) (h1 : 0 ≤ eta) (h2 : eta ≤ 1 / 4) (h3 : 0 ≤ s) (h4 : s ≤ 1/2) : 0.01 ≤ margin eta s := by
  obtain ⟨b, hb⟩ : ∃ b, b = 1 / 4 - eta := ⟨_, rfl⟩
  obtain ⟨t, ht⟩ : ∃ t, t = s - 0 := ⟨_, rfl⟩
  obtain ⟨w, hw⟩ : ∃ w, w = 1/2 - s := ⟨_, rfl⟩
  have b0 : 0 ≤ b := by linarith
  have t0 : 0 ≤ t := by linarith
  have w0 : 0 ≤ w := by linarith
  have key : margin eta s - 0.01 =
      418381824 / 25 * b ^ 7 * w ^ 8 + 18211774966311837184 / 152587890625 * b ^ 7 * t * w ^ 7 + 56008854134468260832 / 152587890625 * b ^ 7 * t ^ 2 * w ^ 6
       + 19318243174074686816 / 30517578125 * b ^ 7 * t ^ 3 * w ^ 5 + 101591765608700154208 / 152587890625 * b ^ 7 * t ^ 4 * w ^ 4 + 66256170476927413388 / 152587890625 * b ^ 7 * t ^ 5 * w ^ 3
       + 1037749550313612964 / 6103515625 * b ^ 7 * t ^ 6 * w ^ 2 + 5529449210458559172 / 152587890625 * b ^ 7 * t ^ 7 * w + 490652023062504684 / 152587890625 * b ^ 7 * t ^ 8
       + 149562500000000002024928612070751 / 1490116119384765625000000 * eta * b ^ 6 * w ^ 8 + 1683647921641812002926573123104819 / 2384185791015625000000000 * eta * b ^ 6 * t * w ^ 7
       + 815194569950865522330803549469038559 / 381469726562500000000000000 * eta * b ^ 6 * t ^ 2 * w ^ 6 + 68931705636711334480072946045271097 / 19073486328125000000000000 * eta * b ^ 6 * t ^ 3 * w ^ 5
       + 176919468618661518045347330455076457 / 47683715820312500000000000 * eta * b ^ 6 * t ^ 4 * w ^ 4 + 716184226786683659383843584500050703 / 305175781250000000000000000 * eta * b ^ 6 * t ^ 5 * w ^ 3
       + 673923164658777967123064372462600993 / 762939453125000000000000000 * eta * b ^ 6 * t ^ 6 * w ^ 2 + 1706578680612439439393769931954329 / 9536743164062500000000000 * eta * b ^ 6 * t ^ 7 * w
       + 365448529417069922423608856279878759 / 24414062500000000000000000000 * eta * b ^ 6 * t ^ 8 + 3084746497996877136031270518949933 / 11920928955078125000000000 * eta ^ 2 * b ^ 5 * w ^ 8
       + 68561176560207196673422721693957489 / 38146972656250000000000000 * eta ^ 2 * b ^ 5 * t * w ^ 7 + 2043717998028030245093384758076357253 / 381469726562500000000000000 * eta ^ 2 * b ^ 5 * t ^ 2 * w ^ 6
       + 13580234889603990820195080788006881257 / 1525878906250000000000000000 * eta ^ 2 * b ^ 5 * t ^ 3 * w ^ 5
       + 13644787843747568373688320225851753357 / 1525878906250000000000000000 * eta ^ 2 * b ^ 5 * t ^ 4 * w ^ 4
       + 16811885540367342154716842039052627083 / 3051757812500000000000000000 * eta ^ 2 * b ^ 5 * t ^ 5 * w ^ 3
       + 24510579856517833208064379150657280917 / 12207031250000000000000000000 * eta ^ 2 * b ^ 5 * t ^ 6 * w ^ 2
       + 2394159806346254038409931454991350463 / 6103515625000000000000000000 * eta ^ 2 * b ^ 5 * t ^ 7 * w + 78099467540470035590481098022521261 / 2441406250000000000000000000 * eta ^ 2 * b ^ 5 * t ^ 8
       + 28033589301330106846148876137965947 / 76293945312500000000000000 * eta ^ 3 * b ^ 4 * w ^ 8 + 96044973140891205696795456214159753 / 38146972656250000000000000 * eta ^ 3 * b ^ 4 * t * w ^ 7
       + 1127494824812520508197385970565502077 / 152587890625000000000000000 * eta ^ 3 * b ^ 4 * t ^ 2 * w ^ 6
       + 7358085320194624314188251595567418151 / 610351562500000000000000000 * eta ^ 3 * b ^ 4 * t ^ 3 * w ^ 5
       + 289567202262884652653165608820396538871 / 24414062500000000000000000000 * eta ^ 3 * b ^ 4 * t ^ 4 * w ^ 4
       + 43526192373036104892606217227591124151 / 6103515625000000000000000000 * eta ^ 3 * b ^ 4 * t ^ 5 * w ^ 3
       + 30907249843155997263862684404842102323 / 12207031250000000000000000000 * eta ^ 3 * b ^ 4 * t ^ 6 * w ^ 2
       + 2960473164319693747310243650687192031 / 6103515625000000000000000000 * eta ^ 3 * b ^ 4 * t ^ 7 * w + 986527039765732265476998367751874121 / 24414062500000000000000000000 * eta ^ 3 * b ^ 4 * t ^ 8
       + 23392084238871042682104111603902177 / 76293945312500000000000000 * eta ^ 4 * b ^ 3 * w ^ 8 + 631088193821818444812295406584910383 / 305175781250000000000000000 * eta ^ 4 * b ^ 3 * t * w ^ 7
       + 3638002893665140781926477607262193529 / 610351562500000000000000000 * eta ^ 4 * b ^ 3 * t ^ 2 * w ^ 6
       + 2907068961224462273326480714561945591 / 305175781250000000000000000 * eta ^ 4 * b ^ 3 * t ^ 3 * w ^ 5
       + 111750933978322530175431317217388615727 / 12207031250000000000000000000 * eta ^ 4 * b ^ 3 * t ^ 4 * w ^ 4
       + 16374981802956023302935938961463938207 / 3051757812500000000000000000 * eta ^ 4 * b ^ 3 * t ^ 5 * w ^ 3
       + 5683732353787316012570820422999286673 / 3051757812500000000000000000 * eta ^ 4 * b ^ 3 * t ^ 6 * w ^ 2
       + 544449565524256809824740255176522281 / 1525878906250000000000000000 * eta ^ 4 * b ^ 3 * t ^ 7 * w + 392796783065518062114764549097806407 / 12207031250000000000000000000 * eta ^ 4 * b ^ 3 * t ^ 8
       + 22566909550215107100185204578721141 / 152587890625000000000000000 * eta ^ 5 * b ^ 2 * w ^ 8 + 119260618557169476016826603562382987 / 122070312500000000000000000 * eta ^ 5 * b ^ 2 * t * w ^ 7
       + 6712057018119539044965417468119464907 / 2441406250000000000000000000 * eta ^ 5 * b ^ 2 * t ^ 2 * w ^ 6
       + 208677820085525736435592256649825127 / 48828125000000000000000000 * eta ^ 5 * b ^ 2 * t ^ 3 * w ^ 5
       + 24290596956431888055749171993244023399 / 6103515625000000000000000000 * eta ^ 5 * b ^ 2 * t ^ 4 * w ^ 4
       + 6886931801285592894784060952801790423 / 3051757812500000000000000000 * eta ^ 5 * b ^ 2 * t ^ 5 * w ^ 3
       + 9341656787998788690884445879020963063 / 12207031250000000000000000000 * eta ^ 5 * b ^ 2 * t ^ 6 * w ^ 2
       + 919375230668969883089439977280360161 / 6103515625000000000000000000 * eta ^ 5 * b ^ 2 * t ^ 7 * w + 386618351951683988160677703377801111 / 24414062500000000000000000000 * eta ^ 5 * b ^ 2 * t ^ 8
       + 113619201855632287666799870207690893 / 3051757812500000000000000000 * eta ^ 6 * b * w ^ 8 + 36363334950479825086007694481481027 / 152587890625000000000000000 * eta ^ 6 * b * t * w ^ 7
       + 3941482799181679986423903604783504209 / 6103515625000000000000000000 * eta ^ 6 * b * t ^ 2 * w ^ 6 + 585407240869079334124378393552421703 / 610351562500000000000000000 * eta ^ 6 * b * t ^ 3 * w ^ 5
       + 10326155889745384439089789949793286829 / 12207031250000000000000000000 * eta ^ 6 * b * t ^ 4 * w ^ 4 + 345104452878791496395543359946613273 / 762939453125000000000000000 * eta ^ 6 * b * t ^ 5 * w ^ 3
       + 361892237945490080565625296369449937 / 2441406250000000000000000000 * eta ^ 6 * b * t ^ 6 * w ^ 2 + 193852178973553554437684784268386919 / 6103515625000000000000000000 * eta ^ 6 * b * t ^ 7 * w
       + 6684060006250693087781677024632323 / 1525878906250000000000000000 * eta ^ 6 * b * t ^ 8 + 87585435719415889221921148224500559 / 24414062500000000000000000000 * eta ^ 7 * w ^ 8
       + 6600974746661162248247843464528423 / 305175781250000000000000000 * eta ^ 7 * t * w ^ 7 + 661408399266564535664144028238362161 / 12207031250000000000000000000 * eta ^ 7 * t ^ 2 * w ^ 6
       + 441111283999345031740981591232356103 / 6103515625000000000000000000 * eta ^ 7 * t ^ 3 * w ^ 5 + 1337099581987009815665962880773958623 / 24414062500000000000000000000 * eta ^ 7 * t ^ 4 * w ^ 4
       + 145874591386188362080849041241093357 / 6103515625000000000000000000 * eta ^ 7 * t ^ 5 * w ^ 3 + 8359027029953297040177806506777167 / 1220703125000000000000000000 * eta ^ 7 * t ^ 6 * w ^ 2
       + 1594718406336769675827091297558963 / 762939453125000000000000000 * eta ^ 7 * t ^ 7 * w + 193089768583329029897342356591759 / 381469726562500000000000000 * eta ^ 7 * t ^ 8 := by
    unfold margin spinG; rw [hb, ht, hw]; ring
  have : 0 ≤ margin eta s - 0.01 := by rw [key]; positivity
  linarith

set_option maxHeartbeats 4000000 in
theorem margin_2 (eta s : ℝ) (h1 : 0 ≤ eta) (h2 : eta ≤ 1 / 4) (h3 : 1/2 ≤ s) (h4 : s ≤ 3/4) : 0.01 ≤ margin eta s := by
  obtain ⟨b, hb⟩ : ∃ b, b = 1 / 4 - eta := ⟨_, rfl⟩
  obtain ⟨t, ht⟩ : ∃ t, t = s - 1/2 := ⟨_, rfl⟩
  obtain ⟨w, hw⟩ : ∃ w, w = 3/4 - s := ⟨_, rfl⟩
  have b0 : 0 ≤ b := by linarith
  have t0 : 0 ≤ t := by linarith
  have w0 : 0 ≤ w := by linarith
  have key : margin eta s - 0.01 =
      125606917904001199104 / 152587890625 * b ^ 7 * w ^ 8 + 799513515909318815232 / 152587890625 * b ^ 7 * t * w ^ 7 + 2142055369597552758784 / 152587890625 * b ^ 7 * t ^ 2 * w ^ 6
       + 3120994728257210211584 / 152587890625 * b ^ 7 * t ^ 3 * w ^ 5 + 2669142522308733562048 / 152587890625 * b ^ 7 * t ^ 4 * w ^ 4 + 1359022207431077701984 / 152587890625 * b ^ 7 * t ^ 5 * w ^ 3
       + 414118359833304012704 / 152587890625 * b ^ 7 * t ^ 6 * w ^ 2 + 16671898954870509728 / 30517578125 * b ^ 7 * t ^ 7 * w + 478671069134709792 / 6103515625 * b ^ 7 * t ^ 8
       + 365448529417069922423608856279878759 / 95367431640625000000000000 * eta * b ^ 6 * w ^ 8 + 550240410455229146664820190614250997 / 23841857910156250000000000 * eta * b ^ 6 * t * w ^ 7
       + 5478225203114442784219605039866988001 / 95367431640625000000000000 * eta * b ^ 6 * t ^ 2 * w ^ 6 + 7216519043951055082549067324606031997 / 95367431640625000000000000 * eta * b ^ 6 * t ^ 3 * w ^ 5
       + 43023892385914046155348808277187219437 / 762939453125000000000000000 * eta * b ^ 6 * t ^ 4 * w ^ 4 + 1874616007806845301381095830906871179 / 76293945312500000000000000 * eta * b ^ 6 * t ^ 5 * w ^ 3
       + 94879238739466382162630094006074589 / 12207031250000000000000000 * eta * b ^ 6 * t ^ 6 * w ^ 2 + 34333264845620565030280812347955363 / 12207031250000000000000000 * eta * b ^ 6 * t ^ 7 * w
       + 27064196961615575095479892141486471 / 39062500000000000000000000 * eta * b ^ 6 * t ^ 8 + 78099467540470035590481098022521261 / 9536743164062500000000000 * eta ^ 2 * b ^ 5 * w ^ 8
       + 2291808246081948097018934426359925197 / 47683715820312500000000000 * eta ^ 2 * b ^ 5 * t * w ^ 7
       + 22361197090967408438853441549397350331 / 190734863281250000000000000 * eta ^ 2 * b ^ 5 * t ^ 2 * w ^ 6
       + 742280788286513395892180845239385079 / 4768371582031250000000000 * eta ^ 2 * b ^ 5 * t ^ 3 * w ^ 5
       + 98531321735752877190555903807214699951 / 762939453125000000000000000 * eta ^ 2 * b ^ 5 * t ^ 4 * w ^ 4
       + 61846875670321108880621131162544345373 / 762939453125000000000000000 * eta ^ 2 * b ^ 5 * t ^ 5 * w ^ 3
       + 141725228067300103279068533498461568613 / 3051757812500000000000000000 * eta ^ 2 * b ^ 5 * t ^ 6 * w ^ 2
       + 6236876612195454299355627564825976723 / 305175781250000000000000000 * eta ^ 2 * b ^ 5 * t ^ 7 * w + 128701577033082701976133125050733901 / 30517578125000000000000000 * eta ^ 2 * b ^ 5 * t ^ 8
       + 986527039765732265476998367751874121 / 95367431640625000000000000 * eta ^ 3 * b ^ 4 * w ^ 8 + 591737814854939969110349311164810539 / 9536743164062500000000000 * eta ^ 3 * b ^ 4 * t * w ^ 7
       + 30869783952211125326934245412716176267 / 190734863281250000000000000 * eta ^ 3 * b ^ 4 * t ^ 2 * w ^ 6
       + 9603369838078509718165455089263384127 / 38146972656250000000000000 * eta ^ 3 * b ^ 4 * t ^ 3 * w ^ 5
       + 425972871876097200761577110027837105911 / 1525878906250000000000000000 * eta ^ 3 * b ^ 4 * t ^ 4 * w ^ 4
       + 1162152913139168307838670292021051503 / 4768371582031250000000000 * eta ^ 3 * b ^ 4 * t ^ 5 * w ^ 3
       + 243064610122582017866539959969952069971 / 1525878906250000000000000000 * eta ^ 3 * b ^ 4 * t ^ 6 * w ^ 2
       + 4947873147270366159578133308360059253 / 76293945312500000000000000 * eta ^ 3 * b ^ 4 * t ^ 7 * w + 143032068262022602031692152468148073243 / 12207031250000000000000000000 * eta ^ 3 * b ^ 4 * t ^ 8
       + 392796783065518062114764549097806407 / 47683715820312500000000000 * eta ^ 4 * b ^ 3 * w ^ 8 + 31697039183614868825977669605844847 / 596046447753906250000000 * eta ^ 4 * b ^ 3 * t * w ^ 7
       + 472690495931010494572618518671697157 / 2980232238769531250000000 * eta ^ 4 * b ^ 3 * t ^ 2 * w ^ 6
       + 5721489759162483657793602350953724307 / 19073486328125000000000000 * eta ^ 4 * b ^ 3 * t ^ 3 * w ^ 5
       + 309586541464217708703196672199221010057 / 762939453125000000000000000 * eta ^ 4 * b ^ 3 * t ^ 4 * w ^ 4
       + 30182968113637570585037883114852563881 / 76293945312500000000000000 * eta ^ 4 * b ^ 3 * t ^ 5 * w ^ 3
       + 394941715923429180119519300447743727219 / 1525878906250000000000000000 * eta ^ 4 * b ^ 3 * t ^ 6 * w ^ 2
       + 15165080776856785120604913685206783683 / 152587890625000000000000000 * eta ^ 4 * b ^ 3 * t ^ 7 * w + 101887585826028943129929543120226291201 / 6103515625000000000000000000 * eta ^ 4 * b ^ 3 * t ^ 8
       + 386618351951683988160677703377801111 / 95367431640625000000000000 * eta ^ 5 * b ^ 2 * w ^ 8 + 280066976208226809174925248597289301 / 9536743164062500000000000 * eta ^ 5 * b ^ 2 * t * w ^ 7
       + 19441809445814236109373357458848776287 / 190734863281250000000000000 * eta ^ 5 * b ^ 2 * t ^ 2 * w ^ 6
       + 34144692744575321639379125741124669 / 152587890625000000000000 * eta ^ 5 * b ^ 2 * t ^ 3 * w ^ 5
       + 127466397017117851545167306251198040159 / 381469726562500000000000000 * eta ^ 5 * b ^ 2 * t ^ 4 * w ^ 4
       + 25684889888785747425627365897049621397 / 76293945312500000000000000 * eta ^ 5 * b ^ 2 * t ^ 5 * w ^ 3
       + 331164804517138393840261615841932058141 / 1525878906250000000000000000 * eta ^ 5 * b ^ 2 * t ^ 6 * w ^ 2
       + 4899291231852566462269807709410470719 / 61035156250000000000000000 * eta ^ 5 * b ^ 2 * t ^ 7 * w + 314990973219716966660150593743387763151 / 24414062500000000000000000000 * eta ^ 5 * b ^ 2 * t ^ 8
       + 6684060006250693087781677024632323 / 5960464477539062500000000 * eta ^ 6 * b * w ^ 8 + 447817581626512981989356210096316089 / 47683715820312500000000000 * eta ^ 6 * b * t * w ^ 7
       + 1428546929087919676282645284846752451 / 38146972656250000000000000 * eta ^ 6 * b * t ^ 2 * w ^ 6 + 8655724088159645830234974937651751397 / 95367431640625000000000000 * eta ^ 6 * b * t ^ 3 * w ^ 5
       + 54293345717778225130254543091027851577 / 381469726562500000000000000 * eta ^ 6 * b * t ^ 4 * w ^ 4 + 22087600990735328795078753420868210501 / 152587890625000000000000000 * eta ^ 6 * b * t ^ 5 * w ^ 3
       + 280791113547278416420120537305210539853 / 3051757812500000000000000000 * eta ^ 6 * b * t ^ 6 * w ^ 2 + 2025103851362036770246415093780669483 / 61035156250000000000000000 * eta ^ 6 * b * t ^ 7 * w
       + 31613644550492023690823655089758253621 / 6103515625000000000000000000 * eta ^ 6 * b * t ^ 8 + 193089768583329029897342356591759 / 1490116119384765625000000 * eta ^ 7 * w ^ 8
       + 7673590485663023759245341818845469 / 5960464477539062500000000 * eta ^ 7 * t * w ^ 7 + 552420389813171828208022076321952339 / 95367431640625000000000000 * eta ^ 7 * t ^ 2 * w ^ 6
       + 573290258499261702592219558625506669 / 38146972656250000000000000 * eta ^ 7 * t ^ 3 * w ^ 5 + 36998127695584133471431451496441172903 / 1525878906250000000000000000 * eta ^ 7 * t ^ 4 * w ^ 4
       + 1180230181029485038136918555941418203 / 47683715820312500000000000 * eta ^ 7 * t ^ 5 * w ^ 3 + 4753057202806708107434465953904230103 / 305175781250000000000000000 * eta ^ 7 * t ^ 6 * w ^ 2
       + 842599026166858918776578628406703291 / 152587890625000000000000000 * eta ^ 7 * t ^ 7 * w + 5158163664955779278162912757758060919 / 6103515625000000000000000000 * eta ^ 7 * t ^ 8 := by
    unfold margin spinG; rw [hb, ht, hw]; ring
  have : 0 ≤ margin eta s - 0.01 := by rw [key]; positivity
  linarith

set_option maxHeartbeats 4000000 in
theorem margin_3 (eta s : ℝ) (h1 : 0 ≤ eta) (h2 : eta ≤ 1 / 4) (h3 : 3/4 ≤ s) (h4 : s ≤ 1) : 0.01 ≤ margin eta s := by
  obtain ⟨b, hb⟩ : ∃ b, b = 1 / 4 - eta := ⟨_, rfl⟩
  obtain ⟨t, ht⟩ : ∃ t, t = s - 3/4 := ⟨_, rfl⟩
  obtain ⟨w, hw⟩ : ∃ w, w = 1 - s := ⟨_, rfl⟩
  have b0 : 0 ≤ b := by linarith
  have t0 : 0 ≤ t := by linarith
  have w0 : 0 ≤ w := by linarith
  have key : margin eta s - 0.01 =
      478671069134709792 / 6103515625 * b ^ 7 * w ^ 8 + 21621786575906273632 / 30517578125 * b ^ 7 * t * w ^ 7 + 587364426569555749344 / 152587890625 * b ^ 7 * t ^ 2 * w ^ 6
       + 1969316523831706035104 / 152587890625 * b ^ 7 * t ^ 3 * w ^ 5 + 3988153436949357861248 / 152587890625 * b ^ 7 * t ^ 4 * w ^ 4 + 978668309979152736256 / 30517578125 * b ^ 7 * t ^ 5 * w ^ 3
       + 3569020709840729864192 / 152587890625 * b ^ 7 * t ^ 6 * w ^ 2 + 285441228344125366272 / 30517578125 * b ^ 7 * t ^ 7 * w + 48293559647923339264 / 30517578125 * b ^ 7 * t ^ 8
       + 27064196961615575095479892141486471 / 39062500000000000000000000 * eta * b ^ 6 * w ^ 8 + 394483281103348868934057220154207 / 47683715820312500000000 * eta * b ^ 6 * t * w ^ 7
       + 70182553069665450010061868260840749 / 1525878906250000000000000 * eta * b ^ 6 * t ^ 2 * w ^ 6 + 5448767597557982464231820180336409773 / 38146972656250000000000000 * eta * b ^ 6 * t ^ 3 * w ^ 5
       + 791236760215661196526603524277646527 / 2980232238769531250000000 * eta * b ^ 6 * t ^ 4 * w ^ 4 + 180459058646449204639240881322059139 / 596046447753906250000000 * eta * b ^ 6 * t ^ 5 * w ^ 3
       + 248049765256567022569296654834160571 / 1192092895507812500000000 * eta * b ^ 6 * t ^ 6 * w ^ 2 + 295336053115718024202266002530649 / 3725290298461914062500 * eta * b ^ 6 * t ^ 7 * w
       + 12000935461925859050330854058556 / 931322574615478515625 * eta * b ^ 6 * t ^ 8 + 128701577033082701976133125050733901 / 30517578125000000000000000 * eta ^ 2 * b ^ 5 * w ^ 8
       + 14355375713097778016825672443291447437 / 305175781250000000000000000 * eta ^ 2 * b ^ 5 * t * w ^ 7
       + 710020165130462763501971674991044518593 / 3051757812500000000000000000 * eta ^ 2 * b ^ 5 * t ^ 2 * w ^ 6
       + 123760595685265015056148420321901234959 / 190734863281250000000000000 * eta ^ 2 * b ^ 5 * t ^ 3 * w ^ 5
       + 210942878607885245838290200175265074329 / 190734863281250000000000000 * eta ^ 2 * b ^ 5 * t ^ 4 * w ^ 4
       + 56176446102988104972029987510788516823 / 47683715820312500000000000 * eta ^ 2 * b ^ 5 * t ^ 5 * w ^ 3
       + 1143063527876845973007798938301400159 / 1490116119384765625000000 * eta ^ 2 * b ^ 5 * t ^ 6 * w ^ 2 + 166760049644436185711295356684493319 / 596046447753906250000000 * eta ^ 2 * b ^ 5 * t ^ 7 * w
       + 816996838015448540279837606250353 / 18626451492309570312500 * eta ^ 2 * b ^ 5 * t ^ 8 + 143032068262022602031692152468148073243 / 12207031250000000000000000000 * eta ^ 3 * b ^ 4 * w ^ 8
       + 93553336789318940435910819384547480713 / 762939453125000000000000000 * eta ^ 3 * b ^ 4 * t * w ^ 7
       + 860109084555195921628352768183208504533 / 1525878906250000000000000000 * eta ^ 3 * b ^ 4 * t ^ 2 * w ^ 6
       + 112112766226275046078680080318204045763 / 76293945312500000000000000 * eta ^ 3 * b ^ 4 * t ^ 3 * w ^ 5
       + 3607360089154793478469584592481994931791 / 1525878906250000000000000000 * eta ^ 3 * b ^ 4 * t ^ 4 * w ^ 4
       + 915358138545591900875340408301884553 / 381469726562500000000000 * eta ^ 3 * b ^ 4 * t ^ 5 * w ^ 3
       + 71551827498171773943818024628192441371 / 47683715820312500000000000 * eta ^ 3 * b ^ 4 * t ^ 6 * w ^ 2 + 197051103276572850341192127190823337 / 372529029846191406250000 * eta ^ 3 * b ^ 4 * t ^ 7 * w
       + 480113925228947682231271237342463951 / 5960464477539062500000000 * eta ^ 3 * b ^ 4 * t ^ 8 + 101887585826028943129929543120226291201 / 6103515625000000000000000000 * eta ^ 4 * b ^ 3 * w ^ 8
       + 127949767767773960656834517814418663987 / 762939453125000000000000000 * eta ^ 4 * b ^ 3 * t * w ^ 7
       + 1124682810292289670872858591885130165227 / 1525878906250000000000000000 * eta ^ 4 * b ^ 3 * t ^ 2 * w ^ 6
       + 14041914943819704394887276384837598849 / 7629394531250000000000000 * eta ^ 4 * b ^ 3 * t ^ 3 * w ^ 5
       + 2172690135847888923128244251688460050467 / 762939453125000000000000000 * eta ^ 4 * b ^ 3 * t ^ 4 * w ^ 4
       + 6658049436243854444595873168080583281 / 2384185791015625000000000 * eta ^ 4 * b ^ 3 * t ^ 5 * w ^ 3
       + 80794215912106126237535196738466068469 / 47683715820312500000000000 * eta ^ 4 * b ^ 3 * t ^ 6 * w ^ 2 + 6934021616358642359781180368261526111 / 11920928955078125000000000 * eta ^ 4 * b ^ 3 * t ^ 7 * w
       + 257888667883329763992126576119699047 / 2980232238769531250000000 * eta ^ 4 * b ^ 3 * t ^ 8 + 314990973219716966660150593743387763151 / 24414062500000000000000000000 * eta ^ 5 * b ^ 2 * w ^ 8
       + 24063586552925350637925675126015749397 / 190734863281250000000000000 * eta ^ 5 * b ^ 2 * t * w ^ 7
       + 205337421476689724666720768437995412137 / 381469726562500000000000000 * eta ^ 5 * b ^ 2 * t ^ 2 * w ^ 6
       + 24893943996145390916102656340188264101 / 19073486328125000000000000 * eta ^ 5 * b ^ 2 * t ^ 3 * w ^ 5
       + 1498552691875923990896390296137319878633 / 762939453125000000000000000 * eta ^ 5 * b ^ 2 * t ^ 4 * w ^ 4
       + 35810579293599161264388586590117027337 / 19073486328125000000000000 * eta ^ 5 * b ^ 2 * t ^ 5 * w ^ 3
       + 212281574009563834913925007908267879739 / 190734863281250000000000000 * eta ^ 5 * b ^ 2 * t ^ 6 * w ^ 2
       + 4459703198916428845641531020914758829 / 11920928955078125000000000 * eta ^ 5 * b ^ 2 * t ^ 7 * w + 650921428917221318665420411916922417 / 11920928955078125000000000 * eta ^ 5 * b ^ 2 * t ^ 8
       + 31613644550492023690823655089758253621 / 6103515625000000000000000000 * eta ^ 6 * b * w ^ 8 + 75826981917917175507134243014516277409 / 1525878906250000000000000000 * eta ^ 6 * b * t * w ^ 7
       + 633582512421406003933754656685204104529 / 3051757812500000000000000000 * eta ^ 6 * b * t ^ 2 * w ^ 6 + 9398509664639333080308917034201245317 / 19073486328125000000000000 * eta ^ 6 * b * t ^ 3 * w ^ 5
       + 554120102409720877661238359050615592339 / 762939453125000000000000000 * eta ^ 6 * b * t ^ 4 * w ^ 4 + 3245634389370007801567854885194834613 / 4768371582031250000000000 * eta ^ 6 * b * t ^ 5 * w ^ 3
       + 37773402651891012972116874921570150293 / 95367431640625000000000000 * eta ^ 6 * b * t ^ 6 * w ^ 2 + 1560019926660865065692231810274102761 / 11920928955078125000000000 * eta ^ 6 * b * t ^ 7 * w
       + 224093662464985932011189437416220003 / 11920928955078125000000000 * eta ^ 6 * b * t ^ 8 + 5158163664955779278162912757758060919 / 6103515625000000000000000000 * eta ^ 7 * w ^ 8
       + 6103332199077263962442932373482605383 / 762939453125000000000000000 * eta ^ 7 * t * w ^ 7 + 50230004969435111697012879009808395507 / 1525878906250000000000000000 * eta ^ 7 * t ^ 2 * w ^ 6
       + 29336803717586188151901686112850120543 / 381469726562500000000000000 * eta ^ 7 * t ^ 3 * w ^ 5 + 170250183528574578809152712399944221363 / 1525878906250000000000000000 * eta ^ 7 * t ^ 4 * w ^ 4
       + 9819207319881713016764027346434422571 / 95367431640625000000000000 * eta ^ 7 * t ^ 5 * w ^ 3 + 11259421860334044709096833640403560831 / 190734863281250000000000000 * eta ^ 7 * t ^ 6 * w ^ 2
       + 114621641495584145944128470261398407 / 5960464477539062500000000 * eta ^ 7 * t ^ 7 * w + 259951971221226348488619858167483911 / 95367431640625000000000000 * eta ^ 7 * t ^ 8 := by
    unfold margin spinG; rw [hb, ht, hw]; ring
  have : 0 ≤ margin eta s - 0.01 := by rw [key]; positivity
  linarith

theorem margin_pos (eta s : ℝ) (h1 : 0 ≤ eta) (h2 : eta ≤ 1 / 4) (h3 : -1 ≤ s) (h4 : s ≤ 1) : 0.01 ≤ margin eta s := by
  rcases le_total s 0 with a | a
  · exact margin_0 eta s h1 h2 h3 a
  rcases le_total s (1 / 2) with c | c
  · exact margin_1 eta s h1 h2 a c
  rcases le_total s (3 / 4) with d | d
  · exact margin_2 eta s h1 h2 c d
  · exact margin_3 eta s h1 h2 d h4

/-- The final spin stays below 1 by a margin. -/
theorem finalSpin_upper2 (eta u : ℝ) (h1 : 0 < eta) (h2 : eta ≤ 1 / 4) (h3 : -1 ≤ u) (h4 : u ≤ 1) : 0 ≤ 1 - 0.7 * eta ^ 2 - finalSpinOf eta (eta * eta) ((1 - 2 * eta) * u) := by
  obtain ⟨b, hb⟩ : ∃ b, b = 1 / 4 - eta := ⟨_, rfl⟩
  obtain ⟨t, ht⟩ : ∃ t, t = u + 1 := ⟨_, rfl⟩
  obtain ⟨w, hw⟩ : ∃ w, w = 1 - u := ⟨_, rfl⟩
  have b0 : 0 ≤ b := by linarith
  have t0 : 0 ≤ t := by linarith
  have w0 : 0 ≤ w := by linarith
  have e0 : 0 ≤ eta := by linarith
  have key : 1 - 0.7 * eta ^ 2 - finalSpinOf eta (eta * eta) ((1 - 2 * eta) * u) =
      512 * b ^ 6 * w ^ 4 + 1536 * b ^ 6 * t * w ^ 3 + 1536 * b ^ 6 * t ^ 2 * w ^ 2 + 512 * b ^ 6 * t ^ 3 * w + 209311781759481497 / 78125000000000 * eta * b ^ 5 * w ^ 4
       + 626059917788539423 / 78125000000000 * eta * b ^ 5 * t * w ^ 3 + 643122524846505863 / 78125000000000 * eta * b ^ 5 * t ^ 2 * w ^ 2 + 32133628039145649 / 15625000000000 * eta * b ^ 5 * t ^ 3 * w
       + 185475309936231 / 3906250000000 * eta * b ^ 5 * t ^ 4 + 3610135930618543467 / 625000000000000 * eta ^ 2 * b ^ 4 * w ^ 4 + 674532103830739549 / 39062500000000 * eta ^ 2 * b ^ 4 * t * w ^ 3
       + 1095646567692145229 / 62500000000000 * eta ^ 2 * b ^ 4 * t ^ 2 * w ^ 2 + 19476548652458469 / 4882812500000 * eta ^ 2 * b ^ 4 * t ^ 3 * w + 54640903313359587 / 625000000000000 * eta ^ 2 * b ^ 4 * t ^ 4
       + 4070378588172356649 / 625000000000000 * eta ^ 3 * b ^ 3 * w ^ 4 + 6040418641270884393 / 312500000000000 * eta ^ 3 * b ^ 3 * t * w ^ 3
       + 3009780669632499601 / 156250000000000 * eta ^ 3 * b ^ 3 * t ^ 2 * w ^ 2 + 1394138883794985163 / 312500000000000 * eta ^ 3 * b ^ 3 * t ^ 3 * w
       + 342079448913399 / 5000000000000 * eta ^ 3 * b ^ 3 * t ^ 4 + 4996037458534006751 / 1250000000000000 * eta ^ 4 * b ^ 2 * w ^ 4 + 58586024045199947 / 5000000000000 * eta ^ 4 * b ^ 2 * t * w ^ 3
       + 7177432803009039833 / 625000000000000 * eta ^ 4 * b ^ 2 * t ^ 2 * w ^ 2 + 1761687330029325059 / 625000000000000 * eta ^ 4 * b ^ 2 * t ^ 3 * w
       + 9907856025858711 / 250000000000000 * eta ^ 4 * b ^ 2 * t ^ 4 + 3121309680378590147 / 2500000000000000 * eta ^ 5 * b * w ^ 4 + 2251966596305824289 / 625000000000000 * eta ^ 5 * b * t * w ^ 3
       + 869358457336283833 / 250000000000000 * eta ^ 5 * b * t ^ 2 * w ^ 2 + 563578348396888469 / 625000000000000 * eta ^ 5 * b * t ^ 3 * w + 36274124549770251 / 2500000000000000 * eta ^ 5 * b * t ^ 4
       + 11969446648157891 / 78125000000000 * eta ^ 6 * w ^ 4 + 54135334260453413 / 125000000000000 * eta ^ 6 * t * w ^ 3 + 12793018253999281 / 31250000000000 * eta ^ 6 * t ^ 2 * w ^ 2
       + 67675797096860429 / 625000000000000 * eta ^ 6 * t ^ 3 * w + 401969595680921 / 312500000000000 * eta ^ 6 * t ^ 4 := by
    unfold finalSpinOf; rw [hb, ht, hw]; field_simp; ring
  rw [key]; positivity

/-- And above -1. -/
theorem finalSpin_lower2 (eta u : ℝ) (h1 : 0 < eta) (h2 : eta ≤ 1 / 4) (h3 : -1 ≤ u) (h4 : u ≤ 1) : 0 ≤ 1 - 0.7 * eta ^ 2 + finalSpinOf eta (eta * eta) ((1 - 2 * eta) * u) := by
  obtain ⟨b, hb⟩ : ∃ b, b = 1 / 4 - eta := ⟨_, rfl⟩
  obtain ⟨t, ht⟩ : ∃ t, t = u + 1 := ⟨_, rfl⟩
  obtain ⟨w, hw⟩ : ∃ w, w = 1 - u := ⟨_, rfl⟩
  have b0 : 0 ≤ b := by linarith
  have t0 : 0 ≤ t := by linarith
  have w0 : 0 ≤ w := by linarith
  have e0 : 0 ≤ eta := by linarith
  have key : 1 - 0.7 * eta ^ 2 + finalSpinOf eta (eta * eta) ((1 - 2 * eta) * u) =
      512 * b ^ 6 * t * w ^ 3 + 1536 * b ^ 6 * t ^ 2 * w ^ 2 + 1536 * b ^ 6 * t ^ 3 * w + 512 * b ^ 6 * t ^ 4 + 30688218240518503 / 78125000000000 * eta * b ^ 5 * w ^ 4
       + 333940082211460577 / 78125000000000 * eta * b ^ 5 * t * w ^ 3 + 796877475153494137 / 78125000000000 * eta * b ^ 5 * t ^ 2 * w ^ 2 + 159866371960854351 / 15625000000000 * eta * b ^ 5 * t ^ 3 * w
       + 11814524690063769 / 3906250000000 * eta * b ^ 5 * t ^ 4 + 1175864069381456533 / 625000000000000 * eta ^ 2 * b ^ 4 * w ^ 4 + 521967896169260451 / 39062500000000 * eta ^ 2 * b ^ 4 * t * w ^ 3
       + 1775953432307854771 / 62500000000000 * eta ^ 2 * b ^ 4 * t ^ 2 * w ^ 2 + 130085951347541531 / 4882812500000 * eta ^ 2 * b ^ 4 * t ^ 3 * w
       + 4731359096686640413 / 625000000000000 * eta ^ 2 * b ^ 4 * t ^ 4 + 2273621411827643351 / 625000000000000 * eta ^ 3 * b ^ 3 * w ^ 4 + 6647581358729115607 / 312500000000000 * eta ^ 3 * b ^ 3 * t * w ^ 3
       + 6506219330367500399 / 156250000000000 * eta ^ 3 * b ^ 3 * t ^ 2 * w ^ 2 + 11293861116205014837 / 312500000000000 * eta ^ 3 * b ^ 3 * t ^ 3 * w
       + 50409920551086601 / 5000000000000 * eta ^ 3 * b ^ 3 * t ^ 4 + 4435962541465993249 / 1250000000000000 * eta ^ 4 * b ^ 2 * w ^ 4 + 92325975954800053 / 5000000000000 * eta ^ 4 * b ^ 2 * t * w ^ 3
       + 21118567196990960167 / 625000000000000 * eta ^ 4 * b ^ 2 * t ^ 2 * w ^ 2 + 17102312669970674941 / 625000000000000 * eta ^ 4 * b ^ 2 * t ^ 3 * w
       + 1876492143974141289 / 250000000000000 * eta ^ 4 * b ^ 2 * t ^ 4 + 4334690319621409853 / 2500000000000000 * eta ^ 5 * b * w ^ 4 + 5204033403694175711 / 625000000000000 * eta ^ 5 * b * t * w ^ 3
       + 3604241542663716167 / 250000000000000 * eta ^ 5 * b * t ^ 2 * w ^ 2 + 6892421651603111531 / 625000000000000 * eta ^ 5 * b * t ^ 3 * w + 7419725875450229749 / 2500000000000000 * eta ^ 5 * b * t ^ 4
       + 26280553351842109 / 78125000000000 * eta ^ 6 * w ^ 4 + 190664665739546587 / 125000000000000 * eta ^ 6 * t * w ^ 3 + 79006981746000719 / 31250000000000 * eta ^ 6 * t ^ 2 * w ^ 2
       + 1156324202903139571 / 625000000000000 * eta ^ 6 * t ^ 3 * w + 152598030404319079 / 312500000000000 * eta ^ 6 * t ^ 4 := by
    unfold finalSpinOf; rw [hb, ht, hw]; field_simp; ring
  rw [key]; positivity

end Verif.PhenomD
