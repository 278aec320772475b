import Mathlib.Analysis.SpecialFunctions.Pow.Real
import Mathlib.Analysis.SpecialFunctions.Trigonometric.Basic
/-!
# Model of the fits and closed formulas of `IMRPhenomD` (ml4gw/waveforms/cbc/phenom_d.py)

Translated expression by expression from the source; decimal literals are the rationals they denote and `PI` is π.  One batch element and one frequency at a time, exact real arithmetic.
-/
set_option linter.unusedVariables false
namespace Verif.PhenomD

/-- `sigma1Fit` (phenom_d.py:634-657). -/
noncomputable def sigma1 (eta eta2 xi : ℝ) : ℝ :=
  2096.551999295543 + 1463.7493168261553 * eta + (1312.5493286098522 + 18307.330017082117 * eta - 43534.1440746107 * eta2 + ((-833.2889543511114) + 32047.31997183187 * eta - 108609.45037520859 * eta2) * xi + (452.25136398112204 + 8353.439546391714 * eta
    - 44531.3250037322 * eta2) * xi * xi) * xi

/-- `sigma2Fit` (phenom_d.py:659-682). -/
noncomputable def sigma2 (eta eta2 xi : ℝ) : ℝ :=
  (-10114.056472621156) - 44631.01109458185 * eta + ((-6541.308761668722) - 266959.23419307504 * eta + 686328.3229317984 * eta2 + (3405.6372187679685 - 437507.7208209015 * eta + 1.6318171307344697e6 * eta2) * xi + ((-7462.648563007646)
    - 114585.25177153319 * eta + 674402.4689098676 * eta2) * xi * xi) * xi

/-- `sigma3Fit` (phenom_d.py:684-707). -/
noncomputable def sigma3 (eta eta2 xi : ℝ) : ℝ :=
  22933.658273436497 + 230960.00814979506 * eta + (14961.083974183695 + 1.1940181342318142e6 * eta - 3.1042239693052764e6 * eta2 + ((-3038.166617199259) + 1.8720322849093592e6 * eta - 7.309145012085539e6 * eta2) * xi + (42738.22871475411
    + 467502.018616601 * eta - 3.064853498512499e6 * eta2) * xi * xi) * xi

/-- `sigma4Fit` (phenom_d.py:709-732). -/
noncomputable def sigma4 (eta eta2 xi : ℝ) : ℝ :=
  (-14621.71522218357) - 377812.8579387104 * eta + ((-9608.682631509726) - 1.7108925257214056e6 * eta + 4.332924601416521e6 * eta2 + ((-22366.683262266528) - 2.5019716386377467e6 * eta + 1.0274495902259542e7 * eta2) * xi + ((-85360.30079034246)
    - 570025.3441737515 * eta + 4.396844346849777e6 * eta2) * xi * xi) * xi

/-- `gamma1_fun` (phenom_d.py:734-757). -/
noncomputable def gamma1 (eta eta2 xi : ℝ) : ℝ :=
  0.006927402739328343 + 0.03020474290328911 * eta + (0.006308024337706171 - 0.12074130661131138 * eta + 0.26271598905781324 * eta2 + (0.0034151773647198794 - 0.10779338611188374 * eta + 0.27098966966891747 * eta2) * xi + (0.0007374185938559283
    - 0.02749621038376281 * eta + 0.0733150789135702 * eta2) * xi * xi) * xi

/-- `gamma2_fun` (phenom_d.py:759-782). -/
noncomputable def gamma2 (eta eta2 xi : ℝ) : ℝ :=
  1.010344404799477 + 0.0008993122007234548 * eta + (0.283949116804459 - 4.049752962958005 * eta + 13.207828172665366 * eta2 + (0.10396278486805426 - 7.025059158961947 * eta + 24.784892370130475 * eta2) * xi + (0.03093202475605892 - 2.6924023896851663 * eta
    + 9.609374464684983 * eta2) * xi * xi) * xi

/-- `gamma3_fun` (phenom_d.py:784-807). -/
noncomputable def gamma3 (eta eta2 xi : ℝ) : ℝ :=
  1.3081615607036106 - 0.005537729694807678 * eta + ((-0.06782917938621007) - 0.6689834970767117 * eta + 3.403147966134083 * eta2 + ((-0.05296577374411866) - 0.9923793203111362 * eta + 4.820681208409587 * eta2) * xi + ((-0.006134139870393713)
    - 0.38429253308696365 * eta + 1.7561754421985984 * eta2) * xi * xi) * xi

/-- `beta1Fit` (phenom_d.py:809-832). -/
noncomputable def beta1 (eta eta2 xi : ℝ) : ℝ :=
  97.89747327985583 - 42.659730877489224 * eta + (153.48421037904913 - 1417.0620760768954 * eta + 2752.8614143665027 * eta2 + (138.7406469558649 - 1433.6585075135881 * eta + 2857.7418952430758 * eta2) * xi + (41.025109467376126 - 423.680737974639 * eta
    + 850.3594335657173 * eta2) * xi * xi) * xi

/-- `beta2Fit` (phenom_d.py:834-857). -/
noncomputable def beta2 (eta eta2 xi : ℝ) : ℝ :=
  (-3.282701958759534) - 9.051384468245866 * eta + ((-12.415449742258042) + 55.4716447709787 * eta - 106.05109938966335 * eta2 + ((-11.953044553690658) + 76.80704618365418 * eta - 155.33172948098394 * eta2) * xi + ((-3.4129261592393263)
    + 25.572377569952536 * eta - 54.408036707740465 * eta2) * xi * xi) * xi

/-- `beta3Fit` (phenom_d.py:859-882). -/
noncomputable def beta3 (eta eta2 xi : ℝ) : ℝ :=
  (-0.000025156429818799565) + 0.000019750256942201327 * eta + ((-0.000018370671469295915) + 0.000021886317041311973 * eta + 0.00008250240316860033 * eta2 + (7.157371250566708e-6 - 0.000055780000112270685 * eta + 0.00019142082884072178 * eta2) * xi
    + (5.447166261464217e-6 - 0.00003220610095021982 * eta + 0.00007974016714984341 * eta2) * xi * xi) * xi

/-- `alpha1Fit` (phenom_d.py:884-907). -/
noncomputable def alpha1 (eta eta2 xi : ℝ) : ℝ :=
  43.31514709695348 + 638.6332679188081 * eta + ((-32.85768747216059) + 2415.8938269370315 * eta - 5766.875169379177 * eta2 + ((-61.85459307173841) + 2953.967762459948 * eta - 8986.29057591497 * eta2) * xi + ((-21.571435779762044) + 981.2158224673428 * eta
    - 3239.5664895930286 * eta2) * xi * xi) * xi

/-- `alpha2Fit` (phenom_d.py:909-932). -/
noncomputable def alpha2 (eta eta2 xi : ℝ) : ℝ :=
  (-0.07020209449091723) - 0.16269798450687084 * eta + ((-0.1872514685185499) + 1.138313650449945 * eta - 2.8334196304430046 * eta2 + ((-0.17137955686840617) + 1.7197549338119527 * eta - 4.539717148261272 * eta2) * xi + ((-0.049983437357548705)
    + 0.6062072055948309 * eta - 1.682769616644546 * eta2) * xi * xi) * xi

/-- `alpha3Fit` (phenom_d.py:934-957). -/
noncomputable def alpha3 (eta eta2 xi : ℝ) : ℝ :=
  9.5988072383479 - 397.05438595557433 * eta + (16.202126189517813 - 1574.8286986717037 * eta + 3600.3410843831093 * eta2 + (27.092429659075467 - 1786.482357315139 * eta + 5152.919378666511 * eta2) * xi + (11.175710130033895 - 577.7999423177481 * eta
    + 1808.730762932043 * eta2) * xi * xi) * xi

/-- `alpha4Fit` (phenom_d.py:959-982). -/
noncomputable def alpha4 (eta eta2 xi : ℝ) : ℝ :=
  (-0.02989487384493607) + 1.4022106448583738 * eta + ((-0.07356049468633846) + 0.8337006542278661 * eta + 0.2240008282397391 * eta2 + ((-0.055202870001177226) + 0.5667186343606578 * eta + 0.7186931973380503 * eta2) * xi + ((-0.015507437354325743)
    + 0.15750322779277187 * eta + 0.21076815715176228 * eta2) * xi * xi) * xi

/-- `alpha5Fit` (phenom_d.py:984-1007). -/
noncomputable def alpha5 (eta eta2 xi : ℝ) : ℝ :=
  0.9974408278363099 - 0.007884449714907203 * eta + ((-0.059046901195591035) + 1.3958712396764088 * eta - 4.516631601676276 * eta2 + ((-0.05585343136869692) + 1.7516580039343603 * eta - 5.990208965347804 * eta2) * xi + ((-0.017945336522161195)
    + 0.5965097794825992 * eta - 2.0608879367971804 * eta2) * xi * xi) * xi

/-- `rho1_fun` (phenom_d.py:1009-1032). -/
noncomputable def rho1 (eta eta2 xi : ℝ) : ℝ :=
  3931.8979897196696 - 17395.758706812805 * eta + (3132.375545898835 + 343965.86092361377 * eta - 1.2162565819981997e6 * eta2 + ((-70698.00600428853) + 1.383907177859705e6 * eta - 3.9662761890979446e6 * eta2) * xi + ((-60017.52423652596)
    + 803515.1181825735 * eta - 2.091710365941658e6 * eta2) * xi * xi) * xi

/-- `rho2_fun` (phenom_d.py:1034-1057). -/
noncomputable def rho2 (eta eta2 xi : ℝ) : ℝ :=
  (-40105.47653771657) + 112253.0169706701 * eta + (23561.696065836168 - 3.476180699403351e6 * eta + 1.137593670849482e7 * eta2 + (754313.1127166454 - 1.308476044625268e7 * eta + 3.6444584853928134e7 * eta2) * xi + (596226.612472288
    - 7.4277901143564405e6 * eta + 1.8928977514040343e7 * eta2) * xi * xi) * xi

/-- `rho3_fun` (phenom_d.py:1059-1082). -/
noncomputable def rho3 (eta eta2 xi : ℝ) : ℝ :=
  83208.35471266537 - 191237.7264145924 * eta + ((-210916.2454782992) + 8.71797508352568e6 * eta - 2.6914942420669552e7 * eta2 + ((-1.9889806527362722e6) + 3.0888029960154563e7 * eta - 8.390870279256162e7 * eta2) * xi + ((-1.4535031953446497e6)
    + 1.7063528990822166e7 * eta - 4.2748659731120914e7 * eta2) * xi * xi) * xi

/-- `AmpIntColFitCoeff` (phenom_d.py:1145-1168). -/
noncomputable def ampIntCol (eta eta2 xi : ℝ) : ℝ :=
  0.8149838730507785 + 2.5747553517454658 * eta + (1.1610198035496786 - 2.3627771785551537 * eta + 6.771038707057573 * eta2 + (0.7570782938606834 - 2.7256896890432474 * eta + 7.1140380397149965 * eta2) * xi + (0.1766934149293479 - 0.7978690983168183 * eta
    + 2.1162391502005153 * eta2) * xi * xi) * xi

/-- `Seta` (phenom_d.py:96, 1085, 1109): `sqrt` of `1 - 4 eta` clamped at zero. -/
noncomputable def setaOf (eta : ℝ) : ℝ := Real.sqrt (max (1 - 4 * eta) 0)

/-- The spin combination of `FinalSpin0815` (phenom_d.py:1085-1090): `m1s * chi1 + m2s * chi2` with `m1 = 0.5 * (1 + Seta)`. -/
noncomputable def massSpin (eta chi1 chi2 : ℝ) : ℝ :=
  0.5 * (1 + setaOf eta) * (0.5 * (1 + setaOf eta)) * chi1 + 0.5 * (1 - setaOf eta) * (0.5 * (1 - setaOf eta)) * chi2

/-- The normalisation `m1s + m2s` (phenom_d.py:1109-1114). -/
noncomputable def massNorm (eta : ℝ) : ℝ := 0.5 * (1 + setaOf eta) * (0.5 * (1 + setaOf eta)) + 0.5 * (1 - setaOf eta) * (0.5 * (1 - setaOf eta))

/-- `FinalSpin0815` (phenom_d.py:1084-1106) as a function of `eta`, `eta2` and the spin combination `s`. -/
noncomputable def finalSpinOf (eta eta2 s : ℝ) : ℝ :=
  eta * (3.4641016151377544 - 4.399247300629289 * eta + 9.397292189321194 * eta2 - 13.180949901606242 * (eta2 * eta) + (1 / eta - 0.0850917821418767 - 5.837029316602263 * eta + (0.1014665242971878 - 2.0967746996832157 * eta) * s + ((-1.3546806617824356)
    + 4.108962025369336 * eta) * (s * s) + ((-0.8676969352555539) + 2.064046835273906 * eta) * (s * s * s)) * s)

/-- `PhenomInternal_EradRational0815` (phenom_d.py:1108-1143) as a function of `eta`, `eta2` and the normalised spin `s`. -/
noncomputable def eradOf (eta eta2 s : ℝ) : ℝ :=
  eta * (0.055974469826360077 + 0.5809510763115132 * eta - 0.9606726679372312 * eta2 + 3.352411249771192 * (eta2 * eta)) * (1 + ((-0.0030302335878845507) - 2.0066110851351073 * eta + 7.7050567802399215 * eta2) * s) / (1 + ((-0.6714403054720589)
    - 1.4756929437702908 * eta + 7.304676214885011 * eta2) * s)

/-- `FinalSpin0815`. (phenom_d.py:1084-1106) -/
noncomputable def finalSpin (eta chi1 chi2 : ℝ) : ℝ := finalSpinOf eta (eta * eta) (massSpin eta chi1 chi2)

/-- `PhenomInternal_EradRational0815`. (phenom_d.py:1108-1143) -/
noncomputable def erad (eta chi1 chi2 : ℝ) : ℝ := eradOf eta (eta * eta) (massSpin eta chi1 chi2 / massNorm eta)

/-- `chiPN` (phenom_d.py:1436-1440). -/
noncomputable def chiPN (seta eta chi1 chi2 : ℝ) : ℝ := 0.5 * ((chi1 + chi2) * (1 - eta * 76 / 113) + seta * (chi1 - chi2))

/-- `prefactors_two_thirds` (phenom_d.py:289-289). -/
noncomputable def pre23 (eta eta2 seta chi1 chi2 : ℝ) : ℝ :=
  ((-969) + 1804 * eta) * Real.pi ^ ((2.0 / 3.0) : ℝ) / 672

/-- `prefactors_one` (phenom_d.py:290-296). -/
noncomputable def pre1 (eta eta2 seta chi1 chi2 : ℝ) : ℝ :=
  (chi1 * (81 * (1 + seta) - 44 * eta) + chi2 * (81 - 81 * seta - 44 * eta)) * Real.pi / 48

/-- `prefactors_four_thirds` (phenom_d.py:297-314). -/
noncomputable def pre43 (eta eta2 seta chi1 chi2 chi12 chi22 : ℝ) : ℝ :=
  ((-27312085) - 10287648 * chi22 - 10287648 * chi12 * (1 + seta) + 10287648 * chi22 * seta + 24 * ((-1975055) + 857304 * chi12 - 994896 * chi1 * chi2 + 857304 * chi22) * eta + 35371056 * eta2) * Real.pi ^ ((4.0 / 3.0) : ℝ) / 8.128512e6

/-- `prefactors_five_thirds` (phenom_d.py:315-332). -/
noncomputable def pre53 (eta eta2 seta chi1 chi2 : ℝ) : ℝ :=
  Real.pi ^ ((5.0 / 3.0) : ℝ) * (chi2 * ((-285197) * ((-1) + seta) + 4 * ((-91902) + 1579 * seta) * eta - 35632 * eta2) + chi1 * (285197 * (1 + seta) - 4 * (91902 + 1579 * seta) * eta - 35632 * eta2) + 42840 * ((-1) + 4 * eta) * Real.pi) / 32256

/-- `prefactors_two` (phenom_d.py:333-370). -/
noncomputable def pre2 (eta eta2 seta chi1 chi2 chi12 chi22 : ℝ) : ℝ :=
  (-(Real.pi ^ 2 * ((-336) * ((-3248849057) + 2943675504 * chi12 - 3339284256 * chi1 * chi2 + 2943675504 * chi22) * eta2 - 324322727232 * eta2 * eta - 7 * ((-177520268561) + 107414046432 * chi22 + 107414046432 * chi12 * (1 + seta) - 107414046432 * chi22 * seta
    + 11087290368 * (chi1 + chi2 + chi1 * seta - chi2 * seta) * Real.pi) + 12 * eta * ((-545384828789) - 176491177632 * chi1 * chi2 + 202603761360 * chi22 + 77616 * chi12 * (2610335 + 995766 * seta) - 77287373856 * chi22 * seta + 5841690624 * (chi1
    + chi2) * Real.pi + 21384760320 * Real.pi ^ 2)))) / 6.0085960704e10

/-- `delta_0` of `delta_values` (phenom_d.py:1182-1230), with the power abbreviations of lines 1171-1181. -/
noncomputable def delta0 (f1 f2 f3 v1 v2 v3 d1 d2 : ℝ) : ℝ :=
  let f12 := f1 * f1; let f13 := f1 * f12; let f14 := f1 * f13; let f15 := f1 * f14
  let f22 := f2 * f2; let f23 := f2 * f22; let f24 := f2 * f23
  let f32 := f3 * f3; let f33 := f3 * f32; let f34 := f3 * f33; let f35 := f3 * f34;
  -((d2 * f15 * f22 * f3 - 2 * d2 * f14 * f23 * f3 + d2 * f13 * f24 * f3 - d2 * f15 * f2 * f32 + d2 * f14 * f22 * f32 - d1 * f13 * f23 * f32 + d2 * f13 * f23 * f32 + d1 * f12 * f24 * f32 - d2 * f12 * f24 * f32 + d2 * f14 * f2 * f33
    + 2 * d1 * f13 * f22 * f33 - 2 * d2 * f13 * f22 * f33 - d1 * f12 * f23 * f33 + d2 * f12 * f23 * f33 - d1 * f1 * f24 * f33 - d1 * f13 * f2 * f34 - d1 * f12 * f22 * f34 + 2 * d1 * f1 * f23 * f34 + d1 * f12 * f2 * f35 - d1 * f1 * f22 * f35
    + 4 * f12 * f23 * f32 * v1 - 3 * f1 * f24 * f32 * v1 - 8 * f12 * f22 * f33 * v1 + 4 * f1 * f23 * f33 * v1 + f24 * f33 * v1 + 4 * f12 * f2 * f34 * v1 + f1 * f22 * f34 * v1 - 2 * f23 * f34 * v1 - 2 * f1 * f2 * f35 * v1 + f22 * f35 * v1
    - f15 * f32 * v2 + 3 * f14 * f33 * v2 - 3 * f13 * f34 * v2 + f12 * f35 * v2 - f15 * f22 * v3 + 2 * f14 * f23 * v3 - f13 * f24 * v3 + 2 * f15 * f2 * f3 * v3 - f14 * f22 * f3 * v3 - 4 * f13 * f23 * f3 * v3 + 3 * f12 * f24 * f3 * v3
    - 4 * f14 * f2 * f32 * v3 + 8 * f13 * f22 * f32 * v3 - 4 * f12 * f23 * f32 * v3) / ((f1 - f2) ^ 2 * (f1 - f3) ^ 3 * (f3 - f2) ^ 2))

/-- `delta_1` of `delta_values` (phenom_d.py:1232-1278), with the power abbreviations of lines 1171-1181. -/
noncomputable def delta1 (f1 f2 f3 v1 v2 v3 d1 d2 : ℝ) : ℝ :=
  let f12 := f1 * f1; let f13 := f1 * f12; let f14 := f1 * f13; let f15 := f1 * f14
  let f22 := f2 * f2; let f23 := f2 * f22; let f24 := f2 * f23
  let f32 := f3 * f3; let f33 := f3 * f32; let f34 := f3 * f33; let f35 := f3 * f34;
  -(((-(d2 * f15 * f22)) + 2 * d2 * f14 * f23 - d2 * f13 * f24 - d2 * f14 * f22 * f3 + 2 * d1 * f13 * f23 * f3 + 2 * d2 * f13 * f23 * f3 - 2 * d1 * f12 * f24 * f3 - d2 * f12 * f24 * f3 + d2 * f15 * f32 - 3 * d1 * f13 * f22 * f32 - d2 * f13 * f22 * f32
    + 2 * d1 * f12 * f23 * f32 - 2 * d2 * f12 * f23 * f32 + d1 * f1 * f24 * f32 + 2 * d2 * f1 * f24 * f32 - d2 * f14 * f33 + d1 * f12 * f22 * f33 + 3 * d2 * f12 * f22 * f33 - 2 * d1 * f1 * f23 * f33 - 2 * d2 * f1 * f23 * f33 + d1 * f24 * f33
    + d1 * f13 * f34 + d1 * f1 * f22 * f34 - 2 * d1 * f23 * f34 - d1 * f12 * f35 + d1 * f22 * f35 - 8 * f12 * f23 * f3 * v1 + 6 * f1 * f24 * f3 * v1 + 12 * f12 * f22 * f32 * v1 - 8 * f1 * f23 * f32 * v1 - 4 * f12 * f34 * v1 + 2 * f1 * f35 * v1
    + 2 * f15 * f3 * v2 - 4 * f14 * f32 * v2 + 4 * f12 * f34 * v2 - 2 * f1 * f35 * v2 - 2 * f15 * f3 * v3 + 8 * f12 * f23 * f3 * v3 - 6 * f1 * f24 * f3 * v3 + 4 * f14 * f32 * v3 - 12 * f12 * f22 * f32 * v3 + 8 * f1 * f23 * f32 * v3) / ((f1
    - f2) ^ 2 * (f1 - f3) ^ 3 * ((-f2) + f3) ^ 2))

/-- `delta_2` of `delta_values` (phenom_d.py:1280-1336), with the power abbreviations of lines 1171-1181. -/
noncomputable def delta2 (f1 f2 f3 v1 v2 v3 d1 d2 : ℝ) : ℝ :=
  let f12 := f1 * f1; let f13 := f1 * f12; let f14 := f1 * f13; let f15 := f1 * f14
  let f22 := f2 * f2; let f23 := f2 * f22; let f24 := f2 * f23
  let f32 := f3 * f3; let f33 := f3 * f32; let f34 := f3 * f33; let f35 := f3 * f34;
  -((d2 * f15 * f2 - d1 * f13 * f23 - 3 * d2 * f13 * f23 + d1 * f12 * f24 + 2 * d2 * f12 * f24 - d2 * f15 * f3 + d2 * f14 * f2 * f3 - d1 * f12 * f23 * f3 + d2 * f12 * f23 * f3 + d1 * f1 * f24 * f3 - d2 * f1 * f24 * f3 - d2 * f14 * f32
    + 3 * d1 * f13 * f2 * f32 + d2 * f13 * f2 * f32 - d1 * f1 * f23 * f32 + d2 * f1 * f23 * f32 - 2 * d1 * f24 * f32 - d2 * f24 * f32 - 2 * d1 * f13 * f33 + 2 * d2 * f13 * f33 - d1 * f12 * f2 * f33 - 3 * d2 * f12 * f2 * f33 + 3 * d1 * f23 * f33
    + d2 * f23 * f33 + d1 * f12 * f34 - d1 * f1 * f2 * f34 + d1 * f1 * f35 - d1 * f2 * f35 + 4 * f12 * f23 * v1 - 3 * f1 * f24 * v1 + 4 * f1 * f23 * f3 * v1 - 3 * f24 * f3 * v1 - 12 * f12 * f2 * f32 * v1 + 4 * f23 * f32 * v1 + 8 * f12 * f33 * v1
    - f1 * f34 * v1 - f35 * v1 - f15 * v2 - f14 * f3 * v2 + 8 * f13 * f32 * v2 - 8 * f12 * f33 * v2 + f1 * f34 * v2 + f35 * v2 + f15 * v3 - 4 * f12 * f23 * v3 + 3 * f1 * f24 * v3 + f14 * f3 * v3 - 4 * f1 * f23 * f3 * v3 + 3 * f24 * f3 * v3
    - 8 * f13 * f32 * v3 + 12 * f12 * f2 * f32 * v3 - 4 * f23 * f32 * v3) / ((f1 - f2) ^ 2 * (f1 - f3) ^ 3 * ((-f2) + f3) ^ 2))

/-- `delta_3` of `delta_values` (phenom_d.py:1338-1390), with the power abbreviations of lines 1171-1181. -/
noncomputable def delta3 (f1 f2 f3 v1 v2 v3 d1 d2 : ℝ) : ℝ :=
  let f12 := f1 * f1; let f13 := f1 * f12; let f14 := f1 * f13; let f15 := f1 * f14
  let f22 := f2 * f2; let f23 := f2 * f22; let f24 := f2 * f23
  let f32 := f3 * f3; let f33 := f3 * f32; let f34 := f3 * f33; let f35 := f3 * f34;
  -(((-2) * d2 * f14 * f2 + d1 * f13 * f22 + 3 * d2 * f13 * f22 - d1 * f1 * f24 - d2 * f1 * f24 + 2 * d2 * f14 * f3 - 2 * d1 * f13 * f2 * f3 - 2 * d2 * f13 * f2 * f3 + d1 * f12 * f22 * f3 - d2 * f12 * f22 * f3 + d1 * f24 * f3 + d2 * f24 * f3
    + d1 * f13 * f32 - d2 * f13 * f32 - 2 * d1 * f12 * f2 * f32 + 2 * d2 * f12 * f2 * f32 + d1 * f1 * f22 * f32 - d2 * f1 * f22 * f32 + d1 * f12 * f33 - d2 * f12 * f33 + 2 * d1 * f1 * f2 * f33 + 2 * d2 * f1 * f2 * f33 - 3 * d1 * f22 * f33
    - d2 * f22 * f33 - 2 * d1 * f1 * f34 + 2 * d1 * f2 * f34 - 4 * f12 * f22 * v1 + 2 * f24 * v1 + 8 * f12 * f2 * f3 * v1 - 4 * f1 * f22 * f3 * v1 - 4 * f12 * f32 * v1 + 8 * f1 * f2 * f32 * v1 - 4 * f22 * f32 * v1 - 4 * f1 * f33 * v1
    + 2 * f34 * v1 + 2 * f14 * v2 - 4 * f13 * f3 * v2 + 4 * f1 * f33 * v2 - 2 * f34 * v2 - 2 * f14 * v3 + 4 * f12 * f22 * v3 - 2 * f24 * v3 + 4 * f13 * f3 * v3 - 8 * f12 * f2 * f3 * v3 + 4 * f1 * f22 * f3 * v3 + 4 * f12 * f32 * v3
    - 8 * f1 * f2 * f32 * v3 + 4 * f22 * f32 * v3) / ((f1 - f2) ^ 2 * (f1 - f3) ^ 3 * ((-f2) + f3) ^ 2))

/-- `delta_4` of `delta_values` (phenom_d.py:1392-1432), with the power abbreviations of lines 1171-1181. -/
noncomputable def delta4 (f1 f2 f3 v1 v2 v3 d1 d2 : ℝ) : ℝ :=
  let f12 := f1 * f1; let f13 := f1 * f12; let f14 := f1 * f13; let f15 := f1 * f14
  let f22 := f2 * f2; let f23 := f2 * f22; let f24 := f2 * f23
  let f32 := f3 * f3; let f33 := f3 * f32; let f34 := f3 * f33; let f35 := f3 * f34;
  -((d2 * f13 * f2 - d1 * f12 * f22 - 2 * d2 * f12 * f22 + d1 * f1 * f23 + d2 * f1 * f23 - d2 * f13 * f3 + 2 * d1 * f12 * f2 * f3 + d2 * f12 * f2 * f3 - d1 * f1 * f22 * f3 + d2 * f1 * f22 * f3 - d1 * f23 * f3 - d2 * f23 * f3 - d1 * f12 * f32
    + d2 * f12 * f32 - d1 * f1 * f2 * f32 - 2 * d2 * f1 * f2 * f32 + 2 * d1 * f22 * f32 + d2 * f22 * f32 + d1 * f1 * f33 - d1 * f2 * f33 + 3 * f1 * f22 * v1 - 2 * f23 * v1 - 6 * f1 * f2 * f3 * v1 + 3 * f22 * f3 * v1 + 3 * f1 * f32 * v1
    - f33 * v1 - f13 * v2 + 3 * f12 * f3 * v2 - 3 * f1 * f32 * v2 + f33 * v2 + f13 * v3 - 3 * f1 * f22 * v3 + 2 * f23 * v3 - 3 * f12 * f3 * v3 + 6 * f1 * f2 * f3 * v3 - 3 * f22 * f3 * v3) / ((f1 - f2) ^ 2 * (f1 - f3) ^ 3 * ((-f2)
    + f3) ^ 2))

/-- `pn_ss3` (phenom_d.py:516-544); `x1 = m1byM`, `x2 = m2byM`. -/
noncomputable def pnSS3 (x1 x2 eta chi1 chi2 : ℝ) : ℝ :=
  (326.75 / 1.12 + 557.5 / 1.8 * eta) * eta * chi1 * chi2 + ((4703.5 / 8.4 + 2935 / 6 * x1 - 120 * x1 * x1) * x1 * x1 + ((-4108.25) / 6.72 - 108.5 / 1.2 * x1 + 125.5 / 3.6 * x1 * x1) * x1 * x1) * (chi1 * chi1) + ((4703.5 / 8.4 + 2935 / 6 * x2
    - 120 * x2 * x2) * x2 * x2 + ((-4108.25) / 6.72 - 108.5 / 1.2 * x2 + 125.5 / 3.6 * x2 * x2) * x2 * x2) * (chi2 * chi2)

end Verif.PhenomD
