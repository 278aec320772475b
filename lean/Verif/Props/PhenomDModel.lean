import Verif.Spec.PhenomDModel
import Verif.Props.SpaPhenomD
import Mathlib.Analysis.Real.Pi.Bounds
/-!
# C99: IMRPhenomD is the published model
-/
namespace Verif.PhenomD
open PhenomDModel TaylorF2

/-- The coefficients of the code's fits. -/
def lam : Param → Fin 11 → ℚ
  | .rho1 => ![3931.8979897196696, -17395.758706812805, 3132.375545898835, 343965.86092361377, -1.2162565819981997e6, -70698.00600428853, 1.383907177859705e6, -3.9662761890979446e6, -60017.52423652596, 803515.1181825735, -2.091710365941658e6]
  | .rho2 => ![-40105.47653771657, 112253.0169706701, 23561.696065836168, -3.476180699403351e6, 1.137593670849482e7, 754313.1127166454, -1.308476044625268e7, 3.6444584853928134e7, 596226.612472288, -7.4277901143564405e6, 1.8928977514040343e7]
  | .rho3 => ![83208.35471266537, -191237.7264145924, -210916.2454782992, 8.71797508352568e6, -2.6914942420669552e7, -1.9889806527362722e6, 3.0888029960154563e7, -8.390870279256162e7, -1.4535031953446497e6, 1.7063528990822166e7, -4.2748659731120914e7]
  | .v2 => ![0.8149838730507785, 2.5747553517454658, 1.1610198035496786, -2.3627771785551537, 6.771038707057573, 0.7570782938606834, -2.7256896890432474, 7.1140380397149965, 0.1766934149293479, -0.7978690983168183, 2.1162391502005153]
  | .gamma1 => ![0.006927402739328343, 0.03020474290328911, 0.006308024337706171, -0.12074130661131138, 0.26271598905781324, 0.0034151773647198794, -0.10779338611188374, 0.27098966966891747, 0.0007374185938559283, -0.02749621038376281, 0.0733150789135702]
  | .gamma2 => ![1.010344404799477, 0.0008993122007234548, 0.283949116804459, -4.049752962958005, 13.207828172665366, 0.10396278486805426, -7.025059158961947, 24.784892370130475, 0.03093202475605892, -2.6924023896851663, 9.609374464684983]
  | .gamma3 => ![1.3081615607036106, -0.005537729694807678, -0.06782917938621007, -0.6689834970767117, 3.403147966134083, -0.05296577374411866, -0.9923793203111362, 4.820681208409587, -0.006134139870393713, -0.38429253308696365, 1.7561754421985984]
  | .sigma1 => ![2096.551999295543, 1463.7493168261553, 1312.5493286098522, 18307.330017082117, -43534.1440746107, -833.2889543511114, 32047.31997183187, -108609.45037520859, 452.25136398112204, 8353.439546391714, -44531.3250037322]
  | .sigma2 => ![-10114.056472621156, -44631.01109458185, -6541.308761668722, -266959.23419307504, 686328.3229317984, 3405.6372187679685, -437507.7208209015, 1.6318171307344697e6, -7462.648563007646, -114585.25177153319, 674402.4689098676]
  | .sigma3 => ![22933.658273436497, 230960.00814979506, 14961.083974183695, 1.1940181342318142e6, -3.1042239693052764e6, -3038.166617199259, 1.8720322849093592e6, -7.309145012085539e6, 42738.22871475411, 467502.018616601, -3.064853498512499e6]
  | .sigma4 => ![-14621.71522218357, -377812.8579387104, -9608.682631509726, -1.7108925257214056e6, 4.332924601416521e6, -22366.683262266528, -2.5019716386377467e6, 1.0274495902259542e7, -85360.30079034246, -570025.3441737515, 4.396844346849777e6]
  | .beta1 => ![97.89747327985583, -42.659730877489224, 153.48421037904913, -1417.0620760768954, 2752.8614143665027, 138.7406469558649, -1433.6585075135881, 2857.7418952430758, 41.025109467376126, -423.680737974639, 850.3594335657173]
  | .beta2 => ![-3.282701958759534, -9.051384468245866, -12.415449742258042, 55.4716447709787, -106.05109938966335, -11.953044553690658, 76.80704618365418, -155.33172948098394, -3.4129261592393263, 25.572377569952536, -54.408036707740465]
  | .beta3 => ![-0.000025156429818799565, 0.000019750256942201327, -0.000018370671469295915, 0.000021886317041311973, 0.00008250240316860033, 7.157371250566708e-6, -0.000055780000112270685, 0.00019142082884072178, 5.447166261464217e-6, -0.00003220610095021982, 0.00007974016714984341]
  | .alpha1 => ![43.31514709695348, 638.6332679188081, -32.85768747216059, 2415.8938269370315, -5766.875169379177, -61.85459307173841, 2953.967762459948, -8986.29057591497, -21.571435779762044, 981.2158224673428, -3239.5664895930286]
  | .alpha2 => ![-0.07020209449091723, -0.16269798450687084, -0.1872514685185499, 1.138313650449945, -2.8334196304430046, -0.17137955686840617, 1.7197549338119527, -4.539717148261272, -0.049983437357548705, 0.6062072055948309, -1.682769616644546]
  | .alpha3 => ![9.5988072383479, -397.05438595557433, 16.202126189517813, -1574.8286986717037, 3600.3410843831093, 27.092429659075467, -1786.482357315139, 5152.919378666511, 11.175710130033895, -577.7999423177481, 1808.730762932043]
  | .alpha4 => ![-0.02989487384493607, 1.4022106448583738, -0.07356049468633846, 0.8337006542278661, 0.2240008282397391, -0.055202870001177226, 0.5667186343606578, 0.7186931973380503, -0.015507437354325743, 0.15750322779277187, 0.21076815715176228]
  | .alpha5 => ![0.9974408278363099, -0.007884449714907203, -0.059046901195591035, 1.3958712396764088, -4.516631601676276, -0.05585343136869692, 1.7516580039343603, -5.990208965347804, -0.017945336522161195, 0.5965097794825992, -2.0608879367971804]

theorem lam_published : ∀ p i, |lam p i - tableV p i| ≤ 5e-6 * |tableV p i| := by
  intro p; cases p <;> decide +kernel

/-- The code's fit of each parameter. -/
noncomputable def codeFit : Param → ℝ → ℝ → ℝ → ℝ
  | .rho1 => rho1 | .rho2 => rho2 | .rho3 => rho3 | .v2 => ampIntCol | .gamma1 => gamma1 | .gamma2 => gamma2 | .gamma3 => gamma3
  | .sigma1 => sigma1 | .sigma2 => sigma2 | .sigma3 => sigma3 | .sigma4 => sigma4 | .beta1 => beta1 | .beta2 => beta2 | .beta3 => beta3
  | .alpha1 => alpha1 | .alpha2 => alpha2 | .alpha3 => alpha3 | .alpha4 => alpha4 | .alpha5 => alpha5

theorem codeFit_eq (p : Param) (η χ : ℝ) : codeFit p η (η * η) (-1 + χ) = fit (lam p) η χ := by
  cases p <;> unfold fit lam codeFit <;>
    simp [rho1, rho2, rho3, ampIntCol, gamma1, gamma2, gamma3, sigma1, sigma2, sigma3, sigma4, beta1, beta2, beta3, alpha1, alpha2, alpha3, alpha4, alpha5] <;> norm_num <;> ring


theorem insAmp_published (c : Ctx) (h1 : c.chi12 = c.chi1 * c.chi1) (h2 : c.chi22 = c.chi2 * c.chi2) (Λ : Param → ℝ)
    (hΛ : ∀ p, codeFit p c.eta c.eta2 c.xi = Λ p) (x : ℝ) (hx : 0 < x) :
    c.insAmp x = PhenomDModel.insAmp Λ c.eta c.seta (PNSpec.chiS c.chi1 c.chi2) (PNSpec.chiA c.chi1 c.chi2) x := by
  have hpi := Real.pi_pos
  set κ : ℝ := Real.pi ^ ((1 : ℝ) / 3) with hκ
  set r : ℝ := x ^ ((1 : ℝ) / 3) with hr
  have κ3 : κ ^ 3 = Real.pi := by rw [hκ, ← Real.rpow_natCast, ← Real.rpow_mul hpi.le]; norm_num
  have κ2 : Real.pi ^ ((2.0 / 3.0 : ℝ)) = κ ^ 2 := by rw [hκ, ← Real.rpow_natCast, ← Real.rpow_mul hpi.le]; norm_num
  have κ4 : Real.pi ^ ((4.0 / 3.0 : ℝ)) = κ ^ 4 := by rw [hκ, ← Real.rpow_natCast, ← Real.rpow_mul hpi.le]; norm_num
  have κ5 : Real.pi ^ ((5.0 / 3.0 : ℝ)) = κ ^ 5 := by rw [hκ, ← Real.rpow_natCast, ← Real.rpow_mul hpi.le]; norm_num
  have r3 : r ^ 3 = x := by rw [hr, ← Real.rpow_natCast, ← Real.rpow_mul hx.le]; norm_num
  have r7 : x ^ (7 / 3 : ℝ) = r ^ 7 := by rw [hr, ← Real.rpow_natCast, ← Real.rpow_mul hx.le]; norm_num
  have r8 : x ^ (8 / 3 : ℝ) = r ^ 8 := by rw [hr, ← Real.rpow_natCast, ← Real.rpow_mul hx.le]; norm_num
  have r9 : x ^ (3 : ℝ) = r ^ 9 := by rw [show (3 : ℝ) = ((3 : ℕ) : ℝ) by norm_num, Real.rpow_natCast, ← r3]; ring
  have hv : (Real.pi * x) ^ (1 / 3 : ℝ) = κ * r := Real.mul_rpow hpi.le hx.le
  have e1 : rho1 c.eta c.eta2 c.xi = Λ .rho1 := hΛ .rho1
  have e2 : rho2 c.eta c.eta2 c.xi = Λ .rho2 := hΛ .rho2
  have e3 : rho3 c.eta c.eta2 c.xi = Λ .rho3 := hΛ .rho3
  unfold Ctx.insAmp PhenomDModel.insAmp
  dsimp only
  rw [← hr, r7, r8, r9, hv, e1, e2, e3]
  unfold pre23 pre1 pre43 pre53 pre2 pnAmp PNSpec.chiS PNSpec.chiA
  rw [κ2, κ4, κ5, h1, h2]
  unfold Ctx.eta2
  generalize Λ .rho1 = ρ1
  generalize Λ .rho2 = ρ2
  generalize Λ .rho3 = ρ3
  generalize c.eta = η
  generalize c.seta = S
  generalize c.chi1 = χ1
  generalize c.chi2 = χ2
  clear_value κ r
  subst r3
  rw [← κ3]
  ring

theorem mrdAmp_published (c : Ctx) (Λ : Param → ℝ) (g1 : c.gamma1 = Λ .gamma1) (g2 : c.gamma2 = Λ .gamma2) (g3 : c.gamma3 = Λ .gamma3) (x : ℝ) :
    c.mrdAmp x = PhenomDModel.mrAmp Λ c.fRD c.fDM x := by
  unfold Ctx.mrdAmp mrAmp
  rw [g1, g2, g3]
  rw [show -Λ .gamma2 * (x - c.fRD) / (Λ .gamma3 * c.fDM) = -((x - c.fRD) * Λ .gamma2 / (c.fDM * Λ .gamma3)) by ring, Real.exp_neg]
  rw [show Λ .gamma3 * c.fDM = c.fDM * Λ .gamma3 by ring, one_div, mul_inv, div_eq_mul_inv, sq (c.fDM * Λ .gamma3)]
  ring

theorem peak_published (c : Ctx) (h : c.peak = fmaxCalc c.fRD c.fDM c.gamma2 c.gamma3) (Λ : Param → ℝ) (g2 : c.gamma2 = Λ .gamma2) (g3 : c.gamma3 = Λ .gamma3)
    (pos : 0 < c.gamma2) : c.peak = PhenomDModel.peak Λ c.fRD c.fDM := by
  rw [h]
  unfold fmaxCalc PhenomDModel.peak
  rw [← g2, ← g3]
  split_ifs with hg
  · rw [max_eq_left (by nlinarith)]
    congr 2; ring
  · rw [max_eq_right (by nlinarith), Real.sqrt_zero]
    congr 1; ring

theorem insPhase_published (c : Ctx) (Λ : Param → ℝ) (hΛ : ∀ p, codeFit p c.eta c.eta2 c.xi = Λ p) (h1 : 0 < c.m1) (h2 : 0 < c.m2) (he : c.eta = PNSpec.eta c.m1 c.m2)
    (x : ℝ) (hx : 0 < x) : c.insPhase x = PhenomDModel.insPhase Λ c.m1 c.m2 c.chi1 c.chi2 x := by
  have e1 : sigma1 c.eta c.eta2 c.xi = Λ .sigma1 := hΛ .sigma1
  have e2 : sigma2 c.eta c.eta2 c.xi = Λ .sigma2 := hΛ .sigma2
  have e3 : sigma3 c.eta c.eta2 c.xi = Λ .sigma3 := hΛ .sigma3
  have e4 : sigma4 c.eta c.eta2 c.xi = Λ .sigma4 := hΛ .sigma4
  have hs := c.ss3_removes x hx h1 h2 he
  dsimp only at hs
  unfold Ctx.insPhase PhenomDModel.insPhase spinSpin3PN
  dsimp only
  rw [hs, e1, e2, e3, e4, he]
  have hv : Bin.v x = (Real.pi * x) ^ (1 / 3 : ℝ) := rfl
  rw [hv]
  ring

theorem intDphase_published (c : Ctx) (Λ : Param → ℝ) (hΛ : ∀ p, codeFit p c.eta c.eta2 c.xi = Λ p) (x : ℝ) : c.intDphase x = PhenomDModel.intSlope Λ c.eta x := by
  have e1 : beta1 c.eta c.eta2 c.xi = Λ .beta1 := hΛ .beta1
  have e2 : beta2 c.eta c.eta2 c.xi = Λ .beta2 := hΛ .beta2
  have e3 : beta3 c.eta c.eta2 c.xi = Λ .beta3 := hΛ .beta3
  unfold Ctx.intDphase intSlope
  rw [e1, e2, e3]
  ring

theorem mrdDphase_published (c : Ctx) (Λ : Param → ℝ) (hΛ : ∀ p, codeFit p c.eta c.eta2 c.xi = Λ p) (x : ℝ) :
    c.mrdDphase x = PhenomDModel.mrSlope Λ c.eta c.fRD c.fDM x := by
  have e1 : alpha1 c.eta c.eta2 c.xi = Λ .alpha1 := hΛ .alpha1
  have e2 : alpha2 c.eta c.eta2 c.xi = Λ .alpha2 := hΛ .alpha2
  have e3 : alpha3 c.eta c.eta2 c.xi = Λ .alpha3 := hΛ .alpha3
  have e4 : alpha4 c.eta c.eta2 c.xi = Λ .alpha4 := hΛ .alpha4
  have e5 : alpha5 c.eta c.eta2 c.xi = Λ .alpha5 := hΛ .alpha5
  unfold Ctx.mrdDphase mrSlope
  rw [e1, e2, e3, e4, e5, add_comm ((x - Λ .alpha5 * c.fRD) ^ 2)]
  ring

/-- **C99.**  For every physical binary whose first body is not the lighter, amplitude and phase are those of the published model: the regions are those of
the paper, the ansatz of every region is, and the nineteen parameters are polynomials in `η` and the reduced spin whose coefficients round to those of
Table V.  (The amplitude multiplies the Newtonian one, `htilde_norm`; the pieces join smoothly, `amp_C1` and `phase_C1`, which fixes the quartic and the
constants `k`.) -/
theorem published_model : ∃ lam : Param → Fin 11 → ℚ, (∀ p i, SixDigits (lam p i) (tableV p i)) ∧
    ∀ mc q chi1 chi2, Physical mc q chi1 chi2 → q ≤ 1 →
      let c := ctxOf mc q chi1 chi2
      let m1 := mass1 mc q
      let m2 := mass2 mc q
      let η := PNSpec.eta m1 m2
      let Λ : Param → ℝ := fun p => fit (lam p) η (PhenomDSpec.reducedSpin m1 m2 chi1 chi2)
      c.peak = PhenomDModel.peak Λ c.fRD c.fDM ∧
      (∀ x, 0 < x → x ≤ 0.014 → c.amp x = PhenomDModel.insAmp Λ η (PNSpec.delta m1 m2) (PNSpec.chiS chi1 chi2) (PNSpec.chiA chi1 chi2) x) ∧
      (∃ a0 a1 a2 a3 a4 : ℝ, ∀ x, 0.014 < x → x ≤ c.peak → c.amp x = a0 + a1 * x + a2 * x ^ 2 + a3 * x ^ 3 + a4 * x ^ 4) ∧
      c.amp ((0.014 + c.peak) / 2) = Λ .v2 ∧
      (∀ x, c.peak < x → c.amp x = PhenomDModel.mrAmp Λ c.fRD c.fDM x) ∧
      (∀ x, 0 < x → x ≤ 0.018 → c.phase x = PhenomDModel.insPhase Λ m1 m2 chi1 chi2 x) ∧
      (∃ k, ∀ x, 0.018 < x → x ≤ c.fRD / 2 → HasDerivAt c.phase (PhenomDModel.intSlope Λ η x + k) x) ∧
      ∃ k, ∀ x, c.fRD / 2 < x → HasDerivAt c.phase (PhenomDModel.mrSlope Λ η c.fRD c.fDM x + k) x := by
  refine ⟨lam, lam_published, fun mc q chi1 chi2 h hq1 => ?_⟩
  intro c m1 m2 η Λ
  obtain ⟨hm, hq, _⟩ := id h
  have hc : Good c := good mc q chi1 chi2 h
  obtain ⟨j1, j2, j3, j4⟩ := hc.joins
  have he : c.eta = η := eta_PN mc q hm hq
  have hxi : c.xi = -1 + PhenomDSpec.reducedSpin m1 m2 chi1 chi2 := by
    show -1 + chiPN (setaOf (etaOf mc q)) (etaOf mc q) chi1 chi2 = _
    rw [chiPN_reduced mc q chi1 chi2 hm hq hq1]
  have hδ : c.seta = PNSpec.delta m1 m2 := (seta_delta mc q hm hq hq1).1
  have hΛ : ∀ p, codeFit p c.eta c.eta2 c.xi = Λ p := fun p => by
    unfold Ctx.eta2; rw [hxi, codeFit_eq, he]
  have g1 : c.gamma1 = Λ .gamma1 := hΛ .gamma1
  have g2 : c.gamma2 = Λ .gamma2 := hΛ .gamma2
  have g3 : c.gamma3 = Λ .gamma3 := hΛ .gamma3
  have ha : Ctx.ampJoin = 0.014 := rfl
  have hp : Ctx.phiJoin = 0.018 := rfl
  have hr : c.rdJoin = c.fRD / 2 := by unfold Ctx.rdJoin; ring
  have hv2 : ampIntCol c.eta c.eta2 c.xi = Λ .v2 := hΛ .v2
  have amp := fun x => c.amp_eq j1 x
  have ph := fun x (hx : 0 < x) => Ctx.phase_deriv c j2 j3 hc.m1 hc.m2 x hx
  rw [ha] at j1
  refine ⟨peak_published c rfl Λ g2 g3 (by have := hc.g2.1; linarith), fun x hx hx1 => ?_, ⟨c.withDelta delta0, c.withDelta delta1, c.withDelta delta2, c.withDelta delta3, c.withDelta delta4, fun x hx hx1 => ?_⟩, ?_, fun x hx => ?_, fun x hx hx1 => ?_,
    ⟨c.c2Int, fun x hx hx1 => ?_⟩, ⟨c.c2Mrd, fun x hx => ?_⟩⟩
  · rw [amp, ha, if_pos hx1, insAmp_published c rfl rfl Λ hΛ x hx, he, hδ]; rfl
  · rw [amp, ha, if_neg (not_le.2 hx), if_pos hx1]
    unfold Ctx.intAmp
    ring
  · have h5 := (c.intAmp_joins (by rw [ha]; exact j1)).2.2.2.2
    rw [amp, ha, if_neg (by linarith), if_pos (by linarith), ← ha, h5, hv2]
  · rw [amp, ha, if_neg (by linarith), if_neg (not_le.2 hx), mrdAmp_published c Λ g1 g2 g3]
  · rw [c.phase_eq j2, hp, if_pos hx1]
    exact insPhase_published c Λ hΛ hc.m1 hc.m2 he x hx
  · have := ph x (by linarith)
    unfold Ctx.phaseSlope at this
    rw [hp, if_neg (not_le.2 hx), hr, if_pos hx1, intDphase_published c Λ hΛ, he] at this
    exact this
  · rw [hp, hr] at j2
    have := ph x (by linarith)
    unfold Ctx.phaseSlope at this
    rw [hp, if_neg (by linarith), hr, if_neg (not_le.2 hx), mrdDphase_published c Λ hΛ, he] at this
    exact this

/-- The coefficients of the code's final spin after the leading one. -/
def spinCode : Fin 11 → ℚ :=
  ![-4.399247300629289, 9.397292189321194, -13.180949901606242, -0.0850917821418767, 0.1014665242971878, -1.3546806617824356, -0.8676969352555539,
    -5.837029316602263, -2.0967746996832157, 4.108962025369336, 2.064046835273906]

/-- The coefficients of the code's radiated energy. -/
def energyCode : Fin 10 → ℚ :=
  ![0.055974469826360077, 0.5809510763115132, -0.9606726679372312, 3.352411249771192, -0.0030302335878845507, -2.0066110851351073, 7.7050567802399215,
    -0.6714403054720589, -1.4756929437702908, 7.304676214885011]

theorem two_sqrt_three : |(3.4641016151377544 : ℝ) - 2 * Real.sqrt 3| ≤ 1e-15 := by
  have h1 : (1.7320508075688772 : ℝ) ≤ Real.sqrt 3 := by apply Real.le_sqrt_of_sq_le; norm_num
  have h2 : Real.sqrt 3 ≤ 1.7320508075688774 := by rw [Real.sqrt_le_left (by norm_num)]; norm_num
  rw [abs_le]; constructor <;> linarith

theorem massSpin_eq (mc q c1 c2 : ℝ) (hm : 0 < mc) (hq : 0 < q) (h1 : q ≤ 1) :
    massSpin (etaOf mc q) c1 c2 = (mass1 mc q ^ 2 * c1 + mass2 mc q ^ 2 * c2) / (mass1 mc q + mass2 mc q) ^ 2 ∧
    massNorm (etaOf mc q) = (mass1 mc q ^ 2 + mass2 mc q ^ 2) / (mass1 mc q + mass2 mc q) ^ 2 := by
  obtain ⟨p1, p2, _⟩ := masses_pos mc q hm hq
  have hδ := (seta_delta mc q hm hq h1).1
  unfold massSpin massNorm
  rw [hδ]
  unfold PNSpec.delta
  have : mass1 mc q + mass2 mc q ≠ 0 := by linarith
  constructor <;> field_simp <;> ring

/-- **C99.**  The ringdown: quasi-normal frequencies of a hole of the published final spin, in units of the mass left after the published radiated energy. -/
theorem published_final_state : ∃ (n0 : ℝ) (b : Fin 11 → ℚ) (e : Fin 10 → ℚ), |n0 - 2 * Real.sqrt 3| ≤ 1e-15 ∧ (∀ i, ThreeDecimals (b i) (spinTable i)) ∧
    (∀ i, SixDigits (e i) (energyTable i)) ∧ ∀ mc q chi1 chi2, Physical mc q chi1 chi2 → q ≤ 1 →
      let c := ctxOf mc q chi1 chi2
      let m1 := mass1 mc q
      let m2 := mass2 mc q
      let η := PNSpec.eta m1 m2
      let J := m1 ^ 2 * chi1 + m2 ^ 2 * chi2
      let af := PhenomDModel.finalSpin n0 b η (J / (m1 + m2) ^ 2)
      let M := 1 - PhenomDModel.radiated e η (J / (m1 ^ 2 + m2 ^ 2))
      c.fRD = interp qnmRing af / M ∧ c.fDM = interp qnmDamp af / M := by
  have hb : ∀ i, |spinCode i - spinTable i| ≤ 5e-4 := by decide +kernel
  have he : ∀ i, |energyCode i - energyTable i| ≤ 5e-6 * |energyTable i| := by decide +kernel
  refine ⟨3.4641016151377544, spinCode, energyCode, two_sqrt_three, hb, he, fun mc q chi1 chi2 h h1 => ?_⟩
  intro c m1 m2 η J af M
  obtain ⟨hm, hq, _⟩ := id h
  obtain ⟨p1, p2, _⟩ := masses_pos mc q hm hq
  obtain ⟨e0, e1⟩ := etaOf_range mc q hm hq
  obtain ⟨s1, s2⟩ := massSpin_eq mc q chi1 chi2 hm hq h1
  have hη : etaOf mc q = η := eta_PN mc q hm hq
  have hs : finalSpin (etaOf mc q) chi1 chi2 = af := by
    show finalSpin (etaOf mc q) chi1 chi2 = PhenomDModel.finalSpin _ _ _ _
    unfold finalSpin
    rw [s1]
    change finalSpinOf (etaOf mc q) (etaOf mc q * etaOf mc q) (J / (m1 + m2) ^ 2) = _
    rw [← hη]
    generalize J / (m1 + m2) ^ 2 = S
    generalize etaOf mc q = x at *
    unfold finalSpinOf PhenomDModel.finalSpin spinCode
    simp
    norm_num
    field_simp
    ring
  have hM : 1 - erad (etaOf mc q) chi1 chi2 = M := by
    show 1 - erad (etaOf mc q) chi1 chi2 = 1 - PhenomDModel.radiated _ _ _
    unfold erad
    rw [s1, s2, div_div_div_cancel_right₀ (by positivity)]
    change 1 - eradOf (etaOf mc q) (etaOf mc q * etaOf mc q) (J / (m1 ^ 2 + m2 ^ 2)) = _
    rw [← hη]
    generalize J / (m1 ^ 2 + m2 ^ 2) = S
    generalize etaOf mc q = x at *
    unfold eradOf PhenomDModel.radiated energyCode
    simp
    norm_num
    congr 1 <;> ring
  constructor
  · show interp qnmRing (finalSpin (etaOf mc q) chi1 chi2) / (1 - erad (etaOf mc q) chi1 chi2) = _
    rw [hs, hM]
  · show interp qnmDamp (finalSpin (etaOf mc q) chi1 chi2) / (1 - erad (etaOf mc q) chi1 chi2) = _
    rw [hs, hM]

theorem interp_knot (t : ℕ → ℝ) (i : ℕ) (hi : i + 1 < 1003) : interp t (qnmA i) = t i := by
  have := interp_linear t i hi 0 le_rfl (by norm_num)
  simpa using this

/-- **C99.**  The tables are those of the fundamental `l = m = 2` mode of a Kerr hole: at the spins of the published table they agree to its four digits. -/
theorem kerr_table (a w g : ℚ) (h : (a, w, g) ∈ kerrTable) :
    |2 * Real.pi * interp qnmRing a - w| ≤ 5e-5 ∧ |2 * Real.pi * interp qnmDamp a - g| ≤ 5e-5 := by
  have p1 := Real.pi_gt_d6
  have p2 := Real.pi_lt_d6
  have key : ∀ i : ℕ, i + 1 < 1003 → ∀ a' r d : ℤ, tabA.getD i 0 = a' → tabRing.getD i 0 = r → tabDamp.getD i 0 = d → (a : ℝ) = a' / 10 ^ 3 →
      interp qnmRing a = r / 10 ^ 7 ∧ interp qnmDamp a = d / 10 ^ 8 := by
    intro i hi a' r d h1 h2 h3 h4
    have e : (a : ℝ) = qnmA i := by unfold qnmA; rw [h1, h4]
    rw [e, interp_knot _ i hi, interp_knot _ i hi]
    unfold qnmRing qnmDamp
    rw [h2, h3]
    exact ⟨rfl, rfl⟩
  simp only [kerrTable, List.mem_cons, Prod.mk.injEq, List.not_mem_nil, or_false] at h
  rcases h with ⟨rfl, rfl, rfl⟩ | ⟨rfl, rfl, rfl⟩ | ⟨rfl, rfl, rfl⟩ | ⟨rfl, rfl, rfl⟩ | ⟨rfl, rfl, rfl⟩ | ⟨rfl, rfl, rfl⟩ | ⟨rfl, rfl, rfl⟩ | ⟨rfl, rfl, rfl⟩ | ⟨rfl, rfl, rfl⟩ | ⟨rfl, rfl, rfl⟩ | ⟨rfl, rfl, rfl⟩
  · obtain ⟨e1, e2⟩ := key 501 (by norm_num) 0 594717 1415880 (by decide +kernel) (by decide +kernel) (by decide +kernel) (by norm_num)
    rw [e1, e2, abs_le, abs_le]
    norm_num
    refine ⟨⟨?_, ?_⟩, ?_, ?_⟩ <;> linarith
  · obtain ⟨e1, e2⟩ := key 551 (by norm_num) 100 615958 1411800 (by decide +kernel) (by decide +kernel) (by decide +kernel) (by norm_num)
    rw [e1, e2, abs_le, abs_le]
    norm_num
    refine ⟨⟨?_, ?_⟩, ?_, ?_⟩ <;> linarith
  · obtain ⟨e1, e2⟩ := key 601 (by norm_num) 200 640034 1405520 (by decide +kernel) (by decide +kernel) (by decide +kernel) (by norm_num)
    rw [e1, e2, abs_le, abs_le]
    norm_num
    refine ⟨⟨?_, ?_⟩, ?_, ?_⟩ <;> linarith
  · obtain ⟨e1, e2⟩ := key 651 (by norm_num) 300 667697 1396250 (by decide +kernel) (by decide +kernel) (by decide +kernel) (by norm_num)
    rw [e1, e2, abs_le, abs_le]
    norm_num
    refine ⟨⟨?_, ?_⟩, ?_, ?_⟩ <;> linarith
  · obtain ⟨e1, e2⟩ := key 701 (by norm_num) 400 700030 1382770 (by decide +kernel) (by decide +kernel) (by decide +kernel) (by norm_num)
    rw [e1, e2, abs_le, abs_le]
    norm_num
    refine ⟨⟨?_, ?_⟩, ?_, ?_⟩ <;> linarith
  · obtain ⟨e1, e2⟩ := key 751 (by norm_num) 500 738675 1362980 (by decide +kernel) (by decide +kernel) (by decide +kernel) (by norm_num)
    rw [e1, e2, abs_le, abs_le]
    norm_num
    refine ⟨⟨?_, ?_⟩, ?_, ?_⟩ <;> linarith
  · obtain ⟨e1, e2⟩ := key 801 (by norm_num) 600 786297 1333160 (by decide +kernel) (by decide +kernel) (by decide +kernel) (by norm_num)
    rw [e1, e2, abs_le, abs_le]
    norm_num
    refine ⟨⟨?_, ?_⟩, ?_, ?_⟩ <;> linarith
  · obtain ⟨e1, e2⟩ := key 851 (by norm_num) 700 847660 1285860 (by decide +kernel) (by decide +kernel) (by decide +kernel) (by norm_num)
    rw [e1, e2, abs_le, abs_le]
    norm_num
    refine ⟨⟨?_, ?_⟩, ?_, ?_⟩ <;> linarith
  · obtain ⟨e1, e2⟩ := key 901 (by norm_num) 800 932675 1203680 (by decide +kernel) (by decide +kernel) (by decide +kernel) (by norm_num)
    rw [e1, e2, abs_le, abs_le]
    norm_num
    refine ⟨⟨?_, ?_⟩, ?_, ?_⟩ <;> linarith
  · obtain ⟨e1, e2⟩ := key 951 (by norm_num) 900 1068910 1032430 (by decide +kernel) (by decide +kernel) (by decide +kernel) (by norm_num)
    rw [e1, e2, abs_le, abs_le]
    norm_num
    refine ⟨⟨?_, ?_⟩, ?_, ?_⟩ <;> linarith
  · obtain ⟨e1, e2⟩ := key 991 (by norm_num) 980 1313710 614819 (by decide +kernel) (by decide +kernel) (by decide +kernel) (by norm_num)
    rw [e1, e2, abs_le, abs_le]
    norm_num
    refine ⟨⟨?_, ?_⟩, ?_, ?_⟩ <;> linarith

/-- Bounds on the second differences of two tables at the entries of `A` between -980 and 980. -/
def smoothB : List ℤ → List ℤ → List ℤ → Bool
  | _ :: a1 :: as, r0 :: r1 :: r2 :: rs, d0 :: d1 :: d2 :: ds =>
    ((decide (980 < a1) || decide (a1 < -980)) ||
      (decide (-1 ≤ r2 - 2 * r1 + r0) && decide (r2 - 2 * r1 + r0 ≤ 800) && (decide (-2000 ≤ d2 - 2 * d1 + d0) && decide (d2 - 2 * d1 + d0 ≤ 10)))) &&
      smoothB (a1 :: as) (r1 :: r2 :: rs) (d1 :: d2 :: ds)
  | _, _, _ => true

theorem smoothB_spec (A R D : List ℤ) (h : smoothB A R D = true) (i : ℕ) (hA : i + 1 < A.length) (hR : i + 2 < R.length) (hD : i + 2 < D.length)
    (ha : |A.getD (i + 1) 0| ≤ 980) :
    (-1 ≤ R.getD (i + 2) 0 - 2 * R.getD (i + 1) 0 + R.getD i 0 ∧ R.getD (i + 2) 0 - 2 * R.getD (i + 1) 0 + R.getD i 0 ≤ 800) ∧
      (-2000 ≤ D.getD (i + 2) 0 - 2 * D.getD (i + 1) 0 + D.getD i 0 ∧ D.getD (i + 2) 0 - 2 * D.getD (i + 1) 0 + D.getD i 0 ≤ 10) := by
  induction i generalizing A R D with
  | zero =>
    match A, R, D, hA, hR, hD with
    | a0 :: a1 :: as, r0 :: r1 :: r2 :: rs, d0 :: d1 :: d2 :: ds, _, _, _ =>
      simp only [smoothB, Bool.and_eq_true, Bool.or_eq_true, decide_eq_true_eq] at h
      simp only [List.getD_cons_zero, List.getD_cons_succ, zero_add] at ha ⊢
      rw [abs_le] at ha
      rcases h.1 with h | h
      · omega
      · exact ⟨h.1, h.2⟩
  | succ i ih =>
    match A, R, D, hA, hR, hD with
    | a0 :: a1 :: as, r0 :: r1 :: r2 :: rs, d0 :: d1 :: d2 :: ds, hA, hR, hD =>
      simp only [smoothB, Bool.and_eq_true] at h
      exact ih (a1 :: as) (r1 :: r2 :: rs) (d1 :: d2 :: ds) h.2 (by simpa using hA) (by simpa using hR) (by simpa using hD) ha

theorem smooth_tables : smoothB tabA tabRing tabDamp = true := by decide +kernel

/-- **C99.**  Between those spins the tables are smooth: away from the extremal ends the second differences are small, and up to the rounding of the last
digit the ringdown frequency is convex and the damping frequency concave in the spin. -/
theorem kerr_smooth (i : ℕ) (hi : i + 2 < 1003) (h : |qnmA (i + 1)| ≤ 0.98) :
    (-1e-7 ≤ qnmRing (i + 2) - 2 * qnmRing (i + 1) + qnmRing i ∧ qnmRing (i + 2) - 2 * qnmRing (i + 1) + qnmRing i ≤ 8e-5) ∧
    (-2e-5 ≤ qnmDamp (i + 2) - 2 * qnmDamp (i + 1) + qnmDamp i ∧ qnmDamp (i + 2) - 2 * qnmDamp (i + 1) + qnmDamp i ≤ 1e-7) := by
  have ha : |tabA.getD (i + 1) 0| ≤ 980 := by
    unfold qnmA at h
    rw [abs_div, abs_of_pos (by norm_num : (0 : ℝ) < 10 ^ 3), div_le_iff₀ (by norm_num)] at h
    have : ((|tabA.getD (i + 1) 0| : ℤ) : ℝ) ≤ ((980 : ℤ) : ℝ) := by push_cast; norm_num at h ⊢; linarith
    exact_mod_cast this
  obtain ⟨⟨r1, r2⟩, d1, d2⟩ := smoothB_spec tabA tabRing tabDamp smooth_tables i (by rw [tabA_length]; omega) (by rw [tabRing_length]; omega) (by rw [tabDamp_length]; omega) ha
  unfold qnmRing qnmDamp
  generalize tabRing.getD i 0 = x0 at *
  generalize tabRing.getD (i + 1) 0 = x1 at *
  generalize tabRing.getD (i + 2) 0 = x2 at *
  generalize tabDamp.getD i 0 = y0 at *
  generalize tabDamp.getD (i + 1) 0 = y1 at *
  generalize tabDamp.getD (i + 2) 0 = y2 at *
  have q1 : ((-1 : ℤ) : ℝ) ≤ ((x2 - 2 * x1 + x0 : ℤ) : ℝ) := by exact_mod_cast r1
  have q2 : ((x2 - 2 * x1 + x0 : ℤ) : ℝ) ≤ ((800 : ℤ) : ℝ) := by exact_mod_cast r2
  have q3 : ((-2000 : ℤ) : ℝ) ≤ ((y2 - 2 * y1 + y0 : ℤ) : ℝ) := by exact_mod_cast d1
  have q4 : ((y2 - 2 * y1 + y0 : ℤ) : ℝ) ≤ ((10 : ℤ) : ℝ) := by exact_mod_cast d2
  push_cast at q1 q2 q3 q4
  refine ⟨⟨?_, ?_⟩, ?_, ?_⟩ <;> norm_num <;> linarith

/-- The hypotheses are met by a black-hole binary of chirp mass 30 and mass ratio 1/2 with spins 0.7 and -0.3. -/
example : Physical 30 (1 / 2) 0.7 (-0.3) ∧ (1 / 2 : ℝ) ≤ 1 := by unfold Physical; norm_num

/-- A Schwarzschild remnant rings at `M ω = 0.3737`. -/
example : |2 * Real.pi * interp qnmRing ((0 : ℚ) : ℝ) - ((0.3737 : ℚ) : ℝ)| ≤ 5e-5 := (kerr_table 0 0.3737 0.0890 (by decide +kernel)).1

end Verif.PhenomD
