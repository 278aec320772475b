import Verif.Spec.TaylorF2
import Verif.Spec.PhenomD
/-!
# The published IMRPhenomD model (C99)

Written from the literature, without reference to the code: Khan et al. (2016, arXiv:1508.07253) for the ansatz of each region, the polynomial form of the fits, Table V for their coefficients (six significant digits) and appendix B for the post-Newtonian amplitude; Husa et al. (2016,
arXiv:1508.07250) for the final spin and the radiated energy; Berti, Cardoso and Will (2006) for the fundamental l = m = 2 quasi-normal
frequencies of Kerr black holes (four digits).
-/
namespace Verif.PhenomDModel

/-- The nineteen phenomenological parameters. -/
inductive Param where
  | rho1 | rho2 | rho3 | v2 | gamma1 | gamma2 | gamma3
  | sigma1 | sigma2 | sigma3 | sigma4 | beta1 | beta2 | beta3
  | alpha1 | alpha2 | alpha3 | alpha4 | alpha5
  deriving DecidableEq

/-- Table V: `λ00 λ10 λ01 λ11 λ21 λ02 λ12 λ22 λ03 λ13 λ23` of each parameter. -/
def tableV : Param → Fin 11 → ℚ
  | .rho1 => ![3931.9, -17395.8, 3132.38, 343966, -1.21626e6, -70698, 1.38391e6, -3.96628e6, -60017.5, 803515, -2.09171e6]
  | .rho2 => ![-40105.5, 112253, 23561.7, -3.47618e6, 1.13759e7, 754313, -1.30848e7, 3.64446e7, 596227, -7.42779e6, 1.8929e7]
  | .rho3 => ![83208.4, -191238, -210916, 8.71798e6, -2.69149e7, -1.98898e6, 3.0888e7, -8.39087e7, -1.4535e6, 1.70635e7, -4.27487e7]
  | .v2 => ![0.814984, 2.57476, 1.16102, -2.36278, 6.77104, 0.757078, -2.72569, 7.11404, 0.176693, -0.797869, 2.11624]
  | .gamma1 => ![0.0069274, 0.0302047, 0.00630802, -0.120741, 0.262716, 0.00341518, -0.107793, 0.27099, 0.000737419, -0.0274962, 0.0733151]
  | .gamma2 => ![1.01034, 0.000899312, 0.283949, -4.04975, 13.2078, 0.103963, -7.02506, 24.7849, 0.030932, -2.6924, 9.60937]
  | .gamma3 => ![1.30816, -0.00553773, -0.0678292, -0.668983, 3.40315, -0.0529658, -0.992379, 4.82068, -0.00613414, -0.384293, 1.75618]
  | .sigma1 => ![2096.55, 1463.75, 1312.55, 18307.3, -43534.1, -833.289, 32047.3, -108609, 452.251, 8353.44, -44531.3]
  | .sigma2 => ![-10114.1, -44631, -6541.31, -266959, 686328, 3405.64, -437508, 1.63182e6, -7462.65, -114585, 674402]
  | .sigma3 => ![22933.7, 230960, 14961.1, 1.19402e6, -3.10422e6, -3038.17, 1.87203e6, -7.30915e6, 42738.2, 467502, -3.06485e6]
  | .sigma4 => ![-14621.7, -377813, -9608.68, -1.71089e6, 4.33292e6, -22366.7, -2.50197e6, 1.02745e7, -85360.3, -570025, 4.39684e6]
  | .beta1 => ![97.8975, -42.6597, 153.484, -1417.06, 2752.86, 138.741, -1433.66, 2857.74, 41.0251, -423.681, 850.359]
  | .beta2 => ![-3.2827, -9.05138, -12.4154, 55.4716, -106.051, -11.953, 76.807, -155.332, -3.41293, 25.5724, -54.408]
  | .beta3 => ![-2.51564e-5, 1.97503e-5, -1.83707e-5, 2.18863e-5, 8.25024e-5, 7.15737e-6, -5.578e-5, 1.91421e-4, 5.44717e-6, -3.22061e-5, 7.97402e-5]
  | .alpha1 => ![43.3151, 638.633, -32.8577, 2415.89, -5766.88, -61.8546, 2953.97, -8986.29, -21.5714, 981.216, -3239.57]
  | .alpha2 => ![-0.0702021, -0.162698, -0.187251, 1.13831, -2.83342, -0.17138, 1.71975, -4.53972, -0.0499834, 0.606207, -1.68277]
  | .alpha3 => ![9.59881, -397.054, 16.2021, -1574.83, 3600.34, 27.0924, -1786.48, 5152.92, 11.1757, -577.8, 1808.73]
  | .alpha4 => ![-0.0298949, 1.40221, -0.0735605, 0.833701, 0.224001, -0.0552029, 0.566719, 0.718693, -0.0155074, 0.157503, 0.210768]
  | .alpha5 => ![0.997441, -0.00788445, -0.0590469, 1.39587, -4.51663, -0.0558534, 1.75166, -5.99021, -0.0179453, 0.59651, -2.06089]

/-- `y` is `x` rounded to six significant digits (half a unit of the sixth digit is at most `5e-6` of the number). -/
def SixDigits (x y : ℚ) : Prop := |x - y| ≤ 5e-6 * |y|

/-- The fit of a parameter as a polynomial in `η` and `χ - 1`. -/
noncomputable def fit (l : Fin 11 → ℚ) (η χ : ℝ) : ℝ :=
  l 0 + l 1 * η + (l 2 + l 3 * η + l 4 * η ^ 2) * (χ - 1) + (l 5 + l 6 * η + l 7 * η ^ 2) * (χ - 1) ^ 2 + (l 8 + l 9 * η + l 10 * η ^ 2) * (χ - 1) ^ 3

/-- Appendix B: the re-expanded post-Newtonian amplitude, relative to the Newtonian one, at velocity `v`. -/
noncomputable def pnAmp (η δ s a v : ℝ) : ℝ :=
  1 + (-323 / 224 + 451 / 168 * η) * v ^ 2 + (27 / 8 * δ * a + (27 / 8 - 11 / 6 * η) * s) * v ^ 3
    + (-27312085 / 8128512 - 1975055 / 338688 * η + 105271 / 24192 * η ^ 2 + (-81 / 32 + 8 * η) * a ^ 2 - 81 / 16 * δ * a * s + (-81 / 32 + 17 / 8 * η) * s ^ 2) * v ^ 4
    + (-85 / 64 * Real.pi + 85 / 16 * Real.pi * η + (285197 / 16128 - 1579 / 4032 * η) * δ * a + (285197 / 16128 - 15317 / 672 * η - 2227 / 1008 * η ^ 2) * s) * v ^ 5
    + (-177520268561 / 8583708672 + (545384828789 / 5007163392 - 205 / 48 * Real.pi ^ 2) * η - 3248849057 / 178827264 * η ^ 2 + 34473079 / 6386688 * η ^ 3
        + (1614569 / 64512 - 1873643 / 16128 * η + 2167 / 42 * η ^ 2) * a ^ 2 + (31 / 12 * Real.pi - 7 / 3 * Real.pi * η) * s
        + (1614569 / 64512 - 61391 / 1344 * η + 57451 / 4032 * η ^ 2) * s ^ 2
        + δ * a * (31 / 12 * Real.pi + (1614569 / 32256 - 165961 / 2688 * η) * s)) * v ^ 6

/-- The inspiral amplitude at geometric frequency `x = M f`. -/
noncomputable def insAmp (Λ : Param → ℝ) (η δ s a x : ℝ) : ℝ :=
  pnAmp η δ s a ((Real.pi * x) ^ (1 / 3 : ℝ)) + Λ .rho1 * x ^ (7 / 3 : ℝ) + Λ .rho2 * x ^ (8 / 3 : ℝ) + Λ .rho3 * x ^ (3 : ℝ)

/-- The merger-ringdown amplitude. -/
noncomputable def mrAmp (Λ : Param → ℝ) (fRD fDM x : ℝ) : ℝ :=
  Λ .gamma1 * (Λ .gamma3 * fDM) / ((x - fRD) ^ 2 + (Λ .gamma3 * fDM) ^ 2) * Real.exp (-Λ .gamma2 * (x - fRD) / (Λ .gamma3 * fDM))

/-- The frequency of the peak, with the limit form where `γ2 ≥ 1`. -/
noncomputable def peak (Λ : Param → ℝ) (fRD fDM : ℝ) : ℝ :=
  if Λ .gamma2 < 1 then |fRD + fDM * (Real.sqrt (1 - Λ .gamma2 ^ 2) - 1) * Λ .gamma3 / Λ .gamma2| else |fRD - fDM * Λ .gamma3 / Λ .gamma2|

/-- The 3PN spin-spin terms that TaylorF2 has and IMRPhenomD leaves out, times `128 η / 3` and without the velocity. -/
noncomputable def spinSpin3PN (η δ s a : ℝ) : ℝ :=
  (75515 / 144 - 8225 / 18 * η) * δ * a * s + (75515 / 288 - 263245 / 252 * η - 480 * η ^ 2) * a ^ 2
    + (75515 / 288 - 232415 / 504 * η + 1255 / 9 * η ^ 2) * s ^ 2

/-- The inspiral phase. -/
noncomputable def insPhase (Λ : Param → ℝ) (m1 m2 c1 c2 x : ℝ) : ℝ :=
  let η := PNSpec.eta m1 m2
  let v := (Real.pi * x) ^ (1 / 3 : ℝ)
  PNSpec.phase m1 m2 c1 c2 v - 3 / (128 * η) * v * spinSpin3PN η (PNSpec.delta m1 m2) (PNSpec.chiS c1 c2) (PNSpec.chiA c1 c2)
    + 1 / η * (Λ .sigma1 * x + 3 / 4 * Λ .sigma2 * x ^ (4 / 3 : ℝ) + 3 / 5 * Λ .sigma3 * x ^ (5 / 3 : ℝ) + 1 / 2 * Λ .sigma4 * x ^ (2 : ℝ))

/-- Slope of the intermediate phase. -/
noncomputable def intSlope (Λ : Param → ℝ) (η x : ℝ) : ℝ := 1 / η * (Λ .beta1 + Λ .beta2 * x ^ (-1 : ℝ) + Λ .beta3 * x ^ (-4 : ℝ))

/-- Slope of the merger-ringdown phase. -/
noncomputable def mrSlope (Λ : Param → ℝ) (η fRD fDM x : ℝ) : ℝ :=
  1 / η * (Λ .alpha1 + Λ .alpha2 * x ^ (-2 : ℝ) + Λ .alpha3 * x ^ (-1 / 4 : ℝ) + Λ .alpha4 * fDM / (fDM ^ 2 + (x - Λ .alpha5 * fRD) ^ 2))

/-- Husa et al.: coefficients of the final spin to three decimals. -/
def spinTable : Fin 11 → ℚ := ![-4.399, 9.397, -13.181, -0.085, 0.101, -1.355, -0.868, -5.837, -2.097, 4.109, 2.064]

/-- `y` is `x` rounded to three decimals. -/
def ThreeDecimals (x y : ℚ) : Prop := |x - y| ≤ 5e-4

/-- Husa et al.: the final spin, `S = (m1² χ1 + m2² χ2) / M²`, with the leading coefficient `n0` (`2 √3`). -/
noncomputable def finalSpin (n0 : ℝ) (b : Fin 11 → ℚ) (η S : ℝ) : ℝ :=
  S + n0 * η + b 0 * η ^ 2 + b 1 * η ^ 3 + b 2 * η ^ 4 + (b 3 * S + b 4 * S ^ 2 + b 5 * S ^ 3 + b 6 * S ^ 4) * η
    + (b 7 * S + b 8 * S ^ 2 + b 9 * S ^ 3 + b 10 * S ^ 4) * η ^ 2

/-- Husa et al.: coefficients of the radiated energy. -/
def energyTable : Fin 10 → ℚ := ![0.0559745, 0.580951, -0.960673, 3.35241, -0.00303023, -2.00661, 7.70506, -0.67144, -1.47569, 7.30468]

/-- The radiated energy as a fraction of the mass, `Ŝ = (m1² χ1 + m2² χ2) / (m1² + m2²)`. -/
noncomputable def radiated (e : Fin 10 → ℚ) (η S : ℝ) : ℝ :=
  η * (e 0 + e 1 * η + e 2 * η ^ 2 + e 3 * η ^ 3) * (1 + S * (e 4 + e 5 * η + e 6 * η ^ 2)) / (1 + S * (e 7 + e 8 * η + e 9 * η ^ 2))

/-- Berti, Cardoso and Will: spin, `M ω` and `-M Im ω` of the fundamental `l = m = 2` mode. -/
def kerrTable : List (ℚ × ℚ × ℚ) :=
  [(0, 0.3737, 0.0890), (0.1, 0.3870, 0.0887), (0.2, 0.4021, 0.0883), (0.3, 0.4195, 0.0877), (0.4, 0.4398, 0.0869), (0.5, 0.4641, 0.0856),
   (0.6, 0.4940, 0.0838), (0.7, 0.5326, 0.0808), (0.8, 0.5860, 0.0756), (0.9, 0.6716, 0.0649), (0.98, 0.8254, 0.0386)]

end Verif.PhenomDModel
