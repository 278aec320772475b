import Mathlib.Analysis.SpecialFunctions.Log.Basic
import Mathlib.Analysis.SpecialFunctions.Pow.Real
import Mathlib.Analysis.SpecialFunctions.Trigonometric.Basic
/-!
# The post-Newtonian stationary-phase waveform in the literature's form (C58)

Written without reference to the model: the phase as in Buonanno et al. (2009) for the non-spinning terms and Mishra et al. (2016, eq. 6.2) for the spin terms, in the symmetric mass ratio, the mass difference `δ = (m1 - m2)/(m1 + m2)` and the symmetric and antisymmetric spins.
-/
namespace Verif.PNSpec

/-- `η`. -/
noncomputable def eta (m1 m2 : ℝ) : ℝ := m1 * m2 / (m1 + m2) ^ 2
/-- `δ`. -/
noncomputable def delta (m1 m2 : ℝ) : ℝ := (m1 - m2) / (m1 + m2)
/-- `χ_s`. -/
noncomputable def chiS (c1 c2 : ℝ) : ℝ := (c1 + c2) / 2
/-- `χ_a`. -/
noncomputable def chiA (c1 c2 : ℝ) : ℝ := (c1 - c2) / 2

/-- Leading decimals of Euler's constant. -/
noncomputable def gammaE : ℝ := 0.577215664901532860606512090082402431

/-- 1PN. -/
noncomputable def psi2 (η : ℝ) : ℝ := 3715 / 756 + 55 / 9 * η
/-- 1.5PN: tail and spin-orbit. -/
noncomputable def psi3 (η δ s a : ℝ) : ℝ := -16 * Real.pi + 113 / 3 * δ * a + (113 / 3 - 76 / 3 * η) * s
/-- 2PN with spin-spin. -/
noncomputable def psi4 (η δ s a : ℝ) : ℝ :=
  15293365 / 508032 + 27145 / 504 * η + 3085 / 72 * η ^ 2 + (-405 / 8 + 200 * η) * a ^ 2 - 405 / 4 * δ * a * s + (-405 / 8 + 5 / 2 * η) * s ^ 2
/-- 2.5PN; multiplies `1 + 3 log v`. -/
noncomputable def psi5 (η δ s a : ℝ) : ℝ :=
  Real.pi * (38645 / 756 - 65 / 9 * η) + (-732985 / 2268 - 140 / 9 * η) * δ * a + (-732985 / 2268 + 24260 / 81 * η + 340 / 9 * η ^ 2) * s
/-- 3PN. -/
noncomputable def psi6 (η δ s a v : ℝ) : ℝ :=
  11583231236531 / 4694215680 - 640 / 3 * Real.pi ^ 2 - 6848 / 21 * gammaE - 6848 / 21 * Real.log (4 * v)
    + (-15737765635 / 3048192 + 2255 / 12 * Real.pi ^ 2) * η + 76055 / 1728 * η ^ 2 - 127825 / 1296 * η ^ 3
    + Real.pi * (2270 / 3 * δ * a + (2270 / 3 - 520 * η) * s)
    + (75515 / 144 - 8225 / 18 * η) * δ * a * s + (75515 / 288 - 263245 / 252 * η - 480 * η ^ 2) * a ^ 2
    + (75515 / 288 - 232415 / 504 * η + 1255 / 9 * η ^ 2) * s ^ 2
/-- 3.5PN. -/
noncomputable def psi7 (η δ s a : ℝ) : ℝ :=
  Real.pi * (77096675 / 254016 + 378515 / 1512 * η - 74045 / 756 * η ^ 2)
    + (-25150083775 / 3048192 + 26804935 / 6048 * η - 1985 / 48 * η ^ 2) * δ * a
    + (-25150083775 / 3048192 + 10566655595 / 762048 * η - 1042165 / 3024 * η ^ 2 + 5345 / 36 * η ^ 3) * s

/-- The stationary phase at velocity `v`, without the coalescence terms. -/
noncomputable def phase (m1 m2 c1 c2 v : ℝ) : ℝ :=
  let η := eta m1 m2
  let δ := delta m1 m2
  let s := chiS c1 c2
  let a := chiA c1 c2
  3 / (128 * η * v ^ 5) * (1 + psi2 η * v ^ 2 + psi3 η δ s a * v ^ 3 + psi4 η δ s a * v ^ 4 + psi5 η δ s a * (1 + 3 * Real.log v) * v ^ 5
    + psi6 η δ s a v * v ^ 6 + psi7 η δ s a * v ^ 7)

/-- The Newtonian stationary-phase amplitude for a chirp mass `mc` and a distance `d` in seconds. -/
noncomputable def amplitude (mc d f : ℝ) : ℝ := Real.sqrt (5 / 24) * Real.pi ^ (-(2 / 3) : ℝ) * mc ^ (5 / 6 : ℝ) * f ^ (-(7 / 6) : ℝ) / d

end Verif.PNSpec
