import Verif.Model.Constants
import Mathlib.Analysis.Real.Pi.Bounds
import Mathlib.Tactic.Linarith
import Mathlib.Tactic.NormNum
import Mathlib.Tactic.FieldSimp
import Mathlib.Tactic.Positivity
/-!
# The exported constants (C76)
-/
namespace Verif.Constants
open CbcUtils

/-- Metres in a parsec, from the IAU definitions: 648000/π astronomical units of 149597870700 m. -/
noncomputable def parsec : ℝ := 648000 / Real.pi * 149597870700

/-- The nominal solar mass parameter of IAU resolution B3 (2015), in m³/s². -/
noncomputable def nominalGM : ℝ := 1.3271244e20

/-- **π.**  The exported value is within 10⁻²⁰ of π, and the other is exactly twice it. -/
theorem pi_accuracy : |piC - Real.pi| < 1e-20 ∧ twoPiC = 2 * piC := by
  constructor
  · have h1 := Real.pi_gt_d20
    have h2 := Real.pi_lt_d20
    unfold piC
    rw [abs_lt]; constructor <;> norm_num at h1 h2 ⊢ <;> linarith
  · unfold twoPiC piC; norm_num

/-- **A megaparsec.**  Metres per megaparsec agree with a million IAU parsecs to 19 digits, and a megaparsec in seconds is that length over the speed of
light. -/
theorem mpc_accuracy : |mPerMpc - 10 ^ 6 * parsec| < 1e-19 * (10 ^ 6 * parsec) ∧ TaylorF2.mpcSec * cLight = mPerMpc := by
  constructor
  · have h1 := Real.pi_gt_d20
    have h2 := Real.pi_lt_d20
    have hp := Real.pi_pos
    have e : (10 : ℝ) ^ 6 * parsec = 96939420213600000000000 / Real.pi := by unfold parsec; norm_num [div_mul_eq_mul_div, mul_div_assoc']
    rw [e, abs_lt]
    unfold mPerMpc
    constructor
    · have e2 : -(1e-19 * (96939420213600000000000 / Real.pi)) + 96939420213600000000000 / Real.pi = (1 - 1e-19) * 96939420213600000000000 / Real.pi := by ring
      rw [lt_sub_iff_add_lt, e2, div_lt_iff₀ hp]
      norm_num at h1 h2 ⊢
      linarith
    · rw [sub_lt_iff_lt_add, (by ring : 1e-19 * (96939420213600000000000 / Real.pi) + 96939420213600000000000 / Real.pi = (1 + 1e-19) * 96939420213600000000000 / Real.pi), lt_div_iff₀ hp]
      norm_num at h1 h2 ⊢
      linarith
  · unfold TaylorF2.mpcSec mPerMpc cLight
    norm_num

/-- **The solar mass** in metres and in seconds is the nominal solar mass parameter over c² and c³, to 35 digits. -/
theorem msun_geometric : |mrsun * cLight ^ 2 - nominalGM| < 1e-35 * nominalGM ∧ |mtsun * cLight ^ 3 - nominalGM| < 1e-35 * nominalGM := by
  unfold mrsun cLight nominalGM mtsun Conversion.mtsun
  constructor <;> rw [abs_lt] <;> constructor <;> norm_num

/-- **The solar mass in kilograms** is not the mass the other two stand for: through Newton's constant it gives a time longer by 1.58 · 10⁻⁸ of its value. -/
theorem gt_accuracy : 1.58e-8 * mtsun < gt - mtsun ∧ gt - mtsun < 1.59e-8 * mtsun := by
  have e : gt = gNewton * msun / cLight ^ 3 := by
    unfold gt; congr 1
    rw [show (3.0 : ℝ) = ((3 : ℕ) : ℝ) by norm_num, Real.rpow_natCast]
  rw [e]
  unfold gNewton msun cLight mtsun Conversion.mtsun
  constructor <;> norm_num

/-- **Finding: `clightGpc` is not in gigaparsecs per second.**  It is about a thousand times the speed of light in gigaparsecs per second; in megaparsecs
per second it is accurate to one part in ten million. -/
theorem clightGpc_is_Mpc : |clightGpc - cLight / (10 ^ 6 * parsec)| < 1e-7 * (cLight / (10 ^ 6 * parsec)) ∧
    999 * (cLight / (10 ^ 9 * parsec)) < clightGpc := by
  have h1 := Real.pi_gt_d20
  have h2 := Real.pi_lt_d20
  have hp := Real.pi_pos
  have e : cLight / (10 ^ 6 * parsec) = 299792458 / 96939420213600000000000 * Real.pi := by unfold parsec cLight; field_simp; norm_num
  have e9 : cLight / (10 ^ 9 * parsec) = 299792458 / 96939420213600000000000000 * Real.pi := by unfold parsec cLight; field_simp; norm_num
  rw [e, e9, abs_lt]
  unfold clightGpc cLight
  norm_num at h1 h2 ⊢
  refine ⟨⟨by linarith, by linarith⟩, by linarith⟩

end Verif.Constants
