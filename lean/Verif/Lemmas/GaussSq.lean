import Mathlib.Probability.Distributions.Exponential
import Mathlib.Probability.Distributions.Gaussian.Real
import Mathlib.Probability.Independence.CharacteristicFunction
import Mathlib.Analysis.SpecialFunctions.ImproperIntegrals
import Mathlib.Analysis.SpecialFunctions.Gaussian.GaussianIntegral
/-! # The squared length of a pair of independent centred normal variables is exponential -/
namespace Verif.OrderStat
open MeasureTheory ProbabilityTheory Complex

theorem charFun_exp (r : ℝ) (hr : 0 < r) (t : ℝ) : charFun (expMeasure r) t = r / (r - t * I) := by
  rw [charFun_apply_real]
  have h : expMeasure r = volume.withDensity (exponentialPDF r) := rfl
  have hm : Measurable (exponentialPDF r) := (measurable_exponentialPDFReal r).ennreal_ofReal
  rw [h, integral_withDensity_eq_integral_toReal_smul hm (Filter.Eventually.of_forall fun x => by simp [exponentialPDF])]
  have e : ∀ x : ℝ, (exponentialPDF r x).toReal • cexp (t * x * I) =
      (Set.Ici 0).indicator (fun x : ℝ => r * cexp ((t * I - r) * x)) x := by
    intro x
    rw [exponentialPDF_eq]
    by_cases hx : 0 ≤ x
    · rw [if_pos hx, Set.indicator_of_mem (by exact hx), ENNReal.toReal_ofReal (by positivity), real_smul]
      push_cast
      rw [mul_assoc, ← Complex.exp_add]
      congr 2; ring
    · rw [if_neg hx, Set.indicator_of_notMem (by exact hx)]; simp
  simp_rw [e]
  rw [integral_indicator measurableSet_Ici, integral_Ici_eq_integral_Ioi, integral_const_mul,
    integral_exp_mul_complex_Ioi (by simp [hr])]
  have hne : (t * I - r : ℂ) ≠ 0 := by
    intro h; have := congrArg Complex.re h; simp at this; exact hr.ne' this
  have hne' : (r - t * I : ℂ) ≠ 0 := by
    intro h; have := congrArg Complex.re h; simp at this; exact hr.ne' this
  have : (t * I - r : ℂ) = -(r - t * I) := by ring
  rw [this, Complex.ofReal_zero, mul_zero, Complex.exp_zero]
  field_simp

theorem charFun_sq (v : NNReal) (hv : v ≠ 0) (t : ℝ) :
    charFun ((gaussianReal 0 v).map (fun x => x ^ 2)) t ^ 2 = 1 / (1 - 2 * v * t * I) := by
  rw [charFun_apply_real, integral_map (by fun_prop) (by fun_prop), integral_gaussianReal_eq_integral_smul hv]
  have hv0 : (0 : ℝ) < v := by positivity
  have e : ∀ x : ℝ, gaussianPDFReal 0 v x • cexp (t * (x ^ 2 : ℝ) * I) =
      ((Real.sqrt (2 * Real.pi * v))⁻¹ : ℝ) * cexp (-(1 / (2 * v) - t * I) * x ^ 2) := by
    intro x
    rw [gaussianPDFReal_def, real_smul]
    push_cast
    rw [mul_assoc, ← Complex.exp_add]
    congr 2
    have : (v : ℂ) ≠ 0 := by exact_mod_cast hv
    field_simp
    ring
  simp_rw [e]
  have hre : 0 < (1 / (2 * v) - t * I : ℂ).re := by
    have h : (1 / (2 * v) - t * I : ℂ) = ((1 / (2 * v) : ℝ) : ℂ) - t * I := by push_cast; ring
    rw [h]; simp [hv0]
  have hb : (1 / (2 * v) - t * I : ℂ) ≠ 0 := by
    intro h; rw [h] at hre; simp at hre
  have hvc : (v : ℂ) ≠ 0 := by exact_mod_cast hv
  have hb' : (1 / (2 * v) - t * I : ℂ) = (1 - 2 * v * t * I) / (2 * v) := by field_simp
  have hb2 : (1 - 2 * v * t * I : ℂ) ≠ 0 := by
    intro h; rw [hb', h] at hb; simp at hb
  have hpi : (Real.pi : ℂ) ≠ 0 := by exact_mod_cast Real.pi_ne_zero
  have hroot : ((Real.pi / (1 / (2 * v) - t * I) : ℂ) ^ (1 / 2 : ℂ)) ^ 2 = Real.pi / (1 / (2 * v) - t * I) := by
    rw [← Complex.cpow_nat_mul]; norm_num
  have hs : (((Real.sqrt (2 * Real.pi * v))⁻¹ : ℝ) : ℂ) ^ 2 = 1 / (2 * Real.pi * v) := by
    rw [← Complex.ofReal_pow, inv_pow, Real.sq_sqrt (by positivity)]; push_cast; ring
  rw [integral_const_mul, integral_gaussian_complex hre, mul_pow, hroot, hs, hb']
  field_simp

theorem sq_add_sq_exp {Ω : Type*} [MeasurableSpace Ω] (P : Measure Ω) [IsProbabilityMeasure P] (U V : Ω → ℝ) (v : NNReal) (hv : v ≠ 0)
    (hU : AEMeasurable U P) (hV : AEMeasurable V P) (hUl : P.map U = gaussianReal 0 v) (hVl : P.map V = gaussianReal 0 v)
    (hUV : IndepFun U V P) : P.map (fun ω => U ω ^ 2 + V ω ^ 2) = expMeasure (1 / (2 * v)) := by
  have hv0 : (0 : ℝ) < v := by positivity
  have hr : (0 : ℝ) < 1 / (2 * v) := by positivity
  have := isProbabilityMeasure_expMeasure hr
  have hsq : Measurable fun x : ℝ => x ^ 2 := by fun_prop
  have h2 : IndepFun (fun ω => U ω ^ 2) (fun ω => V ω ^ 2) P := hUV.comp hsq hsq
  have hU2 : AEMeasurable (fun ω => U ω ^ 2) P := hsq.comp_aemeasurable hU
  have hV2 : AEMeasurable (fun ω => V ω ^ 2) P := hsq.comp_aemeasurable hV
  have : IsFiniteMeasure (P.map fun ω => U ω ^ 2 + V ω ^ 2) := inferInstance
  apply Measure.ext_of_charFun
  ext t
  have hadd := h2.charFun_map_add_eq_mul hU2 hV2
  have e1 : P.map (fun ω => U ω ^ 2) = (gaussianReal 0 v).map (fun x => x ^ 2) := by
    rw [← hUl, AEMeasurable.map_map_of_aemeasurable hsq.aemeasurable hU]; rfl
  have e2 : P.map (fun ω => V ω ^ 2) = (gaussianReal 0 v).map (fun x => x ^ 2) := by
    rw [← hVl, AEMeasurable.map_map_of_aemeasurable hsq.aemeasurable hV]; rfl
  have e3 : (fun ω => U ω ^ 2 + V ω ^ 2) = (fun ω => U ω ^ 2) + fun ω => V ω ^ 2 := rfl
  rw [e3, hadd, e1, e2, Pi.mul_apply, ← sq, charFun_sq v hv, charFun_exp _ hr]
  have hvc : (v : ℂ) ≠ 0 := by exact_mod_cast hv
  push_cast
  have : (1 / (2 * v) - t * I : ℂ) = (1 - 2 * v * t * I) / (2 * v) := by field_simp
  rw [this]
  have h0 : (1 - 2 * v * t * I : ℂ) ≠ 0 := by
    intro h; have := congrArg Complex.re h; simp at this
  field_simp

end Verif.OrderStat
