import Verif.Model.Adhoc
import Verif.Spec.Adhoc
import Verif.Lemmas.Tensor
import Verif.Lemmas.Whiten
import Verif.Props.CbcUtils
import Mathlib.Analysis.SpecialFunctions.Gaussian.FourierTransform
/-!
# Properties of the ad-hoc waveforms (C60)
-/
set_option linter.unusedSimpArgs false
set_option linter.unusedVariables false
namespace Verif.Adhoc
open Whiten CbcUtils

/-- **C60.**  The semi-axes have unit square sum and the axis ratio of the eccentricity. -/
theorem semi_axes (e : ℝ) (h : e ^ 2 ≤ 1) :
    (semiMajorMinor e).1 ^ 2 + (semiMajorMinor e).2 ^ 2 = 1 ∧ (semiMajorMinor e).2 / (semiMajorMinor e).1 = Real.sqrt (1 - e ^ 2) ∧
      0 ≤ (semiMajorMinor e).2 ∧ (semiMajorMinor e).2 ≤ (semiMajorMinor e).1 := by
  unfold semiMajorMinor
  dsimp only
  rw [← sq]
  have h2 : 0 < 2 - e ^ 2 := by linarith
  have h1 : 0 ≤ 1 - e ^ 2 := by linarith
  have hs := Real.sqrt_pos.2 h2
  have e1 := Real.sq_sqrt h2.le
  have e2 := Real.sq_sqrt h1
  have hle : Real.sqrt (1 - e ^ 2) ≤ 1 := by rw [Real.sqrt_le_left (by norm_num)]; nlinarith [sq_nonneg e]
  refine ⟨?_, ?_, by positivity, ?_⟩
  · rw [mul_pow, div_pow, e1, e2]; field_simp; ring
  · field_simp
  · have : 0 < 1 / Real.sqrt (2 - e ^ 2) := by positivity
    nlinarith

/-! ## Sine-Gaussians -/

theorem fac_re (s : SG) (t : ℝ) : (s.fac t).re = Real.exp (-(2 * Real.pi * s.frequency * t) ^ 2 / (2 * s.quality ^ 2)) * Real.cos (2 * Real.pi * s.frequency * t - s.phase) := by
  unfold SG.fac
  dsimp only
  rw [Complex.exp_re]
  simp only [Complex.add_re, Complex.ofReal_re, Complex.add_im, Complex.ofReal_im, zero_add, add_zero]
  congr 2
  rw [neg_mul, div_neg, neg_div]

theorem fac_im (s : SG) (t : ℝ) : (s.fac t).im = Real.exp (-(2 * Real.pi * s.frequency * t) ^ 2 / (2 * s.quality ^ 2)) * Real.sin (2 * Real.pi * s.frequency * t - s.phase) := by
  unfold SG.fac
  dsimp only
  rw [Complex.exp_im]
  simp only [Complex.add_re, Complex.ofReal_re, Complex.add_im, Complex.ofReal_im, zero_add, add_zero]
  congr 2
  rw [neg_mul, div_neg, neg_div]

/-- **C60.**  The polarizations are a cosine and a sine in a Gaussian envelope centred on zero. -/
theorem sg_shape (s : SG) (t : ℝ) :
    s.plus t = AdhocSpec.sineGaussian Real.cos s.h0Plus s.quality s.frequency s.phase t ∧
    s.cross t = AdhocSpec.sineGaussian Real.sin s.h0Cross s.quality s.frequency s.phase t := by
  unfold SG.plus SG.cross AdhocSpec.sineGaussian
  rw [fac_re, fac_im]
  constructor <;> ring

/-- The Gaussian-windowed integral of the squared cosine. -/
theorem gauss_cos_sq (q f p : ℝ) (hq : 0 < q) (hf : 0 < f) :
    MeasureTheory.Integrable (fun t : ℝ => (Real.exp (-(2 * Real.pi * f * t) ^ 2 / (2 * q ^ 2)) * Real.cos (2 * Real.pi * f * t - p)) ^ 2) ∧
    ∫ t : ℝ, (Real.exp (-(2 * Real.pi * f * t) ^ 2 / (2 * q ^ 2)) * Real.cos (2 * Real.pi * f * t - p)) ^ 2 =
      q / (4 * f * Real.sqrt Real.pi) * (1 + Real.exp (-q ^ 2) * Real.cos (2 * p)) := by
  have hpi := Real.pi_pos
  set B : ℝ := (2 * Real.pi * f / q) ^ 2 with hB
  have hB0 : 0 < B := by positivity
  -- the integrand as a sum
  have hsplit : (fun t : ℝ => (Real.exp (-(2 * Real.pi * f * t) ^ 2 / (2 * q ^ 2)) * Real.cos (2 * Real.pi * f * t - p)) ^ 2) =
      fun t : ℝ => 1 / 2 * Real.exp (-B * t ^ 2) + 1 / 2 * (Complex.exp ((-B : ℝ) * (t : ℂ) ^ 2 + (4 * Real.pi * f * Complex.I) * t + (-2 * p * Complex.I))).re := by
    funext t
    have e1 : ((-B : ℝ) : ℂ) * (t : ℂ) ^ 2 + (4 * Real.pi * f * Complex.I) * t + (-2 * p * Complex.I) = ((-B * t ^ 2 : ℝ) : ℂ) + ((2 * (2 * Real.pi * f * t - p) : ℝ) : ℂ) * Complex.I := by
      push_cast; ring
    rw [e1, Complex.exp_add, Complex.exp_mul_I, ← Complex.ofReal_exp, ← Complex.ofReal_cos, ← Complex.ofReal_sin]
    simp only [Complex.mul_re, Complex.ofReal_re, Complex.add_re, Complex.I_re, Complex.I_im, Complex.mul_im, Complex.add_im, Complex.ofReal_im, neg_zero, add_zero, zero_mul, mul_zero, sub_zero]
    rw [mul_pow, ← Real.exp_nat_mul, Real.cos_two_mul]
    have e2 : ((2 : ℕ) : ℝ) * (-(2 * Real.pi * f * t) ^ 2 / (2 * q ^ 2)) = -B * t ^ 2 := by
      rw [hB]; push_cast; field_simp
    rw [e2]; ring
  have hre : ((-B : ℝ) : ℂ).re < 0 := by rw [Complex.ofReal_re]; linarith
  have i1 : MeasureTheory.Integrable fun t : ℝ => Real.exp (-B * t ^ 2) := integrable_exp_neg_mul_sq hB0
  have i2 : MeasureTheory.Integrable fun t : ℝ => Complex.exp (((-B : ℝ) : ℂ) * (t : ℂ) ^ 2 + (4 * Real.pi * f * Complex.I) * t + (-2 * p * Complex.I)) :=
    integrable_cexp_quadratic' hre _ _
  have i2r : MeasureTheory.Integrable fun t : ℝ => (Complex.exp (((-B : ℝ) : ℂ) * (t : ℂ) ^ 2 + (4 * Real.pi * f * Complex.I) * t + (-2 * p * Complex.I))).re := i2.re
  rw [hsplit]
  refine ⟨(i1.const_mul _).add (i2r.const_mul _), ?_⟩
  rw [MeasureTheory.integral_add (i1.const_mul _) (i2r.const_mul _), MeasureTheory.integral_const_mul, MeasureTheory.integral_const_mul, integral_gaussian]
  have hr : ∫ t : ℝ, (Complex.exp (((-B : ℝ) : ℂ) * (t : ℂ) ^ 2 + (4 * Real.pi * f * Complex.I) * t + (-2 * p * Complex.I))).re =
      (∫ t : ℝ, Complex.exp (((-B : ℝ) : ℂ) * (t : ℂ) ^ 2 + (4 * Real.pi * f * Complex.I) * t + (-2 * p * Complex.I))).re := integral_re i2
  rw [hr, integral_cexp_quadratic hre]
  have hsq : ((Real.pi : ℂ) / -((-B : ℝ) : ℂ)) ^ (1 / 2 : ℂ) = ((Real.sqrt (Real.pi / B) : ℝ) : ℂ) := by
    rw [Real.sqrt_eq_rpow, Complex.ofReal_cpow (by positivity)]
    push_cast
    rw [neg_neg]
  have hex : (-2 * p * Complex.I : ℂ) - (4 * Real.pi * f * Complex.I) ^ 2 / (4 * ((-B : ℝ) : ℂ)) = ((-q ^ 2 : ℝ) : ℂ) + ((-(2 * p) : ℝ) : ℂ) * Complex.I := by
    have : (q : ℂ) ≠ 0 := by exact_mod_cast hq.ne'
    have : (f : ℂ) ≠ 0 := by exact_mod_cast hf.ne'
    have : (Real.pi : ℂ) ≠ 0 := by exact_mod_cast hpi.ne'
    rw [hB, mul_pow, Complex.I_sq]
    push_cast
    field_simp
    ring
  rw [hsq, hex, Complex.exp_add, Complex.exp_mul_I, ← Complex.ofReal_exp, ← Complex.ofReal_cos, ← Complex.ofReal_sin]
  simp only [Complex.mul_re, Complex.ofReal_re, Complex.add_re, Complex.I_re, Complex.I_im, Complex.add_im, Complex.mul_im, Complex.ofReal_im, neg_zero, add_zero, zero_mul, mul_zero, sub_zero]
  rw [Real.cos_neg]
  have hroot : Real.sqrt (Real.pi / B) = q / (2 * f * Real.sqrt Real.pi) := by
    rw [Real.sqrt_eq_iff_mul_self_eq (by positivity) (by positivity), hB]
    have : Real.sqrt Real.pi * Real.sqrt Real.pi = Real.pi := Real.mul_self_sqrt hpi.le
    have hs : Real.sqrt Real.pi ≠ 0 := by positivity
    field_simp
    nlinarith
  rw [hroot]
  have hs : Real.sqrt Real.pi ≠ 0 := by positivity
  field_simp
  ring

/-- The same for the sine. -/
theorem gauss_sin_sq (q f p : ℝ) (hq : 0 < q) (hf : 0 < f) :
    MeasureTheory.Integrable (fun t : ℝ => (Real.exp (-(2 * Real.pi * f * t) ^ 2 / (2 * q ^ 2)) * Real.sin (2 * Real.pi * f * t - p)) ^ 2) ∧
    ∫ t : ℝ, (Real.exp (-(2 * Real.pi * f * t) ^ 2 / (2 * q ^ 2)) * Real.sin (2 * Real.pi * f * t - p)) ^ 2 =
      q / (4 * f * Real.sqrt Real.pi) * (1 - Real.exp (-q ^ 2) * Real.cos (2 * p)) := by
  have h := gauss_cos_sq q f (p + Real.pi / 2) hq hf
  have e : ∀ t : ℝ, Real.cos (2 * Real.pi * f * t - (p + Real.pi / 2)) = Real.sin (2 * Real.pi * f * t - p) := by
    intro t
    rw [← Real.cos_sub_pi_div_two]; congr 1; ring
  have e2 : Real.cos (2 * (p + Real.pi / 2)) = -Real.cos (2 * p) := by
    rw [← Real.cos_add_pi]; congr 1; ring
  simp only [e, e2] at h
  refine ⟨h.1, h.2.trans ?_⟩
  ring

theorem norm_eq (s : SG) : s.cosineNorm * Real.cos s.phase ^ 2 + s.sineNorm * Real.sin s.phase ^ 2 = s.quality / (4 * s.frequency * Real.sqrt Real.pi) * (1 + Real.exp (-s.quality ^ 2) * Real.cos (2 * s.phase)) ∧
    s.cosineNorm * Real.sin s.phase ^ 2 + s.sineNorm * Real.cos s.phase ^ 2 = s.quality / (4 * s.frequency * Real.sqrt Real.pi) * (1 - Real.exp (-s.quality ^ 2) * Real.cos (2 * s.phase)) := by
  unfold SG.cosineNorm SG.sineNorm SG.prefactor
  have h := Real.sin_sq s.phase
  have hc := Real.cos_two_mul s.phase
  have e : -s.quality * s.quality = -s.quality ^ 2 := by ring
  rw [e, h, hc]
  constructor <;> ring

/-- **C60.**  The root-sum-square strain of the sine-Gaussian over all time is `hrss`, divided between the polarizations as the squares of the semi-axes, whatever the quality, frequency and phase. -/
theorem sg_hrss (s : SG) (hq : 0 < s.quality) (hf : 0 < s.frequency) (he : s.eccentricity ^ 2 ≤ 1) :
    ∫ t : ℝ, s.plus t ^ 2 = s.hrss ^ 2 * (semiMajorMinor s.eccentricity).1 ^ 2 ∧
    ∫ t : ℝ, s.cross t ^ 2 = s.hrss ^ 2 * (semiMajorMinor s.eccentricity).2 ^ 2 ∧
    ∫ t : ℝ, (s.plus t ^ 2 + s.cross t ^ 2) = s.hrss ^ 2 := by
  have hpi := Real.pi_pos
  obtain ⟨n1, n2⟩ := norm_eq s
  obtain ⟨ic, hc⟩ := gauss_cos_sq s.quality s.frequency s.phase hq hf
  obtain ⟨is, hs⟩ := gauss_sin_sq s.quality s.frequency s.phase hq hf
  have hE : Real.exp (-s.quality ^ 2) < 1 := by rw [Real.exp_lt_one_iff]; nlinarith
  have hE0 := Real.exp_pos (-s.quality ^ 2)
  have hb : |Real.exp (-s.quality ^ 2) * Real.cos (2 * s.phase)| < 1 := by
    rw [abs_mul, abs_of_pos hE0]
    have := Real.abs_cos_le_one (2 * s.phase)
    have := abs_nonneg (Real.cos (2 * s.phase))
    nlinarith
  have hb' := abs_lt.1 hb
  have hP : 0 < s.quality / (4 * s.frequency * Real.sqrt Real.pi) := by positivity
  have hpl : (fun t : ℝ => s.plus t ^ 2) = fun t => s.h0Plus ^ 2 * (Real.exp (-(2 * Real.pi * s.frequency * t) ^ 2 / (2 * s.quality ^ 2)) * Real.cos (2 * Real.pi * s.frequency * t - s.phase)) ^ 2 := by
    funext t; unfold SG.plus; rw [fac_re]; ring
  have hcr : (fun t : ℝ => s.cross t ^ 2) = fun t => s.h0Cross ^ 2 * (Real.exp (-(2 * Real.pi * s.frequency * t) ^ 2 / (2 * s.quality ^ 2)) * Real.sin (2 * Real.pi * s.frequency * t - s.phase)) ^ 2 := by
    funext t; unfold SG.cross; rw [fac_im]; ring
  have r1 : ∫ t : ℝ, s.plus t ^ 2 = s.hrss ^ 2 * (semiMajorMinor s.eccentricity).1 ^ 2 := by
    rw [hpl, MeasureTheory.integral_const_mul, hc]
    unfold SG.h0Plus
    have hn : 0 < s.quality / (4 * s.frequency * Real.sqrt Real.pi) * (1 + Real.exp (-s.quality ^ 2) * Real.cos (2 * s.phase)) := mul_pos hP (by linarith [hb'.1])
    rw [n1, div_pow, Real.sq_sqrt hn.le, div_mul_cancel₀ _ hn.ne', mul_pow]
  have r2 : ∫ t : ℝ, s.cross t ^ 2 = s.hrss ^ 2 * (semiMajorMinor s.eccentricity).2 ^ 2 := by
    rw [hcr, MeasureTheory.integral_const_mul, hs]
    unfold SG.h0Cross
    have hn : 0 < s.quality / (4 * s.frequency * Real.sqrt Real.pi) * (1 - Real.exp (-s.quality ^ 2) * Real.cos (2 * s.phase)) := mul_pos hP (by linarith [hb'.2])
    rw [n2, div_pow, Real.sq_sqrt hn.le, div_mul_cancel₀ _ hn.ne', mul_pow]
  refine ⟨r1, r2, ?_⟩
  rw [MeasureTheory.integral_add (by rw [hpl]; exact ic.const_mul _) (by rw [hcr]; exact is.const_mul _), r1, r2, ← mul_add, (semi_axes s.eccentricity he).1, mul_one]

/-- **C60.**  The waveform is linear in `hrss`. -/
theorem sg_linear (s : SG) (c t : ℝ) : ({ s with hrss := c * s.hrss } : SG).plus t = c * s.plus t ∧ ({ s with hrss := c * s.hrss } : SG).cross t = c * s.cross t := by
  have e : ∀ a b d : ℝ, a * (c * s.hrss * b / d) = c * (a * (s.hrss * b / d)) := by intro a b d; ring
  exact ⟨e _ _ _, e _ _ _⟩

/-! ## Broadcasting -/

theorem bsize_all (l : List ℕ) (n : ℕ) (h : ∀ a ∈ l, a = n ∨ a = 1) : bsize l = .ok n ∨ bsize l = .ok 1 := by
  induction l with
  | nil => exact Or.inr rfl
  | cons a l ih =>
    have ha := h a (by simp)
    have := ih fun x hx => h x (by simp [hx])
    unfold bsize bsize2
    rcases this with e | e <;> rw [e, res_bind_ok] <;> rcases ha with rfl | rfl
    · rw [if_pos rfl]; exact Or.inl rfl
    · by_cases h1 : 1 = n
      · rw [if_pos h1]; exact Or.inr rfl
      · rw [if_neg h1, if_pos rfl]; exact Or.inl rfl
    · by_cases h1 : a = 1
      · rw [if_pos h1, h1]; exact Or.inr rfl
      · rw [if_neg h1, if_neg h1, if_pos rfl]; exact Or.inl rfl
    · rw [if_pos rfl]; exact Or.inr rfl

theorem bsize_same (n : ℕ) (l : List ℕ) (h : ∀ a ∈ l, a = n) (h0 : l ≠ []) : bsize l = .ok n := by
  induction l with
  | nil => exact absurd rfl h0
  | cons a l ih =>
    have ha := h a (by simp)
    subst ha
    cases l with
    | nil =>
      unfold bsize bsize2
      show (if a = 1 then _ else _) = _
      by_cases h1 : a = 1
      · rw [if_pos h1]
      · rw [if_neg h1, if_neg h1, if_pos rfl]
    | cons b l =>
      have := ih (fun x hx => h x (by simp [hx])) (by simp)
      unfold bsize
      rw [this, res_bind_ok]
      unfold bsize2
      rw [if_pos rfl]

theorem at_eq (l : List ℝ) (n i : ℕ) (h : l.length = n) (hi : i < n) : at' l i = l.getD i 0 := by
  unfold at'
  split_ifs with h1
  · have : i = 0 := by omega
    rw [this]
  · rfl

/-- **C60.**  With one entry per waveform in every tensor, `SineGaussian` returns one row per waveform and `int(duration · sample rate)` samples, the waveforms at times centred on zero. -/
theorem sineGaussian_ok (sr dur : ℝ) (q f h p e : List ℝ) (n : ℕ) (h0 : 0 ≤ dur * sr)
    (hn : q.length = n ∧ f.length = n ∧ h.length = n ∧ p.length = n ∧ e.length = n) :
    ∃ hc hp, sineGaussian sr dur q f h p e = .ok (hc, hp) ∧ hc.length = n ∧ hp.length = n ∧
      ∀ i : ℕ, i < n → ∃ rc rp, hc[i]? = some rc ∧ hp[i]? = some rp ∧ rc.length = ⌊dur * sr⌋₊ ∧ rp.length = ⌊dur * sr⌋₊ ∧
        ∀ j : ℕ, j < ⌊dur * sr⌋₊ →
          rc[j]? = some ((⟨q.getD i 0, f.getD i 0, h.getD i 0, p.getD i 0, e.getD i 0⟩ : SG).cross (j / sr - dur / 2)) ∧
          rp[j]? = some ((⟨q.getD i 0, f.getD i 0, h.getD i 0, p.getD i 0, e.getD i 0⟩ : SG).plus (j / sr - dur / 2)) := by
  obtain ⟨a, b, c, d, g⟩ := hn
  have hnum : num dur sr = .ok ⌊dur * sr⌋₊ := by
    unfold num
    rw [pyInt_nonneg _ h0, if_neg (by omega)]; rfl
  unfold sineGaussian
  rw [hnum, res_bind_ok, bsize_same n _ (by simp [a, b, c, d, g]) (by simp), res_bind_ok]
  refine ⟨_, _, rfl, by simp, by simp, ?_⟩
  intro i hi
  refine ⟨_, _, by rw [List.getElem?_map, List.getElem?_range hi]; rfl, by rw [List.getElem?_map, List.getElem?_range hi]; rfl, by simp, by simp, ?_⟩
  intro j hj
  rw [List.getElem?_map, List.getElem?_map, List.getElem?_range hj]
  dsimp only
  rw [at_eq q n i a hi, at_eq f n i b hi, at_eq h n i c hi, at_eq p n i d hi, at_eq e n i g hi]
  exact ⟨rfl, rfl⟩

/-! ## Ringdowns -/

section
variable (r : Ring) (hf : 0 < r.frequency) (hq : 2 ≤ r.quality)
include hf hq

theorem two_div : 0 < 2 / r.quality ∧ 2 / r.quality ≤ 1 := by
  have : 0 < r.quality := by linarith
  exact ⟨by positivity, by rw [div_le_one this]; exact hq⟩

theorem spin_pow : (1 - r.spin) = (2 / r.quality) ^ ((20 : ℝ) / 9) := by unfold Ring.spin; ring

theorem gA_eq : (1 - r.spin) ^ ((3 : ℝ) / 10) = (2 / r.quality) ^ ((2 : ℝ) / 3) := by
  rw [spin_pow r hf hq, ← Real.rpow_mul (two_div r hf hq).1.le]; norm_num

theorem gA_pos : 0.37 ≤ r.gA ∧ r.gA < 1 := by
  obtain ⟨h0, h1⟩ := two_div r hf hq
  unfold Ring.gA
  rw [gA_eq r hf hq]
  have a := Real.rpow_le_one h0.le h1 (show (0 : ℝ) ≤ 2 / 3 by norm_num)
  have b := Real.rpow_pos_of_pos h0 ((2 : ℝ) / 3)
  constructor <;> linarith

/-- **C60.**  The spin and mass are those of a black hole whose fundamental mode has the given quality factor and frequency; the spin lies in `[0, 1)` and the mass is positive. -/
theorem ring_kerr : 0 ≤ r.spin ∧ r.spin < 1 ∧ 0 < r.mass ∧ AdhocSpec.kerrQuality r.spin = r.quality ∧ AdhocSpec.kerrFrequency gNewton cLight r.mass r.spin = r.frequency := by
  obtain ⟨h0, h1⟩ := two_div r hf hq
  have hpi := Real.pi_pos
  have hQ : 0 < r.quality := by linarith
  have hG : 0 < gNewton := by unfold gNewton; norm_num
  have hC : 0 < cLight := by unfold cLight; norm_num
  have a := Real.rpow_le_one h0.le h1 (show (0 : ℝ) ≤ 20 / 9 by norm_num)
  have b := Real.rpow_pos_of_pos h0 ((20 : ℝ) / 9)
  have hg := gA_pos r hf hq
  have hg' : r.gA = 1 - 0.63 * (2 / r.quality) ^ ((2 : ℝ) / 3) := by unfold Ring.gA; rw [gA_eq r hf hq]
  have hm : r.mass = 1 / (2 * Real.pi) * (cLight ^ 3 / (gNewton * r.frequency)) * r.gA := by rw [hg']; rfl
  have hm0 : 0 < r.mass := by rw [hm]; have : 0 < r.gA := by linarith [hg.1]
                              positivity
  refine ⟨by unfold Ring.spin; linarith, by unfold Ring.spin; linarith, hm0, ?_, ?_⟩
  · unfold AdhocSpec.kerrQuality
    rw [spin_pow r hf hq, ← Real.rpow_mul h0.le, show (20 : ℝ) / 9 * -(9 / 20) = -1 by norm_num, Real.rpow_neg_one]
    field_simp
  · unfold AdhocSpec.kerrFrequency
    have : (1 - 0.63 * (1 - r.spin) ^ ((3 : ℝ) / 10)) = r.gA := rfl
    rw [this, hm]
    have : r.gA ≠ 0 := by linarith [hg.1]
    field_simp

/-- **C60.**  The amplitude is the one with which the mode radiates the fraction `ε` of the mass. -/
theorem ring_amplitude : r.amplitude = AdhocSpec.ringAmplitude gNewton cLight r.mass r.spin r.quality r.epsilon := by
  have hQ : 0 < r.quality := by linarith
  have hg := gA_pos r hf hq
  have hg0 : 0 < r.gA := by linarith [hg.1]
  have hF : 0 < r.fQ := by unfold Ring.fQ; positivity
  unfold Ring.amplitude AdhocSpec.ringAmplitude
  have e1 : (1 - 0.63 * (1 - r.spin) ^ ((3 : ℝ) / 10)) = r.gA := rfl
  have e2 : 1 + 7 / (24 * r.quality ^ 2) = r.fQ := by unfold Ring.fQ; rw [div_div]
  have e3 : ∀ y : ℝ, 0 < y → y ^ (-0.5 : ℝ) = (Real.sqrt y)⁻¹ := by
    intro y hy
    rw [Real.sqrt_eq_rpow, ← Real.rpow_neg hy.le]; norm_num
  rw [e1, e2, e3 _ hQ, e3 _ hF, e3 _ hg0, Real.sqrt_mul (by positivity), Real.sqrt_mul hQ.le]
  field_simp

end

/-- **C60.**  Both polarizations are damped sinusoids. -/
theorem ring_shape (r : Ring) (t : ℝ) :
    r.plus t = AdhocSpec.damped Real.cos (r.amplitude / (r.distance * mPerMpc) * (1 + Real.cos r.inclination ^ 2)) r.quality r.frequency r.phase t ∧
    r.cross t = AdhocSpec.damped Real.sin (r.amplitude / (r.distance * mPerMpc) * (2 * Real.sin r.inclination)) r.quality r.frequency r.phase t := by
  unfold Ring.plus Ring.cross AdhocSpec.damped
  have : -Real.pi * r.frequency * t / r.quality = -(Real.pi * r.frequency * t / r.quality) := by ring
  rw [this]
  exact ⟨rfl, rfl⟩

/-- **C60.**  After each cycle the waveform repeats, smaller by `exp (-π / quality)`. -/
theorem ring_cycle (r : Ring) (t : ℝ) (hf : 0 < r.frequency) :
    r.plus (t + 1 / r.frequency) = Real.exp (-Real.pi / r.quality) * r.plus t ∧ r.cross (t + 1 / r.frequency) = Real.exp (-Real.pi / r.quality) * r.cross t := by
  have e1 : -Real.pi * r.frequency * (t + 1 / r.frequency) / r.quality = -Real.pi / r.quality + -Real.pi * r.frequency * t / r.quality := by
    have : -Real.pi * r.frequency * (t + 1 / r.frequency) = -Real.pi + -Real.pi * r.frequency * t := by field_simp; ring
    rw [this, add_div]
  have e2 : 2 * Real.pi * r.frequency * (t + 1 / r.frequency) + r.phase = (2 * Real.pi * r.frequency * t + r.phase) + 2 * Real.pi := by field_simp; ring
  unfold Ring.plus Ring.cross
  rw [e1, e2, Real.exp_add, Real.cos_add_two_pi, Real.sin_add_two_pi]
  constructor <;> ring

/-- **C60.**  The waveform falls off as the inverse distance. -/
theorem ring_distance (r : Ring) (c t : ℝ) (hc : c ≠ 0) :
    ({ r with distance := c * r.distance } : Ring).plus t = r.plus t / c ∧ ({ r with distance := c * r.distance } : Ring).cross t = r.cross t / c := by
  have e : ∀ a : ℝ, a / (c * r.distance * mPerMpc) = a / (r.distance * mPerMpc) / c := by
    intro a; rw [div_div]; congr 1; ring
  constructor
  · show r.amplitude / (c * r.distance * mPerMpc) * _ * _ * _ = _
    rw [e]; unfold Ring.plus; ring
  · show r.amplitude / (c * r.distance * mPerMpc) * _ * _ * _ = _
    rw [e]; unfold Ring.cross; ring

/-- **C60, finding.**  The cross polarization is proportional to the sine of the inclination, so it vanishes for a face-on source, whose two polarizations should have equal strength (the literature has `2 cos ι`). -/
theorem ring_face_on (r : Ring) (h : r.inclination = 0) (t : ℝ) : r.cross t = 0 ∧ r.plus t = 2 * (r.amplitude / (r.distance * mPerMpc)) * Real.exp (-Real.pi * r.frequency * t / r.quality) * Real.cos (2 * Real.pi * r.frequency * t + r.phase) := by
  unfold Ring.cross Ring.plus
  rw [h, Real.sin_zero, Real.cos_zero]
  constructor <;> ring

/-- **C60.**  With one entry per waveform in every tensor, `Ringdown` returns one row per waveform and `int(duration · sample rate)` samples, starting at time zero. -/
theorem ringdown_ok (sr dur : ℝ) (f q e p i d : List ℝ) (n : ℕ) (h0 : 0 ≤ dur * sr)
    (hn : f.length = n ∧ q.length = n ∧ e.length = n ∧ p.length = n ∧ i.length = n ∧ d.length = n) :
    ∃ hc hp, ringdown sr dur f q e p i d = .ok (hc, hp) ∧ hc.length = n ∧ hp.length = n ∧
      ∀ k : ℕ, k < n → ∃ rc rp, hc[k]? = some rc ∧ hp[k]? = some rp ∧ rc.length = ⌊dur * sr⌋₊ ∧ rp.length = ⌊dur * sr⌋₊ ∧
        ∀ j : ℕ, j < ⌊dur * sr⌋₊ →
          rc[j]? = some ((⟨f.getD k 0, q.getD k 0, e.getD k 0, p.getD k 0, i.getD k 0, d.getD k 0⟩ : Ring).cross (j / sr)) ∧
          rp[j]? = some ((⟨f.getD k 0, q.getD k 0, e.getD k 0, p.getD k 0, i.getD k 0, d.getD k 0⟩ : Ring).plus (j / sr)) := by
  obtain ⟨a1, a2, a3, a4, a5, a6⟩ := hn
  have hnum : num dur sr = .ok ⌊dur * sr⌋₊ := by
    unfold num
    rw [pyInt_nonneg _ h0, if_neg (by omega)]; rfl
  unfold ringdown
  rw [hnum, res_bind_ok, bsize_same n _ (by simp [a1, a2, a3, a4, a5, a6]) (by simp), res_bind_ok]
  refine ⟨_, _, rfl, by simp, by simp, ?_⟩
  intro k hk
  refine ⟨_, _, by rw [List.getElem?_map, List.getElem?_range hk]; rfl, by rw [List.getElem?_map, List.getElem?_range hk]; rfl, by simp, by simp, ?_⟩
  intro j hj
  rw [List.getElem?_map, List.getElem?_map, List.getElem?_range hj]
  dsimp only
  rw [at_eq f n k a1 hk, at_eq q n k a2 hk, at_eq e n k a3 hk, at_eq p n k a4 hk, at_eq i n k a5 hk, at_eq d n k a6 hk]
  exact ⟨rfl, rfl⟩

/-- **C60.**  Tensors whose sizes differ and are not one are rejected. -/
theorem bsize2_reject (a b : ℕ) (h : a ≠ b) (ha : a ≠ 1) (hb : b ≠ 1) : bsize2 a b = .error .runtime := by
  unfold bsize2
  rw [if_neg h, if_neg ha, if_neg hb]

/-! ## The hypotheses can be met -/

/-- A sine-Gaussian. -/
noncomputable def exSG : SG := ⟨9, 150, 1e-22, 0.3, 0.5⟩
/-- A ringdown. -/
noncomputable def exRing : Ring := ⟨250, 4, 0.01, 0.2, 0.4, 100⟩

example : 0 < exSG.quality ∧ 0 < exSG.frequency ∧ exSG.eccentricity ^ 2 ≤ 1 := by unfold exSG; norm_num
example : 0 < exRing.frequency ∧ 2 ≤ exRing.quality := by unfold exRing; norm_num
example : sineGaussian 4 1 [9, 8] [150, 100] [1, 2] [0, 0] [0, 1, 0] = .error .runtime := by
  have : num 1 4 = .ok 4 := by
    unfold num; rw [show (1 : ℝ) * 4 = ((4 : ℤ) : ℝ) by norm_num]
    have : pyInt ((4 : ℤ) : ℝ) = 4 := by unfold pyInt; rw [if_pos (by norm_num), Int.floor_intCast]
    rw [this]; rfl
  unfold sineGaussian
  rw [this]
  rfl

end Verif.Adhoc
