import Verif.Model.Distributions
import Verif.Spec.Distributions
import Mathlib.Analysis.SpecialFunctions.Integrals.Basic
import Mathlib.Tactic.Linarith
import Mathlib.Tactic.Positivity
import Mathlib.Tactic.FieldSimp
import Mathlib.Tactic.NormNum
/-!
# Properties of the closed-form distributions (C51, C52)
-/
set_option linter.unusedSimpArgs false
set_option linter.unusedVariables false
namespace Verif.Distributions
open DistSpec MeasureTheory

theorem hasLaw_of_inverse (S F : ℝ → ℝ) (a b : ℝ) (h1 : ∀ u, 0 ≤ u → u < 1 → a ≤ S u ∧ S u ≤ b)
    (h2 : ∀ u x, 0 ≤ u → u < 1 → a ≤ x → x ≤ b → (S u ≤ x ↔ u ≤ F x)) (h3 : ∀ x, a ≤ x → x ≤ b → 0 ≤ F x ∧ F x ≤ 1) : HasLaw S a b F := by
  refine ⟨h1, ?_⟩
  intro x hx1 hx2
  obtain ⟨f0, f1⟩ := h3 x hx1 hx2
  rcases lt_or_eq_of_le f1 with hlt | heq
  · have : {u : ℝ | 0 ≤ u ∧ u < 1 ∧ S u ≤ x} = Set.Icc 0 (F x) := by
      ext u
      simp only [Set.mem_ofPred_eq, Set.mem_Icc]
      constructor
      · rintro ⟨a1, a2, a3⟩; exact ⟨a1, (h2 u x a1 a2 hx1 hx2).1 a3⟩
      · rintro ⟨a1, a2⟩
        have a3 : u < 1 := a2.trans_lt hlt
        exact ⟨a1, a3, (h2 u x a1 a3 hx1 hx2).2 a2⟩
    rw [this, Real.volume_Icc, sub_zero]
  · have : {u : ℝ | 0 ≤ u ∧ u < 1 ∧ S u ≤ x} = Set.Ico 0 1 := by
      ext u
      simp only [Set.mem_ofPred_eq, Set.mem_Ico]
      constructor
      · rintro ⟨a1, a2, a3⟩; exact ⟨a1, a2⟩
      · rintro ⟨a1, a2⟩
        exact ⟨a1, a2, (h2 u x a1 a2 hx1 hx2).2 (by rw [heq]; exact a2.le)⟩
    rw [this, Real.volume_Ico, heq, sub_zero]

/-- Replacing the integrand by one that agrees with it on `[a, b)`. -/
theorem integral_congr_half (p g : ℝ → ℝ) (a b x : ℝ) (hx1 : a ≤ x) (hx2 : x ≤ b) (h : ∀ t, a ≤ t → t < b → p t = g t) :
    ∫ t in a..x, p t = ∫ t in a..x, g t := by
  refine intervalIntegral.integral_congr_ae' ?_ ?_
  · have : ∀ᵐ t : ℝ, t ≠ b := by
      rw [ae_iff]; simp
    filter_upwards [this] with t ht hmem
    exact h t hmem.1.le (lt_of_le_of_ne (hmem.2.trans hx2) ht)
  · refine Filter.Eventually.of_forall ?_
    intro t ht
    exact absurd (ht.1.trans_le ht.2) (not_lt.2 hx1)

/-! ## Cosine -/

/-- The distribution function of the cosine law. -/
noncomputable def cosF (low high x : ℝ) : ℝ := (Real.sin x - Real.sin low) / (Real.sin high - Real.sin low)

theorem sin_lt {low high : ℝ} (h1 : -(Real.pi / 2) ≤ low) (h2 : low < high) (h3 : high ≤ Real.pi / 2) : Real.sin low < Real.sin high :=
  Real.sin_lt_sin_of_lt_of_le_pi_div_two h1 h3 h2

theorem sin_le {low high : ℝ} (h1 : -(Real.pi / 2) ≤ low) (h2 : low ≤ high) (h3 : high ≤ Real.pi / 2) : Real.sin low ≤ Real.sin high :=
  Real.sin_le_sin_of_le_of_le_pi_div_two h1 h3 h2

/-- **C51 (Cosine).**  For limits in `[-π/2, π/2]`, every sample lies between them, and sampling inverts the distribution function. -/
theorem cosine_sample_law (low high : ℝ) (h1 : -(Real.pi / 2) ≤ low) (h2 : low < high) (h3 : high ≤ Real.pi / 2) :
    HasLaw (Cosine.sample low high) low high (cosF low high) := by
  have hs := sin_lt h1 h2 h3
  have hd : 0 < Real.sin high - Real.sin low := by linarith
  have hy : ∀ u, 0 ≤ u → u < 1 → Real.sin low ≤ u / Cosine.norm low high + Real.sin low ∧ u / Cosine.norm low high + Real.sin low ≤ Real.sin high := by
    intro u hu0 hu1
    unfold Cosine.norm
    rw [div_div_eq_mul_div, div_one]
    constructor <;> nlinarith
  have hmem : ∀ u, 0 ≤ u → u < 1 → u / Cosine.norm low high + Real.sin low ∈ Set.Icc (-1 : ℝ) 1 := fun u a b =>
    ⟨(Real.neg_one_le_sin low).trans (hy u a b).1, (hy u a b).2.trans (Real.sin_le_one high)⟩
  refine hasLaw_of_inverse _ _ _ _ ?_ ?_ ?_
  · intro u hu0 hu1
    unfold Cosine.sample
    constructor
    · rw [Real.le_arcsin_iff_sin_le ⟨h1, by linarith⟩ (hmem u hu0 hu1)]
      exact (hy u hu0 hu1).1
    · rw [Real.arcsin_le_iff_le_sin (hmem u hu0 hu1) ⟨by linarith, h3⟩]
      exact (hy u hu0 hu1).2
  · intro u x hu0 hu1 hx1 hx2
    unfold Cosine.sample
    rw [Real.arcsin_le_iff_le_sin (hmem u hu0 hu1) ⟨by linarith, by linarith⟩]
    unfold cosF Cosine.norm
    rw [div_div_eq_mul_div, div_one, le_div_iff₀ hd]
    constructor <;> intro h <;> linarith
  · intro x hx1 hx2
    have a := sin_le h1 hx1 (hx2.trans h3)
    have b := sin_le (h1.trans hx1) hx2 h3
    unfold cosF
    constructor
    · apply div_nonneg <;> linarith
    · rw [div_le_one hd]; linarith

/-- **C52 (Cosine), partial.**  `log_prob` is the logarithm of `cos` on the range and `-inf` outside; multiplied by `norm` that is the density of the samples.  What is
missing is the factor `norm`, see `cosine_log_prob_unnormalised`. -/
theorem cosine_log_prob_partial (low high : ℝ) (h1 : -(Real.pi / 2) ≤ low) (h2 : low < high) (h3 : high ≤ Real.pi / 2) :
    ∃ p : ℝ → ℝ, (∀ x, IsLog (Cosine.logProb low high x) (p x)) ∧ IsDensity (fun x => Cosine.norm low high * p x) low high (cosF low high) := by
  have hd : 0 < Real.sin high - Real.sin low := by linarith [sin_lt h1 h2 h3]
  have hcos : ∀ x, low ≤ x ∧ x ≤ high → 0 ≤ Real.cos x := fun x hx => Real.cos_nonneg_of_neg_pi_div_two_le_of_le (by linarith [hx.1]) (by linarith [hx.2])
  refine ⟨fun x => if low ≤ x ∧ x ≤ high then Real.cos x else 0, ?_, ?_, ?_, ?_, ?_⟩
  · intro x
    unfold Cosine.logProb xlog IsLog
    by_cases hx : low ≤ x ∧ x ≤ high
    · simp only [if_pos hx, mul_one]
      rw [if_neg (not_lt.2 (hcos x hx))]
      rcases eq_or_lt_of_le (hcos x hx) with h0 | h0
      · left; rw [← h0]; simp
      · right; exact ⟨h0, by rw [if_neg h0.ne']⟩
    · simp [if_neg hx]
  · intro x
    dsimp only
    unfold Cosine.norm
    split_ifs with hx
    · exact mul_nonneg (by positivity) (hcos x hx)
    · simp
  · intro x hx
    dsimp only
    rw [if_neg (by rintro ⟨a, b⟩; rcases hx with h | h <;> linarith), mul_zero]
  · intro x hx1 hx2
    rw [integral_congr_half _ (fun t => Cosine.norm low high * Real.cos t) low high x hx1 hx2 (fun t a b => by simp only; rw [if_pos ⟨a, b.le⟩])]
    rw [intervalIntegral.integral_const_mul, integral_cos]
    unfold cosF Cosine.norm; ring
  · rw [integral_congr_half _ (fun t => Cosine.norm low high * Real.cos t) low high high h2.le le_rfl (fun t a b => by simp only; rw [if_pos ⟨a, b.le⟩])]
    rw [intervalIntegral.integral_const_mul, integral_cos]
    unfold Cosine.norm
    field_simp

/-- **Finding (C52).**  The density that `Cosine.log_prob` reports integrates to `sin high - sin low`, not to one: to two for the default limits. -/
theorem cosine_log_prob_unnormalised (low high : ℝ) (h1 : -(Real.pi / 2) ≤ low) (h2 : low < high) (h3 : high ≤ Real.pi / 2) (p : ℝ → ℝ)
    (hp : ∀ x, IsLog (Cosine.logProb low high x) (p x)) :
    ∫ x in low..high, p x = Real.sin high - Real.sin low ∧ (low = -Real.pi / 2 → high = Real.pi / 2 → ∫ x in low..high, p x = 2) := by
  have key : ∫ x in low..high, p x = Real.sin high - Real.sin low := by
    rw [integral_congr_half p Real.cos low high high h2.le le_rfl, integral_cos]
    intro t ht1 ht2
    have hc : 0 ≤ Real.cos t := Real.cos_nonneg_of_neg_pi_div_two_le_of_le (by linarith) (by linarith)
    have := hp t
    unfold Cosine.logProb xlog IsLog at this
    rw [if_pos (show low ≤ t ∧ t ≤ high from ⟨ht1, ht2.le⟩), mul_one, if_neg (not_lt.2 hc)] at this
    rcases eq_or_lt_of_le hc with h0 | h0
    · rw [← h0, if_pos rfl] at this
      rcases this with ⟨h, -⟩ | ⟨-, h⟩
      · rw [h, ← h0]
      · simp at h
    · rw [if_neg h0.ne'] at this
      rcases this with ⟨-, h⟩ | ⟨hp0, h⟩
      · simp at h
      · exact (Real.log_injOn_pos hp0 h0 (XR.fin.inj h).symm)
  refine ⟨key, ?_⟩
  rintro rfl rfl
  rw [key]
  rw [show -Real.pi / 2 = -(Real.pi / 2) by ring, Real.sin_neg, Real.sin_pi_div_two]
  norm_num

/-- Non-vacuity: the default limits. -/
example : -(Real.pi / 2) ≤ -(Real.pi / 2) ∧ -(Real.pi / 2) < Real.pi / 2 ∧ Real.pi / 2 ≤ Real.pi / 2 := by
  have := Real.pi_pos
  refine ⟨le_rfl, by linarith, le_rfl⟩

/-! ## Sine -/

/-- The distribution function of the sine law. -/
noncomputable def sinF (low high x : ℝ) : ℝ := (Real.cos low - Real.cos x) / (Real.cos low - Real.cos high)

theorem sinF_eq (low high x : ℝ) : cosF (low - Real.pi / 2) (high - Real.pi / 2) (x - Real.pi / 2) = sinF low high x := by
  unfold cosF sinF
  simp only [Real.sin_sub_pi_div_two]
  congr 1 <;> ring

/-- **C51 (Sine).**  For limits in `[0, π]`, every sample lies between them, and sampling inverts the distribution function. -/
theorem sine_sample_law (low high : ℝ) (h1 : 0 ≤ low) (h2 : low < high) (h3 : high ≤ Real.pi) :
    HasLaw (Sine.sample low high) low high (sinF low high) := by
  obtain ⟨a, b⟩ := cosine_sample_law (low - Real.pi / 2) (high - Real.pi / 2) (by linarith) (by linarith) (by linarith)
  unfold Sine.sample
  refine ⟨?_, ?_⟩
  · intro u hu0 hu1
    obtain ⟨c, d⟩ := a u hu0 hu1
    constructor <;> linarith
  · intro x hx1 hx2
    have := b (x - Real.pi / 2) (by linarith) (by linarith)
    rw [sinF_eq] at this
    rw [← this]
    congr 1
    ext u
    simp only [Set.mem_ofPred_eq]
    constructor
    · rintro ⟨p, q, r⟩; exact ⟨p, q, by linarith⟩
    · rintro ⟨p, q, r⟩; exact ⟨p, q, by linarith⟩

/-- **C52 (Sine), partial.**  `log_prob` is the logarithm of `sin` on the range and `-inf` outside, again without the normalising factor. -/
theorem sine_log_prob_partial (low high : ℝ) (h1 : 0 ≤ low) (h2 : low < high) (h3 : high ≤ Real.pi) :
    ∃ p : ℝ → ℝ, (∀ x, IsLog (Sine.logProb low high x) (p x)) ∧ (∀ x, p x = if low ≤ x ∧ x ≤ high then Real.sin x else 0) ∧
      IsDensity (fun x => p x / (Real.cos low - Real.cos high)) low high (sinF low high) := by
  obtain ⟨p, hp, -⟩ := cosine_log_prob_partial (low - Real.pi / 2) (high - Real.pi / 2) (by linarith) (by linarith) (by linarith)
  have hd : 0 < Real.cos low - Real.cos high := by
    have := Real.cos_lt_cos_of_nonneg_of_le_pi h1 h3 h2; linarith
  have hsin : ∀ x, low ≤ x ∧ x ≤ high → 0 ≤ Real.sin x := fun x hx => Real.sin_nonneg_of_nonneg_of_le_pi (by linarith [hx.1]) (by linarith [hx.2])
  refine ⟨fun x => if low ≤ x ∧ x ≤ high then Real.sin x else 0, ?_, fun x => rfl, ?_, ?_, ?_, ?_⟩
  · intro x
    unfold Sine.logProb Cosine.logProb xlog IsLog
    rw [div_one, Real.cos_sub_pi_div_two, abs_one, Real.log_one, neg_zero]
    by_cases hx : low ≤ x ∧ x ≤ high
    · rw [if_pos (show low - Real.pi / 2 ≤ x - Real.pi / 2 ∧ x - Real.pi / 2 ≤ high - Real.pi / 2 from ⟨by linarith [hx.1], by linarith [hx.2]⟩), mul_one,
        if_neg (not_lt.2 (hsin x hx))]
      simp only [if_pos hx]
      rcases eq_or_lt_of_le (hsin x hx) with h0 | h0
      · left; rw [← h0]; simp [XR.add]
      · right; exact ⟨h0, by rw [if_neg h0.ne']; simp [XR.add]⟩
    · rw [if_neg (show ¬ (low - Real.pi / 2 ≤ x - Real.pi / 2 ∧ x - Real.pi / 2 ≤ high - Real.pi / 2) from fun h => hx ⟨by linarith [h.1], by linarith [h.2]⟩)]
      simp [if_neg hx, XR.add]
  · intro x
    dsimp only
    split_ifs with hx
    · exact div_nonneg (hsin x hx) hd.le
    · simp
  · intro x hx
    dsimp only
    rw [if_neg (by rintro ⟨a, b⟩; rcases hx with h | h <;> linarith), zero_div]
  · intro x hx1 hx2
    rw [integral_congr_half _ (fun t => Real.sin t / (Real.cos low - Real.cos high)) low high x hx1 hx2 (fun t a b => by simp only; rw [if_pos ⟨a, b.le⟩])]
    rw [intervalIntegral.integral_div, integral_sin]; rfl
  · rw [integral_congr_half _ (fun t => Real.sin t / (Real.cos low - Real.cos high)) low high high h2.le le_rfl (fun t a b => by simp only; rw [if_pos ⟨a, b.le⟩])]
    rw [intervalIntegral.integral_div, integral_sin, div_self hd.ne']

/-- Non-vacuity: the default limits. -/
example : (0 : ℝ) ≤ 0 ∧ 0 < Real.pi ∧ Real.pi ≤ Real.pi := ⟨le_rfl, Real.pi_pos, le_rfl⟩

/-! ## LogUniform -/

/-- The distribution function of the log-uniform law. -/
noncomputable def logF (low high x : ℝ) : ℝ := Real.log (x / low) / Real.log (high / low)

theorem expUniform_law (low high : ℝ) (h1 : 0 < low) (h2 : low < high) :
    HasLaw (fun u => Real.exp (uniformSample (Real.log low) (Real.log high) u)) low high (logF low high) := by
  have hh : 0 < high := h1.trans h2
  have hl : Real.log low < Real.log high := Real.log_lt_log h1 h2
  have hd : Real.log (high / low) = Real.log high - Real.log low := Real.log_div hh.ne' h1.ne'
  refine hasLaw_of_inverse _ _ _ _ ?_ ?_ ?_
  · intro u hu0 hu1
    unfold uniformSample
    rw [← Real.log_le_iff_le_exp h1, ← Real.le_log_iff_exp_le hh]
    constructor <;> nlinarith
  · intro u x hu0 hu1 hx1 hx2
    have hx : 0 < x := h1.trans_le hx1
    unfold uniformSample logF
    rw [← Real.le_log_iff_exp_le hx, hd, Real.log_div hx.ne' h1.ne', le_div_iff₀ (by linarith)]
    constructor <;> intro h <;> linarith
  · intro x hx1 hx2
    have hx : 0 < x := h1.trans_le hx1
    have a := Real.log_le_log h1 hx1
    have b := Real.log_le_log hx hx2
    unfold logF
    rw [hd, Real.log_div hx.ne' h1.ne']
    constructor
    · apply div_nonneg <;> linarith
    · rw [div_le_one (by linarith)]; linarith

/-- **C51 (LogUniform).** -/
theorem logUniform_sample_law (low high : ℝ) (h1 : 0 < low) (h2 : low < high) : HasLaw (LogUniform.sample low high) low high (logF low high) :=
  expUniform_law low high h1 h2

theorem inv_density (low high : ℝ) (h1 : 0 < low) (h2 : low < high) :
    IsDensity (fun x => if low ≤ x ∧ x < high then (x * Real.log (high / low))⁻¹ else 0) low high (logF low high) := by
  have hh : 0 < high := h1.trans h2
  have hd : 0 < Real.log (high / low) := Real.log_pos ((one_lt_div h1).2 h2)
  have key : ∀ x, low ≤ x → x ≤ high → ∫ t in low..x, (if low ≤ t ∧ t < high then (t * Real.log (high / low))⁻¹ else 0) = logF low high x := by
    intro x hx1 hx2
    rw [integral_congr_half _ (fun t => t⁻¹ * (Real.log (high / low))⁻¹) low high x hx1 hx2 (fun t a b => by rw [if_pos ⟨a, b⟩, mul_inv])]
    rw [intervalIntegral.integral_mul_const, integral_inv_of_pos h1 (h1.trans_le hx1)]
    rfl
  refine ⟨?_, ?_, key, ?_⟩
  · intro x
    dsimp only
    split_ifs with h
    · have : 0 < x := h1.trans_le h.1
      positivity
    · exact le_rfl
  · intro x hx
    dsimp only
    rw [if_neg (by rintro ⟨a, b⟩; rcases hx with h | h <;> linarith)]
  · rw [key high h2.le le_rfl]
    unfold logF
    exact div_self hd.ne'

theorem inv_isLog (low high x : ℝ) (h1 : 0 < low) (h2 : low < high) (hx : 0 < x) :
    IsLog ((uniformLogProb (Real.log low) (Real.log high) (Real.log x)).add (.fin (-Real.log x)))
      (if low ≤ x ∧ x < high then (x * Real.log (high / low))⁻¹ else 0) := by
  have hh : 0 < high := h1.trans h2
  have hd : Real.log (high / low) = Real.log high - Real.log low := Real.log_div hh.ne' h1.ne'
  have hpos : 0 < Real.log (high / low) := Real.log_pos ((one_lt_div h1).2 h2)
  unfold uniformLogProb
  have hiff : (Real.log low ≤ Real.log x ∧ Real.log x < Real.log high) ↔ (low ≤ x ∧ x < high) := by
    rw [Real.log_le_log_iff h1 hx, Real.log_lt_log_iff hx hh]
  by_cases h : low ≤ x ∧ x < high
  · rw [if_pos (hiff.2 h), if_pos h]
    right
    refine ⟨by positivity, ?_⟩
    rw [Real.log_inv, Real.log_mul hx.ne' hpos.ne', ← hd]
    simp only [XR.add]; congr 1; ring
  · rw [if_neg (fun h' => h (hiff.1 h')), if_neg h]
    left; exact ⟨rfl, by simp [XR.add]⟩

/-- **C52 (LogUniform).**  Values outside the closed range are rejected; inside, `log_prob` is the logarithm of a probability density whose distribution function is that of the samples. -/
theorem logUniform_log_prob (low high : ℝ) (h1 : 0 < low) (h2 : low < high) :
    (∀ x, ¬ (low ≤ x ∧ x ≤ high) → LogUniform.logProb low high x = .error .value) ∧
    ∃ p : ℝ → ℝ, IsDensity p low high (logF low high) ∧ ∀ x, low ≤ x → x ≤ high → ∃ l, LogUniform.logProb low high x = .ok l ∧ IsLog l (p x) := by
  have hh : 0 < high := h1.trans h2
  refine ⟨?_, _, inv_density low high h1 h2, ?_⟩
  · intro x hx
    unfold LogUniform.logProb
    by_cases h0 : x ≤ 0
    · rw [if_pos h0]
    · rw [if_neg h0, if_pos]
      have hx0 : 0 < x := not_le.1 h0
      rw [Real.log_lt_log_iff hx0 h1, Real.log_lt_log_iff hh hx0]
      by_contra hc
      push Not at hc
      exact hx hc
  · intro x hx1 hx2
    have hx0 : 0 < x := h1.trans_le hx1
    refine ⟨_, ?_, inv_isLog low high x h1 h2 hx0⟩
    unfold LogUniform.logProb
    rw [if_neg (not_le.2 hx0), if_neg]
    rw [Real.log_lt_log_iff hx0 h1, Real.log_lt_log_iff hh hx0]
    rintro (h | h) <;> linarith

/-- Non-vacuity. -/
example : (0 : ℝ) < 10 ∧ (10 : ℝ) < 1000 := by norm_num

/-! ## LogNormal -/

/-- **Finding.**  The lower limit of `LogNormal` restricts nothing: whatever the limit, some draws fall below it; and `log_prob` raises AttributeError. -/
theorem logNormal_low_ignored (mean std low : ℝ) (hs : 0 < std) (hl : 0 < low) :
    (∃ z, LogNormal.sample mean std (some low) z < low) ∧ ∀ x, LogNormal.logProb mean std (some low) x = .error .attribute := by
  refine ⟨⟨(Real.log low - 1 - mean) / std, ?_⟩, fun x => rfl⟩
  unfold LogNormal.sample
  rw [mul_div_cancel₀ _ hs.ne', ← Real.lt_log_iff_exp_lt hl]
  linarith

/-! ## PowerLaw -/

/-- The distribution function of the power law with `p = index + 1`, and of its limit `p = 0`. -/
noncomputable def powF (low high index x : ℝ) : ℝ :=
  if index = -1 then logF low high x else (x ^ (index + 1) - low ^ (index + 1)) / (high ^ (index + 1) - low ^ (index + 1))

/-- **C51 (PowerLaw).**  An index of zero is rejected.  Otherwise, for `0 < minimum < maximum` — or `minimum = 0` if the index is above `-1` — every sample lies in the range, and sampling inverts
the distribution function. -/
theorem powerLaw_sample_law (low high index : ℝ) (h1 : 0 ≤ low) (h1' : low = 0 → -1 < index) (h2 : low < high) (hi : index ≠ 0) :
    ∃ d, PowerLaw.init low high index = .ok d ∧ HasLaw d.sample low high (powF low high index) := by
  have hh : 0 < high := h1.trans_lt h2
  unfold PowerLaw.init
  rw [if_neg hi]
  by_cases hm : index = -1
  · rw [if_pos hm]
    have hlow : 0 < low := lt_of_le_of_ne h1 (fun h => by have := h1' h.symm; linarith)
    refine ⟨_, rfl, ?_⟩
    have := expUniform_law low high hlow h2
    have e : powF low high index = logF low high := by funext x; unfold powF; rw [if_pos hm]
    rw [e]; exact this
  · rw [if_neg hm]
    refine ⟨_, rfl, ?_⟩
    set p := index + 1 with hp
    have hp0 : p ≠ 0 := fun h => hm (by linarith)
    have hA : ∀ u, PowerLaw.sample ⟨low ^ p / p, high ^ p / p, some p⟩ u = (low ^ p + u * (high ^ p - low ^ p)) ^ p⁻¹ := by
      intro u
      unfold PowerLaw.sample uniformSample
      simp only [one_div]
      congr 1
      field_simp
      ring
    have hF : ∀ x, powF low high index x = (x ^ p - low ^ p) / (high ^ p - low ^ p) := fun x => by unfold powF; rw [if_neg hm]
    rcases lt_or_gt_of_ne hp0 with hneg | hpos
    · have hlow : 0 < low := lt_of_le_of_ne h1 (fun h => by have := h1' h.symm; linarith)
      have hlt : high ^ p < low ^ p := Real.rpow_lt_rpow_of_neg hlow h2 hneg
      have hhp : 0 < high ^ p := Real.rpow_pos_of_pos hh _
      have hAp : ∀ u, 0 ≤ u → u < 1 → 0 < low ^ p + u * (high ^ p - low ^ p) := fun u a b => by nlinarith
      refine hasLaw_of_inverse _ _ _ _ ?_ ?_ ?_
      · intro u hu0 hu1
        rw [hA]
        constructor
        · rw [Real.le_rpow_inv_iff_of_neg hlow (hAp u hu0 hu1) hneg]; nlinarith
        · rw [Real.rpow_inv_le_iff_of_neg (hAp u hu0 hu1) hh hneg]; nlinarith
      · intro u x hu0 hu1 hx1 hx2
        have hx : 0 < x := hlow.trans_le hx1
        rw [hA, hF, Real.rpow_inv_le_iff_of_neg (hAp u hu0 hu1) hx hneg, le_div_iff_of_neg (by linarith)]
        constructor <;> intro h <;> linarith
      · intro x hx1 hx2
        have hx : 0 < x := hlow.trans_le hx1
        have a : x ^ p ≤ low ^ p := (Real.rpow_le_rpow_iff_of_neg hx hlow hneg).2 hx1
        have b : high ^ p ≤ x ^ p := (Real.rpow_le_rpow_iff_of_neg hh hx hneg).2 hx2
        rw [hF]
        constructor
        · exact div_nonneg_of_nonpos (by linarith) (by linarith)
        · rw [div_le_one_of_neg (by linarith)]; linarith
    · have hlt : low ^ p < high ^ p := Real.rpow_lt_rpow h1 h2 hpos
      have hlp : 0 ≤ low ^ p := Real.rpow_nonneg h1 _
      have hAp : ∀ u, 0 ≤ u → u < 1 → 0 ≤ low ^ p + u * (high ^ p - low ^ p) := fun u a b => by nlinarith
      refine hasLaw_of_inverse _ _ _ _ ?_ ?_ ?_
      · intro u hu0 hu1
        rw [hA]
        constructor
        · rw [Real.le_rpow_inv_iff_of_pos h1 (hAp u hu0 hu1) hpos]; nlinarith
        · rw [Real.rpow_inv_le_iff_of_pos (hAp u hu0 hu1) hh.le hpos]; nlinarith
      · intro u x hu0 hu1 hx1 hx2
        have hx : 0 ≤ x := h1.trans hx1
        rw [hA, hF, Real.rpow_inv_le_iff_of_pos (hAp u hu0 hu1) hx hpos, le_div_iff₀ (by linarith)]
        constructor <;> intro h <;> linarith
      · intro x hx1 hx2
        have a : low ^ p ≤ x ^ p := Real.rpow_le_rpow h1 hx1 hpos.le
        have b : x ^ p ≤ high ^ p := Real.rpow_le_rpow (h1.trans hx1) hx2 hpos.le
        rw [hF]
        constructor
        · apply div_nonneg <;> linarith
        · rw [div_le_one (by linarith)]; linarith

/-- An index of zero is rejected. -/
theorem powerLaw_zero_index (low high : ℝ) : PowerLaw.init low high 0 = .error .value := if_pos rfl

/-- **C52 (PowerLaw).**  For `0 < minimum < maximum`, `log_prob` is, at positive values, the logarithm of a probability density whose distribution function is that of the samples, proportional to `x ^ index` on
`[minimum, maximum)`; negative values are rejected. -/
theorem powerLaw_log_prob (low high index : ℝ) (h1 : 0 < low) (h2 : low < high) (hi : index ≠ 0) :
    ∃ d, PowerLaw.init low high index = .ok d ∧ (∀ x, x < 0 → d.logProb x = .error .value) ∧
    ∃ p : ℝ → ℝ, IsDensity p low high (powF low high index) ∧ (∀ x, 0 < x → ∃ l, d.logProb x = .ok l ∧ IsLog l (p x)) ∧
      ∃ c, 0 < c ∧ ∀ x, low ≤ x → x < high → p x = c * x ^ index := by
  have hh : 0 < high := h1.trans h2
  unfold PowerLaw.init
  rw [if_neg hi]
  by_cases hm : index = -1
  · rw [if_pos hm]
    refine ⟨_, rfl, ?_, fun x => if low ≤ x ∧ x < high then (x * Real.log (high / low))⁻¹ else 0, ?_, ?_, (Real.log (high / low))⁻¹, inv_pos.2 (Real.log_pos ((one_lt_div h1).2 h2)), ?_⟩
    · intro x hx; unfold PowerLaw.logProb; rw [if_pos hx]
    · have := inv_density low high h1 h2
      have e : powF low high index = logF low high := by funext x; unfold powF; rw [if_pos hm]
      rw [e]; exact this
    · intro x hx
      refine ⟨_, ?_, inv_isLog low high x h1 h2 hx⟩
      unfold PowerLaw.logProb
      rw [if_neg (not_lt.2 hx.le), if_neg hx.ne']
    · intro x hx1 hx2
      dsimp only
      rw [if_pos ⟨hx1, hx2⟩, hm, Real.rpow_neg_one, mul_inv]; ring
  · rw [if_neg hm]
    set p := index + 1 with hp
    have hp0 : p ≠ 0 := fun h => hm (by linarith)
    have hbase : low ^ p / p < high ^ p / p := by
      rcases lt_or_gt_of_ne hp0 with hneg | hpos
      · exact (div_lt_div_right_of_neg hneg).2 (Real.rpow_lt_rpow_of_neg h1 h2 hneg)
      · exact div_lt_div_of_pos_right (Real.rpow_lt_rpow h1.le h2 hpos) hpos
    set D := high ^ p / p - low ^ p / p with hD
    have hDpos : 0 < D := by linarith
    have hbase_iff : ∀ x, 0 < x → ((low ^ p / p ≤ x ^ p / p ∧ x ^ p / p < high ^ p / p) ↔ (low ≤ x ∧ x < high)) := by
      intro x hx
      rcases lt_or_gt_of_ne hp0 with hneg | hpos
      · rw [div_le_div_right_of_neg hneg, div_lt_div_right_of_neg hneg, Real.rpow_le_rpow_iff_of_neg hx h1 hneg, Real.rpow_lt_rpow_iff_of_neg hh hx hneg]
      · rw [div_le_div_iff_of_pos_right hpos, div_lt_div_iff_of_pos_right hpos, Real.rpow_le_rpow_iff h1.le hx.le hpos, Real.rpow_lt_rpow_iff hx.le hh.le hpos]
    have key : ∀ x, low ≤ x → x ≤ high → ∫ t in low..x, (if low ≤ t ∧ t < high then t ^ index / D else 0) = powF low high index x := by
      intro x hx1 hx2
      rw [integral_congr_half _ (fun t => t ^ index / D) low high x hx1 hx2 (fun t a b => by rw [if_pos ⟨a, b⟩])]
      rw [intervalIntegral.integral_div, integral_rpow (Or.inr ⟨hm, Set.notMem_uIcc_of_lt h1 (h1.trans_le hx1)⟩)]
      unfold powF
      rw [if_neg hm, hD, ← hp, ← sub_div, div_div_div_cancel_right₀ hp0]
    refine ⟨_, rfl, ?_, fun x => if low ≤ x ∧ x < high then x ^ index / D else 0, ⟨?_, ?_, key, ?_⟩, ?_, D⁻¹, inv_pos.2 hDpos, ?_⟩
    · intro x hx; unfold PowerLaw.logProb; rw [if_pos hx]
    · intro x
      dsimp only
      split_ifs with h
      · have : 0 < x := h1.trans_le h.1
        positivity
      · exact le_rfl
    · intro x hx
      dsimp only
      rw [if_neg (by rintro ⟨a, b⟩; rcases hx with h | h <;> linarith)]
    · rw [key high h2.le le_rfl]
      unfold powF
      rw [if_neg hm, ← hp, div_self]
      intro h
      rw [hD, ← sub_div, h, zero_div] at hDpos
      exact lt_irrefl _ hDpos
    · intro x hx
      refine ⟨_, by unfold PowerLaw.logProb; rw [if_neg (not_lt.2 hx.le), if_neg hx.ne'], ?_⟩
      dsimp only
      rw [one_div_one_div, sub_zero]
      unfold uniformLogProb
      have hxp : 0 < x ^ p := Real.rpow_pos_of_pos hx _
      by_cases h : low ≤ x ∧ x < high
      · rw [if_pos ((hbase_iff x hx).2 h), if_pos h]
        right
        refine ⟨by positivity, ?_⟩
        simp only [XR.add]
        congr 1
        rw [Real.log_div (Real.rpow_pos_of_pos hx _).ne' hDpos.ne', Real.log_rpow hx, abs_div, abs_mul, abs_of_pos hx, abs_of_pos hxp,
          Real.log_div (by positivity) hxp.ne', Real.log_mul (by positivity) hx.ne', Real.log_rpow hx, abs_div, abs_one, one_div, Real.log_inv]
        rw [hp]; ring
      · rw [if_neg (fun h' => h ((hbase_iff x hx).1 h')), if_neg h]
        left; exact ⟨rfl, by simp [XR.add]⟩
    · intro x hx1 hx2
      dsimp only
      rw [if_pos ⟨hx1, hx2⟩]; ring

/-- Non-vacuity: signal-to-noise ratios, `ρ⁻⁴` from 4 to 100, and Euclidean volume from zero. -/
example : (∃ d, PowerLaw.init 4 100 (-4) = .ok d ∧ HasLaw d.sample 4 100 (powF 4 100 (-4))) ∧
    ∃ d, PowerLaw.init 0 100 2 = .ok d ∧ HasLaw d.sample 0 100 (powF 0 100 2) :=
  ⟨powerLaw_sample_law 4 100 (-4) (by norm_num) (by norm_num) (by norm_num) (by norm_num),
    powerLaw_sample_law 0 100 2 (by norm_num) (by norm_num) (by norm_num) (by norm_num)⟩

/-- **C51 (DeltaFunction).** -/
theorem delta_sample (peak : ℝ) : Delta.sample peak = peak := mul_one _

end Verif.Distributions
