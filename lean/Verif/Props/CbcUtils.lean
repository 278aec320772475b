import Verif.Model.CbcUtils
import Verif.Spec.CbcUtils
import Mathlib.Tactic.Linarith
import Mathlib.Tactic.LinearCombination
import Mathlib.Tactic.Positivity
import Mathlib.Tactic.FieldSimp
import Mathlib.Tactic.NormNum
/-!
# Properties of the conditioning bounds (C57)
-/
set_option linter.unusedSimpArgs false
set_option linter.unusedVariables false
namespace Verif.CbcUtils
open CbcSpec

/-! ## Final spin -/

/-- **C57.**  The bound on the final spin is at least each spin magnitude and the estimate `0.686 + 0.15 (s1 + s2)`, up to the cap 0.998, never exceeds the cap, and is the least such number; in particular it is not negative. -/
theorem finalSpin_bound (s1 s2 : ℝ) :
    finalSpinBound s1 s2 ≤ 0.998 ∧ min |s1| 0.998 ≤ finalSpinBound s1 s2 ∧ min |s2| 0.998 ≤ finalSpinBound s1 s2 ∧
    min (0.686 + 0.15 * (s1 + s2)) 0.998 ≤ finalSpinBound s1 s2 ∧ 0 ≤ finalSpinBound s1 s2 ∧
    (∀ b, |s1| ≤ b → |s2| ≤ b → 0.686 + 0.15 * (s1 + s2) ≤ b → finalSpinBound s1 s2 ≤ b) := by
  unfold finalSpinBound
  dsimp only
  have h1 : |s1| ≤ max (max (0.686 + 0.15 * (s1 + s2)) |s1|) |s2| := (le_max_right _ _).trans (le_max_left _ _)
  have h2 : |s2| ≤ max (max (0.686 + 0.15 * (s1 + s2)) |s1|) |s2| := le_max_right _ _
  have h3 : 0.686 + 0.15 * (s1 + s2) ≤ max (max (0.686 + 0.15 * (s1 + s2)) |s1|) |s2| := (le_max_left _ _).trans (le_max_left _ _)
  refine ⟨min_le_right _ _, min_le_min_right _ h1, min_le_min_right _ h2, min_le_min_right _ h3, le_min ((abs_nonneg _).trans h1) (by norm_num), ?_⟩
  intro b a1 a2 a3
  exact (min_le_left _ _).trans (max_le (max_le a3 a1) a2)

/-- Non-vacuity: two maximally spinning bodies, spins beyond the cap, and the non-spinning value. -/
example : finalSpinBound 1 1 = 0.998 ∧ finalSpinBound 0 0 = 0.686 ∧ finalSpinBound (-0.9) 0.1 = 0.9 := by
  unfold finalSpinBound
  refine ⟨?_, ?_, ?_⟩
  · simp only [abs_one]; norm_num
  · simp only [abs_zero]; norm_num
  · rw [show |(-0.9 : ℝ)| = 0.9 by rw [abs_neg]; exact abs_of_pos (by norm_num), show |(0.1 : ℝ)| = 0.1 from abs_of_pos (by norm_num)]; norm_num

/-! ## Merger and ringdown -/

theorem msun_pos : 0 < msun := by unfold msun; norm_num
theorem mrsun_pos : 0 < mrsun := by unfold mrsun; norm_num
theorem mtsun_pos : 0 < mtsun := by unfold mtsun Conversion.mtsun; norm_num
theorem gNewton_pos : 0 < gNewton := by unfold gNewton; norm_num
theorem cLight_pos : 0 < cLight := by unfold cLight; norm_num

/-- **C57.**  The merger time is positive for positive masses and proportional to the total mass: one orbit at radius `9 M` and a third of the speed of light. -/
theorem mergeTime_bound (m1 m2 : ℝ) (h1 : 0 < m1) (h2 : 0 < m2) :
    0 < mergeTimeBound m1 m2 ∧ (∀ k, mergeTimeBound (k * m1) (k * m2) = k * mergeTimeBound m1 m2) ∧ (∀ a b, a + b = m1 + m2 → mergeTimeBound a b = mergeTimeBound m1 m2) ∧
    mergeTimeBound m1 m2 * (cLight / 3) = 2 * Real.pi * (9 * ((m1 + m2) / msun) * mrsun) := by
  have := msun_pos
  have := mrsun_pos
  have := cLight_pos
  have := Real.pi_pos
  unfold mergeTimeBound
  dsimp only
  refine ⟨by positivity, fun k => by ring, ?_, ?_⟩
  · intro a b h; rw [h]
  · field_simp

theorem ringdown_omega_pos (s : ℝ) (h0 : 0 ≤ s) (h1 : s < 1) : 0 < 1.5251 + -1.1568 * (1 - s) ^ (0.1292 : ℝ) := by
  have : (1 - s) ^ (0.1292 : ℝ) ≤ 1 := Real.rpow_le_one (by linarith) (by linarith) (by norm_num)
  linarith

/-- **C57.**  For a final spin in `[0, 1)` — which `final_black_hole_spin_bound` guarantees — the ringdown time is positive and proportional to the mass. -/
theorem ringdownTime_bound (m s : ℝ) (hm : 0 < m) (h0 : 0 ≤ s) (h1 : s < 1) :
    0 < ringdownTimeBound m s ∧ ∀ k, 0 < k → ringdownTimeBound (k * m) s = k * ringdownTimeBound m s := by
  have hs := msun_pos
  have ht := mtsun_pos
  have ho := ringdown_omega_pos s h0 h1
  have hq : 0 < (1 - s) ^ (-0.4990 : ℝ) := Real.rpow_pos_of_pos (by linarith) _
  unfold ringdownTimeBound
  dsimp only
  refine ⟨by positivity, ?_⟩
  intro k hk
  field_simp

/-- The ringdown time of a merger is positive whatever the spins. -/
theorem ringdownTime_pos (m s1 s2 : ℝ) (hm : 0 < m) : 0 < ringdownTimeBound m (finalSpinBound s1 s2) := by
  obtain ⟨a, -, -, -, b, -⟩ := finalSpin_bound s1 s2
  exact (ringdownTime_bound m _ hm b (by linarith)).1

/-- Non-vacuity. -/
example : (0 : ℝ) < 30 * msun ∧ (0 : ℝ) ≤ 0.686 ∧ (0.686 : ℝ) < 1 := ⟨by have := msun_pos; positivity, by norm_num, by norm_num⟩

/-! ## Chirp time -/

theorem seconds_eq (M : ℝ) : seconds M = M * gNewton / cLight ^ 3 := by
  unfold seconds gNewton cLight; ring

theorem seconds_pos (M : ℝ) (h : 0 < M) : 0 < seconds M := by
  rw [seconds_eq]; have := gNewton_pos; have := cLight_pos; positivity

theorem symRatio_pos (m1 m2 : ℝ) (h1 : 0 < m1) (h2 : 0 < m2) : 0 < symRatio m1 m2 := by unfold symRatio; positivity

theorem symRatio_le (m1 m2 : ℝ) (h1 : 0 < m1) (h2 : 0 < m2) : symRatio m1 m2 ≤ 1 / 4 := by
  unfold symRatio
  rw [div_le_iff₀ (by positivity)]
  nlinarith [sq_nonneg (m1 - m2)]

/-- The expansion parameter `(π G M f / c³)^(1/3)`. -/
noncomputable def vel (m f : ℝ) : ℝ := (Real.pi * m * f) ^ ((1 : ℝ) / 3)

theorem vel_pos (m f : ℝ) (hm : 0 < m) (hf : 0 < f) : 0 < vel m f := Real.rpow_pos_of_pos (by have := Real.pi_pos; positivity) _

theorem vel_cube (m f : ℝ) (hm : 0 < m) (hf : 0 < f) : vel m f ^ 3 = Real.pi * m * f := by
  unfold vel
  rw [← Real.rpow_natCast, ← Real.rpow_mul (by have := Real.pi_pos; positivity)]
  norm_num

theorem vel_lt (m f g : ℝ) (hm : 0 < m) (hf : 0 < f) (h : f < g) : vel m f < vel m g := by
  have := Real.pi_pos
  exact Real.rpow_lt_rpow (by positivity) (mul_lt_mul_of_pos_left h (by positivity)) (by norm_num)

theorem code_vel (M f : ℝ) (hM : 0 < M) (hf : 0 < f) : (Real.pi * M * f * gNewton) ^ ((1 : ℝ) / 3) / cLight = vel (seconds M) f := by
  have hp := Real.pi_pos
  have hc := cLight_pos
  have hg := gNewton_pos
  unfold vel
  rw [seconds_eq, show Real.pi * (M * gNewton / cLight ^ 3) * f = (Real.pi * M * f * gNewton) / cLight ^ 3 by ring, Real.div_rpow (by positivity) (by positivity)]
  congr 1
  rw [← Real.rpow_natCast, ← Real.rpow_mul hc.le]
  norm_num

theorem newtonianTime_eq (f m1 m2 : ℝ) (h1 : 0 < m1) (h2 : 0 < m2) (hf : 0 < f) :
    newtonianTime f m1 m2 = 5 / 256 * seconds (m1 + m2) / symRatio m1 m2 * (vel (seconds (m1 + m2)) f ^ 8)⁻¹ := by
  have hs := seconds_pos (m1 + m2) (by linarith)
  have hp := Real.pi_pos
  unfold newtonianTime vel
  congr 1
  rw [← Real.rpow_natCast, ← Real.rpow_mul (by positivity), ← Real.rpow_neg (by positivity)]
  congr 1
  norm_num

/-- The chirp time bound as the lowest-order time times a post-Newtonian factor with positive coefficients. -/
theorem chirpTime_eq (f m1 m2 s1 s2 : ℝ) (h1 : 0 < m1) (h2 : 0 < m2) (hf : 0 < f) :
    chirpTimeBound f m1 m2 s1 s2 = newtonianTime f m1 m2 * (1 + t2Timing2 (symRatio m1 m2) * vel (seconds (m1 + m2)) f ^ 2 +
      226 / 15 * max (abs s1) (abs s2) * vel (seconds (m1 + m2)) f ^ 3 + t2Timing4 (symRatio m1 m2) * vel (seconds (m1 + m2)) f ^ 4) := by
  have hM : 0 < m1 + m2 := by linarith
  have hs := seconds_pos (m1 + m2) hM
  have hη := symRatio_pos m1 m2 h1 h2
  rw [newtonianTime_eq f m1 m2 h1 h2 hf]
  unfold chirpTimeBound
  dsimp only
  rw [code_vel (m1 + m2) f hM hf, show m1 * m2 / (m1 + m2) / (m1 + m2) = symRatio m1 m2 by unfold symRatio; rw [div_div, sq]]
  have hc : |t2Timing0 (m1 + m2) (symRatio m1 m2)| = 5 / 256 * seconds (m1 + m2) / symRatio m1 m2 := by
    unfold t2Timing0
    rw [← seconds_eq, abs_of_nonpos]
    · field_simp
    · apply div_nonpos_of_nonpos_of_nonneg
      · linarith
      · positivity
  rw [hc, abs_of_nonneg ((abs_nonneg s1).trans (le_max_left _ _))]
  ring

theorem t2Timing2_pos (e : ℝ) (h : 0 < e) : 0 < t2Timing2 e := by unfold t2Timing2; positivity
theorem t2Timing4_pos (e : ℝ) (h : 0 < e) : 0 < t2Timing4 e := by unfold t2Timing4; positivity

theorem newtonianTime_pos (f m1 m2 : ℝ) (h1 : 0 < m1) (h2 : 0 < m2) (hf : 0 < f) : 0 < newtonianTime f m1 m2 := by
  rw [newtonianTime_eq f m1 m2 h1 h2 hf]
  have := seconds_pos (m1 + m2) (by linarith)
  have := symRatio_pos m1 m2 h1 h2
  have := vel_pos _ f (seconds_pos (m1 + m2) (by linarith)) hf
  positivity

/-- **C57.**  For positive masses and frequency the chirp time bound is positive, exceeds the lowest-order time, does not depend on which body is called first, grows with the spin magnitudes and shrinks with the starting frequency. -/
theorem chirpTime_bound (f m1 m2 s1 s2 : ℝ) (h1 : 0 < m1) (h2 : 0 < m2) (hf : 0 < f) :
    0 < chirpTimeBound f m1 m2 s1 s2 ∧ newtonianTime f m1 m2 < chirpTimeBound f m1 m2 s1 s2 ∧ chirpTimeBound f m2 m1 s2 s1 = chirpTimeBound f m1 m2 s1 s2 ∧
    (∀ t1 t2, |s1| ≤ |t1| → |s2| ≤ |t2| → chirpTimeBound f m1 m2 s1 s2 ≤ chirpTimeBound f m1 m2 t1 t2) ∧
    (∀ g, f < g → chirpTimeBound g m1 m2 s1 s2 < chirpTimeBound f m1 m2 s1 s2) := by
  have hM : 0 < m1 + m2 := by linarith
  have hs := seconds_pos (m1 + m2) hM
  have hη := symRatio_pos m1 m2 h1 h2
  have hv := vel_pos _ f hs hf
  have hn := newtonianTime_pos f m1 m2 h1 h2 hf
  have c2 := t2Timing2_pos _ hη
  have c4 := t2Timing4_pos _ hη
  have hχ : 0 ≤ max (abs s1) (abs s2) := (abs_nonneg s1).trans (le_max_left _ _)
  have hfac : 1 < 1 + t2Timing2 (symRatio m1 m2) * vel (seconds (m1 + m2)) f ^ 2 +
      226 / 15 * max (abs s1) (abs s2) * vel (seconds (m1 + m2)) f ^ 3 + t2Timing4 (symRatio m1 m2) * vel (seconds (m1 + m2)) f ^ 4 := by
    have a : 0 < t2Timing2 (symRatio m1 m2) * vel (seconds (m1 + m2)) f ^ 2 := by positivity
    have b : 0 ≤ 226 / 15 * max (abs s1) (abs s2) * vel (seconds (m1 + m2)) f ^ 3 := by positivity
    have c : 0 < t2Timing4 (symRatio m1 m2) * vel (seconds (m1 + m2)) f ^ 4 := by positivity
    linarith
  have hlt : newtonianTime f m1 m2 < chirpTimeBound f m1 m2 s1 s2 := by
    rw [chirpTime_eq f m1 m2 s1 s2 h1 h2 hf]
    nlinarith
  refine ⟨hn.trans hlt, hlt, ?_, ?_, ?_⟩
  · unfold chirpTimeBound
    dsimp only
    rw [add_comm m2 m1, mul_comm m2 m1, max_comm]
  · intro t1 t2 ht1 ht2
    rw [chirpTime_eq f m1 m2 s1 s2 h1 h2 hf, chirpTime_eq f m1 m2 t1 t2 h1 h2 hf]
    apply mul_le_mul_of_nonneg_left _ hn.le
    have : max (abs s1) (abs s2) ≤ max (abs t1) (abs t2) := max_le_max ht1 ht2
    have : 226 / 15 * max (abs s1) (abs s2) * vel (seconds (m1 + m2)) f ^ 3 ≤ 226 / 15 * max (abs t1) (abs t2) * vel (seconds (m1 + m2)) f ^ 3 := by gcongr
    linarith
  · intro g hg
    have hg0 : 0 < g := hf.trans hg
    have hvg := vel_lt _ f g hs hf hg
    have hwg := vel_pos _ g hs hg0
    rw [chirpTime_eq g m1 m2 s1 s2 h1 h2 hg0, chirpTime_eq f m1 m2 s1 s2 h1 h2 hf, newtonianTime_eq f m1 m2 h1 h2 hf, newtonianTime_eq g m1 m2 h1 h2 hg0]
    set v := vel (seconds (m1 + m2)) f
    set w := vel (seconds (m1 + m2)) g
    have key : ∀ c2 c3 c4 v : ℝ, 0 < v → (v ^ 8)⁻¹ * (1 + c2 * v ^ 2 + c3 * v ^ 3 + c4 * v ^ 4) = (v ^ 8)⁻¹ + c2 * (v ^ 6)⁻¹ + c3 * (v ^ 5)⁻¹ + c4 * (v ^ 4)⁻¹ := by
      intro c2 c3 c4 v hv
      field_simp
    rw [mul_assoc _ (w ^ 8)⁻¹, mul_assoc _ (v ^ 8)⁻¹, key _ _ _ _ hv, key _ _ _ _ hwg]
    have hK : 0 < 5 / 256 * seconds (m1 + m2) / symRatio m1 m2 := by positivity
    apply mul_lt_mul_of_pos_left _ hK
    have p : ∀ k : ℕ, k ≠ 0 → (w ^ k)⁻¹ < (v ^ k)⁻¹ := fun k hk => inv_strictAnti₀ (by positivity) (pow_lt_pow_left₀ hvg hv.le hk)
    have q8 := p 8 (by norm_num)
    have q6 : t2Timing2 (symRatio m1 m2) * (w ^ 6)⁻¹ < t2Timing2 (symRatio m1 m2) * (v ^ 6)⁻¹ := mul_lt_mul_of_pos_left (p 6 (by norm_num)) c2
    have q5 : 226 / 15 * max (abs s1) (abs s2) * (w ^ 5)⁻¹ ≤ 226 / 15 * max (abs s1) (abs s2) * (v ^ 5)⁻¹ := mul_le_mul_of_nonneg_left (p 5 (by norm_num)).le (by positivity)
    have q4 : t2Timing4 (symRatio m1 m2) * (w ^ 4)⁻¹ < t2Timing4 (symRatio m1 m2) * (v ^ 4)⁻¹ := mul_lt_mul_of_pos_left (p 4 (by norm_num)) c4
    linarith

/-- The two ways the code turns kilogrammes into seconds, `G / c³` and `MTSUN_SI / MSUN`, agree to seven digits. -/
noncomputable def unitRatio : ℝ := (gNewton / cLight ^ 3) / (mtsun / msun)

theorem unitRatio_near : |unitRatio - 1| < 2 / 10 ^ 8 := by
  unfold unitRatio gNewton cLight mtsun Conversion.mtsun msun
  rw [abs_lt]
  constructor <;> norm_num

theorem seconds_ratio (M : ℝ) : seconds M = unitRatio * (M * mtsun / msun) := by
  rw [seconds_eq]
  unfold unitRatio
  have := mtsun_pos
  have := msun_pos
  have := cLight_pos
  field_simp

theorem unitRatio_pos : 0 < unitRatio := by
  unfold unitRatio
  have := mtsun_pos
  have := msun_pos
  have := cLight_pos
  have := gNewton_pos
  positivity

theorem startFrequency_pos (t m1 m2 : ℝ) (h1 : 0 < m1) (h2 : 0 < m2) (ht : 0 < t) : 0 < chirpStartFrequencyBound t m1 m2 := by
  have := mtsun_pos
  have := msun_pos
  have := cLight_pos
  have := gNewton_pos
  have := Real.pi_pos
  unfold chirpStartFrequencyBound t3Frequency0
  dsimp only
  apply mul_pos (by positivity)
  apply Real.rpow_pos_of_pos
  positivity

/-- **C57.**  From the start frequency bound the lowest-order chirp takes the requested time, up to the seven digits in which the code's unit conversions agree. -/
theorem startFrequency_inverts (t m1 m2 : ℝ) (h1 : 0 < m1) (h2 : 0 < m2) (ht : 0 < t) :
    newtonianTime (chirpStartFrequencyBound t m1 m2) m1 m2 = unitRatio * t := by
  have hM : 0 < m1 + m2 := by linarith
  have hs := seconds_pos (m1 + m2) hM
  have hη := symRatio_pos m1 m2 h1 h2
  have hp := Real.pi_pos
  have hu := unitRatio_pos
  have hmt := mtsun_pos
  have hms := msun_pos
  have hf := startFrequency_pos t m1 m2 h1 h2 ht
  rw [newtonianTime_eq _ m1 m2 h1 h2 hf]
  set f := chirpStartFrequencyBound t m1 m2 with hfd
  set B := 5 * (m1 + m2) * (mtsun / msun) / (symRatio m1 m2 * t) with hB
  have hBpos : 0 < B := by positivity
  have hfe : f = 1 / (8 * Real.pi * seconds (m1 + m2)) * B ^ ((3 : ℝ) / 8) := by
    rw [hfd]
    unfold chirpStartFrequencyBound t3Frequency0
    dsimp only
    rw [show m1 * m2 / (m1 + m2) / (m1 + m2) = symRatio m1 m2 by unfold symRatio; rw [div_div, sq], ← seconds_eq]
  have hv := vel_pos _ f hs hf
  have hv3 := vel_cube _ f hs hf
  have h8 : (2 * vel (seconds (m1 + m2)) f) ^ 3 = B ^ ((3 : ℝ) / 8) := by
    rw [mul_pow, hv3, hfe]
    field_simp
    norm_num
  have h24 : ((2 * vel (seconds (m1 + m2)) f) ^ 8) ^ 3 = B ^ 3 := by
    rw [← pow_mul, mul_comm 8 3, pow_mul, h8, ← Real.rpow_natCast, ← Real.rpow_mul hBpos.le]
    norm_num
  have h88 : (2 * vel (seconds (m1 + m2)) f) ^ 8 = B := (pow_left_inj₀ (by positivity) hBpos.le (by norm_num)).1 h24
  have hv8 : vel (seconds (m1 + m2)) f ^ 8 = B / 256 := by
    rw [mul_pow] at h88; linarith
  rw [hv8, hB, seconds_ratio]
  field_simp

theorem newtonianTime_lt_iff (f g m1 m2 : ℝ) (h1 : 0 < m1) (h2 : 0 < m2) (hf : 0 < f) (hg : 0 < g) : newtonianTime g m1 m2 < newtonianTime f m1 m2 ↔ f < g := by
  have hM : 0 < m1 + m2 := by linarith
  have hs := seconds_pos (m1 + m2) hM
  have hη := symRatio_pos m1 m2 h1 h2
  have anti : ∀ f g, 0 < f → f < g → newtonianTime g m1 m2 < newtonianTime f m1 m2 := by
    intro f g hf hfg
    rw [newtonianTime_eq f m1 m2 h1 h2 hf, newtonianTime_eq g m1 m2 h1 h2 (hf.trans hfg)]
    apply mul_lt_mul_of_pos_left _ (by positivity)
    have hv := vel_pos _ f hs hf
    exact inv_strictAnti₀ (by positivity) (pow_lt_pow_left₀ (vel_lt _ f g hs hf hfg) hv.le (by norm_num))
  constructor
  · intro h
    by_contra hc
    rcases eq_or_lt_of_le (not_lt.1 hc) with e | e
    · rw [e] at h; exact lt_irrefl _ h
    · exact lt_asymm h (anti g f hg e)
  · exact anti f g hf

/-- **C57.**  The start frequency for the lengthened chirp time lies below the frequency the time was computed for. -/
theorem startFrequency_below (f m1 m2 s1 s2 : ℝ) (h1 : 0 < m1) (h2 : 0 < m2) (hf : 0 < f) :
    0 < chirpStartFrequencyBound ((1 + 0.1) * chirpTimeBound f m1 m2 s1 s2) m1 m2 ∧
    chirpStartFrequencyBound ((1 + 0.1) * chirpTimeBound f m1 m2 s1 s2) m1 m2 < f := by
  obtain ⟨hp, hlt, -⟩ := chirpTime_bound f m1 m2 s1 s2 h1 h2 hf
  have ht : 0 < (1 + 0.1) * chirpTimeBound f m1 m2 s1 s2 := by positivity
  have hpos := startFrequency_pos _ m1 m2 h1 h2 ht
  refine ⟨hpos, ?_⟩
  rw [← newtonianTime_lt_iff _ _ m1 m2 h1 h2 hpos hf, startFrequency_inverts _ m1 m2 h1 h2 ht]
  have hu := abs_lt.1 unitRatio_near
  have hu1 : 0.99 < unitRatio := by
    have : (2 : ℝ) / 10 ^ 8 < 0.01 := by norm_num
    linarith [hu.1]
  nlinarith

/-- **C57.**  `frequency_isco` is the gravitational-wave frequency of a circular orbit at nine gravitational radii, positive and inversely proportional to the mass. -/
theorem frequencyIsco_spec (m1 m2 : ℝ) (h1 : 0 < m1) (h2 : 0 < m2) :
    0 < frequencyIsco m1 m2 ∧ frequencyIsco m1 m2 = frequencyAtNine ((m1 + m2) * mtsun / msun) ∧ ∀ k, 0 < k → frequencyIsco (k * m1) (k * m2) = frequencyIsco m1 m2 / k := by
  have hp := Real.pi_pos
  have hmt := mtsun_pos
  have hms := msun_pos
  have e : (9 : ℝ) ^ (1.5 : ℝ) = 27 := by
    rw [show (9 : ℝ) = 3 ^ (2 : ℝ) by norm_num, ← Real.rpow_mul (by norm_num), show (2 : ℝ) * 1.5 = 3 by norm_num]
    norm_num
  unfold frequencyIsco frequencyAtNine
  rw [e]
  refine ⟨by positivity, ?_, ?_⟩
  · have : (1 : ℝ) / (9 ^ 3 * ((m1 + m2) * mtsun / msun) ^ 2) = (1 / (27 * ((m1 + m2) * mtsun / msun))) ^ 2 := by
      field_simp; norm_num
    rw [this, Real.sqrt_sq (by positivity)]
    field_simp
  · intro k hk
    rw [← mul_add]
    field_simp

/-- Non-vacuity: a GW150914-like binary at 20 Hz. -/
example : 0 < chirpTimeBound 20 (36 * msun) (29 * msun) 0.3 (-0.4) :=
  (chirpTime_bound 20 (36 * msun) (29 * msun) 0.3 (-0.4) (by have := msun_pos; positivity) (by have := msun_pos; positivity) (by norm_num)).1

end Verif.CbcUtils
