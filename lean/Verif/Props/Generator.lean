import Verif.Model.Generator
import Verif.Spec.Generator
import Verif.Props.CbcUtils
import Verif.Lemmas.Fourier
import Verif.Lemmas.Tensor
import Verif.Props.QTile
import Mathlib.Analysis.Real.Pi.Bounds
/-!
# Properties of the time-domain generator (C56)
-/
set_option linter.unusedSimpArgs false
set_option linter.unusedVariables false
set_option linter.unusedSectionVars false
namespace Verif.Generator
open CbcUtils CbcSpec Whiten QTransform Fourier GenSpec

/-! ## The ramp -/

theorem ramp_range (x : ℝ) : 0 ≤ ramp x ∧ ramp x ≤ 1 := by
  unfold ramp
  have h1 := Real.cos_le_one (Real.pi * x)
  have h2 := Real.neg_one_le_cos (Real.pi * x)
  constructor <;> linarith

theorem ramp_ends : ramp 0 = 0 ∧ ramp 1 = 1 := by
  unfold ramp
  constructor
  · simp
  · rw [mul_one, Real.cos_pi]; norm_num

theorem ramp_mono (x y : ℝ) (h0 : 0 ≤ x) (h : x ≤ y) (h1 : y ≤ 1) : ramp x ≤ ramp y := by
  unfold ramp
  have := Real.cos_le_cos_of_nonneg_of_le_pi (x := Real.pi * x) (y := Real.pi * y) (by have := Real.pi_pos; positivity) (by have := Real.pi_pos; nlinarith)
    (by have := Real.pi_pos; nlinarith)
  linarith

/-! ## Rounding and maxima -/

theorem roundEven_near (r : ℝ) : |(roundEven r : ℝ) - r| ≤ 1 / 2 := by
  have h1 := Int.floor_le r
  have h2 := Int.lt_floor_add_one r
  unfold roundEven
  rw [abs_le]
  split_ifs <;> push_cast <;> constructor <;> linarith

theorem foldl_max_spec (l : List ℝ) (a : ℝ) : (l.foldl max a ∈ a :: l) ∧ a ≤ l.foldl max a ∧ ∀ x ∈ l, x ≤ l.foldl max a := by
  induction l generalizing a with
  | nil => simp
  | cons b l ih =>
    obtain ⟨h1, h2, h3⟩ := ih (max a b)
    simp only [List.foldl_cons]
    refine ⟨?_, (le_max_left _ _).trans h2, ?_⟩
    · rcases List.mem_cons.1 h1 with h | h
      · rw [h]
        rcases max_choice a b with e | e <;> rw [e] <;> simp
      · simp [h]
    · intro x hx
      rcases List.mem_cons.1 hx with h | h
      · rw [h]; exact (le_max_right _ _).trans h2
      · exact h3 x h

theorem foldl_min_spec (l : List ℝ) (a : ℝ) : (l.foldl min a ∈ a :: l) ∧ l.foldl min a ≤ a ∧ ∀ x ∈ l, l.foldl min a ≤ x := by
  induction l generalizing a with
  | nil => simp
  | cons b l ih =>
    obtain ⟨h1, h2, h3⟩ := ih (min a b)
    simp only [List.foldl_cons]
    refine ⟨?_, h2.trans (min_le_left _ _), ?_⟩
    · rcases List.mem_cons.1 h1 with h | h
      · rw [h]
        rcases min_choice a b with e | e <;> rw [e] <;> simp
      · simp [h]
    · intro x hx
      rcases List.mem_cons.1 hx with h | h
      · rw [h]; exact h2.trans (min_le_right _ _)
      · exact h3 x h

theorem listMax_ok (l : List ℝ) (h : l ≠ []) : ∃ m, listMax l = .ok m ∧ m ∈ l ∧ ∀ x ∈ l, x ≤ m := by
  cases l with
  | nil => exact absurd rfl h
  | cons a l =>
    obtain ⟨h1, h2, h3⟩ := foldl_max_spec l a
    exact ⟨_, rfl, h1, fun x hx => by rcases List.mem_cons.1 hx with e | e; rw [e]; exact h2; exact h3 x e⟩

theorem listMin_ok (l : List ℝ) (h : l ≠ []) : ∃ m, listMin l = .ok m ∧ m ∈ l ∧ ∀ x ∈ l, m ≤ x := by
  cases l with
  | nil => exact absurd rfl h
  | cons a l =>
    obtain ⟨h1, h2, h3⟩ := foldl_min_spec l a
    exact ⟨_, rfl, h1, fun x hx => by rcases List.mem_cons.1 hx with e | e; rw [e]; exact h2; exact h3 x e⟩

/-! ## Valid input -/

/-- Positive masses. -/
def Par.Valid (p : Par) : Prop := 0 < p.mass1 ∧ 0 < p.mass2

/-- A positive lower frequency, at most the Nyquist frequency. -/
def Gen.Valid (g : Gen) : Prop := 0 < g.fMin ∧ 2 * g.fMin ≤ g.sampleRate

/-! ## The distance between the start frequency and the lower frequency -/

theorem gap_numeric (x r A fT q : ℝ) (hx : 0 < x) (hxu : x < 0.33334) (hA1 : 1.0999 * (1 + 2.948 * x ^ 2) ≤ A) (hr0 : 0 < r) (hr8 : r ^ 8 * A ^ 3 = 1)
    (hfT : A * (5 / (64 * Real.pi * x ^ 5)) + 6 < fT) (hq4 : q ≤ 1 / 4) : 1 < (1 - r) * (fT - q) := by
  have hpi := Real.pi_pos
  have hpi2 := Real.pi_lt_d4
  have hApos : 0 < A := lt_of_lt_of_le (by positivity) hA1
  have hrlt : ∀ a q : ℝ, 0 < a → 0 < q → a ≤ A → 1 ≤ q ^ 8 * a ^ 3 → r ≤ q := by
    intro a q ha hq haA h
    by_contra hc
    have h5 : q ^ 8 < r ^ 8 := pow_lt_pow_left₀ (not_le.1 hc) hq.le (by norm_num)
    have h6 : a ^ 3 ≤ A ^ 3 := pow_le_pow_left₀ ha.le haA 3
    have h7 : q ^ 8 * a ^ 3 < r ^ 8 * A ^ 3 := by
      have h8 : 0 < a ^ 3 := by positivity
      have h9 : 0 < r ^ 8 := by positivity
      calc q ^ 8 * a ^ 3 < r ^ 8 * a ^ 3 := mul_lt_mul_of_pos_right h5 h8
        _ ≤ r ^ 8 * A ^ 3 := mul_le_mul_of_nonneg_left h6 h9.le
    linarith
  have hx5 : ∀ c : ℝ, 0 < c → x ≤ c → 5 / (64 * 3.1416 * c ^ 5) ≤ 5 / (64 * Real.pi * x ^ 5) := by
    intro c hc hxc
    apply div_le_div_of_nonneg_left (by norm_num) (by positivity)
    have : x ^ 5 ≤ c ^ 5 := pow_le_pow_left₀ hx.le hxc 5
    gcongr
  by_cases hq : x ≤ 1 / 4
  · have a1 : 1.0999 ≤ A := by nlinarith [sq_nonneg x]
    have a2 := hrlt 1.0999 0.966 (by norm_num) (by norm_num) a1 (by norm_num)
    have a3 := hx5 (1 / 4) (by norm_num) hq
    have a4 : (1.0999 : ℝ) * (5 / (64 * 3.1416 * (1 / 4) ^ 5)) ≤ A * (5 / (64 * Real.pi * x ^ 5)) := by
      apply mul_le_mul a1 a3 (by norm_num) hApos.le
    have a5 : (27 : ℝ) < 1.0999 * (5 / (64 * 3.1416 * (1 / 4) ^ 5)) := by norm_num
    nlinarith
  · have hq' : 1 / 4 < x := not_le.1 hq
    have a1 : 1.3025 ≤ A := by nlinarith
    have a2 := hrlt 1.3025 0.906 (by norm_num) (by norm_num) a1 (by norm_num)
    have a3 := hx5 0.33334 (by norm_num) hxu.le
    have a4 : (1.3025 : ℝ) * (5 / (64 * 3.1416 * 0.33334 ^ 5)) ≤ A * (5 / (64 * Real.pi * x ^ 5)) := by
      apply mul_le_mul a1 a3 (by norm_num) hApos.le
    have a5 : (7.8 : ℝ) < 1.3025 * (5 / (64 * 3.1416 * 0.33334 ^ 5)) := by norm_num
    nlinarith

/-- At frequencies up to `frequencyIsco` the velocity is below about a third. -/
theorem vel_isco (m1 m2 f : ℝ) (h1 : 0 < m1) (h2 : 0 < m2) (hf : 0 < f) (hle : f ≤ frequencyIsco m1 m2) : vel (seconds (m1 + m2)) f < 0.33334 := by
  have hM : 0 < m1 + m2 := by linarith
  have hsec := seconds_pos (m1 + m2) hM
  have hpi := Real.pi_pos
  have hu := abs_lt.1 unitRatio_near
  have hx3 := vel_cube _ f hsec hf
  have hmt : 0 < (m1 + m2) * mtsun / msun := by have := mtsun_pos; have := msun_pos; positivity
  have e27 : frequencyIsco m1 m2 = 1 / (27 * Real.pi * ((m1 + m2) * mtsun / msun)) := by
    unfold frequencyIsco
    have : (9 : ℝ) ^ (1.5 : ℝ) = 27 := by
      rw [show (9 : ℝ) = 3 ^ (2 : ℝ) by norm_num, ← Real.rpow_mul (by norm_num), show (2 : ℝ) * 1.5 = 3 by norm_num]; norm_num
    rw [this]; congr 1; ring
  have hb : Real.pi * seconds (m1 + m2) * f ≤ unitRatio / 27 := by
    rw [seconds_ratio]
    rw [e27] at hle
    generalize (m1 + m2) * mtsun / msun = w at *
    have hup := unitRatio_pos
    rw [le_div_iff₀ (by positivity)] at hle
    have := mul_le_mul_of_nonneg_left hle hup.le
    linarith
  by_contra hc
  have : (0.33334 : ℝ) ^ 3 ≤ vel (seconds (m1 + m2)) f ^ 3 := pow_le_pow_left₀ (by norm_num) (not_lt.1 hc) 3
  rw [hx3] at this
  have h27 : unitRatio / 27 < (0.33334 : ℝ) ^ 3 := by
    have h8 : (2 : ℝ) / 10 ^ 8 = 0.00000002 := by norm_num
    rw [h8] at hu
    norm_num
    linarith [hu.2]
  linarith

/-- If the Newtonian times at two frequencies have ratio `A`, the frequencies have ratio `A ^ (-3/8)`. -/
theorem freq_ratio (m1 m2 f s A : ℝ) (h1 : 0 < m1) (h2 : 0 < m2) (hf : 0 < f) (hs : 0 < s) (hinv : newtonianTime s m1 m2 = A * newtonianTime f m1 m2) :
    (s / f) ^ 8 * A ^ 3 = 1 := by
  have hM : 0 < m1 + m2 := by linarith
  have hsec := seconds_pos (m1 + m2) hM
  have hη := symRatio_pos m1 m2 h1 h2
  have hx := vel_pos _ f hsec hf
  have hx3 := vel_cube _ f hsec hf
  have hy := vel_pos _ s hsec hs
  have hy3 := vel_cube _ s hsec hs
  have hpi := Real.pi_pos
  rw [newtonianTime_eq f m1 m2 h1 h2 hf, newtonianTime_eq s m1 m2 h1 h2 hs] at hinv
  have hK : 0 < 5 / 256 * seconds (m1 + m2) / symRatio m1 m2 := by positivity
  have hr3 : s / f = vel (seconds (m1 + m2)) s ^ 3 / vel (seconds (m1 + m2)) f ^ 3 := by
    rw [hx3, hy3]
    have : Real.pi * seconds (m1 + m2) ≠ 0 := by positivity
    rw [mul_div_mul_left _ _ this]
  rw [hr3]
  clear hr3 hx3 hy3
  generalize vel (seconds (m1 + m2)) s = y at *
  generalize vel (seconds (m1 + m2)) f = x at *
  generalize 5 / 256 * seconds (m1 + m2) / symRatio m1 m2 = K at *
  have e : A * y ^ 8 = x ^ 8 := by
    have h : (y ^ 8)⁻¹ = A * (x ^ 8)⁻¹ := by
      apply mul_left_cancel₀ hK.ne'
      rw [hinv]; ring
    have hyp : y ^ 8 ≠ 0 := by positivity
    have hxp : x ^ 8 ≠ 0 := by positivity
    calc A * y ^ 8 = (A * (x ^ 8)⁻¹) * (y ^ 8 * x ^ 8) := by rw [mul_assoc, mul_comm (y ^ 8), ← mul_assoc (x ^ 8)⁻¹, inv_mul_cancel₀ hxp, one_mul]
      _ = x ^ 8 := by rw [← h, ← mul_assoc, inv_mul_cancel₀ hyp, one_mul]
  have : (y ^ 3 / x ^ 3) ^ 8 * A ^ 3 = (A * y ^ 8) ^ 3 / (x ^ 8) ^ 3 := by ring
  rw [this, e, div_self (by positivity)]

theorem freq_time (m1 m2 f : ℝ) (h1 : 0 < m1) (h2 : 0 < m2) (hf : 0 < f) : 5 / (64 * Real.pi * vel (seconds (m1 + m2)) f ^ 5) ≤ f * newtonianTime f m1 m2 := by
  have hM : 0 < m1 + m2 := by linarith
  have hsec := seconds_pos (m1 + m2) hM
  have hη := symRatio_pos m1 m2 h1 h2
  have hη4 := symRatio_le m1 m2 h1 h2
  have hx := vel_pos _ f hsec hf
  have hx3 := vel_cube _ f hsec hf
  have hpi := Real.pi_pos
  rw [newtonianTime_eq f m1 m2 h1 h2 hf]
  generalize vel (seconds (m1 + m2)) f = x at *
  generalize seconds (m1 + m2) = w at *
  generalize symRatio m1 m2 = η at *
  have e : f * (5 / 256 * w / η * (x ^ 8)⁻¹) = 5 / (256 * Real.pi * η * x ^ 5) := by
    have : f = x ^ 3 / (Real.pi * w) := by rw [hx3]; field_simp
    rw [this]
    field_simp
  rw [e]
  apply div_le_div_of_nonneg_left (by norm_num) (by positivity)
  have : 0 < Real.pi * x ^ 5 := by positivity
  nlinarith

section
variable {g : Gen} {p : Par} (hg : g.Valid) (hp : p.Valid)
include hg hp

theorem masses_pos : 0 < p.mass1 * msun ∧ 0 < p.mass2 * msun := by
  have := msun_pos
  exact ⟨mul_pos hp.1 this, mul_pos hp.2 this⟩

theorem fLow_pos : 0 < g.fLow p := by
  obtain ⟨h1, h2⟩ := masses_pos hg hp
  exact lt_min (frequencyIsco_spec _ _ h1 h2).1 hg.1

theorem sampleRate_pos : 0 < g.sampleRate := by have := hg.1; have := hg.2; linarith

theorem tchirp_pos : 0 < g.tchirp p := by
  obtain ⟨h1, h2⟩ := masses_pos hg hp
  exact (chirpTime_bound _ _ _ _ _ h1 h2 (fLow_pos hg hp)).1

/-- **C56.**  The start frequency is positive and below the lower frequency. -/
theorem fstart_range : 0 < g.fstart p ∧ g.fstart p < g.fLow p := by
  obtain ⟨h1, h2⟩ := masses_pos hg hp
  exact startFrequency_below _ _ _ _ _ h1 h2 (fLow_pos hg hp)

theorem tmerge_pos : 0 < tmerge p := by
  obtain ⟨h1, h2⟩ := masses_pos hg hp
  exact add_pos (mergeTime_bound _ _ h1 h2).1 (ringdownTime_pos _ _ _ (by linarith))

/-- How far below the lower frequency the start frequency is, in units of the inverse total time. -/
theorem taper_gap : 1 < (g.fLow p - g.fstart p) * (g.time p - 1 / (2 * g.sampleRate)) := by
  obtain ⟨h1, h2⟩ := masses_pos hg hp
  have hf := fLow_pos hg hp
  have hsr := sampleRate_pos hg hp
  obtain ⟨hs0, hs1⟩ := fstart_range hg hp
  have hη := symRatio_pos _ _ h1 h2
  have hη4 := symRatio_le _ _ h1 h2
  have hu := abs_lt.1 unitRatio_near
  have hx := vel_pos _ (g.fLow p) (seconds_pos _ (add_pos h1 h2)) hf
  have hxu := vel_isco _ _ _ h1 h2 hf (min_le_left _ _)
  have hF := chirpTime_eq (g.fLow p) _ _ p.s1z p.s2z h1 h2 hf
  have hN := newtonianTime_pos (g.fLow p) _ _ h1 h2 hf
  have hinv := startFrequency_inverts ((1 + 0.1) * g.tchirp p) _ _ h1 h2 (by have := tchirp_pos hg hp; positivity)
  have hratio : ∃ A, 1.0999 * (1 + 2.948 * vel (seconds (p.mass1 * msun + p.mass2 * msun)) (g.fLow p) ^ 2) ≤ A ∧
      newtonianTime (g.fstart p) (p.mass1 * msun) (p.mass2 * msun) = A * newtonianTime (g.fLow p) (p.mass1 * msun) (p.mass2 * msun) := by
    have htc : g.tchirp p = chirpTimeBound (g.fLow p) (p.mass1 * msun) (p.mass2 * msun) p.s1z p.s2z := rfl
    rw [htc, hF] at hinv
    refine ⟨unitRatio * ((1 + 0.1) * (1 + t2Timing2 (symRatio (p.mass1 * msun) (p.mass2 * msun)) * vel (seconds (p.mass1 * msun + p.mass2 * msun)) (g.fLow p) ^ 2 + 226 / 15 * max (abs p.s1z) (abs p.s2z) * vel (seconds (p.mass1 * msun + p.mass2 * msun)) (g.fLow p) ^ 3 + t2Timing4 (symRatio (p.mass1 * msun) (p.mass2 * msun)) * vel (seconds (p.mass1 * msun + p.mass2 * msun)) (g.fLow p) ^ 4)), ?_, ?_⟩
    · have a : 2.948 ≤ t2Timing2 (symRatio (p.mass1 * msun) (p.mass2 * msun)) := by unfold t2Timing2; norm_num; linarith
      have c' := t2Timing4_pos _ hη
      have hm : 0 ≤ max (abs p.s1z) (abs p.s2z) := (abs_nonneg _).trans (le_max_left _ _)
      generalize t2Timing2 (symRatio (p.mass1 * msun) (p.mass2 * msun)) = u2 at *
      generalize t2Timing4 (symRatio (p.mass1 * msun) (p.mass2 * msun)) = u4 at *
      generalize max (abs p.s1z) (abs p.s2z) = u3 at *
      clear hinv hF
      generalize vel (seconds (p.mass1 * msun + p.mass2 * msun)) (g.fLow p) = x at *
      have b : 0 ≤ 226 / 15 * u3 * x ^ 3 := by positivity
      have c : 0 < u4 * x ^ 4 := by positivity
      have d : 2.948 * x ^ 2 ≤ u2 * x ^ 2 := by gcongr
      have hu1 : 0.99999 < unitRatio := by
        have h8 : (2 : ℝ) / 10 ^ 8 = 0.00000002 := by norm_num
        rw [h8] at hu
        linarith [hu.1]
      have hFp : 0 < 1 + 2.948 * x ^ 2 := by positivity
      have hle : 1 + 2.948 * x ^ 2 ≤ 1 + u2 * x ^ 2 + 226 / 15 * u3 * x ^ 3 + u4 * x ^ 4 := by linarith
      have h11 : (1.0999 : ℝ) * (1 + 2.948 * x ^ 2) ≤ 0.99999 * ((1 + 0.1) * (1 + 2.948 * x ^ 2)) := by nlinarith
      refine h11.trans ?_
      gcongr
    · unfold Gen.fstart
      rw [htc, hF, hinv]; ring
  obtain ⟨A, hA1, hAN⟩ := hratio
  have hApos : 0 < A := lt_of_lt_of_le (by positivity) hA1
  have hr8 := freq_ratio _ _ _ _ A h1 h2 hf hs0 hAN
  have hfN := freq_time _ _ _ h1 h2 hf
  have hT : A * newtonianTime (g.fLow p) (p.mass1 * msun) (p.mass2 * msun) + 6 / g.fLow p < g.time p := by
    have a := (chirpTime_bound (g.fstart p) _ _ p.s1z p.s2z h1 h2 hs0).2.1
    have b := tmerge_pos hg hp
    unfold Gen.time Gen.textra
    rw [hAN] at a
    have e : 2 * (3 / g.fLow p) = 6 / g.fLow p := by ring
    linarith
  have hle : g.fLow p ≤ g.fMin := min_le_right _ _
  have hny := hg.2
  clear hF hinv hAN
  generalize newtonianTime (g.fLow p) (p.mass1 * msun) (p.mass2 * msun) = t at *
  generalize vel (seconds (p.mass1 * msun + p.mass2 * msun)) (g.fLow p) = x at *
  generalize g.fLow p = f at *
  generalize g.fstart p = s at *
  generalize g.time p = T at *
  generalize g.sampleRate = sr at *
  have hfT : A * (5 / (64 * Real.pi * x ^ 5)) + 6 < f * T := by
    have e : f * (A * t + 6 / f) = A * (f * t) + 6 := by field_simp
    have := mul_lt_mul_of_pos_left hT hf
    rw [e] at this
    have := mul_le_mul_of_nonneg_left hfN hApos.le
    linarith
  have hsr4 : f * (1 / (2 * sr)) ≤ 1 / 4 := by
    rw [mul_one_div, div_le_iff₀ (by positivity)]
    linarith
  have hgoal : (f - s) * (T - 1 / (2 * sr)) = (1 - s / f) * (f * T - f * (1 / (2 * sr))) := by
    field_simp
  rw [hgoal]
  exact gap_numeric x (s / f) A (f * T) _ hx hxu hA1 (div_pos hs0 hf) hr8 hfT hsr4

theorem time_long : 12 < g.time p * g.sampleRate := by
  obtain ⟨h1, h2⟩ := masses_pos hg hp
  have hf := fLow_pos hg hp
  have hsr := sampleRate_pos hg hp
  have a := (chirpTime_bound (g.fstart p) _ _ p.s1z p.s2z h1 h2 (fstart_range hg hp).1).1
  have b := tmerge_pos hg hp
  have hle : g.fLow p ≤ g.fMin := min_le_right _ _
  have h6 : 12 ≤ 2 * (3 / g.fLow p) * g.sampleRate := by
    rw [show 2 * (3 / g.fLow p) * g.sampleRate = 6 * g.sampleRate / g.fLow p by ring, le_div_iff₀ hf]
    have := hg.2
    linarith
  unfold Gen.time Gen.textra
  nlinarith

/-- **C56.**  Each chirp length is a power of two, at least 16, that covers the estimated time and is less than twice as long (up to rounding by half a sample). -/
theorem chirplen_pow : ∃ m : ℕ, 4 ≤ m ∧ g.chirplen p = 2 ^ m ∧ g.time p * g.sampleRate - 1 / 2 ≤ 2 ^ m ∧ (2 : ℝ) ^ m < 2 * (g.time p * g.sampleRate + 1 / 2) := by
  have ht := time_long hg hp
  have hr := abs_le.1 (roundEven_near (g.time p * g.sampleRate))
  set R := roundEven (g.time p * g.sampleRate) with hR
  have hRpos : (11.5 : ℝ) < R := by linarith [hr.1]
  have hR0 : (0 : ℝ) < R := by linarith
  have h2 : 0 < Real.log 2 := Real.log_pos (by norm_num)
  set e := ⌈Real.log R / Real.log 2⌉ with he
  have he1 : Real.log R / Real.log 2 ≤ e := Int.le_ceil _
  have he2 : (e : ℝ) < Real.log R / Real.log 2 + 1 := Int.ceil_lt_add_one _
  have hge : (3 : ℝ) < Real.log R / Real.log 2 := by
    rw [lt_div_iff₀ h2, show (3 : ℝ) * Real.log 2 = Real.log (2 ^ (3 : ℕ)) by rw [Real.log_pow]; norm_num]
    exact Real.log_lt_log (by norm_num) (by norm_num; linarith)
  have he3 : (3 : ℤ) < e := by exact_mod_cast hge.trans_le he1
  obtain ⟨m, hm⟩ : ∃ m : ℕ, e = m := ⟨e.toNat, by omega⟩
  have hlow : (R : ℝ) ≤ 2 ^ m := by
    have : Real.log R ≤ m * Real.log 2 := by
      rw [div_le_iff₀ h2, hm] at he1; exact_mod_cast he1
    rw [← Real.log_pow] at this
    exact (Real.log_le_log_iff hR0 (by positivity)).1 this
  have hhigh : (2 : ℝ) ^ m < 2 * R := by
    have : (m : ℝ) * Real.log 2 < Real.log (2 * R) := by
      rw [Real.log_mul (by norm_num) hR0.ne']
      rw [hm] at he2
      have he2' : (m : ℝ) < Real.log R / Real.log 2 + 1 := by exact_mod_cast he2
      have := mul_lt_mul_of_pos_right he2' h2
      rw [add_mul, div_mul_cancel₀ _ h2.ne'] at this
      linarith
    rw [← Real.log_pow] at this
    exact (Real.log_lt_log_iff (by positivity) (by positivity)).1 this
  refine ⟨m, by omega, ?_, by linarith [hr.1], by linarith [hr.2]⟩
  unfold Gen.chirplen
  rw [← hR, ← he, hm, zpow_natCast]

end

end Verif.Generator
