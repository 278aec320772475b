import Verif.Props.WhitenFlat
import Verif.Props.WhitenLocal
import Verif.Props.SpectralNoise
/-!
# Whitening of stationary noise (C94)
-/
set_option linter.unusedSimpArgs false
namespace Verif.Whiten
open Finset MeasureTheory ProbabilityTheory Verif.Fourier Verif.Spectral Spec.Whiten Verif.Spec.Noise Verif.Periodogram

/-- A symmetric real spectrum has a real transform. -/
theorem sym_real (N : ℕ) (hN : 0 < N) (f : ℕ → ℝ) (hf : ∀ k < N, f ((N - k) % N) = f k) (d : ℤ) :
    ((∑ k ∈ range N, f k * (ω N ((k : ℤ) * d)).re : ℝ) : ℂ) = ∑ k ∈ range N, (f k : ℂ) * ω N ((k : ℤ) * d) := by
  have h1 : ((∑ k ∈ range N, f k * (ω N ((k : ℤ) * d)).re : ℝ)) = (∑ k ∈ range N, (f k : ℂ) * ω N ((k : ℤ) * d)).re := by
    rw [Complex.re_sum]; exact sum_congr rfl fun k _ => by simp
  rw [h1, ← Complex.conj_eq_iff_re, map_sum, ← sum_flip N hN fun k => (f k : ℂ) * ω N ((k : ℤ) * d)]
  refine sum_congr rfl fun k hk => ?_
  have hk : k < N := by simpa using hk
  rw [map_mul, Complex.conj_ofReal, hf k hk, ← ω_neg]
  congr 1
  rcases Nat.eq_zero_or_pos k with rfl | h
  · simp
  · rw [Nat.mod_eq_of_lt (by omega), Nat.cast_sub hk.le]
    rw [show ((N : ℤ) - k) * d = N * d + -((k : ℤ) * d) by ring, ω_add, ω_mul_self N hN, one_mul]

theorem sym_min (N k : ℕ) (hk : k < N) : min ((N - k) % N) (N - (N - k) % N) = min k (N - k) := by
  rcases Nat.eq_zero_or_pos k with rfl | h
  · simp
  · rw [Nat.mod_eq_of_lt (by omega)]; omega

/-- The gain of the filter in bin `k` of the full spectrum; the mean is removed. -/
noncomputable def gain (N : ℕ) (H : ℕ → ℂ) (k : ℕ) : ℝ := if k = 0 then 0 else ‖H (min k (N - k))‖

theorem gain_sym (N : ℕ) (H : ℕ → ℂ) (k : ℕ) (hk : k < N) : gain N H ((N - k) % N) = gain N H k := by
  unfold gain
  rw [sym_min N k hk]
  rcases Nat.eq_zero_or_pos k with rfl | h
  · simp
  · rw [Nat.mod_eq_of_lt (by omega), if_neg (by omega), if_neg (by omega)]

/-- The weight of input sample `s` in output sample `t`. -/
noncomputable def weight (N : ℕ) (sr : ℝ) (H : ℕ → ℂ) (t s : ℕ) : ℝ :=
  Real.sqrt 2 / Real.sqrt sr / N * ∑ k ∈ range N, gain N H k * (ω N ((k : ℤ) * ((t : ℤ) - s))).re

theorem weight_complex (N : ℕ) (hN : 0 < N) (sr : ℝ) (H : ℕ → ℂ) (t s : ℕ) :
    ((weight N sr H t s : ℝ) : ℂ) = ((Real.sqrt 2 / Real.sqrt sr : ℝ) : ℂ) / N *
      ∑ k ∈ range N, (gain N H k : ℂ) * ω N ((k : ℤ) * ((t : ℤ) - s)) := by
  unfold weight
  rw [Complex.ofReal_mul, sym_real N hN _ (gain_sym N H)]
  push_cast; rfl

theorem rfft_demean (N : ℕ) (hN : 0 < N) (x : ℕ → ℝ) (k : ℕ) (hk : k < N) :
    rfft N (fun t => x t - (∑ s ∈ range N, x s) / N) k = if k = 0 then 0 else rfft N x k := by
  have hN' : (N : ℂ) ≠ 0 := by exact_mod_cast hN.ne'
  have h1 : rfft N (fun t => x t - (∑ s ∈ range N, x s) / N) k =
      rfft N x k - (((∑ s ∈ range N, x s) / N : ℝ) : ℂ) * ∑ t ∈ range N, ω N (-((k : ℤ) * t)) := by
    unfold rfft dft
    rw [mul_sum, ← sum_sub_distrib]
    exact sum_congr rfl fun t _ => by push_cast; ring
  have h2 : ∑ t ∈ range N, ω N (-((k : ℤ) * t)) = if k = 0 then (N : ℂ) else 0 := by
    have := sum_ω N hN (-(k : ℤ))
    rw [show (∑ t ∈ range N, ω N (-((k : ℤ) * t))) = ∑ t ∈ range N, ω N ((t : ℤ) * -(k : ℤ)) from
      sum_congr rfl fun t _ => by congr 1; ring, this]
    have : (N : ℤ) ∣ -(k : ℤ) ↔ k = 0 := by
      rw [dvd_neg, Int.natCast_dvd_natCast]
      exact ⟨fun h => Nat.eq_zero_of_dvd_of_lt h hk, fun h => by simp [h]⟩
    simp only [this]
  rw [h1, h2]
  split_ifs with h
  · subst h
    rw [rfft_zero]
    push_cast
    field_simp
    ring
  · ring

/-- Whitening is a linear form of the samples, and the weights depend on the distance on the circle only. -/
theorem whitened_lin (N : ℕ) (hN : 0 < N) (sr : ℝ) (H : ℕ → ℂ) (x : ℕ → ℝ) (t : ℕ) :
    whitened N sr H x t = ∑ s ∈ range N, weight N sr H t s * x s := by
  set z : ℕ → ℝ := fun t => x t - (∑ s ∈ range N, x s) / N with hz
  have hherm : ∀ k < N, herm N (fun k => rfft N z k * (‖H k‖ : ℂ)) k = (gain N H k : ℂ) * rfft N x k := by
    intro k hk
    have h1 : rfft N z k = if k = 0 then 0 else rfft N x k := rfft_demean N hN x k hk
    unfold herm
    split_ifs with h
    · beta_reduce; rw [h1]; unfold gain
      rw [min_eq_left (by omega)]
      split_ifs <;> simp [mul_comm]
    · beta_reduce; rw [map_mul, Complex.conj_ofReal, rfft_symm N z k hk.le hN, h1]
      unfold gain
      rw [min_eq_right (by omega)]
      split_ifs <;> simp [mul_comm]
  have h : ((irfftF N (fun k => rfft N z k * (‖H k‖ : ℂ)) t : ℝ) : ℂ) =
      ∑ k ∈ range N, (gain N H k : ℂ) * rfft N x k * ω N ((k : ℤ) * t) := by
    rw [irfftF_ofReal]
    · exact sum_congr rfl fun k hk => by rw [hherm k (by simpa using hk)]
    · have : rfft N z 0 = 0 := by rw [rfft_demean N hN x 0 hN, if_pos rfl]
      rw [this]; simp
    · intro m hm
      have := rfft_symm N z m (by omega) hN
      rw [show N - m = m by omega] at this
      have := Complex.conj_eq_iff_im.1 this
      simp [this]
  have key : ((whitened N sr H x t : ℝ) : ℂ) = ((∑ s ∈ range N, weight N sr H t s * x s : ℝ) : ℂ) := by
    unfold whitened irfft
    rw [Complex.ofReal_mul, Complex.ofReal_div (irfftF _ _ _), ← hz, h, Complex.ofReal_sum]
    simp only [Complex.ofReal_mul, weight_complex N hN]
    unfold rfft dft
    simp only [mul_sum, sum_mul, Finset.sum_div]
    rw [sum_comm]
    refine sum_congr rfl fun s _ => sum_congr rfl fun k _ => ?_
    rw [show (k : ℤ) * ((t : ℤ) - s) = (k : ℤ) * t + -((k : ℤ) * s) by ring, ω_add]
    push_cast
    ring
  exact_mod_cast key

/-- The weights act diagonally on the characters. -/
theorem weight_char (N : ℕ) (hN : 0 < N) (sr : ℝ) (H : ℕ → ℂ) (t j : ℕ) (hj : j < N) :
    ∑ s ∈ range N, ((weight N sr H t s : ℝ) : ℂ) * ω N ((j : ℤ) * s) =
      ((Real.sqrt 2 / Real.sqrt sr : ℝ) : ℂ) * gain N H j * ω N ((j : ℤ) * t) := by
  have hN' : (N : ℂ) ≠ 0 := by exact_mod_cast hN.ne'
  simp only [weight_complex N hN, mul_sum, sum_mul]
  rw [sum_comm]
  have h1 : ∀ k ∈ range N, ∑ s ∈ range N, ((Real.sqrt 2 / Real.sqrt sr : ℝ) : ℂ) / N * ((gain N H k : ℂ) * ω N ((k : ℤ) * ((t : ℤ) - s))) * ω N ((j : ℤ) * s) =
      if k = j then ((Real.sqrt 2 / Real.sqrt sr : ℝ) : ℂ) * gain N H j * ω N ((j : ℤ) * t) else 0 := by
    intro k hk
    have hk : k < N := by simpa using hk
    have h2 : ∀ s ∈ range N, ((Real.sqrt 2 / Real.sqrt sr : ℝ) : ℂ) / N * ((gain N H k : ℂ) * ω N ((k : ℤ) * ((t : ℤ) - s))) * ω N ((j : ℤ) * s) =
        ((Real.sqrt 2 / Real.sqrt sr : ℝ) : ℂ) / N * (gain N H k : ℂ) * ω N ((k : ℤ) * t) * ω N ((s : ℤ) * ((j : ℤ) - k)) := by
      intro s _
      rw [show (k : ℤ) * ((t : ℤ) - s) = (k : ℤ) * t + -((k : ℤ) * s) by ring,
        show (s : ℤ) * ((j : ℤ) - k) = (j : ℤ) * s + -((k : ℤ) * s) by ring, ω_add, ω_add]
      ring
    rw [sum_congr rfl h2, ← mul_sum, sum_ω N hN]
    have : (N : ℤ) ∣ (j : ℤ) - k ↔ k = j := by
      constructor
      · intro h
        have := Int.eq_zero_of_abs_lt_dvd h (by rw [abs_lt]; omega)
        omega
      · rintro rfl; simp
    simp only [this]
    split_ifs with h
    · subst h; field_simp
    · simp
  rw [sum_congr rfl h1, sum_ite_eq', if_pos (by simpa using hj)]

variable {Ω : Type*} [MeasurableSpace Ω] {P : Measure Ω}

/-- White noise is stationary noise with a flat density. -/
theorem white_stationary (T : ℕ) (X : ℕ → Ω → ℝ) (m σ2 sr : ℝ) (hsr : sr ≠ 0) (h : White P T X m σ2) :
    Stationary P T X m sr (fun _ => 2 * σ2 / sr) where
  memLp := h.memLp
  mean := h.mean
  cov s hs t ht := by
    have hT : 0 < T := by omega
    have hT' : (T : ℝ) ≠ 0 := by positivity
    rw [h.cov s hs t ht, ← mul_sum]
    have h1 := congrArg Complex.re (sum_ω T hT ((s : ℤ) - t))
    have h2 : (T : ℤ) ∣ (s : ℤ) - t ↔ s = t := by
      constructor
      · intro h
        have := Int.eq_zero_of_abs_lt_dvd h (by rw [abs_lt]; omega)
        omega
      · rintro rfl; simp
    simp only [h2] at h1
    rw [Complex.re_sum] at h1
    have h3 : ∀ k ∈ range T, Real.cos (2 * Real.pi * k * ((s : ℝ) - t) / T) = (ω T ((k : ℤ) * ((s : ℤ) - t))).re := by
      intro k _
      rw [ω_re]; push_cast; congr 1; ring
    rw [sum_congr rfl h3, h1]
    split_ifs
    · simp only [Complex.natCast_re]; field_simp
    · simp

/-- Mean and covariance of a whitened series. -/
theorem whitened_moments [IsProbabilityMeasure P] (N : ℕ) (hN : 0 < N) (sr : ℝ) (hsr : 0 < sr) (H : ℕ → ℂ)
    (X : ℕ → Ω → ℝ) (m : ℝ) (S : ℕ → ℝ) (h : Stationary P N X m sr S) (t t' : ℕ) :
    MemLp (fun w => whitened N sr H (fun s => X s w) t) 2 P ∧
    ∫ w, whitened N sr H (fun s => X s w) t ∂P = 0 ∧
    cov[fun w => whitened N sr H (fun s => X s w) t, fun w => whitened N sr H (fun s => X s w) t'; P] =
      (∑ k ∈ Ico 1 N, S (min k (N - k)) * ‖H (min k (N - k))‖ ^ 2 * Real.cos (2 * Real.pi * k * ((t : ℝ) - t') / N)) / N := by
  have hNr : (N : ℝ) ≠ 0 := by positivity
  have hN' : (N : ℂ) ≠ 0 := by exact_mod_cast hN.ne'
  have hl : ∀ t, (fun w => whitened N sr H (fun s => X s w) t) = lin N (weight N sr H t) X := by
    intro t; funext w; exact whitened_lin N hN sr H _ t
  rw [hl, hl]
  refine ⟨lin_memLp N _ X h.memLp, ?_, ?_⟩
  · unfold lin
    rw [integral_finsetSum]
    · have : ∀ s ∈ range N, ∫ w, weight N sr H t s * X s w ∂P = m * weight N sr H t s := by
        intro s hs
        rw [integral_const_mul, h.mean s (by simpa using hs)]; ring
      rw [sum_congr rfl this, ← mul_sum]
      have h0 := weight_char N hN sr H t 0 hN
      simp only [Nat.cast_zero, zero_mul, ω_zero, mul_one] at h0
      have : gain N H 0 = 0 := by simp [gain]
      rw [this] at h0
      have : ((∑ s ∈ range N, weight N sr H t s : ℝ) : ℂ) = 0 := by push_cast; rw [h0]; simp
      have : ∑ s ∈ range N, weight N sr H t s = 0 := by exact_mod_cast this
      rw [this, mul_zero]
    · intro s hs
      exact ((h.memLp s (by simpa using hs)).integrable (by norm_num)).const_mul _
  · rw [lin_cov N _ _ X X _ h.memLp h.memLp h.cov]
    set Sf : ℕ → ℝ := fun k => S (min k (N - k)) with hSf
    have hS : ∀ k < N, Sf ((N - k) % N) = Sf k := fun k hk => by simp only [hSf, sym_min N k hk]
    have hcos : ∀ (a b k : ℕ), Real.cos (2 * Real.pi * k * ((a : ℝ) - b) / N) = (ω N ((k : ℤ) * ((a : ℤ) - b))).re := by
      intro a b k; rw [ω_re]; push_cast; congr 1; ring
    have hc2 : (Real.sqrt 2 / Real.sqrt sr) ^ 2 = 2 / sr := by
      rw [div_pow, Real.sq_sqrt (by norm_num), Real.sq_sqrt hsr.le]
    have goal : ((∑ s ∈ range N, ∑ s' ∈ range N, weight N sr H t s * weight N sr H t' s' *
        (sr / (2 * N) * ∑ k ∈ range N, S (min k (N - k)) * Real.cos (2 * Real.pi * k * ((s : ℝ) - s') / N)) : ℝ) : ℂ) =
        (((∑ k ∈ range N, Sf k * gain N H k ^ 2 * (ω N ((k : ℤ) * ((t : ℤ) - t'))).re) / N : ℝ) : ℂ) := by
      rw [Complex.ofReal_div, sym_real N hN (fun k => Sf k * gain N H k ^ 2) (fun k hk => by rw [hS k hk, gain_sym N H k hk])]
      have e1 : ∀ s s' : ℕ, ((∑ k ∈ range N, S (min k (N - k)) * Real.cos (2 * Real.pi * k * ((s : ℝ) - s') / N) : ℝ) : ℂ) =
          ∑ k ∈ range N, (Sf k : ℂ) * ω N ((k : ℤ) * ((s : ℤ) - s')) := by
        intro s s'
        rw [← sym_real N hN Sf hS]
        congr 1
        exact sum_congr rfl fun k _ => by rw [hcos]
      push_cast
      push_cast at e1
      simp only [e1]
      have e2 : ∑ s ∈ range N, ∑ s' ∈ range N, ((weight N sr H t s : ℝ) : ℂ) * (weight N sr H t' s' : ℝ) *
          ((sr : ℂ) / (2 * N) * ∑ k ∈ range N, (Sf k : ℂ) * ω N ((k : ℤ) * ((s : ℤ) - s'))) =
          ∑ k ∈ range N, (sr : ℂ) / (2 * N) * (Sf k : ℂ) * ((∑ s ∈ range N, ((weight N sr H t s : ℝ) : ℂ) * ω N ((k : ℤ) * s)) *
            (starRingEnd ℂ) (∑ s' ∈ range N, ((weight N sr H t' s' : ℝ) : ℂ) * ω N ((k : ℤ) * s'))) := by
        simp only [map_sum, map_mul, Complex.conj_ofReal, ← ω_neg, Finset.sum_mul_sum]
        simp only [mul_sum]
        conv_rhs => rw [sum_comm]
        refine sum_congr rfl fun s _ => ?_
        conv_rhs => rw [sum_comm]
        refine sum_congr rfl fun s' _ => sum_congr rfl fun k _ => ?_
        rw [show (k : ℤ) * ((s : ℤ) - s') = (k : ℤ) * s + -((k : ℤ) * s') by ring, ω_add]
        ring
      rw [e2, Finset.sum_div]
      refine sum_congr rfl fun k hk => ?_
      have hk : k < N := by simpa using hk
      rw [weight_char N hN sr H t k hk, weight_char N hN sr H t' k hk]
      simp only [map_mul, Complex.conj_ofReal, ← ω_neg]
      have hc2' : ((Real.sqrt 2 / Real.sqrt sr : ℝ) : ℂ) ^ 2 = 2 / sr := by exact_mod_cast congrArg (fun r : ℝ => (r : ℂ)) hc2
      have hsr' : (sr : ℂ) ≠ 0 := by exact_mod_cast hsr.ne'
      rw [show (k : ℤ) * ((t : ℤ) - t') = (k : ℤ) * t + -((k : ℤ) * t') by ring, ω_add]
      have : (sr : ℂ) / (2 * N) * (Sf k : ℂ) * (((Real.sqrt 2 / Real.sqrt sr : ℝ) : ℂ) * gain N H k * ω N ((k : ℤ) * t) *
          (((Real.sqrt 2 / Real.sqrt sr : ℝ) : ℂ) * gain N H k * ω N (-((k : ℤ) * t')))) =
          (sr : ℂ) / (2 * N) * (Sf k : ℂ) * (((Real.sqrt 2 / Real.sqrt sr : ℝ) : ℂ) ^ 2 * gain N H k ^ 2 * (ω N ((k : ℤ) * t) * ω N (-((k : ℤ) * t')))) := by ring
      rw [this, hc2']
      field_simp
    have goal' := Complex.ofReal_injective goal
    rw [goal']
    congr 1
    rw [range_eq_Ico, sum_eq_sum_Ico_succ_bot hN]
    have g0 : gain N H 0 = 0 := by simp [gain]
    rw [g0]
    simp only [ne_eq, OfNat.ofNat_ne_zero, not_false_eq_true, zero_pow, mul_zero, zero_mul, zero_add]
    refine sum_congr rfl fun k hk => ?_
    have hk := mem_Ico.1 hk
    rw [hcos, hSf]
    unfold gain
    rw [if_neg (by omega)]

/-- **C94 (general).**  Noise that is stationary on the analysed stretch with one-sided density `S b c`, whitened with any
spectra: every output sample has mean zero, whatever the mean of the noise, and the output is again stationary, with the
density of the input times the squared gain of the (truncated) whitening filter, times `sr/2`. -/
theorem whiten_noise [IsProbabilityMeasure P] (maxF : ℝ) (x : Ω → Tensor ℝ) (psd : Tensor ℝ) (B C N pb pc F pad : ℕ)
    (fd : FDuration) (sr : ℝ) (hp lp : Option ℝ) (crop : Bool) (m : ℕ → ℕ → ℝ) (S : ℕ → ℕ → ℕ → ℝ)
    (hx : ∀ w, (x w).shape = [B, C, N])
    (hs : psd.shape = [F] ∧ pb = 1 ∧ pc = 1 ∨ psd.shape = [pc, F] ∧ pb = 1 ∨ psd.shape = [pb, pc, F])
    (hpb : pb = 1 ∨ pb = B) (hpc : pc = 1 ∨ pc = C)
    (hsr : 0 < sr) (hpd : fd.pad sr = pad) (hpad : 1 ≤ pad) (hN : 2 * pad < N)
    (hpos : ∀ i, InB i psd.shape → 0 < psd.get i)
    (hhp : ∀ h, hp = some h → 0 ≤ h) (hlp : ∀ h, lp = some h → 0 ≤ h)
    (hnoise : ∀ b < B, ∀ c < C, Stationary P N (fun t w => (x w).get [b, c, t]) (m b c) sr (S b c)) :
    ∃ y : Ω → Tensor ℝ, (∀ w, whiten maxF (x w) psd fd sr hp lp crop = .ok (y w) ∧
        (y w).shape = [B, C, if crop then N - 2 * pad else N]) ∧
      ∀ b < B, ∀ c < C, ∀ t t' : ℕ, MemLp (fun w => (y w).get [b, c, t]) 2 P ∧ ∫ w, (y w).get [b, c, t] ∂P = 0 ∧
        cov[fun w => (y w).get [b, c, t], fun w => (y w).get [b, c, t']; P] =
          (∑ k ∈ Ico 1 N, S b c (min k (N - k)) *
            ‖filterResponse (N / 2 + 1) pad (fd.taper sr).1 (fd.taper sr).2 sr hp lp (psdAt F (N / 2 + 1) psd b c) (min k (N - k))‖ ^ 2 *
            Real.cos (2 * Real.pi * k * ((t : ℝ) - t') / N)) / N := by
  choose y hy hys hyg using fun w => whiten_correct maxF (x w) psd B C N pb pc F pad fd sr hp lp crop (hx w) hs hpb hpc hsr hpd hpad
    hN hpos hhp hlp
  refine ⟨y, fun w => ⟨hy w, hys w⟩, fun b hb c hc t t' => ?_⟩
  have e' : ∀ t w, (y w).get [b, c, t] = whitened N sr
      (filterResponse (N / 2 + 1) pad (fd.taper sr).1 (fd.taper sr).2 sr hp lp (psdAt F (N / 2 + 1) psd b c))
      (fun s => (x w).get [b, c, s]) (if crop then t + pad else t) := fun t w => hyg w b c t hb hc
  simp only [e']
  obtain ⟨h1, h2, h3⟩ := whitened_moments N (by omega) sr hsr
    (filterResponse (N / 2 + 1) pad (fd.taper sr).1 (fd.taper sr).2 sr hp lp (psdAt F (N / 2 + 1) psd b c))
    (fun t w => (x w).get [b, c, t]) (m b c) (S b c) (hnoise b hb c hc) (if crop then t + pad else t) (if crop then t' + pad else t')
  refine ⟨h1, h2, h3.trans ?_⟩
  have hd : (((if crop then t + pad else t : ℕ) : ℝ) - ((if crop then t' + pad else t' : ℕ) : ℝ)) = (t : ℝ) - t' := by
    cases crop <;> simp
  rw [hd]

/-- Covariance of unit white noise whose mean has been removed. -/
theorem flat_cov (N : ℕ) (hN : 0 < N) (t t' : ℕ) (ht : t < N) (ht' : t' < N) :
    (∑ k ∈ Ico 1 N, Real.cos (2 * Real.pi * k * ((t : ℝ) - t') / N)) / N = (if t = t' then 1 else 0) - 1 / N := by
  have hNr : (N : ℝ) ≠ 0 := by positivity
  have h1 := congrArg Complex.re (sum_ω N hN ((t : ℤ) - t'))
  have h2 : (N : ℤ) ∣ (t : ℤ) - t' ↔ t = t' := by
    constructor
    · intro h
      have := Int.eq_zero_of_abs_lt_dvd h (by rw [abs_lt]; omega)
      omega
    · rintro rfl; simp
  simp only [h2] at h1
  rw [Complex.re_sum, range_eq_Ico, sum_eq_sum_Ico_succ_bot hN] at h1
  simp only [Nat.cast_zero, zero_mul, ω_zero, Complex.one_re, zero_add] at h1
  have h3 : ∀ k ∈ Ico 1 N, Real.cos (2 * Real.pi * k * ((t : ℝ) - t') / N) = (ω N ((k : ℤ) * ((t : ℤ) - t'))).re := by
    intro k _
    rw [ω_re]; push_cast; congr 1; ring
  rw [sum_congr rfl h3, show ∑ k ∈ Ico 1 N, (ω N ((k : ℤ) * ((t : ℤ) - t'))).re =
    (if t = t' then (N : ℂ) else 0).re - 1 from by rw [← h1]; ring]
  split_ifs
  · simp only [Complex.natCast_re]; field_simp
  · simp only [Complex.zero_re]; field_simp; ring

/-- **C94 (a filter that inverts the density).**  If the filter's gain is exactly the inverse amplitude density of the noise in
every bin but the lowest, the whitened noise is unit white noise up to the removed mean: variance `1 - 1/N`, covariances
`-1/N`, in every cropped or uncropped sample. -/
theorem whiten_matched [IsProbabilityMeasure P] (maxF : ℝ) (x : Ω → Tensor ℝ) (psd : Tensor ℝ) (B C N pb pc F pad : ℕ)
    (fd : FDuration) (sr : ℝ) (hp lp : Option ℝ) (crop : Bool) (m : ℕ → ℕ → ℝ) (S : ℕ → ℕ → ℕ → ℝ)
    (hx : ∀ w, (x w).shape = [B, C, N])
    (hs : psd.shape = [F] ∧ pb = 1 ∧ pc = 1 ∨ psd.shape = [pc, F] ∧ pb = 1 ∨ psd.shape = [pb, pc, F])
    (hpb : pb = 1 ∨ pb = B) (hpc : pc = 1 ∨ pc = C)
    (hsr : 0 < sr) (hpd : fd.pad sr = pad) (hpad : 1 ≤ pad) (hN : 2 * pad < N)
    (hpos : ∀ i, InB i psd.shape → 0 < psd.get i)
    (hhp : ∀ h, hp = some h → 0 ≤ h) (hlp : ∀ h, lp = some h → 0 ≤ h)
    (hnoise : ∀ b < B, ∀ c < C, Stationary P N (fun t w => (x w).get [b, c, t]) (m b c) sr (S b c))
    (hmatch : ∀ b < B, ∀ c < C, ∀ k, 1 ≤ k → k ≤ N / 2 → S b c k *
      ‖filterResponse (N / 2 + 1) pad (fd.taper sr).1 (fd.taper sr).2 sr hp lp (psdAt F (N / 2 + 1) psd b c) k‖ ^ 2 = 1) :
    ∃ y : Ω → Tensor ℝ, (∀ w, whiten maxF (x w) psd fd sr hp lp crop = .ok (y w) ∧
        (y w).shape = [B, C, if crop then N - 2 * pad else N]) ∧
      ∀ b < B, ∀ c < C, ∀ t < N, ∀ t' < N, ∫ w, (y w).get [b, c, t] ∂P = 0 ∧
        cov[fun w => (y w).get [b, c, t], fun w => (y w).get [b, c, t']; P] = (if t = t' then 1 else 0) - 1 / (N : ℝ) := by
  obtain ⟨y, hy, h⟩ := whiten_noise maxF x psd B C N pb pc F pad fd sr hp lp crop m S hx hs hpb hpc hsr hpd hpad hN hpos hhp hlp hnoise
  refine ⟨y, hy, fun b hb c hc t ht t' ht' => ⟨(h b hb c hc t t').2.1, ?_⟩⟩
  rw [(h b hb c hc t t').2.2, ← flat_cov N (by omega) t t' ht ht']
  congr 1
  refine sum_congr rfl fun k hk => ?_
  have hk := mem_Ico.1 hk
  rw [hmatch b hb c hc _ (by omega) (by omega), one_mul]

/-- **C94 (white noise, even number of bins).**  White noise of variance `σ²`, whitened with its own flat density `2σ²/sr`, comes
out with mean zero, variance exactly `1 - 1/N` and covariance `-1/N` between different samples. -/
theorem whiten_white [IsProbabilityMeasure P] (maxF : ℝ) (x : Ω → Tensor ℝ) (psd : Tensor ℝ) (B C N F pad : ℕ) (d sr σ2 : ℝ)
    (crop : Bool) (m : ℕ → ℕ → ℝ) (hx : ∀ w, (x w).shape = [B, C, N]) (hs : psd.shape = [F]) (hsr : 0 < sr) (hσ : 0 < σ2)
    (hpsd : ∀ k, psd.get [k] = 2 * σ2 / sr) (hF : F = N / 2 + 1) (hFe : F % 2 = 0)
    (hpd : pyInt (d * sr / 2) = pad) (hpad : 1 ≤ pad) (hN : 2 * pad < N)
    (hnoise : ∀ b < B, ∀ c < C, White P N (fun t w => (x w).get [b, c, t]) (m b c) σ2) :
    ∃ y : Ω → Tensor ℝ, (∀ w, whiten maxF (x w) psd (.secs d) sr none none crop = .ok (y w) ∧
        (y w).shape = [B, C, if crop then N - 2 * pad else N]) ∧
      ∀ b < B, ∀ c < C, ∀ t < N, ∀ t' < N, ∫ w, (y w).get [b, c, t] ∂P = 0 ∧
        cov[fun w => (y w).get [b, c, t], fun w => (y w).get [b, c, t']; P] = (if t = t' then 1 else 0) - 1 / (N : ℝ) := by
  have hP : 0 < 2 * σ2 / sr := by positivity
  refine whiten_matched maxF x psd B C N 1 1 F pad (.secs d) sr none none crop m (fun _ _ _ => 2 * σ2 / sr) hx
    (.inl ⟨hs, rfl, rfl⟩) (.inl rfl) (.inl rfl) hsr hpd hpad hN ?_ (by simp) (by simp)
    (fun b hb c hc => white_stationary N _ _ σ2 sr hsr.ne' (hnoise b hb c hc)) ?_
  · intro i hi
    rw [hs] at hi
    match i, hi with
    | [k], _ => rw [hpsd]; exact hP
  · intro b _ c _ k _ _
    have hp : psdAt F (N / 2 + 1) psd b c = fun _ => 2 * σ2 / sr := by
      funext k
      rw [psdAt, if_pos hF, psdOf]
      simp only [hs]; exact hpsd k
    have ht1 : (FDuration.secs d).taper sr = (2 * pad, hann (2 * pad)) := by
      have : (2 * pyInt (d * sr / 2)).toNat = 2 * pad := by rw [hpd]; omega
      simp only [FDuration.taper, this]
    rw [hp, ht1]
    dsimp only
    rw [filterResponse_flat (N / 2 + 1) pad (by omega) (by omega) hpad _ sr k, Complex.norm_real, Real.norm_eq_abs,
      abs_of_nonneg (by positivity), div_pow, one_pow, Real.sq_sqrt hP.le]
    field_simp

/-! ## The usual sizes: an odd number of bins, the last one removed -/

theorem sum_taper (N pad : ℕ) (hN : 2 * pad ≤ N) (w₁ w₂ f : ℕ → ℝ) :
    ∑ t ∈ range N, taperWeight N pad w₁ w₂ t * f t =
      ∑ t ∈ range pad, w₂ t * f t + ∑ t ∈ range pad, w₁ t * f (N - pad + t) := by
  have e : N = pad + ((N - 2 * pad) + pad) := by omega
  have h1 : ∑ t ∈ range N, taperWeight N pad w₁ w₂ t * f t =
      ∑ t ∈ range (pad + ((N - 2 * pad) + pad)), taperWeight N pad w₁ w₂ t * f t := by rw [← e]
  rw [h1, sum_range_add, sum_range_add]
  have z : ∑ t ∈ range (N - 2 * pad), taperWeight N pad w₁ w₂ (pad + t) * f (pad + t) = 0 := by
    refine sum_eq_zero fun t ht => ?_
    have ht : t < N - 2 * pad := by simpa using ht
    unfold taperWeight
    rw [if_neg (by omega), if_neg (by omega), zero_mul]
  rw [z, zero_add]
  congr 1
  · refine sum_congr rfl fun t ht => ?_
    have ht : t < pad := by simpa using ht
    unfold taperWeight
    rw [if_pos ht]
  · refine sum_congr rfl fun t ht => ?_
    have ht : t < pad := by simpa using ht
    unfold taperWeight
    rw [if_neg (by omega), if_pos (by omega)]
    congr 2 <;> omega

theorem hann_eq (n t : ℕ) (h : n ≠ 1) : hann n t = SpectralNoise.hannW n t := by
  unfold hann SpectralNoise.hannW; rw [if_neg h]

theorem hann_alt (pad : ℕ) (hpad : 2 ≤ pad) : ∑ u ∈ range (2 * pad), SpectralNoise.hannW (2 * pad) u * (-1) ^ u = 0 := by
  have h := SpectralNoise.rfft_hannW (2 * pad) pad (by omega) (by omega)
  rw [if_neg (by omega), if_neg (by omega)] at h
  have : ((∑ u ∈ range (2 * pad), SpectralNoise.hannW (2 * pad) u * (-1) ^ u : ℝ) : ℂ) = 0 := by
    rw [← h]
    unfold rfft dft
    push_cast
    refine sum_congr rfl fun u _ => ?_
    congr 1
    have e : ω (2 * pad) (-((pad : ℤ) * u)) = ω (2 * pad) (-(pad : ℤ)) ^ u := by
      rw [← ω_pow]; congr 1; ring
    rw [e]
    congr 1
    unfold ω
    have hp : (pad : ℂ) ≠ 0 := by
      have : pad ≠ 0 := by omega
      exact_mod_cast this
    rw [show (2 * Real.pi * Complex.I * ((-(pad : ℤ) : ℤ) : ℂ) / ((2 * pad : ℕ) : ℂ) : ℂ) = -(Real.pi * Complex.I) by
      push_cast; field_simp, Complex.exp_neg, Complex.exp_pi_mul_I]
    norm_num
  exact_mod_cast this

theorem ω_half (N : ℕ) (hN : 0 < N) (hev : N % 2 = 0) (t : ℕ) : ω N (((N / 2 : ℕ) : ℤ) * t) = (-1) ^ t := by
  rw [show ((N / 2 : ℕ) : ℤ) * (t : ℤ) = (t : ℤ) * ((N / 2 : ℕ) : ℤ) by ring, ω_pow]
  congr 1
  unfold ω
  obtain ⟨n, rfl⟩ : ∃ n, N = 2 * n := ⟨N / 2, by omega⟩
  have hp : (n : ℂ) ≠ 0 := by
    have : n ≠ 0 := by omega
    exact_mod_cast this
  rw [show 2 * n / 2 = n by omega, show (2 * Real.pi * Complex.I * (((n : ℕ) : ℤ) : ℂ) / ((2 * n : ℕ) : ℂ) : ℂ) = Real.pi * Complex.I by
      push_cast; field_simp, Complex.exp_pi_mul_I]

/-- The flat filter without its last bin, in the time domain. -/
theorem irfftF_flat_but_last (N : ℕ) (hN : 0 < N) (hev : N % 2 = 0) (a : ℝ) (t : ℕ) (ht : t < N) :
    irfftF N (fun k => ((if k = N / 2 then 0 else a : ℝ) : ℂ)) t = a * ((if t = 0 then (N : ℝ) else 0) - (-1) ^ t) := by
  have h1 : ∀ k ∈ range N, herm N (fun k => ((if k = N / 2 then 0 else a : ℝ) : ℂ)) k * ω N ((k : ℤ) * t) =
      (a : ℂ) * ω N ((k : ℤ) * t) - if k = N / 2 then (a : ℂ) * ω N ((k : ℤ) * t) else 0 := by
    intro k hk
    have hk : k < N := by simpa using hk
    unfold herm
    by_cases h : k = N / 2
    · simp [h]
    · by_cases h' : k ≤ N / 2
      · simp [h, h']
      · have : N - k ≠ N / 2 := by omega
        simp [h, h', this]
  unfold irfftF
  rw [sum_congr rfl h1, sum_sub_distrib, sum_ite_eq' (range N) (N / 2) (fun k => (a : ℂ) * ω N ((k : ℤ) * t)),
    if_pos (mem_range.2 (by omega)), ω_half N hN hev, ← mul_sum, sum_ω N hN]
  have : (N : ℤ) ∣ (t : ℤ) ↔ t = 0 := by
    constructor
    · intro h
      exact Nat.eq_zero_of_dvd_of_lt (Int.natCast_dvd_natCast.1 h) ht
    · rintro rfl; simp
  simp only [this]
  have e : (a : ℂ) * (if t = 0 then (N : ℂ) else 0) - (a : ℂ) * (-1) ^ t = ((a * ((if t = 0 then (N : ℝ) else 0) - (-1) ^ t) : ℝ) : ℂ) := by
    split_ifs <;> push_cast <;> ring
  rw [e, Complex.ofReal_re]

/-- **C94 (white noise, the usual sizes).**  When the number of samples is a multiple of four (an odd number of bins, the last
of which is removed before the filter is truncated) white noise of variance `σ²`, whitened with its own density, comes out with mean zero
and variance exactly `1 - 3/N + 3·pad/(4·N²)`. -/
theorem whiten_white_odd_bins [IsProbabilityMeasure P] (maxF : ℝ) (x : Ω → Tensor ℝ) (psd : Tensor ℝ) (B C N F pad : ℕ) (d sr σ2 : ℝ)
    (crop : Bool) (m : ℕ → ℕ → ℝ) (hx : ∀ w, (x w).shape = [B, C, N]) (hs : psd.shape = [F]) (hsr : 0 < sr) (hσ : 0 < σ2)
    (hpsd : ∀ k, psd.get [k] = 2 * σ2 / sr) (hF : F = N / 2 + 1) (hN4 : N % 4 = 0)
    (hpd : pyInt (d * sr / 2) = pad) (hpad : 2 ≤ pad) (hN : 2 * pad < N)
    (hnoise : ∀ b < B, ∀ c < C, White P N (fun t w => (x w).get [b, c, t]) (m b c) σ2) :
    ∃ y : Ω → Tensor ℝ, (∀ w, whiten maxF (x w) psd (.secs d) sr none none crop = .ok (y w) ∧
        (y w).shape = [B, C, if crop then N - 2 * pad else N]) ∧
      ∀ b < B, ∀ c < C, ∀ t < N, ∫ w, (y w).get [b, c, t] ∂P = 0 ∧
        Var[fun w => (y w).get [b, c, t]; P] = 1 - 3 / (N : ℝ) + 3 * pad / (4 * (N : ℝ) ^ 2) := by
  have hP : 0 < 2 * σ2 / sr := by positivity
  obtain ⟨y, hy, h⟩ := whiten_noise maxF x psd B C N 1 1 F pad (.secs d) sr none none crop m (fun _ _ _ => 2 * σ2 / sr) hx
    (.inl ⟨hs, rfl, rfl⟩) (.inl rfl) (.inl rfl) hsr hpd (by omega) hN (by
      intro i hi
      rw [hs] at hi
      match i, hi with
      | [k], _ => rw [hpsd]; exact hP) (by simp) (by simp)
    (fun b hb c hc => white_stationary N _ _ σ2 sr hsr.ne' (hnoise b hb c hc))
  refine ⟨y, hy, fun b hb c hc t ht => ⟨(h b hb c hc t t).2.1, ?_⟩⟩
  rw [← covariance_self (h b hb c hc t t).1.aemeasurable, (h b hb c hc t t).2.2]
  have hp : psdAt F (N / 2 + 1) psd b c = fun _ => 2 * σ2 / sr := by
    funext k
    rw [psdAt, if_pos hF, psdOf]
    simp only [hs]; exact hpsd k
  have ht1 : (FDuration.secs d).taper sr = (2 * pad, hann (2 * pad)) := by
    have : (2 * pyInt (d * sr / 2)).toNat = 2 * pad := by rw [hpd]; omega
    simp only [FDuration.taper, this]
  rw [hp, ht1]
  dsimp only
  set Q := 2 * σ2 / sr with hQ
  set g := impulse N pad (hann (2 * pad)) (fun t => hann (2 * pad) (2 * pad - pad + t)) (amplitude (N / 2 + 1) (sr / N) none none (fun _ => Q)) with hg
  have hH : ∀ k, filterResponse (N / 2 + 1) pad (2 * pad) (hann (2 * pad)) sr none none (fun _ => Q) k = rfft N g k :=
    fun k => filterResponse_rfft N pad _ _ sr none none _ (by omega) (by omega) k
  simp only [hH, sub_self, mul_zero, zero_div, Real.cos_zero, mul_one, ← mul_sum]
  have hsym : ∀ k ∈ Ico 1 N, ‖rfft N g (min k (N - k))‖ ^ 2 = ‖rfft N g k‖ ^ 2 := by
    intro k hk
    have hk := mem_Ico.1 hk
    by_cases h2 : k ≤ N - k
    · rw [min_eq_left h2]
    · rw [min_eq_right (by omega), ← rfft_symm N g k (by omega) (by omega), RCLike.norm_conj]
  have hpar : ∑ k ∈ Ico 1 N, ‖rfft N g k‖ ^ 2 = N * ∑ t ∈ range N, g t ^ 2 - (∑ t ∈ range N, g t) ^ 2 := by
    have h1 := dft_parseval N (fun t => (g t : ℂ))
    rw [range_eq_Ico, sum_eq_sum_Ico_succ_bot (by omega), ← range_eq_Ico] at h1
    have h0 : ‖dft N (fun t => (g t : ℂ)) 0‖ ^ 2 = (∑ t ∈ range N, g t) ^ 2 := by
      have := rfft_zero N g
      unfold rfft at this
      rw [this, Complex.norm_real, Real.norm_eq_abs, sq_abs]
    rw [h0] at h1
    have h2 : ∑ t ∈ range N, ‖((g t : ℝ) : ℂ)‖ ^ 2 = ∑ t ∈ range N, g t ^ 2 :=
      sum_congr rfl fun t _ => by rw [Complex.norm_real, Real.norm_eq_abs, sq_abs]
    rw [h2] at h1
    unfold rfft
    simp only [zero_add] at h1
    linarith
  rw [sum_congr rfl hsym, hpar]
  have hNr : (N : ℝ) ≠ 0 := by
    have : N ≠ 0 := by omega
    exact_mod_cast this
  have hgv : ∀ t < N, g t = taperWeight N pad (hann (2 * pad)) (fun t => hann (2 * pad) (2 * pad - pad + t)) t *
      (1 / Real.sqrt Q * ((if t = 0 then 1 else 0) - (-1) ^ t / N)) := by
    intro t ht
    rw [hg]; unfold impulse
    have hamp : ∀ k ≤ N / 2, ((amplitude (N / 2 + 1) (sr / N) none none (fun _ => Q) k : ℝ) : ℂ) = ((if k = N / 2 then 0 else 1 / Real.sqrt Q : ℝ) : ℂ) := by
      intro k hk
      congr 1
      unfold amplitude Removed
      by_cases h : k = N / 2
      · rw [if_pos h, if_pos (.inr (.inr ⟨by omega, by omega⟩))]
      · rw [if_neg h, if_neg]
        rintro (⟨h, hh, -⟩ | ⟨h, hh, -⟩ | ⟨h, h'⟩)
        · cases hh
        · cases hh
        · omega
    rw [irfftF_congr N _ _ (fun k hk => hamp k (by omega)) t, irfftF_flat_but_last N (by omega) (by omega) _ t ht]
    split_ifs
    · field_simp
    · field_simp; ring
  have hw2 : ∀ t, hann (2 * pad) (2 * pad - pad + t) = SpectralNoise.hannW (2 * pad) (pad + t) := by
    intro t; rw [hann_eq _ _ (by omega)]; congr 1; omega
  have hw1 : ∀ t, hann (2 * pad) t = SpectralNoise.hannW (2 * pad) t := fun t => hann_eq _ _ (by omega)
  have hpeak : SpectralNoise.hannW (2 * pad) pad = 1 := by
    unfold SpectralNoise.hannW
    have : (2 * Real.pi * (pad : ℝ) / ((2 * pad : ℕ) : ℝ)) = Real.pi := by
      have : (pad : ℝ) ≠ 0 := by
        have : pad ≠ 0 := by omega
        exact_mod_cast this
      push_cast; field_simp
    rw [this, Real.cos_pi]; norm_num
  set τ := taperWeight N pad (hann (2 * pad)) (fun t => hann (2 * pad) (2 * pad - pad + t)) with hτ
  have hτ0 : τ 0 = 1 := by
    rw [hτ]; unfold taperWeight; rw [if_pos (by omega)]; beta_reduce; rw [hw2]; simpa using hpeak
  -- sums of the taper
  have hs1 : ∑ t ∈ range N, τ t * (-1) ^ t = 0 := by
    rw [hτ, sum_taper N pad (by omega)]
    have ha := hann_alt pad hpad
    rw [show 2 * pad = pad + pad by omega, sum_range_add, ← show 2 * pad = pad + pad by omega] at ha
    have e1 : ∑ t ∈ range pad, hann (2 * pad) (2 * pad - pad + t) * (-1 : ℝ) ^ t =
        (-1) ^ pad * ∑ t ∈ range pad, SpectralNoise.hannW (2 * pad) (pad + t) * (-1) ^ (pad + t) := by
      rw [mul_sum]
      refine sum_congr rfl fun t _ => ?_
      rw [hw2, pow_add]
      have : ((-1 : ℝ) ^ pad) * (-1) ^ pad = 1 := by rw [← mul_pow]; simp
      linear_combination (-(SpectralNoise.hannW (2 * pad) (pad + t) * (-1) ^ t)) * this
    have e2 : ∑ t ∈ range pad, hann (2 * pad) t * (-1 : ℝ) ^ (N - pad + t) =
        (-1) ^ pad * ∑ t ∈ range pad, SpectralNoise.hannW (2 * pad) t * (-1) ^ t := by
      rw [mul_sum]
      refine sum_congr rfl fun t _ => ?_
      have hp2 : (-1 : ℝ) ^ (N - pad) = (-1) ^ pad := by
        have h1 : (-1 : ℝ) ^ (N - pad) * (-1) ^ pad = 1 := by
          rw [← pow_add, show N - pad + pad = 2 * (N / 2) by omega, pow_mul]; simp
        have h2 : (-1 : ℝ) ^ pad * (-1) ^ pad = 1 := by rw [← mul_pow]; simp
        have h3 : (-1 : ℝ) ^ pad ≠ 0 := by positivity
        exact mul_right_cancel₀ h3 (h1.trans h2.symm)
      rw [hw1, pow_add, hp2]; ring
    rw [e1, e2, ← mul_add, add_comm (∑ t ∈ range pad, SpectralNoise.hannW (2 * pad) (pad + t) * (-1) ^ (pad + t)), ha, mul_zero]
  have hs2 : ∑ t ∈ range N, τ t ^ 2 = 3 * pad / 4 := by
    have e0 : ∑ t ∈ range N, τ t ^ 2 = ∑ t ∈ range N, τ t * τ t := sum_congr rfl fun t _ => sq _
    rw [e0]
    conv_lhs => rw [hτ]
    rw [sum_taper N pad (by omega)]
    have ha := SpectralNoise.sum_hannW_sq (2 * pad) (by omega)
    rw [show 2 * pad = pad + pad by omega, sum_range_add, ← show 2 * pad = pad + pad by omega] at ha
    have e1 : ∀ t ∈ range pad, hann (2 * pad) (2 * pad - pad + t) * taperWeight N pad (hann (2 * pad)) (fun t => hann (2 * pad) (2 * pad - pad + t)) t =
        SpectralNoise.hannW (2 * pad) (pad + t) ^ 2 := by
      intro t ht
      have ht : t < pad := by simpa using ht
      unfold taperWeight
      rw [if_pos ht]; beta_reduce; rw [hw2, sq]
    have e2 : ∀ t ∈ range pad, hann (2 * pad) t * taperWeight N pad (hann (2 * pad)) (fun t => hann (2 * pad) (2 * pad - pad + t)) (N - pad + t) =
        SpectralNoise.hannW (2 * pad) t ^ 2 := by
      intro t ht
      have ht : t < pad := by simpa using ht
      unfold taperWeight
      rw [if_neg (by omega), if_pos (by omega), show N - pad + t - (N - pad) = t by omega, hw1, sq]
    rw [sum_congr rfl e1, sum_congr rfl e2, add_comm, ha]
    push_cast; ring
  have hsg : ∑ t ∈ range N, g t = 1 / Real.sqrt Q := by
    rw [sum_congr rfl fun t ht => hgv t (by simpa using ht)]
    have : ∀ t ∈ range N, τ t * (1 / Real.sqrt Q * ((if t = 0 then 1 else 0) - (-1) ^ t / N)) =
        (if t = 0 then τ t * (1 / Real.sqrt Q) else 0) - 1 / Real.sqrt Q / N * (τ t * (-1) ^ t) := by
      intro t _; split_ifs <;> ring
    rw [sum_congr rfl this, sum_sub_distrib, ← mul_sum, hs1, sum_ite_eq' (range N) 0 (fun t => τ t * (1 / Real.sqrt Q)),
      if_pos (mem_range.2 (by omega)), hτ0]
    ring
  have hsq : ∑ t ∈ range N, g t ^ 2 = 1 / Q * ((1 - 2 / N) + 3 * pad / 4 / N ^ 2) := by
    rw [sum_congr rfl fun t ht => by rw [hgv t (by simpa using ht)]]
    have hQ2 : (1 / Real.sqrt Q) ^ 2 = 1 / Q := by rw [div_pow, one_pow, Real.sq_sqrt hP.le]
    have : ∀ t ∈ range N, (τ t * (1 / Real.sqrt Q * ((if t = 0 then 1 else 0) - (-1) ^ t / N))) ^ 2 =
        (if t = 0 then τ t ^ 2 * (1 / Q * (1 - 2 / N)) else 0) + 1 / Q / N ^ 2 * (τ t ^ 2) := by
      intro t _
      have h1 : ((-1 : ℝ) ^ t) ^ 2 = 1 := by rw [← pow_mul, mul_comm, pow_mul]; simp
      split_ifs with h0
      · subst h0
        rw [mul_pow, mul_pow, hQ2]; field_simp; ring
      · rw [mul_pow, mul_pow, hQ2, zero_sub, neg_sq, div_pow, h1]; field_simp; ring
    rw [sum_congr rfl this, sum_add_distrib, ← mul_sum, hs2, sum_ite_eq' (range N) 0 (fun t => τ t ^ 2 * (1 / Q * (1 - 2 / N))),
      if_pos (mem_range.2 (by omega)), hτ0]
    field_simp
  rw [hsq, hsg, div_pow, one_pow, Real.sq_sqrt hP.le]
  have hQ0 : Q ≠ 0 := hP.ne'
  field_simp
  ring

/-- One channel of standard normal samples. -/
noncomputable def normalBatch (T : ℕ) (w : Fin T → ℝ) : Tensor ℝ :=
  ⟨[1, 1, T], fun i => (SpectralNoise.normalSeries T w).get (i.drop 2)⟩

/-- Sixteen samples of unit normal noise, the density 2/16, a filter of four samples: variance `1 - 3/16 + 6/1024`. -/
example : ∃ y : (Fin 16 → ℝ) → Tensor ℝ,
    Var[fun w => (y w).get [0, 0, 5]; Measure.pi fun _ : Fin 16 => gaussianReal 0 1] = 1 - 3 / ((16 : ℕ) : ℝ) + 3 * ((2 : ℕ) : ℝ) / (4 * ((16 : ℕ) : ℝ) ^ 2) := by
  obtain ⟨y, _, h⟩ := whiten_white_odd_bins (P := Measure.pi fun _ : Fin 16 => gaussianReal 0 1) 0 (normalBatch 16) ⟨[9], fun _ => 2 * 1 / 16⟩ 1 1 16 9 2
    (1/4) 16 1 true (fun _ _ => 0) (fun _ => rfl) rfl (by norm_num) (by norm_num) (fun _ => rfl) (by norm_num) (by norm_num) (by norm_num [pyInt])
    (by norm_num) (by norm_num) (by
      intro b hb c hc
      obtain rfl : b = 0 := by omega
      obtain rfl : c = 0 := by omega
      exact gaussian_white _ _ _ _ (SpectralNoise.normalSeries_gaussian 16))
  exact ⟨y, (h 0 (by norm_num) 0 (by norm_num) 5 (by norm_num)).2⟩

/-- Fourteen samples (eight bins): covariance `-1/14` between two different samples. -/
example : ∃ y : (Fin 14 → ℝ) → Tensor ℝ,
    cov[fun w => (y w).get [0, 0, 5], fun w => (y w).get [0, 0, 7]; Measure.pi fun _ : Fin 14 => gaussianReal 0 1] = 0 - 1 / ((14 : ℕ) : ℝ) := by
  obtain ⟨y, _, h⟩ := whiten_white (P := Measure.pi fun _ : Fin 14 => gaussianReal 0 1) 0 (normalBatch 14) ⟨[8], fun _ => 2 * 1 / 16⟩ 1 1 14 8 2
    (1/4) 16 1 true (fun _ _ => 0) (fun _ => rfl) rfl (by norm_num) (by norm_num) (fun _ => rfl) (by norm_num) (by norm_num) (by norm_num [pyInt])
    (by norm_num) (by norm_num) (by
      intro b hb c hc
      obtain rfl : b = 0 := by omega
      obtain rfl : c = 0 := by omega
      exact gaussian_white _ _ _ _ (SpectralNoise.normalSeries_gaussian 14))
  exact ⟨y, by simpa using (h 0 (by norm_num) 0 (by norm_num) 5 (by norm_num) 7 (by norm_num)).2⟩

end Verif.Whiten
