import Verif.Props.WhitenFlat
import Verif.Lemmas.Circular
/-!
# How far a whitened sample looks (C87)
-/
set_option linter.unusedSimpArgs false
namespace Verif.Whiten
open Finset Verif.Fourier Verif.Spectral Spec.Whiten

/-- Whitening is circular convolution of the demeaned series with the inverse transform of the *modulus* of the filter's response. -/
theorem whitened_kernel (N : ℕ) (hN : 0 < N) (sr : ℝ) (H : ℕ → ℂ) (x : ℕ → ℝ) (t : ℕ) (ht : t < N) :
    whitened N sr H x t = Real.sqrt 2 / Real.sqrt sr *
      ∑ s ∈ range N, (x s - (∑ s ∈ range N, x s) / N) * irfft N (fun k => ((‖H k‖ : ℝ) : ℂ)) ((t + N - s) % N) := by
  unfold whitened
  rw [irfft_circular N _ (irfft N (fun k => ((‖H k‖ : ℝ) : ℂ))) _ (fun k hk => (rfft_irfft N hN _ (by simp) (by simp) k hk).symm) t ht]

theorem response_impulse (N pad : ℕ) (hN : 0 < N) (w₁ w₂ amp : ℕ → ℝ) (k : ℕ) :
    response N pad w₁ w₂ amp k = rfft N (impulse N pad w₁ w₂ amp) k := by
  unfold response
  have hN' : (N : ℂ) ≠ 0 := by exact_mod_cast hN.ne'
  have e : impulse N pad w₁ w₂ amp = fun t => (N : ℝ)⁻¹ * (taperWeight N pad w₁ w₂ t * irfftF N (fun k => (amp k : ℂ)) t) := by
    funext t; unfold impulse; rw [div_eq_inv_mul]
  rw [e, rfft_mul_left]
  push_cast
  rw [div_eq_inv_mul]

/-- If the response is non-negative, the kernel is the truncated filter. -/
theorem kernel_of_nonneg (N : ℕ) (g : ℕ → ℝ) (hH : ∀ k ≤ N / 2, 0 ≤ (rfft N g k).re ∧ (rfft N g k).im = 0) (t : ℕ) (ht : t < N) :
    irfft N (fun k => ((‖rfft N g k‖ : ℝ) : ℂ)) t = g t := by
  rw [← irfft_rfft N g t ht]
  unfold irfft
  rw [irfftF_congr N (fun k => ((‖rfft N g k‖ : ℝ) : ℂ)) (rfft N g)]
  intro k hk
  obtain ⟨h1, h2⟩ := hH k (by omega)
  have e : rfft N g k = (((rfft N g k).re : ℝ) : ℂ) := Complex.ext (by simp) (by simp [h2])
  rw [e, Complex.norm_real, Real.norm_eq_abs, abs_of_nonneg h1]

/-- The window of a sum with a truncated kernel: only the samples at most `pad` away contribute, and none through the other end of the series. -/
theorem windowed (N pad : ℕ) (hN : 2 * pad < N) (w₁ w₂ amp z : ℕ → ℝ) (t : ℕ) (ht : t < N - 2 * pad) :
    ∑ s ∈ range N, z s * impulse N pad w₁ w₂ amp ((t + pad + N - s) % N) = ∑ j ∈ range (2 * pad + 1), z (t + j) * taps N pad w₁ w₂ amp j := by
  have h0 : ∀ d, pad ≤ d → d < N - pad → impulse N pad w₁ w₂ amp d = 0 := by
    intro d h1 h2
    unfold impulse taperWeight
    rw [if_neg (by omega), if_neg (by omega)]; simp
  have hsub : ∑ s ∈ Finset.Ico t (t + (2 * pad + 1)), z s * impulse N pad w₁ w₂ amp ((t + pad + N - s) % N) =
      ∑ s ∈ range N, z s * impulse N pad w₁ w₂ amp ((t + pad + N - s) % N) := by
    apply Finset.sum_subset
    · intro s hs; simp at hs ⊢; omega
    · intro s hs hs'
      have hs : s < N := by simpa using hs
      have hs' : s < t ∨ t + 2 * pad < s := by simp at hs'; omega
      rcases hs' with h | h
      · rw [show t + pad + N - s = (t + pad - s) + N by omega, Nat.add_mod_right, Nat.mod_eq_of_lt (by omega), h0 _ (by omega) (by omega), mul_zero]
      · rw [Nat.mod_eq_of_lt (by omega), h0 _ (by omega) (by omega), mul_zero]
  rw [← hsub, Finset.sum_Ico_eq_sum_range, show t + (2 * pad + 1) - t = 2 * pad + 1 by omega]
  refine Finset.sum_congr rfl fun j hj => ?_
  have hj : j < 2 * pad + 1 := by simpa using hj
  unfold taps
  split_ifs with h
  · rw [show t + pad + N - (t + j) = (pad - j) + N by omega, Nat.add_mod_right, Nat.mod_eq_of_lt (by omega)]
  · rw [show t + pad + N - (t + j) = N + pad - j by omega, Nat.mod_eq_of_lt (by omega)]

/-- The taps of the whitening filter of a series of `N` samples (`N` even). -/
noncomputable def whitenTaps (N pad : ℕ) (fd : FDuration) (sr : ℝ) (hp lp : Option ℝ) (psd : ℕ → ℝ) (j : ℕ) : ℝ :=
  taps N pad (fd.taper sr).2 (fun t => (fd.taper sr).2 ((fd.taper sr).1 - pad + t)) (amplitude (N / 2 + 1) (sr / N) hp lp psd) j

/-- The truncated filter's response as the code computes it, for an even number of samples. -/
theorem filterResponse_rfft (N pad W : ℕ) (w : ℕ → ℝ) (sr : ℝ) (hp lp : Option ℝ) (psd : ℕ → ℝ) (hN : 0 < N) (hev : N % 2 = 0) (k : ℕ) :
    filterResponse (N / 2 + 1) pad W w sr hp lp psd k = rfft N (impulse N pad w (fun t => w (W - pad + t)) (amplitude (N / 2 + 1) (sr / N) hp lp psd)) k := by
  unfold filterResponse
  rw [show (N / 2 + 1 - 1) * 2 = N by omega, response_impulse N pad hN]

/-- **C87 (when it holds).**  If the truncated filter's response is non-negative at every frequency, then each sample that is left after cropping is a fixed weighted
sum of the `2·pad + 1` demeaned input samples around it: nothing further away contributes, and nothing wraps around the ends of the series. -/
theorem whiten_local_partial (maxF : ℝ) (x psd : Tensor ℝ) (B C N pb pc F pad : ℕ) (fd : FDuration) (sr : ℝ) (hp lp : Option ℝ)
    (hx : x.shape = [B, C, N])
    (hs : psd.shape = [F] ∧ pb = 1 ∧ pc = 1 ∨ psd.shape = [pc, F] ∧ pb = 1 ∨ psd.shape = [pb, pc, F])
    (hpb : pb = 1 ∨ pb = B) (hpc : pc = 1 ∨ pc = C)
    (hsr : 0 < sr) (hpd : fd.pad sr = pad) (hpad : 1 ≤ pad) (hN : 2 * pad < N) (hev : N % 2 = 0)
    (hpos : ∀ i, InB i psd.shape → 0 < psd.get i)
    (hhp : ∀ h, hp = some h → 0 ≤ h) (hlp : ∀ h, lp = some h → 0 ≤ h)
    (hH : ∀ b c k, b < B → c < C → k ≤ N / 2 →
      0 ≤ (filterResponse (N / 2 + 1) pad (fd.taper sr).1 (fd.taper sr).2 sr hp lp (psdAt F (N / 2 + 1) psd b c) k).re ∧
      (filterResponse (N / 2 + 1) pad (fd.taper sr).1 (fd.taper sr).2 sr hp lp (psdAt F (N / 2 + 1) psd b c) k).im = 0) :
    ∃ y, whiten maxF x psd fd sr hp lp true = .ok y ∧ y.shape = [B, C, N - 2 * pad] ∧
      ∀ b c t, b < B → c < C → t < N - 2 * pad → y.get [b, c, t] = Real.sqrt 2 / Real.sqrt sr *
        ∑ j ∈ range (2 * pad + 1), (x.get [b, c, t + j] - (∑ s ∈ range N, x.get [b, c, s]) / N) *
          whitenTaps N pad fd sr hp lp (psdAt F (N / 2 + 1) psd b c) j := by
  obtain ⟨y, hy, hys, hyg⟩ := whiten_correct maxF x psd B C N pb pc F pad fd sr hp lp true hx hs hpb hpc hsr hpd hpad hN hpos hhp hlp
  refine ⟨y, hy, by simpa using hys, fun b c t hb hc ht => ?_⟩
  rw [hyg b c t hb hc]
  simp only [if_true]
  rw [whitened_kernel N (by omega) sr _ _ (t + pad) (by omega)]
  congr 1
  unfold whitenTaps
  refine Eq.trans ?_ (windowed N pad hN _ _ _ (fun s => x.get [b, c, s] - (∑ s ∈ range N, x.get [b, c, s]) / N) t ht)
  refine Finset.sum_congr rfl fun s _ => ?_
  congr 1
  simp only [filterResponse_rfft N pad _ _ sr hp lp _ (by omega) hev]
  refine kernel_of_nonneg N _ (fun k hk => ?_) _ (Nat.mod_lt _ (by omega))
  have := hH b c k hb hc hk
  rwa [filterResponse_rfft N pad _ _ sr hp lp _ (by omega) hev] at this

/-- **C87 (in terms of inputs).**  Under the same condition two series with the same mean that agree on the `2·pad + 1` samples around an output sample have the same
whitened value there. -/
theorem whiten_agree_partial (maxF : ℝ) (x x' psd : Tensor ℝ) (B C N pb pc F pad : ℕ) (fd : FDuration) (sr : ℝ) (hp lp : Option ℝ)
    (hx : x.shape = [B, C, N]) (hx' : x'.shape = [B, C, N])
    (hs : psd.shape = [F] ∧ pb = 1 ∧ pc = 1 ∨ psd.shape = [pc, F] ∧ pb = 1 ∨ psd.shape = [pb, pc, F])
    (hpb : pb = 1 ∨ pb = B) (hpc : pc = 1 ∨ pc = C)
    (hsr : 0 < sr) (hpd : fd.pad sr = pad) (hpad : 1 ≤ pad) (hN : 2 * pad < N) (hev : N % 2 = 0)
    (hpos : ∀ i, InB i psd.shape → 0 < psd.get i)
    (hhp : ∀ h, hp = some h → 0 ≤ h) (hlp : ∀ h, lp = some h → 0 ≤ h)
    (hH : ∀ b c k, b < B → c < C → k ≤ N / 2 →
      0 ≤ (filterResponse (N / 2 + 1) pad (fd.taper sr).1 (fd.taper sr).2 sr hp lp (psdAt F (N / 2 + 1) psd b c) k).re ∧
      (filterResponse (N / 2 + 1) pad (fd.taper sr).1 (fd.taper sr).2 sr hp lp (psdAt F (N / 2 + 1) psd b c) k).im = 0) :
    ∃ y y', whiten maxF x psd fd sr hp lp true = .ok y ∧ whiten maxF x' psd fd sr hp lp true = .ok y' ∧
      ∀ b c t, b < B → c < C → t < N - 2 * pad → (∑ s ∈ range N, x.get [b, c, s] = ∑ s ∈ range N, x'.get [b, c, s]) →
        (∀ s, t ≤ s → s ≤ t + 2 * pad → x.get [b, c, s] = x'.get [b, c, s]) → y.get [b, c, t] = y'.get [b, c, t] := by
  obtain ⟨y, hy, -, hyg⟩ := whiten_local_partial maxF x psd B C N pb pc F pad fd sr hp lp hx hs hpb hpc hsr hpd hpad hN hev hpos hhp hlp hH
  obtain ⟨y', hy', -, hyg'⟩ := whiten_local_partial maxF x' psd B C N pb pc F pad fd sr hp lp hx' hs hpb hpc hsr hpd hpad hN hev hpos hhp hlp hH
  refine ⟨y, y', hy, hy', fun b c t hb hc ht hm ha => ?_⟩
  rw [hyg b c t hb hc ht, hyg' b c t hb hc ht, hm]
  congr 1
  refine Finset.sum_congr rfl fun j hj => ?_
  have hj : j < 2 * pad + 1 := by simpa using hj
  rw [ha (t + j) (by omega) (by omega)]

/-! ## The Hann taper -/

theorem hann_sym (pad t : ℕ) (hp : 1 ≤ pad) (ht : t ≤ pad) : hann (2 * pad) (pad + t) = hann (2 * pad) (pad - t) := by
  unfold hann
  rw [if_neg (by omega), if_neg (by omega)]
  have hp' : (pad : ℝ) ≠ 0 := by positivity
  have e : 2 * Real.pi * ((pad + t : ℕ) : ℝ) / ((2 * pad : ℕ) : ℝ) = 2 * Real.pi - 2 * Real.pi * ((pad - t : ℕ) : ℝ) / ((2 * pad : ℕ) : ℝ) := by
    rw [Nat.cast_sub ht]; push_cast; field_simp; ring
  rw [e, Real.cos_two_pi_sub]

/-- With a filter length in seconds (a Hann taper) the truncated filter is symmetric, so its response is real. -/
theorem hann_response_real (N pad : ℕ) (sr : ℝ) (hp lp : Option ℝ) (psd : ℕ → ℝ) (hpad : 1 ≤ pad) (hN : 2 * pad < N) (hev : N % 2 = 0) (k : ℕ) :
    (filterResponse (N / 2 + 1) pad (2 * pad) (hann (2 * pad)) sr hp lp psd k).im = 0 := by
  rw [filterResponse_rfft N pad _ _ sr hp lp _ (by omega) hev]
  apply rfft_even N (by omega)
  intro t ht
  unfold impulse
  rw [irfftF_even N (by omega) _ t ht]
  congr 2
  rcases Nat.eq_zero_or_pos t with rfl | h
  · simp
  rw [Nat.mod_eq_of_lt (by omega)]
  have e : 2 * pad - pad = pad := by omega
  unfold taperWeight
  rw [e]
  by_cases h1 : t < pad
  · rw [if_neg (by omega), if_pos (by omega), if_pos h1]
    dsimp only
    rw [hann_sym pad t hpad h1.le]
    congr 1; omega
  · by_cases h2 : N - pad ≤ t
    · rw [if_neg h1, if_pos h2]
      by_cases h3 : N - t < pad
      · rw [if_pos h3]
        dsimp only
        rw [hann_sym pad (N - t) hpad h3.le]
        congr 1; omega
      · have : t = N - pad := by omega
        subst this
        rw [if_neg h3, if_neg (by omega), Nat.sub_self]
        unfold hann; rw [if_neg (by omega)]; simp
    · rw [if_neg h1, if_neg h2]
      by_cases h3 : N - t < pad
      · omega
      · rw [if_neg h3]
        by_cases h4 : N - pad ≤ N - t
        · have : t = pad := by omega
          subst this
          rw [if_pos h4, Nat.sub_self]
          unfold hann; rw [if_neg (by omega)]; simp
        · rw [if_neg h4]

theorem amplitude_nonneg (F : ℕ) (df : ℝ) (hp lp : Option ℝ) (psd : ℕ → ℝ) (k : ℕ) : 0 ≤ amplitude F df hp lp psd k := by
  unfold amplitude
  split_ifs
  · exact le_rfl
  · positivity

/-- The impulse response of a non-negative amplitude is largest in the middle. -/
theorem irfftF_peak (N : ℕ) (a : ℕ → ℝ) (ha : ∀ k, 0 ≤ a k) (t : ℕ) : |irfftF N (fun k => (a k : ℂ)) t| ≤ irfftF N (fun k => (a k : ℂ)) 0 := by
  have hr : ∀ k, ∃ r : ℝ, 0 ≤ r ∧ herm N (fun k => (a k : ℂ)) k = r := by
    intro k
    unfold herm
    split_ifs
    · exact ⟨_, ha k, rfl⟩
    · exact ⟨_, ha (N - k), Complex.conj_ofReal _⟩
  unfold irfftF
  rw [Complex.re_sum, Complex.re_sum]
  refine (Finset.abs_sum_le_sum_abs _ _).trans (Finset.sum_le_sum fun k _ => ?_)
  obtain ⟨r, h0, hr⟩ := hr k
  rw [hr]
  simp only [Nat.cast_zero, mul_zero, ω_zero, mul_one, Complex.ofReal_re]
  refine (Complex.abs_re_le_norm _).trans ?_
  rw [norm_mul, ω_norm, mul_one, Complex.norm_real, Real.norm_eq_abs, abs_of_nonneg h0]

/-- A filter whose middle tap outweighs the others has a non-negative response. -/
theorem response_of_peak (N : ℕ) (hN : 0 < N) (g : ℕ → ℝ) (h : ∑ t ∈ Finset.Ico 1 N, |g t| ≤ g 0) (k : ℕ) : 0 ≤ (rfft N g k).re := by
  unfold rfft dft
  rw [Complex.re_sum, ← Nat.Ico_zero_eq_range, Finset.sum_eq_sum_Ico_succ_bot hN]
  have h1 : |∑ t ∈ Finset.Ico (0 + 1) N, ((g t : ℂ) * ω N (-((k : ℤ) * t))).re| ≤ ∑ t ∈ Finset.Ico 1 N, |g t| := by
    refine (Finset.abs_sum_le_sum_abs _ _).trans (Finset.sum_le_sum fun t _ => ?_)
    refine (Complex.abs_re_le_norm _).trans ?_
    rw [norm_mul, ω_norm, mul_one, Complex.norm_real, Real.norm_eq_abs]
  have h2 : ((g 0 : ℂ) * ω N (-((k : ℤ) * ((0 : ℕ) : ℤ)))).re = g 0 := by simp [ω_zero]
  rw [h2]
  linarith [(abs_le.1 h1).1]

/-- For Hann tapers of at most four samples the response is never negative, whatever the PSD and the cut-offs. -/
theorem short_hann_nonneg (N pad : ℕ) (sr : ℝ) (hp lp : Option ℝ) (psd : ℕ → ℝ) (hpad : 1 ≤ pad) (hpad2 : pad ≤ 2) (hN : 2 * pad < N) (hev : N % 2 = 0) (k : ℕ) :
    0 ≤ (filterResponse (N / 2 + 1) pad (2 * pad) (hann (2 * pad)) sr hp lp psd k).re := by
  rw [filterResponse_rfft N pad _ _ sr hp lp _ (by omega) hev]
  apply response_of_peak N (by omega)
  set q := irfftF N (fun k => (amplitude (N / 2 + 1) (sr / N) hp lp psd k : ℂ)) with hq
  have hpk := irfftF_peak N _ (amplitude_nonneg (N / 2 + 1) (sr / N) hp lp psd)
  have hN' : (0 : ℝ) < N := by
    have : 0 < N := by omega
    exact_mod_cast this
  have hmid : hann (2 * pad) pad = 1 := by
    unfold hann
    rw [if_neg (by omega)]
    have : (2 * Real.pi * (pad : ℝ) / ((2 * pad : ℕ) : ℝ)) = Real.pi := by
      have : (pad : ℝ) ≠ 0 := by positivity
      push_cast; field_simp
    rw [this, Real.cos_pi]; norm_num
  have h0 : impulse N pad (hann (2 * pad)) (fun t => hann (2 * pad) (2 * pad - pad + t)) (amplitude (N / 2 + 1) (sr / N) hp lp psd) 0 = q 0 / N := by
    unfold impulse taperWeight
    rw [if_pos (by omega)]
    dsimp only
    rw [show 2 * pad - pad + 0 = pad by omega, hmid, one_mul]
  have hz : hann (2 * pad) 0 = 0 := by unfold hann; rw [if_neg (by omega)]; simp
  rw [h0]
  obtain rfl | rfl : pad = 1 ∨ pad = 2 := by omega
  · rw [Finset.sum_eq_zero]
    · exact div_nonneg ((abs_nonneg _).trans (hpk 0)) hN'.le
    · intro t ht
      have ht := Finset.mem_Ico.1 ht
      unfold impulse taperWeight
      rw [if_neg (by omega)]
      split_ifs with h
      · rw [show t - (N - 1) = 0 by omega, hz]; simp
      · simp
  · have hw1 : hann (2 * 2) 1 = 1 / 2 := by
      unfold hann
      rw [if_neg (by norm_num), show 2 * Real.pi * ((1 : ℕ) : ℝ) / ((2 * 2 : ℕ) : ℝ) = Real.pi / 2 by push_cast; ring, Real.cos_pi_div_two]; norm_num
    have hw3 : hann (2 * 2) 3 = 1 / 2 := by
      have := hann_sym 2 1 (by norm_num) (by norm_num)
      norm_num at this
      rw [show (2 * 2 : ℕ) = 4 by norm_num]
      rw [this]; exact_mod_cast hw1
    have e : ∀ t ∈ Finset.Ico 1 N, |impulse N 2 (hann (2 * 2)) (fun t => hann (2 * 2) (2 * 2 - 2 + t)) (amplitude (N / 2 + 1) (sr / N) hp lp psd) t| ≤
        (if t = 1 then q 0 / N / 2 else 0) + (if t = N - 1 then q 0 / N / 2 else 0) := by
      intro t ht
      have ht := Finset.mem_Ico.1 ht
      have hb : |1 / 2 * q t / N| ≤ q 0 / N / 2 := by
        rw [abs_div, abs_mul, abs_of_pos hN', abs_of_pos (by norm_num : (0 : ℝ) < 1 / 2), div_right_comm]
        rw [div_le_div_iff_of_pos_right hN']
        have : |q t| ≤ q 0 := hpk t
        linarith
      unfold impulse taperWeight
      by_cases h1 : t = 1
      · subst h1
        rw [if_pos (by norm_num), if_pos rfl, if_neg (by omega), add_zero]
        dsimp only
        rw [show 2 * 2 - 2 + 1 = 3 by norm_num, hw3]
        exact hb
      · rw [if_neg (by omega), if_neg h1, zero_add]
        by_cases h2 : t = N - 1
        · rw [if_pos h2, if_pos (by omega), show t - (N - 2) = 1 by omega, hw1]
          exact hb
        · rw [if_neg h2]
          split_ifs with h3
          · rw [show t - (N - 2) = 0 by omega, hz]; simp
          · simp
    refine (Finset.sum_le_sum e).trans ?_
    rw [Finset.sum_add_distrib, Finset.sum_ite_eq', Finset.sum_ite_eq', if_pos (Finset.mem_Ico.2 (by omega)), if_pos (Finset.mem_Ico.2 (by omega))]
    linarith

/-- **C87 (short filters).**  With a filter length in seconds that makes at most four taps, every whitened sample depends on its neighbourhood only, whatever the PSD, the
cut-offs and the input. -/
theorem whiten_short_local (maxF : ℝ) (x psd : Tensor ℝ) (B C N pb pc F pad : ℕ) (d sr : ℝ) (hp lp : Option ℝ)
    (hx : x.shape = [B, C, N])
    (hs : psd.shape = [F] ∧ pb = 1 ∧ pc = 1 ∨ psd.shape = [pc, F] ∧ pb = 1 ∨ psd.shape = [pb, pc, F])
    (hpb : pb = 1 ∨ pb = B) (hpc : pc = 1 ∨ pc = C)
    (hsr : 0 < sr) (hpd : pyInt (d * sr / 2) = pad) (hpad : 1 ≤ pad) (hpad2 : pad ≤ 2) (hN : 2 * pad < N) (hev : N % 2 = 0)
    (hpos : ∀ i, InB i psd.shape → 0 < psd.get i)
    (hhp : ∀ h, hp = some h → 0 ≤ h) (hlp : ∀ h, lp = some h → 0 ≤ h) :
    ∃ y, whiten maxF x psd (.secs d) sr hp lp true = .ok y ∧ y.shape = [B, C, N - 2 * pad] ∧
      ∀ b c t, b < B → c < C → t < N - 2 * pad → y.get [b, c, t] = Real.sqrt 2 / Real.sqrt sr *
        ∑ j ∈ range (2 * pad + 1), (x.get [b, c, t + j] - (∑ s ∈ range N, x.get [b, c, s]) / N) *
          whitenTaps N pad (.secs d) sr hp lp (psdAt F (N / 2 + 1) psd b c) j := by
  have ht1 : (FDuration.secs d).taper sr = (2 * pad, hann (2 * pad)) := by
    have : (2 * pyInt (d * sr / 2)).toNat = 2 * pad := by rw [hpd]; omega
    simp only [FDuration.taper, this]
  refine whiten_local_partial maxF x psd B C N pb pc F pad (.secs d) sr hp lp hx hs hpb hpc hsr hpd hpad hN hev hpos hhp hlp ?_
  intro b c k _ _ _
  rw [ht1]
  exact ⟨short_hann_nonneg N pad sr hp lp _ hpad hpad2 hN hev k, hann_response_real N pad sr hp lp _ hpad hN hev k⟩

/-- Non-vacuity: sixteen samples, a quarter of a second at sixteen samples per second, a highpass and a PSD that is not flat. -/
example : ∃ y, whiten 0 ⟨[2, 3, 16], fun i => (ravel [2, 3, 16] i : ℝ)⟩ ⟨[9], fun i => 1 + (i.headD 0 : ℝ)⟩ (.secs (1 / 4)) 16 (some 2) none true = .ok y ∧ y.shape = [2, 3, 12] :=
  let ⟨y, h, hs, _⟩ := whiten_short_local 0 ⟨[2, 3, 16], fun i => (ravel [2, 3, 16] i : ℝ)⟩ ⟨[9], fun i => 1 + (i.headD 0 : ℝ)⟩ 2 3 16 1 1 9 2
    (1 / 4) 16 (some 2) none rfl (.inl ⟨rfl, rfl, rfl⟩) (.inl rfl) (.inl rfl) (by norm_num) (by norm_num [pyInt])
    (by norm_num) (by norm_num) (by norm_num) (by norm_num) (fun i _ => by show (0 : ℝ) < 1 + _; positivity) (by intro h hh; cases hh; norm_num) (by simp)
  ⟨y, h, hs⟩

/-! ## When the response is negative somewhere -/

theorem ω_re (N : ℕ) (m : ℤ) : (ω N m).re = Real.cos (2 * Real.pi * m / N) := by
  unfold ω
  rw [show (2 * Real.pi * Complex.I * m / N : ℂ) = ((2 * Real.pi * m / N : ℝ) : ℂ) * Complex.I by push_cast; ring, Complex.exp_ofReal_mul_I_re]

/-- The filter of the example: twelve samples, a Hann taper of six, everything but the lowest bin removed. -/
noncomputable def exImpulse : ℕ → ℝ :=
  impulse 12 3 (hann 6) (fun t => hann 6 (6 - 3 + t)) (amplitude 7 (12 / (12 : ℕ)) none (some 1) (fun _ => 1))

theorem exImpulse_eq : exImpulse 0 = 1 / 12 ∧ exImpulse 1 = 1 / 16 ∧ exImpulse 2 = 1 / 48 ∧ (∀ t, 3 ≤ t → t ≤ 9 → exImpulse t = 0) ∧
    exImpulse 10 = 1 / 48 ∧ exImpulse 11 = 1 / 16 := by
  have ha : ∀ k, amplitude 7 (12 / (12 : ℕ)) none (some 1) (fun _ => 1) k = if k = 0 then 1 else 0 := by
    intro k
    unfold amplitude
    by_cases hk : k = 0
    · subst hk
      rw [if_neg, if_pos rfl]
      · simp
      · rintro (⟨h, hh, -⟩ | ⟨h, hh, h1⟩ | ⟨-, h⟩)
        · cases hh
        · obtain rfl := Option.some.inj hh
          norm_num at h1
        · omega
    · rw [if_pos, if_neg hk]
      right; left
      refine ⟨1, rfl, ?_⟩
      have : (1 : ℝ) ≤ k := by exact_mod_cast Nat.one_le_iff_ne_zero.2 hk
      norm_num
      omega
  have hq : ∀ t, irfftF 12 (fun k => (amplitude 7 (12 / (12 : ℕ)) none (some 1) (fun _ => 1) k : ℂ)) t = 1 := by
    intro t
    simp only [ha]
    unfold irfftF
    rw [Finset.sum_eq_single 0]
    · simp [herm, ω_zero]
    · intro k hk h0
      have hk : k < 12 := by simpa using hk
      unfold herm
      split_ifs
      · simp [h0]
      · simp [show 12 - k ≠ 0 by omega]
    · simp
  have h60 : hann 6 0 = 0 := by norm_num [hann]
  have h61 : hann 6 1 = 1 / 4 := by
    unfold hann
    rw [if_neg (by norm_num), show 2 * Real.pi * ((1 : ℕ) : ℝ) / ((6 : ℕ) : ℝ) = Real.pi / 3 by push_cast; ring, Real.cos_pi_div_three]; norm_num
  have h62 : hann 6 2 = 3 / 4 := by
    unfold hann
    rw [if_neg (by norm_num), show 2 * Real.pi * ((2 : ℕ) : ℝ) / ((6 : ℕ) : ℝ) = Real.pi - Real.pi / 3 by push_cast; ring, Real.cos_pi_sub, Real.cos_pi_div_three]
    norm_num
  have h63 : hann 6 3 = 1 := by
    unfold hann
    rw [if_neg (by norm_num), show 2 * Real.pi * ((3 : ℕ) : ℝ) / ((6 : ℕ) : ℝ) = Real.pi by push_cast; ring, Real.cos_pi]; norm_num
  have h64 : hann 6 4 = 3 / 4 := by rw [← h62]; exact hann_sym 3 1 (by norm_num) (by norm_num)
  have h65 : hann 6 5 = 1 / 4 := by rw [← h61]; exact hann_sym 3 2 (by norm_num) (by norm_num)
  unfold exImpulse impulse taperWeight
  simp only [hq]
  refine ⟨?_, ?_, ?_, ?_, ?_, ?_⟩
  · norm_num [h63]
  · norm_num [h64]
  · norm_num [h65]
  · intro t h1 h2
    rw [if_neg (by omega)]
    by_cases h : t = 9
    · subst h; norm_num [h60]
    · rw [if_neg (by omega)]; norm_num
  · norm_num [h61]
  · norm_num [h62]

/-- Its response. -/
theorem exResponse (k : ℕ) : (rfft 12 exImpulse k).re = (Real.cos (Real.pi * k / 6) + 1) * (Real.cos (Real.pi * k / 6) + 1 / 2) / 12 := by
  obtain ⟨e0, e1, e2, e3, e10, e11⟩ := exImpulse_eq
  unfold rfft dft
  simp only [Finset.sum_range_succ, Finset.sum_range_zero, e0, e1, e2, e3 3 (by norm_num) (by norm_num), e3 4 (by norm_num) (by norm_num), e3 5 (by norm_num) (by norm_num),
    e3 6 (by norm_num) (by norm_num), e3 7 (by norm_num) (by norm_num), e3 8 (by norm_num) (by norm_num), e3 9 (by norm_num) (by norm_num), e10, e11,
    Complex.ofReal_zero, zero_mul, add_zero, zero_add, Complex.add_re, Complex.re_ofReal_mul, ω_re]
  have c0 : Real.cos (2 * Real.pi * ((-((k : ℤ) * ((0 : ℕ) : ℤ)) : ℤ) : ℝ) / ((12 : ℕ) : ℝ)) = 1 := by simp
  have c1 : Real.cos (2 * Real.pi * ((-((k : ℤ) * ((1 : ℕ) : ℤ)) : ℤ) : ℝ) / ((12 : ℕ) : ℝ)) = Real.cos (Real.pi * k / 6) := by
    rw [← Real.cos_neg]; congr 1; push_cast; ring
  have c2 : Real.cos (2 * Real.pi * ((-((k : ℤ) * ((2 : ℕ) : ℤ)) : ℤ) : ℝ) / ((12 : ℕ) : ℝ)) = 2 * Real.cos (Real.pi * k / 6) ^ 2 - 1 := by
    rw [← Real.cos_two_mul, ← Real.cos_neg]; congr 1; push_cast; ring
  have c10 : Real.cos (2 * Real.pi * ((-((k : ℤ) * ((10 : ℕ) : ℤ)) : ℤ) : ℝ) / ((12 : ℕ) : ℝ)) = 2 * Real.cos (Real.pi * k / 6) ^ 2 - 1 := by
    rw [← Real.cos_two_mul, ← Real.cos_sub_nat_mul_two_pi (2 * (Real.pi * k / 6)) k]; congr 1; push_cast; ring
  have c11 : Real.cos (2 * Real.pi * ((-((k : ℤ) * ((11 : ℕ) : ℤ)) : ℤ) : ℝ) / ((12 : ℕ) : ℝ)) = Real.cos (Real.pi * k / 6) := by
    rw [← Real.cos_sub_nat_mul_two_pi (Real.pi * k / 6) k]; congr 1; push_cast; ring
  rw [c0, c1, c2, c10, c11]
  ring

theorem exResponse_sign : (∀ k, k ≤ 6 → k ≠ 5 → 0 ≤ (rfft 12 exImpulse k).re) ∧ (rfft 12 exImpulse 5).re < 0 := by
  have h23 : Real.cos (Real.pi * 4 / 6) = -1 / 2 := by
    rw [show Real.pi * 4 / 6 = Real.pi - Real.pi / 3 by ring, Real.cos_pi_sub, Real.cos_pi_div_three]; norm_num
  have hpi := Real.pi_pos
  constructor
  · intro k hk h5
    rw [exResponse]
    by_cases h6 : k = 6
    · subst h6
      rw [show Real.pi * ((6 : ℕ) : ℝ) / 6 = Real.pi by push_cast; ring, Real.cos_pi]; norm_num
    · have hk4 : (k : ℝ) ≤ 4 := by
        have : k ≤ 4 := by omega
        exact_mod_cast this
      have h : -1 / 2 ≤ Real.cos (Real.pi * k / 6) := by
        rw [← h23]
        apply Real.cos_le_cos_of_nonneg_of_le_pi (by positivity)
        · nlinarith
        · have := mul_le_mul_of_nonneg_left hk4 hpi.le
          linarith
      have : 0 ≤ (Real.cos (Real.pi * k / 6) + 1) * (Real.cos (Real.pi * k / 6) + 1 / 2) := mul_nonneg (by linarith) (by linarith)
      positivity
  · rw [exResponse]
    have h1 : Real.cos (Real.pi * (5 : ℕ) / 6) < -1 / 2 := by
      rw [← h23]
      apply Real.cos_lt_cos_of_nonneg_of_le_pi (by positivity)
      · push_cast; nlinarith
      · push_cast; nlinarith
    have h2 : -1 < Real.cos (Real.pi * (5 : ℕ) / 6) := by
      rw [← Real.cos_pi]
      apply Real.cos_lt_cos_of_nonneg_of_le_pi (by positivity) le_rfl
      push_cast; nlinarith
    have := mul_neg_of_pos_of_neg (by linarith : 0 < Real.cos (Real.pi * (5 : ℕ) / 6) + 1) (by linarith : Real.cos (Real.pi * (5 : ℕ) / 6) + 1 / 2 < 0)
    linarith

/-- The kernel that is actually applied: the truncated filter plus a cosine that never ends. -/
theorem exKernel (t : ℕ) (ht : t < 12) : irfft 12 (fun k => ((‖rfft 12 exImpulse k‖ : ℝ) : ℂ)) t =
    exImpulse t - (rfft 12 exImpulse 5).re / 6 * (Real.cos (2 * Real.pi * (5 * t) / 12) + Real.cos (2 * Real.pi * (7 * t) / 12)) := by
  obtain ⟨hs, h5⟩ := exResponse_sign
  have hreal : ∀ k, (rfft 12 exImpulse k).im = 0 := by
    intro k
    have := hann_response_real 12 3 12 none (some 1) (fun _ => 1) (by norm_num) (by norm_num) (by norm_num) k
    rw [filterResponse_rfft 12 3 _ _ 12 none (some 1) _ (by norm_num) (by norm_num)] at this
    exact this
  have hofreal : ∀ k, rfft 12 exImpulse k = (((rfft 12 exImpulse k).re : ℝ) : ℂ) := fun k => Complex.ext (by simp) (by simp [hreal k])
  have hsplit : ∀ k < 12 / 2 + 1, (fun k => ((‖rfft 12 exImpulse k‖ : ℝ) : ℂ)) k =
      (fun k => rfft 12 exImpulse k + ((if k = 5 then -2 * (rfft 12 exImpulse 5).re else 0 : ℝ) : ℂ)) k := by
    intro k hk
    dsimp only
    by_cases h : k = 5
    · subst h
      rw [if_pos rfl]
      conv_lhs => rw [hofreal 5]
      conv_rhs => rw [hofreal 5]
      rw [Complex.norm_real, Real.norm_eq_abs, abs_of_neg h5, ← Complex.ofReal_add]
      congr 1
      simp only [Complex.ofReal_re]
      ring
    · rw [if_neg h]
      conv_lhs => rw [hofreal k]
      conv_rhs => rw [hofreal k]
      rw [Complex.norm_real, Real.norm_eq_abs, abs_of_nonneg (hs k (by omega) h)]
      simp
  have e : irfftF 12 (fun k => ((if k = 5 then -2 * (rfft 12 exImpulse 5).re else 0 : ℝ) : ℂ)) t =
      -2 * (rfft 12 exImpulse 5).re * (Real.cos (2 * Real.pi * (5 * t) / 12) + Real.cos (2 * Real.pi * (7 * t) / 12)) := by
    unfold irfftF herm
    rw [Complex.re_sum]
    simp only [Finset.sum_range_succ, Finset.sum_range_zero]
    norm_num [ω_re]
    ring
  have h1 := irfft_rfft 12 exImpulse t ht
  unfold irfft at h1 ⊢
  rw [irfftF_congr 12 _ _ hsplit, irfftF_add, e]
  push_cast at h1 ⊢
  rw [← h1]
  ring

/-- **C87 (when it fails).**  A whitening filter of half a second at twelve samples per second, lowpassed at 1 Hz: after cropping three samples at either end, the first
output sample is the centre of the input samples 0 to 6, but it changes when only the samples 7 and 9 do (and the mean does not). -/
theorem whiten_leaks (maxF : ℝ) :
    let x : Tensor ℝ := ⟨[1, 1, 12], fun _ => 0⟩
    let x' : Tensor ℝ := ⟨[1, 1, 12], fun i => if i = [0, 0, 7] then -1 else if i = [0, 0, 9] then 1 else 0⟩
    ∃ y y', whiten maxF x ⟨[7], fun _ => 1⟩ (.secs (1 / 2)) 12 none (some 1) true = .ok y ∧
      whiten maxF x' ⟨[7], fun _ => 1⟩ (.secs (1 / 2)) 12 none (some 1) true = .ok y' ∧ y.shape = [1, 1, 12 - 2 * 3] ∧
      (∀ s, s ≤ 6 → x.get [0, 0, s] = x'.get [0, 0, s]) ∧ ∑ s ∈ range 12, x.get [0, 0, s] = ∑ s ∈ range 12, x'.get [0, 0, s] ∧
      y.get [0, 0, 0] ≠ y'.get [0, 0, 0] := by
  intro x x'
  have hpd : (FDuration.secs (1 / 2)).pad 12 = ((3 : ℕ) : ℤ) := by norm_num [FDuration.pad, pyInt]
  have htp : (FDuration.secs (1 / 2)).taper 12 = (6, hann 6) := by
    have : (2 * pyInt (1 / 2 * 12 / 2)).toNat = 6 := by norm_num [pyInt]; rfl
    simp only [FDuration.taper, this]
  have key : ∀ z : Tensor ℝ, z.shape = [1, 1, 12] → ∃ y, whiten maxF z ⟨[7], fun _ => 1⟩ (.secs (1 / 2)) 12 none (some 1) true = .ok y ∧ y.shape = [1, 1, 12 - 2 * 3] ∧
      y.get [0, 0, 0] = Real.sqrt 2 / Real.sqrt 12 * ∑ s ∈ range 12, (z.get [0, 0, s] - (∑ s ∈ range 12, z.get [0, 0, s]) / (12 : ℕ)) *
        irfft 12 (fun k => ((‖rfft 12 exImpulse k‖ : ℝ) : ℂ)) ((3 + 12 - s) % 12) := by
    intro z hz
    obtain ⟨y, hy, hys, hyg⟩ := whiten_correct maxF z ⟨[7], fun _ => 1⟩ 1 1 12 1 1 7 3 (.secs (1 / 2)) 12 none (some 1) true hz (.inl ⟨rfl, rfl, rfl⟩) (.inl rfl) (.inl rfl)
      (by norm_num) hpd (by norm_num) (by norm_num) (by simp) (by simp) (by simp)
    refine ⟨y, hy, hys, ?_⟩
    rw [hyg 0 0 0 (by norm_num) (by norm_num)]
    simp only [if_true, zero_add]
    rw [whitened_kernel 12 (by norm_num) 12 _ _ 3 (by norm_num), htp]
    have hpsd : psdAt 7 (12 / 2 + 1) ⟨[7], fun _ => 1⟩ 0 0 = fun _ => 1 := by
      funext k
      simp [psdAt, psdOf]
    rw [hpsd]
    simp only [filterResponse_rfft 12 3 _ _ 12 none (some 1) _ (by norm_num) (by norm_num)]
    rfl
  obtain ⟨y, hy, hys, hyg⟩ := key x rfl
  obtain ⟨y', hy', -, hyg'⟩ := key x' rfl
  have hsum : ∑ s ∈ range 12, x'.get [0, 0, s] = 0 := by simp [x', Finset.sum_range_succ]
  refine ⟨y, y', hy, hy', hys, ?_, ?_, ?_⟩
  · intro s hs
    have h7 : s ≠ 7 := by omega
    have h9 : s ≠ 9 := by omega
    simp [x, x', h7, h9]
  · rw [hsum]; simp [x]
  · rw [hyg, hyg', hsum]
    have hx0 : ∀ s, x.get [0, 0, s] = 0 := fun s => rfl
    have e : ∑ s ∈ range 12, (x'.get [0, 0, s] - 0 / ((12 : ℕ) : ℝ)) * irfft 12 (fun k => ((‖rfft 12 exImpulse k‖ : ℝ) : ℂ)) ((3 + 12 - s) % 12) =
        irfft 12 (fun k => ((‖rfft 12 exImpulse k‖ : ℝ) : ℂ)) 6 - irfft 12 (fun k => ((‖rfft 12 exImpulse k‖ : ℝ) : ℂ)) 8 := by
      simp [x', Finset.sum_range_succ]
      ring
    rw [e]
    simp only [hx0, Finset.sum_const_zero, zero_div, sub_zero, zero_mul, mul_zero]
    obtain ⟨-, -, -, e3, -⟩ := exImpulse_eq
    rw [exKernel 6 (by norm_num), exKernel 8 (by norm_num), e3 6 (by norm_num) (by norm_num), e3 8 (by norm_num) (by norm_num)]
    have a1 : Real.cos (2 * Real.pi * (5 * ((6 : ℕ) : ℝ)) / 12) = -1 := by
      rw [show 2 * Real.pi * (5 * ((6 : ℕ) : ℝ)) / 12 = Real.pi + (2 : ℕ) * (2 * Real.pi) by push_cast; ring, Real.cos_add_nat_mul_two_pi, Real.cos_pi]
    have a2 : Real.cos (2 * Real.pi * (7 * ((6 : ℕ) : ℝ)) / 12) = -1 := by
      rw [show 2 * Real.pi * (7 * ((6 : ℕ) : ℝ)) / 12 = Real.pi + (3 : ℕ) * (2 * Real.pi) by push_cast; ring, Real.cos_add_nat_mul_two_pi, Real.cos_pi]
    have a3 : Real.cos (2 * Real.pi * (5 * ((8 : ℕ) : ℝ)) / 12) = -1 / 2 := by
      rw [show 2 * Real.pi * (5 * ((8 : ℕ) : ℝ)) / 12 = (Real.pi - Real.pi / 3) + (3 : ℕ) * (2 * Real.pi) by push_cast; ring, Real.cos_add_nat_mul_two_pi, Real.cos_pi_sub,
        Real.cos_pi_div_three]; norm_num
    have a4 : Real.cos (2 * Real.pi * (7 * ((8 : ℕ) : ℝ)) / 12) = -1 / 2 := by
      rw [show 2 * Real.pi * (7 * ((8 : ℕ) : ℝ)) / 12 = (Real.pi / 3 + Real.pi) + (4 : ℕ) * (2 * Real.pi) by push_cast; ring, Real.cos_add_nat_mul_two_pi, Real.cos_add_pi,
        Real.cos_pi_div_three]; norm_num
    rw [a1, a2, a3, a4]
    have h5 := exResponse_sign.2
    have hs2 : 0 < Real.sqrt 2 / Real.sqrt 12 := by positivity
    intro hc
    have : Real.sqrt 2 / Real.sqrt 12 * ((rfft 12 exImpulse 5).re / 6) = 0 := by linarith
    rcases mul_eq_zero.1 this with h | h
    · exact hs2.ne' h
    · linarith

end Verif.Whiten
