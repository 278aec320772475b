import Verif.Props.Whiten
/-!
# Whitening with a flat PSD (C67)
-/
set_option linter.unusedSimpArgs false
namespace Verif.Whiten
open Finset Verif.Fourier Verif.Spectral Spec.Whiten

theorem irfftF_const (N : ℕ) (hN : 0 < N) (a : ℝ) (t : ℕ) (ht : t < N) :
    irfftF N (fun _ => (a : ℂ)) t = if t = 0 then N * a else 0 := by
  unfold irfftF herm
  have h1 : ∀ k ∈ range N, (if k ≤ N / 2 then (a : ℂ) else (starRingEnd ℂ) (a : ℂ)) * ω N ((k : ℤ) * t) =
      a * ω N ((k : ℤ) * t) := by
    intro k _; split_ifs <;> simp
  rw [Finset.sum_congr rfl h1, ← Finset.mul_sum, sum_ω N hN]
  have : (N : ℤ) ∣ (t : ℤ) ↔ t = 0 := by
    constructor
    · intro h
      have := Int.natCast_dvd_natCast.1 h
      exact Nat.eq_zero_of_dvd_of_lt this ht
    · rintro rfl; simp
  simp only [this]
  split_ifs
  · rw [mul_comm]; norm_cast
  · simp

/-- The truncated filter of a flat PSD is flat: the value `1` at the middle of the Hann taper is all that
is used of it. -/
theorem filterResponse_flat (F pad : ℕ) (hF : 2 ≤ F) (hFe : F % 2 = 0) (hpad : 1 ≤ pad) (P sr : ℝ) (k : ℕ) :
    filterResponse F pad (2 * pad) (hann (2 * pad)) sr none none (fun _ => P) k = ((1 / Real.sqrt P : ℝ) : ℂ) := by
  have hN : 0 < (F - 1) * 2 := by omega
  unfold filterResponse response
  have ha : ∀ k, amplitude F (sr / ((F - 1) * 2 : ℕ)) none none (fun _ => P) k = 1 / Real.sqrt P := by
    intro k
    unfold amplitude
    rw [if_neg]
    rintro (⟨h, hh, -⟩ | ⟨h, hh, -⟩ | ⟨h, -⟩)
    · cases hh
    · cases hh
    · omega
  simp only [ha]
  have hh : hann (2 * pad) (2 * pad - pad + 0) = 1 := by
    have e : 2 * pad - pad + 0 = pad := by omega
    rw [e]
    unfold hann
    rw [if_neg (by omega)]
    have : (2 * Real.pi * (pad : ℝ) / ((2 * pad : ℕ) : ℝ)) = Real.pi := by
      have : (pad : ℝ) ≠ 0 := by positivity
      push_cast; field_simp
    rw [this, Real.cos_pi]; norm_num
  have hN' : (((F - 1) * 2 : ℕ) : ℂ) ≠ 0 := by exact_mod_cast hN.ne'
  rw [rfft_congr ((F - 1) * 2) _ (fun t => if t = 0 then (((F - 1) * 2 : ℕ) : ℝ) * (1 / Real.sqrt P) else 0)]
  · unfold rfft dft
    rw [Finset.sum_eq_single 0]
    · simp only [if_true, Nat.cast_zero, mul_zero, neg_zero, ω_zero, mul_one]
      rw [Complex.ofReal_mul, Complex.ofReal_natCast]
      field_simp
    · intro b _ hb; simp [hb]
    · intro h; exact absurd (mem_range.2 hN) h
  · intro t ht
    rw [irfftF_const _ hN _ t ht]
    by_cases h : t = 0
    · subst h
      unfold taperWeight
      rw [if_pos (show (0:ℕ) < pad by omega), if_pos rfl]
      dsimp only
      rw [hh]; ring
    · rw [if_neg h, mul_zero]

/-- **C67.**  Whitening with a flat PSD of value `P > 0` (no cut-offs, filter length given in seconds, an even
number of frequency bins) returns the demeaned input scaled by `√(2/(P·sr))`.  In particular for the PSD
`P = 2σ²/sr` of white noise with variance `σ²` it returns `(x - mean)/σ`. -/
theorem whiten_flat (maxF : ℝ) (x psd : Tensor ℝ) (B C N F pad : ℕ) (d sr P : ℝ) (crop : Bool)
    (hx : x.shape = [B, C, N]) (hs : psd.shape = [F]) (hsr : 0 < sr) (hP : 0 < P)
    (hpsd : ∀ k, psd.get [k] = P) (hF : F = N / 2 + 1) (hFe : F % 2 = 0)
    (hpd : pyInt (d * sr / 2) = pad) (hpad : 1 ≤ pad) (hN : 2 * pad < N) :
    ∃ y, whiten maxF x psd (.secs d) sr none none crop = .ok y ∧
      y.shape = [B, C, if crop then N - 2 * pad else N] ∧
      ∀ b c t, b < B → c < C → (if crop then t + pad else t) < N → y.get [b, c, t] =
        Real.sqrt (2 / (P * sr)) *
          (x.get [b, c, if crop then t + pad else t] - (∑ s ∈ range N, x.get [b, c, s]) / N) := by
  obtain ⟨y, hy, hys, hyg⟩ := whiten_correct maxF x psd B C N 1 1 F pad (.secs d) sr none none crop hx
    (.inl ⟨hs, rfl, rfl⟩) (.inl rfl) (.inl rfl) hsr hpd hpad hN
    (by
      intro i hi
      rw [hs] at hi
      obtain ⟨k, rfl⟩ : ∃ k, i = [k] := by
        match i, hi with
        | [k], _ => exact ⟨k, rfl⟩
      rw [hpsd]; exact hP) (by simp) (by simp)
  refine ⟨y, hy, hys, fun b c t hb hc ht => ?_⟩
  rw [hyg b c t hb hc]
  generalize (if crop then t + pad else t) = u at ht ⊢
  have hp : psdAt F (N / 2 + 1) psd b c = fun _ => P := by
    funext k
    rw [psdAt, if_pos hF, psdOf]
    simp only [hs]; exact hpsd k
  have ht1 : (FDuration.secs d).taper sr = (2 * pad, hann (2 * pad)) := by
    have : (2 * pyInt (d * sr / 2)).toNat = 2 * pad := by rw [hpd]; omega
    simp only [FDuration.taper, this]
  rw [hp, ht1]
  dsimp only
  unfold whitened
  have hH : ∀ k, ‖filterResponse (N / 2 + 1) pad (2 * pad) (hann (2 * pad)) sr none none (fun _ => P) k‖ = 1 / Real.sqrt P := by
    intro k
    rw [filterResponse_flat (N / 2 + 1) pad (by omega) (by omega) hpad P sr k, Complex.norm_real, Real.norm_eq_abs,
      abs_of_nonneg (by positivity)]
  simp only [hH]
  unfold irfft
  have h3 : ∀ k, rfft N (fun t => x.get [b, c, t] - (∑ s ∈ range N, x.get [b, c, s]) / N) k * ((1 / Real.sqrt P : ℝ) : ℂ) =
      ((1 / Real.sqrt P : ℝ) : ℂ) * rfft N (fun t => x.get [b, c, t] - (∑ s ∈ range N, x.get [b, c, s]) / N) k :=
    fun k => mul_comm _ _
  simp only [h3, irfftF_smul]
  rw [irfftF_rfft N _ u ht]
  have hNr : (N : ℝ) ≠ 0 := by
    have : 0 < N := by omega
    positivity
  rw [Real.sqrt_div (by norm_num), Real.sqrt_mul hP.le]
  have := (Real.sqrt_pos.2 hP).ne'
  have := (Real.sqrt_pos.2 hsr).ne'
  field_simp

/-- Non-vacuity (`N = 14`, 8 bins), for the PSD of white noise of variance 9. -/
example : ∃ y, whiten 0 ⟨[2, 3, 14], fun i => (ravel [2, 3, 14] i : ℝ)⟩ ⟨[8], fun _ => 2 * 3 ^ 2 / 16⟩ (.secs (1/4))
    16 none none true = .ok y ∧ y.shape = [2, 3, 10] :=
  let ⟨y, h, hs, _⟩ := whiten_flat 0 ⟨[2, 3, 14], fun i => (ravel [2, 3, 14] i : ℝ)⟩ ⟨[8], fun _ => 2 * 3 ^ 2 / 16⟩
    2 3 14 8 2 (1/4) 16 (2 * 3 ^ 2 / 16) true rfl rfl (by norm_num) (by norm_num) (fun _ => rfl) (by norm_num) (by norm_num)
    (by norm_num [pyInt]) (by norm_num) (by norm_num)
  ⟨y, h, hs⟩

end Verif.Whiten
