import Verif.Lemmas.Fourier
/-!
# The real inverse transform: `rfft (irfft Y) = Y`, energy
-/
namespace Verif.Fourier
open Finset

theorem dft_idft (N : ℕ) (H : ℕ → ℂ) (j : ℕ) (hj : j < N) :
    dft N (fun t => ∑ k ∈ range N, H k * ω N ((k : ℤ) * t)) j = N * H j := by
  have hN : 0 < N := by omega
  unfold dft
  have : ∀ t ∈ range N, (∑ k ∈ range N, H k * ω N ((k : ℤ) * t)) * ω N (-((j : ℤ) * t)) =
      ∑ k ∈ range N, H k * ω N ((t : ℤ) * ((k : ℤ) - j)) := by
    intro t _
    rw [Finset.sum_mul]
    refine Finset.sum_congr rfl fun k _ => ?_
    rw [mul_assoc, ← ω_add]
    congr 2; ring
  rw [Finset.sum_congr rfl this, Finset.sum_comm]
  simp only [← Finset.mul_sum, sum_ω N hN]
  rw [Finset.sum_eq_single j]
  · simp [mul_comm]
  · intro k hk hkj
    rw [if_neg, mul_zero]
    intro hd
    obtain ⟨c, hc⟩ := hd
    have hk' : k < N := by simpa using hk
    have h1 : -(N : ℤ) < (k : ℤ) - j := by omega
    have h2 : (k : ℤ) - j < N := by omega
    have hc0 : c = 0 := by
      rw [hc] at h1 h2
      by_contra h
      rcases lt_or_gt_of_ne h with h | h
      · nlinarith
      · nlinarith
    rw [hc0] at hc
    omega
  · intro h; exact absurd (by simpa using hj) h

/-- Conjugate symmetry of the full spectrum. -/
theorem herm_conj (N : ℕ) (Y : ℕ → ℂ) (h0 : (Y 0).im = 0) (hny : ∀ m, 2 * m = N → (Y m).im = 0) (k : ℕ) (hk : k < N) :
    (starRingEnd ℂ) (herm N Y k) = herm N Y ((N - k) % N) := by
  have real : ∀ z : ℂ, z.im = 0 → (starRingEnd ℂ) z = z := fun z hz => Complex.conj_eq_iff_im.2 hz
  rcases Nat.eq_zero_or_pos k with rfl | hk0
  · simp only [Nat.sub_zero, Nat.mod_self]
    unfold herm
    simp only [Nat.zero_le, if_true]
    exact real _ h0
  · rw [Nat.mod_eq_of_lt (by omega)]
    unfold herm
    by_cases h1 : k ≤ N / 2
    · by_cases h2 : N - k ≤ N / 2
      · have : 2 * k = N := by omega
        rw [if_pos h1, if_pos h2]
        have e : N - k = k := by omega
        rw [e]
        exact real _ (hny k this)
      · rw [if_pos h1, if_neg h2]
        have e : N - (N - k) = k := by omega
        rw [e]
    · rw [if_neg h1, if_pos (by omega), Complex.conj_conj]

theorem sum_flip {M : Type*} [AddCommMonoid M] (N : ℕ) (hN : 0 < N) (f : ℕ → M) :
    ∑ k ∈ range N, f ((N - k) % N) = ∑ k ∈ range N, f k := by
  refine Finset.sum_nbij' (fun k => (N - k) % N) (fun k => (N - k) % N) ?_ ?_ ?_ ?_ ?_
  · intro k _; simpa using Nat.mod_lt _ hN
  · intro k _; simpa using Nat.mod_lt _ hN
  · intro k hk
    have hk : k < N := by simpa using hk
    rcases Nat.eq_zero_or_pos k with rfl | h
    · simp
    · rw [Nat.mod_eq_of_lt (by omega : N - k < N)]
      rw [Nat.mod_eq_of_lt (by omega)]; omega
  · intro k hk
    have hk : k < N := by simpa using hk
    rcases Nat.eq_zero_or_pos k with rfl | h
    · simp
    · rw [Nat.mod_eq_of_lt (by omega : N - k < N)]
      rw [Nat.mod_eq_of_lt (by omega)]; omega
  · intro k _; rfl

theorem irfftF_ofReal (N : ℕ) (Y : ℕ → ℂ) (h0 : (Y 0).im = 0) (hny : ∀ m, 2 * m = N → (Y m).im = 0) (t : ℕ) :
    ((irfftF N Y t : ℝ) : ℂ) = ∑ k ∈ range N, herm N Y k * ω N ((k : ℤ) * t) := by
  unfold irfftF
  rcases Nat.eq_zero_or_pos N with rfl | hN
  · simp
  rw [← Complex.conj_eq_iff_re, map_sum]
  rw [← sum_flip N hN fun k => herm N Y k * ω N ((k : ℤ) * t)]
  refine Finset.sum_congr rfl fun k hk => ?_
  have hk : k < N := by simpa using hk
  rw [map_mul, herm_conj N Y h0 hny k hk, ← ω_neg]
  congr 1
  rcases Nat.eq_zero_or_pos k with rfl | h
  · simp
  · rw [Nat.mod_eq_of_lt (by omega), Nat.cast_sub hk.le]
    rw [show ((N : ℤ) - k) * t = N * t + -((k : ℤ) * t) by ring, ω_add, ω_mul_self N hN, one_mul]

/-- `rfft` inverts `irfft` on half spectra with real DC and Nyquist bins. -/
theorem rfft_irfft (N : ℕ) (hN : 0 < N) (Y : ℕ → ℂ) (h0 : (Y 0).im = 0) (hny : ∀ m, 2 * m = N → (Y m).im = 0) (k : ℕ) (hk : k ≤ N / 2) :
    rfft N (irfft N Y) k = Y k := by
  have hN' : (N : ℂ) ≠ 0 := by exact_mod_cast hN.ne'
  have hkN : k < N := by omega
  unfold rfft
  have : (fun t => ((irfft N Y t : ℝ) : ℂ)) = fun (t : ℕ) => ((N : ℂ)⁻¹) * ∑ k ∈ range N, herm N Y k * ω N ((k : ℤ) * t) := by
    funext t
    unfold irfft
    rw [Complex.ofReal_div, irfftF_ofReal N Y h0 hny, Complex.ofReal_natCast, div_eq_inv_mul]
  rw [this, dft_mul_left, dft_idft N _ k hkN, inv_mul_cancel_left₀ hN']
  unfold herm
  rw [if_pos hk]

/-- The half spectrum as the inverse transform sees it: the imaginary parts of the DC and Nyquist bins dropped. -/
noncomputable def realEnds (N : ℕ) (Y : ℕ → ℂ) (k : ℕ) : ℂ := if k = 0 ∨ 2 * k = N then ((Y k).re : ℂ) else Y k

theorem irfftF_realEnds (N : ℕ) (Y : ℕ → ℂ) (t : ℕ) : irfftF N (realEnds N Y) t = irfftF N Y t := by
  unfold irfftF
  rw [Complex.re_sum, Complex.re_sum]
  refine Finset.sum_congr rfl fun k hk => ?_
  have hkN : k < N := by simpa using hk
  have hN : 0 < N := by omega
  by_cases h : k = 0 ∨ 2 * k = N
  · have hle : k ≤ N / 2 := by omega
    have hω : (ω N ((k : ℤ) * t)).im = 0 := by
      rw [← Complex.conj_eq_iff_im, ← ω_neg]
      rcases h with rfl | h
      · simp
      · have e : -((k : ℤ) * t) = (k : ℤ) * t + N * (-t) := by
          have : (N : ℤ) = 2 * k := by exact_mod_cast h.symm
          rw [this]; ring
        rw [e, ω_add, ω_mul_self N hN, mul_one]
    unfold herm realEnds
    rw [if_pos hle, if_pos hle, if_pos h, Complex.mul_re, Complex.mul_re, hω]
    simp
  · unfold herm realEnds
    split_ifs with h1 h2 h3
    · rfl
    · omega
    · rfl

/-- Energy of an inverse transform. -/
theorem irfft_energy (N : ℕ) (hN : 0 < N) (Y : ℕ → ℂ) :
    N * ∑ t ∈ range N, irfft N Y t ^ 2 =
      ∑ k ∈ range (N / 2 + 1), (if k = 0 ∨ 2 * k = N then 1 else 2) * ‖realEnds N Y k‖ ^ 2 := by
  rw [← rfft_parseval N hN (irfft N Y)]
  refine Finset.sum_congr rfl fun k hk => ?_
  have hk' : k ≤ N / 2 := by have := Finset.mem_range.1 hk; omega
  have e : irfft N Y = irfft N (realEnds N Y) := by
    funext t; unfold irfft; rw [irfftF_realEnds]
  rw [e, rfft_irfft N hN _ (by simp [realEnds]) (by intro m hm; simp [realEnds, hm]) k hk']

/-- The spectrum of an inverse transform. -/
theorem rfft_irfft_ends (N : ℕ) (hN : 0 < N) (Y : ℕ → ℂ) (k : ℕ) (hk : k ≤ N / 2) :
    rfft N (irfft N Y) k = realEnds N Y k := by
  have e : irfft N Y = irfft N (realEnds N Y) := by
    funext t; unfold irfft; rw [irfftF_realEnds]
  rw [e, rfft_irfft N hN _ (by simp [realEnds]) (by intro m hm; simp [realEnds, hm]) k hk]

end Verif.Fourier
