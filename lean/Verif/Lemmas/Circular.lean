import Verif.Lemmas.FourierInv
/-!
# Circular convolution
-/
namespace Verif.Fourier
open Finset

theorem ω_mod (N : ℕ) (hN : 0 < N) (k : ℤ) (a : ℕ) : ω N (k * ((a % N : ℕ) : ℤ)) = ω N (k * a) := by
  have h : ((N * (a / N) + a % N : ℕ) : ℤ) = a := by exact_mod_cast Nat.div_add_mod a N
  have e : k * (a : ℤ) = k * ((a % N : ℕ) : ℤ) + N * (k * ((a / N : ℕ) : ℤ)) := by
    rw [← h, Nat.cast_add, Nat.cast_mul]; ring
  rw [e, ω_add, ω_mul_self N hN, mul_one]

/-- Reindexing a sum over all residues by a shift. -/
theorem sum_shift {M : Type*} [AddCommMonoid M] (N s : ℕ) (hs : s < N) (f : ℕ → M) :
    ∑ t ∈ range N, f ((t + N - s) % N) = ∑ t ∈ range N, f t := by
  have hN : 0 < N := by omega
  refine Finset.sum_nbij' (fun t => (t + N - s) % N) (fun t => (t + s) % N) ?_ ?_ ?_ ?_ ?_
  · intro t _; simpa using Nat.mod_lt _ hN
  · intro t _; simpa using Nat.mod_lt _ hN
  · intro t ht
    have ht : t < N := by simpa using ht
    rcases Nat.lt_or_ge t s with h | h
    · rw [Nat.mod_eq_of_lt (by omega : t + N - s < N), show t + N - s + s = t + N by omega, Nat.add_mod_right, Nat.mod_eq_of_lt ht]
    · rw [show t + N - s = (t - s) + N by omega, Nat.add_mod_right, Nat.mod_eq_of_lt (by omega : t - s < N), show t - s + s = t by omega, Nat.mod_eq_of_lt ht]
  · intro t ht
    have ht : t < N := by simpa using ht
    rcases Nat.lt_or_ge (t + s) N with h | h
    · rw [Nat.mod_eq_of_lt h, show t + s + N - s = t + N by omega, Nat.add_mod_right, Nat.mod_eq_of_lt ht]
    · rw [show t + s = (t + s - N) + N by omega, Nat.add_mod_right, Nat.mod_eq_of_lt (by omega : t + s - N < N),
        show t + s - N + N - s = t by omega, Nat.mod_eq_of_lt ht]
  · intro t _; rfl

/-- The circular convolution theorem. -/
theorem circular (N : ℕ) (x g : ℕ → ℝ) (k : ℕ) :
    rfft N (fun t => ∑ s ∈ range N, x s * g ((t + N - s) % N)) k = rfft N x k * rfft N g k := by
  rcases Nat.eq_zero_or_pos N with rfl | hN
  · simp [rfft, dft]
  unfold rfft dft
  rw [Finset.sum_mul]
  push_cast
  simp only [Finset.sum_mul]
  rw [Finset.sum_comm]
  refine Finset.sum_congr rfl fun s hs => ?_
  have hs : s < N := by simpa using hs
  rw [← sum_shift N s hs fun t => (g t : ℂ) * ω N (-((k : ℤ) * t)), Finset.mul_sum]
  refine Finset.sum_congr rfl fun t _ => ?_
  have h1 : ω N (-((k : ℤ) * ((t + N - s) % N : ℕ))) = ω N (-((k : ℤ) * t)) * ω N ((k : ℤ) * s) := by
    rw [← neg_mul, ω_mod N hN, ← ω_add]
    have e : -(k : ℤ) * ((t + N - s : ℕ) : ℤ) = -((k : ℤ) * t) + (k : ℤ) * s + N * (-k) := by
      rw [Nat.cast_sub (by omega), Nat.cast_add]; ring
    rw [e, ω_add _ _ (N * -(k : ℤ)), ω_mul_self N hN, mul_one]
  rw [h1]
  have h2 : ω N (-((k : ℤ) * s)) * ω N ((k : ℤ) * s) = 1 := by rw [← ω_add, neg_add_cancel, ω_zero]
  linear_combination -((x s : ℂ) * (g ((t + N - s) % N)) * ω N (-((k : ℤ) * t))) * h2

/-- Filtering with the spectrum of a real sequence is circular convolution with it. -/
theorem irfft_circular (N : ℕ) (x g : ℕ → ℝ) (Y : ℕ → ℂ) (hY : ∀ k ≤ N / 2, Y k = rfft N g k) (t : ℕ) (ht : t < N) :
    irfft N (fun k => rfft N x k * Y k) t = ∑ s ∈ range N, x s * g ((t + N - s) % N) := by
  rw [← irfft_rfft N (fun t => ∑ s ∈ range N, x s * g ((t + N - s) % N)) t ht]
  unfold irfft
  congr 1
  unfold irfftF
  congr 1
  refine Finset.sum_congr rfl fun k _ => ?_
  congr 1
  unfold herm
  split_ifs with h
  · dsimp only; rw [circular, hY k h]
  · dsimp only; rw [circular, hY (N - k) (by omega)]

/-- The spectrum of an even real sequence is real. -/
theorem rfft_even (N : ℕ) (hN : 0 < N) (g : ℕ → ℝ) (hg : ∀ t < N, g ((N - t) % N) = g t) (k : ℕ) : (rfft N g k).im = 0 := by
  rw [← Complex.conj_eq_iff_im]
  unfold rfft dft
  rw [map_sum]
  rw [← sum_flip N hN fun t => (g t : ℂ) * ω N (-((k : ℤ) * t))]
  refine Finset.sum_congr rfl fun t ht => ?_
  have ht : t < N := by simpa using ht
  rw [hg t ht, map_mul, Complex.conj_ofReal, ← ω_neg, neg_neg, ← neg_mul, ω_mod N hN]
  congr 1
  rw [Nat.cast_sub ht.le, mul_sub, sub_eq_add_neg, ω_add, neg_mul, mul_comm (k : ℤ) N, ← mul_neg, ω_mul_self N hN, one_mul, neg_mul, neg_neg]

/-- The inverse transform of a real half spectrum is even. -/
theorem irfftF_even (N : ℕ) (hN : 0 < N) (a : ℕ → ℝ) (t : ℕ) (ht : t < N) :
    irfftF N (fun k => (a k : ℂ)) ((N - t) % N) = irfftF N (fun k => (a k : ℂ)) t := by
  unfold irfftF
  rw [Complex.re_sum, Complex.re_sum]
  refine Finset.sum_congr rfl fun k _ => ?_
  have h : ω N ((k : ℤ) * ((N - t) % N : ℕ)) = (starRingEnd ℂ) (ω N ((k : ℤ) * t)) := by
    rw [ω_mod N hN, ← ω_neg, Nat.cast_sub ht.le, mul_sub, sub_eq_add_neg, ω_add, mul_comm (k : ℤ) N, ω_mul_self N hN, one_mul]
  have hr : ∃ r : ℝ, herm N (fun k => (a k : ℂ)) k = r := by
    unfold herm
    split_ifs
    · exact ⟨_, rfl⟩
    · exact ⟨_, Complex.conj_ofReal _⟩
  obtain ⟨r, hr⟩ := hr
  rw [h, hr]
  simp

end Verif.Fourier
