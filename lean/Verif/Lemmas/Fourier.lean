import Verif.Fourier
import Mathlib.Algebra.BigOperators.Ring.Finset
import Mathlib.Algebra.BigOperators.Intervals
import Mathlib.Algebra.Field.GeomSum
import Mathlib.Tactic.FieldSimp
import Mathlib.Tactic.Ring
import Mathlib.Tactic.NormNum
import Mathlib.Tactic.Linarith
/-! Facts about the discrete Fourier transform. -/
namespace Verif.Fourier
open Finset Complex

theorem ω_zero (N : ℕ) : ω N 0 = 1 := by simp [ω]

theorem ω_add (N : ℕ) (a b : ℤ) : ω N (a + b) = ω N a * ω N b := by
  rw [ω, ω, ω, ← Complex.exp_add]; congr 1; push_cast; ring

theorem ω_neg (N : ℕ) (a : ℤ) : ω N (-a) = (starRingEnd ℂ) (ω N a) := by
  rw [ω, ω, ← Complex.exp_conj]; congr 1
  simp [Complex.conj_ofReal, map_ofNat]

theorem ω_mul_self (N : ℕ) (hN : 0 < N) (m : ℤ) : ω N (N * m) = 1 := by
  have hN' : (N : ℂ) ≠ 0 := by exact_mod_cast hN.ne'
  rw [ω, Complex.exp_eq_one_iff]
  exact ⟨m, by push_cast; field_simp⟩

theorem ω_ne_zero (N : ℕ) (m : ℤ) : ω N m ≠ 0 := Complex.exp_ne_zero _

theorem ω_norm (N : ℕ) (m : ℤ) : ‖ω N m‖ = 1 := by
  have : (2 * Real.pi * Complex.I * m / N : ℂ) = ((2 * Real.pi * m / N : ℝ) : ℂ) * Complex.I := by
    push_cast; ring
  rw [ω, this, Complex.norm_exp_ofReal_mul_I]

theorem ω_normSq (N : ℕ) (m : ℤ) : ω N m * (starRingEnd ℂ) (ω N m) = 1 := by
  rw [← ω_neg, ← ω_add]; simp [ω_zero]

theorem ω_pow (N : ℕ) (m : ℤ) (k : ℕ) : ω N ((k : ℤ) * m) = ω N m ^ k := by
  induction k with
  | zero => simp [ω_zero]
  | succ n ih => rw [pow_succ, ← ih, ← ω_add]; congr 1; push_cast; ring

theorem ω_eq_one_iff (N : ℕ) (hN : 0 < N) (m : ℤ) : ω N m = 1 ↔ (N : ℤ) ∣ m := by
  have hN' : (N : ℂ) ≠ 0 := by exact_mod_cast hN.ne'
  have hpi : (2 * Real.pi * Complex.I : ℂ) ≠ 0 := Complex.two_pi_I_ne_zero
  rw [ω, Complex.exp_eq_one_iff]
  constructor
  · rintro ⟨n, hn⟩
    refine ⟨n, ?_⟩
    have : (m : ℂ) = N * n := by
      field_simp at hn
      have h2 : (2 * Real.pi * Complex.I : ℂ) * (m - N * n) = 0 := by
        linear_combination (2 * Real.pi * Complex.I : ℂ) * hn
      rcases mul_eq_zero.1 h2 with h | h
      · exact absurd h hpi
      · linear_combination h
    exact_mod_cast this
  · rintro ⟨n, rfl⟩
    exact ⟨n, by push_cast; field_simp⟩

/-- Orthogonality of the characters. -/
theorem sum_ω (N : ℕ) (hN : 0 < N) (m : ℤ) :
    ∑ k ∈ range N, ω N ((k : ℤ) * m) = if (N : ℤ) ∣ m then (N : ℂ) else 0 := by
  simp only [ω_pow]
  split_ifs with h
  · rw [(ω_eq_one_iff N hN m).2 h]; simp
  · have h1 : ω N m ≠ 1 := fun h1 => h ((ω_eq_one_iff N hN m).1 h1)
    rw [geom_sum_eq h1, ← ω_pow, ω_mul_self N hN]; simp

theorem dft_inv (N : ℕ) (x : ℕ → ℂ) (s : ℕ) (hs : s < N) :
    ∑ k ∈ range N, dft N x k * ω N ((k : ℤ) * s) = N * x s := by
  have hN : 0 < N := by omega
  have : ∀ k ∈ range N, dft N x k * ω N ((k : ℤ) * s) =
      ∑ t ∈ range N, x t * ω N ((k : ℤ) * ((s : ℤ) - t)) := by
    intro k _
    rw [dft, Finset.sum_mul]
    refine Finset.sum_congr rfl fun t _ => ?_
    rw [mul_assoc, ← ω_add]; congr 2; ring
  rw [Finset.sum_congr rfl this, Finset.sum_comm]
  simp only [← Finset.mul_sum, sum_ω N hN]
  rw [Finset.sum_eq_single s]
  · simp; ring
  · intro t ht hts
    have ht' : t < N := by simpa using ht
    have : ¬ ((N : ℤ) ∣ (s : ℤ) - t) := by
      intro h
      have := Int.eq_zero_of_abs_lt_dvd h (by rw [abs_lt]; omega)
      omega
    simp [this]
  · intro h; exact absurd (Finset.mem_range.2 hs) h

theorem dft_add (N : ℕ) (x y : ℕ → ℂ) (k : ℕ) :
    dft N (fun t => x t + y t) k = dft N x k + dft N y k := by
  simp only [dft, add_mul, Finset.sum_add_distrib]

theorem dft_mul_left (N : ℕ) (a : ℂ) (x : ℕ → ℂ) (k : ℕ) :
    dft N (fun t => a * x t) k = a * dft N x k := by
  simp only [dft, mul_assoc, Finset.mul_sum]

theorem dft_congr (N : ℕ) (x y : ℕ → ℂ) (h : ∀ t < N, x t = y t) (k : ℕ) :
    dft N x k = dft N y k :=
  Finset.sum_congr rfl fun t ht => by rw [h t (by simpa using ht)]

theorem rfft_add (N : ℕ) (x y : ℕ → ℝ) (k : ℕ) :
    rfft N (fun t => x t + y t) k = rfft N x k + rfft N y k := by
  simp only [rfft, Complex.ofReal_add, dft_add]

theorem rfft_mul_left (N : ℕ) (a : ℝ) (x : ℕ → ℝ) (k : ℕ) :
    rfft N (fun t => a * x t) k = a * rfft N x k := by
  simp only [rfft, Complex.ofReal_mul, dft_mul_left]

theorem rfft_congr (N : ℕ) (x y : ℕ → ℝ) (h : ∀ t < N, x t = y t) (k : ℕ) :
    rfft N x k = rfft N y k :=
  dft_congr N _ _ (fun t ht => by rw [h t ht]) k

theorem rfft_zero (N : ℕ) (x : ℕ → ℝ) : rfft N x 0 = ((∑ t ∈ range N, x t : ℝ) : ℂ) := by
  simp [rfft, dft, ω_zero]

/-- Conjugate symmetry of the spectrum of a real signal. -/
theorem rfft_symm (N : ℕ) (x : ℕ → ℝ) (k : ℕ) (hk : k ≤ N) (hN : 0 < N) :
    (starRingEnd ℂ) (rfft N x (N - k)) = rfft N x k := by
  simp only [rfft, dft, map_sum, map_mul, Complex.conj_ofReal, ← ω_neg, neg_neg]
  refine Finset.sum_congr rfl fun t _ => ?_
  have : ((N - k : ℕ) : ℤ) * t = N * (t : ℤ) + -((k : ℤ) * t) := by
    rw [Nat.cast_sub hk]; ring
  rw [this, ω_add, ω_mul_self N hN, one_mul]

theorem herm_rfft (N : ℕ) (x : ℕ → ℝ) (k : ℕ) (hk : k < N) : herm N (rfft N x) k = rfft N x k := by
  unfold herm
  split_ifs with h
  · rfl
  · exact rfft_symm N x k hk.le (by omega)

/-- `irfft(rfft(x), n=N) = x`. -/
theorem irfftF_rfft (N : ℕ) (x : ℕ → ℝ) (t : ℕ) (ht : t < N) : irfftF N (rfft N x) t = N * x t := by
  unfold irfftF
  rw [Finset.sum_congr rfl fun k hk => by rw [herm_rfft N x k (by simpa using hk)]]
  unfold rfft
  rw [dft_inv N _ t ht]
  simp

theorem irfft_rfft (N : ℕ) (x : ℕ → ℝ) (t : ℕ) (ht : t < N) : irfft N (rfft N x) t = x t := by
  have hN : (N : ℝ) ≠ 0 := by
    have : 0 < N := by omega
    positivity
  rw [irfft, irfftF_rfft N x t ht]; field_simp

/-- Parseval for the full transform. -/
theorem dft_parseval (N : ℕ) (x : ℕ → ℂ) :
    ∑ k ∈ range N, ‖dft N x k‖ ^ 2 = N * ∑ t ∈ range N, ‖x t‖ ^ 2 := by
  have key : ∑ k ∈ range N, dft N x k * (starRingEnd ℂ) (dft N x k) =
      N * ∑ t ∈ range N, x t * (starRingEnd ℂ) (x t) := by
    have h1 : ∀ k ∈ range N, dft N x k * (starRingEnd ℂ) (dft N x k) =
        ∑ s ∈ range N, (starRingEnd ℂ) (x s) * (dft N x k * ω N ((k : ℤ) * s)) := by
      intro k _
      have : (starRingEnd ℂ) (dft N x k) = ∑ s ∈ range N, (starRingEnd ℂ) (x s) * ω N ((k : ℤ) * s) := by
        simp only [dft, map_sum, map_mul, ← ω_neg, neg_neg]
      rw [this, Finset.mul_sum]
      exact Finset.sum_congr rfl fun s _ => by ring
    rw [Finset.sum_congr rfl h1, Finset.sum_comm]
    simp only [← Finset.mul_sum]
    rw [Finset.mul_sum]
    refine Finset.sum_congr rfl fun s hs => ?_
    rw [dft_inv N x s (by simpa using hs)]; ring
  simp only [Complex.mul_conj, Complex.normSq_eq_norm_sq] at key
  exact_mod_cast key

/-- Summing a symmetric function over all `N` bins: every bin but DC and Nyquist counts twice. -/
theorem sum_half {M : Type*} [AddCommMonoid M] (N : ℕ) (hN : 0 < N) (f : ℕ → M)
    (hf : ∀ k, 0 < k → k < N → f (N - k) = f k) :
    ∑ k ∈ range N, f k =
      ∑ k ∈ range (N / 2 + 1), if k = 0 ∨ 2 * k = N then f k else f k + f k := by
  have h1 : ∑ k ∈ range N, f k = f 0 + ∑ k ∈ range (N - 1), f (k + 1) := by
    obtain ⟨n, rfl⟩ : ∃ n, N = n + 1 := ⟨N - 1, by omega⟩
    rw [Finset.sum_range_succ', add_comm]; rfl
  rw [h1, Finset.sum_range_succ']
  simp only [true_or, if_true]
  rw [add_comm (f 0)]
  congr 1
  rcases Nat.even_or_odd' N with ⟨m, hm | hm⟩
  · -- N = 2m
    have hm0 : 0 < m := by omega
    have e1 : N - 1 = (m - 1) + 1 + (m - 1) := by omega
    have e2 : N / 2 = (m - 1) + 1 := by omega
    rw [e1, e2, Finset.sum_range_add, Finset.sum_range_succ, Finset.sum_range_succ]
    have h2 : ∑ x ∈ range (m - 1), f (m - 1 + 1 + x + 1) = ∑ x ∈ range (m - 1), f (x + 1) := by
      rw [← Finset.sum_range_reflect]
      refine Finset.sum_congr rfl fun x hx => ?_
      have hx' : x < m - 1 := by simpa using hx
      rw [← hf (x + 1) (by omega) (by omega)]
      congr 1; omega
    have h3 : ∀ x ∈ range (m - 1), (if x + 1 = 0 ∨ 2 * (x + 1) = N then f (x + 1) else f (x + 1) + f (x + 1))
        = f (x + 1) + f (x + 1) := by
      intro x hx
      have hx' : x < m - 1 := by simpa using hx
      rw [if_neg (by omega)]
    rw [Finset.sum_congr rfl h3, Finset.sum_add_distrib, h2, if_pos (by omega)]
    abel
  · have e1 : N - 1 = m + m := by omega
    have e2 : N / 2 = m := by omega
    rw [e1, e2, Finset.sum_range_add]
    have h2 : ∑ x ∈ range m, f (m + x + 1) = ∑ x ∈ range m, f (x + 1) := by
      rw [← Finset.sum_range_reflect]
      refine Finset.sum_congr rfl fun x hx => ?_
      have hx' : x < m := by simpa using hx
      rw [← hf (x + 1) (by omega) (by omega)]
      congr 1; omega
    have h3 : ∀ x ∈ range m, (if x + 1 = 0 ∨ 2 * (x + 1) = N then f (x + 1) else f (x + 1) + f (x + 1))
        = f (x + 1) + f (x + 1) := by
      intro x hx
      rw [if_neg (by omega)]
    rw [Finset.sum_congr rfl h3, Finset.sum_add_distrib, h2]

/-- Parseval for the one-sided spectrum. -/
theorem rfft_parseval (N : ℕ) (hN : 0 < N) (x : ℕ → ℝ) :
    ∑ k ∈ range (N / 2 + 1), (if k = 0 ∨ 2 * k = N then 1 else 2) * ‖rfft N x k‖ ^ 2 =
      N * ∑ t ∈ range N, x t ^ 2 := by
  have h := dft_parseval N (fun t => (x t : ℂ))
  rw [sum_half N hN] at h
  · simp only [Complex.norm_real, Real.norm_eq_abs, sq_abs] at h
    rw [← h]
    refine Finset.sum_congr rfl fun k _ => ?_
    split_ifs
    · rw [one_mul]; rfl
    · rw [two_mul]; rfl
  · intro k hk hkN
    have := rfft_symm N x k hkN.le hN
    rw [show dft N (fun t => (x t : ℂ)) (N - k) = rfft N x (N - k) from rfl,
      show dft N (fun t => (x t : ℂ)) k = rfft N x k from rfl, ← this]
    simp

end Verif.Fourier
