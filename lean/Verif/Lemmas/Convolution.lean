import Verif.Lemmas.Fourier
import Mathlib.Algebra.BigOperators.Intervals
/-!
# The convolution theorem for zero-padded signals
-/
namespace Verif.Fourier
open Finset

/-- Causal (linear) convolution. -/
noncomputable def causal (k u : ℕ → ℝ) (t : ℕ) : ℝ := ∑ a ∈ range (t + 1), k (t - a) * u a

theorem dft_causal (L : ℕ) (k u : ℕ → ℝ) (hk : ∀ t, L ≤ t → k t = 0) (hu : ∀ t, L ≤ t → u t = 0) (m : ℕ) :
    rfft (2 * L) (causal k u) m = rfft (2 * L) u m * rfft (2 * L) k m := by
  have half : ∀ f : ℕ → ℝ, (∀ t, L ≤ t → f t = 0) → rfft (2 * L) f m = ∑ a ∈ range L, (f a : ℂ) * ω (2 * L) (-((m : ℤ) * a)) := by
    intro f hf
    unfold rfft dft
    symm
    apply Finset.sum_subset
    · intro a ha; simp at ha ⊢; omega
    · intro a _ ha
      have : L ≤ a := by simpa using ha
      simp [hf a this]
  rw [half u hu, half k hk, Finset.sum_mul]
  unfold rfft dft causal
  have h1 : ∀ t ∈ range (2 * L), (((∑ a ∈ range (t + 1), k (t - a) * u a : ℝ)) : ℂ) * ω (2 * L) (-((m : ℤ) * t)) =
      ∑ a ∈ range L, if a ≤ t then ((k (t - a) : ℂ) * u a) * ω (2 * L) (-((m : ℤ) * t)) else 0 := by
    intro t ht
    push_cast
    rw [Finset.sum_mul, ← Finset.sum_filter]
    rw [← Finset.sum_subset (s₁ := (range L).filter (· ≤ t)) (s₂ := range (t + 1))]
    · intro a ha
      simp at ha ⊢; omega
    · intro a ha hb
      have : L ≤ a := by simp at ha hb; by_contra h; have := hb (by omega); omega
      simp [hu a this]
  rw [Finset.sum_congr rfl h1, Finset.sum_comm]
  refine Finset.sum_congr rfl fun a ha => ?_
  have ha' : a < L := by simpa using ha
  rw [← Finset.sum_filter]
  have h2 : (range (2 * L)).filter (a ≤ ·) = Finset.Ico a (2 * L) := by
    ext t; simp; omega
  rw [h2, Finset.sum_Ico_eq_sum_range, Finset.mul_sum]
  symm
  rw [← Finset.sum_subset (s₁ := range L) (s₂ := range (2 * L - a))]
  · refine Finset.sum_congr rfl fun b _ => ?_
    rw [show a + b - a = b by omega]
    have : -((m : ℤ) * ((a + b : ℕ) : ℤ)) = -((m : ℤ) * a) + -((m : ℤ) * b) := by push_cast; ring
    rw [this, ω_add]
    ring
  · intro b hb; simp at hb ⊢; omega
  · intro b _ hb
    have : L ≤ b := by simpa using hb
    rw [show a + b - a = b by omega, hk b this]
    simp

/-- `irfft(rfft(u, 2L) * rfft(k, 2L), 2L)` is the causal convolution: the zero padding prevents wrap-around. -/
theorem irfft_conv (L : ℕ) (k u : ℕ → ℝ) (hk : ∀ t, L ≤ t → k t = 0) (hu : ∀ t, L ≤ t → u t = 0) (t : ℕ) (ht : t < 2 * L) :
    irfft (2 * L) (fun m => rfft (2 * L) u m * rfft (2 * L) k m) t = causal k u t := by
  have : (fun m => rfft (2 * L) u m * rfft (2 * L) k m) = rfft (2 * L) (causal k u) := by
    funext m
    rw [dft_causal L k u hk hu m]
  rw [this, irfft_rfft _ _ _ ht]

end Verif.Fourier
