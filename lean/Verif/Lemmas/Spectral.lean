import Verif.Model.Spectral
import Verif.Spec.Spectral
import Verif.Lemmas.Fourier
import Verif.Lemmas.Unfold
import Mathlib.Data.List.GetD
set_option linter.unusedSimpArgs false
namespace Verif.Spectral
open Finset Verif.Fourier Spec Classical

theorem medianBias_eq (n : ℕ) : medianBias n = 1 + ∑ i ∈ range ((n - 1) / 2),
    (1 / ((2 * (i + 1) : Nat) + 1 : ℝ) - 1 / ((2 * (i + 1) : Nat) : ℝ)) := rfl

theorem altSum (m : ℕ) : (∑ i ∈ range (2 * m + 1), (-1 : ℝ) ^ i / ((i + 1 : ℕ) : ℝ)) =
    1 + ∑ i ∈ range m, (1 / ((2 * (i + 1) : Nat) + 1 : ℝ) - 1 / ((2 * (i + 1) : Nat) : ℝ)) := by
  induction m with
  | zero => simp
  | succ m ih =>
    rw [show 2 * (m + 1) + 1 = (2 * m + 1) + 1 + 1 by ring, Finset.sum_range_succ, Finset.sum_range_succ, ih,
      Finset.sum_range_succ]
    have h1 : (-1 : ℝ) ^ (2 * m + 1) = -1 := by rw [pow_succ, pow_mul]; norm_num
    have h2 : (-1 : ℝ) ^ (2 * m + 1 + 1) = 1 := by rw [pow_succ, h1]; norm_num
    rw [h1, h2]
    push_cast
    ring

theorem medianBias_altHarmonic (n : ℕ) (hn : 0 < n) : medianBias n = Welch.altHarmonic n := by
  unfold Welch.altHarmonic
  have : (if n % 2 = 1 then n else n - 1) = 2 * ((n - 1) / 2) + 1 := by split_ifs <;> omega
  rw [this, altSum]; rfl

theorem medianBias_le (n : ℕ) : medianBias n ≤ 1 := by
  unfold medianBias
  have : ∑ i ∈ range ((n - 1) / 2), (1 / ((2 * (i + 1) : Nat) + 1 : ℝ) - 1 / ((2 * (i + 1) : Nat) : ℝ)) ≤ 0 := by
    apply Finset.sum_nonpos
    intro i _
    have : (0:ℝ) < ((2 * (i + 1) : Nat) : ℝ) := by positivity
    have := one_div_le_one_div_of_le this (by linarith : ((2 * (i + 1) : Nat) : ℝ) ≤ ((2 * (i + 1) : Nat) : ℝ) + 1)
    linarith
  linarith

theorem medianBias_gt (n : ℕ) : 1 / 2 < medianBias n := by
  unfold medianBias
  -- each term is at least -(1/2)(1/(i+1) - 1/(i+2))
  have key : ∀ m : ℕ, 1 / 2 + 1 / (2 * ((m : ℝ) + 1)) ≤
      1 + ∑ i ∈ range m, (1 / ((2 * (i + 1) : Nat) + 1 : ℝ) - 1 / ((2 * (i + 1) : Nat) : ℝ)) := by
    intro m
    induction m with
    | zero => norm_num
    | succ m ih =>
      rw [Finset.sum_range_succ]
      have hm : (0:ℝ) ≤ m := Nat.cast_nonneg m
      have : 1 / (2 * (((m + 1 : ℕ) : ℝ) + 1)) ≤ 1 / (2 * ((m : ℝ) + 1)) +
          (1 / ((2 * (m + 1) : Nat) + 1 : ℝ) - 1 / ((2 * (m + 1) : Nat) : ℝ)) := by
        push_cast
        have h1 : 1 / (2 * ((m : ℝ) + 1)) + (1 / (2 * ((m : ℝ) + 1) + 1) - 1 / (2 * ((m : ℝ) + 1))) =
          1 / (2 * ((m : ℝ) + 1) + 1) := by ring
        rw [h1]
        apply one_div_le_one_div_of_le <;> linarith
      linarith
  have := key ((n - 1) / 2)
  have h2 : (0:ℝ) < 1 / (2 * ((((n - 1) / 2 : ℕ) : ℝ) + 1)) := by positivity
  linarith

theorem aggregate_eq (average : String) (S : ℕ) (hS : 0 < S) (f : ℕ → ℝ) :
    aggregate average ((List.range S).map f) = Welch.combine average S f := by
  unfold aggregate Welch.combine Welch.mean median
  simp only [List.length_map, List.length_range]
  split_ifs with h
  · congr 1
  · rw [medianBias_altHarmonic S hS]; rfl

theorem binFactor_eq (N k : ℕ) (hk : k < N / 2 + 1) (scale : ℝ) :
    binFactor (N : Int) (N / 2 + 1) scale k = scale * Welch.oneSided N k := by
  unfold binFactor Welch.oneSided
  by_cases h : k = 0 ∨ 2 * k = N
  · rw [if_pos h, if_neg (by omega)]; ring
  · rw [if_neg h, if_pos (by omega)]; ring

/-- Lines 307-334 of `spectral_density` on the expanded tensor. -/
theorem slow_core (x4 : Tensor ℝ) (window : Tensor ℝ) (b c n N hop : ℕ) (scale : ℝ)
    (hx : x4.shape = [b, c, 1, n * hop + N]) (hc : 0 < c) (hN : 0 < N) (hhop : 0 < hop)
    (hw : window.shape = [N]) :
    ∃ u v, x4.unfold1 ((n : Int) + 1) hop = .ok u ∧ mulWindow (demean u) window = .ok v ∧
      (powerLast v N scale).shape = [b, c * (n + 1), N / 2 + 1] ∧
      ∀ i j s k, j < c → s < n + 1 → k < N / 2 + 1 →
        (powerLast v N scale).get [i, j * (n + 1) + s, k] =
          scale * Welch.oneSided N k * ‖Welch.spec N (fun t => window.get [t])
            (fun t => Welch.segment hop (fun t => x4.get [i, j, 0, t]) s t -
              Welch.mean N (Welch.segment hop (fun t => x4.get [i, j, 0, t]) s)) k‖ ^ 2 := by
  have h1 := Tensor.unfold1_ok x4 b c (n * hop + N) (n + 1) hop N hx (by omega) hhop hc hN
    (by rw [Nat.add_sub_cancel, Nat.mul_comm hop]; omega)
  push_cast at h1
  refine ⟨_, _, h1, by unfold mulWindow demean; rw [if_pos (by simpa using hw)], by
    simp [powerLast], ?_⟩
  intro i j s k hj hs hk
  simp only [powerLast, List.getLastD_cons, List.getLastD_nil, List.dropLast,
    List.getLastD, List.getLast, List.cons_append, List.nil_append, binFactor_eq N k hk]
  rw [mul_comm]
  congr 3
  unfold Welch.spec
  refine rfft_congr N _ _ (fun t ht => ?_) k
  simp only [demean, Tensor.meanAt, List.dropLast, List.getLastD, List.getLast, List.cons_append,
    List.nil_append, List.getD_cons_zero, List.getD_cons_succ, idx_div j hs, idx_mod j hs,
    Welch.segment, Welch.mean, Nat.add_comm _ (s * hop)]
  ring

theorem combine_congr (average : String) (S : ℕ) (f g : ℕ → ℝ) (h : ∀ s < S, f s = g s) :
    Welch.combine average S f = Welch.combine average S g := by
  have h1 : ∑ s ∈ range S, f s = ∑ s ∈ range S, g s :=
    Finset.sum_congr rfl fun s hs => h s (by simpa using hs)
  have h2 : (List.range S).map f = (List.range S).map g :=
    List.map_congr_left fun s hs => h s (by simpa using hs)
  unfold Welch.combine Welch.mean
  rw [h1, h2]

theorem list_re_sum (l : List ℂ) : l.sum.re = (l.map Complex.re).sum := by
  induction l with
  | nil => simp
  | cons a l ih => simp [ih]

theorem list_im_sum (l : List ℂ) : l.sum.im = (l.map Complex.im).sum := by
  induction l with
  | nil => simp
  | cons a l ih => simp [ih]

theorem cross_aggregate (average : String) (S : ℕ) (hS : 0 < S) (z : ℕ → ℂ) :
    (if average = "mean" then ((List.range S).map z).sum / (S : ℂ)
      else (median (((List.range S).map z).map Complex.re) : ℂ) +
        Complex.I * (median (((List.range S).map z).map Complex.im) : ℂ)) =
    ⟨Welch.combine average S fun s => (z s).re, Welch.combine average S fun s => (z s).im⟩ := by
  rw [← aggregate_eq average S hS, ← aggregate_eq average S hS]
  unfold aggregate
  split_ifs with h
  · apply Complex.ext
    · rw [Complex.div_natCast_re, list_re_sum]; simp [Function.comp_def]
    · rw [Complex.div_natCast_im, list_im_sum]; simp [Function.comp_def]
  · apply Complex.ext <;> simp [Function.comp_def]

theorem auto_aggregate (average : String) (S : ℕ) (hS : 0 < S) (z : ℕ → ℝ) :
    (if average = "mean" then ((List.range S).map fun s => (z s : ℂ)).sum / (S : ℂ)
      else (median (((List.range S).map fun s => (z s : ℂ)).map Complex.re) : ℂ)) =
    ((Welch.combine average S z : ℝ) : ℂ) := by
  rw [← aggregate_eq average S hS]
  unfold aggregate
  split_ifs with h
  · apply Complex.ext
    · rw [Complex.div_natCast_re, list_re_sum]; simp [Function.comp_def]
    · rw [Complex.div_natCast_im, list_im_sum]; simp [Function.comp_def]
  · simp [Function.comp_def]

theorem demean_get (x : Tensor ℝ) (lead : List Nat) (T : ℕ) (hx : x.shape = lead ++ [T]) (i : List Nat) (t : ℕ) :
    (demean x).get (i ++ [t]) = x.get (i ++ [t]) - Welch.mean T (fun t => x.get (i ++ [t])) := by
  simp [demean, Tensor.meanAt, hx, Welch.mean]

theorem stft_ok (x window : Tensor ℝ) (lead : List Nat) (T N hop : ℕ) (hx : x.shape = lead ++ [T])
    (hr : lead.length ≤ 1) (hN : 0 < N) (hNT : N ≤ T) (hhop : 0 < hop) (hw : window.shape = [N]) :
    ∃ y, stft (demean x) N hop window = .ok y ∧ y.shape = lead ++ [N / 2 + 1, Welch.segments T N hop] ∧
      ∀ i k s, y.get (i ++ [k, s]) = Welch.spec N (fun t => window.get [t])
        (fun t => Welch.segment hop (fun t => x.get (i ++ [t])) s t - Welch.mean T (fun t => x.get (i ++ [t]))) k := by
  have h1 : (demean x).lastDim = .ok T := Slicing.lastDim_append _ lead T hx
  have h2 : ¬ ((demean x).ndim > 2) := by simp [Tensor.ndim, demean, hx]; omega
  have h3 : ¬ ((N : Int) ≤ 0 ∨ (T : Int) < N ∨ (hop : Int) ≤ 0) := by omega
  unfold stft
  simp only [h1, res_bind_ok, h2, if_false, h3, Int.toNat_natCast, hw, ne_eq, not_true_eq_false]
  refine ⟨_, rfl, by simp [demean, hx, Welch.segments], ?_⟩
  intro i k s
  have e : i ++ [k, s] = (i ++ [k]) ++ [s] := by simp
  simp only [e, List.dropLast_concat, List.getLastD_concat, demean_get x lead T hx]
  rfl

theorem bcShapeRev_self (s : List Nat) : Tensor.bcShapeRev s s = some s := by
  induction s with
  | nil => rfl
  | cons a s ih => simp [Tensor.bcShapeRev, ih]

theorem bcIdx_self (s i : List Nat) (h : InB i s) : Tensor.bcIdx s i = i := by
  have hl : i.length = s.length := by
    induction s generalizing i with
    | nil => rw [h.eq0]
    | cons a s ih =>
      cases i with
      | nil => exact absurd h (by simp [InB])
      | cons b i => simp [ih i h.2]
  unfold Tensor.bcIdx
  rw [hl, Nat.sub_self, List.drop_zero]
  induction s generalizing i with
  | nil => rw [h.eq0]; rfl
  | cons a s ih =>
    cases i with
    | nil => exact absurd h (by simp [InB])
    | cons b i =>
      have h1 : b < a := h.1
      simp only [List.zipWith_cons_cons, ih i h.2 (by simpa using hl)]
      congr 1
      split_ifs <;> omega

theorem zipB_same {α β γ : Type _} (f : α → β → γ) (a : Tensor α) (b : Tensor β) (h : a.shape = b.shape) :
    ∃ y, Tensor.zipB f a b = .ok y ∧ y.shape = a.shape ∧ ∀ i, InB i a.shape → y.get i = f (a.get i) (b.get i) := by
  unfold Tensor.zipB
  rw [← h, bcShapeRev_self]
  refine ⟨_, rfl, by simp, ?_⟩
  intro i hi
  simp only [bcIdx_self _ i hi]

end Verif.Spectral
