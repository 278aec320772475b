import Verif.Model.IIRFilter
import Verif.Spec.IIRFilter
import Verif.Lemmas.Tensor
import Mathlib.RingTheory.PowerSeries.Inverse
import Mathlib.Tactic.Linarith
import Mathlib.Tactic.FieldSimp
import Mathlib.Tactic.Ring
/-!
# The zero-phase filter (C77)
-/
namespace Verif.IIRFilter
open Finset IIRSpec PowerSeries

/-! ## The causal pass solves the difference equation -/

theorem outputs_length (a : List ℝ) (u : ℕ → ℝ) (n : ℕ) : (outputs a u n).length = n := by
  induction n with
  | zero => rfl
  | succ n ih => simp [outputs, ih]

/-- Output `n` of the recursion. -/
noncomputable def out (a : List ℝ) (u : ℕ → ℝ) (n : ℕ) : ℝ := (outputs a u (n + 1)).headD 0

theorem outputs_getD (a : List ℝ) (u : ℕ → ℝ) (n k : ℕ) (hk : k < n) : (outputs a u n).getD k 0 = out a u (n - 1 - k) := by
  induction n generalizing k with
  | zero => omega
  | succ n ih =>
    cases k with
    | zero => simp [out, outputs]
    | succ k =>
      have : n + 1 - 1 - (k + 1) = n - 1 - k := by omega
      rw [this, ← ih k (by omega)]
      simp [outputs]

theorem zipWith_sum (a p : List ℝ) : (List.zipWith (· * ·) a p).sum = ∑ k ∈ range p.length, a.getD k 0 * p.getD k 0 := by
  induction p generalizing a with
  | nil => simp
  | cons q p ih =>
    cases a with
    | nil => simp
    | cons c a =>
      rw [List.length_cons, Finset.sum_range_succ']
      simp [ih, add_comm]

theorem out_eq (a : List ℝ) (u : ℕ → ℝ) (n : ℕ) : out a u n = u n - ∑ k ∈ range n, a.getD (k + 1) 0 * out a u (n - 1 - k) := by
  have : out a u n = u n - (List.zipWith (· * ·) a.tail (outputs a u n)).sum := rfl
  rw [this, zipWith_sum, outputs_length]
  congr 1
  refine Finset.sum_congr rfl fun k hk => ?_
  rw [outputs_getD a u n k (Finset.mem_range.1 hk)]
  congr 1
  cases a <;> simp

theorem getD_map_div (l : List ℝ) (c : ℝ) (k : ℕ) : (l.map (· / c)).getD k 0 = l.getD k 0 / c := by
  by_cases h : k < l.length
  · simp [List.getD_eq_getElem?_getD, h]
  · simp [List.getD_eq_getElem?_getD, h]

theorem headD_getD (l : List ℝ) : l.headD 0 = l.getD 0 0 := by cases l <;> simp

/-- **C77.**  The causal pass obeys the difference equation of its coefficients. -/
theorem lfilter_solves (a b : List ℝ) (N : ℕ) (x : ℕ → ℝ) (ha : a.getD 0 0 ≠ 0) : Solves a b N x (lfilterRow a b x) := by
  intro n _
  have h := out_eq (a.map (· / a.headD 0)) (fir (b.map (· / a.headD 0)) x) n
  have hy : ∀ m, lfilterRow a b x m = out (a.map (· / a.headD 0)) (fir (b.map (· / a.headD 0)) x) m := fun _ => rfl
  rw [Finset.sum_range_succ']
  simp only [hy]
  rw [Nat.sub_zero, h]
  simp only [fir, getD_map_div, headD_getD]
  have e1 : ∀ (c y : ℕ → ℝ), ∑ k ∈ range n, c k * y (n - (k + 1)) = ∑ k ∈ range n, c k * y (n - 1 - k) := fun c y =>
    Finset.sum_congr rfl fun k _ => by rw [show n - (k + 1) = n - 1 - k by omega]
  rw [e1]
  rw [mul_sub, Finset.mul_sum, Finset.mul_sum]
  have e2 : ∀ k, a.getD 0 0 * (b.getD k 0 / a.getD 0 0 * x (n - k)) = b.getD k 0 * x (n - k) := fun k => by field_simp
  have e3 : ∀ k, ∀ z : ℝ, a.getD 0 0 * (a.getD (k + 1) 0 / a.getD 0 0 * z) = a.getD (k + 1) 0 * z := fun k z => by field_simp
  simp only [e2, e3]
  ring

/-- **C77.**  The difference equation has no other solution: the causal pass is determined by it. -/
theorem solves_unique (a b : List ℝ) (N : ℕ) (x y z : ℕ → ℝ) (ha : a.getD 0 0 ≠ 0) (hy : Solves a b N x y) (hz : Solves a b N x z) :
    ∀ n, n < N → y n = z n := by
  intro n
  induction n using Nat.strong_induction_on with
  | _ n ih =>
    intro hn
    have h := (hy n hn).trans (hz n hn).symm
    rw [Finset.sum_range_succ', Finset.sum_range_succ' _ n] at h
    have e : ∑ k ∈ range n, a.getD (k + 1) 0 * y (n - (k + 1)) = ∑ k ∈ range n, a.getD (k + 1) 0 * z (n - (k + 1)) := by
      refine Finset.sum_congr rfl fun k hk => ?_
      have := Finset.mem_range.1 hk
      rw [ih (n - (k + 1)) (by omega) (by omega)]
    rw [e] at h
    have h := add_left_cancel h
    exact mul_left_cancel₀ ha h

example : Solves [2, 1] [1, 0] 3 (fun _ => 1) (lfilterRow [2, 1] [1, 0] fun _ => 1) := lfilter_solves _ _ _ _ (by norm_num)

/-! ## As a convolution with the impulse response -/

/-- The transfer function as a power series in the delay. -/
noncomputable def transfer (a b : List ℝ) : ℝ⟦X⟧ := (PowerSeries.mk fun k => a.getD k 0)⁻¹ * PowerSeries.mk fun k => b.getD k 0

theorem lfilter_conv (a b : List ℝ) (x : ℕ → ℝ) (ha : a.getD 0 0 ≠ 0) (n : ℕ) :
    lfilterRow a b x n = ∑ k ∈ range (n + 1), coeff k (transfer a b) * x (n - k) := by
  have hs : Solves a b (n + 1) x fun m => ∑ k ∈ range (m + 1), coeff k (transfer a b) * x (m - k) := by
    intro m _
    have hA : (PowerSeries.mk fun k => a.getD k 0) * (transfer a b * PowerSeries.mk x) = (PowerSeries.mk fun k => b.getD k 0) * PowerSeries.mk x := by
      unfold transfer
      have : PowerSeries.constantCoeff (PowerSeries.mk fun k => a.getD k 0) ≠ 0 := by
        rw [← PowerSeries.coeff_zero_eq_constantCoeff_apply, PowerSeries.coeff_mk]; exact ha
      rw [← mul_assoc, ← mul_assoc, PowerSeries.mul_inv_cancel _ this, one_mul]
    have hc := congrArg (coeff m) hA
    rw [PowerSeries.coeff_mul, PowerSeries.coeff_mul] at hc
    rw [Finset.Nat.sum_antidiagonal_eq_sum_range_succ_mk, Finset.Nat.sum_antidiagonal_eq_sum_range_succ_mk] at hc
    simp only [PowerSeries.coeff_mk] at hc
    rw [← hc]
    refine Finset.sum_congr rfl fun k _ => ?_
    rw [PowerSeries.coeff_mul, Finset.Nat.sum_antidiagonal_eq_sum_range_succ_mk]
    simp only [PowerSeries.coeff_mk]
  exact solves_unique a b (n + 1) x _ _ ha (lfilter_solves a b (n + 1) x ha) hs n (by omega)

/-! ## The forward and backward pass -/

/-- One row of `filtfilt`: `N` samples. -/
noncomputable def filtRow (a b : List ℝ) (N : ℕ) (x : ℕ → ℝ) (n : ℕ) : ℝ :=
  lfilterRow a b (fun t => lfilterRow a b x (N - 1 - t)) (N - 1 - n)

theorem getLastD_append (l : List ℕ) (t d : ℕ) : (l ++ [t]).getLastD d = t := by
  simp [List.getLastD_eq_getLast?]

theorem mapLast_append (f : ℕ → ℕ) (l : List ℕ) (t : ℕ) : mapLast f (l ++ [t]) = l ++ [f t] := by
  induction l with
  | nil => rfl
  | cons i l ih =>
    cases h : l ++ [t] with
    | nil => simp at h
    | cons j m => rw [List.cons_append, h, mapLast, ← h, ih, List.cons_append]; simp

theorem lfilter_ok (x : Tensor ℝ) (a b : List ℝ) (lead : List ℕ) (N : ℕ) (hN : 0 < N) (hx : x.shape = lead ++ [N]) (hl : a.length = b.length) :
    lfilter x a b = .ok (Whiten.mapRows N (lfilterRow a b) x) := by
  have h1 : x.lastDim = .ok N := by unfold Tensor.lastDim; rw [hx]; simp
  simp only [lfilter, h1, raiseIf, hl, ne_eq, not_true_eq_false, if_false, res_bind_ok]
  simp [Nat.pos_iff_ne_zero.1 hN, res_bind_ok]

/-- **C77.**  The filter keeps the shape and acts on every series along the last axis alone. -/
theorem forward_ok (m : Module) (x : Tensor ℝ) (lead : List ℕ) (N : ℕ) (hN : 0 < N) (hx : x.shape = lead ++ [N]) (hl : m.a.length = m.b.length) :
    ∃ y, m.forward x = .ok y ∧ y.shape = x.shape ∧
      ∀ i t, y.get (i ++ [t]) = filtRow m.a m.b N (fun s => x.get (i ++ [s])) t := by
  have h1 := lfilter_ok x m.a m.b lead N hN hx hl
  have hs1 : (flipLast (Whiten.mapRows N (lfilterRow m.a m.b) x)).shape = lead ++ [N] := by simp [flipLast, Whiten.mapRows, hx]
  have h2 := lfilter_ok (flipLast (Whiten.mapRows N (lfilterRow m.a m.b) x)) m.a m.b lead N hN hs1 hl
  refine ⟨flipLast (Whiten.mapRows N (lfilterRow m.a m.b) (flipLast (Whiten.mapRows N (lfilterRow m.a m.b) x))), ?_, ?_, ?_⟩
  · simp only [Module.forward, filtfilt, h1, h2, res_bind_ok]; rfl
  · simp [flipLast, Whiten.mapRows, hx]
  · intro i t
    simp only [flipLast, Whiten.mapRows, hx, filtRow, List.dropLast_concat, getLastD_append, mapLast_append]

/-- **C77.**  Coefficients of different sizes are rejected. -/
theorem forward_error (m : Module) (x : Tensor ℝ) (hl : m.a.length ≠ m.b.length) : m.forward x = .error .value := by
  simp only [Module.forward, filtfilt, lfilter, raiseIf, hl, ne_eq, not_false_eq_true, if_true]
  rfl

/-- The value of a row: the backward pass sums over the later samples. -/
theorem filtRow_eq (a b : List ℝ) (N : ℕ) (x : ℕ → ℝ) (ha : a.getD 0 0 ≠ 0) (n : ℕ) (hn : n < N) :
    filtRow a b N x n = ∑ k ∈ range (N - n), coeff k (transfer a b) * lfilterRow a b x (n + k) := by
  unfold filtRow
  rw [lfilter_conv a b _ ha, show N - 1 - n + 1 = N - n by omega]
  refine Finset.sum_congr rfl fun k hk => ?_
  have := Finset.mem_range.1 hk
  rw [show N - 1 - (N - 1 - n - k) = n + k by omega]

theorem swap_sum (N : ℕ) (f : ℕ → ℕ → ℝ) : ∑ n ∈ range N, ∑ k ∈ range (N - n), f n (n + k) = ∑ m ∈ range N, ∑ k ∈ range (m + 1), f (m - k) m := by
  induction N with
  | zero => simp
  | succ N ih =>
    rw [Finset.sum_range_succ _ N, Finset.sum_range_succ _ N, ← ih]
    have e : ∀ n ∈ range N, ∑ k ∈ range (N + 1 - n), f n (n + k) = ∑ k ∈ range (N - n), f n (n + k) + f n N := by
      intro n hn
      have := Finset.mem_range.1 hn
      rw [show N + 1 - n = N - n + 1 by omega, Finset.sum_range_succ, show n + (N - n) = N by omega]
    rw [Finset.sum_congr rfl e, Finset.sum_add_distrib, show N + 1 - N = 1 by omega, Finset.sum_range_one, add_assoc]
    congr 1
    rw [Nat.add_zero, ← Finset.sum_range_succ (fun n => f n N) N, ← Finset.sum_range_reflect]
    refine Finset.sum_congr rfl fun k hk => ?_
    have := Finset.mem_range.1 hk
    rw [show N + 1 - 1 - k = N - k by omega]

/-- The inner product of an output with a signal is that of the two causal passes. -/
theorem filt_dot (a b : List ℝ) (N : ℕ) (x z : ℕ → ℝ) (ha : a.getD 0 0 ≠ 0) :
    dot N (filtRow a b N x) z = dot N (lfilterRow a b x) (lfilterRow a b z) := by
  unfold dot
  have e : ∀ n ∈ range N, filtRow a b N x n * z n = ∑ k ∈ range (N - n), coeff (n + k - n) (transfer a b) * lfilterRow a b x (n + k) * z n := by
    intro n hn
    rw [filtRow_eq a b N x ha n (Finset.mem_range.1 hn), Finset.sum_mul]
    refine Finset.sum_congr rfl fun k _ => ?_
    rw [show n + k - n = k by omega]
  rw [Finset.sum_congr rfl e, swap_sum N fun n m => coeff (m - n) (transfer a b) * lfilterRow a b x m * z n]
  refine Finset.sum_congr rfl fun m _ => ?_
  rw [lfilter_conv a b z ha m, Finset.mul_sum]
  refine Finset.sum_congr rfl fun k hk => ?_
  have := Finset.mem_range.1 hk
  rw [show m - (m - k) = k by omega]
  ring

/-- **C77.**  Zero phase, as an operator: on series of any length the filter is symmetric, and never turns a signal against itself. -/
theorem symmetric (a b : List ℝ) (N : ℕ) (x z : ℕ → ℝ) (ha : a.getD 0 0 ≠ 0) :
    dot N (filtRow a b N x) z = dot N x (filtRow a b N z) ∧ 0 ≤ dot N (filtRow a b N x) x := by
  constructor
  · have h : dot N x (filtRow a b N z) = dot N (filtRow a b N z) x := Finset.sum_congr rfl fun n _ => mul_comm _ _
    rw [h, filt_dot a b N x z ha, filt_dot a b N z x ha]
    exact Finset.sum_congr rfl fun n _ => mul_comm _ _
  · rw [filt_dot a b N x x ha]
    exact Finset.sum_nonneg fun n _ => mul_self_nonneg _

/-- **C77.**  Nothing that reaches the filter is lost if `b[0]` is not zero: only the zero signal gives the zero signal. -/
theorem injective (a b : List ℝ) (N : ℕ) (x : ℕ → ℝ) (ha : a.getD 0 0 ≠ 0) (hb : b.getD 0 0 ≠ 0) (h : ∀ n, n < N → filtRow a b N x n = 0) :
    ∀ n, n < N → x n = 0 := by
  have h0 : dot N (lfilterRow a b x) (lfilterRow a b x) = 0 := by
    rw [← filt_dot a b N x x ha]
    exact Finset.sum_eq_zero fun n hn => by rw [h n (Finset.mem_range.1 hn), zero_mul]
  have h1 : ∀ n, n < N → lfilterRow a b x n = 0 := by
    intro n hn
    have := (Finset.sum_eq_zero_iff_of_nonneg fun n _ => mul_self_nonneg (lfilterRow a b x n)).1 h0 n (Finset.mem_range.2 hn)
    exact mul_self_eq_zero.1 this
  have hs : Solves b a N (lfilterRow a b x) x := fun n hn => (lfilter_solves a b N x ha n hn).symm
  refine solves_unique b a N (lfilterRow a b x) x (fun _ => 0) hb hs fun n hn => ?_
  rw [Finset.sum_eq_zero fun k _ => mul_zero _]
  symm
  refine Finset.sum_eq_zero fun k hk => ?_
  rw [h1 (n - k) (by omega), mul_zero]

/-- **C77.**  The filter is linear. -/
theorem linear (a b : List ℝ) (N : ℕ) (x z : ℕ → ℝ) (c d : ℝ) (ha : a.getD 0 0 ≠ 0) (n : ℕ) (hn : n < N) :
    filtRow a b N (fun t => c * x t + d * z t) n = c * filtRow a b N x n + d * filtRow a b N z n := by
  rw [filtRow_eq a b N _ ha n hn, filtRow_eq a b N _ ha n hn, filtRow_eq a b N _ ha n hn, Finset.mul_sum, Finset.mul_sum, ← Finset.sum_add_distrib]
  refine Finset.sum_congr rfl fun k _ => ?_
  have : lfilterRow a b (fun t => c * x t + d * z t) (n + k) = c * lfilterRow a b x (n + k) + d * lfilterRow a b z (n + k) := by
    rw [lfilter_conv a b _ ha, lfilter_conv a b _ ha, lfilter_conv a b _ ha, Finset.mul_sum, Finset.mul_sum, ← Finset.sum_add_distrib]
    exact Finset.sum_congr rfl fun j _ => by ring
  rw [this]; ring

/-- **C77.**  Multiplying all coefficients by one number changes nothing. -/
theorem scale_invariant (a b : List ℝ) (c : ℝ) (hc : c ≠ 0) (ha : a.getD 0 0 ≠ 0) (N : ℕ) (x : ℕ → ℝ) (n : ℕ) :
    filtRow (a.map (· * c)) (b.map (· * c)) N x n = filtRow a b N x n := by
  have g : ∀ (l : List ℝ) k, (l.map (· * c)).getD k 0 = l.getD k 0 * c := by
    intro l k
    have := getD_map_div l c⁻¹ k
    simpa [div_inv_eq_mul] using this
  have key : ∀ (x : ℕ → ℝ) n, lfilterRow (a.map (· * c)) (b.map (· * c)) x n = lfilterRow a b x n := by
    intro x n
    have hs := lfilter_solves (a.map (· * c)) (b.map (· * c)) (n + 1) x (by rw [g]; exact mul_ne_zero ha hc)
    refine solves_unique a b (n + 1) x _ _ ha (fun m hm => ?_) (lfilter_solves a b (n + 1) x ha) n (by omega)
    have := hs m hm
    simp only [g] at this
    have e : ∀ (l : List ℝ) (y : ℕ → ℝ), ∑ k ∈ range (m + 1), l.getD k 0 * c * y (m - k) = c * ∑ k ∈ range (m + 1), l.getD k 0 * y (m - k) := by
      intro l y; rw [Finset.mul_sum]; exact Finset.sum_congr rfl fun k _ => by ring
    rw [e, e] at this
    exact mul_left_cancel₀ hc this
  unfold filtRow
  rw [key]
  exact congrFun (congrArg _ (funext fun t => key _ _)) _

end Verif.IIRFilter
