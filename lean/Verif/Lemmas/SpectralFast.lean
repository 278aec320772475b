import Verif.Lemmas.Spectral
set_option linter.unusedSimpArgs false
namespace Verif.Spectral
open Finset Verif.Fourier Spec Classical

/-- The reshape at the end of `fastTail`. -/
def finish (o : Tensor ℂ) (batch : Option (Nat × Nat)) : Res (Tensor ℂ) :=
  match batch with
  | some (b, c) => if o.ndim = 2 then o.reshapeInfer [b, c] [] else .ok o
  | none => .ok o

theorem getD_append_len {α : Type _} (i : List α) (k : α) (l : List α) (d : α) (n : ℕ) (h : i.length = n) :
    (i ++ k :: l).getD n d = k := by
  subst h; simp

theorem fastTail_cross (p : Tensor ℂ) (L : List Nat) (xndim N S : ℕ) (scale : ℝ) (average : String)
    (batch : Option (Nat × Nat)) (hp : p.shape = L ++ [N / 2 + 1, S]) (hS : 0 < S)
    (hL : (if xndim = 1 then 0 else if p.ndim < 4 then 1 else 2) = L.length) :
    ∃ o, fastTail p xndim N scale average true batch = finish o batch ∧ o.shape = L ++ [N / 2 + 1] ∧
      ∀ i k, i.length = L.length → k < N / 2 + 1 → o.get (i ++ [k]) =
        ⟨Welch.combine average S fun s => ((((scale * Welch.oneSided N k : ℝ) : ℂ)) * p.get (i ++ [k, s])).re,
         Welch.combine average S fun s => ((((scale * Welch.oneSided N k : ℝ) : ℂ)) * p.get (i ++ [k, s])).im⟩ := by
  have hnf : (L ++ [N / 2 + 1, S]).getD L.length 0 = N / 2 + 1 := by simp
  have hlast : (L ++ [N / 2 + 1, S]).getLastD 0 = S := by
    rw [show L ++ [N / 2 + 1, S] = (L ++ [N / 2 + 1]) ++ [S] by simp, List.getLastD_concat]
  have hdrop : (L ++ [N / 2 + 1, S]).dropLast = L ++ [N / 2 + 1] := by
    rw [show L ++ [N / 2 + 1, S] = (L ++ [N / 2 + 1]) ++ [S] by simp, List.dropLast_concat]
  refine ⟨⟨L ++ [N / 2 + 1], fun i =>
    if average = "mean" then ((List.range S).map fun s => p.get (i ++ [s]) *
        ((binFactor N (N / 2 + 1) scale ((i ++ [s]).getD L.length 0) : ℝ) : ℂ)).sum / (S : ℂ)
      else (median (((List.range S).map fun s => p.get (i ++ [s]) *
        ((binFactor N (N / 2 + 1) scale ((i ++ [s]).getD L.length 0) : ℝ) : ℂ)).map Complex.re) : ℂ) +
        Complex.I * (median (((List.range S).map fun s => p.get (i ++ [s]) *
        ((binFactor N (N / 2 + 1) scale ((i ++ [s]).getD L.length 0) : ℝ) : ℂ)).map Complex.im) : ℂ)⟩, ?_, rfl, ?_⟩
  · unfold fastTail finish
    dsimp only
    rw [hL, hp, hnf, hlast, hdrop]
    cases batch <;> simp only [if_true]
  · intro i k hi hk
    dsimp only
    rw [cross_aggregate average S hS]
    have e : ∀ s, (i ++ [k, s]).getD L.length 0 = k := fun s => getD_append_len i k [s] 0 _ hi
    simp only [e, binFactor_eq N k hk, List.append_assoc, List.cons_append, List.nil_append,
      mul_comm (p.get _)]

theorem fastTail_auto (p : Tensor ℂ) (r : List Nat → ℝ) (L : List Nat) (xndim N S : ℕ) (scale : ℝ) (average : String)
    (batch : Option (Nat × Nat)) (hp : p.shape = L ++ [N / 2 + 1, S]) (hS : 0 < S)
    (hL : (if xndim = 1 then 0 else if p.ndim < 4 then 1 else 2) = L.length) (hr : ∀ i, p.get i = (r i : ℂ)) :
    ∃ o, fastTail p xndim N scale average false batch = finish o batch ∧ o.shape = L ++ [N / 2 + 1] ∧
      ∀ i k, i.length = L.length → k < N / 2 + 1 → o.get (i ++ [k]) =
        ((Welch.combine average S fun s => scale * Welch.oneSided N k * r (i ++ [k, s]) : ℝ) : ℂ) := by
  have hnf : (L ++ [N / 2 + 1, S]).getD L.length 0 = N / 2 + 1 := by simp
  have hlast : (L ++ [N / 2 + 1, S]).getLastD 0 = S := by
    rw [show L ++ [N / 2 + 1, S] = (L ++ [N / 2 + 1]) ++ [S] by simp, List.getLastD_concat]
  have hdrop : (L ++ [N / 2 + 1, S]).dropLast = L ++ [N / 2 + 1] := by
    rw [show L ++ [N / 2 + 1, S] = (L ++ [N / 2 + 1]) ++ [S] by simp, List.dropLast_concat]
  refine ⟨⟨L ++ [N / 2 + 1], fun i =>
    if average = "mean" then ((List.range S).map fun s => (((r (i ++ [s]) *
        (binFactor N (N / 2 + 1) scale ((i ++ [s]).getD L.length 0)) : ℝ) : ℂ))).sum / (S : ℂ)
      else (median (((List.range S).map fun s => (((r (i ++ [s]) *
        (binFactor N (N / 2 + 1) scale ((i ++ [s]).getD L.length 0)) : ℝ) : ℂ))).map Complex.re) : ℂ)⟩, ?_, rfl, ?_⟩
  · unfold fastTail finish
    dsimp only
    rw [hL, hp, hnf, hlast, hdrop]
    simp only [hr, Complex.ofReal_mul]
    cases batch <;> simp only [if_false, Bool.false_eq_true]
  · intro i k hi hk
    dsimp only
    rw [auto_aggregate average S hS]
    have e : ∀ s, (i ++ [k, s]).getD L.length 0 = k := fun s => getD_append_len i k [s] 0 _ hi
    simp only [e, binFactor_eq N k hk, List.append_assoc, List.cons_append, List.nil_append,
      mul_comm (r _)]

theorem flatten3 (x : Tensor ℝ) (b c T : ℕ) (hx : x.shape = [b, c, T]) (hT : 0 < T) :
    ∃ y, x.reshapeInfer [] [T] = .ok y ∧ y.shape = [b * c, T] ∧
      ∀ i j t, i < b → j < c → t < T → y.get [i * c + j, t] = x.get [i, j, t] := by
  rw [Tensor.reshapeInfer_ok x [] [T] (b * c) (by simpa [numel] using hT) (by simp [hx, numel]; ring)]
  refine ⟨_, rfl, rfl, ?_⟩
  intro i j t hi hj ht
  have h1 : j * T + t < c * T := idx_lt hj ht
  have e : (i * c + j) * T + t = i * (c * T) + (j * T + t) := by ring
  simp only [List.nil_append, ravel, numel, hx, unravel, Nat.mul_one, Nat.add_zero, e, idx_div _ h1, idx_mod _ h1,
    idx_div _ ht, idx_mod _ ht, Nat.div_one]

theorem finish_batch (o : Tensor ℂ) (b c nf : ℕ) (ho : o.shape = [b * c, nf]) (hb : 0 < b) (hc : 0 < c) :
    ∃ y, finish o (some (b, c)) = .ok y ∧ y.shape = [b, c, nf] ∧
      ∀ i j k, i < b → j < c → k < nf → y.get [i, j, k] = o.get [i * c + j, k] := by
  unfold finish
  have h2 : o.ndim = 2 := by simp [Tensor.ndim, ho]
  simp only [h2, if_true]
  rw [Tensor.reshapeInfer_ok o [b, c] [] nf (by simpa [numel] using ⟨hb, hc⟩) (by simp [ho, numel])]
  refine ⟨_, rfl, rfl, ?_⟩
  intro i j k hi hj hk
  have h1 : j * nf + k < c * nf := idx_lt hj hk
  have e : i * (c * nf) + (j * nf + k) = (i * c + j) * nf + k := by ring
  simp only [List.cons_append, List.nil_append, ravel, numel, ho, unravel, Nat.mul_one, Nat.add_zero, e,
    idx_div _ hk, idx_mod _ hk, Nat.div_one]

end Verif.Spectral
