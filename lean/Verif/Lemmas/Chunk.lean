import Verif.Py
import Verif.Lemmas.Tensor
import Mathlib.Data.List.Basic
set_option linter.unnecessarySeqFocus false
namespace Verif
variable {β γ : Type _}

/-- Consecutive blocks of `k` elements. -/
theorem flatMap_blocks (L : List β) (k m : Nat) :
    (List.range m).flatMap (fun i => (L.drop (i * k)).take k) = L.take (m * k) := by
  induction m with
  | zero => simp
  | succ m ih =>
    rw [List.range_succ, List.flatMap_append, ih]
    simp only [List.flatMap_cons, List.flatMap_nil, List.append_nil]
    rw [Nat.succ_mul, List.take_add]

theorem pySliceBound_nat (n k : Nat) : pySliceBound n (k : Int) = min k n := by
  have : ¬ ((k:Int) < 0) := by omega
  simp [pySliceBound, this]

theorem pySlice_nat (l : List β) (a b : Nat) : pySlice l (a : Int) (b : Int) =
    (l.drop a).take (b - a) := by
  simp only [pySlice, pySliceBound_nat]
  by_cases h : a ≤ l.length
  · rw [Nat.min_eq_left h]
    by_cases h2 : b ≤ l.length
    · rw [Nat.min_eq_left h2]
    · rw [Nat.min_eq_right (by omega)]
      rw [List.take_of_length_le, List.take_of_length_le] <;> simp <;> omega
  · rw [Nat.min_eq_right (a := a) (by omega), List.drop_of_length_le (Nat.le_refl _),
      List.drop_of_length_le (by omega)]
    simp

theorem mapM_ok (f : β → Res γ) (g : β → γ) (l : List β) (h : ∀ x ∈ l, f x = .ok (g x)) :
    l.mapM f = .ok (l.map g) := by
  induction l with
  | nil => rfl
  | cons a l ih =>
    rw [List.mapM_cons, h a (by simp), ih (fun x hx => h x (by simp [hx]))]
    rfl

theorem mapM_ok_exists (f : β → Res γ) (P : β → γ → Prop) (l : List β)
    (h : ∀ x ∈ l, ∃ y, f x = .ok y ∧ P x y) :
    ∃ ys, l.mapM f = .ok ys ∧ List.Forall₂ P l ys := by
  induction l with
  | nil => exact ⟨[], rfl, .nil⟩
  | cons a l ih =>
    obtain ⟨y, hy, hp⟩ := h a (by simp)
    obtain ⟨ys, hys, hps⟩ := ih (fun x hx => h x (by simp [hx]))
    refine ⟨y :: ys, ?_, .cons hp hps⟩
    rw [List.mapM_cons, hy, hys]
    rfl

theorem forall2_map_left {δ : Type _} (g : β → δ) (P : δ → γ → Prop) (l : List β) (ys : List γ)
    (h : List.Forall₂ (fun x y => P (g x) y) l ys) : List.Forall₂ P (l.map g) ys := by
  induction h with
  | nil => exact .nil
  | cons h _ ih => exact .cons h ih

end Verif
