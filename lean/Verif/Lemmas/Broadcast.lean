import Verif.Lemmas.Spectral
/-! # Broadcasting lemmas -/
set_option linter.unusedSimpArgs false
namespace Verif
open Spectral

theorem bcShapeRev_nil (s : List Nat) : Tensor.bcShapeRev s [] = some s := by cases s <;> rfl

theorem inB_length {i s : List Nat} (h : InB i s) : i.length = s.length := by
  induction s generalizing i with
  | nil => rw [h.eq0]
  | cons a s ih =>
    cases i with
    | nil => exact absurd h (by simp [InB])
    | cons b i => simp [ih h.2]

theorem inB_append {i j s t : List Nat} (hi : InB i s) (hj : InB j t) : InB (i ++ j) (s ++ t) := by
  induction s generalizing i with
  | nil => rw [hi.eq0]; exact hj
  | cons a s ih =>
    cases i with
    | nil => exact absurd hi (by simp [InB])
    | cons b i => exact ⟨hi.1, ih hi.2⟩

/-- Operation of a tensor of shape `(.., C, T)` with a per-channel tensor of shape `(C, 1)`. -/
theorem zipB_chan {α β γ : Type _} (f : α → β → γ) (a : Tensor α) (b : Tensor β) (lead : List Nat) (C T : Nat)
    (ha : a.shape = lead ++ [C, T]) (hb : b.shape = [C, 1]) :
    ∃ y, Tensor.zipB f a b = .ok y ∧ y.shape = a.shape ∧
      ∀ l c t, InB l lead → c < C → t < T → y.get (l ++ [c, t]) = f (a.get (l ++ [c, t])) (b.get [c, 0]) := by
  unfold Tensor.zipB
  have e : Tensor.bcShapeRev a.shape.reverse b.shape.reverse = some a.shape.reverse := by
    rw [ha, hb]
    simp only [List.reverse_append, List.reverse_cons, List.reverse_nil, List.nil_append, List.cons_append]
    rw [Tensor.bcShapeRev, Tensor.bcShapeRev, bcShapeRev_nil]
    by_cases h : T = 1 <;> simp [h]
  rw [e]
  refine ⟨_, rfl, by simp, ?_⟩
  intro l c t hl hc ht
  dsimp only
  rw [bcIdx_self a.shape _ (by rw [ha]; exact inB_append hl ⟨hc, ht, trivial⟩)]
  congr 2
  rw [hb]
  unfold Tensor.bcIdx
  simp only [List.length_append, List.length_cons, List.length_nil]
  rw [show l.length + (0 + 1 + 1) - (0 + 1 + 1) = l.length by omega, List.drop_left]
  simp only [List.zipWith_cons_cons, List.zipWith_nil_right, if_true]
  congr 1
  split_ifs with h
  · omega
  · rfl

/-- Operation of a tensor of shape `(.., T)` with a tensor of shape `(1,)`. -/
theorem zipB_one {α β γ : Type _} (f : α → β → γ) (a : Tensor α) (b : Tensor β) (lead : List Nat) (T : Nat)
    (ha : a.shape = lead ++ [T]) (hb : b.shape = [1]) :
    ∃ y, Tensor.zipB f a b = .ok y ∧ y.shape = a.shape ∧
      ∀ l t, InB l lead → t < T → y.get (l ++ [t]) = f (a.get (l ++ [t])) (b.get [0]) := by
  unfold Tensor.zipB
  have e : Tensor.bcShapeRev a.shape.reverse b.shape.reverse = some a.shape.reverse := by
    rw [ha, hb]
    simp only [List.reverse_append, List.reverse_cons, List.reverse_nil, List.nil_append, List.cons_append]
    rw [Tensor.bcShapeRev, bcShapeRev_nil]
    by_cases h : T = 1 <;> simp [h]
  rw [e]
  refine ⟨_, rfl, by simp, ?_⟩
  intro l t hl ht
  dsimp only
  rw [bcIdx_self a.shape _ (by rw [ha]; exact inB_append hl ⟨ht, trivial⟩)]
  congr 2
  rw [hb]
  unfold Tensor.bcIdx
  simp only [List.length_append, List.length_cons, List.length_nil]
  rw [show l.length + (0 + 1) - (0 + 1) = l.length by omega, List.drop_left]
  simp

end Verif
