import Verif.TensorMore
import Verif.Lemmas.Broadcast
import Verif.Lemmas.Unfold
import Mathlib.Data.List.Induction
set_option linter.unusedSimpArgs false
namespace Verif
open Spectral

theorem bcShapeRev_prefix (s t : List Nat) : Tensor.bcShapeRev (s ++ t) s = some (s ++ t) := by
  induction s with
  | nil => simp [bcShapeRev_nil]
  | cons a s ih => simp [Tensor.bcShapeRev, ih]

/-- Operation of a tensor of shape `pre ++ s` with one of shape `s`. -/
theorem zipB_suffix {α β γ : Type _} (f : α → β → γ) (a : Tensor α) (b : Tensor β) (pre s : List Nat)
    (ha : a.shape = pre ++ s) (hb : b.shape = s) :
    ∃ y, Tensor.zipB f a b = .ok y ∧ y.shape = pre ++ s ∧
      ∀ p i, InB p pre → InB i s → y.get (p ++ i) = f (a.get (p ++ i)) (b.get i) := by
  unfold Tensor.zipB
  rw [ha, hb, List.reverse_append, bcShapeRev_prefix]
  refine ⟨_, rfl, by simp, ?_⟩
  intro p i hp hi
  dsimp only
  rw [bcIdx_self _ _ (inB_append hp hi)]
  congr 2
  have h1 := bcIdx_self s i hi
  have hl := inB_length hi
  unfold Tensor.bcIdx at h1 ⊢
  rw [List.length_append, hl, Nat.add_sub_cancel, List.drop_left]
  rwa [hl, Nat.sub_self, List.drop_zero] at h1

/-- Padding both ends by `l`, `r` (non-negative). -/
theorem padLast_ok {α : Type _} [Zero α] (x : Tensor α) (lead : List Nat) (n l r : Nat) (hx : x.shape = lead ++ [n]) :
    ∃ y, x.padLast (l : Int) (r : Int) = .ok y ∧ y.shape = lead ++ [n + l + r] ∧
      ∀ i t, y.get (i ++ [t]) = if l ≤ t ∧ t < l + n then x.get (i ++ [t - l]) else 0 := by
  unfold Tensor.padLast
  rw [Slicing.lastDim_append x lead n hx]
  have h1 : ¬ ((n : Int) + l + r < 0) := by omega
  simp only [res_bind_ok, h1, if_false]
  refine ⟨_, rfl, ?_, ?_⟩
  · simp [hx]; omega
  · intro i t
    simp only [List.dropLast_concat, List.getLastD_concat]
    by_cases h : l ≤ t ∧ t < l + n
    · rw [if_pos h, if_pos (by omega)]
      congr 3; omega
    · rw [if_neg h, if_neg (by omega)]

end Verif
