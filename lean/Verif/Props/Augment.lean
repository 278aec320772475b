import Verif.Model.Augment
import Verif.Lemmas.Unfold
import Mathlib.Tactic.NormNum
/-!
# Properties of the augmentations (C21)
-/
namespace Verif.Augment
variable {α : Type}

/-- **C21 (inverter).**  Whatever is drawn: the returned tensor has the input's shape, the argument
itself ends up holding the returned values, and every series (leading index `i`, of any rank) is
either negated as a whole - exactly when its draw is below `prob` - or left unchanged. -/
theorem inverter_series [Neg α] (r : List Nat → ℝ) (prob : ℝ) (X : Tensor α) :
    let out := (invert r prob X).2
    (invert r prob X).1 = out ∧ out.shape = X.shape ∧
    ∀ i : List Nat, (r i < prob → ∀ t, out.get (i ++ [t]) = -(X.get (i ++ [t]))) ∧
      (¬ r i < prob → ∀ t, out.get (i ++ [t]) = X.get (i ++ [t])) := by
  refine ⟨rfl, rfl, fun i => ⟨fun h t => ?_, fun h t => ?_⟩⟩ <;>
    simp [invert, mask, h]

/-- **C21 (reverser).**  Same, with whole series reversed in time. -/
theorem reverser_series (r : List Nat → ℝ) (prob : ℝ) (X : Tensor α) (lead : List Nat) (T : Nat)
    (hX : X.shape = lead ++ [T]) :
    let out := (reverse r prob X).2
    (reverse r prob X).1 = out ∧ out.shape = X.shape ∧
    ∀ i : List Nat, (r i < prob → ∀ t < T, out.get (i ++ [t]) = X.get (i ++ [T - 1 - t])) ∧
      (¬ r i < prob → ∀ t, out.get (i ++ [t]) = X.get (i ++ [t])) := by
  refine ⟨rfl, rfl, fun i => ⟨fun h t _ => ?_, fun h t => ?_⟩⟩
  · have : (lead ++ [T]).getLastD 0 = T := by simp
    simp [reverse, mask, h, Slicing.mapLast_append, hX]
  · simp [reverse, mask, h]

/-- **C21 (probabilities 0 and 1).**  Draws lie in `[0, 1)`, so `prob ≤ 0` never and `prob ≥ 1`
always transforms. -/
theorem augment_prob_extremes (r : List Nat → ℝ) (hr : ∀ i, 0 ≤ r i ∧ r i < 1) (prob : ℝ) :
    (prob ≤ 0 → ∀ i, ¬ r i < prob) ∧ (1 ≤ prob → ∀ i, r i < prob) :=
  ⟨fun h i => not_lt.2 (h.trans (hr i).1), fun h i => (hr i).2.trans_le h⟩

/-- **C21 (involution).**  Applying either module twice with the same draw restores every series. -/
theorem augment_involution [InvolutiveNeg α] (r : List Nat → ℝ) (prob : ℝ) (X : Tensor α)
    (lead : List Nat) (T : Nat) (hX : X.shape = lead ++ [T]) :
    ((invert r prob (invert r prob X).2).2).Same X ∧ ((reverse r prob (reverse r prob X).2).2).Same X := by
  have hsplit : ∀ j, InB j X.shape → ∃ i t, j = i ++ [t] ∧ t < T := by
    rw [hX]
    clear hX
    induction lead with
    | nil =>
      intro j hj
      obtain ⟨t, rfl, ht⟩ := InB.eq1 hj
      exact ⟨[], t, rfl, ht⟩
    | cons d ds ih =>
      intro j hj
      cases j with
      | nil => exact absurd hj (by simp [InB])
      | cons a as =>
        obtain ⟨i, t, rfl, ht⟩ := ih as hj.2
        exact ⟨a :: i, t, rfl, ht⟩
  constructor
  · refine ⟨rfl, fun j _ => ?_⟩
    by_cases h : mask r prob j.dropLast = true
    · simp [invert, h]
    · simp [invert, h]
  · refine ⟨rfl, fun j hj => ?_⟩
    obtain ⟨i, t, rfl, ht⟩ := hsplit j hj
    obtain ⟨-, hs, h1⟩ := reverser_series r prob X lead T hX
    obtain ⟨-, -, h2⟩ := reverser_series r prob (reverse r prob X).2 lead T hX
    by_cases h : r i < prob
    · rw [(h2 i).1 h t ht, (h1 i).1 h _ (by omega)]
      congr 3; omega
    · rw [(h2 i).2 h t, (h1 i).2 h t]

/-- A (2, 3) tensor with the second series selected by the draw. -/
example : ∃ y : Tensor ℤ, (invert (fun i => if i = [1] then 0.25 else 0.75) 0.5
      (⟨[2, 3], fun i => (ravel [2, 3] i : ℤ)⟩ : Tensor ℤ)).2 = y ∧
    y.get [1, 2] = -5 ∧ y.get [0, 2] = 2 := by
  obtain ⟨-, -, h⟩ := inverter_series (fun i => if i = [1] then 0.25 else 0.75) 0.5
    (⟨[2, 3], fun i => (ravel [2, 3] i : ℤ)⟩ : Tensor ℤ)
  refine ⟨_, rfl, ?_, ?_⟩
  · simpa [ravel, numel] using (h [1]).1 (by norm_num) 2
  · simpa [ravel, numel] using (h [0]).2 (by norm_num) 2
example : ∃ y : Tensor ℤ, (reverse (fun i => if i = [1] then 0.25 else 0.75) 0.5
      (⟨[2, 3], fun i => (ravel [2, 3] i : ℤ)⟩ : Tensor ℤ)).2 = y ∧
    y.get [1, 2] = 3 ∧ y.get [0, 2] = 2 := by
  obtain ⟨-, -, h⟩ := reverser_series (fun i => if i = [1] then 0.25 else 0.75) 0.5
    (⟨[2, 3], fun i => (ravel [2, 3] i : ℤ)⟩ : Tensor ℤ) [2] 3 rfl
  refine ⟨_, rfl, ?_, ?_⟩
  · simpa [ravel, numel] using (h [1]).1 (by norm_num) 2 (by decide)
  · simpa [ravel, numel] using (h [0]).2 (by norm_num) 2
example : (∀ i : List Nat, ¬ (fun _ => (0.5:ℝ)) i < 0) :=
  (augment_prob_extremes (fun _ => 0.5) (fun _ => by norm_num) 0).1 le_rfl

end Verif.Augment
