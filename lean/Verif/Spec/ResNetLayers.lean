import Mathlib.Data.Real.Basic
/-!
# Vocabulary for the layers of the residual networks (C100)
-/
namespace Verif.Spec.Layers

/-- A finite sequence of length `L` continued by zeros to all integers. -/
noncomputable def ext1 (L : ℕ) (x : ℕ → ℝ) (z : ℤ) : ℝ := if 0 ≤ z ∧ z < L then x z.toNat else 0

/-- A finite `H` by `W` array continued by zeros to all pairs of integers. -/
noncomputable def ext2 (H W : ℕ) (x : ℕ → ℕ → ℝ) (y z : ℤ) : ℝ := if (0 ≤ y ∧ y < H) ∧ (0 ≤ z ∧ z < W) then x y.toNat z.toNat else 0

end Verif.Spec.Layers
