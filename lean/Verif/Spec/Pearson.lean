import Mathlib.Algebra.BigOperators.Group.Finset.Basic
import Mathlib.Analysis.Real.Sqrt
/-!
# Specification: Pearson correlation of two real sequences of length `n`
-/
namespace Verif.Spec.Pearson
open Finset

/-- Sample mean. -/
noncomputable def mean (n : ℕ) (f : ℕ → ℝ) : ℝ := (∑ t ∈ range n, f t) / n

/-- Sum of products of deviations from the means. -/
noncomputable def cov (n : ℕ) (f g : ℕ → ℝ) : ℝ :=
  ∑ t ∈ range n, (f t - mean n f) * (g t - mean n g)

/-- Pearson's correlation coefficient; undefined (`none`) if one of the sequences is constant. -/
noncomputable def corr (n : ℕ) (f g : ℕ → ℝ) : Option ℝ :=
  if cov n f f = 0 ∨ cov n g g = 0 then none
  else some (cov n f g / (Real.sqrt (cov n f f) * Real.sqrt (cov n g g)))

/-- The series `x` of length `n` advanced by `d` samples, zero outside its range. -/
def shifted (n : ℕ) (x : ℕ → ℝ) (d : ℤ) (t : ℕ) : ℝ :=
  if 0 ≤ (t : ℤ) + d ∧ (t : ℤ) + d < n then x ((t : ℤ) + d).toNat else 0

end Verif.Spec.Pearson
