import Mathlib.Data.Real.Basic
import Mathlib.Algebra.BigOperators.Group.Finset.Basic
/-!
# What a B-spline is, independently of the code

The textbook Cox–de Boor definition over an arbitrary knot sequence, with quotients by zero read as zero
(the usual convention, and Lean's).
-/
namespace Verif.Spline.Spec
open Finset

/-- The textbook B-spline `N i` of degree `d` over the knots `t`. -/
noncomputable def N (t : ℕ → ℝ) : ℕ → ℕ → ℝ → ℝ
  | 0, i, x => if t i ≤ x ∧ x < t (i + 1) then 1 else 0
  | d + 1, i, x =>
    (x - t i) / (t (i + (d + 1)) - t i) * N t d i x
      + (t (i + (d + 1) + 1) - x) / (t (i + (d + 1) + 1) - t (i + 1)) * N t d (i + 1) x

/-- The `n + k + 1` knots of a degree `k` interpolant through the sites `x 0 < ... < x (n-1)`: both end sites repeated
`k + 1` times, and in between the means of `k` consecutive interior sites. -/
def IsKnots (n k : ℕ) (x t : ℕ → ℝ) : Prop :=
  (∀ i ≤ k, t i = x 0) ∧ (∀ i, n ≤ i → i ≤ n + k → t i = x (n - 1)) ∧
    ∀ i, i + k + 1 < n → (k : ℝ) * t (k + 1 + i) = ∑ j ∈ range k, x (i + 1 + j)

/-- The first `n` sites are strictly increasing. -/
def Increasing (n : ℕ) (x : ℕ → ℝ) : Prop := ∀ i j, i < j → j < n → x i < x j

/-- `y` moved to the nearest point of `[a, b]`. -/
noncomputable def nearest (a b y : ℝ) : ℝ := if y < a then a else if b < y then b else y

end Verif.Spline.Spec
