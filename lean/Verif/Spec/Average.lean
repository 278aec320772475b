import Mathlib.Algebra.BigOperators.Group.Finset.Basic
import Mathlib.Algebra.Field.Defs
/-! # Specification: offline average of overlapping predictions -/
namespace Verif.Spec
variable {K : Type} [Field K]

/-- Prediction number `g` covers the times `g*u, .., g*u + n*u - 1`; `pred g k` is its value at time
`g*u + k`.  The average at time `t` of the first `G` predictions: the sum of those that cover `t`,
divided by `n`. -/
def overlapAverage (n u : Nat) (pred : Nat → Nat → K) (G t : Nat) : K :=
  (∑ g ∈ Finset.range G, if g * u ≤ t ∧ t < g * u + n * u then pred g (t - g * u) else 0) / (n : K)

end Verif.Spec
