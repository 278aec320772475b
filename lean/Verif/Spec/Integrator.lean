import Mathlib.Algebra.BigOperators.Group.Finset.Basic
import Mathlib.Data.Real.Basic
import Mathlib.Order.Interval.Finset.Nat
/-!
# Specification of the two integrators on one real series
-/
namespace Verif.Spec.Integrator
open Finset

/-- Causal moving average over the last `W` samples, with zero history before the first sample. -/
noncomputable def movingAverage (W : ℕ) (x : ℕ → ℝ) (t : ℕ) : ℝ :=
  (∑ s ∈ Ico (t + 1 - W) (t + 1), x s) / W

/-- The leaky accumulator started at `y0`: each step adds the increment and clips at `lb`. -/
noncomputable def leaky (lb y0 : ℝ) (d : ℕ → ℝ) : ℕ → ℝ
  | 0 => max lb (y0 + d 0)
  | t + 1 => max lb (leaky lb y0 d t + d (t + 1))

/-- The increment of a sample: above the threshold 1 (`count`) or the value itself, below it `-decay`. -/
noncomputable def increment (count : Bool) (threshold decay x : ℝ) : ℝ :=
  if threshold ≤ x then (if count then 1 else x) else -decay

end Verif.Spec.Integrator
