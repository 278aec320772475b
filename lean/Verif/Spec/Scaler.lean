import Mathlib.Algebra.BigOperators.Group.Finset.Basic
import Mathlib.Analysis.Real.Sqrt
/-! # Specification: mean and (population) standard deviation of a series -/
namespace Verif.Spec.Scaler
open Finset

noncomputable def mean (n : ℕ) (x : ℕ → ℝ) : ℝ := (∑ t ∈ range n, x t) / n
noncomputable def var (n : ℕ) (x : ℕ → ℝ) : ℝ := mean n fun t => (x t - mean n x) ^ 2
noncomputable def std (n : ℕ) (x : ℕ → ℝ) : ℝ := Real.sqrt (var n x)

end Verif.Spec.Scaler
