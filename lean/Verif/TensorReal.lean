import Verif.Tensor
import Mathlib.Algebra.BigOperators.Group.Finset.Basic
import Mathlib.Data.Real.Basic
/-!
# Reductions on real tensors

Exact real arithmetic; the meaning of the torch reductions used by the modelled code.
-/
namespace Verif.Tensor
open Finset

/-- `x.mean(-1)` as a function of the leading index. -/
noncomputable def meanAt (x : Tensor ℝ) (lead : List Nat) : ℝ :=
  (∑ t ∈ range (x.shape.getLastD 0), x.get (lead ++ [t])) / (x.shape.getLastD 0 : ℝ)

/-- `x.mean(-1, keepdims=False)`. -/
noncomputable def meanLast (x : Tensor ℝ) : Tensor ℝ := ⟨x.shape.dropLast, fun i => x.meanAt i⟩

/-- `x.mean(-1, keepdims=True)`. -/
noncomputable def meanLastKeep (x : Tensor ℝ) : Tensor ℝ :=
  ⟨x.shape.dropLast ++ [1], fun i => x.meanAt i.dropLast⟩

end Verif.Tensor
