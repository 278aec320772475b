import Verif.TensorReal
/-!
# More torch primitives: padding and sums along the last axis
-/
namespace Verif.Tensor
open Finset
variable {α : Type _}

/-- `torch.nn.functional.pad(x, (l, r))`: zero padding of the last axis; negative amounts crop.
RuntimeError if the resulting size is negative (or the tensor has no axis). -/
def padLast [Zero α] (x : Tensor α) (l r : Int) : Res (Tensor α) := do
  let n ← x.lastDim
  if (n : Int) + l + r < 0 then .error .runtime
  else .ok ⟨x.shape.dropLast ++ [((n : Int) + l + r).toNat], fun i =>
    let t : Int := (i.getLastD 0 : Nat)
    if 0 ≤ t - l ∧ t - l < n then x.get (i.dropLast ++ [(t - l).toNat]) else 0⟩

/-- `x.sum(-1)`. -/
noncomputable def sumLast (x : Tensor ℝ) : Tensor ℝ :=
  ⟨x.shape.dropLast, fun i => ∑ t ∈ range (x.shape.getLastD 0), x.get (i ++ [t])⟩

end Verif.Tensor
