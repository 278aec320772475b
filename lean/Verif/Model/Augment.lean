import Verif.Tensor
import Mathlib.Data.Real.Basic
/-!
# Model of `SignalInverter` and `SignalReverser` (ml4gw/augmentations.py)

`r` is the outcome of `torch.rand(size=X.shape[:-1])`; every theorem holds for all `r`.
Both modules write into their argument and return it, so the model of a call returns the pair
(contents of the argument after the call, returned tensor).
-/
namespace Verif.Augment
variable {α : Type}

/-- `torch.rand(...) < prob` at the series with leading index `lead` (augmentations.py:29, 52). -/
noncomputable def mask (r : List Nat → ℝ) (prob : ℝ) (lead : List Nat) : Bool :=
  open Classical in decide (r lead < prob)

/-- `SignalInverter.forward` (augmentations.py:26-31): `X[mask] *= -1; return X`. -/
noncomputable def invert [Neg α] (r : List Nat → ℝ) (prob : ℝ) (X : Tensor α) : Tensor α × Tensor α :=
  let y : Tensor α := ⟨X.shape, fun i => if mask r prob i.dropLast then -(X.get i) else X.get i⟩
  (y, y)

/-- `SignalReverser.forward` (augmentations.py:49-54): `X[mask] = X[mask].flip(-1); return X`. -/
noncomputable def reverse (r : List Nat → ℝ) (prob : ℝ) (X : Tensor α) : Tensor α × Tensor α :=
  let n := X.shape.getLastD 0
  let y : Tensor α := ⟨X.shape, fun i =>
    if mask r prob i.dropLast then X.get (mapLast (fun t => n - 1 - t) i) else X.get i⟩
  (y, y)

end Verif.Augment
