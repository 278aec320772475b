import Verif.Tensor
/-! # Specification of streams of samples -/
namespace Verif.Spec
variable {α : Type _}

/-- The samples of channel `c` of a `(channels, time)` tensor. -/
def row2 (x : Tensor α) (c : Nat) : List α :=
  (List.range (x.shape.getD 1 0)).map fun t => x.get [c, t]

/-- The samples of channel `c` of element `b` of a `(batch, channels, time)` tensor. -/
def row3 (x : Tensor α) (b c : Nat) : List α :=
  (List.range (x.shape.getD 2 0)).map fun t => x.get [b, c, t]

/-- All elements of a `(batch, channels, time)` tensor, for channel `c`. -/
def rows3 (x : Tensor α) (c : Nat) : List (List α) :=
  (List.range (x.shape.getD 0 0)).map fun b => row3 x b c

/-- The concatenation of the updates, for channel `c`. -/
def stream (us : List (Tensor α)) (c : Nat) : List α := us.flatMap fun u => row2 u c

/-- The first `n` windows of length `k` at spacing `stride` of a series. -/
def windows (z : List α) (k stride n : Nat) : List (List α) :=
  (List.range n).map fun w => (z.drop (w * stride)).take k

end Verif.Spec
