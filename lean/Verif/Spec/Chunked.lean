import Verif.Tensor
/-! # Specification of a batch sampled from one chunk -/
namespace Verif.Spec
variable {α : Type _}

/-- `batch` (`B` elements, `C` channels, windows of `K`) was sampled from `chunk` (rows of `C`
channels of `T` samples): cell `(b, c)` is the window of channel `c` of row `row b c` that starts at
`start b c`; the window lies inside the row; with `coincident` row and start do not depend on the
channel. -/
def SampledFrom (chunk : Tensor α) (C T K B : Nat) (coincident : Bool) (batch : Tensor α) : Prop :=
  batch.shape = [B, C, K] ∧ ∃ row start : Nat → Nat → Nat,
    (∀ b < B, ∀ c < C, row b c < chunk.shape.headD 0 ∧ start b c + K ≤ T ∧
      ∀ t < K, batch.get [b, c, t] = chunk.get [row b c, c, start b c + t]) ∧
    (coincident = true → ∀ b c c', row b c = row b c' ∧ start b c = start b c')

/-- The position whose draw decides kernel `(b, c)`: one per batch element, or one per batch element and channel. -/
def drawPos (co : Bool) (b c : Nat) : List Nat := if co then [b] else [b, c]

end Verif.Spec
