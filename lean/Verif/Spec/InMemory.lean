import Verif.Tensor
/-!
# Specification of windowed batches
-/
namespace Verif.Spec
variable {α : Type _}

/-- `batch` consists of the windows of length `K` of the series `X` (`C` channels), and of the target
`y` if there is one, that begin at the sample positions listed in `starts`. -/
def IsBatch (X : Tensor α) (C K : Nat) (y : Option (Tensor α)) (starts : List Nat)
    (batch : Tensor α × Option (Tensor α)) : Prop :=
  batch.1.shape = [starts.length, C, K] ∧
  (∀ j c t (hj : j < starts.length), c < C → t < K →
    batch.1.get [j, c, t] = X.get [c, starts[j] + t]) ∧
  match y with
  | none => batch.2 = none
  | some y => ∃ yb, batch.2 = some yb ∧ yb.shape = [starts.length, K] ∧
      ∀ j t (hj : j < starts.length), t < K → yb.get [j, t] = y.get [starts[j] + t]

/-- As `IsBatch`, with one start per channel and batch element (`starts[j]` lists the starts of the
channels). -/
def IsIndependentBatch (X : Tensor α) (C K : Nat) (starts : List (List Nat))
    (batch : Tensor α) : Prop :=
  batch.shape = [starts.length, C, K] ∧
  ∀ j c t (hj : j < starts.length), c < C → t < K →
    batch.get [j, c, t] = X.get [c, (starts[j]).getD c 0 + t]

/-- The start positions of all windows at spacing `stride`: `0, stride, 2*stride, ...`. -/
def allStarts (T K stride : Nat) : List Nat :=
  (List.range ((T - K) / stride + 1)).map (· * stride)

end Verif.Spec
