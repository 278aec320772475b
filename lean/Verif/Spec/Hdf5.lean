import Verif.Tensor
/-! # Specification of a batch read from a set of files -/
namespace Verif.Spec
variable {α : Type _}

/-- `batch` (`B × C × K`) was read from the files: cell `(b, c)` is the window of `K` samples of channel
`c` of `file b c` that starts at `start b c`, inside the dataset; every file is one of `allowed`. -/
def ReadFrom (data : String → Nat → List α) (allowed : List String) (B C K : Nat)
    (file : Nat → Nat → String) (start : Nat → Nat → Nat) (batch : Tensor (Option α)) : Prop :=
  batch.shape = [B, C, K] ∧ ∀ b < B, ∀ c < C, file b c ∈ allowed ∧
    start b c + K ≤ (data (file b c) c).length ∧
    ∀ t < K, batch.get [b, c, t] = (data (file b c) c)[start b c + t]?

end Verif.Spec
