import Verif.Tensor
/-!
# Specification: what it means to treat the elements of a batch independently

`x.pick d σ` is `x.index_select(d, σ)`: the elements of dimension `d` listed in `σ`, in that order, with repetitions.  A function treats the
elements of a batch independently if it commutes with every such selection: subsets, permutations, repetitions and single elements.
-/
namespace Verif

/-- `x.index_select(d, σ)`. -/
def Tensor.pick {α : Type _} (d : Nat) (σ : List Nat) (x : Tensor α) : Tensor α :=
  ⟨x.shape.set d σ.length, fun i => x.get (i.set d (σ.getD (i.getD d 0) 0))⟩

namespace Spec.Batch

/-- `σ` is a non-empty list of positions in a batch of `B` elements. -/
def Positions (B : Nat) (σ : List Nat) : Prop := σ ≠ [] ∧ ∀ s ∈ σ, s < B

/-- For every input of shape `(B, *rest)` with an accepted `rest`: the function succeeds, the result has `B` elements too (dimension `d` of the
result), and on any selection of the batch it returns the same selection of the result. -/
def BatchWise {α β : Type _} (accepted : List Nat → Prop) (d : Nat) (f : Tensor α → Res (Tensor β)) : Prop :=
  ∀ (B : Nat) (rest : List Nat) (x : Tensor α) (σ : List Nat), x.shape = B :: rest → accepted rest → Positions B σ →
    ∃ y y', f x = .ok y ∧ f (x.pick 0 σ) = .ok y' ∧ y.shape[d]? = some B ∧ y'.Same (y.pick d σ)

/-- The same for a function of a batch and a second batch with as many elements. -/
def BatchWise2 {α β γ : Type _} (accepted : List Nat → List Nat → Prop) (d : Nat) (f : Tensor α → Tensor β → Res (Tensor γ)) : Prop :=
  ∀ (B : Nat) (rest rest' : List Nat) (x : Tensor α) (z : Tensor β) (σ : List Nat), x.shape = B :: rest → z.shape = B :: rest' → accepted rest rest' →
    Positions B σ → ∃ y y', f x z = .ok y ∧ f (x.pick 0 σ) (z.pick 0 σ) = .ok y' ∧ y.shape[d]? = some B ∧ y'.Same (y.pick d σ)

end Spec.Batch
end Verif
