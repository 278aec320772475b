import Mathlib.Probability.Independence.Basic
/-!
# What it means for the random source of `torch.randint` to be fair
-/
namespace Verif.Spec
open MeasureTheory ProbabilityTheory

/-- One draw per position; the draws are independent, and each is uniform on the `n` residues. -/
structure UniformDraws {Ω : Type*} [MeasurableSpace Ω] (μ : Measure Ω) (r : Ω → List Nat → Nat) (n : Nat) : Prop where
  indep : iIndepFun (fun (i : List Nat) w => r w i) μ
  uniform : ∀ i, ∀ j < n, μ {w | r w i % n = j} = (n : ENNReal)⁻¹

end Verif.Spec
