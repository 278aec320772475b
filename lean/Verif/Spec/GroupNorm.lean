import Mathlib.Algebra.BigOperators.Group.Finset.Basic
import Mathlib.Analysis.Real.Sqrt
/-! # Specification: group normalisation (Wu & He 2018) -/
namespace Verif.Spec
open Finset

/-- Mean of `f` over the `per` channels of group `g` and all `L` times. -/
noncomputable def groupMean (per L g : Nat) (f : Nat → Nat → ℝ) : ℝ :=
  (∑ j ∈ range per, ∑ t ∈ range L, f (g * per + j) t) / ((per * L : Nat) : ℝ)

/-- Group normalisation of one batch element `x c t` with groups of `per` consecutive channels:
subtract the group mean, divide by the root of the (biased) group variance plus `eps`, then apply the
channel's affine map. -/
noncomputable def groupNorm (per L : Nat) (eps : ℝ) (weight bias : Nat → ℝ) (x : Nat → Nat → ℝ)
    (c t : Nat) : ℝ :=
  let g := c / per
  let μ := groupMean per L g x
  let var := groupMean per L g (fun c t => (x c t - μ) ^ 2)
  (x c t - μ) / Real.sqrt (var + eps) * weight c + bias c

end Verif.Spec
