import Verif.Tensor
import Mathlib.Algebra.BigOperators.Group.Finset.Basic
import Mathlib.Data.Real.Basic
/-!
# Model of the torch layers used by ml4gw/nn/resnet: convolution, max pooling, average pooling, linear layer

These are torch primitives; the definitions fix their meaning (real arithmetic, any number of spatial dimensions) and are part of the trusted base.
A batch element is a function of the channel and the spatial position.
-/
namespace Verif.Conv
open Finset

/-- Weight of a convolution: output channel, input channel within the group, kernel position.
(`m.weight` of resnet_1d.py:32-41, 46-48, resnet_2d.py:29-38, 43-45) -/
abbrev Weight := ℕ → ℕ → List ℕ → ℝ

/-- Input position read along one dimension of length `L` by output position `t` at kernel position `u`: `t * stride + u * dilation - padding`; none in
the padding. (resnet_1d.py:32-41, 271-281, resnet_2d.py:29-38, 271-281) -/
def tap (s p d L t u : ℕ) : Option ℕ := if p ≤ t * s + u * d ∧ t * s + u * d < L + p then some (t * s + u * d - p) else none

/-- `tap` in every spatial dimension. (resnet_1d.py:32-41, 271-281, resnet_2d.py:29-38, 271-281) -/
def taps (s p d : ℕ) : List ℕ → List ℕ → List ℕ → Option (List ℕ)
  | [], _, _ => some []
  | L :: S, t, u =>
    match tap s p d L (t.headD 0) (u.headD 0), taps s p d S t.tail u.tail with
    | some j, some js => some (j :: js)
    | _, _ => none

/-- Output channel `o` at position `t` of a grouped convolution without bias (`padding_mode="zeros"`) of one batch element `x` with spatial dimensions `S`.
(resnet_1d.py:32-41, 46-48, 271-278, resnet_2d.py:29-38, 43-45, 271-278) -/
noncomputable def convAt (inC outC k s p d groups : ℕ) (w : Weight) (S : List ℕ) (x : ℕ → List ℕ → ℝ) (o : ℕ) (t : List ℕ) : ℝ :=
  ∑ c ∈ range (inC / groups), ((Tensor.allIdx (S.map fun _ => k)).map fun u =>
    w o c u * (match taps s p d S t u with
      | some j => x (o / (outC / groups) * (inC / groups) + c) j
      | none => 0)).sum

/-- Max pooling with `kernel_size=3, stride=2, padding=1` of one channel: the padding never wins.
(resnet_1d.py:281, resnet_2d.py:281) -/
noncomputable def maxAt (S : List ℕ) (x : List ℕ → ℝ) (t : List ℕ) : ℝ :=
  (((Tensor.allIdx (S.map fun _ => 3)).filterMap fun u => (taps 2 1 1 S t u).map x).max?).getD 0

/-- `AdaptiveAvgPool` to size 1 of one channel. (resnet_1d.py:307, resnet_2d.py:307) -/
noncomputable def avgAt (S : List ℕ) (x : List ℕ → ℝ) : ℝ := ((Tensor.allIdx S).map x).sum / (numel S : ℝ)

/-- `nn.Linear` applied to `n` features. (resnet_1d.py:311, resnet_2d.py:311) -/
noncomputable def linearAt (n : ℕ) (w : ℕ → ℕ → ℝ) (b : ℕ → ℝ) (v : ℕ → ℝ) (o : ℕ) : ℝ := ∑ c ∈ range n, w o c * v c + b o

end Verif.Conv
