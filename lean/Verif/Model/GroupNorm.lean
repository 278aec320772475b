import Verif.TensorReal
import Mathlib.Analysis.Real.Sqrt
/-!
# Model of `GroupNorm1D` and the norm layer getters (ml4gw/nn/norm.py)

Real arithmetic is exact.  Negative numbers of groups or channels are not modelled.
-/
namespace Verif.GroupNorm
open Finset

/-- `__init__` (norm.py:16-33): the number of groups, or ValueError.  `num_groups or num_channels`
replaces both `None` and `0`; `num_channels = 0` then raises ZeroDivisionError. -/
def init (numChannels : Nat) (numGroups : Option Nat) : Res Nat :=
  let g := if numGroups.getD 0 = 0 then numChannels else numGroups.getD 0    -- line 23
  if g = 0 then .error .zeroDivision
  else if numChannels % g ≠ 0 then .error .value                             -- lines 24-25
  else .ok g

/-- Lines 54-62: the per-channel statistics averaged over the channels of a group and expanded back.
(norm.py:54-62) -/
noncomputable def groupStats (numChannels numGroups : Nat) (mean sq : Tensor ℝ) :
    Res (Tensor ℝ × Tensor ℝ) := do
  let b := mean.shape.getD 0 0
  let per := numChannels / numGroups
  let st : Tensor ℝ := ⟨[b, 2, mean.shape.getD 1 0], fun i =>                -- torch.stack(.., dim=1)
    if i.getD 1 0 = 0 then mean.get [i.getD 0 0, i.getD 2 0] else sq.get [i.getD 0 0, i.getD 2 0]⟩
  let st ← st.reshapeInfer [] [2, numGroups, per]                            -- lines 56-58
  let st := st.meanLastKeep                                                  -- line 59
  let st : Tensor ℝ := ⟨[st.shape.getD 0 0, 2, numGroups, per], fun i =>     -- expand, line 60
    st.get [i.getD 0 0, i.getD 1 0, i.getD 2 0, 0]⟩
  let st ← st.reshapeInfer [] [2, numChannels, 1]                            -- line 61
  .ok (⟨[st.shape.getD 0 0, numChannels, 1], fun i => st.get (i.getD 0 0 :: 0 :: i.tail)⟩,
       ⟨[st.shape.getD 0 0, numChannels, 1], fun i => st.get (i.getD 0 0 :: 1 :: i.tail)⟩)

/-- Lines 45-62: mean and mean square, of shape `(B, num_channels, 1)`; with one group per channel
the statistics of the channel are used directly. (norm.py:45-62) -/
noncomputable def stats (numChannels numGroups : Nat) (x : Tensor ℝ) : Res (Tensor ℝ × Tensor ℝ) :=
  let sqx := x.map (fun v => v ^ 2)
  if numGroups = numChannels then
    .ok (x.meanLastKeep, sqx.meanLastKeep)                                   -- lines 45-49
  else groupStats numChannels numGroups x.meanLast sqx.meanLast

/-- `forward(x)` (norm.py:36-70); `weight` and `bias` are the parameters of shape `(num_channels, 1)`.
A number of channels of `x` different from `num_channels` raises RuntimeError (broadcasting of a single
channel is not modelled). -/
noncomputable def forward (numChannels numGroups : Nat) (eps : ℝ) (weight bias : Nat → ℝ)
    (x : Tensor ℝ) : Res (Tensor ℝ) :=
  match x.shape with
  | [_, c, _] =>
    if c ≠ numChannels then .error .runtime
    else do
      let (mean, sq) ← stats numChannels numGroups x
      .ok ⟨x.shape, fun i =>
        let b := i.getD 0 0
        let ch := i.getD 1 0
        let m := mean.get [b, ch, 0]
        let std := Real.sqrt (sq.get [b, ch, 0] - m ^ 2 + eps)               -- line 67
        let scale := weight ch / std                                         -- line 68
        let shift := bias ch - scale * m                                     -- line 69
        shift + x.get i * scale⟩                                             -- line 70
  | _ => .error .value                                                       -- lines 39-43

/-- `GroupNorm1DGetter(groups)(num_channels)` (norm.py:80-88): the number of groups of the layer. -/
def getter1D (groups : Option Nat) (numChannels : Nat) : Res Nat :=
  init numChannels (groups.map fun g => min numChannels g)

/-- `GroupNorm2DGetter(groups)(num_channels)` (norm.py:99-107): `torch.nn.GroupNorm` raises ValueError
when the groups do not divide the channels; zero groups raise ZeroDivisionError. -/
def getter2D (groups : Option Nat) (numChannels : Nat) : Res Nat :=
  let g := match groups with
    | none => numChannels
    | some g => min numChannels g
  if g = 0 then .error .zeroDivision
  else if numChannels % g ≠ 0 then .error .value
  else .ok g

end Verif.GroupNorm
