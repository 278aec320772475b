import Verif.Tensor
/-!
# Model of `unfold_windows` (ml4gw/utils/slicing.py:18-87)
-/
namespace Verif.Slicing
variable {α : Type _}

/-- `x[None, None, None, :]`, `x[None, :, None, :]`, `x[:, :, None, :]` for rank 1, 2, 3
(slicing.py:73-78).  Other ranks are passed to `unfold` unchanged; the type annotation
`TimeSeries1to3d` excludes them and they are not modelled (RuntimeError here). -/
def to4d (x : Tensor α) : Res (Tensor α) :=
  match x.shape with
  | [t] => .ok ⟨[1, 1, 1, t], fun i => x.get [i.getD 3 0]⟩
  | [c, t] => .ok ⟨[1, c, 1, t], fun i => x.get [i.getD 1 0, i.getD 3 0]⟩
  | [b, c, t] => .ok ⟨[b, c, 1, t], fun i => x.get [i.getD 0 0, i.getD 1 0, i.getD 3 0]⟩
  | _ => .error .runtime

/-- Lines 72-83 of slicing.py: unfold a tensor whose last dimension is evenly covered by
`numWindows` windows at distance `stride`.
`transpose(1, -2)` is written with the normalised dimension `ndim-2`. (slicing.py:72-83) -/
def unfoldEven (x : Tensor α) (numWindows stride : Int) : Res (Tensor α) := do
  let lead := x.shape.dropLast                                        -- line 72
  let x4 ← to4d x                                                     -- lines 73-78
  let u ← x4.unfold1 numWindows stride                                -- line 80
  let r ← u.reshapeInfer (lead ++ [numWindows.toNat]) []              -- lines 81-82
  .ok ((r.transpose 1 (r.ndim - 2)).transpose 0 1)                    -- line 83

/-- `unfold_windows(x, window_size, stride, drop_last)` (slicing.py:18-87).
The second component is `remainder[None]` and is present exactly when `drop_last` is false. -/
def unfoldWindows [Zero α] (x : Tensor α) (windowSize stride : Int) (dropLast : Bool) :
    Res (Tensor α × Option (Tensor α)) := do
  let t ← x.lastDim
  let q ← pyFloorDiv ((t : Int) - windowSize) stride
  let numWindows := q + 1                                             -- line 57
  let remainder := (t : Int) - windowSize - (numWindows - 1) * stride -- line 58
  let (x, rem) ←
    if remainder = 0 then                                             -- line 59
      .ok (x, Tensor.zeros (mapLast (fun _ => 0) x.shape))            -- lines 60-64
    else
      x.splitLast2 ((t : Int) - remainder) remainder                  -- lines 68-70
  let y ← unfoldEven x numWindows stride                              -- lines 72-83
  if dropLast then .ok (y, none) else .ok (y, some rem.unsqueeze0)    -- lines 85-87

end Verif.Slicing
