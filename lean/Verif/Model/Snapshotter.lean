import Verif.Model.Unfold
/-!
# Model of `Snapshotter` (ml4gw/nn/streaming/snapshotter.py)
-/
namespace Verif.Snapshotter
open Slicing
variable {α : Type _}

/-- Constructor arguments (snapshotter.py:55-62). -/
structure Config where
  numChannels : Nat
  snapshotSize : Nat
  strideSize : Nat
  batchSize : Nat
  channelsPerSnapshot : Option (List Nat) := none

/-- `self.state_size` (snapshotter.py:72), after the check of lines 64-68. -/
def stateSize (cfg : Config) : Nat := cfg.snapshotSize - cfg.strideSize

/-- `__init__` (snapshotter.py:55-82). -/
def init (cfg : Config) : Res Unit :=
  if cfg.snapshotSize ≤ cfg.strideSize then .error .value                    -- 64-68
  else match cfg.channelsPerSnapshot with
    | some cs => if cs.sum ≠ cfg.numChannels then .error .value else .ok ()  -- 75-80
    | none => .ok ()

/-- `get_initial_state` (snapshotter.py:84-85). -/
def initialState [Zero α] (cfg : Config) : Tensor α := Tensor.zeros [cfg.numChannels, stateSize cfg]

/-- `torch.cat([a, b], axis=-1)` of two rank-2 tensors; RuntimeError if the first dimensions differ.
(snapshotter.py:96) -/
def catLast (a b : Tensor α) : Res (Tensor α) :=
  match a.shape, b.shape with
  | [c, s], [c', u] =>
    if c ≠ c' then .error .runtime
    else .ok ⟨[c, s + u], fun i =>
      if i.getD 1 0 < s then a.get i else b.get [i.getD 0 0, i.getD 1 0 - s]⟩
  | _, _ => .error .runtime

/-- `x[:, -n:]` of a rank-2 tensor, for `n > 0`. (snapshotter.py:118) -/
def lastCols (x : Tensor α) (n : Nat) : Tensor α :=
  let t := x.shape.getD 1 0
  let lo := pySliceBound t (-(n : Int))
  ⟨[x.shape.getD 0 0, t - lo], fun i => x.get [i.getD 0 0, lo + i.getD 1 0]⟩

/-- `torch.split(x, sizes, dim=1)` of a rank-3 tensor, starting at channel `off`. (snapshotter.py:111-113) -/
def splitChannels (x : Tensor α) : Nat → List Nat → List (Tensor α)
  | _, [] => []
  | off, c :: cs =>
    ⟨[x.shape.getD 0 0, c, x.shape.getD 2 0],
      fun i => x.get [i.getD 0 0, off + i.getD 1 0, i.getD 2 0]⟩ :: splitChannels x (off + c) cs

/-- Lines 99-104: the snapshots of the extended state. (snapshotter.py:98-103) -/
def snapshots [Zero α] (cfg : Config) (x : Tensor α) : Res (Tensor α) :=
  if 1 < cfg.batchSize then do
    let (y, _) ← unfoldWindows x cfg.snapshotSize cfg.strideSize true        -- 98-101
    .ok y
  else .ok x.unsqueeze0                                                      -- 103

/-- Lines 106-117: the tuple of snapshot tensors. (snapshotter.py:105-115) -/
def groups (cfg : Config) (y : Tensor α) : Res (List (Tensor α)) :=
  match cfg.channelsPerSnapshot with
  | some cs =>
    if y.shape.getD 1 0 ≠ cfg.numChannels then .error .value                 -- 106-110
    else if cs.sum ≠ y.shape.getD 1 0 then .error .runtime                   -- torch.split
    else .ok (splitChannels y 0 cs)
  | none => .ok [y]

/-- `forward(update, snapshot)` (snapshotter.py:87-119): snapshot tensors and new state. -/
def forward [Zero α] (cfg : Config) (update : Tensor α) (state : Option (Tensor α)) :
    Res (List (Tensor α) × Tensor α) := do
  let st := state.getD (initialState cfg)                                    -- 92-93
  let x ← catLast st update                                                  -- 96
  let y ← snapshots cfg x
  let ys ← groups cfg y
  .ok (ys, lastCols x (stateSize cfg))                                       -- 118-119

/-- A client feeding a list of updates, passing the returned state on. (snapshotter.py:87-119) -/
def run [Zero α] (cfg : Config) : Option (Tensor α) → List (Tensor α) →
    Res (List (List (Tensor α)) × Option (Tensor α))
  | st, [] => .ok ([], st)
  | st, u :: us => do
    let (ys, st') ← forward cfg u st
    let (rest, fin) ← run cfg (some st') us
    .ok (ys :: rest, fin)

end Verif.Snapshotter
