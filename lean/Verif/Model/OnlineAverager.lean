import Verif.Model.Unfold
import Mathlib.Algebra.BigOperators.Group.Finset.Basic
import Mathlib.Algebra.Field.Defs
/-!
# Model of `OnlineAverager` (ml4gw/nn/streaming/online_average.py)

Arithmetic is exact, in an arbitrary field (floating point rounding is not modelled).
-/
namespace Verif.OnlineAverager
open Slicing
variable {K : Type} [Field K]

/-- Constructor arguments (online_average.py:33-40). -/
structure Config where
  updateSize : Nat
  batchSize : Nat
  numUpdates : Nat
  numChannels : Nat
  offset : Option Nat := none

/-- `self.state_size` (online_average.py:52). -/
def stateSize (cfg : Config) : Nat := (cfg.numUpdates - 1) * cfg.updateSize
/-- `self.batch_update_size` (online_average.py:51). -/
def batchUpdateSize (cfg : Config) : Nat := cfg.batchSize * cfg.updateSize
/-- `weight_size` (online_average.py:67), the length of the part of an update that is used. -/
def weightSize (cfg : Config) : Nat := cfg.numUpdates * cfg.updateSize

/-- `torch.scatter(base, -1, idx, src)` on tensors of rank 3: the value at `(b, c, p)` is `src` at the
last `k` with `idx[b, c, k] = p`, and `base` if there is none.  RuntimeError for an index out of range.
(online_average.py:66, 109) -/
def scatterLast {α : Type} (base : Tensor α) (idx : Tensor Int) (src : Tensor α) : Res (Tensor α) :=
  if (Tensor.allIdx idx.shape).all
      (fun i => decide (0 ≤ idx.get i ∧ idx.get i < ((base.shape.getD 2 0 : Nat) : Int))) then
    .ok ⟨base.shape, fun i =>
      match (List.range (idx.shape.getD 2 0)).reverse.find?
          (fun k => decide (idx.get [i.getD 0 0, i.getD 1 0, k] = ((i.getD 2 0 : Nat) : Int))) with
      | some k => src.get [i.getD 0 0, i.getD 1 0, k]
      | none => base.get i⟩
  else .error .runtime

/-- `self.blank` (online_average.py:53-55). -/
def blank (cfg : Config) : Tensor K :=
  Tensor.zeros [cfg.batchSize, cfg.numChannels, batchUpdateSize cfg + stateSize cfg]

/-- `self.idx` (online_average.py:59-62): `idx[b, c, k] = k + b * update_size`. -/
def idx (cfg : Config) : Tensor Int :=
  ⟨[cfg.batchSize, cfg.numChannels, weightSize cfg], fun i =>
    ((i.getD 2 0 + i.getD 0 0 * cfg.updateSize : Nat) : Int)⟩

/-- `x.sum(0)` of a rank-3 tensor. (online_average.py:66, 110) -/
def sumBatch (x : Tensor K) : Tensor K :=
  ⟨x.shape.drop 1, fun i => ∑ b ∈ Finset.range (x.shape.getD 0 0), x.get (b :: i)⟩

/-- `self.weights` (online_average.py:66-69).  `batch_size = 0` fails in `torch.stack` (online_average.py:60). -/
def weights (cfg : Config) : Res (Tensor K) :=
  if cfg.batchSize = 0 then .error .runtime
  else do
    let w ← scatterLast (blank cfg) (idx cfg)
      ⟨[cfg.batchSize, cfg.numChannels, weightSize cfg], fun _ => 1⟩
    let (w, _) ← unfoldWindows (sumBatch w) (weightSize cfg) cfg.updateSize true
    .ok w

/-- `get_initial_state` (online_average.py:71-74). -/
def initialState (cfg : Config) : Tensor K := Tensor.zeros [cfg.numChannels, stateSize cfg]

/-- `update[:, :, start:end]` (online_average.py:88-94): bounds of the slice on an axis of length `l`.
Note `-0 = 0`, so `offset = 0` gives `end = 0`. -/
def sliceBounds (cfg : Config) (l : Nat) : Nat × Nat :=
  match cfg.offset with
  | some o => (pySliceBound l (-(weightSize cfg : Int) + -(o : Int)), pySliceBound l (-(o : Int)))
  | none => (pySliceBound l (-(weightSize cfg : Int)), l)

/-- Line 93: the slice divided by `num_updates`. (online_average.py:94) -/
def usedPart (cfg : Config) (update : Tensor K) : Tensor K :=
  let b := sliceBounds cfg (update.shape.getD 2 0)
  ⟨[update.shape.getD 0 0, update.shape.getD 1 0, b.2 - b.1], fun i =>
    update.get [i.getD 0 0, i.getD 1 0, b.1 + i.getD 2 0] / (cfg.numUpdates : K)⟩

/-- `torch.nn.functional.pad(state, (0, n))` (online_average.py:98). -/
def padRight (x : Tensor K) (n : Nat) : Tensor K :=
  ⟨[x.shape.getD 0 0, x.shape.getD 1 0 + n], fun i =>
    if i.getD 1 0 < x.shape.getD 1 0 then x.get i else 0⟩

/-- `forward(update, state)` (online_average.py:76-123).  The in-place operations of online_average.py:103-104 raise
RuntimeError unless the shapes agree (broadcasting of size-1 dimensions is not modelled). -/
def forward (cfg : Config) (update : Tensor K) (state : Option (Tensor K)) :
    Res (Tensor K × Tensor K) := do
  let w ← weights cfg
  let st := state.getD (initialState cfg)                                    -- 80-81
  let x := usedPart cfg update                                               -- 87-93
  let st := padRight st (batchUpdateSize cfg)                                -- 97
  let (win, _) ← unfoldWindows st ((x.shape.getD 2 0 : Nat) : Int) cfg.updateSize true  -- 101
  if win.shape ≠ w.shape ∨ win.shape ≠ x.shape then .error .runtime          -- 102-103
  else
    let win : Tensor K := ⟨win.shape, fun i => win.get i / w.get i + x.get i⟩
    let padded ← scatterLast (blank cfg) (idx cfg) win                       -- 108
    let new := sumBatch padded                                               -- 109
    if cfg.numUpdates = 1 then .ok (new, initialState cfg)                   -- 111-114
    else new.splitLast2 (batchUpdateSize cfg) (stateSize cfg)                -- 119-121

/-- A client feeding a list of updates, passing the returned state on. (online_average.py:76-123) -/
def run (cfg : Config) : Option (Tensor K) → List (Tensor K) → Res (List (Tensor K) × Option (Tensor K))
  | st, [] => .ok ([], st)
  | st, u :: us => do
    let (y, st') ← forward cfg u st
    let (rest, fin) ← run cfg (some st') us
    .ok (y :: rest, fin)

end Verif.OnlineAverager
