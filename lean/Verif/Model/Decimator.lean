import Verif.Tensor
import Mathlib.Data.Int.Init
/-!
# Model of `Decimator` (ml4gw/transforms/decimator.py)

The schedule is an integer tensor, as in the class documentation (float schedules are not modelled), and
integers do not overflow.
-/
namespace Verif.Decimator

/-- A row of the schedule: start time, end time, target rate. (decimator.py:36-44, 123) -/
structure Row where
  start : Int
  stop : Int
  rate : Int
  deriving DecidableEq

/-- The rows of a `(N, 3)` schedule. (`for s in self.schedule`, decimator.py:158, 189) -/
def rowsOf (sched : Tensor Int) : List Row :=
  (List.range (sched.shape.headD 0)).map fun i => ⟨sched.get [i, 0], sched.get [i, 1], sched.get [i, 2]⟩

/-- `starts[1:] < ends[:-1]` for some adjacent pair of rows (decimator.py:139-142). -/
def adjacentOverlap : List Row → Bool
  | a :: b :: l => decide (b.start < a.stop) || adjacentOverlap (b :: l)
  | _ => false

/-- `_validate_inputs` (decimator.py:118-146).  `sample_rate % 0` on integer tensors raises RuntimeError. -/
def validate (sr : Int) (sched : Tensor Int) (split : Bool) : Res Unit := do
  if sched.shape.length ≠ 2 ∨ sched.shape.getD 1 0 ≠ 3 then .error .value              -- lines 123-126
  else if (rowsOf sched).any fun r => decide (r.stop ≤ r.start) then .error .value     -- lines 128-131
  else if (rowsOf sched).any fun r => decide (r.rate = 0) then .error .runtime
  else if (rowsOf sched).any fun r => decide (Int.fmod sr r.rate ≠ 0) then .error .value  -- lines 133-137
  else if split = false ∧ adjacentOverlap (rowsOf sched) = true then .error .value     -- lines 139-146
  else .ok ()

/-- `torch.arange(start, stop, step)` on ints. (decimator.py:165, 193-199) -/
def arangeI (start stop step : Int) : Res (List Int) :=
  if step = 0 then .error .runtime
  else if (0 < step ∧ stop < start) ∨ (step < 0 ∧ start < stop) then .error .runtime
  else .ok ((List.range (-(Int.fdiv (start - stop) step)).toNat).map fun (k : Nat) => start + step * (k : Int))

/-- `idx[-1] + (idx[-1] - idx[-2])` (decimator.py:162); IndexError if there is one index only. -/
def nextStart (idx : List Int) : Res Int :=
  match idx.reverse with
  | a :: b :: _ => .ok (a + (a - b))
  | _ => .error .index

/-- The start of the next block of indices (decimator.py:159-162). -/
def segStart (sr : Int) (idx : List Int) (r : Row) : Res Int :=
  if idx.length = 0 then .ok (r.start * sr) else nextStart idx

/-- One iteration of `build_variable_indices` (decimator.py:158-166). -/
def buildStep (sr : Int) (idx : List Int) (r : Row) : Res (List Int) := do
  let start ← segStart sr idx r                                                        -- lines 159-162
  let stop := start + (r.stop - r.start) * sr                                          -- line 163
  let new ← arangeI start stop (Int.fdiv sr r.rate)                                    -- lines 164-165
  .ok (idx ++ new)                                                                     -- line 166

/-- `build_variable_indices` (decimator.py:148-167). -/
def buildIndices (sr : Int) (rows : List Row) : Res (List Int) := rows.foldlM (buildStep sr) []

/-- The state of a `Decimator`. (decimator.py:105-116) -/
structure State where
  sr : Int
  rows : List Row
  split : Bool
  idx : List Int
  expectedLen : Int

/-- `Decimator.__init__` (decimator.py:98-116); `schedule[:, 1][-1]` of an empty schedule raises IndexError. -/
def init (sr : Int) (sched : Tensor Int) (split : Bool) : Res State := do
  let _ ← validate sr sched split
  let idx ← buildIndices sr (rowsOf sched)
  match (rowsOf sched).head?, (rowsOf sched).getLast? with
  | some f, some l => .ok ⟨sr, rowsOf sched, split, idx, (l.stop - f.start) * sr⟩
  | _, _ => .error .index

/-- `X.index_select(dim=-1, index=idx)`; an index out of range raises IndexError. (decimator.py:200, 233) -/
def indexSelect {α : Type} (x : Tensor α) (idx : List Int) : Res (Tensor α) := do
  let n ← x.lastDim
  if idx.all fun k => decide (0 ≤ k ∧ k < n) then
    .ok ⟨mapLast (fun _ => idx.length) x.shape, fun i => x.get (mapLast (fun k => (idx.getD k 0).toNat) i)⟩
  else .error .index

/-- One segment of `split_by_schedule` (decimator.py:189-200). -/
def segment {α : Type} (sr : Int) (x : Tensor α) (r : Row) : Res (Tensor α) := do
  let idx ← arangeI (r.start * sr) (r.stop * sr) (Int.fdiv sr r.rate)
  indexSelect x idx

/-- `split_by_schedule` (decimator.py:169-203). -/
def splitBySchedule {α : Type} (s : State) (x : Tensor α) : Res (List (Tensor α)) :=
  s.rows.mapM (segment s.sr x)

/-- The value of a call: one tensor (`split=False`) or a list of tensors. (decimator.py:208) -/
inductive Out (α : Type) where
  | one (t : Tensor α)
  | list (ts : List (Tensor α))

/-- `forward` (decimator.py:205-233). -/
def forward {α : Type} (s : State) (x : Tensor α) : Res (Out α) := do
  let n ← x.lastDim
  if (n : Int) ≠ s.expectedLen then .error .value                                      -- lines 224-228
  else if s.split = true then do
    let segs ← splitBySchedule s x                                                     -- lines 230-231
    .ok (.list segs)
  else do
    let y ← indexSelect x s.idx                                                        -- line 233
    .ok (.one y)

end Verif.Decimator
