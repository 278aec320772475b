import Verif.TensorReal
import Mathlib.Analysis.Real.Sqrt
/-!
# Model of `FittableTransform` and `ChannelWiseScaler`
(ml4gw/transforms/transform.py:7-38, ml4gw/transforms/scaler.py)

The state of a module is the list of its registered buffers (name and value) and the flag `built`.
Real arithmetic is exact.
-/
namespace Verif.Fittable
open Finset
variable {α : Type}

/-- The state of a module (transform.py:8-10); Python dictionaries are lists of distinct names. -/
structure State (α : Type) where
  buffers : List (String × Tensor α)
  built : Bool

/-- `dst.copy_(src)`: the source is broadcast to the shape of the destination (RuntimeError otherwise).
(transform.py:15) -/
def copyInto (dst src : Tensor α) : Res (Tensor α) :=
  if Tensor.bcShapeRev dst.shape.reverse src.shape.reverse = some dst.shape.reverse then
    .ok ⟨dst.shape, fun i => src.get (Tensor.bcIdx src.shape i)⟩
  else .error .runtime

/-- Lookup in a dictionary. (`state_dict[name]`, transform.py:15) -/
def lookup (bs : List (String × Tensor α)) (name : String) : Option (Tensor α) :=
  (bs.find? fun p => p.1 = name).map (·.2)

/-- In-place change of the buffer `name`. (transform.py:15) -/
def setBuf (bs : List (String × Tensor α)) (name : String) (v : Tensor α) : List (String × Tensor α) :=
  bs.map fun p => if p.1 = name then (name, v) else p

/-- The loop of `build` (transform.py:14-15): buffers after the loop and the exception that ended it. -/
def copyLoop (bs : List (String × Tensor α)) : List (String × Tensor α) → List (String × Tensor α) × Option Err
  | [] => (bs, none)
  | (name, v) :: rest =>
    match lookup bs name with
    | none => (bs, some .key)                                                 -- state_dict[name]
    | some d =>
      match copyInto d v with
      | .error e => (bs, some e)
      | .ok d' => copyLoop (setBuf bs name d') rest

/-- `build(**params)` (transform.py:12-16): the new state and the exception, if any. -/
def build (s : State α) (params : List (String × Tensor α)) : State α × Option Err :=
  match copyLoop s.buffers params with
  | (bs, none) => (⟨bs, true⟩, none)
  | (bs, some e) => (⟨bs, s.built⟩, some e)

/-- `_check_built` as called by `__call__` (transform.py:18-27). -/
def checkBuilt (s : State α) : Res Unit := if s.built then .ok () else .error .value

/-- `torch.nn.Module._load_from_state_dict` for the buffers of this module: a buffer whose name is in the
state dict and whose shape agrees is replaced; a wrong shape adds an error message, a missing name does
not (it goes to `missing_keys`). (transform.py:33) -/
def loadBuffers (bs sd : List (String × Tensor α)) : List (String × Tensor α) :=
  bs.map fun p => (p.1, match lookup sd p.1 with
    | some v => if v.shape = p.2.shape then v else p.2
    | none => p.2)

/-- Number of error messages added by the load. (transform.py:32-37) -/
def loadErrors (bs sd : List (String × Tensor α)) : Nat :=
  (bs.filter fun p => match lookup sd p.1 with
    | some v => v.shape ≠ p.2.shape
    | none => false).length

/-- `load_state_dict(sd, strict)` with the override of transform.py:29-38: `built` becomes true when no
error message was added.  At the end `load_state_dict` raises RuntimeError when there are error messages, or
(strict) missing or unexpected keys; the state has changed by then. -/
def load (s : State α) (sd : List (String × Tensor α)) (strict : Bool) : State α × Option Err :=
  let errs := loadErrors s.buffers sd
  let s' : State α := ⟨loadBuffers s.buffers sd, if errs = 0 then true else s.built⟩
  let missing := s.buffers.any fun p => (lookup sd p.1).isNone
  let unexpected := sd.any fun p => (lookup s.buffers p.1).isNone
  (s', if errs ≠ 0 ∨ (strict = true ∧ (missing = true ∨ unexpected = true)) then some .runtime else none)

/-- What a client does with a transform. (transform.py:12, 25, 29) -/
inductive Op (α : Type) where
  | build (params : List (String × Tensor α))
  | load (sd : List (String × Tensor α)) (strict : Bool)
  | call

/-- One operation: new state and the exception it raised, if any (`call` stands for the check that precedes
`forward`, which does not change the state). (transform.py:12-39) -/
def step (s : State α) : Op α → State α × Option Err
  | .build p => build s p
  | .load sd strict => load s sd strict
  | .call => (s, match checkBuilt s with | .ok () => none | .error e => some e)

/-- The state after a history of operations (a client may catch every exception and go on). (transform.py:12-39) -/
def runOps (s : State α) (ops : List (Op α)) : State α := ops.foldl (fun s o => (step s o).1) s

/-! ## ChannelWiseScaler -/

/-- `ChannelWiseScaler.__init__` (scaler.py:25-35): `num_channels or 1`. -/
noncomputable def scalerInit (numChannels : Option Nat) : State ℝ :=
  let n := if numChannels.getD 0 = 0 then 1 else numChannels.getD 0
  let shape := if numChannels.isSome then [n, 1] else [n]
  ⟨[("mean", ⟨shape, fun _ => 0⟩), ("std", ⟨shape, fun _ => 1⟩)], false⟩

/-- `X.std(dim=-1, correction=0, keepdim=True) + std_reg`. (scaler.py:51, 56, 62) -/
noncomputable def stdKeep (X : Tensor ℝ) (reg : ℝ) : Tensor ℝ :=
  ⟨X.shape.dropLast ++ [1], fun i =>
    Real.sqrt ((∑ t ∈ range (X.shape.getLastD 0), (X.get (i.dropLast ++ [t]) - X.meanAt i.dropLast) ^ 2)
      / (X.shape.getLastD 0 : ℝ)) + reg⟩

/-- The rank of a buffer. (scaler.py:48, 53) -/
def rankOf (s : State ℝ) (name : String) : Nat := ((lookup s.buffers name).map Tensor.ndim).getD 0
/-- The first dimension of a buffer. (scaler.py:54) -/
def sizeOf0 (s : State ℝ) (name : String) : Nat := ((lookup s.buffers name).map fun b => b.shape.headD 0).getD 0

/-- `ChannelWiseScaler.fit` (scaler.py:37-63).  `std_reg=None` is accepted by the annotation and raises
TypeError in line 62. -/
noncomputable def scalerFit (s : State ℝ) (X : Tensor ℝ) (stdReg : Option ℝ) : State ℝ × Option Err :=
  let go := match stdReg with
    | some reg => build s [("mean", X.meanLastKeep), ("std", stdKeep X reg)]   -- lines 62-63
    | none => (s, some .type)
  if X.ndim = 1 then                                                           -- lines 47-51
    if rankOf s "mean" = 1 ∧ rankOf s "std" = 1 then go else (s, some .assertion)
  else if X.ndim = 2 then                                                      -- lines 52-56
    if ¬ (rankOf s "mean" = 2 ∧ rankOf s "std" = 2) then (s, some .assertion)
    else if ¬ (X.shape.headD 0 = sizeOf0 s "mean" ∧ sizeOf0 s "mean" = sizeOf0 s "std") then (s, some .assertion)
    else go
  else (s, some .value)                                                        -- lines 57-61

/-- `scaler(X, reverse)` (scaler.py:65-71), including the check in `__call__`. -/
noncomputable def scalerCall (s : State ℝ) (X : Tensor ℝ) (reverse : Bool) : Res (Tensor ℝ) := do
  checkBuilt s
  match lookup s.buffers "mean", lookup s.buffers "std" with
  | some mean, some std =>
    if reverse then do
      let y ← Tensor.zipB (fun x s => s * x) X std                             -- line 71
      Tensor.zipB (fun x m => x + m) y mean
    else do
      let y ← Tensor.zipB (fun x m => x - m) X mean                            -- line 69
      Tensor.zipB (fun x s => x / s) y std
  | _, _ => .error .attribute

end Verif.Fittable
