import Verif.Tensor
/-!
# Model of `WaveformSampler` (ml4gw/transforms/waveforms.py:11-59)
-/
namespace Verif.WaveformSampler

/-- `x.shape[0]`; IndexError on 0-d tensors. (waveforms.py:29) -/
def firstDim {α : Type} (t : Tensor α) : Res Nat :=
  match t.shape with
  | n :: _ => .ok n
  | [] => .error .index

/-- One iteration of the loop over the polarizations (waveforms.py:22-31); the state is `num_waveforms`. -/
def checkPol {α : Type} (num : Option Nat) (p : String × Tensor α) : Res (Option Nat) :=
  match num with
  | some n => do
    let l ← p.2.len
    if l ≠ n then .error .value else .ok (some n)
  | none => do
    let l ← firstDim p.2
    .ok (some l)

/-- The check of the parameters (waveforms.py:33-37); `len(parameters) != None` is true. -/
def checkParams {β : Type} (num : Option Nat) (params : Option (Tensor β)) : Res Unit :=
  match params with
  | none => .ok ()
  | some p => do
    let l ← p.len
    if num = some l then .ok () else .error .value

/-- The state of a `WaveformSampler`. (waveforms.py:21-39) -/
structure State (α β : Type) where
  pols : List (String × Tensor α)
  num : Option Nat
  params : Option (Tensor β)

/-- `WaveformSampler.__init__` (waveforms.py:12-39).  The keyword names are distinct (Python rejects others). -/
def init {α β : Type} (params : Option (Tensor β)) (pols : List (String × Tensor α)) : Res (State α β) := do
  let num ← pols.foldlM checkPol none
  let _ ← checkParams num params
  .ok ⟨pols, num, params⟩

/-- `v[idx]` for a 1-d index tensor with in-range entries. (waveforms.py:56-58) -/
def rows {α : Type} (v : Tensor α) (idx : List Nat) : Tensor α :=
  ⟨idx.length :: v.shape.tail, fun i => v.get (idx.getD (i.headD 0) 0 :: i.tail)⟩

/-- The indices used by `forward` (waveforms.py:43-54).  `draw n k` is the outcome of
`torch.randint(n, size=(k,))`; a negative size, or `n = 0`, raises RuntimeError; comparing an int with `None`
(no polarizations) raises TypeError. -/
def indices (num : Option Nat) (draw : Nat → Nat → List Nat) (N : Int) : Res (List Nat) :=
  match num with
  | none => .error .type
  | some n =>
    if N > n then .error .value
    else if N = -1 then .ok (List.range n)
    else if N < 0 ∨ n = 0 then .error .runtime
    else .ok (draw n N.toNat)

/-- `forward` (waveforms.py:41-59): the sampled waveforms and the parameters, if there are any. -/
def forward {α β : Type} (s : State α β) (draw : Nat → Nat → List Nat) (N : Int) :
    Res (List (String × Tensor α) × Option (Tensor β)) := do
  let idx ← indices s.num draw N
  .ok (s.pols.map fun p => (p.1, rows p.2 idx), s.params.map fun p => rows p idx)

end Verif.WaveformSampler
