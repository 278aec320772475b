import Verif.Model.Slicing
/-!
# Model of `InMemoryDataset` (ml4gw/dataloading/in_memory_dataset.py)

`torch.Tensor(X)` (conversion of the data to float32) and the device transfer are not modelled.
An exception raised in the middle of an epoch is modelled as failure of the whole epoch (the
batches already yielded are not part of the result).
-/
namespace Verif.InMemory
open Slicing
variable {α : Type _}

/-- Constructor arguments (in_memory_dataset.py:78-89); `X` has shape `(c, t)`. -/
structure Config (α : Type _) where
  c : Nat
  t : Nat
  X : Tensor α
  kernelSize : Int
  y : Option (Tensor α) := none
  batchSize : Int := 32
  stride : Int := 1
  batchesPerEpoch : Option Int := none
  coincident : Bool := true
  shuffle : Bool := true

/-- `num_kernels` (in_memory_dataset.py:134-140). -/
def numKernels (cfg : Config α) : Res Int := do
  let q ← pyFloorDiv ((cfg.t : Int) - cfg.kernelSize) cfg.stride
  .ok (q + 1)

/-- The checks on the target array (in_memory_dataset.py:94-103). -/
def checkY (cfg : Config α) : Res Unit :=
  match cfg.y with
  | some y => do
    let ty ← y.lastDim
    if ty ≠ cfg.t then .error .value                                      -- lines 94-97
    else if cfg.coincident = false then .error .value                     -- lines 98-99
    else .ok ()
  | none => .ok ()

/-- `__init__` (in_memory_dataset.py:78-132): the argument checks, in order. -/
def init (cfg : Config α) : Res Unit := do
  checkY cfg
  if cfg.coincident = false ∧ cfg.batchesPerEpoch = none then .error .value -- lines 105-114
  else
    match cfg.batchesPerEpoch with                                        -- lines 120-127
    | none => .ok ()
    | some b => do
      let nk ← numKernels cfg
      if nk < cfg.batchSize * b then .error .value else .ok ()

/-- `__len__` (in_memory_dataset.py:142-156); `len()` of a negative number is a ValueError. -/
def len (cfg : Config α) : Res Int := do
  let n ← match cfg.batchesPerEpoch with
    | some b => (.ok b : Res Int)
    | none => do
      let nk ← numKernels cfg
      let m := if cfg.coincident then nk else nk ^ cfg.c
      let q ← pyFloorDiv (m - 1) cfg.batchSize
      .ok (q + 1)
  if n < 0 then .error .value else .ok n

/-- `itertools.product(*ls)`: tuples in lexicographic order, last position fastest. (in_memory_dataset.py:191-194) -/
def product : List (List Nat) → List (List Nat)
  | [] => [[]]
  | l :: ls => l.flatMap fun a => (product ls).map (a :: ·)

/-- Conversion of a non-negative integer to float32 and back (`torch.Tensor(i[1])` followed by
`.type(torch.int64)`): round to 24 significant bits, ties to even (no overflow for our range).
(in_memory_dataset.py:195-196) -/
def f32 (n : Nat) : Nat :=
  if n < 2 ^ 24 then n
  else
    let e := n.log2 - 23
    let q := n / 2 ^ e
    let rem := n % 2 ^ e
    let q' := if 2 * rem > 2 ^ e ∨ (2 * rem = 2 ^ e ∧ q % 2 = 1) then q + 1 else q
    q' * 2 ^ e

/-- The kernel indices of an epoch: one number per batch element, or one row per batch element.
(in_memory_dataset.py:181-205) -/
inductive Indices where
  | one (l : List Int)
  | rows (c : Nat) (l : List (List Int))

/-- Number of kernels visited in an epoch (in_memory_dataset.py:166-169). -/
def numUsed (cfg : Config α) (nk : Int) : Int :=
  match cfg.batchesPerEpoch with
  | some b => cfg.batchSize * b
  | none => nk

/-- `init_indices` (in_memory_dataset.py:158-207).  `r` is the source of `torch.randint`, `perm` the
outcome of `torch.randperm(num_kernels)` (a permutation of `0..num_kernels-1`). -/
def initIndices (r : List Nat → Nat) (perm : List Nat) (cfg : Config α) : Res Indices := do
  let nk ← numKernels cfg
  let n := numUsed cfg nk                                                 -- lines 166-169
  if cfg.coincident = false ∧ cfg.shuffle = true then                     -- lines 174-185
    let idx ← randint r 0 nk [n, (cfg.c : Int)]
    .ok (.rows cfg.c ((List.range n.toNat).map fun i =>
      (List.range cfg.c).map fun j => idx.get [i, j]))
  else if cfg.coincident = false then                                     -- lines 186-196
    let rows := (product (List.replicate cfg.c (List.range nk.toNat))).take n.toNat
    if rows = [] then .error .runtime
    else .ok (.rows cfg.c (rows.map fun row => row.map fun v => (f32 v : Int)))
  else if cfg.shuffle = true then                                         -- lines 197-202
    if nk < 0 then .error .runtime
    else .ok (.one (pySlice (perm.map Int.ofNat) 0 n))
  else                                                                    -- lines 203-205
    if n < 0 then .error .runtime
    else .ok (.one ((List.range n.toNat).map Int.ofNat))

/-- `indices[a:b] * stride` as a tensor. (in_memory_dataset.py:219-220) -/
def Indices.slice (ix : Indices) (a b stride : Int) : Tensor Int :=
  match ix with
  | .one l =>
    let s := (pySlice l a b).map (· * stride)
    ⟨[s.length], fun i => s.getD (i.getD 0 0) 0⟩
  | .rows c l =>
    let s := (pySlice l a b).map fun row => row.map (· * stride)
    ⟨[s.length, c], fun i => (s.getD (i.getD 0 0) []).getD (i.getD 1 0) 0⟩

/-- One iteration of `__iter__` (in_memory_dataset.py:216-228). -/
def batch (cfg : Config α) (ix : Indices) (i : Nat) : Res (Tensor α × Option (Tensor α)) := do
  let idx := ix.slice (i * cfg.batchSize) ((i + 1) * cfg.batchSize) cfg.stride
  let X ← sliceKernels cfg.X idx cfg.kernelSize
  match cfg.y with
  | some y => do
    let Y ← sliceKernels y idx cfg.kernelSize
    .ok (X, some Y)
  | none => .ok (X, none)

/-- The list of all batches of one epoch (`list(dataset)`), after a successful constructor.
(in_memory_dataset.py:209-228) -/
def epoch (r : List Nat → Nat) (perm : List Nat) (cfg : Config α) :
    Res (List (Tensor α × Option (Tensor α))) := do
  init cfg
  let ix ← initIndices r perm cfg
  let n ← len cfg
  (List.range n.toNat).mapM (batch cfg ix)

end Verif.InMemory
