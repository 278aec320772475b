import Verif.Model.Slicing
/-!
# Model of `ChunkedTimeSeriesDataset` (ml4gw/dataloading/chunked_dataset.py)

A chunk iterator is a list of tensors of rank 3.  The draws of batch `j` of chunk `k` come from the
random sources `rc k j` (rows) and `rt k j` (start times).  An exception in the middle of the
iteration is modelled as failure of the whole iteration.
-/
namespace Verif.Chunked
open Slicing
variable {α : Type _}

/-- Constructor arguments (chunked_dataset.py:43-58). -/
structure Config where
  kernelSize : Nat
  batchSize : Nat
  batchesPerChunk : Nat
  coincident : Bool := true

/-- The state computed from the **first** chunk and kept for the whole iteration
(chunked_dataset.py:72-90): the size of the index draws and the flat index offsets. -/
structure Setup where
  sampleSize : List Int
  idx : Tensor Int

/-- Lines 72-90: `idx[b, c, k] = k + c * chunk_size`. (chunked_dataset.py:72-90) -/
def setup (cfg : Config) (numChannels chunkSize : Nat) : Res Setup := do
  let sampleSize : List Int :=
    if cfg.coincident then [(cfg.batchSize : Int)]
    else [(cfg.batchSize : Int), (numChannels : Int)]
  let idx ← Tensor.arange cfg.kernelSize                                     -- line 80
  let idx ← idx.reshapeInfer [1, 1] []                                       -- line 81
  let idx := idx.tile [cfg.batchSize, numChannels, 1]                        -- line 82
  let ch ← Tensor.arange numChannels                                         -- line 87
  let ch ← ch.reshapeInfer [1] [1]                                           -- line 88
  let ch := ch.tile [cfg.batchSize, 1, cfg.kernelSize]                       -- line 89
  .ok ⟨sampleSize, ⟨idx.shape, fun i => idx.get i + ch.get i * chunkSize⟩⟩   -- line 90

/-- `a.view(batch, -1, 1) + idx` with broadcasting over the channel dimension (lines 113-114, 124-127):
the view has shape `(batch, 1, 1)` or `(batch, c, 1)`; RuntimeError if that does not broadcast.
(chunked_dataset.py:113-114, 124-127) -/
def addView (cfg : Config) (a idx : Tensor Int) : Res (Tensor Int) := do
  let v ← a.reshapeInfer [cfg.batchSize] [1]
  let m := v.shape.getD 1 0
  let n := idx.shape.getD 1 0
  if m = 1 then .ok ⟨idx.shape, fun i => v.get [i.getD 0 0, 0, 0] + idx.get i⟩
  else if m = n then .ok ⟨idx.shape, fun i => v.get [i.getD 0 0, i.getD 1 0, 0] + idx.get i⟩
  else .error .runtime

/-- One batch (chunked_dataset.py:104-130) of a chunk with shape `(n, c, t)`.
(The broadcast `n == 1` case of a non-coincident setup cannot enlarge `idx`, so the result always has
the shape of `idx`.) -/
def sampleBatch (rc rt : List Nat → Nat) (cfg : Config) (s : Setup) (chunk : Tensor α) (n c t : Nat) :
    Res (Tensor α) := do
  let flat ← chunk.reshape [n * c * t]                                       -- line 100
  let ci ← randint rc 0 n s.sampleSize                                       -- lines 106-108
  let ci := ci.map (· * ((c * t : Nat) : Int))                               -- line 112
  let ci ← addView cfg ci s.idx                                              -- lines 113-114
  let ti ← randint rt 0 ((t : Int) - cfg.kernelSize) s.sampleSize            -- lines 118-123
  let ci ← addView cfg ti ci                                                 -- lines 124-127
  flat.take ci                                                               -- line 130

/-- The loop over chunks (chunked_dataset.py:92-136); `k` is the number of the chunk. -/
def loop (rc rt : Nat → Nat → List Nat → Nat) (cfg : Config) (s : Setup) :
    Nat → List (Tensor α) → Res (List (Tensor α))
  | _, [] => .ok []
  | k, chunk :: rest =>
    match chunk.shape with
    | [n, c, t] => do
      if t < cfg.kernelSize then .error .value                               -- lines 95-99
      else
        let bs ← (List.range cfg.batchesPerChunk).mapM fun j =>
          sampleBatch (rc k j) (rt k j) cfg s chunk n c t
        let more ← loop rc rt cfg s (k + 1) rest
        .ok (bs ++ more)
    | _ => .error .value                                                     -- tuple unpacking, 66/136

/-- `list(dataset)` (chunked_dataset.py:63-136).  `next(it)` on an empty iterator raises StopIteration
inside a generator, i.e. RuntimeError (PEP 479). -/
def iterate (rc rt : Nat → Nat → List Nat → Nat) (cfg : Config) (chunks : List (Tensor α)) :
    Res (List (Tensor α)) :=
  match chunks with
  | [] => .error .runtime                                                    -- line 65
  | first :: _ =>
    match first.shape with
    | [_, c, t] => do
      let s ← setup cfg c t
      loop rc rt cfg s 0 chunks
    | _ => .error .value                                                     -- line 66

/-- `__len__` (chunked_dataset.py:60-61). -/
def len (cfg : Config) (chunks : List (Tensor α)) : Nat := chunks.length * cfg.batchesPerChunk

end Verif.Chunked
