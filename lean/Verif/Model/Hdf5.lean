import Verif.Tensor
/-!
# Model of `Hdf5TimeSeriesDataset` (ml4gw/dataloading/hdf5_dataset.py)

The files on disk are a function `data : name → channel number → samples`; they do not change during
the iteration.  The random draws are parameters:
* `sel`: the indices returned by `np.random.choice(.., replace=False)` (hdf5_dataset.py:118-123),
* `pick`: the position in `sel` of each draw of `np.random.choice(.., replace=True)` (128-133),
* `rt i k`: the `k`-th draw of `np.random.randint` for the `i`-th unique file (178-184).
The chunked-storage warning (hdf5_dataset.py:95-104) and the dtype of the result are not modelled.
-/
namespace Verif.Hdf5
variable {α : Type _}

/-- The values of the `coincident` argument: `True`, `"files"`, `False`, or anything else. (hdf5_dataset.py:69-73) -/
inductive Coincident where
  | yes | files | no | other
  deriving DecidableEq, Repr

/-- Constructor arguments (hdf5_dataset.py:59-68) and the contents of the files. -/
structure Config (α : Type _) where
  fnames : List String
  numChannels : Nat
  data : String → Nat → List α
  kernelSize : Nat
  batchSize : Nat
  batchesPerEpoch : Nat
  coincident : Coincident
  numFilesPerBatch : Option Nat := none

/-- `self.sizes[fname]`: the length of the **first** channel's dataset (hdf5_dataset.py:94, 106). -/
def size (cfg : Config α) (f : String) : Nat := (cfg.data f 0).length

/-- `self.num_files_per_batch` (hdf5_dataset.py:82-84). -/
def numFiles (cfg : Config α) : Nat := cfg.numFilesPerBatch.getD cfg.fnames.length

/-- The keys of the dictionary `self.sizes`, in insertion order (hdf5_dataset.py:91-106): repeated names are
stored once. -/
def sizeKeys (cfg : Config α) : List String :=
  cfg.fnames.foldl (fun ks f => if f ∈ ks then ks else ks ++ [f]) []

/-- `__init__` (hdf5_dataset.py:69-109).  `self.probs` is represented by the numerators `sizes.values()`. -/
def init (cfg : Config α) : Res (List Nat) :=
  if cfg.coincident = .other then .error .value                              -- 69-73
  else if cfg.fnames.length < numFiles cfg then .error .value                -- 85-89
  else if cfg.fnames ≠ [] ∧ cfg.numChannels = 0 then .error .index           -- channels[0]
  else
    let sizes := (sizeKeys cfg).map (size cfg)
    if sizes ≠ [] ∧ sizes.sum = 0 then .error .zeroDivision                  -- i / total
    else .ok sizes

/-- `len(dataset)` (hdf5_dataset.py:112). -/
def len (cfg : Config α) : Nat := cfg.batchesPerEpoch

/-- `sample_fnames(size)` (hdf5_dataset.py:114-133) for `n` flattened draws.
numpy raises ValueError when the probabilities have a different length than the population, when there
are fewer non-zero probabilities than draws without replacement, and when the population of the second
draw is empty. -/
def sampleFnames (sel : List Nat) (pick : Nat → Nat) (cfg : Config α) (probs : List Nat) (n : Nat) :
    Res (List String) :=
  if probs.length ≠ cfg.fnames.length then .error .value
  else if (probs.filter (· ≠ 0)).length < numFiles cfg then .error .value
  else if numFiles cfg = 0 then .error .value
  else .ok ((List.range n).map fun j =>
    cfg.fnames.getD (sel.getD (pick j % numFiles cfg) 0) "")

/-- `np.unique(fnames)`; the order of the result (numpy sorts) does not matter, here it is the order of
first appearance. (hdf5_dataset.py:151-153) -/
def unique (l : List String) : List String :=
  l.foldl (fun ks f => if f ∈ ks then ks else ks ++ [f]) []

/-- `np.where(inv == i)[0]` (hdf5_dataset.py:163). -/
def indicesOf (fs : List String) (f : String) : List Nat :=
  (List.range fs.length).filter fun j => fs.getD j "" = f

/-- `np.repeat(l, n)`. (hdf5_dataset.py:169, 180) -/
def repeatEach {β : Type _} (l : List β) (n : Nat) : List β := l.flatMap fun x => List.replicate n x

/-- `np.random.randint(high, size=n)`: ValueError unless `high > 0`. (hdf5_dataset.py:179, 184) -/
def randintN (r : Nat → Nat) (high : Int) (n : Nat) : Res (List Nat) :=
  if high ≤ 0 then .error .value else .ok ((List.range n).map fun k => r k % high.toNat)

/-- The triples `(b, c, i)` of one file (hdf5_dataset.py:158-191). -/
def writes (cfg : Config α) (r : Nat → Nat) (fs : List String) (f : String) :
    Res (List (Nat × Nat × Nat)) := do
  let maxIdx : Int := (size cfg f : Int) - cfg.kernelSize                    -- 158-159
  let indices := indicesOf fs f                                              -- 163
  let count := indices.length
  let batchIdx :=
    if cfg.coincident = .no then indices.map (· / cfg.numChannels)           -- 174
    else repeatEach indices cfg.numChannels                                  -- 169
  let chanIdx :=
    if cfg.coincident = .no then indices.map (· % cfg.numChannels)           -- 175
    else (List.replicate count (List.range cfg.numChannels)).flatten         -- 170-171
  let idx ←
    if cfg.coincident = .yes then do
      let idx ← randintN r maxIdx count                                      -- 179
      .ok (repeatEach idx cfg.numChannels)                                   -- 180
    else randintN r maxIdx batchIdx.length                                   -- 184
  if batchIdx.length ≠ chanIdx.length ∨ batchIdx.length ≠ idx.length then
    .error .value                                                            -- zip(strict=True)
  else .ok (batchIdx.zip (chanIdx.zip idx))

/-- `x[b, c] = f[channel c][i : i + kernel_size]` (hdf5_dataset.py:192): the slice is clamped to the dataset; numpy
broadcasts a slice of length 1 and raises ValueError for any other wrong length. -/
def readKernel (cfg : Config α) (f : String) (c i : Nat) : Res (Nat → Option α) :=
  let l := ((cfg.data f c).drop i).take cfg.kernelSize
  if l.length = cfg.kernelSize then .ok fun t => l[t]?
  else if l.length = 1 then .ok fun _ => l[0]?
  else .error .value

/-- The assignments performed for one file, in order: the cell and what is stored in it. (hdf5_dataset.py:155-192) -/
def fileWrites (cfg : Config α) (r : Nat → Nat) (fs : List String) (f : String) :
    Res (List ((Nat × Nat) × (Nat → Option α))) := do
  let ws ← writes cfg r fs f
  ws.mapM fun w => do
    let row ← readKernel cfg f w.2.1 w.2.2
    .ok ((w.1, w.2.1), row)

/-- Performing the assignments on the array `x` (later ones overwrite earlier ones). (hdf5_dataset.py:192) -/
def applyWrites {β : Type _} (x : Nat → Nat → β) (ws : List ((Nat × Nat) × β)) : Nat → Nat → β :=
  ws.foldl (fun x w => fun b c => if (b, c) = w.1 then w.2 else x b c) x

/-- `sample_batch` (hdf5_dataset.py:135-193).  `none` stands for a zero left over from `np.zeros`. -/
def sampleBatch (sel : List Nat) (pick : Nat → Nat) (rt : Nat → Nat → Nat) (cfg : Config α)
    (probs : List Nat) : Res (Tensor (Option α)) := do
  let n := if cfg.coincident = .no then cfg.batchSize * cfg.numChannels else cfg.batchSize  -- 145-148
  let fs ← sampleFnames sel pick cfg probs n                                 -- 149
  let us := unique fs                                                        -- 151
  let ws ← (List.range us.length).mapM fun i => fileWrites cfg (rt i) fs (us.getD i "")
  let x := applyWrites (fun _ _ _ => none) ws.flatten
  .ok ⟨[cfg.batchSize, cfg.numChannels, cfg.kernelSize],
    fun i => x (i.getD 0 0) (i.getD 1 0) (i.getD 2 0)⟩

/-- The number of batches one worker yields (hdf5_dataset.py:195-205); `none` is the main process. -/
def workerBatches (cfg : Config α) (worker : Option (Nat × Nat)) : Nat :=
  match worker with
  | none => cfg.batchesPerEpoch                                              -- line 198
  | some (id, numWorkers) =>
    let q := cfg.batchesPerEpoch / numWorkers                                -- lines 200-202
    let rem := cfg.batchesPerEpoch % numWorkers
    if id < rem then q + 1 else q                                            -- lines 203-204

end Verif.Hdf5
