import Verif.Tensor
/-!
# Model of `slice_kernels` and `sample_kernels` (ml4gw/utils/slicing.py:90-370)
-/
namespace Verif.Slicing
variable {α : Type _}

/-- `slice_kernels`, 1-d branch (slicing.py:139-151). -/
def sliceKernels1 (x : Tensor α) (idx : Tensor Int) (kernels : Tensor Int) (k b : Nat) :
    Res (Tensor α) := do
  let ker ← kernels.reshape [k, 1]                                             -- line 148
  let ker := ker.tile [1, b]                                                   -- line 149
  let ker : Tensor Int := ⟨ker.shape, fun i => ker.get i + idx.get [i.getD 1 0]⟩
  let ker := ker.transpose 0 1                                                 -- line 150
  x.take ker                                                                   -- line 151

/-- `slice_kernels`, 2-d data with 1-d indices (slicing.py:152-173). -/
def sliceKernels21 (x : Tensor α) (idx : Tensor Int) (kernels : Tensor Int) (c b k : Nat) :
    Res (Tensor α) := do
  let ker ← kernels.reshape [1, 1, k]                                          -- line 158
  let ker := ker.tile [c, b, 1]                                                -- line 159
  let iv ← idx.reshapeInfer [1] [1]
  let ker : Tensor Int := ⟨ker.shape, fun i => ker.get i + iv.get [0, i.getD 1 0, 0]⟩ -- line 160
  let ker ← ker.reshapeInfer [c] []                                            -- line 163
  let y ← x.takeAlongLast ker                                                  -- line 167
  let y ← y.reshape [c, b, k]                                                  -- line 170
  .ok (y.transpose 0 1)                                                        -- line 173

/-- `slice_kernels`, 2-d data with 2-d indices (slicing.py:174-200). -/
def sliceKernels22 (x : Tensor α) (idx : Tensor Int) (kernels : Tensor Int) (c b k : Nat) :
    Res (Tensor α) := do
  let ker ← kernels.reshape [1, 1, k]                                          -- line 184
  let ker := ker.tile [b, c, 1]                                                -- line 185
  let ker : Tensor Int :=
    ⟨ker.shape, fun i => ker.get i + idx.get [i.getD 0 0, i.getD 1 0]⟩           -- line 186
  let ker := ker.transpose 0 1                                                 -- line 189
  let ker ← ker.reshapeInfer [c] []                                            -- line 190
  let y ← x.takeAlongLast ker                                                  -- line 194
  let y ← y.reshape [c, b, k]                                                  -- line 197
  .ok (y.transpose 0 1)                                                        -- line 200

/-- `slice_kernels`, 3-d data with 1-d indices (slicing.py:215-223). -/
def sliceKernels31 (x : Tensor α) (idx : Tensor Int) (kernels : Tensor Int) (c b k : Nat) :
    Res (Tensor α) := do
  let ker ← kernels.reshapeInfer [1] []                                        -- line 215
  let ker := ker.tile [b, 1]                                                   -- line 216
  let iv ← idx.reshapeInfer [] [1]
  let ker : Tensor Int := ⟨ker.shape, fun i => ker.get i + iv.get [i.getD 0 0, 0]⟩ -- line 217
  let ker ← ker.reshapeInfer [] [1, k]                                         -- line 220
  let ker := ker.tile [1, c, 1]                                                -- line 221
  x.takeAlongLast ker                                                          -- line 223

/-- `slice_kernels(x, idx, kernel_size)` (slicing.py:90-231). -/
def sliceKernels (x : Tensor α) (idx : Tensor Int) (kernelSize : Int) : Res (Tensor α) := do
  let kernels ← Tensor.arange kernelSize                                       -- line 133
  let k := kernelSize.toNat
  match x.shape, idx.shape with
  | [_], [b] => sliceKernels1 x idx kernels k b
  | [_], _ => .error .value                                                    -- lines 140-143
  | [c, _], [b] => sliceKernels21 x idx kernels c b k
  | [c, _], [b, c'] =>
    if c ≠ c' then .error .value                                               -- lines 177-181
    else sliceKernels22 x idx kernels c b k
  | [_, _], _ => .error .value                                                 -- lines 201-204
  | [b, c, _], [b'] =>
    if b' ≠ b then .error .value                                               -- lines 208-212
    else sliceKernels31 x idx kernels c b' k
  | [_, _, _], _ => .error .value                                              -- lines 224-227
  | _, _ => .error .value                                                      -- lines 228-231

/-- `torch.randint(low, high, size)` for a random source `r` (any function from positions to
naturals): position `i` receives `low + r i mod (high - low)`, so every function from positions to
`[low, high)` is the result for some `r`.  RuntimeError if `high ≤ low` or a size is negative.
(slicing.py:316, 367) -/
def randint (r : List Nat → Nat) (low high : Int) (size : List Int) : Res (Tensor Int) :=
  if high ≤ low ∨ ∃ s ∈ size, s < 0 then .error .runtime
  else .ok ⟨size.map Int.toNat, fun i => low + ((r i % (high - low).toNat : Nat) : Int)⟩

/-- The argument checks of `sample_kernels` (slicing.py:296-313). `N = none` is Python's `None`. -/
def sampleChecks (X : Tensor α) (kernelSize : Int) (N : Option Int) : Res Unit := do
  let t ← X.lastDim
  if (t : Int) < kernelSize then .error .value
  else if X.ndim > 3 then .error .value
  else if X.ndim < 3 ∧ N = none then .error .value
  else if X.ndim = 3 ∧ N ≠ none ∧ N ≠ some ((X.shape.headD 0 : Nat) : Int) then .error .value
  else .ok ()

/-- The sampling interval `[min_val, max_val)` (slicing.py:321-355). -/
def sampleRange (t : Nat) (kernelSize : Int) (maxCenterOffset : Option Int) : Res (Int × Int) := do
  let center : Int := ((t / 2 : Nat) : Int)                                    -- line 321
  let (lo, hi) ←
    match maxCenterOffset with
    | none => (.ok (0, (t : Int) - kernelSize) : Res (Int × Int))              -- line 325
    | some m =>
      if m ≥ 0 then .ok (center - m - kernelSize, center)                      -- lines 331-332
      else
        let lo := center - m - kernelSize                                      -- line 337
        let hi := center + m                                                   -- line 338
        if hi ≤ lo then .error .value else .ok (lo, hi)                        -- lines 340-347
  if lo < 0 then .error .value else .ok (lo, hi)                               -- lines 349-355

/-- `N or len(X)`: Python's `or` takes `len(X)` when `N` is `None` **or 0** (slicing.py:360). -/
def orLen (N : Option Int) (len : Nat) : Int :=
  match N with
  | none => len
  | some n => if n = 0 then len else n

/-- `sample_kernels` (slicing.py:234-370) with random source `r`; the index tensor is returned too
(`return_idx=True`; with `return_idx=False` the code returns the first component only). -/
def sampleKernels (r : List Nat → Nat) (X : Tensor α) (kernelSize : Int) (N : Option Int)
    (maxCenterOffset : Option Int) (coincident : Bool) : Res (Tensor α × Tensor Int) := do
  sampleChecks X kernelSize N
  let t ← X.lastDim
  let n0 := X.shape.headD 0
  if X.ndim = 1 then                                                           -- lines 315-319
    match N with
    | none => .error .type
    | some n =>
      let idx ← randint r 0 ((n0 : Int) - kernelSize) [n]
      let y ← sliceKernels X idx kernelSize
      .ok (y, idx)
  else
    let (lo, hi) ← sampleRange t kernelSize maxCenterOffset
    let size ←
      if X.ndim = 3 ∨ coincident = true then (.ok [orLen N n0] : Res (List Int)) -- lines 357-361
      else match N with                                                        -- line 365
        | none => .error .type
        | some n => .ok [n, (n0 : Int)]
    let idx ← randint r lo hi size                                             -- line 367
    let y ← sliceKernels X idx kernelSize
    .ok (y, idx)

end Verif.Slicing
