import Verif.TensorReal
import Verif.Fourier
import Verif.Model.Unfold
import Mathlib.Data.List.Sort
/-!
# Model of the spectral density functions (ml4gw/spectral.py:27-345)

Exact real/complex arithmetic (the code works in float64); `torch.stft`, `torch.fft.rfft` and
`torch.quantile` are given by their defining formulas.
-/
namespace Verif.Spectral
open Finset Verif.Fourier Classical

/-- `torch.quantile(x, q=0.5)` of the values `l`: linear interpolation at rank `(n-1)/2` of the sorted
values. (spectral.py:37) -/
noncomputable def quantile50 (l : List ℝ) : ℝ :=
  let s := l.insertionSort (· ≤ ·)
  (s.getD ((l.length - 1) / 2) 0 + s.getD (l.length / 2) 0) / 2

/-- Lines 34-36: the bias correction for `n` values, `ii_2 = 2, 4, .., 2*((n-1)//2)`. (spectral.py:34-36) -/
noncomputable def medianBias (n : Nat) : ℝ :=
  1 + ∑ i ∈ range ((n - 1) / 2), (1 / ((2 * (i + 1) : Nat) + 1 : ℝ) - 1 / ((2 * (i + 1) : Nat) : ℝ))

/-- `median(x, axis)` (spectral.py:27-37) of the values along the axis. -/
noncomputable def median (l : List ℝ) : ℝ := quantile50 l / medianBias l.length

/-- The two aggregations (spectral.py:229-240, 342-345): anything but `"mean"` means median. -/
noncomputable def aggregate (average : String) (l : List ℝ) : ℝ :=
  if average = "mean" then l.sum / (l.length : ℝ) else median l

/-- `_validate_shapes(x, nperseg, y)` (spectral.py:40-85) on shapes; an empty shape raises IndexError. -/
def validateShapes (x : List Nat) (nperseg : Int) (y : Option (List Nat)) : Res Unit :=
  match x.getLast? with
  | none => .error .index
  | some t =>
    if (t : Int) < nperseg then .error .value                                  -- lines 41-45
    else if x.length > 3 then .error .value                                    -- lines 46-49
    else match y with
      | none => .ok ()                                                         -- lines 51-52
      | some y =>
        match y.getLast? with
        | none => .error .index
        | some ty =>
          if t ≠ ty then .error .value                                         -- lines 58-62
          else if x.length = 1 ∧ ¬ y.length = 1 then .error .value             -- lines 63-67
          else if x.length > 1 ∧ y.length = x.length then                      -- line 68
            if y = x then .ok () else .error .value                            -- lines 69-74
          else if x.length > 1 ∧ y.length ≠ x.length - 1 then .error .value    -- lines 75-79
          else if x.length > 2 ∧ y.getD 0 0 ≠ x.getD 0 0 then .error .value    -- lines 80-85
          else .ok ()

/-- `x - x.mean(-1, keepdims=True)`. (spectral.py:180, 193, 322) -/
noncomputable def demean (x : Tensor ℝ) : Tensor ℝ :=
  ⟨x.shape, fun i => x.get i - x.meanAt i.dropLast⟩

/-- `torch.stft(x, n_fft, hop_length, window, center=False, return_complex=True)` of a 1- or
2-dimensional real tensor: shape `(.., n_fft//2+1, frames)`. (spectral.py:181-189, 194-202) -/
noncomputable def stft (x : Tensor ℝ) (nfft hop : Int) (window : Tensor ℝ) : Res (Tensor ℂ) := do
  let t ← x.lastDim
  if x.ndim > 2 then .error .runtime
  else if nfft ≤ 0 ∨ (t : Int) < nfft ∨ hop ≤ 0 then .error .runtime
  else if window.shape ≠ [nfft.toNat] then .error .runtime
  else
    let n := nfft.toNat
    .ok ⟨x.shape.dropLast ++ [n / 2 + 1, (t - n) / hop.toNat + 1], fun i =>
      let lead := i.dropLast.dropLast
      let k := i.dropLast.getLastD 0
      let f := i.getLastD 0
      rfft n (fun s => window.get [s] * x.get (lead ++ [f * hop.toNat + s])) k⟩

/-- Multiplying the bins `1:stop` by 2, `stop = None if nperseg % 2 else -1` (lines 220-227, 330-334),
for a spectrum with `nf` bins; followed by `*= scale`. (spectral.py:220-227, 330-334) -/
noncomputable def binFactor (nperseg : Int) (nf : Nat) (scale : ℝ) (k : Nat) : ℝ :=
  (if 1 ≤ k ∧ (nperseg % 2 ≠ 0 ∨ k < nf - 1) then 2 else 1) * scale

/-- The tail of `fast_spectral_density` after the transforms (lines 220-246): one-sided factor,
aggregation over the last axis and the reshape back to the batch dimensions.  `fdim` is the dimension
holding the frequencies as selected in lines 221-226. (spectral.py:220-246) -/
noncomputable def fastTail (fft : Tensor ℂ) (xndim : Nat) (nperseg : Int) (scale : ℝ) (average : String)
    (isCross : Bool) (batch : Option (Nat × Nat)) : Res (Tensor ℂ) :=
  let fdim := if xndim = 1 then 0 else if fft.ndim < 4 then 1 else 2         -- lines 221-226
  let fft : Tensor ℂ := ⟨fft.shape, fun i =>
    fft.get i * (binFactor nperseg (fft.shape.getD fdim 0) scale (i.getD fdim 0) : ℝ)⟩
  let n := fft.shape.getLastD 0
  let vals (i : List Nat) : List ℂ := (List.range n).map fun s => fft.get (i ++ [s])
  let out : Tensor ℂ := ⟨fft.shape.dropLast, fun i =>
    if average = "mean" then (vals i).sum / (n : ℂ)                          -- line 230
    else if isCross then                                                     -- lines 235-238
      (median ((vals i).map Complex.re) : ℂ) + Complex.I * (median ((vals i).map Complex.im) : ℂ)
    else (median ((vals i).map Complex.re) : ℂ)⟩                             -- line 240
  match batch with
  | some (b, c) => if out.ndim = 2 then out.reshapeInfer [b, c] [] else .ok out   -- lines 242-245
  | none => .ok out

/-- Lines 165-178: a batch of multichannel series is viewed as 2-dimensional. (spectral.py:165-178) -/
def flattenBatch {α : Type _} (x : Tensor α) : Res (Tensor α) := do
  if x.ndim > 2 then
    let t ← x.lastDim
    x.reshapeInfer [] [t]
  else .ok x

/-- Lines 203-208: with a batched `x` and an unbatched `y` the channels of `x` are split off again.
(spectral.py:203-208) -/
def alignCross (fft yfft : Tensor ℂ) (batch : Option (Nat × Nat)) (nperseg : Int) :
    Res (Tensor ℂ × Tensor ℂ) := do
  match batch with
  | some (b, c) =>
    if fft.shape.getD 0 0 ≠ yfft.shape.getD 0 0 then do
      let fft ← fft.reshapeInfer [b, c, (nperseg / 2 + 1).toNat] []
      let yfft : Tensor ℂ := ⟨yfft.shape.getD 0 0 :: 1 :: yfft.shape.tail, fun i =>
        yfft.get (i.getD 0 0 :: i.tail.tail)⟩
      .ok (fft, yfft)
    else .ok (fft, yfft)
  | none => .ok (fft, yfft)

/-- `fast_spectral_density` (spectral.py:88-246).  The result is complex; without `y` its imaginary
part is zero (the code takes `.real`, line 213). -/
noncomputable def fastSpectralDensity (x : Tensor ℝ) (nperseg nstride : Int) (window : Tensor ℝ)
    (scale : ℝ) (average : String) (y : Option (Tensor ℝ)) : Res (Tensor ℂ) := do
  validateShapes x.shape nperseg (y.map Tensor.shape)                        -- line 159
  let batch := if x.ndim > 2 then some (x.shape.getD 0 0, x.shape.getD 1 0) else none
  let x2 ← flattenBatch x                                                    -- lines 165-178
  let fft ← stft (demean x2) nperseg nstride window                          -- lines 180-189
  match y with
  | none =>
    let p : Tensor ℂ := ⟨fft.shape, fun i => (((starRingEnd ℂ) (fft.get i) * fft.get i).re : ℝ)⟩
    fastTail p x2.ndim nperseg scale average false batch
  | some y =>
    let y ← if x.ndim > 2 ∧ y.ndim = 3 then do                               -- lines 172-174
        let t ← x2.lastDim
        y.reshapeInfer [] [t]
      else .ok y
    let yfft ← stft (demean y) nperseg nstride window                        -- lines 193-202
    let (fft, yfft) ← alignCross fft yfft batch nperseg                      -- lines 203-208
    let p ← Tensor.zipB (fun a b => (starRingEnd ℂ) a * b) fft yfft          -- line 211
    fastTail p x2.ndim nperseg scale average true batch

/-- `x *= window` for a window of the segment length (RuntimeError otherwise; the broadcast of a
one-sample window is not modelled). (spectral.py:323) -/
noncomputable def mulWindow (x window : Tensor ℝ) : Res (Tensor ℝ) :=
  if window.shape = [x.shape.getLastD 0] then
    .ok ⟨x.shape, fun i => x.get i * window.get [i.getLastD 0]⟩
  else .error .runtime

/-- Lines 325-334: one-sided power of the (windowed) segments along the last axis. (spectral.py:325-334) -/
noncomputable def powerLast (x : Tensor ℝ) (nperseg : Int) (scale : ℝ) : Tensor ℝ :=
  let n := x.shape.getLastD 0
  ⟨x.shape.dropLast ++ [n / 2 + 1], fun i =>
    ‖rfft n (fun t => x.get (i.dropLast ++ [t])) (i.getLastD 0)‖ ^ 2
      * binFactor nperseg (n / 2 + 1) scale (i.getLastD 0)⟩

/-- `spectral_density` (spectral.py:249-345).  The expansion to 4 dimensions (lines 300-308) is the same
as in `unfold_windows`. -/
noncomputable def spectralDensity (x : Tensor ℝ) (nperseg nstride : Int) (window : Tensor ℝ)
    (scale : ℝ) (average : String) : Res (Tensor ℝ) := do
  validateShapes x.shape nperseg none                                        -- line 289
  let lead := x.shape.dropLast
  let x4 ← Slicing.to4d x                                                    -- lines 300-308
  let t ← x4.lastDim
  let q ← pyFloorDiv ((t : Int) - nperseg) nstride
  let numSegments := q + 1                                                   -- line 312
  let stop := (numSegments - 1) * nstride + nperseg                          -- line 313
  let x4 := x4.narrowLast 0 (pySliceBound t stop)                            -- line 314
  let u ← x4.unfold1 numSegments nstride                                     -- lines 320-321
  let u ← mulWindow (demean u) window                                        -- lines 322-323
  let p := powerLast u nperseg scale                                         -- lines 328-334
  let p ← p.reshapeInfer (lead ++ [numSegments.toNat]) []                    -- lines 339-340
  .ok ⟨lead ++ [p.shape.getLastD 0], fun i =>                                -- lines 342-345
    aggregate average ((List.range numSegments.toNat).map fun s =>
      p.get (i.dropLast ++ [s, i.getLastD 0]))⟩

end Verif.Spectral
