import Verif.Model.Whiten
import Verif.Model.Spline
import Verif.Model.Resample
import Mathlib.Analysis.SpecialFunctions.Log.Base
import Mathlib.Data.Finset.Sort
/-!
# Model of the Q transform (ml4gw/transforms/qtransform.py)

Exact arithmetic (the code mixes float32 and float64).  The resampling operations are those of Model/Resample (`F.interpolate`) and
Model/Spline (the spline modules).
-/
namespace Verif.QTransform
open Finset Fourier Whiten Resample

/-! ## QTile -/

/-- The arguments of `QTile` (qtransform.py:44-62). -/
structure QTile where
  q : ℝ
  f : ℝ
  dur : ℝ
  sr : ℝ
  mismatch : ℝ

/-- `deltam` (qtransform.py:55, 298, 511). -/
noncomputable def deltam (mismatch : ℝ) : ℝ := 2 * Real.sqrt (mismatch / 3)

/-- `qprime` (qtransform.py:56). -/
noncomputable def qprime (q : ℝ) : ℝ := q / Real.sqrt 11

/-- `ntiles()` (qtransform.py:70-75).  `torch.log2(0)` is minus infinity, and two to that power zero. -/
noncomputable def QTile.ntiles (t : QTile) : ℤ :=
  if t.f = 0 then 0 else pyInt ((2 : ℝ) ^ ⌈Real.logb 2 (t.dur * 2 * Real.pi * t.f / t.q / deltam t.mismatch)⌉)

/-- `int(self.frequency / self.qprime * self.duration)` (qtransform.py:62). -/
noncomputable def QTile.half (t : QTile) : ℤ := pyInt (t.f / qprime t.q * t.dur)

/-- `windowsize` (qtransform.py:61-63). -/
noncomputable def QTile.windowsize (t : QTile) : ℤ := 2 * t.half + 1

/-- `padding` (qtransform.py:64-65). -/
noncomputable def QTile.padding (t : QTile) : ℤ × ℤ :=
  (pyInt (((t.ntiles - t.windowsize - 1 : ℤ) : ℝ) / 2), pyInt (((t.ntiles - t.windowsize + 1 : ℤ) : ℝ) / 2))

/-- Entry `j` of `_get_indices()`, an `arange(-half, half + 1)` (qtransform.py:77-79). -/
noncomputable def QTile.offset (t : QTile) (j : ℕ) : ℤ := (j : ℤ) - t.half

/-- Entry `j` of `get_window()` (qtransform.py:81-92). -/
noncomputable def QTile.window (t : QTile) (j : ℕ) : ℝ :=
  let x := (t.offset j : ℝ) / t.dur * qprime t.q / t.f
  (1 - x ^ 2) ^ 2 * ((t.ntiles : ℝ) / (t.dur * t.sr) * Real.sqrt (315 * qprime t.q / (128 * t.f)))

/-- `torch.round`: to nearest, ties to even. (qtransform.py:100) -/
noncomputable def roundEven (r : ℝ) : ℤ :=
  if r - ⌊r⌋ < 1 / 2 then ⌊r⌋ else if 1 / 2 < r - ⌊r⌋ then ⌊r⌋ + 1 else if ⌊r⌋ % 2 = 0 then ⌊r⌋ else ⌊r⌋ + 1

/-- `n_rfft` (qtransform.py:98). -/
noncomputable def nRfft (dur sr : ℝ) : ℤ := Int.fdiv (pyInt (dur * sr)) 2

/-- Entry `j` of `get_data_indices()` (qtransform.py:94-105). -/
noncomputable def QTile.index (t : QTile) (j : ℕ) : ℤ :=
  min (max (roundEven ((t.offset j : ℝ) + 1 + t.f * t.dur)) 0) (nRfft t.dur t.sr)

/-- `F.pad` of the windowed values to `left + W + right` entries, also when a padding is negative (qtransform.py:137-139). -/
noncomputable def QTile.padded (t : QTile) (X : ℕ → ℂ) (p : ℕ) : ℂ :=
  let j := (p : ℤ) - t.padding.1
  if 0 ≤ j ∧ j < t.windowsize then X (t.index j.toNat).toNat * t.window j.toNat else 0

/-- The length after padding. (qtransform.py:139) -/
noncomputable def QTile.len (t : QTile) : ℤ := t.windowsize + t.padding.1 + t.padding.2

/-- `torch.fft.ifftshift` of a series of length `n`. (qtransform.py:140) -/
def ifftshift (n : ℕ) (Y : ℕ → ℂ) (p : ℕ) : ℂ := Y ((p + n / 2) % n)

/-- `torch.fft.ifft` of a series of length `n`. (qtransform.py:142) -/
noncomputable def ifft (n : ℕ) (Y : ℕ → ℂ) (s : ℕ) : ℂ := (∑ p ∈ range n, Y p * ω n ((p : ℤ) * s)) / n

/-- The energies of one row (qtransform.py:136-143). -/
noncomputable def QTile.energy (t : QTile) (X : ℕ → ℂ) (s : ℕ) : ℝ :=
  (ifft t.len.toNat (ifftshift t.len.toNat (t.padded X)) s).re ^ 2 + (ifft t.len.toNat (ifftshift t.len.toNat (t.padded X)) s).im ^ 2

/-- `norm.lower()`, as a list of characters. (qtransform.py:145) -/
def lower (s : String) : List Char := s.toList.map Char.toLower

/-- The normalisations (qtransform.py:144-154): `None` and `""` mean none. -/
noncomputable def normalizer (norm : Option String) : Res ((n : ℕ) → (ℕ → ℝ) → ℝ) :=
  match norm with
  | none => .ok fun _ _ => 1
  | some s =>
    if s = "" then .ok fun _ _ => 1
    else if lower s = ['m', 'e', 'd', 'i', 'a', 'n'] then .ok fun n e => Spectral.quantile50 ((List.range n).map e)
    else if lower s = ['m', 'e', 'a', 'n'] then .ok fun n e => (∑ i ∈ range n, e i) / n
    else .error .value

/-- Adding leading dimensions until there are three (qtransform.py:133-134). -/
def to3dC (X : Tensor ℂ) : Tensor ℂ :=
  ⟨List.replicate (3 - X.shape.length) 1 ++ X.shape, fun i => X.get (i.drop (3 - X.shape.length))⟩

/-- `QTile.forward` (qtransform.py:107-155).  Gathering beyond the spectrum raises IndexError, an empty padded row RuntimeError. -/
noncomputable def QTile.forward (t : QTile) (X : Tensor ℂ) (norm : Option String) : Res (Tensor ℝ) := do
  if X.shape.length > 3 then .error .value
  else do
    let X := to3dC X
    let F ← X.lastDim
    if (List.range t.windowsize.toNat).any fun j => decide ((F : ℤ) ≤ t.index j) then .error .index
    else if t.len ≤ 0 then .error .runtime
    else do
      let nrm ← normalizer norm
      .ok (mapRows t.len.toNat (fun row s => t.energy row s / nrm t.len.toNat (t.energy row)) X)

/-! ## SingleQTransform -/

/-- The frequency range as the caller passes it: an infinite upper limit is `none`. (qtransform.py:203, 210) -/
abbrev FRange := ℝ × Option ℝ

/-- `max_q` (qtransform.py:216, 477). -/
noncomputable def maxQ (dur sr : ℝ) : ℝ := Real.pi * dur * sr / 50 - Real.sqrt 11

/-- The limits after replacing non-positive and infinite ones (qtransform.py:230-234). -/
noncomputable def resolve (dur sr q : ℝ) (fr : FRange) : ℝ × ℝ :=
  (if fr.1 ≤ 0 then 50 * q / (2 * Real.pi * dur) else fr.1,
    match fr.2 with
    | none => sr / 2 / (1 + 1 / qprime q)
    | some h => h)

/-- `fcum_mismatch` (qtransform.py:295-297). -/
noncomputable def fcum (q : ℝ) (r : ℝ × ℝ) : ℝ := Real.log (r.2 / r.1) * Real.sqrt (2 + q ^ 2) / 2

/-- `nfreq` (qtransform.py:299). -/
noncomputable def nfreq (q mismatch : ℝ) (r : ℝ × ℝ) : ℕ := (max 1 ⌈fcum q r / deltam mismatch⌉).toNat

/-- `fstep` (qtransform.py:300). -/
noncomputable def fstep (q mismatch : ℝ) (r : ℝ × ℝ) : ℝ := fcum q r / nfreq q mismatch r

/-- Frequency `i` before rounding (qtransform.py:303-304, 306). -/
noncomputable def rawFreq (q mismatch : ℝ) (r : ℝ × ℝ) (i : ℕ) : ℝ :=
  r.1 * Real.exp (2 / Real.sqrt (2 + q ^ 2) * fstep q mismatch r) ^ ((i : ℝ) + 1 / 2)

/-- Rounding down to a multiple of `1 / duration` (qtransform.py:306). -/
noncomputable def floorTo (dur f : ℝ) : ℝ := ⌊f / (1 / dur)⌋ * (1 / dur)

/-- `get_freqs` (qtransform.py:289-307); `torch.unique` sorts and removes duplicates. -/
noncomputable def freqs (dur q mismatch : ℝ) (r : ℝ × ℝ) : List ℝ :=
  (((List.range (nfreq q mismatch r)).map fun i => floorTo dur (rawFreq q mismatch r i)).toFinset).sort (· ≤ ·)

/-- The values of `interpolation_method`, qtransform.py:223. -/
inductive Interp where
  | bilinear | bicubic | spline
  deriving DecidableEq

/-- The check of `interpolation_method` (qtransform.py:223-227). -/
def parseInterp (s : String) : Res Interp :=
  if s = "bilinear" then .ok .bilinear else if s = "bicubic" then .ok .bicubic else if s = "spline" then .ok .spline else .error .value

/-- An instance of `SingleQTransform`; `tiles` is `None` before `compute_qtiles`, and `spl` holds `qtile_interpolators` and `interpolator`, which exist
for the spline method only. (qtransform.py:208-249, 265-287) -/
structure Single where
  dur : ℝ
  sr : ℝ
  q : ℝ
  mismatch : ℝ
  bins : ℕ × ℕ
  range : ℝ × ℝ
  method : Interp
  spl : Option (List Spline.Interp1D × Spline.Interp1D)
  tiles : Option (List (Tensor ℝ))

/-- `self.freqs`. (qtransform.py:236) -/
noncomputable def Single.freqs (s : Single) : List ℝ := QTransform.freqs s.dur s.q s.mismatch s.range

/-- `self.qtile_transforms` (qtransform.py:237-248). -/
noncomputable def Single.transforms (s : Single) : List QTile := s.freqs.map fun f => ⟨s.q, f, s.dur, s.sr, s.mismatch⟩

/-- `unique_ntiles` (qtransform.py:255-258). -/
def uniqueNtiles (ntiles : List ℤ) : List ℤ := ntiles.toFinset.sort (· ≤ ·)

/-- `stack_idx` (qtransform.py:259-260): the indices of the tiles of each length, lengths ascending. -/
def stackIdx (ntiles : List ℤ) : List (List ℕ) :=
  (uniqueNtiles ntiles).map fun n => (List.range ntiles.length).filter fun i => decide (ntiles.getD i 0 = n)

/-- `torch.arange(0, stop, step)` (qtransform.py:262-264, 269). -/
noncomputable def arange0 (stop step : ℝ) : List ℝ := (List.range ⌈stop / step⌉.toNat).map fun i : ℕ => (i : ℝ) * step

/-- `torch.logspace(math.log10(a), math.log10(b), n)` (qtransform.py:277-281). -/
noncomputable def logspace (a b : ℝ) (n : ℕ) : List ℝ :=
  (List.range n).map fun i : ℕ => (10 : ℝ) ^ (Real.logb 10 a + (i : ℝ) * ((Real.logb 10 b - Real.logb 10 a) / ((n : ℝ) - 1)))

/-- `_set_up_spline_interp` (qtransform.py:254-287).  Python raises ZeroDivisionError for a division of the duration by zero. -/
noncomputable def Single.setup (s : Single) : Res (List Spline.Interp1D × Spline.Interp1D) := do
  if s.bins.2 = 0 then .error .zeroDivision
  else do
    let tOut := arange0 s.dur (s.dur / s.bins.2)
    let fs ← (uniqueNtiles (s.transforms.map QTile.ntiles)).mapM fun n : ℤ =>
      if n = 0 then .error .zeroDivision else Spline.Interp1D.init (arange0 s.dur (s.dur / n)) 3 0 (some tOut)
    let f ← Spline.Interp1D.init s.freqs 3 0 (some (logspace s.range.1 s.range.2 s.bins.1))
    .ok (fs, f)

/-- `SingleQTransform.__init__` (qtransform.py:197-252): the result and what the caller's `frange` list contains afterwards (the
list is updated in place, also when a later step raises).  `math.log` of a non-positive ratio of the limits raises ValueError (qtransform.py:296). -/
noncomputable def Single.init (dur sr : ℝ) (bins : ℕ × ℕ) (q : ℝ) (frange : Option FRange) (mismatch : ℝ) (method : String) :
    Res Single × Option FRange :=
  let fr : FRange := frange.getD (0, none)
  if q ≥ maxQ dur sr then (.error .value, frange)
  else
    match parseInterp method with
    | .error e => (.error e, frange)
    | .ok m =>
      let r := resolve dur sr q fr
      let s : Single := ⟨dur, sr, q, mismatch, bins, r, m, none, none⟩
      (if r.2 / r.1 ≤ 0 then .error .value
        else if m = .spline then do
          let p ← s.setup
          .ok { s with spl := some p }
        else .ok s, frange.map fun _ => (r.1, some r.2))

/-- The scaled spectrum of `compute_qtiles` (qtransform.py:364-365): `rfft(X, norm="forward")` with all but the first bin doubled. -/
noncomputable def scaledSpectrum (x : Tensor ℝ) : Tensor ℂ :=
  mapRows (x.shape.getLastD 0 / 2 + 1)
    (fun row k => rfft (x.shape.getLastD 0) row k / (x.shape.getLastD 0 : ℂ) * (if 1 ≤ k then 2 else 1)) x

/-- `compute_qtiles` (qtransform.py:354-366). -/
noncomputable def Single.compute (s : Single) (x : Tensor ℝ) (norm : Option String) : Res Single := do
  if x.shape.getLastD 0 = 0 then .error .runtime
  else do
    let ts ← s.transforms.mapM fun t => t.forward (scaledSpectrum x) norm
    .ok { s with tiles := some ts }

/-- The indices of the entries of `l` satisfying `p` (`torch.argwhere`). (qtransform.py:334-335) -/
def argwhere (p : ℝ → Bool) (l : List ℝ) : List ℕ := (List.range l.length).filter fun i => p (l.getD i 0)

/-- Python's `min` of the rows of `argwhere`. (qtransform.py:334-335) -/
def minIdx (l : List ℕ) : Res ℕ :=
  match l with
  | [] => .error .value
  | a :: l => .ok (l.foldl min a)

/-- The tiles searched (qtransform.py:333-338). -/
noncomputable def searchTiles (fs : List ℝ) (tiles : List (Tensor ℝ)) (fsearch : Option (ℝ × ℝ)) : Res (List (Tensor ℝ)) :=
  match fsearch with
  | none => .ok tiles
  | some (a, b) => do
    let start ← minIdx (argwhere (fun f => decide (a < f)) fs)
    let stop ← minIdx (argwhere (fun f => decide (b < f)) fs)
    .ok ((tiles.take stop).drop start)

/-- `torch.max` of a tensor; an empty one raises RuntimeError. (qtransform.py:341) -/
noncomputable def tmax (t : Tensor ℝ) : Res ℝ :=
  if h : ((Tensor.allIdx t.shape).map t.get).toFinset.Nonempty then .ok (((Tensor.allIdx t.shape).map t.get).toFinset.max' h) else .error .runtime

/-- Python's `max` of a list. (qtransform.py:341) -/
noncomputable def pmax (l : List ℝ) : Res ℝ :=
  match l with
  | [] => .error .value
  | a :: l => .ok (l.foldl max a)

/-- `get_max_energy` with the default `dimension="both"` (qtransform.py:309-341). -/
noncomputable def Single.maxEnergy (s : Single) (fsearch : Option (ℝ × ℝ)) : Res ℝ :=
  match s.tiles with
  | none => .error .runtime
  | some tiles => do
    let ts ← searchTiles s.freqs tiles fsearch
    let ms ← ts.mapM tmax
    pmax ms

/-- `torch.max(t, dim=-1).values` of a tensor with at least one dimension: an empty last dimension raises IndexError. (qtransform.py:343, 345, 352) -/
noncomputable def maxLast (t : Tensor ℝ) : Res (Tensor ℝ) :=
  if h : (range (t.shape.getLastD 0)).Nonempty then
    .ok ⟨t.shape.dropLast, fun i => (range (t.shape.getLastD 0)).sup' h fun k => t.get (i ++ [k])⟩
  else .error .index

/-- `torch.stack(ts, dim=-1)` (qtransform.py:344). -/
def stackM1 (ts : List (Tensor ℝ)) : Res (Tensor ℝ) :=
  match ts with
  | [] => .error .runtime
  | t :: rest =>
    if rest.all fun u => decide (u.shape = t.shape) then
      .ok ⟨t.shape ++ [ts.length], fun i => (ts.getD (i.getLastD 0) t).get i.dropLast⟩
    else .error .runtime

/-- What `get_max_energy` returns: a number for `"both"`, a tensor otherwise. (qtransform.py:340-352) -/
inductive MaxEnergy where
  | scalar (m : ℝ)
  | tensor (t : Tensor ℝ)

/-- `get_max_energy` with its `dimension` argument (qtransform.py:309-352): "channel" is a maximum over dimension -2 of the `(B, C)` tensor, "batch" over
dimension -1. -/
noncomputable def Single.maxEnergyDim (s : Single) (fsearch : Option (ℝ × ℝ)) (dimension : String) : Res MaxEnergy :=
  if dimension ∉ ["both", "neither", "channel", "batch"] then .error .value
  else match s.tiles with
  | none => .error .runtime
  | some tiles => do
    let ts ← searchTiles s.freqs tiles fsearch
    if dimension = "both" then do
      let ms ← ts.mapM tmax
      let m ← pmax ms
      .ok (.scalar m)
    else do
      let a ← ts.mapM maxLast
      let b ← stackM1 a
      let c ← maxLast b
      if dimension = "neither" then .ok (.tensor c)
      else if dimension = "channel" then do
        let d ← maxLast (c.transpose 0 1)
        .ok (.tensor d)
      else do
        let d ← maxLast c
        .ok (.tensor d)

/-- `torch.squeeze`: the index with the dropped zeros reinserted. (qtransform.py:404) -/
def unsqueezeIdx : List ℕ → List ℕ → List ℕ
  | [], _ => []
  | 1 :: s, i => 0 :: unsqueezeIdx s i
  | _ :: s, j :: i => j :: unsqueezeIdx s i
  | _ :: s, [] => 0 :: unsqueezeIdx s []

/-- `torch.squeeze`. (qtransform.py:404) -/
def squeeze (t : Tensor ℝ) : Tensor ℝ := ⟨t.shape.filter (· ≠ 1), fun i => t.get (unsqueezeIdx t.shape i)⟩

/-- The kernel of each `F.interpolate` mode (qtransform.py:394, 402). -/
noncomputable def kernel (m : Interp) : ℕ → ℕ → (ℕ → ℝ) → ℕ → ℝ :=
  match m with
  | .bilinear => linear
  | _ => cubic

/-- A subscript of a Python list (qtransform.py:375). -/
def pick (tiles : List (Tensor ℝ)) (i : ℕ) : Res (Tensor ℝ) :=
  match tiles[i]? with
  | some t => .ok t
  | none => .error .index

/-- The spline branch of `interpolate` (qtransform.py:373-388): tiles of equal length are stacked, interpolated in time, concatenated, and the
columns interpolated in frequency.  `zip(..., strict=True)` raises ValueError on lists of different lengths. -/
noncomputable def splineInterpolate (ntiles : List ℤ) (fs : List Spline.Interp1D) (f : Spline.Interp1D) (tiles : List (Tensor ℝ)) : Res (Tensor ℝ) := do
  let stacked ← (stackIdx ntiles).mapM fun idx => do
    let ts ← idx.mapM (pick tiles)
    stackM2 ts
  if stacked.length ≠ fs.length then .error .value
  else do
    let rows ← (stacked.zip fs).mapM fun p => (p.2.forward p.1 none).1
    let y ← catM2 rows
    let z ← (f.forward (y.transpose 2 3) none).1
    .ok (z.transpose 2 3)

/-- The other branch of `interpolate` (qtransform.py:389-404). -/
noncomputable def imageInterpolate (k : ℕ → ℕ → (ℕ → ℝ) → ℕ → ℝ) (bins : ℕ × ℕ) (tiles : List (Tensor ℝ)) : Res (Tensor ℝ) := do
  let rs ← tiles.mapM fun t => interp2 k (t.shape.getD (t.shape.length - 2) 0) bins.2 t.unsqueeze0
  let y ← stackM2 rs
  let z ← interp2 k bins.1 bins.2 ⟨y.shape.tail, fun i => y.get (0 :: i)⟩
  .ok (squeeze z)

/-- `interpolate` (qtransform.py:368-404). -/
noncomputable def Single.interpolate (s : Single) : Res (Tensor ℝ) :=
  match s.tiles with
  | none => .error .runtime
  | some tiles =>
    match s.method, s.spl with
    | .spline, some (fs, f) => splineInterpolate (s.transforms.map QTile.ntiles) fs f tiles
    | .spline, none => .error .attribute
    | m, _ => imageInterpolate (kernel m) s.bins tiles

/-- `SingleQTransform.forward` (qtransform.py:406-431). -/
noncomputable def Single.forward (s : Single) (x : Tensor ℝ) (norm : Option String) : Res (Tensor ℝ) := do
  let s' ← s.compute x norm
  s'.interpolate

/-! ## QScan -/

/-- `cumum`, `nplanes`, `dq` (qtransform.py:511-514). -/
noncomputable def cumum (qr : ℝ × ℝ) : ℝ := Real.log (qr.2 / qr.1) / Real.sqrt 2

/-- `nplanes`, qtransform.py:513. -/
noncomputable def nplanes (mismatch : ℝ) (qr : ℝ × ℝ) : ℕ := (max ⌈cumum qr / deltam mismatch⌉ 1).toNat

/-- `get_qs` (qtransform.py:507-520). -/
noncomputable def getQs (mismatch : ℝ) (qr : ℝ × ℝ) : List ℝ :=
  (List.range (nplanes mismatch qr)).map fun i : ℕ => qr.1 * Real.exp (Real.sqrt 2 * (cumum qr / nplanes mismatch qr) * ((i : ℝ) + 1 / 2))

/-- `QScan.__init__` (qtransform.py:462-505): the list of transforms.  `frange` is copied for each. -/
noncomputable def scanInit (dur sr : ℝ) (bins : ℕ × ℕ) (qrange : Option (ℝ × ℝ)) (frange : Option FRange) (method : String) (mismatch : ℝ) :
    Res (List Single) :=
  ((getQs mismatch (qrange.getD (4, 64))).filter fun q => decide (q < maxQ dur sr)).mapM fun q =>
    (Single.init dur sr bins q (some (frange.getD (0, none))) mismatch method).1

/-- `QScan.forward` (qtransform.py:522-561).  `argmax` is `torch.argmax`, which raises IndexError on an empty tensor and returns some index of a
largest entry. -/
noncomputable def scanForward (argmax : List ℝ → ℕ) (ts : List Single) (x : Tensor ℝ) (fsearch : Option (ℝ × ℝ))
    (norm : Option String) : Res (Tensor ℝ) := do
  let ts ← ts.mapM fun s => s.compute x norm
  let es ← ts.mapM fun s => s.maxEnergy fsearch
  if es = [] then .error .index
  else match ts[argmax es]? with
    | some s => s.interpolate
    | none => .error .index

end Verif.QTransform
