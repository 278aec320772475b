import Verif.Model.Whiten
/-!
# Model of the modules `Whiten`, `FixedWhiten` and `SpectralDensity`
(ml4gw/transforms/whitening.py, transform.py:42-76, ml4gw/transforms/spectral.py)

Exact real arithmetic, except that the rounding of `fduration` to float32 in `FixedWhiten.fit` is the
parameter `rnd`.  Datatypes and devices are not modelled.
-/
namespace Verif.Whiten
open Finset Verif.Fourier Verif.Spectral

/-- `Whiten.__init__` and `forward` (whitening.py:52-121).  A negative window size raises RuntimeError in
`torch.hann_window`. -/
noncomputable def whitenModule (maxF fduration sr : ℝ) (highpass lowpass : Option ℝ) (x psd : Tensor ℝ)
    (crop : Bool) : Res (Tensor ℝ) :=
  let size := pyInt (fduration * sr)                                         -- line 68
  if size < 0 then .error .runtime
  else whiten maxF x psd (.window size.toNat (hann size.toNat)) sr highpass lowpass crop   -- lines 113-121

/-- `torch.nn.functional.interpolate(x, size=(m,))` (nearest) of a series with `n` values. (transform.py:75) -/
def interpNearest (n m : Nat) (p : Nat → ℝ) (i : Nat) : ℝ := p (i * n / m)

/-- `overlap or fftlength / 2` (transform.py:57): `None` and `0` are replaced. -/
noncomputable def orHalf (overlap : Option ℝ) (fftlength : ℝ) : ℝ :=
  match overlap with
  | none => fftlength / 2
  | some o => open Classical in if o = 0 then fftlength / 2 else o

/-- `torch.hann_window(n)` as a tensor (RuntimeError for negative `n`).
(transform.py:60, transforms/spectral.py:74) -/
noncomputable def hannTensor (n : Int) : Res (Tensor ℝ) :=
  if n < 0 then .error .runtime else .ok ⟨[n.toNat], fun i => hann n.toNat (i.headD 0)⟩

/-- `1.0 / (sample_rate * (window**2).sum())` (transform.py:61, transforms/spectral.py:84). -/
noncomputable def densityScale (sr : ℝ) (w : Tensor ℝ) : ℝ :=
  1 / (sr * ∑ t ∈ range (w.shape.headD 0), w.get [t] ^ 2)

/-- Lines 54-68 of transform.py: time-domain data are converted with Welch's method; the aggregation is the
default of `spectral_density`, `"median"`. (transform.py:54-68) -/
noncomputable def toPsd (x : Tensor ℝ) (sr : ℝ) (fftlength overlap : Option ℝ) : Res (Tensor ℝ) :=
  match fftlength with
  | none => .ok x
  | some f => do
    let nperseg := pyInt (f * sr)                                            -- line 55
    let nstride := nperseg - pyInt (orHalf overlap f * sr)                   -- lines 57-58
    let w ← hannTensor nperseg                                               -- line 60
    spectralDensity x nperseg nstride w (densityScale sr w) "median"         -- lines 61-68

/-- `normalize_psd` (transform.py:43-76): the PSD resampled (nearest) to `numFreqs` values. -/
noncomputable def normalizePsd (x : Tensor ℝ) (sr : ℝ) (numFreqs : Nat) (fftlength overlap : Option ℝ) :
    Res (Tensor ℝ) := do
  let p ← toPsd x sr fftlength overlap
  let p ← p.reshapeInfer [1, 1] []                                           -- line 73
  let n := p.shape.getD 2 0
  if n = numFreqs then .ok ⟨[numFreqs], fun i => p.get (0 :: 0 :: i)⟩
  else if n = 0 then .error .runtime                                         -- interpolate
  else .ok ⟨[numFreqs], fun i => interpNearest n numFreqs (fun k => p.get [0, 0, k]) (i.headD 0)⟩  -- 74-75

/-- `FixedWhiten` (whitening.py:143-162): constructor arguments and state. -/
structure FixedWhiten where
  numChannels : Nat
  kernelLength : ℝ
  sr : ℝ
  psd : Tensor ENNReal
  fduration : ℝ
  built : Bool

/-- `int(kernel_length * sample_rate)` (whitening.py:155, 274). -/
noncomputable def FixedWhiten.size (kernelLength sr : ℝ) : Int := pyInt (kernelLength * sr)

/-- `FixedWhiten.__init__` (whitening.py:143-162) for a non-negative kernel length. -/
noncomputable def FixedWhiten.init (numChannels : Nat) (kernelLength sr : ℝ) : FixedWhiten :=
  ⟨numChannels, kernelLength, sr, ⟨[numChannels, (FixedWhiten.size kernelLength sr).toNat / 2 + 1], fun _ => 0⟩, 0, false⟩

/-- The loop body of `fit` (whitening.py:240-249): the truncated PSD of one channel, shape `(F,)`. -/
noncomputable def fitOne (sr : ℝ) (F : Nat) (fd : ℝ) (fftlength overlap highpass lowpass : Option ℝ)
    (x : Tensor ℝ) : Res (Tensor ENNReal) := do
  let p ← normalizePsd x sr F fftlength overlap
  let p ← p.reshapeInfer [1, 1] []                                           -- line 244
  let t ← truncateInverse p (.secs fd) sr highpass lowpass                   -- lines 246-248
  .ok ⟨t.shape.drop 2, fun i => t.get (0 :: 0 :: i)⟩

/-- `FixedWhiten.fit` (whitening.py:164-253).  `torch.stack([])` raises RuntimeError. -/
noncomputable def FixedWhiten.fit (rnd : ℝ → ℝ) (fw : FixedWhiten) (fd : ℝ) (background : List (Tensor ℝ))
    (fftlength highpass lowpass overlap : Option ℝ) : Res FixedWhiten := do
  if background.length ≠ fw.numChannels then .error .value                   -- lines 232-236
  else do
    let F := fw.psd.shape.getD 1 0                                           -- line 238
    let psds ← background.mapM (fitOne fw.sr F fd fftlength overlap highpass lowpass)
    if psds = [] then .error .runtime
    else .ok { fw with
      psd := ⟨[fw.numChannels, F], fun i => (psds.getD (i.headD 0) ⟨[], fun _ => 0⟩).get i.tail⟩
      fduration := rnd fd                                                    -- line 252
      built := true }

/-- `FixedWhiten.__call__` (transform.py:25-27, whitening.py:255-285). -/
noncomputable def FixedWhiten.call (maxF : ℝ) (fw : FixedWhiten) (x : Tensor ℝ) (crop : Bool) : Res (Tensor ℝ) := do
  if fw.built = false then .error .value
  else do
    let n ← x.lastDim
    if (n : Int) ≠ FixedWhiten.size fw.kernelLength fw.sr then .error .value  -- lines 274-280
    else normalizeByPsd maxF x fw.psd fw.sr (pyInt (fw.fduration * fw.sr / 2)) crop   -- lines 282-285

/-- The state of a `SpectralDensity` module. (transforms/spectral.py:68-84) -/
structure Density where
  nperseg : Int
  nstride : Int
  window : Tensor ℝ
  scale : ℝ
  average : String
  fast : Bool

/-- `overlap >= fftlength` for a given overlap (transforms/spectral.py:60). -/
noncomputable def overlapTooLong (overlap : Option ℝ) (fftlength : ℝ) : Bool :=
  match overlap with
  | none => false
  | some o => open Classical in decide (fftlength ≤ o)

/-- The window given, or a Hann window (transforms/spectral.py:73-74). -/
noncomputable def windowOrHann (window : Option (Tensor ℝ)) (nperseg : Int) : Res (Tensor ℝ) :=
  match window with
  | some w => .ok w
  | none => hannTensor nperseg

/-- `SpectralDensity.__init__` (transforms/spectral.py:49-92); an explicit window is 1-dimensional. -/
noncomputable def Density.init (sr fftlength : ℝ) (overlap : Option ℝ) (average : String) (window : Option (Tensor ℝ))
    (fast : Bool) : Res Density := do
  if overlapTooLong overlap fftlength then .error .value                      -- lines 58-64
  else do
    let nperseg := pyInt (fftlength * sr)                                    -- line 68
    let nstride := nperseg - pyInt (overlap.getD (fftlength / 2) * sr)       -- line 69
    let w ← windowOrHann window nperseg                                      -- lines 73-74
    if ((w.shape.headD 0 : Nat) : Int) ≠ nperseg then .error .value          -- lines 76-79
    else if average ≠ "mean" ∧ average ≠ "median" then .error .value         -- lines 87-90
    else .ok ⟨nperseg, nstride, w, densityScale sr w, average, fast⟩

/-- `SpectralDensity.forward` (transforms/spectral.py:94-117); real results are embedded in the complex numbers. -/
noncomputable def Density.forward (d : Density) (x : Tensor ℝ) (y : Option (Tensor ℝ)) : Res (Tensor ℂ) :=
  if d.fast then fastSpectralDensity x d.nperseg d.nstride d.window d.scale d.average y
  else if y.isSome then .error .notImplemented
  else do
    let p ← spectralDensity x d.nperseg d.nstride d.window d.scale d.average
    .ok (p.map (fun (v : ℝ) => (v : ℂ)))

end Verif.Whiten
