import Verif.Model.WhitenModules
import Verif.TensorMore
/-!
# Model of the SNR functions (ml4gw/gw.py:272-512) and of `SnrRescaler` (ml4gw/transforms/snr_rescaler.py)

Exact real arithmetic (the casts between float32 and float64 are the identity).  A zero PSD bin or a zero SNR
divides by zero (inf/nan in the code); the theorems about values assume positive PSDs and SNRs.
-/
namespace Verif.Snr
open Finset Verif.Fourier Verif.Whiten

/-- The `highpass` / `lowpass` arguments: `None`, a frequency, or a pre-computed mask. (gw.py:276-277) -/
inductive Cut where
  | none
  | freq (f : ℝ)
  | mask (m : Tensor ℝ)

/-- `torch.fft.rfftfreq(n, 1 / sample_rate)[k]`. (gw.py:362, 373) -/
noncomputable def rfftfreq (n : ℕ) (sr : ℝ) (k : ℕ) : ℝ := k / (n * (1 / sr))

/-- Value of a boolean mask entry. (gw.py:363, 374) -/
noncomputable def boolMask (p : Prop) : ℝ := open Classical in if p then 1 else 0

/-- One of the two masking blocks (gw.py:360-370 and 371-381); `keep f x` is the comparison of the bin
frequency `x` with the critical frequency `f`, `n` is the number of time samples.  `len` of a 0-d tensor
raises TypeError. -/
noncomputable def applyCut (n : ℕ) (sr : ℝ) (keep : ℝ → ℝ → Prop) (cut : Cut) (x : Tensor ℝ) : Res (Tensor ℝ) :=
  match cut with
  | .none => .ok x
  | .freq f => .ok ⟨x.shape, fun i => x.get i * boolMask (keep f (rfftfreq n sr (i.getLastD 0)))⟩
  | .mask m => do
    let l ← m.len
    let F ← x.lastDim
    if l ≠ F then .error .value
    else Tensor.zipB (· * ·) x m

/-- `psd.size(-1) != fft.size(-1)`: linear interpolation to `F` bins (gw.py:346-351). -/
noncomputable def matchBins (F : ℕ) (psd : Tensor ℝ) : Res (Tensor ℝ) := do
  let f ← psd.lastDim
  if f ≠ F then .ok (mapRows F (interpLinear f F) psd) else .ok psd

/-- `compute_ifo_snr` (gw.py:272-400) for responses of shape `(B, C, N)`; other ranks are excluded by the
annotation and not modelled (IndexError here).  `rfft` of an empty series raises RuntimeError. -/
noncomputable def ifoSnr (responses psd : Tensor ℝ) (sr : ℝ) (highpass lowpass : Cut) : Res (Tensor ℝ) :=
  match responses.shape with
  | [_, _, N] => do
    if N = 0 then .error .runtime
    else do
      let F := N / 2 + 1
      let fft := mapRows F (fun s k => ‖rfft N s k‖ / sr) responses                  -- lines 341-342
      let psd ← matchBins F (to3d psd)                                               -- lines 346-351
      let integrand ← Tensor.zipB (fun a p => (a / Real.sqrt p) ^ 2) fft psd         -- lines 355-356
      let integrand ← applyCut N sr (fun f x => x ≥ f) highpass integrand            -- lines 360-370
      let integrand ← applyCut N sr (fun f x => x < f) lowpass integrand             -- lines 371-381
      let df := sr / N                                                               -- line 395
      let integrated := integrand.sumLast.map (· * df)                               -- line 396
      .ok ((integrated.map (4 * ·)).map Real.sqrt)                                   -- lines 399-400
  | _ => .error .index

/-- `compute_network_snr` (gw.py:403-459). -/
noncomputable def networkSnr (responses psd : Tensor ℝ) (sr : ℝ) (highpass lowpass : Cut) : Res (Tensor ℝ) := do
  let snrs ← ifoSnr responses psd sr highpass lowpass
  .ok ((snrs.map (· ^ 2)).sumLast.map Real.sqrt)

/-- The `target_snrs` argument: a number or a tensor. (gw.py:452) -/
inductive Target where
  | scalar (v : ℝ)
  | tensor (t : Tensor ℝ)

/-- A number is a 0-d tensor. (gw.py:511) -/
def Target.val : Target → Tensor ℝ
  | .scalar v => ⟨[], fun _ => v⟩
  | .tensor t => t

/-- `weights[:, None, None]` / `weights.view(-1, 1, 1)` of a 1-d tensor. (gw.py:512, snr_rescaler.py:82) -/
def addDims2 (w : Tensor ℝ) : Tensor ℝ := ⟨w.shape ++ [1, 1], fun i => w.get (i.take w.shape.length)⟩

/-- Lines 511-512 of gw.py and 81-82 of snr_rescaler.py. (gw.py:511-512, snr_rescaler.py:81-82) -/
noncomputable def rescale (responses : Tensor ℝ) (target snrs : Tensor ℝ) : Res (Tensor ℝ) := do
  let weights ← Tensor.zipB (· / ·) target snrs
  Tensor.zipB (· * ·) responses (addDims2 weights)

/-- `reweight_snrs` (gw.py:462-512). -/
noncomputable def reweightSnrs (responses : Tensor ℝ) (target : Target) (psd : Tensor ℝ) (sr : ℝ)
    (highpass lowpass : Cut) : Res (Tensor ℝ) := do
  let snrs ← networkSnr responses psd sr highpass lowpass
  rescale responses target.val snrs

/-- The state of an `SnrRescaler`. (snr_rescaler.py:9-41) -/
structure Rescaler where
  numChannels : ℕ
  sr : ℝ
  background : Tensor ℝ
  highpassMask : Cut
  lowpassMask : Cut
  built : Bool

/-- A mask buffer computed from a frequency (snr_rescaler.py:28-41). -/
noncomputable def maskOf (n : ℕ) (sr : ℝ) (keep : ℝ → ℝ → Prop) : Option ℝ → Cut
  | none => .none
  | some f => .mask ⟨[n / 2 + 1], fun i => boolMask (keep f (rfftfreq n sr (i.headD 0)))⟩

/-- `SnrRescaler.__init__` (snr_rescaler.py:9-41) for a non-negative duration. -/
noncomputable def Rescaler.init (numChannels : ℕ) (sr duration : ℝ) (highpass lowpass : Option ℝ) : Rescaler :=
  let n := (pyInt (duration * sr)).toNat                                             -- line 22
  ⟨numChannels, sr, Tensor.zeros [numChannels, n / 2 + 1],                            -- lines 23-26
    maskOf n sr (fun f x => x ≥ f) highpass, maskOf n sr (fun f x => x < f) lowpass, false⟩

/-- `SnrRescaler.fit` (snr_rescaler.py:43-63). -/
noncomputable def Rescaler.fit (r : Rescaler) (background : List (Tensor ℝ)) (fftlength overlap : Option ℝ) :
    Res Rescaler := do
  if background.length ≠ r.numChannels then .error .value                            -- lines 49-53
  else do
    let F := r.background.shape.getD 1 0                                             -- line 55
    let psds ← background.mapM fun x => normalizePsd x r.sr F fftlength overlap      -- lines 56-61
    if psds = [] then .error .runtime
    else .ok { r with
      background := ⟨[r.numChannels, F], fun i => (psds.getD (i.headD 0) ⟨[], fun _ => 0⟩).get i.tail⟩
      built := true }

/-- The target SNRs used by `forward`: those given, or the current SNRs in the order of the random
permutation `perm` (lines 77-79). (snr_rescaler.py:77-79) -/
noncomputable def Rescaler.targets (perm : ℕ → ℕ) (target : Option (Tensor ℝ)) (snrs : Tensor ℝ) : Tensor ℝ :=
  match target with
  | some t => t
  | none => ⟨snrs.shape, fun i => snrs.get [perm (i.headD 0)]⟩

/-- `SnrRescaler.__call__` (transform.py:25-27, snr_rescaler.py:65-84); `perm` is the outcome of
`torch.randperm`. -/
noncomputable def Rescaler.call (r : Rescaler) (perm : ℕ → ℕ) (responses : Tensor ℝ) (target : Option (Tensor ℝ)) :
    Res (Tensor ℝ × Tensor ℝ) := do
  if r.built = false then .error .value
  else do
    let snrs ← networkSnr responses r.background r.sr r.highpassMask r.lowpassMask   -- lines 70-76
    let t := Rescaler.targets perm target snrs
    let y ← rescale responses t snrs                                                 -- lines 81-82
    .ok (y, t)

end Verif.Snr
