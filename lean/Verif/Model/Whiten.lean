import Verif.Model.Spectral
import Mathlib.Analysis.SpecialFunctions.Pow.NNReal
/-!
# Model of the whitening functions (ml4gw/spectral.py:348-568, ml4gw/transforms/whitening.py)

Exact real arithmetic; the casts to float32/float64 are the identity.  Input PSDs are real and assumed
positive by the theorems; truncated PSDs may be infinite (`1/0 = inf` in the code), hence `ENNReal`.
-/
namespace Verif.Whiten
open Finset Verif.Fourier Verif.Spectral

/-- Python's `int(r)`: truncation towards zero. (spectral.py:407, 410, 424, 535) -/
noncomputable def pyInt (r : ℝ) : Int := if 0 ≤ r then ⌊r⌋ else ⌈r⌉

/-- The `fduration` argument: a duration in seconds or a taper window. (spectral.py:350, 420-426) -/
inductive FDuration where
  | secs (d : ℝ)
  | window (size : Nat) (w : Nat → ℝ)

/-- `torch.hann_window(n)` (periodic; a one-sample window is 1). (spectral.py:425) -/
noncomputable def hann (n : Nat) (t : Nat) : ℝ :=
  if n = 1 then 1 else 1 / 2 * (1 - Real.cos (2 * Real.pi * t / n))

/-- `pad` (spectral.py:421, 424, 533, 535). -/
noncomputable def FDuration.pad (fd : FDuration) (sr : ℝ) : Int :=
  match fd with
  | .secs d => pyInt (d * sr / 2)
  | .window n _ => ((n / 2 : Nat) : Int)

/-- The taper window and its size (lines 420-426). (spectral.py:420-426) -/
noncomputable def FDuration.taper (fd : FDuration) (sr : ℝ) : Nat × (Nat → ℝ) :=
  match fd with
  | .secs d => ((2 * pyInt (d * sr / 2)).toNat, hann (2 * pyInt (d * sr / 2)).toNat)
  | .window n w => (n, w)

/-- Apply a function of series to the last axis. (the `dim=-1` of spectral.py:417, 436, 454) -/
def mapRows {α β : Type _} (n : Nat) (f : (Nat → α) → Nat → β) (x : Tensor α) : Tensor β :=
  ⟨x.shape.dropLast ++ [n], fun i => f (fun t => x.get (i.dropLast ++ [t])) (i.getLastD 0)⟩

/-- Lines 397-414: the inverse ASD with the bins `[:hp]` and `[lp:]` zeroed, and the last bin zeroed if
the number `F` of bins is odd. (spectral.py:397-414) -/
noncomputable def invAsd (F : Nat) (sr : ℝ) (highpass lowpass : Option ℝ) (psd : Nat → ℝ) (k : Nat) : ℝ :=
  let df := sr / ((F - 1) * 2 : Nat)                                          -- line 405
  let a := 1 / Real.sqrt (psd k)                                              -- line 401
  let a := match highpass with
    | some hp => if k < pySliceBound F (pyInt (hp / df)) then 0 else a        -- lines 406-408
    | none => a
  let a := match lowpass with
    | some lp => if pySliceBound F (pyInt (lp / df)) ≤ k then 0 else a        -- lines 409-411
    | none => a
  if F % 2 = 1 ∧ k = F - 1 then 0 else a                                      -- lines 413-414

/-- Lines 429-432: the tapers at both ends and the zeros between (`W` is the window size; the slice
`window[-pad:]` begins at `W - pad`). (spectral.py:429-432) -/
noncomputable def taper (N pad W : Nat) (w : Nat → ℝ) (q : Nat → ℝ) (t : Nat) : ℝ :=
  let q1 := if t < pad then q t * w (W - pad + t) else q t                    -- line 429
  let q2 := if N - pad ≤ t then q1 * w (t - (N - pad)) else q1                -- line 430
  if 2 * pad < N ∧ pad ≤ t ∧ t < N - pad then 0 else q2                       -- lines 431-432

/-- Lines 396-439 for one PSD. (spectral.py:396-439) -/
noncomputable def truncRow (F pad W : Nat) (w : Nat → ℝ) (sr : ℝ) (highpass lowpass : Option ℝ)
    (psd : Nat → ℝ) (k : Nat) : ENNReal :=
  let N := (F - 1) * 2                                                        -- line 397
  let q := irfftF N (fun k => (invAsd F sr highpass lowpass psd k : ℂ))       -- line 417
  let h := rfft N (taper N pad W w q) k / N                                   -- line 436, norm="forward"
  let invPsd := h * (starRingEnd ℂ) h                                         -- line 437
  1 / ENNReal.ofReal ‖invPsd‖ / 2                                             -- lines 438-439

/-- `truncate_inverse_power_spectrum` (spectral.py:348-439).  A single frequency bin raises
ZeroDivisionError; `pad = 0` or `pad > N` makes an in-place product fail (RuntimeError: the slice
`q[:, :, -0:]` is the whole filter while `window[:0]` is empty).  A taper window shorter than `pad`
cannot occur (`pad` is half its size); negative durations are not modelled (RuntimeError here). -/
noncomputable def truncateInverse (psd : Tensor ℝ) (fd : FDuration) (sr : ℝ)
    (highpass lowpass : Option ℝ) : Res (Tensor ENNReal) :=
  match psd.shape with
  | [_, _, F] =>
    if F ≤ 1 then .error .zeroDivision
    else if fd.pad sr ≤ 0 ∨ (((F - 1) * 2 : Nat) : Int) < fd.pad sr then .error .runtime
    else
      let (W, w) := fd.taper sr
      .ok (mapRows F (truncRow F (fd.pad sr).toNat W w sr highpass lowpass) psd)
  | _ => .error .index

/-- `torch.nan_to_num(psd**-0.5)` (line 455): an infinite value becomes the largest double `maxF`.
(spectral.py:455) -/
noncomputable def invSqrt (maxF : ℝ) (p : ENNReal) : ℝ :=
  let a := p ^ (-(1/2) : ℝ)
  if a = ⊤ then maxF else a.toReal

/-- `normalize_by_psd(X, psd, sample_rate, pad, crop)` (spectral.py:442-466) for `X` of shape `(B, C, N)`. -/
noncomputable def normalizeByPsd (maxF : ℝ) (x : Tensor ℝ) (psd : Tensor ENNReal) (sr : ℝ) (pad : Int)
    (crop : Bool) : Res (Tensor ℝ) :=
  match x.shape with
  | [_, _, N] => do
    let xt : Tensor ℂ := mapRows (N / 2 + 1) (fun s k => rfft N s k / N) (demean x)    -- lines 453-454
    let y ← Tensor.zipB (fun (a : ℂ) (b : ℝ) => a * (b : ℂ)) xt (psd.map (invSqrt maxF) : Tensor ℝ)           -- lines 455-456
    let out : Tensor ℝ := mapRows N (fun s t => irfftF N s t / Real.sqrt sr) y         -- lines 460-461
    if crop then
      let lo := pySliceBound N pad
      let hi := pySliceBound N (-pad)
      .ok (out.narrowLast lo (hi - lo))                                                -- line 465
    else .ok out
  | _ => .error .index

/-- `torch.nn.functional.interpolate(mode="linear", align_corners=False)` of a series with `n` values to
`m` values. (spectral.py:554-556) -/
noncomputable def interpLinear (n m : Nat) (p : Nat → ℝ) (i : Nat) : ℝ :=
  let src := max (((i : ℝ) + 1 / 2) * ((n : ℝ) / m) - 1 / 2) 0
  let i0 := ⌊src⌋₊
  let i1 := if i0 + 1 < n then i0 + 1 else i0
  let l := src - i0
  (1 - l) * p i0 + l * p i1

/-- Lines 545-546: leading dimensions are added until the PSD has three. (spectral.py:545-546) -/
def to3d {α : Type _} (p : Tensor α) : Tensor α :=
  match p.shape with
  | [f] => ⟨[1, 1, f], fun i => p.get i.tail.tail⟩
  | [c, f] => ⟨[1, c, f], fun i => p.get i.tail⟩
  | _ => p

/-- `whiten` (spectral.py:469-568).  0-dimensional PSDs are not modelled. -/
noncomputable def whiten (maxF : ℝ) (x psd : Tensor ℝ) (fd : FDuration) (sr : ℝ)
    (highpass lowpass : Option ℝ) (crop : Bool) : Res (Tensor ℝ) := do
  let n ← x.lastDim
  let pad := fd.pad sr                                                       -- lines 532-535
  if (n : Int) ≤ 2 * pad then .error .value                                  -- lines 537-542
  else do
    let psd := to3d psd
    let f ← psd.lastDim
    let psd := if f ≠ n / 2 + 1 then mapRows (n / 2 + 1) (interpLinear f (n / 2 + 1)) psd else psd  -- 550-556
    let tpsd ← truncateInverse psd fd sr highpass lowpass                    -- lines 560-566
    normalizeByPsd maxF x tpsd sr pad crop                                   -- line 568

end Verif.Whiten
