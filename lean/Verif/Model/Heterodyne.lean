import Verif.Model.Whiten
import Mathlib.Analysis.SpecialFunctions.Pow.Real
/-!
# Model of `Heterodyne` (ml4gw/transforms/heterodyne.py)

Exact real arithmetic, chirp masses of shape `(M,)`.  For a non-positive chirp mass the code computes NaNs
(fractional power of a negative number); the theorems assume positive masses.  The phase of the DC bin is
`exp(i * inf) = nan` in the code; it is overwritten before use (line 128).
-/
namespace Verif.Heterodyne
open Verif.Fourier Verif.Whiten

/-- `MTSUN_SI` (constants.py:27). -/
noncomputable def mtsun : ℝ := 4.925490947641266978197229498498379006e-6

/-- The accepted values of `return_type`. (heterodyne.py:92) -/
inductive Ret where
  | time | freq | both
  deriving DecidableEq

/-- The state of a `Heterodyne` module: the sample rate, the buffer `heterodyning_phase` (`(M, F)`) and the
return type. (heterodyne.py:75-91) -/
structure State where
  sr : ℝ
  phase : Tensor ℂ
  ret : Ret

/-- The check of `return_type` (heterodyne.py:91-95). -/
def parseRet (s : String) : Res Ret :=
  if s = "time" then .ok .time else if s = "freq" then .ok .freq else if s = "both" then .ok .both else .error .value

/-- `Heterodyne.__init__` with `_heterodyning_phase` (heterodyne.py:67-106) for a kernel of at least one sample. -/
noncomputable def init (sr kernelLength : ℝ) (mass : Tensor ℝ) (ret : String) : Res State := do
  let K := (pyInt (kernelLength * sr)).toNat                                       -- line 80
  let f (k : ℕ) : ℝ := k / (K * (1 / sr))                                          -- lines 79-81
  match mass.shape with
  | [M] => do
    let phase : Tensor ℂ := ⟨[M, K / 2 + 1], fun i =>
      let pmf := Real.pi * (mass.get [i.getD 0 0] * mtsun) * f (i.getD 1 0)        -- lines 83-87
      Complex.exp (3 * Complex.I / 128 * ((pmf ^ (-(5 / 3) : ℝ) : ℝ) : ℂ))⟩         -- line 105
    let r ← parseRet ret
    .ok ⟨sr, phase, r⟩
  | _ => .error .index

/-- The value of a call. (heterodyne.py:132-137) -/
inductive Out where
  | time (x : Tensor ℝ)
  | freq (X : Tensor ℂ)
  | both (x : Tensor ℝ) (X : Tensor ℂ)

/-- The heterodyned spectra (heterodyne.py:125-128) for an input `(B, C, T)`; the product broadcasts
`(B, C, 1, F)` with `(1, M, F')`. -/
noncomputable def spectra (s : State) (x : Tensor ℝ) : Res (Tensor ℂ) :=
  match x.shape, s.phase.shape with
  | [B, C, T], [M, F'] =>
    if T = 0 then .error .runtime
    else do
      let F := T / 2 + 1
      let fft : Tensor ℂ := ⟨[B, C, 1, F], fun i => rfft T (fun t => x.get [i.getD 0 0, i.getD 1 0, t]) (i.getD 3 0) / s.sr⟩
      let ph : Tensor ℂ := ⟨[1, M, F'], fun i => s.phase.get [i.getD 1 0, i.getD 2 0]⟩
      let y ← Tensor.zipB (· * ·) fft ph
      .ok ⟨y.shape, fun i => if i.getLastD 0 = 0 then 0 else y.get i⟩
  | _, _ => .error .index

/-- `torch.fft.irfft(X, dim=-1) * sample_rate` (heterodyne.py:129-130): the default length is `2 (F - 1)`, and a
length of 0 raises RuntimeError. -/
noncomputable def backToTime (sr : ℝ) (X : Tensor ℂ) : Res (Tensor ℝ) := do
  let F ← X.lastDim
  let n := 2 * (F - 1)
  if n = 0 then .error .runtime
  else .ok (mapRows n (fun Y t => irfft n Y t * sr) X)

/-- Selection of the returned value (heterodyne.py:132-137). -/
def select (r : Ret) (x : Tensor ℝ) (X : Tensor ℂ) : Out :=
  match r with
  | .time => .time x
  | .freq => .freq X
  | .both => .both x X

/-- `forward` (heterodyne.py:108-137). -/
noncomputable def forward (s : State) (x : Tensor ℝ) : Res Out := do
  let X ← spectra s x
  let y ← backToTime s.sr X
  .ok (select s.ret y X)

end Verif.Heterodyne
