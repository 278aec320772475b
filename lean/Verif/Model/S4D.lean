import Verif.Tensor
import Verif.Fourier
import Mathlib.Analysis.SpecialFunctions.Log.Basic
import Mathlib.Analysis.SpecialFunctions.Exponential
/-!
# Model of the S4D state-space layer (ml4gw/nn/ssm/s4d.py)

Exact arithmetic.  The activation (GELU) is an arbitrary function of a real number; a dropout mask is an explicit
factor per sample and channel (all ones in evaluation mode).
-/
namespace Verif.S4D
open Finset Fourier

/-- Parameters of `S4DKernel` for `half = N // 2` conjugate pairs (s4d.py:64-81). -/
structure Kernel where
  half : ℕ
  logDt : ℕ → ℝ
  C : ℕ → ℕ → ℂ
  logAReal : ℕ → ℕ → ℝ
  AImag : ℕ → ℕ → ℝ

/-- Initial parameters (s4d.py:67-81): `r` is `torch.rand(H)` and `c` the Gaussian entries. -/
noncomputable def Kernel.init (N : ℕ) (dtMin dtMax : ℝ) (r : ℕ → ℝ) (c : ℕ → ℕ → ℂ) : Kernel :=
  { half := N / 2
    logDt := fun h => r h * (Real.log dtMax - Real.log dtMin) + Real.log dtMin
    C := c
    logAReal := fun _ _ => Real.log (0.5 * 1)
    AImag := fun _ n => Real.pi * n }

/-- `dt` (s4d.py:86). -/
noncomputable def Kernel.dt (p : Kernel) (h : ℕ) : ℝ := Real.exp (p.logDt h)

/-- `A` (s4d.py:90-92). -/
noncomputable def Kernel.A (p : Kernel) (h n : ℕ) : ℂ := ⟨-Real.exp (p.logAReal h n), p.AImag h n⟩

/-- `dtA` (s4d.py:94). -/
noncomputable def Kernel.dtA (p : Kernel) (h n : ℕ) : ℂ := p.A h n * (p.dt h : ℂ)

/-- The kernel `K[h, l]` (s4d.py:95-101). -/
noncomputable def Kernel.K (p : Kernel) (h l : ℕ) : ℝ :=
  2 * (∑ n ∈ range p.half, (p.C h n * (Complex.exp (p.dtA h n) - 1) / p.A h n) * Complex.exp (p.dtA h n * (l : ℂ))).re

/-- The zero padding done by `rfft(x, n=2L)` on a series of length `L`. (s4d.py:163-164) -/
def padded (L : ℕ) (x : ℕ → ℝ) (t : ℕ) : ℝ := if t < L then x t else 0

/-- `irfft(rfft(u, 2L) * rfft(k, 2L), 2L)[:L]` (s4d.py:163-165). -/
noncomputable def fftConv (L : ℕ) (k u : ℕ → ℝ) (t : ℕ) : ℝ :=
  irfft (2 * L) (fun m => rfft (2 * L) (padded L u) m * rfft (2 * L) (padded L k) m) t

/-- `dropout` as passed by the user. (s4d.py:130-134) -/
inductive DropoutArg where
  | none | other | num (p : ℝ)

/-- The validation of `dropout` (s4d.py:130-134). -/
noncomputable def checkDropout (d : DropoutArg) : Res ℝ :=
  match d with
  | .none => .error .value
  | .other => .error .value
  | .num p => if 0 ≤ p ∧ p ≤ 1 then .ok p else .error .value

/-- Parameters of an `S4D` layer (s4d.py:117-148). -/
structure Layer where
  H : ℕ
  kernel : Kernel
  D : ℕ → ℝ
  act : ℝ → ℝ
  W : ℕ → ℕ → ℝ
  bias : ℕ → ℝ
  transposed : Bool

/-- `torch.sigmoid`. (`nn.GLU`, s4d.py:147) -/
noncomputable def sigmoid (x : ℝ) : ℝ := 1 / (1 + Real.exp (-x))

/-- `u * D + conv` for one sample and channel (s4d.py:162-167); a single input channel is broadcast to all. -/
noncomputable def Layer.pre (l : Layer) (u : Tensor ℝ) (C L b h t : ℕ) : ℝ :=
  fftConv L (l.kernel.K h) (fun s => u.get [b, if C = 1 then 0 else h, s]) t + u.get [b, if C = 1 then 0 else h, t] * l.D h

/-- The 1×1 convolution to `2H` channels (s4d.py:146) after activation and dropout (line 168). -/
noncomputable def Layer.lin (l : Layer) (mask : ℕ → ℕ → ℝ) (u : Tensor ℝ) (C L b o t : ℕ) : ℝ :=
  ∑ h ∈ range l.H, l.W o h * (mask b h * l.act (l.pre u C L b h t)) + l.bias o

/-- Lines 160-169 for an input `(B, C, L)`: RuntimeError for an empty series (FFT of length 0), for a wrong number of channels, and
for other ranks (the model's restriction). (s4d.py:160-169) -/
noncomputable def Layer.core (l : Layer) (mask : ℕ → ℕ → ℝ) (u : Tensor ℝ) : Res (Tensor ℝ) :=
  match u.shape with
  | [B, C, L] =>
    if L = 0 ∨ (C ≠ l.H ∧ C ≠ 1) then .error .runtime
    else .ok ⟨[B, l.H, L], fun i =>
      let b := i.getD 0 0
      let h := i.getD 1 0
      let t := i.getD 2 0
      l.lin mask u C L b h t * sigmoid (l.lin mask u C L b (h + l.H) t)⟩                 -- GLU, line 147
  | _ => .error .runtime

/-- `S4D.forward` (s4d.py:150-172). -/
noncomputable def Layer.forward (l : Layer) (mask : ℕ → ℕ → ℝ) (u : Tensor ℝ) : Res (Tensor ℝ) :=
  if l.transposed then l.core mask u
  else do
    let y ← l.core mask (u.transpose 1 2)
    .ok (y.transpose 1 2)

/-- `nn.Linear` applied along dimension 1 of a `(B, C, L)` tensor (transposed before and after, s4d.py:250-252). -/
noncomputable def linear1 (inC outC : ℕ) (W : ℕ → ℕ → ℝ) (bias : ℕ → ℝ) (x : Tensor ℝ) : Res (Tensor ℝ) :=
  match x.shape with
  | [B, C, L] =>
    if C ≠ inC then .error .runtime
    else .ok ⟨[B, outC, L], fun i => ∑ c ∈ range inC, W (i.getD 1 0) c * x.get [i.getD 0 0, c, i.getD 2 0] + bias (i.getD 1 0)⟩
  | _ => .error .runtime

/-- Mean over the channels at one position. (s4d.py:234, 259) -/
noncomputable def chanMean (H : ℕ) (x : ℕ → ℝ) : ℝ := (∑ h ∈ range H, x h) / H

/-- `nn.LayerNorm(d_model)` along dimension 1 (`eps`, weight and bias are parameters). (s4d.py:234, 259) -/
structure LNorm where
  eps : ℝ
  w : ℕ → ℝ
  b : ℕ → ℝ

/-- `norm(...)`, s4d.py:234, 259. -/
noncomputable def LNorm.at (n : LNorm) (H : ℕ) (x : ℕ → ℝ) (h : ℕ) : ℝ :=
  (x h - chanMean H x) / Real.sqrt (chanMean H (fun j => (x j - chanMean H x) ^ 2) + n.eps) * n.w h + n.b h

/-- One iteration of the loop of `S4Model.forward` (s4d.py:257-259) in evaluation mode. -/
noncomputable def modelStep (H : ℕ) (x : Tensor ℝ) (p : Layer × LNorm) : Res (Tensor ℝ) := do
  let z ← p.1.forward (fun _ _ => 1) x
  let s ← Tensor.zipB (· + ·) z x
  match s.shape with
  | [B, C, L] =>
    if C ≠ H then .error .runtime
    else .ok ⟨[B, H, L], fun i => p.2.at H (fun h => s.get [i.getD 0 0, h, i.getD 2 0]) (i.getD 1 0)⟩
  | _ => .error .runtime

/-- `S4Model` (s4d.py:205-240). -/
structure Model where
  dIn : ℕ
  dOut : ℕ
  dModel : ℕ
  encW : ℕ → ℕ → ℝ
  encB : ℕ → ℝ
  decW : ℕ → ℕ → ℝ
  decB : ℕ → ℝ
  layers : List (Layer × LNorm)

/-- Mean over the sequence and the decoder (s4d.py:261-263). -/
noncomputable def Model.head (m : Model) (x : Tensor ℝ) : Res (Tensor ℝ) :=
  match x.shape with
  | [B, C, L] =>
    if C ≠ m.dModel then .error .runtime
    else .ok ⟨[B, m.dOut], fun i =>
      ∑ c ∈ range m.dModel, m.decW (i.getD 1 0) c * ((∑ t ∈ range L, x.get [i.getD 0 0, c, t]) / L) + m.decB (i.getD 1 0)⟩
  | _ => .error .runtime

/-- `S4Model.forward` (s4d.py:242-263) in evaluation mode. -/
noncomputable def Model.forward (m : Model) (x : Tensor ℝ) : Res (Tensor ℝ) := do
  let x ← linear1 m.dIn m.dModel m.encW m.encB x
  let x ← m.layers.foldlM (modelStep m.dModel) x
  m.head x

end Verif.S4D
