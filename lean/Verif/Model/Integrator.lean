import Verif.TensorMore
import Verif.Model.Whiten
/-!
# Model of `TophatIntegrator` and `LeakyIntegrator` (ml4gw/transforms/integrator.py)
-/
namespace Verif.Integrator
open Finset

/-- `torch.nn.functional.conv1d(x, w)` with one input and one output channel, no padding, stride 1
(cross-correlation); RuntimeError if the kernel is longer than the series. (integrator.py:46) -/
noncomputable def conv1d (x : Tensor ℝ) (K : Nat) (w : Nat → ℝ) : Res (Tensor ℝ) :=
  match x.shape with
  | [n, 1, t] =>
    if t < K then .error .runtime
    else .ok ⟨[n, 1, t - K + 1], fun i =>
      ∑ j ∈ range K, w j * x.get [i.getD 0 0, i.getD 1 0, i.getD 2 0 + j]⟩
  | _ => .error .runtime

/-- `self.window_size` (integrator.py:35). -/
noncomputable def windowSize (sampleRate length : ℝ) : Int := Whiten.pyInt (sampleRate * length) + 1

/-- `TophatIntegrator(sample_rate, integration_length).forward(x)` (integrator.py:31-48).  A window size
below 1 (negative length) is not modelled (RuntimeError). -/
noncomputable def tophat (sampleRate length : ℝ) (x : Tensor ℝ) : Res (Tensor ℝ) := do
  let ws := windowSize sampleRate length                                  -- line 35
  if ws < 1 then .error .runtime
  else do
    let shape := x.shape                                                  -- line 41
    let L ← x.lastDim                                                     -- line 42
    let x ← x.reshapeInfer [] [1, L]                                      -- line 44
    let x ← x.padLast (ws - 1) 0                                          -- line 45
    let x ← conv1d x ws.toNat (fun _ => 1 / (ws.toNat : ℝ))               -- lines 36-38, 46
    x.reshape shape                                                       -- line 48

/-- `torch.cumsum(x, dim=-1)` of one row. (integrator.py:110) -/
noncomputable def cumsum (d : ℕ → ℝ) (t : ℕ) : ℝ := ∑ s ∈ range (t + 1), d s

/-- `torch.cummin(x, dim=-1)[0]` of one row. (integrator.py:112) -/
noncomputable def cummin (d : ℕ → ℝ) : ℕ → ℝ
  | 0 => d 0
  | t + 1 => min (cummin d t) (d (t + 1))

/-- Lines 103-108: the change at one step. (integrator.py:103-108) -/
noncomputable def scoreDelta (count : Bool) (threshold decay : ℝ) (x : ℝ) : ℝ :=
  if x ≥ threshold then (if count then 1 else x) else -decay

/-- Lines 109-118 on one row. (integrator.py:109-118) -/
noncomputable def leakyRow (lowerBound : ℝ) (d : ℕ → ℝ) (t : ℕ) : ℝ :=
  let rawSum := cumsum d                                                  -- line 110
  let offset := cummin (fun t => rawSum t - lowerBound)                   -- line 112
  rawSum t - min (offset t) lowerBound                                    -- lines 114-118

/-- `LeakyIntegrator(threshold, decay, lower_bound, integrate_value).forward(x)` (integrator.py:82-118);
the mode is checked at construction (lines 91-95).  The row is the last axis. -/
noncomputable def leaky (mode : String) (threshold decay lowerBound : ℝ) (x : Tensor ℝ) : Res (Tensor ℝ) :=
  if mode = "count" ∨ mode = "score" then
    .ok (Whiten.mapRows (x.shape.getLastD 0)
      (fun row => leakyRow lowerBound fun t => scoreDelta (mode = "count") threshold decay (row t)) x)
  else .error .value

end Verif.Integrator
