import Verif.Fourier
import Mathlib.Analysis.SpecialFunctions.Trigonometric.Basic
/-!
# Specification of the conditioned time-domain waveform (C56)

Written without reference to the model.
-/
namespace Verif.GenSpec

/-- The raised-cosine ramp from 0 at 0 to 1 at 1. -/
noncomputable def ramp (x : ℝ) : ℝ := (1 - Real.cos (Real.pi * x)) / 2

/-- The taper between bins `k0 < k1`: a ramp, then one. -/
noncomputable def taper (k0 k1 : ℤ) (k : ℕ) : ℝ := if (k : ℤ) ≤ k1 then ramp (((k : ℝ) - k0) / ((k1 : ℝ) - k0)) else 1

/-- The conditioned spectrum of a waveform `H` on the grid `k df` with Nyquist bin `K`: zero below `fstart` and at the Nyquist frequency, tapered in between. -/
noncomputable def shaped (H : ℝ → ℂ) (df fstart : ℝ) (k0 k1 : ℤ) (K k : ℕ) : ℂ :=
  if k * df < fstart ∨ k = K then 0 else taper k0 k1 k * H (k * df)

/-- The window of a series of `N` samples: a ramp over the first `ns` and over the last `ne`. -/
noncomputable def edges (ns ne : ℤ) (N t : ℕ) : ℝ :=
  (if (t : ℤ) < ns then ramp (t / ns) else 1) * (if (N : ℤ) - t < ne then ramp (((N : ℝ) - t) / ne) else 1)

/-- The sample index `i` steps after `t` on a circle of `N` samples. -/
def later (N : ℕ) (t : ℕ) (i : ℤ) : ℕ := (((t : ℤ) + i) % N).toNat

/-- The squared gain at frequency `f` of the digital Butterworth highpass filter of the given order with normalised critical frequency `wn` (bilinear transform with prewarping, as in `scipy.signal.butter`). -/
noncomputable def butterHighpassGain2 (order : ℕ) (wn sr f : ℝ) : ℝ :=
  1 / (1 + (Real.tan (Real.pi * wn / 2) / Real.tan (Real.pi * f / sr)) ^ (2 * order))

end Verif.GenSpec
