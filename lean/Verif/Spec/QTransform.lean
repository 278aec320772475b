import Mathlib.Analysis.SpecialFunctions.Complex.Circle
import Mathlib.Algebra.BigOperators.Group.Finset.Basic
/-!
# Specification of the Q transform (C49, C50, C95, C96)

Written without reference to the model.
-/
namespace Verif.QSpec
open Finset

/-- Squared modulus of the inverse discrete Fourier transform, at time bin `s` of `n`, of `W` windowed spectral values. -/
noncomputable def rowEnergy (n W : ℕ) (w : ℕ → ℝ) (v : ℕ → ℂ) (s : ℕ) : ℝ :=
  ‖(1 / (n : ℂ)) * ∑ j ∈ range W, (w j : ℂ) * v j * Complex.exp (2 * Real.pi * Complex.I * (j * s) / n)‖ ^ 2

/-- The bisquare window as a function of the offset `δ` in Hz from the centre, with half-width `f / q'`. -/
noncomputable def bisquare (f qp δ : ℝ) : ℝ := (1 - (δ * qp / f) ^ 2) ^ 2

/-- The distance between two frequencies in the metric of a transform with quality `q`. -/
noncomputable def freqDist (q f g : ℝ) : ℝ := |Real.log (g / f)| * Real.sqrt (2 + q ^ 2) / 2

/-- The distance between two values of `Q`. -/
noncomputable def qDist (p q : ℝ) : ℝ := |Real.log (q / p)| / Real.sqrt 2

/-- The bins within half a window of the bin above frequency `f`, with quality `q`, are bins of the spectrum of `N` samples of `dur` seconds. -/
def Inside (q f dur : ℝ) (N : ℕ) : Prop :=
  f * dur * (Real.sqrt 11 / q) ≤ f * dur + 1 ∧ f * dur * (1 + Real.sqrt 11 / q) + 1 ≤ ((N / 2 : ℕ) : ℝ)

/-- `torch.roll` of a series of `N` samples by `d`. -/
def roll (N d : ℕ) (x : ℕ → ℝ) (t : ℕ) : ℝ := x ((t + N - d) % N)

/-- Sample `t` of a tone with `m` periods in `N` samples. -/
noncomputable def tone (N m : ℕ) (A φ : ℝ) (t : ℕ) : ℝ := A * Real.cos (2 * Real.pi * m * t / N + φ)

/-- The energy in a row of quality `q` and frequency `f` of a unit tone `δ` Hz above `f`, for data of `dur` seconds at `sr` Hz: the squared bisquare
window of half-width `f / q'`, normalised, and zero outside. -/
noncomputable def response (q f dur sr δ : ℝ) : ℝ :=
  if |δ| ≤ f * Real.sqrt 11 / q then bisquare f (q / Real.sqrt 11) δ ^ 2 * (315 * (q / Real.sqrt 11) / (128 * f)) / (dur * sr) ^ 2 else 0

end Verif.QSpec
