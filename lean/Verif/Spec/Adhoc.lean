import Mathlib.Analysis.SpecialFunctions.Pow.Real
import Mathlib.Analysis.SpecialFunctions.Trigonometric.Basic
/-!
# Specification of the ad-hoc waveforms (C60)

Written without reference to the model.
-/
namespace Verif.AdhocSpec

/-- A sinusoid in a Gaussian envelope with `quality` cycles (times 2π) per envelope width. -/
noncomputable def sineGaussian (osc : ℝ → ℝ) (amp quality frequency phase t : ℝ) : ℝ :=
  amp * Real.exp (-(2 * Real.pi * frequency * t) ^ 2 / (2 * quality ^ 2)) * osc (2 * Real.pi * frequency * t - phase)

/-- Echeverria's fits: quality factor and frequency of the fundamental ringdown mode of a black hole of mass `m` (kg) and spin `a`. -/
noncomputable def kerrQuality (a : ℝ) : ℝ := 2 * (1 - a) ^ (-(9 / 20) : ℝ)
noncomputable def kerrFrequency (G c m a : ℝ) : ℝ := c ^ 3 / (2 * Real.pi * G * m) * (1 - 0.63 * (1 - a) ^ ((3 : ℝ) / 10))

/-- A damped sinusoid: the envelope falls by `exp (-π / quality)` every cycle. -/
noncomputable def damped (osc : ℝ → ℝ) (amp quality frequency phase t : ℝ) : ℝ :=
  amp * Real.exp (-(Real.pi * frequency * t / quality)) * osc (2 * Real.pi * frequency * t + phase)

/-- The peak amplitude in metres of a ringdown radiating the fraction `eps` of its mass. -/
noncomputable def ringAmplitude (G c m a q eps : ℝ) : ℝ :=
  Real.sqrt (5 / 2) * eps * (G * m / c ^ 2) / Real.sqrt (q * (1 + 7 / (24 * q ^ 2)) * (1 - 0.63 * (1 - a) ^ ((3 : ℝ) / 10)))

end Verif.AdhocSpec
