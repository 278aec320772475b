import Mathlib.Analysis.SpecialFunctions.Pow.Real
import Mathlib.Analysis.SpecialFunctions.Trigonometric.Basic
/-!
# Specification of the conditioning bounds (C57)

Written without reference to the model.  Masses in kilogrammes, `m = G M / c³` is a mass in seconds.
-/
namespace Verif.CbcSpec

/-- A mass in seconds. -/
noncomputable def seconds (M : ℝ) : ℝ := 6.67430e-11 * M / 299792458 ^ 3

/-- Symmetric mass ratio. -/
noncomputable def symRatio (m1 m2 : ℝ) : ℝ := m1 * m2 / (m1 + m2) ^ 2

/-- Time from gravitational-wave frequency `f` to coalescence at lowest order. -/
noncomputable def newtonianTime (f m1 m2 : ℝ) : ℝ :=
  5 / 256 * seconds (m1 + m2) / symRatio m1 m2 * (Real.pi * seconds (m1 + m2) * f) ^ (-(8 : ℝ) / 3)

/-- The frequency of a circular orbit at radius `9 M` (twice the orbital one). -/
noncomputable def frequencyAtNine (m : ℝ) : ℝ := 2 * (1 / (2 * Real.pi)) * Real.sqrt (1 / (9 ^ 3 * m ^ 2))

end Verif.CbcSpec
