import Mathlib.MeasureTheory.Integral.IntervalIntegral.Basic
import Mathlib.Analysis.Real.Sqrt
import Mathlib.Analysis.SpecialFunctions.Trigonometric.Basic
/-!
# Flat Lambda-CDM distances and volumes (C101)

Written without reference to the model.  Distances in Mpc, the Hubble constant in km/s/Mpc.
-/
namespace Verif.CosmoSpec

/-- The expansion rate of a flat universe with matter density `om` at redshift `z`. -/
noncomputable def expansion (h0 om z : ℝ) : ℝ := h0 * Real.sqrt (om * (1 + z) ^ 3 + (1 - om))

/-- The comoving distance `c ∫ dz / H(z)`. -/
noncomputable def comoving (h0 om z : ℝ) : ℝ := ∫ u in (0 : ℝ)..z, 299792.458 / expansion h0 om u

/-- The comoving volume inside the comoving distance `d`. -/
noncomputable def ball (d : ℝ) : ℝ := 4 / 3 * Real.pi * d ^ 3

end Verif.CosmoSpec
