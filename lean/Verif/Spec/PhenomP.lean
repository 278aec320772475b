import Verif.Spec.Conversion
import Mathlib.Analysis.SpecialFunctions.Trigonometric.Basic
/-!
# Specification vocabulary for IMRPhenomPv2 (C68-C73)
-/
namespace Verif.PhenomPSpec
open ConvSpec

/-- The unit vector with polar angle `t` and azimuth `p`. -/
noncomputable def dir (t p : ℝ) : R3 := (Real.sin t * Real.cos p, Real.sin t * Real.sin p, Real.cos t)

/-- The quadrupole radiation of a binary seen at an angle of cosine `c` from its orbital angular momentum, for the complex amplitude `A` (the convention of the aligned-spin models): plus and cross polarizations. -/
noncomputable def quadPlus (A : ℂ) (c : ℝ) : ℂ := A * ((1 + c ^ 2) / 2 : ℝ)
noncomputable def quadCross (A : ℂ) (c : ℝ) : ℂ := -Complex.I * (A * (c : ℂ))

/-- The intensity of two polarizations. -/
noncomputable def intensity (hc hp : ℂ) : ℝ := ‖hc‖ ^ 2 + ‖hp‖ ^ 2

/-- The spin-weighted harmonic of weight -2 for l = m = 2 seen along the axis. -/
noncomputable def y22 : ℝ := Real.sqrt (5 / (4 * Real.pi))

/-- A right-handed orthonormal frame. -/
structure Frame (e1 e2 e3 : R3) : Prop where
  n1 : dot e1 e1 = 1
  n2 : dot e2 e2 = 1
  o : dot e1 e2 = 0
  right : cross e1 e2 = e3

/-- The vector with components `c` in the frame `e1 e2 e3`. -/
def comb (c e1 e2 e3 : R3) : R3 :=
  (c.1 * e1.1 + c.2.1 * e2.1 + c.2.2 * e3.1, c.1 * e1.2.1 + c.2.1 * e2.2.1 + c.2.2 * e3.2.1, c.1 * e1.2.2 + c.2.1 * e2.2.2 + c.2.2 * e3.2.2)

/-- The first axis of the wave frame of the source: perpendicular to the line of sight, in the plane of the line of sight and the orbital angular momentum, on the side of the latter. -/
noncomputable def waveX (incl phiRef : ℝ) : R3 := (-Real.cos incl * Real.sin phiRef, -Real.cos incl * Real.cos phiRef, Real.sin incl)

/-- The orbital angular momentum through second post-Newtonian order, in units of the total mass squared, at orbital velocity `v` for symmetric mass ratio `eta`. -/
noncomputable def orbital2PN (v eta : ℝ) : ℝ := eta / v * (1 + (3 / 2 + eta / 6) * v ^ 2 + (27 / 8 - 19 / 8 * eta + eta ^ 2 / 24) * v ^ 4)

/-- The binding energy of a circular orbit through second post-Newtonian order, per total mass. -/
noncomputable def energy2PN (v eta : ℝ) : ℝ := -eta * v ^ 2 / 2 * (1 - (9 + eta) / 12 * v ^ 2 - (81 - 57 * eta + eta ^ 2) / 24 * v ^ 4)

/-- A spin vector no longer than one. -/
def UnitSpin (s : R3) : Prop := dot s s ≤ 1

end Verif.PhenomPSpec
