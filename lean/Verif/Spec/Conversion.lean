import Mathlib.Analysis.SpecialFunctions.Pow.Real
import Mathlib.Analysis.SpecialFunctions.Trigonometric.Basic
/-!
# Specification of mass and spin parameters (C54, C55)

Written without reference to the model.
-/
namespace Verif.ConvSpec

/-- The chirp mass of a binary. -/
noncomputable def chirpMass (m1 m2 : ℝ) : ℝ := (m1 * m2) ^ ((3 : ℝ) / 5) / (m1 + m2) ^ ((1 : ℝ) / 5)

/-- The mass ratio. -/
noncomputable def massRatio (m1 m2 : ℝ) : ℝ := m2 / m1

abbrev R3 := ℝ × ℝ × ℝ

def dot (u v : R3) : ℝ := u.1 * v.1 + u.2.1 * v.2.1 + u.2.2 * v.2.2
def cross (u v : R3) : R3 := (u.2.1 * v.2.2 - u.2.2 * v.2.1, u.2.2 * v.1 - u.1 * v.2.2, u.1 * v.2.1 - u.2.1 * v.1)
noncomputable def norm (u : R3) : ℝ := Real.sqrt (dot u u)
def lhat : R3 := (0, 0, 1)

/-- Newtonian orbital angular momentum with its first post-Newtonian correction, geometric units of mass squared; `mf` is the total mass in seconds times the gravitational-wave frequency. -/
noncomputable def orbital (m1 m2 mf : ℝ) : ℝ :=
  let v := (Real.pi * mf) ^ ((1 : ℝ) / 3)
  m1 * m2 / v * (1 + v ^ 2 * (3 / 2 + m1 * m2 / (m1 + m2) ^ 2 / 6))

/-- The total angular momentum of a configuration whose orbital angular momentum points along z. -/
def total (l m1 m2 : ℝ) (s1 s2 : R3) : R3 := (m1 ^ 2 * s1.1 + m2 ^ 2 * s2.1, m1 ^ 2 * s1.2.1 + m2 ^ 2 * s2.2.1, l + m1 ^ 2 * s1.2.2 + m2 ^ 2 * s2.2.2)

/-- The line of sight of the lalsimulation frame, in which the separation vector at the reference phase is the x axis: inclined by `incl` from z, at azimuth `π/2 - phiRef`. -/
noncomputable def sight (incl phiRef : ℝ) : R3 :=
  (Real.sin incl * Real.cos (Real.pi / 2 - phiRef), Real.sin incl * Real.sin (Real.pi / 2 - phiRef), Real.cos incl)

/-- The spins `s1`, `s2` and the inclination describe the binary given by bilby's angles: magnitudes, tilts from the orbital angular momentum, the azimuth between the spins, the angle `θ_JN` between line of sight and total angular
momentum, and the azimuth `φ_JL` of the orbital angular momentum about the total one, counted from the direction perpendicular to the line of sight. -/
structure Describes (l thetaJn phiJl tilt1 tilt2 phi12 a1 a2 m1 m2 phiRef incl : ℝ) (s1 s2 : R3) : Prop where
  mag1 : dot s1 s1 = a1 ^ 2
  mag2 : dot s2 s2 = a2 ^ 2
  tilt1_eq : dot s1 lhat = a1 * Real.cos tilt1
  tilt2_eq : dot s2 lhat = a2 * Real.cos tilt2
  azimuth_cos : s1.1 * s2.1 + s1.2.1 * s2.2.1 = a1 * Real.sin tilt1 * (a2 * Real.sin tilt2) * Real.cos phi12
  azimuth_sin : s1.1 * s2.2.1 - s1.2.1 * s2.1 = a1 * Real.sin tilt1 * (a2 * Real.sin tilt2) * Real.sin phi12
  incl0 : 0 ≤ incl
  inclPi : incl ≤ Real.pi
  thetaJn_eq : dot (total l m1 m2 s1 s2) (sight incl phiRef) = norm (total l m1 m2 s1 s2) * Real.cos thetaJn
  phiJl_cos : dot (cross (total l m1 m2 s1 s2) lhat) (sight incl phiRef) = norm (cross (total l m1 m2 s1 s2) lhat) * Real.sin thetaJn * Real.cos phiJl
  phiJl_sin : norm (total l m1 m2 s1 s2) * Real.cos incl =
    dot (total l m1 m2 s1 s2) lhat * Real.cos thetaJn + norm (cross (total l m1 m2 s1 s2) lhat) * Real.sin thetaJn * Real.sin phiJl

end Verif.ConvSpec
