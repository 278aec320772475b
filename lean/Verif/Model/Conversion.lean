import Verif.Py
import Mathlib.Analysis.SpecialFunctions.Pow.Real
import Mathlib.Analysis.SpecialFunctions.Trigonometric.Inverse
import Mathlib.Analysis.SpecialFunctions.Complex.Arg
/-!
# Model of the parameter conversions (ml4gw/waveforms/conversion.py)

One batch element, exact real arithmetic; the literals `1.2`, `0.6`, `1 / 3` are read as the rationals they denote.
-/
namespace Verif.Conversion

/-- Three components. (the triples x, y, z of conversion.py:7-16) -/
@[ext] structure Vec where
  x : ℝ
  y : ℝ
  z : ℝ

/-- `torch.atan2(y, x)`, in `(-π, π]`, zero at the origin. (conversion.py:142, 174, 187) -/
noncomputable def atan2 (y x : ℝ) : ℝ := Complex.arg ⟨x, y⟩

/-- `rotate_z` (conversion.py:7-10). -/
noncomputable def rotateZ (a : ℝ) (v : Vec) : Vec := ⟨v.x * Real.cos a - v.y * Real.sin a, v.x * Real.sin a + v.y * Real.cos a, v.z⟩

/-- `rotate_y` (conversion.py:13-16). -/
noncomputable def rotateY (a : ℝ) (v : Vec) : Vec := ⟨v.x * Real.cos a + v.z * Real.sin a, v.y, -v.x * Real.sin a + v.z * Real.cos a⟩

/-- `XLALSimInspiralLN` (conversion.py:19-25). -/
noncomputable def inspiralLN (totalMass eta v : ℝ) : ℝ := totalMass ^ 2 * eta / v

/-- `XLALSimInspiralL_2PN` (conversion.py:28-32). -/
noncomputable def inspiralL2PN (eta : ℝ) : ℝ := 1.5 + eta / 6

/-- `chirp_mass_and_mass_ratio_to_components` (conversion.py:35-50). -/
noncomputable def toComponents (chirpMass massRatio : ℝ) : ℝ × ℝ :=
  let totalMass := chirpMass * (1 + massRatio) ^ (1.2 : ℝ) / massRatio ^ (0.6 : ℝ)
  let mass1 := totalMass / (1 + massRatio)
  let mass2 := mass1 * massRatio
  (mass1, mass2)

/-- `MTSUN_SI` (constants.py:27). -/
noncomputable def mtsun : ℝ := 4.925490947641266978197229498498379006e-6

/-- The result of `bilby_spins_to_lalsim`. (conversion.py:205) -/
structure Spins where
  incl : ℝ
  s1 : Vec
  s2 : Vec

/-- The unit spin vectors of the starting frame (conversion.py:107-112): tilt from the z axis and azimuth. -/
noncomputable def unitSpin (tilt az : ℝ) : Vec := ⟨Real.sin tilt * Real.cos az, Real.sin tilt * Real.sin az, Real.cos tilt⟩

/-- `l_mag` (conversion.py:114-125). -/
noncomputable def lMag (mass1 mass2 fRef : ℝ) : ℝ :=
  let totalMass := mass1 + mass2
  let eta := mass1 * mass2 / (mass1 + mass2) / (mass1 + mass2)
  let v0 := ((mass1 + mass2) * mtsun * Real.pi * fRef) ^ ((1 : ℝ) / 3)
  inspiralLN totalMass eta v0 * (1 + v0 * v0 * inspiralL2PN eta)

/-- The total angular momentum in the starting frame (conversion.py:126-134). -/
noncomputable def startJ (tilt1 tilt2 phi12 a1 a2 mass1 mass2 fRef phiRef : ℝ) : Vec :=
  let s1 := unitSpin tilt1 phiRef
  let s2 := unitSpin tilt2 (phi12 + phiRef)
  ⟨mass1 * mass1 * a1 * s1.x + mass2 * mass2 * a2 * s2.x, mass1 * mass1 * a1 * s1.y + mass2 * mass2 * a2 * s2.y,
    lMag mass1 mass2 fRef + mass1 * mass1 * a1 * s1.z + mass2 * mass2 * a2 * s2.z⟩

/-- `bilby_spins_to_lalsim` (conversion.py:53-205).  A vanishing total angular momentum makes the code divide zero by zero; the theorems exclude it. -/
noncomputable def bilbySpinsToLalsim (thetaJn phiJl tilt1 tilt2 phi12 a1 a2 mass1 mass2 fRef phiRef : ℝ) : Res Spins := do
  raiseIf (fRef ≤ 0) .value
  let s1 := unitSpin tilt1 phiRef
  let s2 := unitSpin tilt2 (phi12 + phiRef)
  let j := startJ tilt1 tilt2 phi12 a1 a2 mass1 mass2 fRef phiRef
  let jnorm := Real.sqrt (j.x * j.x + j.y * j.y + j.z * j.z)
  let theta0 := Real.arccos (j.z / jnorm)
  let phi0 := atan2 (j.y / jnorm) (j.x / jnorm)
  -- rotations 1 to 3
  let s1 := rotateZ (phiJl - Real.pi) (rotateY (-theta0) (rotateZ (-phi0) s1))
  let s2 := rotateZ (phiJl - Real.pi) (rotateY (-theta0) (rotateZ (-phi0) s2))
  let ln := rotateZ (phiJl - Real.pi) (rotateY (-theta0) ⟨0, 0, 1⟩)
  let n : Vec := ⟨0, Real.sin thetaJn, Real.cos thetaJn⟩
  let incl := Real.arccos (n.x * ln.x + n.y * ln.y + n.z * ln.z)
  -- rotations 4 and 5
  let thetalj := Real.arccos ln.z
  let phil := atan2 ln.y ln.x
  let s1 := rotateY (-thetalj) (rotateZ (-phil) s1)
  let s2 := rotateY (-thetalj) (rotateZ (-phil) s2)
  let n := rotateY (-thetalj) (rotateZ (-phil) n)
  -- rotation 6
  let phiN := atan2 n.y n.x
  let s1 := rotateZ (Real.pi / 2 - phiN - phiRef) s1
  let s2 := rotateZ (Real.pi / 2 - phiN - phiRef) s2
  return ⟨incl, ⟨s1.x * a1, s1.y * a1, s1.z * a1⟩, ⟨s2.x * a2, s2.y * a2, s2.z * a2⟩⟩

end Verif.Conversion
