import Verif.Spec.CbcUtils
import Verif.Spec.TaylorF2
import Mathlib.Analysis.Calculus.Deriv.Basic
/-!
# Specification of the chirp and ringdown times (C57)

Written without reference to the model.
-/
namespace Verif.CbcSpec
open PNSpec

/-- The stationary phase through second post-Newtonian order. -/
noncomputable def phase2PN (m1 m2 c1 c2 v : ℝ) : ℝ :=
  let η := eta m1 m2
  let δ := delta m1 m2
  let s := chiS c1 c2
  let a := chiA c1 c2
  3 / (128 * η * v ^ 5) * (1 + psi2 η * v ^ 2 + psi3 η δ s a * v ^ 3 + psi4 η δ s a * v ^ 4)

/-- The time left to coalescence when the signal passes frequency `f`: the stationary point of the Fourier phase. -/
noncomputable def time2PN (f m1 m2 c1 c2 : ℝ) : ℝ :=
  -deriv (fun x => phase2PN m1 m2 c1 c2 ((Real.pi * seconds (m1 + m2) * x) ^ ((1 : ℝ) / 3))) f / (2 * Real.pi)

/-- The fits of Berti, Cardoso and Will (2006), Table VIII, to the fundamental `l = m = 2` mode of a black hole of mass `m` seconds and spin `j`: angular frequency and quality factor. -/
noncomputable def modeOmega (m j : ℝ) : ℝ := (1.5251 - 1.1568 * (1 - j) ^ (0.1292 : ℝ)) / m
noncomputable def modeQ (j : ℝ) : ℝ := 0.7000 + 1.4187 * (1 - j) ^ (-0.4990 : ℝ)

end Verif.CbcSpec
