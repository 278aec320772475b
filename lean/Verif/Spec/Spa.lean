import Mathlib.Analysis.SpecialFunctions.Log.Basic
import Mathlib.Analysis.SpecialFunctions.Pow.Real
import Mathlib.Analysis.SpecialFunctions.Complex.Log
import Mathlib.Analysis.Calculus.Deriv.Basic
import Verif.Spec.TaylorF2
/-!
# Stationary-phase strain of a post-Newtonian binary (C79)

Written without reference to the model.  A chirp `h(t) = A(t) cos φ(t)` whose frequency `F = φ'/2π` sweeps through `f` has, in the stationary-phase approximation, a Fourier transform of modulus `(A/2) / √(dF/dt)` and of phase `ψ(f) = 2πft - φ`; since `ψ'(f) = 2πt`, `ψ''(f) = 2π/(dF/dt)`.  The amplitude `A` of the dominant mode of a quasi-circular binary is known to 3PN order (Blanchet, Faye, Iyer, Sinha 2008, eq. 9.4a) with the spin terms of Arun et al. (2009) at 1.5PN and 2PN.
-/
namespace Verif.SpaSpec
open PNSpec

/-- The dominant mode `ĥ₂₂` relative to the quadrupole formula, at orbital velocity `v` (the post-Newtonian parameter is `x = v²`). -/
noncomputable def mode22 (η δ s a v : ℝ) : ℂ :=
  1 + v ^ 2 * (-107 / 42 + 55 / 42 * η : ℝ) + v ^ 3 * (2 * Real.pi - 4 / 3 * (δ * a + (1 - η) * s) : ℝ)
    + v ^ 4 * (-2173 / 1512 - 1069 / 216 * η + 2047 / 1512 * η ^ 2 + 2 * η * (s ^ 2 - a ^ 2) : ℝ)
    + v ^ 5 * ((-107 / 21 * Real.pi + 34 / 21 * Real.pi * η : ℝ) - 24 * η * Complex.I)
    + v ^ 6 * ((27027409 / 646800 - 856 / 105 * gammaE + 2 / 3 * Real.pi ^ 2 - 428 / 105 * Real.log (16 * v ^ 2) + (-278185 / 33264 + 41 / 96 * Real.pi ^ 2) * η
      - 20261 / 2772 * η ^ 2 + 114635 / 99792 * η ^ 3 : ℝ) + (428 / 105 * Real.pi : ℝ) * Complex.I)

/-- The orbital velocity at gravitational-wave frequency `f`; total mass `M` in seconds. -/
noncomputable def velocity (M f : ℝ) : ℝ := (Real.pi * M * f) ^ ((1 : ℝ) / 3)

/-- The amplitude of the polarizations of a face-on binary at distance `D` (in seconds): the quadrupole formula `4 η M v² / D` times the modulus of the mode. -/
noncomputable def amplitude (m1 m2 c1 c2 D f : ℝ) : ℝ :=
  4 * eta m1 m2 * (m1 + m2) * velocity (m1 + m2) f ^ 2 / D * ‖mode22 (eta m1 m2) (delta m1 m2) (chiS c1 c2) (chiA c1 c2) (velocity (m1 + m2) f)‖

/-- The squared modulus of the Fourier transform in the stationary-phase approximation, from the time-domain amplitude at the moment the frequency is `f` and the frequency-domain phase. -/
noncomputable def power (A ψ : ℝ → ℝ) (f : ℝ) : ℝ := (A f / 2) ^ 2 * deriv (deriv ψ) f / (2 * Real.pi)

end Verif.SpaSpec
