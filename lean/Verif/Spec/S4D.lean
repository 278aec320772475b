import Mathlib.Analysis.SpecialFunctions.Exponential
/-!
# Specification: a diagonal linear state-space model driven by a sampled input

`x' = a x + u` with the input held constant over each step of length `dt` (zero-order hold).
-/
namespace Verif.S4D.Spec

/-- The state after `t` steps: `x_0 = 0`, `x_{t+1} = e^{a dt} x_t + (e^{a dt} - 1) / a * u_t`. -/
noncomputable def state (a : ℂ) (dt : ℝ) (u : ℕ → ℝ) : ℕ → ℂ
  | 0 => 0
  | t + 1 => Complex.exp (a * dt) * state a dt u t + (Complex.exp (a * dt) - 1) / a * u t

/-- The solution of `x' = a x + u` with constant `u` and initial value `x0`, at time `s`. -/
noncomputable def flow (a x0 : ℂ) (u : ℝ) (s : ℝ) : ℂ := Complex.exp (a * s) * x0 + (Complex.exp (a * s) - 1) / a * u

end Verif.S4D.Spec
