import Mathlib.Analysis.Complex.Norm
import Mathlib.Analysis.Complex.Exponential
import Mathlib.Analysis.SpecialFunctions.Trigonometric.Basic
/-!
# Specification for the zero-phase filter

Independent of the model: linear difference equations, inner products, frequency responses.
-/
namespace Verif.IIRSpec
open Finset

/-- `y` is the output for the input `x` of the causal filter with numerator `b` and denominator `a`, at rest before sample 0:
`∑ a[k] y[n - k] = ∑ b[k] x[n - k]` for the samples `n < N`. -/
def Solves (a b : List ℝ) (N : ℕ) (x y : ℕ → ℝ) : Prop :=
  ∀ n, n < N → ∑ k ∈ range (n + 1), a.getD k 0 * y (n - k) = ∑ k ∈ range (n + 1), b.getD k 0 * x (n - k)

/-- The inner product of the first `N` samples. -/
noncomputable def dot (N : ℕ) (x y : ℕ → ℝ) : ℝ := ∑ n ∈ range N, x n * y n

/-- The value of the polynomial with the coefficients `l` (constant first). -/
noncomputable def evalAt (l : List ℝ) (w : ℂ) : ℂ := ∑ k ∈ range l.length, (l.getD k 0 : ℂ) * w ^ k

/-- A stable filter: in the delay `w = 1/z`, the denominator does not vanish on the closed unit disc (all poles are inside the unit circle). -/
def Stable (a : List ℝ) : Prop := ∀ w : ℂ, ‖w‖ ≤ 1 → evalAt a w ≠ 0

/-- The frequency response at `θ` radians per sample. -/
noncomputable def response (a b : List ℝ) (θ : ℝ) : ℂ :=
  evalAt b (Complex.exp (-(θ * Complex.I))) / evalAt a (Complex.exp (-(θ * Complex.I)))

end Verif.IIRSpec
