import Verif.XR
import Mathlib.MeasureTheory.Integral.IntervalIntegral.Basic
import Mathlib.MeasureTheory.Measure.Lebesgue.Basic
/-!
# Specification of sampling and log densities (C51-C53)

Written without reference to the model.
-/
namespace Verif.DistSpec
open MeasureTheory

/-- `l` is the logarithm of the number `p`, with `-inf` for zero. -/
def IsLog (l : XR) (p : ℝ) : Prop := (p = 0 ∧ l = .ninf) ∨ (0 < p ∧ l = .fin (Real.log p))

/-- A sampler driven by a uniform draw from `[0, 1)` produces values in `[a, b]` with distribution function `F`: the draws giving at most `x` have measure `F x`. -/
def HasLaw (S : ℝ → ℝ) (a b : ℝ) (F : ℝ → ℝ) : Prop :=
  (∀ u, 0 ≤ u → u < 1 → a ≤ S u ∧ S u ≤ b) ∧
    ∀ x, a ≤ x → x ≤ b → volume {u : ℝ | 0 ≤ u ∧ u < 1 ∧ S u ≤ x} = ENNReal.ofReal (F x)

/-- `p` is a probability density that vanishes outside `[a, b]`, with distribution function `F`. -/
def IsDensity (p : ℝ → ℝ) (a b : ℝ) (F : ℝ → ℝ) : Prop :=
  (∀ x, 0 ≤ p x) ∧ (∀ x, x < a ∨ b < x → p x = 0) ∧ (∀ x, a ≤ x → x ≤ b → ∫ t in a..x, p t = F x) ∧ ∫ t in a..b, p t = 1

/-- The straight line through `(x₀, y₀)` and `(x₁, y₁)` at `q`. -/
noncomputable def chord (x₀ x₁ y₀ y₁ q : ℝ) : ℝ := y₀ + (q - x₀) / (x₁ - x₀) * (y₁ - y₀)

end Verif.DistSpec
