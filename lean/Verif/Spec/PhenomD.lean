import Mathlib.Data.Real.Basic
/-!
# Specification vocabulary for IMRPhenomD (C59)
-/
namespace Verif.PhenomDSpec

/-- `g` interpolates the knots `(x i, y i)`, `i < n`, linearly: on each segment it is the affine function through the two ends. -/
def LinearInterp (n : ℕ) (x y : ℕ → ℝ) (g : ℝ → ℝ) : Prop :=
  ∀ i, i + 1 < n → ∀ t, 0 ≤ t → t ≤ 1 → g ((1 - t) * x i + t * x (i + 1)) = (1 - t) * y i + t * y (i + 1)

/-- The 1.5PN reduced spin of a binary whose first body is the heavier: effective spin minus `38 η / 113` of the spin sum. -/
noncomputable def reducedSpin (m1 m2 c1 c2 : ℝ) : ℝ := (m1 * c1 + m2 * c2) / (m1 + m2) - 38 / 113 * (m1 * m2 / (m1 + m2) ^ 2) * (c1 + c2)

end Verif.PhenomDSpec
