import Mathlib.Analysis.SpecialFunctions.Trigonometric.Basic
/-!
# Specification: polarization tensors and antenna patterns
Vectors have the components `0, 1, 2`.
-/
namespace Verif.Spec.Geometry
open Finset

/-- Scalar product. -/
noncomputable def dot (a b : ℕ → ℝ) : ℝ := a 0 * b 0 + a 1 * b 1 + a 2 * b 2

/-- Unit vector towards the source at polar angle `θ` and azimuth `φ`. -/
noncomputable def direction (θ φ : ℝ) (j : ℕ) : ℝ :=
  if j = 0 then Real.sin θ * Real.cos φ else if j = 1 then Real.sin θ * Real.sin φ else Real.cos θ

/-- Unit vector of growing polar angle. -/
noncomputable def eTheta (θ φ : ℝ) (j : ℕ) : ℝ :=
  if j = 0 then Real.cos θ * Real.cos φ else if j = 1 then Real.cos θ * Real.sin φ else -Real.sin θ

/-- Unit vector of growing azimuth (parallel to the equator). -/
noncomputable def ePhi (φ : ℝ) (j : ℕ) : ℝ :=
  if j = 0 then -Real.sin φ else if j = 1 then Real.cos φ else 0

/-- First vector of the polarization basis at polarization angle `ψ`. -/
noncomputable def axisM (θ ψ φ : ℝ) (j : ℕ) : ℝ := -(Real.sin ψ * eTheta θ φ j + Real.cos ψ * ePhi φ j)
/-- Second vector of the polarization basis. -/
noncomputable def axisN (θ ψ φ : ℝ) (j : ℕ) : ℝ := Real.sin ψ * ePhi φ j - Real.cos ψ * eTheta θ φ j

/-- The three polarization tensors. -/
def tensor (mode : String) (m n : ℕ → ℝ) (j k : ℕ) : ℝ :=
  if mode = "plus" then m j * m k - n j * n k
  else if mode = "cross" then m j * n k + n j * m k
  else m j * m k + n j * n k

/-- Response of a detector with tensor `D` to a polarization. -/
noncomputable def response (mode : String) (θ ψ φ : ℝ) (D : ℕ → ℕ → ℝ) : ℝ :=
  ∑ j ∈ range 3, ∑ k ∈ range 3, tensor mode (axisM θ ψ φ) (axisN θ ψ φ) j k * D j k

/-- The known modes. -/
def Known (mode : String) : Prop := mode = "plus" ∨ mode = "cross" ∨ mode = "breathing"

end Verif.Spec.Geometry
