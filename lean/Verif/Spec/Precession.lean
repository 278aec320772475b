import Mathlib.Analysis.SpecialFunctions.Integrals.Basic
import Mathlib.Analysis.SpecialFunctions.Trigonometric.Basic
import Mathlib.Analysis.SpecialFunctions.Sqrt
/-!
# Specification: how fast the orbital plane of a compact binary precesses (post-Newtonian theory)

Nothing here refers to the model.  Geometric units with total mass one: masses are the fractions `X` (heavier) and `Y` (lighter), `X + Y = 1`, `v` is the orbital velocity `(π M f)^{1/3}`.  The
spin sits on the heavier body: `chil` along the orbital angular momentum and `chip` in the orbital plane.  The formulas are those of Bohé, Marsat, Faye and Blanchet (2013) for the spin-orbit
terms and of Blanchet's review for the rest.
-/
namespace Verif.PrecessionSpec

/-- How fast a spin on the heavier body precesses about the orbital angular momentum, through next-to-next-to-leading order in the spin-orbit coupling. -/
noncomputable def spinPrec (X Y v : ℝ) : ℝ :=
  let eta := X * Y
  v ^ 5 * (3 / 4 + eta / 2 - 3 / 4 * (X - Y) + (9 / 16 + 5 / 4 * eta - eta ^ 2 / 24 + (X - Y) * (-9 / 16 + 5 / 8 * eta)) * v ^ 2
    + (27 / 32 + 3 / 16 * eta - 105 / 32 * eta ^ 2 - eta ^ 3 / 48 + (X - Y) * (-27 / 32 + 39 / 8 * eta - 5 / 32 * eta ^ 2)) * v ^ 4)

/-- The orbital angular momentum without spin, through first post-Newtonian order. -/
noncomputable def orbL (X Y v : ℝ) : ℝ := X * Y / v * (1 + (3 / 2 + X * Y / 6) * v ^ 2)

/-- The spin and the mass-weighted spin difference `(X - Y) Σ` of a spin `chi` on the heavier body alone. -/
noncomputable def spin (X chi : ℝ) : ℝ := X ^ 2 * chi
noncomputable def spinDiff (X Y chi : ℝ) : ℝ := -(X - Y) * X * chi

/-- The total angular momentum along the normal of the orbit (orbit, spin, and the spin-orbit part of the orbital angular momentum), ... -/
noncomputable def Jl (X Y chil v : ℝ) : ℝ := orbL X Y v + spin X chil + X * Y * v ^ 2 * (-35 / 6 * spin X chil - 5 / 2 * spinDiff X Y chil)

/-- ... along the line from one body to the other, when that line makes the angle `φ` with the spin in the plane, ... -/
noncomputable def Jn (X Y chip v φ : ℝ) : ℝ := Real.cos φ * (spin X chip + X * Y * v ^ 2 * (1 / 2 * spin X chip + 1 / 2 * spinDiff X Y chip))

/-- ... and along the orbital motion. -/
noncomputable def Jlam (X Y chip v φ : ℝ) : ℝ := -Real.sin φ * (spin X chip + X * Y * v ^ 2 * (-3 * spin X chip - spinDiff X Y chip))

/-- The length of the total angular momentum. -/
noncomputable def Jnorm (X Y chil chip v φ : ℝ) : ℝ := Real.sqrt (Jl X Y chil v ^ 2 + Jn X Y chip v φ ^ 2 + Jlam X Y chip v φ ^ 2)

/-- The rate at which the orbital plane precesses about the total angular momentum, averaged over an orbit: the torque turns the plane only about the line between the bodies, hence the weight
`2 cos² φ`, of mean one. -/
noncomputable def alphaDot (X Y chil chip v : ℝ) : ℝ :=
  1 / (2 * Real.pi) * ∫ φ in (0 : ℝ)..(2 * Real.pi), 2 * Real.cos φ ^ 2 * (spinPrec X Y v * Jnorm X Y chil chip v φ / orbL X Y v)

/-- The rate at which the frame turns about the orbital angular momentum to undo the precession (`α̇ cos β`, `cos β` the cosine between the two angular momenta). -/
noncomputable def epsDot (X Y chil v : ℝ) : ℝ := spinPrec X Y v * Jl X Y chil v / orbL X Y v

/-- The rate at which the orbital velocity grows, through second post-Newtonian order with the spin-orbit term of a spin on the heavier body. -/
noncomputable def vDot (X Y chil v : ℝ) : ℝ :=
  let eta := X * Y
  32 / 5 * eta * v ^ 9 * (1 - (743 / 336 + 11 / 4 * eta) * v ^ 2 + (4 * Real.pi - chil * (113 / 12 * X ^ 2 + 25 / 4 * eta)) * v ^ 3
    + (34103 / 18144 + 13661 / 2016 * eta + 59 / 18 * eta ^ 2) * v ^ 4)

end Verif.PrecessionSpec
