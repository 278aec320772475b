import Mathlib.Analysis.SpecialFunctions.Log.Basic
/-!
# Floating-point values that may be infinite or undefined

Finite values are exact reals; the operations follow IEEE 754 for the special values.
-/
namespace Verif

inductive XR where
  | nan | ninf | pinf
  | fin (r : ℝ)

/-- IEEE addition. -/
noncomputable def XR.add : XR → XR → XR
  | .nan, _ | _, .nan => .nan
  | .fin a, .fin b => .fin (a + b)
  | .ninf, .pinf | .pinf, .ninf => .nan
  | .ninf, _ | _, .ninf => .ninf
  | .pinf, _ | _, .pinf => .pinf

/-- Negation. -/
noncomputable def XR.neg : XR → XR
  | .nan => .nan
  | .ninf => .pinf
  | .pinf => .ninf
  | .fin a => .fin (-a)

/-- IEEE multiplication by a finite number. -/
noncomputable def XR.smul (t : ℝ) : XR → XR
  | .nan => .nan
  | .fin a => .fin (t * a)
  | .pinf => if 0 < t then .pinf else if t < 0 then .ninf else .nan
  | .ninf => if 0 < t then .ninf else if t < 0 then .pinf else .nan

/-- `torch.log` of a finite number. -/
noncomputable def xlog (x : ℝ) : XR := if x < 0 then .nan else if x = 0 then .ninf else .fin (Real.log x)

end Verif
