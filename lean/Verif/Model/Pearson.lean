import Verif.TensorMore
import Verif.Model.Unfold
import Verif.Model.Spectral
/-!
# Model of `ShiftedPearsonCorrelation` (ml4gw/transforms/pearson.py)

Exact real arithmetic.  A division by zero yields nan (or inf), modelled as `none`.
-/
namespace Verif.Pearson
open Verif.Spectral

/-- `_shape_checks(x, y)` (pearson.py:45-63) on shapes. -/
def shapeChecks (x y : List Nat) : Res Unit :=
  if x.length > 3 then .error .value                                            -- lines 46-50
  else if y.length > x.length then .error .value                                -- lines 51-56
  else if (List.range y.length).any
      (fun d => decide (y.reverse.getD d 0 ≠ x.reverse.getD d 0)) then .error .value  -- lines 57-63
  else .ok ()

/-- Floating point division: a zero divisor gives nan or inf (`none`). (pearson.py:89) -/
noncomputable def fdiv (a b : ℝ) : Option ℝ := if b = 0 then none else some (a / b)

/-- `ShiftedPearsonCorrelation(max_shift).forward(x, y)` (pearson.py:65-89). -/
noncomputable def forward (maxShift : Int) (x y : Tensor ℝ) : Res (Tensor (Option ℝ)) := do
  shapeChecks x.shape y.shape                                                   -- line 68
  let dim ← x.lastDim                                                           -- line 69
  let xp ← x.padLast maxShift maxShift                                          -- lines 73-74
  let w ← Slicing.unfoldWindows xp dim 1 true                                   -- line 77
  let xd := demean w.1                                                          -- line 81
  let yd := demean y                                                            -- line 82
  let prod ← Tensor.zipB (· * ·) xd yd
  let corr := prod.sumLast                                                      -- line 86
  let norm ← Tensor.zipB (· * ·) (xd.map (· ^ 2)).sumLast (yd.map (· ^ 2)).sumLast  -- line 87
  Tensor.zipB fdiv corr (norm.map Real.sqrt)                                    -- line 89

end Verif.Pearson
