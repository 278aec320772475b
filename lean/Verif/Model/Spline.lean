import Verif.Tensor
import Mathlib.Data.Real.Basic
import Mathlib.Algebra.BigOperators.Group.Finset.Basic
import Mathlib.LinearAlgebra.Matrix.NonsingularInverse
/-!
# Model of the spline interpolation modules (ml4gw/transforms/spline_interpolation.py)

Exact arithmetic (the code casts coordinates to float32).  One-dimensional tensors of coordinates are lists.  Quotients
`x / 0`, which the code sends to 0 with `nan_to_num_`, are 0 in Lean.  Degree 0, where the code takes means of empty
windows (NaN), is outside the model's domain: theorems assume `1 ≤ k`.
-/
namespace Verif.Spline
open Finset Matrix

/-- A one-dimensional tensor read at an index. (spline_interpolation.py:21-43) -/
def at' (x : List ℝ) (i : ℕ) : ℝ := x.getD i 0

/-- `generate_fitpack_knots` (spline_interpolation.py:33-43), entry `i` of `len(x) + k + 1`.  The three writes in order: a later
one wins. -/
noncomputable def knot (x : List ℝ) (k i : ℕ) : ℝ :=
  if k + 1 ≤ i ∧ i < x.length + k + 1 - (k + 1) then (∑ j ∈ range k, at' x (1 + ((i - (k + 1)) + j))) / k
  else if x.length + k + 1 - (k + 1) ≤ i then at' x (x.length - 1)
  else if i < k + 1 then at' x 0 else 0

/-- `compute_L_R`, left factor (spline_interpolation.py:74-77). -/
noncomputable def left (t : ℕ → ℝ) (d i : ℕ) (x : ℝ) : ℝ := (x - t i) / (t (i + d) - t i)

/-- `compute_L_R`, right factor (spline_interpolation.py:79-82). -/
noncomputable def right (t : ℕ → ℝ) (d i : ℕ) (x : ℝ) : ℝ :=
  (t (i + d + 1) - x) / (t (i + d + 1) - t (i + 1))

/-- `zeroth_order` (spline_interpolation.py:115-123) for `T` knots and `m` columns: column `i` at `x`. -/
noncomputable def zeroth (t : ℕ → ℝ) (T m i : ℕ) (x : ℝ) : ℝ :=
  if i + 1 = m ∧ t (T - 2) ≤ x then 1
  else if i = 0 ∧ x < t 1 then 1
  else if t i ≤ x ∧ x < t (i + 1) then 1 else 0

/-- The loop of `bspline_basis_natural` (spline_interpolation.py:147-157): `b[:, i, d]` at `x`, with the appended zero column. -/
noncomputable def basisD (t : ℕ → ℝ) (T m : ℕ) : ℕ → ℕ → ℝ → ℝ
  | 0, i, x => zeroth t T m i x
  | d + 1, i, x =>
    left t (d + 1) i x * basisD t T m d i x
      + right t (d + 1) i x * (if i + 1 < m then basisD t T m d (i + 1) x else 0)

/-- `bspline_basis_natural` (spline_interpolation.py:125-159): entry `[x, i]` for `T` knots. -/
noncomputable def basis (t : ℕ → ℝ) (T k i : ℕ) (x : ℝ) : ℝ := basisD t T (T - k - 1) k i x

/-- `torch.clamp` with two bounds (spline_interpolation.py:233, 310-312). -/
noncomputable def clamp (y lo hi : ℝ) : ℝ := min (max y lo) hi

/-- What is precomputed along one axis (spline_interpolation.py:216-230). -/
structure Axis where
  xIn : List ℝ
  k : ℕ
  s : ℝ

/-- The number of sites. (spline_interpolation.py:14-19) -/
def Axis.n (a : Axis) : ℕ := a.xIn.length

/-- `tx`. (spline_interpolation.py:14-19) -/
noncomputable def Axis.t (a : Axis) (i : ℕ) : ℝ := knot a.xIn a.k i

/-- `Bx`: the basis at the input coordinates (spline_interpolation.py:15-16). -/
noncomputable def Axis.B (a : Axis) : Matrix (Fin a.n) (Fin a.n) ℝ :=
  fun j i => basis a.t (a.n + a.k + 1) a.k i (at' a.xIn j)

/-- `BxT_Bx` (spline_interpolation.py:17-18). -/
noncomputable def Axis.BTB (a : Axis) : Matrix (Fin a.n) (Fin a.n) ℝ := a.Bᵀ * a.B + a.s • (1 : Matrix _ _ ℝ)

/-- `Bx_out` for output coordinates `xs`: one row per coordinate, clamped first (spline_interpolation.py:233-234, 308-315). -/
noncomputable def Axis.rows (a : Axis) (xs : List ℝ) : List (Fin a.n → ℝ) :=
  xs.map fun y i => basis a.t (a.n + a.k + 1) a.k i (clamp y (a.t a.k) (a.t (a.n + a.k + 1 - a.k - 1)))

/-- An instance of `SplineInterpolate1D`: `Bx_out` may not exist yet. (spline_interpolation.py:204-235) -/
structure Interp1D where
  ax : Axis
  xOut : Option (List ℝ)
  rowsOut : Option (List (Fin ax.n → ℝ))

/-- `SplineInterpolate1D.__init__` (spline_interpolation.py:204-235). -/
noncomputable def Interp1D.init (x : List ℝ) (k : ℕ) (s : ℝ) (xOut : Option (List ℝ)) : Res Interp1D :=
  if x.length < k + 2 then .error .value
  else .ok ⟨⟨x, k, s⟩, xOut, xOut.map (Axis.rows ⟨x, k, s⟩)⟩

/-- Adding leading dimensions until there are four (spline_interpolation.py:277-278, 476-477). -/
def to4d (Z : Tensor ℝ) : Tensor ℝ :=
  ⟨List.replicate (4 - Z.shape.length) 1 ++ Z.shape, fun i => Z.get (i.drop (4 - Z.shape.length))⟩

/-- `_validate_inputs` (spline_interpolation.py:258-280). -/
def Interp1D.validate (f : Interp1D) (Z : Tensor ℝ) (xOut : Option (List ℝ)) : Res (Tensor ℝ) :=
  if xOut = none ∧ f.xOut = none then .error .value
  else if Z.shape.length > 4 then .error .value
  else if Z.shape = [] then .error .index
  else if Z.shape.getLastD 0 ≠ f.ax.n then .error .value
  else .ok (to4d Z)

/-- `torch.linalg.solve`: a singular matrix raises. (spline_interpolation.py:242, 431-433) -/
noncomputable def solve {n : ℕ} (A : Matrix (Fin n) (Fin n) ℝ) (b : Fin n → ℝ) : Fin n → ℝ := A⁻¹ *ᵥ b

/-- `spline_fit_natural` followed by `evaluate_spline` (spline_interpolation.py:237-256) on a 4-D tensor. -/
noncomputable def fitEval (a : Axis) (rows : List (Fin a.n → ℝ)) (Z : Tensor ℝ) : Res (Tensor ℝ) :=
  if a.BTB.det = 0 then .error .runtime
  else .ok ⟨Z.shape.dropLast ++ [rows.length], fun i =>
    rows.getD (i.getLastD 0) 0 ⬝ᵥ solve a.BTB (a.Bᵀ *ᵥ fun j => Z.get (i.dropLast ++ [(j : ℕ)]))⟩

/-- The update of `self.Bx_out` by an override (spline_interpolation.py:308-315). -/
noncomputable def Interp1D.override (f : Interp1D) (xOut : Option (List ℝ)) : Interp1D :=
  match xOut with
  | none => f
  | some xs => { f with rowsOut := some (f.ax.rows xs) }

/-- The computation of `forward` after the override (spline_interpolation.py:317-319). -/
noncomputable def Interp1D.run (f : Interp1D) (Z : Tensor ℝ) : Res (Tensor ℝ) :=
  match f.rowsOut with
  | none => .error .attribute
  | some rows => fitEval f.ax rows Z

/-- `SplineInterpolate1D.forward` (spline_interpolation.py:282-319): the result and the state left behind, also when it
raises. -/
noncomputable def Interp1D.forward (f : Interp1D) (Z : Tensor ℝ) (xOut : Option (List ℝ)) : Res (Tensor ℝ) × Interp1D :=
  match f.validate Z xOut with
  | .error e => (.error e, f)
  | .ok Z4 => ((f.override xOut).run Z4, f.override xOut)

/-- An instance of `SplineInterpolate2D`. (spline_interpolation.py:370-424) -/
structure Interp2D where
  ax : Axis
  ay : Axis
  xOut : Option (List ℝ)
  yOut : Option (List ℝ)
  rowsX : Option (List (Fin ax.n → ℝ))
  rowsY : Option (List (Fin ay.n → ℝ))

/-- `SplineInterpolate2D.__init__` (spline_interpolation.py:370-424). -/
noncomputable def Interp2D.init (x y : List ℝ) (kx ky : ℕ) (sx sy : ℝ) (xOut yOut : Option (List ℝ)) : Res Interp2D :=
  if x.length < kx + 2 then .error .value
  else if y.length < ky + 2 then .error .value
  else .ok ⟨⟨x, kx, sx⟩, ⟨y, ky, sy⟩, xOut, yOut, xOut.map (Axis.rows ⟨x, kx, sx⟩), yOut.map (Axis.rows ⟨y, ky, sy⟩)⟩

/-- `_validate_inputs` (spline_interpolation.py:448-479). -/
def Interp2D.validate (f : Interp2D) (Z : Tensor ℝ) (xOut yOut : Option (List ℝ)) : Res (Tensor ℝ) :=
  if xOut = none ∧ f.xOut = none then .error .value
  else if yOut = none ∧ f.yOut = none then .error .value
  else if Z.shape.length > 4 then .error .value
  else if Z.shape.length < 2 then .error .value
  else if Z.shape.drop (Z.shape.length - 2) ≠ [f.ay.n, f.ax.n] then .error .value
  else .ok (to4d Z)

/-- `bivariate_spline_fit_natural` (spline_interpolation.py:426-433) on one image. -/
noncomputable def coef2 (ax ay : Axis) (Z : Matrix (Fin ay.n) (Fin ax.n) ℝ) : Matrix (Fin ay.n) (Fin ax.n) ℝ :=
  (ax.BTB⁻¹ * (ay.BTB⁻¹ * (ay.Bᵀ * Z * ax.B))ᵀ)ᵀ

/-- The fit followed by `evaluate_bivariate_spline` (spline_interpolation.py:426-446) on a 4-D tensor. -/
noncomputable def fitEval2 (ax ay : Axis) (rowsX : List (Fin ax.n → ℝ)) (rowsY : List (Fin ay.n → ℝ)) (Z : Tensor ℝ) : Res (Tensor ℝ) :=
  if ay.BTB.det = 0 then .error .runtime
  else if ax.BTB.det = 0 then .error .runtime
  else .ok ⟨Z.shape.take 2 ++ [rowsY.length, rowsX.length], fun i =>
    rowsY.getD (i.getD 2 0) 0 ⬝ᵥ
      (coef2 ax ay (fun p q => Z.get (i.take 2 ++ [(p : ℕ), (q : ℕ)])) *ᵥ rowsX.getD (i.getD 3 0) 0)⟩

/-- The updates of `self.Bx_out`, `self.By_out` (spline_interpolation.py:512-527). -/
noncomputable def Interp2D.override (f : Interp2D) (xOut yOut : Option (List ℝ)) : Interp2D :=
  { f with
    rowsX := match xOut with | none => f.rowsX | some xs => some (f.ax.rows xs)
    rowsY := match yOut with | none => f.rowsY | some ys => some (f.ay.rows ys) }

/-- The computation of `forward` after the overrides (spline_interpolation.py:529-531). -/
noncomputable def Interp2D.run (f : Interp2D) (Z : Tensor ℝ) : Res (Tensor ℝ) :=
  match f.rowsX, f.rowsY with
  | some rx, some ry => fitEval2 f.ax f.ay rx ry Z
  | _, _ => .error .attribute

/-- `SplineInterpolate2D.forward` (spline_interpolation.py:481-531). -/
noncomputable def Interp2D.forward (f : Interp2D) (Z : Tensor ℝ) (xOut yOut : Option (List ℝ)) : Res (Tensor ℝ) × Interp2D :=
  match f.validate Z xOut yOut with
  | .error e => (.error e, f)
  | .ok Z4 => ((f.override xOut yOut).run Z4, f.override xOut yOut)

end Verif.Spline
