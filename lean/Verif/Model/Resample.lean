import Verif.Tensor
import Mathlib.Analysis.SpecialFunctions.Pow.Real
/-!
# Model of the resampling operations that the Q transform uses

`torch.nn.functional.interpolate` (modes "bilinear" and "bicubic", `align_corners=False`, target size given), `torch.stack` and `torch.cat` along
the last but one dimension.  PyTorch's documented arithmetic, exact.
-/
namespace Verif.Resample

/-- The coordinate, in the input, of output entry `j` when `a` entries become `b` (qtransform.py:391-403). -/
noncomputable def source (a b j : ℕ) : ℝ := ((j : ℝ) + 1 / 2) * ((a : ℝ) / b) - 1 / 2

/-- One axis of mode "bilinear" (qtransform.py:391-403). -/
noncomputable def linear (a b : ℕ) (v : ℕ → ℝ) (j : ℕ) : ℝ :=
  let s := max (source a b j) 0
  let i := ⌊s⌋₊
  (1 - (s - i)) * v i + (s - i) * v (i + if i < a - 1 then 1 else 0)

/-- The cubic convolution kernel near the centre, with PyTorch's constant `A = -0.75` (qtransform.py:391-403). -/
noncomputable def conv1 (x : ℝ) : ℝ := ((-0.75 + 2) * x - (-0.75 + 3)) * x * x + 1

/-- The cubic convolution kernel between one and two (qtransform.py:391-403). -/
noncomputable def conv2 (x : ℝ) : ℝ := ((-0.75 * x - 5 * -0.75) * x + 8 * -0.75) * x - 4 * -0.75

/-- One axis of mode "bicubic": indices beyond the ends are moved to the ends (qtransform.py:391-403). -/
noncomputable def cubic (a b : ℕ) (v : ℕ → ℝ) (j : ℕ) : ℝ :=
  let s := source a b j
  let i := ⌊s⌋
  let t := s - i
  let w (k : ℤ) : ℝ := v (min (max (i + k) 0) ((a : ℤ) - 1)).toNat
  conv2 (t + 1) * w (-1) + conv1 t * w 0 + conv1 (1 - t) * w 1 + conv2 (1 - t + 1) * w 2

/-- `F.interpolate` of a 4-D tensor to the size `(H', W')` with the kernel `k` along both of the last two axes (qtransform.py:391-403). -/
def interp2 (k : ℕ → ℕ → (ℕ → ℝ) → ℕ → ℝ) (H' W' : ℕ) (t : Tensor ℝ) : Res (Tensor ℝ) :=
  match t.shape with
  | [N, C, H, W] =>
    if C = 0 ∨ H = 0 ∨ W = 0 ∨ H' = 0 ∨ W' = 0 then .error .runtime
    else .ok ⟨[N, C, H', W'], fun i =>
      k H H' (fun p => k W W' (fun q => t.get [i.getD 0 0, i.getD 1 0, p, q]) (i.getD 3 0)) (i.getD 2 0)⟩
  | _ => .error .notImplemented

/-- `torch.stack(ts, dim=-2)` (qtransform.py:375, 398). -/
def stackM2 (ts : List (Tensor ℝ)) : Res (Tensor ℝ) :=
  match ts with
  | [] => .error .runtime
  | t :: rest =>
    if t.shape = [] then .error .index
    else if rest.all fun u => decide (u.shape = t.shape) then
      .ok ⟨t.shape.dropLast ++ [ts.length, t.shape.getLastD 0], fun i =>
        (ts.getD (i.getD (t.shape.length - 1) 0) t).get (i.eraseIdx (t.shape.length - 1))⟩
    else .error .runtime

/-- The height of a 4-D tensor (qtransform.py:378-386). -/
def height (t : Tensor ℝ) : ℕ := t.shape.getD 2 0

/-- The entries of the concatenation of 4-D tensors along dimension two (qtransform.py:378-386). -/
def catGet : List (Tensor ℝ) → ℕ → ℕ → ℕ → ℕ → ℝ
  | [], _, _, _, _ => 0
  | t :: ts, b, c, k, x => if k < height t then t.get [b, c, k, x] else catGet ts b c (k - height t) x

/-- `torch.cat(ts, dim=-2)` of 4-D tensors (qtransform.py:378-386). -/
def catM2 (ts : List (Tensor ℝ)) : Res (Tensor ℝ) :=
  match ts with
  | [] => .error .runtime
  | t :: _ =>
    match t.shape with
    | [B, C, _, T] =>
      if ts.all fun u => decide (u.shape = [B, C, height u, T]) then
        .ok ⟨[B, C, (ts.map height).sum, T], fun i => catGet ts (i.getD 0 0) (i.getD 1 0) (i.getD 2 0) (i.getD 3 0)⟩
      else .error .runtime
    | _ => .error .index

end Verif.Resample
