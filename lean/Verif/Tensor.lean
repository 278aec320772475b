import Verif.Py
/-!
# Torch tensors as index functions

A tensor is a shape together with the value at every index list.  Values at index lists that are
not in bounds are meaningless; every theorem only speaks of in-bounds indices (`InB`).
The definitions below fix the meaning of the torch primitives used by the modelled code; they are
part of the trusted base (see DESIGN.md).
-/

namespace Verif

/-- A dense tensor (row-major/contiguous semantics; strides, dtype and device are not modelled). -/
structure Tensor (α : Type _) where
  shape : List Nat
  get : List Nat → α

/-- `InB idx shape`: `idx` is a valid multi-index for `shape`. -/
def InB : List Nat → List Nat → Prop
  | [], [] => True
  | i :: is, s :: ss => i < s ∧ InB is ss
  | _, _ => False

/-- Product of the dimensions (`Tensor.numel`). -/
def numel : List Nat → Nat
  | [] => 1
  | s :: ss => s * numel ss

/-- Row-major linear position of a multi-index. -/
def ravel : List Nat → List Nat → Nat
  | _ :: ss, i :: is => i * numel ss + ravel ss is
  | _, _ => 0

/-- Multi-index at a row-major linear position. -/
def unravel : List Nat → Nat → List Nat
  | [], _ => []
  | _ :: ss, k => k / numel ss :: unravel ss (k % numel ss)

/-- Swap two positions of a list (used for `transpose`). -/
def swapAt (l : List Nat) (i j : Nat) : List Nat :=
  (l.set i (l.getD j 0)).set j (l.getD i 0)

/-- Replace the last entry `t` of an index by `f t`. -/
def mapLast (f : Nat → Nat) : List Nat → List Nat
  | [] => []
  | [t] => [f t]
  | i :: is => i :: mapLast f is

namespace Tensor
variable {α β : Type _}

/-- Two tensors are the same value: same shape, same in-bounds entries. -/
def Same (a b : Tensor α) : Prop := a.shape = b.shape ∧ ∀ i, InB i a.shape → a.get i = b.get i

/-- `x.ndim`. -/
def ndim (t : Tensor α) : Nat := t.shape.length

/-- `x.shape[-1]`; IndexError on 0-d tensors. -/
def lastDim (t : Tensor α) : Res Nat :=
  match t.shape.getLast? with
  | some n => .ok n
  | none => .error .index

/-- `len(x)`: first dimension; TypeError on 0-d tensors. -/
def len (t : Tensor α) : Res Nat :=
  match t.shape with
  | n :: _ => .ok n
  | [] => .error .type

/-- Element-wise map. -/
def map (f : α → β) (t : Tensor α) : Tensor β := ⟨t.shape, fun i => f (t.get i)⟩

/-- `torch.zeros(shape)`. -/
def zeros [Zero α] (shape : List Nat) : Tensor α := ⟨shape, fun _ => 0⟩

/-- `torch.arange(n)` for a Python int `n` (negative raises RuntimeError). -/
def arange (n : Int) : Res (Tensor Int) :=
  if n < 0 then .error .runtime
  else .ok ⟨[n.toNat], fun i => (i.headD 0 : Nat)⟩

/-- `x.reshape(*shape)` / `.view` with fully specified sizes (RuntimeError on size mismatch). -/
def reshape (t : Tensor α) (ns : List Nat) : Res (Tensor α) :=
  if numel ns = numel t.shape then .ok ⟨ns, fun i => t.get (unravel t.shape (ravel ns i))⟩
  else .error .runtime

/-- Torch's resolution of a shape of the form `front ++ [-1] ++ back`: the missing dimension is
inferred; RuntimeError when the given sizes have product 0 (ambiguous) or do not divide. -/
def inferDim (front back : List Nat) (n : Nat) : Res (List Nat) :=
  let p := numel front * numel back
  if p = 0 then .error .runtime
  else if n % p = 0 then .ok (front ++ n / p :: back)
  else .error .runtime

/-- `x.reshape(*front, -1, *back)`. -/
def reshapeInfer (t : Tensor α) (front back : List Nat) : Res (Tensor α) := do
  let ns ← inferDim front back (numel t.shape)
  t.reshape ns

/-- `x.transpose(d0, d1)` (dims already normalised to be non-negative and in range). -/
def transpose (t : Tensor α) (d0 d1 : Nat) : Tensor α :=
  ⟨swapAt t.shape d0 d1, fun i => t.get (swapAt i d0 d1)⟩

/-- `x[None]`: new leading dimension of size 1. -/
def unsqueeze0 (t : Tensor α) : Tensor α := ⟨1 :: t.shape, fun i => t.get i.tail⟩

/-- `x.narrow(-1, start, len)`. -/
def narrowLast (t : Tensor α) (start len : Nat) : Tensor α :=
  ⟨mapLast (fun _ => len) t.shape, fun i => t.get (mapLast (· + start) i)⟩

/-- `torch.split(x, [a, b], dim=-1)`: RuntimeError if a size is negative or the sizes do not sum to
the dimension. -/
def splitLast2 (t : Tensor α) (a b : Int) : Res (Tensor α × Tensor α) := do
  let n ← t.lastDim
  if a < 0 ∨ b < 0 ∨ a + b ≠ n then .error .runtime
  else .ok (t.narrowLast 0 a.toNat, t.narrowLast a.toNat b.toNat)

/-- `torch.nn.functional.unfold(x, (1, kw), dilation=(1, dw))` on a 4-d tensor of shape
`(N, C, 1, W)` (padding 0, stride 1), i.e. im2col:
`out[n, c*kw + j, l] = x[n, c, 0, l + j*dw]` with `L = W - dw*(kw-1)`.
RuntimeError if the kernel or dilation is not positive, a non-batch dimension is zero, or `L < 1`. -/
def unfold1 (t : Tensor α) (kw dw : Int) : Res (Tensor α) :=
  match t.shape with
  | [n, c, h, w] =>
    if kw ≤ 0 ∨ dw ≤ 0 ∨ c = 0 ∨ h = 0 ∨ w = 0 then .error .runtime
    else
      let l : Int := (w : Int) - dw * (kw - 1)
      if l < 1 then .error .runtime
      else if h ≠ 1 then .error .runtime
      else .ok ⟨[n, c * kw.toNat, l.toNat], fun i =>
        let b := i.getD 0 0
        let k := i.getD 1 0
        let p := i.getD 2 0
        t.get [b, k / kw.toNat, 0, p + (k % kw.toNat) * dw.toNat]⟩
  | _ => .error .runtime

/-- `x.repeat(*reps)` with as many repeats as dimensions: tiling, element `i` is `x[i mod shape]`. -/
def tile (t : Tensor α) (reps : List Nat) : Tensor α :=
  ⟨List.zipWith (· * ·) t.shape reps, fun i => t.get (List.zipWith (· % ·) i t.shape)⟩

/-- All multi-indices of a shape in row-major order. -/
def allIdx : List Nat → List (List Nat)
  | [] => [[]]
  | s :: ss => (List.range s).flatMap fun i => (allIdx ss).map (i :: ·)

/-- `torch.take(x, index)`: `x` is viewed as 1-d; an index `k` with `-numel ≤ k < numel` is accepted
and **negative indices wrap around**; anything else raises IndexError. -/
def take (x : Tensor α) (index : Tensor Int) : Res (Tensor α) :=
  let n := numel x.shape
  if (allIdx index.shape).all (fun i => decide (-(n:Int) ≤ index.get i ∧ index.get i < n)) then
    .ok ⟨index.shape, fun i =>
      let k := index.get i
      x.get (unravel x.shape (if k < 0 then (k + n).toNat else k.toNat))⟩
  else .error .index

/-- `torch.take_along_dim(x, index, axis=-1)` when all leading dimensions of `x` and `index` agree
(RuntimeError otherwise, broadcasting is not modelled): gather along the last dimension; an index
outside `[0, size)` raises RuntimeError. -/
def takeAlongLast (x : Tensor α) (index : Tensor Int) : Res (Tensor α) := do
  let n ← x.lastDim
  if x.shape.dropLast = index.shape.dropLast ∧ x.shape.length = index.shape.length then
    if (allIdx index.shape).all (fun i => decide (0 ≤ index.get i ∧ index.get i < n)) then
      .ok ⟨index.shape, fun i => x.get (mapLast (fun _ => (index.get i).toNat) i)⟩
    else .error .runtime
  else .error .runtime

/-- Right-aligned broadcasting of two shapes given in reversed order. -/
def bcShapeRev : List Nat → List Nat → Option (List Nat)
  | [], b => some b
  | a, [] => some a
  | x :: a, y :: b => do
    let r ← bcShapeRev a b
    if x = y then some (x :: r) else if x = 1 then some (y :: r) else if y = 1 then some (x :: r) else none

/-- The index of an operand of shape `s` used for the entry `i` of a broadcast result: superfluous
leading entries are dropped and dimensions of size 1 are read at 0. -/
def bcIdx (s i : List Nat) : List Nat :=
  List.zipWith (fun d j => if d = 1 then 0 else j) s (i.drop (i.length - s.length))

/-- Element-wise binary operation with torch broadcasting (RuntimeError on incompatible shapes). -/
def zipB {γ : Type _} (f : α → β → γ) (a : Tensor α) (b : Tensor β) : Res (Tensor γ) :=
  match bcShapeRev a.shape.reverse b.shape.reverse with
  | some r => .ok ⟨r.reverse, fun i => f (a.get (bcIdx a.shape i)) (b.get (bcIdx b.shape i))⟩
  | none => .error .runtime

end Tensor
end Verif
