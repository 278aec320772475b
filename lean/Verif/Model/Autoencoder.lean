import Verif.Tensor
import Mathlib.Data.Real.Basic
/-!
# Model of ml4gw/nn/autoencoder

`Autoencoder` (base.py) is modelled over an arbitrary type of values and blocks whose `encode` and `decode` take and
return one value (the tuple-valued blocks that the class also allows are not modelled).  Convolutions are given by
their shape law; the numbers they compute are arbitrary functions of the input.
-/
namespace Verif.Autoencoder

/-- `F.pad(X, (left, right))` of a 3-d tensor with zeros. (utils.py:11) -/
def pad3 (left right : ℕ) (x : Tensor ℝ) (B C L : ℕ) : Tensor ℝ :=
  ⟨[B, C, left + L + right], fun i =>
    if left ≤ i.getD 2 0 ∧ i.getD 2 0 < left + L then x.get [i.getD 0 0, i.getD 1 0, i.getD 2 0 - left] else 0⟩

/-- `X[:, :, a:b]` of a 3-d tensor; `none` for an absent upper bound. (utils.py:14) -/
def slice3 (a : Int) (b : Option Int) (x : Tensor ℝ) (B C L : ℕ) : Tensor ℝ :=
  let lo := pySliceBound L a
  let hi := match b with
    | some b => pySliceBound L b
    | none => L
  ⟨[B, C, hi - lo], fun i => x.get [i.getD 0 0, i.getD 1 0, i.getD 2 0 + lo]⟩

/-- `-right or None` (utils.py:13). -/
def negOrNone (right : Int) : Option Int := if -right = 0 then none else some (-right)

/-- `match_size` (utils.py:5-15) for 3-d tensors (other ranks: IndexError here, which is only right below rank 3). -/
def matchSize (x : Tensor ℝ) (target : Int) : Res (Tensor ℝ) :=
  match x.shape with
  | [B, C, L] =>
    let diff : Int := target - L
    let left := Int.fdiv diff 2
    let right := diff - left
    if diff > 0 then .ok (pad3 left.toNat right.toNat x B C L)
    else if diff < 0 then .ok (slice3 (-left) (negOrNone right) x B C L)
    else .ok x
  | _ => .error .index

/-- `SkipConnection.forward` (skip_connection.py:8-9). -/
def skipBase (x state : Tensor ℝ) : Res (Tensor ℝ) := do
  let n ← state.lastDim
  matchSize x n

/-- `AddSkipConnect.forward` (skip_connection.py:16-18). -/
noncomputable def addSkip (x state : Tensor ℝ) : Res (Tensor ℝ) := do
  let x ← skipBase x state
  Tensor.zipB (· + ·) x state

/-- Channels of a 3-d tensor. (`X.size(1)`, skip_connection.py:34) -/
def chans (t : Tensor ℝ) : ℕ := t.shape.getD 1 0

/-- Channel `c` of the concatenation along dimension 1. (skip_connection.py:32, 45) -/
def catGet : List (Tensor ℝ) → ℕ → ℕ → ℕ → ℝ
  | [], _, _, _ => 0
  | t :: ts, b, c, l => if c < chans t then t.get [b, c, l] else catGet ts b (c - chans t) l

/-- `torch.cat(ts, dim=1)` of 3-d tensors: RuntimeError if the list is empty or the other dimensions differ.
(skip_connection.py:32, 45) -/
def cat1 (ts : List (Tensor ℝ)) : Res (Tensor ℝ) :=
  match ts with
  | [] => .error .runtime
  | t :: _ =>
    match t.shape with
    | [B, _, L] =>
      if ts.all fun u => decide (u.shape = [B, chans u, L]) then
        .ok ⟨[B, (ts.map chans).sum, L], fun i => catGet ts (i.getD 0 0) (i.getD 1 0) (i.getD 2 0)⟩
      else .error .runtime
    | _ => .error .index

/-- `torch.split(X, g, dim=1)` for `g > 0`: consecutive chunks of `g` channels (the last may be smaller).
(skip_connection.py:42-43) -/
def split1 (g : ℕ) (x : Tensor ℝ) : List (Tensor ℝ) :=
  let C := chans x
  (List.range ((C + g - 1) / g)).map fun j =>
    ⟨x.shape.set 1 (min g (C - j * g)), fun i => x.get (i.set 1 (j * g + i.getD 1 0))⟩

/-- `[i for j in zip(X, state, strict=True) for i in j]` (skip_connection.py:44): ValueError on different lengths. -/
def interleave (a b : List (Tensor ℝ)) : Res (List (Tensor ℝ)) :=
  if a.length = b.length then .ok ((a.zip b).flatMap fun p => [p.1, p.2]) else .error .value

/-- `ConcatSkipConnect.forward` (skip_connection.py:29-45), `groups` a natural number. -/
def concatSkip (groups : ℕ) (x state : Tensor ℝ) : Res (Tensor ℝ) := do
  let x ← skipBase x state
  if groups = 1 then cat1 [x, state]
  else if groups = 0 then .error .zeroDivision                                -- line 35
  else if chans x % groups ≠ 0 then .error .value                             -- lines 36-40
  else do
    let frags ← interleave (split1 groups x) (split1 groups state)
    cat1 frags

/-- `get_out_channels` of the two classes (skip_connection.py:11-12, 26-27). -/
def addOutChannels (inC : ℕ) : ℕ := inC
/-- `ConcatSkipConnect.get_out_channels`, skip_connection.py:26-27. -/
def concatOutChannels (inC : ℕ) : ℕ := 2 * inC

variable {V : Type}

/-- A block of an autoencoder. (the objects in `self.blocks`, base.py:33-51, 69-78) -/
structure Block (V : Type) where
  enc : V → Res V
  dec : V → Res V

/-- The loop of `encode` (base.py:38-44): the running value and the list `states`. -/
def encodeLoop (blocks : List (Block V)) (x : V) : Res (V × List V) :=
  blocks.foldlM (fun p b => do
    let y ← b.enc p.1
    .ok (y, p.2 ++ [y])) (x, [])

/-- `Autoencoder.encode(x, return_states=True)` (base.py:35-51): output and `states[:-1]`. -/
def encode (blocks : List (Block V)) (x : V) : Res (V × List V) := do
  let p ← encodeLoop blocks x
  .ok (p.1, p.2.dropLast)

/-- `states[-i - 1]` (base.py:75) on the list built at line 67, or on `None` (TypeError). -/
def stateAt (states : Option (List (Option V))) (i : ℕ) : Res (Option V) :=
  match states with
  | none => .error .type
  | some l => if i < l.length then
      match l[l.length - 1 - i]? with
      | some s => .ok s
      | none => .error .index
    else .error .index

/-- `self.skip_connection(X, state)` when `state is not None` (base.py:76-77); calling `None` is a TypeError. -/
def applySkip (skip : Option (V → V → Res V)) (state : Option V) (x : V) : Res V :=
  match state with
  | none => .ok x
  | some s => match skip with
    | some f => f x s
    | none => .error .type

/-- One iteration of the loop of `decode` (base.py:69-77); the counter is part of the loop state. -/
def decodeStep (skip : Option (V → V → Res V)) (states : Option (List (Option V))) (p : ℕ × V) (b : Block V) : Res (ℕ × V) := do
  let y ← b.dec p.2
  let s ← stateAt states p.1
  let z ← applySkip skip s y
  .ok (p.1 + 1, z)

/-- Lines 69-78. (base.py:69-78) -/
def decodeLoop (blocks : List (Block V)) (skip : Option (V → V → Res V)) (states : Option (List (Option V))) (x : V) : Res V := do
  let p ← blocks.reverse.foldlM (decodeStep skip states) (0, x)
  .ok p.2

/-- `Autoencoder.decode` (base.py:53-78). -/
def decode (blocks : List (Block V)) (skip : Option (V → V → Res V)) (x : V) (states : Option (List V)) : Res V :=
  match states with
  | none => if skip.isSome then .error .value else decodeLoop blocks skip none x            -- lines 54-58
  | some st =>
    if (st.length : Int) ≠ (blocks.length : Int) - 1 then .error .value                      -- lines 60-64
    else decodeLoop blocks skip (some (st.reverse.map some ++ [none])) x                     -- line 67

/-- `Autoencoder.forward` (base.py:80-90). -/
def forward (blocks : List (Block V)) (skip : Option (V → V → Res V)) (x : V) : Res V := do
  let p ← encode blocks x
  decode blocks skip p.1 (if skip.isSome then some p.2 else none)

/-! ## The convolutional autoencoder -/

/-- A value flowing through the decoder: a tensor, or the module object that results from calling a module class.
(what `decode` of convolutional.py:72-75 returns) -/
inductive Val where
  | tensor (t : Tensor ℝ)
  | module

/-- An activation as passed by the user: `new` is `activation()` (an elementwise function), `call x` is `activation(x)`.
(the `activation` argument, convolutional.py:21, 58-62) -/
structure Activation where
  new : ℝ → ℝ
  call : Tensor ℝ → Res Val

/-- A `torch.nn.Module` subclass (`torch.nn.ReLU`, ...): calling the class constructs a module (or raises TypeError), it
never computes a tensor. (the documented kind of `activation`, convolutional.py:21, 24) -/
def Activation.IsClass (a : Activation) : Prop := ∀ x, a.call x = .ok .module ∨ ∃ e, a.call x = .error e

/-- An activation that can be called in both ways (`f()` gives a function, `f(x)` applies it): never a module class.
(convolutional.py:58-62, 70, 75) -/
def Activation.IsDual (a : Activation) : Prop := ∀ x, a.call x = .ok (.tensor (x.map a.new))

/-- `torch.nn.Conv1d`: RuntimeError unless the input is `(B, in, L)` and the padded input is at least the kernel.
(the layers of convolutional.py:34-42, 48-56) -/
structure Conv where
  inC : ℕ
  outC : ℕ
  k : ℕ
  s : ℕ
  p : ℕ
  val : Tensor ℝ → List ℕ → ℝ

/-- Output length of `Conv1d` (dilation 1). (convolutional.py:34-42) -/
def convLen (L k s p : ℕ) : ℕ := (L + 2 * p - k) / s + 1

/-- Output length of `ConvTranspose1d` (dilation 1, output padding 0): `(L - 1) s - 2 p + k`.
(convolutional.py:48-56) -/
def convTLen (L k s p : ℕ) : Int := ((L : Int) - 1) * s - 2 * p + k

/-- `self.encode_layer(X)`, convolutional.py:68. -/
def Conv.call (c : Conv) (x : Tensor ℝ) : Res (Tensor ℝ) :=
  match x.shape with
  | [B, C, L] =>
    if C ≠ c.inC ∨ L + 2 * c.p < c.k then .error .runtime
    else .ok ⟨[B, c.outC, convLen L c.k c.s c.p], c.val x⟩
  | _ => .error .runtime

/-- `torch.nn.ConvTranspose1d`; a non-positive output length is a RuntimeError.
(`self.decode_layer(X)`, convolutional.py:73) -/
def Conv.callT (c : Conv) (x : Tensor ℝ) : Res (Tensor ℝ) :=
  match x.shape with
  | [B, C, L] =>
    if C ≠ c.inC ∨ L = 0 ∨ convTLen L c.k c.s c.p ≤ 0 then .error .runtime
    else .ok ⟨[B, c.outC, (convTLen L c.k c.s c.p).toNat], c.val x⟩
  | _ => .error .runtime

/-- A normalisation layer keeps the shape. (convolutional.py:64-65, 69, 74) -/
abbrev Norm := Tensor ℝ → List ℕ → ℝ

/-- `ConvBlock.encode` (convolutional.py:67-70); a module object in place of a tensor is a TypeError. -/
def convEncode (enc : Conv) (norm : Norm) (act : ℝ → ℝ) (v : Val) : Res Val :=
  match v with
  | .module => .error .type
  | .tensor x => do
    let y ← enc.call x
    .ok (.tensor ⟨y.shape, fun i => act (norm y i)⟩)

/-- `ConvBlock.decode` (convolutional.py:72-75): `output_activation` was stored as passed, not instantiated
(lines 59-62). -/
def convDecode (dec : Conv) (norm : Norm) (outAct : Activation) (v : Val) : Res Val :=
  match v with
  | .module => .error .type
  | .tensor x => do
    let y ← dec.callT x
    outAct.call ⟨y.shape, norm y⟩

/-- Weights of one block: what the layers and norms compute (arbitrary). (convolutional.py:34-65) -/
structure Weights where
  enc : Tensor ℝ → List ℕ → ℝ
  dec : Tensor ℝ → List ℕ → ℝ
  encNorm : Norm
  decNorm : Norm

/-- The skip connection given to `ConvolutionalAutoencoder`. (skip_connection.py:7-12) -/
structure Skip where
  outChannels : ℕ → ℕ
  forward : Tensor ℝ → Tensor ℝ → Res (Tensor ℝ)

/-- A skip connection applied to decoder values: `X.size` of a module is an AttributeError. (base.py:75-77) -/
def Skip.onVal (s : Skip) (x state : Val) : Res Val :=
  match x, state with
  | .tensor x, .tensor st => do
    let y ← s.forward x st
    .ok (.tensor y)
  | _, _ => .error .attribute

/-- The options of `ConvolutionalAutoencoder.__init__` that are the same for all blocks. (convolutional.py:92-104) -/
structure Config where
  kernel : ℕ
  stride : ℕ
  groups : ℕ
  activation : Activation
  outputActivation : Option Activation
  decodeChannels : Option ℕ
  skip : Option Skip

/-- `ConvBlock.__init__` (convolutional.py:14-65) as called at lines 132-143 for block `i`; `x or y` on channel numbers
treats 0 as absent.  The ValueErrors of the layers' constructors (channels not divisible by `groups`) are not modelled. -/
def convBlock (cfg : Config) (i inC channels : ℕ) (w : Weights) : Block Val :=
  let padding := (cfg.kernel - 1) / 2
  let outC := channels * cfg.groups
  let decode := if i = 0 then cfg.decodeChannels else some inC                                -- line 119
  let decodeC := match decode with
    | some d => if d = 0 then inC else d
    | none => inC                                                                             -- line 44
  let decIn := match cfg.skip with
    | some s => s.outChannels outC
    | none => outC                                                                            -- lines 45-47
  let outAct := if i = 0 then cfg.outputActivation.getD cfg.activation else cfg.activation    -- lines 112, 130, 59-62
  { enc := convEncode ⟨inC, outC, cfg.kernel, cfg.stride, padding, w.enc⟩ w.encNorm cfg.activation.new
    dec := convDecode ⟨decIn, decodeC, cfg.kernel, cfg.stride, padding, w.dec⟩ w.decNorm outAct }

/-- The blocks built by `ConvolutionalAutoencoder.__init__` (convolutional.py:113-145). -/
def convBlocks (cfg : Config) : ℕ → ℕ → List (ℕ × Weights) → List (Block Val)
  | _, _, [] => []
  | i, inC, (ch, w) :: rest => convBlock cfg i inC ch w :: convBlocks cfg (i + 1) (ch * cfg.groups) rest

/-- `match_size` of a decoder value. (convolutional.py:150, 156) -/
def matchVal (v : Val) (n : Int) : Res Val :=
  match v with
  | .module => .error .attribute
  | .tensor x => do
    let y ← matchSize x n
    .ok (.tensor y)

/-- `ConvolutionalAutoencoder.decode` (convolutional.py:147-151) on one value. -/
def convDecodeSized (blocks : List (Block Val)) (skip : Option (Val → Val → Res Val)) (x : Val) (states : Option (List Val)) (inputSize : Option Int) : Res Val := do
  let y ← decode blocks skip x states
  match inputSize with
  | some n => matchVal y n
  | none => .ok y

/-- `ConvolutionalAutoencoder.forward` (convolutional.py:153-156) of the network with the given layers. -/
def convForward (cfg : Config) (inC : ℕ) (layers : List (ℕ × Weights)) (x : Tensor ℝ) : Res Val := do
  let n ← x.lastDim
  let y ← forward (convBlocks cfg 0 inC layers) (cfg.skip.map Skip.onVal) (.tensor x)
  matchVal y n

end Verif.Autoencoder
