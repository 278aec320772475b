import Verif.Model.Conv
import Verif.Model.GroupNorm
/-!
# Model of `ResNet1D`, `BottleneckResNet1D`, `ResNet2D`, `BottleneckResNet2D` (ml4gw/nn/resnet)

The two files differ only in the number of spatial dimensions, a parameter `D` here (line numbers are those of
resnet_1d.py).  Convolutions, pooling and the linear layer compute what `Verif.Model.Conv` says; norm layers are an argument of the constructor (the defaults
are `groupNorm1D` and `groupNorm2D`).  The weights are parameters: the network is a function of them.  Of the initialisation (resnet_1d.py:313-332) the norm
layers are modelled (`initParams`); the random convolution weights stay arbitrary.
-/
namespace Verif.ResNet
open Conv (Weight)

/-- What a norm layer computes, left arbitrary. (resnet_1d.py:94, 98, resnet_2d.py:91, 95) -/
abbrev Fn := Tensor ℝ → List ℕ → ℝ

/-- A torch module: shape checked at call time. (resnet_1d.py:32-41, 46-48, resnet_2d.py:29-38, 43-45) -/
abbrev Mod := Tensor ℝ → Res (Tensor ℝ)

/-- Output size of a convolution or pooling window along one dimension.
(resnet_1d.py:32-41, 271-281, resnet_2d.py:29-38, 271-281) -/
def outLen (k s p d L : ℕ) : ℕ := (L + 2 * p - d * (k - 1) - 1) / s + 1

/-- `nn.ConvNd(inC, outC, k, s, p, d, groups, bias=False)` applied to a batched input: RuntimeError on the wrong number of dimensions or
channels, on zero channels, and if the padded input is smaller than the dilated kernel.
(resnet_1d.py:32-41, 46-48, 271-278, resnet_2d.py:29-38, 43-45, 271-278) -/
noncomputable def conv (D inC outC k s p d groups : ℕ) (w : Weight) : Mod := fun x =>
  match x.shape with
  | B :: C :: S =>
    if S.length ≠ D ∨ C ≠ inC ∨ inC = 0 ∨ outC = 0 ∨ (∃ L ∈ S, L + 2 * p < d * (k - 1) + 1) then .error .runtime
    else .ok ⟨B :: outC :: S.map (outLen k s p d), fun i =>
      Conv.convAt inC outC k s p d groups w S (fun c j => x.get (i.headD 0 :: c :: j)) (i.tail.headD 0) i.tail.tail⟩
  | _ => .error .runtime

/-- `nn.MaxPoolNd(kernel_size=3, stride=2, padding=1)`: RuntimeError if an output size would be 0.
(resnet_1d.py:281, resnet_2d.py:281) -/
noncomputable def maxpool (D : ℕ) : Mod := fun x =>
  match x.shape with
  | B :: C :: S =>
    if S.length ≠ D ∨ C = 0 ∨ (∃ L ∈ S, L + 2 < 3) then .error .runtime
    else .ok ⟨B :: C :: S.map (outLen 3 2 1 1), fun i =>
      Conv.maxAt S (fun j => x.get (i.headD 0 :: i.tail.headD 0 :: j)) i.tail.tail⟩
  | _ => .error .runtime

/-- `ReLU`. (resnet_1d.py:95, 104, resnet_2d.py:92, 101) -/
noncomputable def relu (x : Tensor ℝ) : Tensor ℝ := x.map fun v => max v 0

/-- The parameters `weight` and `bias` of a norm layer, one number per channel each. (norm.py:31-33) -/
structure Affine where
  weight : ℕ → ℝ
  bias : ℕ → ℝ

/-- A normalisation layer keeps the shape (statistics and run-time checks of particular layers are not modelled).
(resnet_1d.py:94, 98, resnet_2d.py:91, 95) -/
def applyNorm (f : Fn) (x : Tensor ℝ) : Tensor ℝ := ⟨x.shape, f x⟩

/-- `norm_layer`: number of channels to a module (a function of its parameters), or an error. (resnet_1d.py:66, 83, resnet_2d.py:63, 80) -/
abbrev NormLayer := ℕ → Res (Affine → Fn)

/-- `GroupNorm1DGetter(groups)`, the default of the one-dimensional networks (resnet_1d.py:251, norm.py:80-88).  The layer raises only on inputs that are not
three-dimensional or have another number of channels, which the networks never feed it; its values there are irrelevant. -/
noncomputable def groupNorm1D (groups : Option ℕ) : NormLayer := fun c => do
  let g ← GroupNorm.getter1D groups c
  .ok fun p x i => match GroupNorm.forward c g (1 / 100000) p.weight p.bias x with
    | .ok y => y.get i
    | .error _ => 0

/-- Mean over the `per` channels of group `g` and all spatial positions `S` of a batch element. (torch.nn.GroupNorm, norm.py:107) -/
noncomputable def groupMean (per g : ℕ) (S : List ℕ) (f : ℕ → List ℕ → ℝ) : ℝ :=
  (∑ c ∈ Finset.range per, ((Tensor.allIdx S).map fun j => f (g * per + c) j).sum) / ((per * numel S : ℕ) : ℝ)

/-- `GroupNorm2DGetter(groups)`, the default of the two-dimensional networks (resnet_2d.py:248, norm.py:99-107): `torch.nn.GroupNorm`, the group mean and
biased variance with `eps = 1e-5`, then the affine map of the channel. -/
noncomputable def groupNorm2D (groups : Option ℕ) : NormLayer := fun c => do
  let g ← GroupNorm.getter2D groups c
  .ok fun p x i =>
    let per := c / g
    let S := x.shape.tail.tail
    let ch := i.tail.headD 0
    let v : ℕ → List ℕ → ℝ := fun c j => x.get (i.headD 0 :: c :: j)
    let μ := groupMean per (ch / per) S v
    let var := groupMean per (ch / per) S fun c j => (v c j - μ) ^ 2
    (v ch i.tail.tail - μ) / Real.sqrt (var + 1 / 100000) * p.weight ch + p.bias ch

/-- `out += identity`.  Stricter than torch: a broadcast of `identity` counts as an error.
(resnet_1d.py:103, 176, resnet_2d.py:100, 173) -/
noncomputable def addTo (out identity : Tensor ℝ) : Res (Tensor ℝ) :=
  if out.shape = identity.shape then .ok ⟨out.shape, fun i => out.get i + identity.get i⟩ else .error .runtime

/-- The group check of `nn.ConvNd.__init__`. (resnet_1d.py:32-41, resnet_2d.py:29-38) -/
def checkGroups (inC outC groups : ℕ) : Res Unit :=
  if groups = 0 then .error .value
  else if inC % groups ≠ 0 ∨ outC % groups ≠ 0 then .error .value
  else .ok ()

/-- `convN` (resnet_1d.py:20-41). -/
noncomputable def convN (D inC outC k s groups d : ℕ) (w : Weight) : Res Mod :=
  if k % 2 = 0 then .error .value
  else do
    checkGroups inC outC groups
    .ok (conv D inC outC k s (d * (k / 2)) d groups w)

/-- `conv1` (resnet_1d.py:44-48). -/
noncomputable def conv1 (D inC outC s : ℕ) (w : Weight) : Mod := conv D inC outC 1 s 0 1 1 w

/-- `BasicBlock` or `Bottleneck`. (resnet_1d.py:51, 109, resnet_2d.py:48, 106) -/
inductive Kind where
  | basic | bottleneck
  deriving DecidableEq

/-- `block.expansion` (resnet_1d.py:54, 119). -/
def Kind.expansion : Kind → ℕ
  | .basic => 1
  | .bottleneck => 4

/-- The parameters of one block: convolutions, norm layers, and the downsampling branch (`c3` and `n3` only in the bottleneck block).
(resnet_1d.py:82-87, 142-156, 353-357, resnet_2d.py:79-84, 139-153, 353-357) -/
structure BlockParams where
  c1 : Weight
  c2 : Weight
  c3 : Weight
  n1 : Affine
  n2 : Affine
  n3 : Affine
  down : Weight
  nd : Affine

/-- `self.downsample(x)` or `x` (resnet_1d.py:100-101, 173-174). -/
def identityOf (downsample : Option Mod) (x : Tensor ℝ) : Res (Tensor ℝ) :=
  match downsample with
  | some m => m x
  | none => .ok x

/-- `BasicBlock.forward` (resnet_1d.py:90-106). -/
noncomputable def basicForward (c1 c2 : Mod) (n1 n2 : Fn) (downsample : Option Mod) : Mod := fun x => do
  let out ← c1 x
  let out := relu (applyNorm n1 out)
  let out ← c2 out
  let out := applyNorm n2 out
  let identity ← identityOf downsample x
  let out ← addTo out identity
  .ok (relu out)

/-- `BasicBlock.__init__` (resnet_1d.py:56-88). -/
noncomputable def basicBlock (D : ℕ) (norm : NormLayer) (inplanes planes k stride : ℕ) (downsample : Option Mod) (groups baseWidth dilation : ℕ)
    (f : BlockParams) : Res Mod :=
  if groups ≠ 1 ∨ baseWidth ≠ 64 then .error .value
  else if dilation > 1 then .error .notImplemented
  else do
    let c1 ← convN D inplanes planes k stride 1 1 f.c1
    let n1 ← norm planes
    let c2 ← convN D planes planes k 1 1 1 f.c2
    let n2 ← norm planes
    .ok (basicForward c1 c2 (n1 f.n1) (n2 f.n2) downsample)

/-- `Bottleneck.forward` (resnet_1d.py:159-179). -/
noncomputable def bottleForward (c1 c2 c3 : Mod) (n1 n2 n3 : Fn) (downsample : Option Mod) : Mod := fun x => do
  let out ← c1 x
  let out := relu (applyNorm n1 out)
  let out ← c2 out
  let out := relu (applyNorm n2 out)
  let out ← c3 out
  let out := applyNorm n3 out
  let identity ← identityOf downsample x
  let out ← addTo out identity
  .ok (relu out)

/-- `Bottleneck.__init__` (resnet_1d.py:121-157); `int(planes * (base_width / 64.0))` in exact arithmetic (the planes used are
multiples of 64). -/
noncomputable def bottleneck (D : ℕ) (norm : NormLayer) (inplanes planes k stride : ℕ) (downsample : Option Mod) (groups baseWidth dilation : ℕ)
    (f : BlockParams) : Res Mod := do
  let width := planes * baseWidth / 64 * groups
  let c1 ← convN D inplanes width k 1 1 1 f.c1
  let n1 ← norm width
  let c2 ← convN D width width k stride groups dilation f.c2
  let n2 ← norm width
  let c3 := conv1 D width (planes * 4) 1 f.c3
  let n3 ← norm (planes * 4)
  .ok (bottleForward c1 c2 c3 (n1 f.n1) (n2 f.n2) (n3 f.n3) downsample)

/-- `block(...)`. (resnet_1d.py:361-371, resnet_2d.py:361-371) -/
noncomputable def mkBlock (kind : Kind) (D : ℕ) (norm : NormLayer) (inplanes planes k stride : ℕ) (downsample : Option Mod) (groups baseWidth dilation : ℕ)
    (f : BlockParams) : Res Mod :=
  match kind with
  | .basic => basicBlock D norm inplanes planes k stride downsample groups baseWidth dilation f
  | .bottleneck => bottleneck D norm inplanes planes k stride downsample groups baseWidth dilation f

/-- An entry of `stride_type`. (resnet_1d.py:347-351, resnet_2d.py:347-351) -/
inductive StrideType where
  | stride | dilation | other
  deriving DecidableEq

/-- The constructor arguments shared by all layers. (resnet_1d.py:232-243, resnet_2d.py:233-244) -/
structure Config where
  kind : Kind
  D : ℕ
  norm : NormLayer
  kernel : ℕ
  groups : ℕ
  baseWidth : ℕ

/-- The attributes `self.inplanes` and `self.dilation` while the network is being built.
(resnet_1d.py:246-247, resnet_2d.py:246-247) -/
structure Builder where
  inplanes : ℕ
  dilation : ℕ

/-- Lines 353-357. (resnet_1d.py:353-357, resnet_2d.py:353-357) -/
noncomputable def mkDown (cfg : Config) (inplanes planes stride : ℕ) (f : BlockParams) : Res (Option Mod) :=
  if stride ≠ 1 ∨ inplanes ≠ planes * cfg.kind.expansion then do
    let n ← cfg.norm (planes * cfg.kind.expansion)
    .ok (some fun x => do
      let y ← conv1 cfg.D inplanes (planes * cfg.kind.expansion) stride f.down x
      .ok (applyNorm (n f.nd) y))
  else .ok none

/-- Lines 347-351: the dilation and stride of a layer. (resnet_1d.py:347-351, resnet_2d.py:347-351) -/
def strideOf (t : StrideType) (stride dilation : ℕ) : Res (ℕ × ℕ) :=
  match t with
  | .dilation => .ok (1, dilation * stride)
  | .stride => .ok (stride, dilation)
  | .other => .error .value

/-- `_make_layer` (resnet_1d.py:334-387): the blocks of the layer and the updated attributes. -/
noncomputable def makeLayer (cfg : Config) (b : Builder) (planes blocks stride : ℕ) (t : StrideType) (f : ℕ → BlockParams) : Res (List Mod × Builder) := do
  let (stride, dilation) ← strideOf t stride b.dilation
  let downsample ← mkDown cfg b.inplanes planes stride (f 0)
  let first ← mkBlock cfg.kind cfg.D cfg.norm b.inplanes planes cfg.kernel stride downsample cfg.groups cfg.baseWidth b.dilation (f 0)
  let inplanes := planes * cfg.kind.expansion
  let rest ← (List.range (blocks - 1)).mapM fun j =>
    mkBlock cfg.kind cfg.D cfg.norm inplanes planes cfg.kernel 1 none cfg.groups cfg.baseWidth dilation (f (j + 1))
  .ok (first :: rest, ⟨inplanes, dilation⟩)

/-- The loop of resnet_1d.py:291-301; `i` is the loop counter plus one. -/
noncomputable def makeLayers (cfg : Config) (f : ℕ → ℕ → BlockParams) : ℕ → Builder → List (ℕ × StrideType) → Res (List (List Mod))
  | _, _, [] => .ok []
  | i, b, (n, t) :: rest => do
    let (layer, b) ← makeLayer cfg b (64 * 2 ^ i) n 2 t (f i)
    let ls ← makeLayers cfg f (i + 1) b rest
    .ok (layer :: ls)

/-- A constructed network. (resnet_1d.py:232-311, resnet_2d.py:233-311) -/
structure Net where
  D : ℕ
  stem : Mod
  stemNorm : Fn
  pool : Mod
  layers : List (List Mod)
  fcIn : ℕ
  classes : ℕ
  fcW : ℕ → ℕ → ℝ
  fcB : ℕ → ℝ

/-- The parameters of the stem, the head and the blocks (layer, position in the layer). (resnet_1d.py:271-311, resnet_2d.py:271-311) -/
structure NetParams where
  stem : Weight
  n0 : Affine
  fcW : ℕ → ℕ → ℝ
  fcB : ℕ → ℝ
  blocks : ℕ → ℕ → BlockParams

/-- `stride_type` after resnet_1d.py:258. -/
def strideTypes (strideType : Option (List StrideType)) (layers : List ℕ) : List StrideType :=
  strideType.getD (List.replicate (layers.length - 1) .stride)

/-- `ResNet1D.__init__` (resnet_1d.py:232-311).  With a single layer the loop variable `block_size` is never bound. -/
noncomputable def init (cfg : Config) (inChannels : ℕ) (layers : List ℕ) (classes : ℕ) (strideType : Option (List StrideType)) (f : NetParams) : Res Net :=
  if ((strideTypes strideType layers).length : Int) ≠ (layers.length : Int) - 1 then .error .value
  else do
    let n ← cfg.norm 64
    let (l0, b) ← makeLayer cfg ⟨64, 1⟩ 64 (layers.headD 0) 1 .stride (f.blocks 0)
    let ls ← makeLayers cfg f.blocks 1 b (layers.tail.zip (strideTypes strideType layers))
    if layers.length = 1 then .error .unboundLocal                                        -- line 311
    else .ok ⟨cfg.D, conv cfg.D inChannels 64 7 2 3 1 1 f.stem, n f.n0, maxpool cfg.D, l0 :: ls,
      64 * 2 ^ (layers.length - 1) * cfg.kind.expansion, classes, f.fcW, f.fcB⟩

/-- Weight one and bias zero. (norm.py:32-33, resnet_1d.py:318-320, resnet_2d.py:318-320) -/
def Affine.fresh : Affine := ⟨fun _ => 1, fun _ => 0⟩

/-- Weight zero and bias zero. (resnet_1d.py:327-332, resnet_2d.py:327-332) -/
def Affine.zero : Affine := ⟨fun _ => 0, fun _ => 0⟩

/-- The norm parameters of one freshly constructed block (resnet_1d.py:318-320, 327-332): with `zero_init_residual` the weight of the last norm layer of the
residual branch is zero.  For norm layers whose parameters start at one and zero, as those of `GroupNorm1D`, `torch.nn.GroupNorm` and `BatchNorm` do. -/
def initBlock (kind : Kind) (zeroInit : Bool) (f : BlockParams) : BlockParams :=
  let f := { f with n1 := .fresh, n2 := .fresh, n3 := .fresh, nd := .fresh }
  if zeroInit then
    match kind with
    | .bottleneck => { f with n3 := .zero }
    | .basic => { f with n2 := .zero }
  else f

/-- The parameters after `__init__` (resnet_1d.py:313-332): `f` holds the random convolution weights. -/
def initParams (kind : Kind) (zeroInit : Bool) (f : NetParams) : NetParams :=
  { f with n0 := .fresh, blocks := fun i j => initBlock kind zeroInit (f.blocks i j) }

/-- `nn.Sequential`. (resnet_1d.py:387, 396-397, resnet_2d.py:387, 396-397) -/
def seq (ms : List Mod) (x : Tensor ℝ) : Res (Tensor ℝ) := ms.foldlM (fun x m => m x) x

/-- `avgpool`, `flatten(x, 1)` and `fc` (resnet_1d.py:399-401): mean over the spatial dimensions, shape `(B, C)`, then a linear layer
(RuntimeError if `C` is not its number of features). -/
noncomputable def head (net : Net) (x : Tensor ℝ) : Res (Tensor ℝ) :=
  match x.shape with
  | B :: C :: S =>
    if S.length ≠ net.D ∨ C ≠ net.fcIn then .error .runtime
    else .ok ⟨[B, net.classes], fun i =>
      Conv.linearAt net.fcIn net.fcW net.fcB (fun c => Conv.avgAt S fun j => x.get (i.headD 0 :: c :: j)) (i.tail.headD 0)⟩
  | _ => .error .runtime

/-- `forward` (resnet_1d.py:389-406). -/
noncomputable def forward (net : Net) (x : Tensor ℝ) : Res (Tensor ℝ) := do
  let x ← net.stem x
  let x ← net.pool (relu (applyNorm net.stemNorm x))
  let x ← net.layers.foldlM (fun x l => seq l x) x
  head net x

end Verif.ResNet
