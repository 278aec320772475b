import Verif.Props.ResNet
/-!
# A network built with `zero_init_residual` starts as its shortcuts (C97)
-/
set_option linter.unusedSimpArgs false
set_option linter.unusedVariables false
namespace Verif.ResNet

/-- With weight and bias zero the norm layer returns zeros. -/
def Zeroing (norm : NormLayer) : Prop := ∀ c n, norm c = .ok n → ∀ x i, n Affine.zero x i = 0

/-- **C97 (norm layers).**  The default norm layers of the one- and two-dimensional networks, with any number of groups, have that property. -/
theorem default_zeroing (groups : Option ℕ) : Zeroing (groupNorm1D groups) ∧ Zeroing (groupNorm2D groups) := by
  constructor
  · intro c n hn x i
    unfold groupNorm1D at hn
    cases hg : GroupNorm.getter1D groups c with
    | error e => rw [hg] at hn; simp at hn
    | ok g =>
      rw [hg] at hn
      simp only [res_bind_ok] at hn
      obtain rfl := Except.ok.inj hn
      cases hy : GroupNorm.forward c g (1 / 100000) Affine.zero.weight Affine.zero.bias x with
      | error e => simp only [hy]
      | ok y =>
        simp only [hy]
        unfold GroupNorm.forward at hy
        split at hy
        · split_ifs at hy
          cases hs : GroupNorm.stats c g x with
          | error e => rw [hs] at hy; simp at hy
          | ok ms =>
            rw [hs] at hy
            obtain ⟨m, sq⟩ := ms
            simp only [res_bind_ok] at hy
            obtain rfl := Except.ok.inj hy
            simp [Affine.zero]
        · simp at hy
  · intro c n hn x i
    unfold groupNorm2D at hn
    cases hg : GroupNorm.getter2D groups c with
    | error e => rw [hg] at hn; simp at hn
    | ok g =>
      rw [hg] at hn
      simp only [res_bind_ok] at hn
      obtain rfl := Except.ok.inj hn
      simp [Affine.zero]

theorem bind_inv {α β : Type _} {a : Res α} {f : α → Res β} {y : β} (h : (a >>= f) = .ok y) : ∃ x, a = .ok x ∧ f x = .ok y := by
  cases a with
  | error e => simp at h
  | ok x => exact ⟨x, rfl, by simpa using h⟩

theorem relu_relu (x : Tensor ℝ) : relu (relu x) = relu x := by
  unfold relu Tensor.map
  simp

theorem addTo_zero (out z y : Tensor ℝ) (n : Fn) (hn : ∀ x i, n x i = 0) (h : (do let o ← addTo (applyNorm n out) z; .ok (relu o)) = .ok y) : y = relu z := by
  obtain ⟨o, h1, h2⟩ := bind_inv h
  obtain rfl := Except.ok.inj h2
  unfold addTo at h1
  split_ifs at h1 with hs
  obtain rfl := Except.ok.inj h1
  unfold relu Tensor.map
  simp only [Tensor.mk.injEq]
  exact ⟨hs, by funext i; simp [applyNorm, hn]⟩

theorem basicForward_zero (c1 c2 : Mod) (n1 n2 : Fn) (hn : ∀ x i, n2 x i = 0) (o : Option Mod) (x y : Tensor ℝ) (h : basicForward c1 c2 n1 n2 o x = .ok y) :
    ∃ z, identityOf o x = .ok z ∧ y = relu z := by
  unfold basicForward at h
  obtain ⟨a, -, h⟩ := bind_inv h
  obtain ⟨b, -, h⟩ := bind_inv h
  obtain ⟨z, hz, h⟩ := bind_inv h
  exact ⟨z, hz, addTo_zero _ _ _ n2 hn h⟩

theorem bottleForward_zero (c1 c2 c3 : Mod) (n1 n2 n3 : Fn) (hn : ∀ x i, n3 x i = 0) (o : Option Mod) (x y : Tensor ℝ) (h : bottleForward c1 c2 c3 n1 n2 n3 o x = .ok y) :
    ∃ z, identityOf o x = .ok z ∧ y = relu z := by
  unfold bottleForward at h
  obtain ⟨a, -, h⟩ := bind_inv h
  obtain ⟨b, -, h⟩ := bind_inv h
  obtain ⟨c, -, h⟩ := bind_inv h
  obtain ⟨z, hz, h⟩ := bind_inv h
  exact ⟨z, hz, addTo_zero _ _ _ n3 hn h⟩

/-- **C97 (blocks).**  A block as constructed by a network with `zero_init_residual` returns the ReLU of its shortcut (the downsampling branch, or the input
itself), whatever the convolution weights, kernel size, stride, groups and dilation. -/
theorem fresh_block (kind : Kind) (D : ℕ) (norm : NormLayer) (hz : Zeroing norm) (inplanes planes k stride : ℕ) (downsample : Option Mod)
    (groups baseWidth dilation : ℕ) (f : BlockParams) (m : Mod)
    (hm : mkBlock kind D norm inplanes planes k stride downsample groups baseWidth dilation (initBlock kind true f) = .ok m) (x y : Tensor ℝ) (hy : m x = .ok y) :
    ∃ z, identityOf downsample x = .ok z ∧ y = relu z := by
  cases kind with
  | basic =>
    simp only [mkBlock, basicBlock] at hm
    split_ifs at hm
    obtain ⟨c1, -, hm⟩ := bind_inv hm
    obtain ⟨n1, -, hm⟩ := bind_inv hm
    obtain ⟨c2, -, hm⟩ := bind_inv hm
    obtain ⟨n2, e2, hm⟩ := bind_inv hm
    obtain rfl := Except.ok.inj hm
    exact basicForward_zero _ _ _ _ (fun x i => hz _ n2 e2 x i) _ _ _ hy
  | bottleneck =>
    simp only [mkBlock, bottleneck] at hm
    obtain ⟨c1, -, hm⟩ := bind_inv hm
    obtain ⟨n1, -, hm⟩ := bind_inv hm
    obtain ⟨c2, -, hm⟩ := bind_inv hm
    obtain ⟨n2, -, hm⟩ := bind_inv hm
    obtain ⟨n3, e3, hm⟩ := bind_inv hm
    obtain rfl := Except.ok.inj hm
    exact bottleForward_zero _ _ _ _ _ _ (fun x i => hz _ n3 e3 x i) _ _ _ hy

/-- **C97 (identity).**  Without a downsampling branch such a block returns every input without negative entries unchanged. -/
theorem fresh_block_identity (kind : Kind) (D : ℕ) (norm : NormLayer) (hz : Zeroing norm) (inplanes planes k stride : ℕ)
    (groups baseWidth dilation : ℕ) (f : BlockParams) (m : Mod)
    (hm : mkBlock kind D norm inplanes planes k stride none groups baseWidth dilation (initBlock kind true f) = .ok m) (x y : Tensor ℝ)
    (hx : ∀ i, InB i x.shape → 0 ≤ x.get i) (hy : m x = .ok y) : y.Same x := by
  obtain ⟨z, e, rfl⟩ := fresh_block kind D norm hz inplanes planes k stride none groups baseWidth dilation f m hm x y hy
  obtain rfl := Except.ok.inj e
  refine ⟨rfl, fun i hi => ?_⟩
  exact max_eq_left (hx i hi)

theorem seq_relu (ms : List Mod) (h : ∀ m ∈ ms, ∀ x y, m x = .ok y → y = relu x) (x y : Tensor ℝ) (hy : seq ms (relu x) = .ok y) : y = relu x := by
  induction ms with
  | nil => exact (Except.ok.inj hy).symm
  | cons m ms ih =>
    unfold seq at hy
    rw [List.foldlM_cons] at hy
    obtain ⟨a, ha, hy⟩ := bind_inv hy
    have := h m (by simp) _ _ ha
    rw [relu_relu] at this
    subst this
    exact ih (fun m' hm' => h m' (by simp [hm'])) hy

theorem mapM_inv {α β : Type _} {f : α → Res β} {l : List α} {ys : List β} (h : l.mapM f = .ok ys) : ∀ y ∈ ys, ∃ a ∈ l, f a = .ok y := by
  induction l generalizing ys with
  | nil =>
    simp at h
    intro y hy
    subst h
    simp at hy
  | cons a l ih =>
    rw [List.mapM_cons] at h
    obtain ⟨b, hb, h⟩ := bind_inv h
    obtain ⟨bs, hbs, h⟩ := bind_inv h
    obtain rfl := Except.ok.inj h
    intro y hy
    rcases List.mem_cons.1 hy with rfl | hy
    · exact ⟨a, by simp, hb⟩
    · obtain ⟨a', h1, h2⟩ := ih hbs y hy
      exact ⟨a', by simp [h1], h2⟩

theorem fresh_layer (cfg : Config) (hz : Zeroing cfg.norm) (b : Builder) (planes blocks stride : ℕ) (t : StrideType) (f : ℕ → BlockParams)
    (l : List Mod) (b' : Builder) (h : makeLayer cfg b planes blocks stride t (fun j => initBlock cfg.kind true (f j)) = .ok (l, b')) :
    b'.inplanes = planes * cfg.kind.expansion ∧ ∃ s d o, strideOf t stride b.dilation = .ok (s, d) ∧
      mkDown cfg b.inplanes planes s (initBlock cfg.kind true (f 0)) = .ok o ∧
      ∀ x y, seq l x = .ok y → ∃ z, identityOf o x = .ok z ∧ y = relu z := by
  unfold makeLayer at h
  obtain ⟨⟨s, d⟩, hs, h⟩ := bind_inv h
  obtain ⟨o, ho, h⟩ := bind_inv h
  obtain ⟨first, hf, h⟩ := bind_inv h
  obtain ⟨rest, hr, h⟩ := bind_inv h
  have h := Except.ok.inj h
  simp only [Prod.mk.injEq] at h
  obtain ⟨rfl, rfl⟩ := h
  refine ⟨rfl, s, d, o, hs, ho, ?_⟩
  intro x y hy
  unfold seq at hy
  rw [List.foldlM_cons] at hy
  obtain ⟨a, ha, hy⟩ := bind_inv hy
  obtain ⟨z, e, rfl⟩ := fresh_block _ _ _ hz _ _ _ _ _ _ _ _ _ _ hf x a ha
  refine ⟨z, e, ?_⟩
  refine seq_relu rest ?_ z y hy
  intro m hm x y hxy
  obtain ⟨j, -, hj⟩ := mapM_inv hr m hm
  obtain ⟨z, e, rfl⟩ := fresh_block _ _ _ hz _ _ _ _ _ _ _ _ _ _ hj x y hxy
  obtain rfl := Except.ok.inj e
  rfl

theorem strideOf_fst (t : StrideType) (s d d' : ℕ) (r r' : ℕ × ℕ) (h : strideOf t s d = .ok r) (h' : strideOf t s d' = .ok r') : r.1 = r'.1 := by
  cases t with
  | stride => simp only [strideOf] at h h'; rw [← Except.ok.inj h, ← Except.ok.inj h']
  | dilation => simp only [strideOf] at h h'; rw [← Except.ok.inj h, ← Except.ok.inj h']
  | other => simp [strideOf] at h

/-- Two configurations that differ at most in the kernel size, the number of groups and the width per group. -/
structure Alike (cfg cfg' : Config) : Prop where
  kind : cfg.kind = cfg'.kind
  D : cfg.D = cfg'.D
  norm : cfg.norm = cfg'.norm

theorem mkDown_alike (cfg cfg' : Config) (ha : Alike cfg cfg') (c p s : ℕ) (f f' : BlockParams) (hd : f.down = f'.down) :
    mkDown cfg c p s (initBlock cfg.kind true f) = mkDown cfg' c p s (initBlock cfg'.kind true f') := by
  have e1 : (initBlock cfg.kind true f).down = f.down ∧ (initBlock cfg.kind true f).nd = .fresh := by
    cases cfg.kind <;> exact ⟨rfl, rfl⟩
  have e2 : (initBlock cfg'.kind true f').down = f'.down ∧ (initBlock cfg'.kind true f').nd = .fresh := by
    cases cfg'.kind <;> exact ⟨rfl, rfl⟩
  unfold mkDown
  rw [e1.1, e1.2, e2.1, e2.2, ha.kind, ha.norm, ha.D, hd]

theorem fresh_layers (cfg cfg' : Config) (ha : Alike cfg cfg') (hz : Zeroing cfg.norm) (f f' : ℕ → ℕ → BlockParams) (hd : ∀ i, (f i 0).down = (f' i 0).down)
    (l l' : List (ℕ × StrideType)) (i : ℕ) (b b' : Builder) (hb : b.inplanes = b'.inplanes) (hl : l.map Prod.snd = l'.map Prod.snd) (ls ls' : List (List Mod))
    (h : makeLayers cfg (fun i j => initBlock cfg.kind true (f i j)) i b l = .ok ls)
    (h' : makeLayers cfg' (fun i j => initBlock cfg'.kind true (f' i j)) i b' l' = .ok ls')
    (x y y' : Tensor ℝ) (hy : ls.foldlM (fun x l => seq l x) x = .ok y) (hy' : ls'.foldlM (fun x l => seq l x) x = .ok y') : y = y' := by
  induction l generalizing l' i b b' ls ls' x with
  | nil =>
    cases l' with
    | nil =>
      simp only [makeLayers] at h h'
      obtain rfl := Except.ok.inj h
      obtain rfl := Except.ok.inj h'
      exact (Except.ok.inj hy).symm.trans (Except.ok.inj hy')
    | cons p l' => simp at hl
  | cons p l ih =>
    cases l' with
    | nil => simp at hl
    | cons p' l' =>
      obtain ⟨n, t⟩ := p
      obtain ⟨n', t'⟩ := p'
      simp only [List.map_cons, List.cons.injEq] at hl
      obtain ⟨rfl, hl⟩ := hl
      unfold makeLayers at h h'
      obtain ⟨⟨ly, c⟩, h1, h⟩ := bind_inv h
      obtain ⟨⟨ly', c'⟩, h1', h'⟩ := bind_inv h'
      obtain ⟨rs, h2, h⟩ := bind_inv h
      obtain ⟨rs', h2', h'⟩ := bind_inv h'
      obtain rfl := Except.ok.inj h
      obtain rfl := Except.ok.inj h'
      rw [List.foldlM_cons] at hy hy'
      obtain ⟨u, hu, hy⟩ := bind_inv hy
      obtain ⟨u', hu', hy'⟩ := bind_inv hy'
      obtain ⟨e, s, d, o, hs, ho, hm⟩ := fresh_layer cfg hz b _ n 2 t (f i) ly c h1
      obtain ⟨e', s', d', o', hs', ho', hm'⟩ := fresh_layer cfg' (ha.norm ▸ hz) b' _ n' 2 t (f' i) ly' c' h1'
      have hss : s = s' := strideOf_fst t 2 _ _ _ _ hs hs'
      rw [mkDown_alike cfg cfg' ha _ _ _ _ (f' i 0) (hd i), hb, hss, ho'] at ho
      obtain rfl := Except.ok.inj ho
      obtain ⟨z, hz1, rfl⟩ := hm x u hu
      obtain ⟨z', hz1', rfl⟩ := hm' x u' hu'
      rw [hz1] at hz1'
      obtain rfl := Except.ok.inj hz1'
      exact ih l' (i + 1) c c' (by rw [e, e', ha.kind]) hl rs rs' h2 h2' _ hy hy'

/-- **C97 (networks).**  Take two networks built with `zero_init_residual` that have the same stem, head and downsampling convolutions but arbitrary residual
convolutions, and possibly different kernel sizes, groups, widths per group and numbers of blocks in each layer: on every input that both accept they return
the same output. -/
theorem fresh_network (cfg cfg' : Config) (ha : Alike cfg cfg') (hz : Zeroing cfg.norm) (inC : ℕ) (layers layers' : List ℕ) (hl : layers.length = layers'.length)
    (classes : ℕ) (st : Option (List StrideType)) (f f' : NetParams) (hstem : f.stem = f'.stem) (hW : f.fcW = f'.fcW) (hB : f.fcB = f'.fcB)
    (hd : ∀ i, (f.blocks i 0).down = (f'.blocks i 0).down) (net net' : Net)
    (h : init cfg inC layers classes st (initParams cfg.kind true f) = .ok net)
    (h' : init cfg' inC layers' classes st (initParams cfg'.kind true f') = .ok net')
    (x y y' : Tensor ℝ) (hy : forward net x = .ok y) (hy' : forward net' x = .ok y') : y = y' := by
  unfold init at h h'
  have hst : strideTypes st layers = strideTypes st layers' := by unfold strideTypes; rw [hl]
  by_cases hlen : ((strideTypes st layers').length : Int) ≠ (layers'.length : Int) - 1
  · rw [if_pos hlen] at h'; simp at h'
  rw [hst, hl, if_neg hlen] at h
  rw [if_neg hlen] at h'
  obtain ⟨n, hn, h⟩ := bind_inv h
  obtain ⟨n', hn', h'⟩ := bind_inv h'
  rw [ha.norm, hn'] at hn
  obtain rfl := Except.ok.inj hn
  obtain ⟨⟨l0, b⟩, h0, h⟩ := bind_inv h
  obtain ⟨⟨l0', b'⟩, h0', h'⟩ := bind_inv h'
  obtain ⟨ls, h1, h⟩ := bind_inv h
  obtain ⟨ls', h1', h'⟩ := bind_inv h'
  split_ifs at h h' with hone
  obtain rfl := Except.ok.inj h
  obtain rfl := Except.ok.inj h'
  obtain ⟨e, s, d, o, hs, ho, hm⟩ := fresh_layer cfg hz _ _ _ 1 .stride (f.blocks 0) l0 b h0
  obtain ⟨e', s', d', o', hs', ho', hm'⟩ := fresh_layer cfg' (ha.norm ▸ hz) _ _ _ 1 .stride (f'.blocks 0) l0' b' h0'
  have hss : s = s' := strideOf_fst .stride 1 _ _ _ _ hs hs'
  unfold forward at hy hy'
  simp only [initParams] at hy hy'
  obtain ⟨x1, g1, hy⟩ := bind_inv hy
  obtain ⟨x1', g1', hy'⟩ := bind_inv hy'
  rw [ha.D, hstem, g1'] at g1
  obtain rfl := Except.ok.inj g1
  obtain ⟨x2, g2, hy⟩ := bind_inv hy
  obtain ⟨x2', g2', hy'⟩ := bind_inv hy'
  rw [ha.D, g2'] at g2
  obtain rfl := Except.ok.inj g2
  obtain ⟨x3, g3, hy⟩ := bind_inv hy
  obtain ⟨x3', g3', hy'⟩ := bind_inv hy'
  rw [List.foldlM_cons] at g3 g3'
  obtain ⟨u, hu, g3⟩ := bind_inv g3
  obtain ⟨u', hu', g3'⟩ := bind_inv g3'
  rw [mkDown_alike cfg cfg' ha _ _ _ _ (f'.blocks 0 0) (hd 0), hss, ho'] at ho
  obtain rfl := Except.ok.inj ho
  obtain ⟨z, hz1, rfl⟩ := hm _ u hu
  obtain ⟨z', hz1', rfl⟩ := hm' _ u' hu'
  rw [hz1] at hz1'
  obtain rfl := Except.ok.inj hz1'
  have hsnd : (layers.tail.zip (strideTypes st layers')).map Prod.snd = (layers'.tail.zip (strideTypes st layers')).map Prod.snd := by
    rw [List.map_snd_zip (by simp; omega), List.map_snd_zip (by simp; omega)]
  have := fresh_layers cfg cfg' ha hz f.blocks f'.blocks hd _ _ 1 b b' (by rw [e, e', ha.kind]) hsnd ls ls' h1 h1' _ x3 x3' g3 g3'
  subst this
  unfold head at hy hy'
  simp only [hl, ha.kind, ha.D, hW, hB] at hy hy'
  rw [hy] at hy'
  exact Except.ok.inj hy'

/-! ## The hypotheses can be met, and the flag matters -/

/-- The default one-dimensional network. -/
noncomputable def standard (kind : Kind) (k g w : ℕ) : Config := ⟨kind, 1, groupNorm1D none, k, g, w⟩

theorem standard_norm (c : ℕ) (hc : 0 < c) : ∃ n, groupNorm1D none c = .ok n := by
  unfold groupNorm1D GroupNorm.getter1D GroupNorm.init
  simp only [Option.map_none, Option.getD_none, if_true]
  rw [if_neg (by omega), if_neg (by simp)]
  exact ⟨_, rfl⟩

theorem standard_ok (kind : Kind) (k g w : ℕ) (hk : k % 2 = 1) (hb : kind = .basic → g = 1 ∧ w = 64) (hn : kind = .bottleneck → 0 < g ∧ 0 < w) :
    (standard kind k g w).Ok := ⟨hk, standard_norm, hb, hn⟩

/-- Non-vacuity: two bottleneck networks with different kernels, groups, widths and depths accept the same input. -/
example (f f' : NetParams) : ∃ net net', init (standard .bottleneck 3 1 64) 2 [3, 4, 6] 5 none (initParams .bottleneck true f) = .ok net ∧
    init (standard .bottleneck 7 2 32) 2 [1, 2, 2] 5 none (initParams .bottleneck true f') = .ok net' ∧
    ∃ y y', forward net ⟨[4, 2, 100], fun _ => 1⟩ = .ok y ∧ forward net' ⟨[4, 2, 100], fun _ => 1⟩ = .ok y' := by
  obtain ⟨net, h1, -, h3⟩ := resnet_correct (standard .bottleneck 3 1 64) (standard_ok _ _ _ _ rfl (fun h => by cases h) fun _ => by norm_num) 2 (by norm_num)
    [3, 4, 6] (by norm_num) 5 none (fun l h => by cases h) (initParams .bottleneck true f)
  obtain ⟨net', h1', -, h3'⟩ := resnet_correct (standard .bottleneck 7 2 32) (standard_ok _ _ _ _ rfl (fun h => by cases h) fun _ => by norm_num) 2 (by norm_num)
    [1, 2, 2] (by norm_num) 5 none (fun l h => by cases h) (initParams .bottleneck true f')
  obtain ⟨y, hy, -⟩ := h3 ⟨[4, 2, 100], fun _ => 1⟩ 4 [100] rfl rfl (by simp)
  obtain ⟨y', hy', -⟩ := h3' ⟨[4, 2, 100], fun _ => 1⟩ 4 [100] rfl rfl (by simp)
  exact ⟨net, net', h1, h1', y, y', hy, hy'⟩

/-- A norm layer that only applies its affine map. -/
def affineOnly : NormLayer := fun _ => .ok fun p x i => x.get i * p.weight (i.tail.headD 0) + p.bias (i.tail.headD 0)

example : Zeroing affineOnly := by
  intro c n hn x i
  obtain rfl := Except.ok.inj hn
  simp [Affine.zero]

/-- **C97 (the flag matters).**  Without `zero_init_residual` a fresh block need not be the identity: a basic block with unit weights doubles its input. -/
theorem no_flag_no_identity : ∃ (f : BlockParams) (m : Mod) (y : Tensor ℝ),
    mkBlock .basic 1 affineOnly 1 1 1 1 none 1 64 1 (initBlock .basic false f) = .ok m ∧ m ⟨[1, 1, 1], fun _ => 1⟩ = .ok y ∧ y.get [0, 0, 0] = 2 := by
  refine ⟨⟨fun _ _ _ => 1, fun _ _ _ => 1, fun _ _ _ => 1, .fresh, .fresh, .fresh, fun _ _ _ => 1, .fresh⟩, _, _, rfl, rfl, ?_⟩
  simp [initBlock, relu, Tensor.map, applyNorm, Conv.convAt, Conv.taps, Conv.tap, Tensor.allIdx, Affine.fresh, outLen]
  norm_num

end Verif.ResNet
