import Verif.Model.ResNet
import Verif.Lemmas.Fold
import Verif.Lemmas.Tensor
import Verif.Lemmas.Chunk
import Mathlib.Tactic.Linarith
import Mathlib.Tactic.NormNum
import Mathlib.Tactic.Ring
/-!
# Properties of the ResNet classes (C64)
-/
set_option linter.unusedSimpArgs false
set_option linter.unusedVariables false
namespace Verif.ResNet

/-- Size after a stride `s` that keeps the first and every `s`-th following position. -/
def down (s L : ℕ) : ℕ := (L - 1) / s + 1

theorem down_pos (s L : ℕ) : 1 ≤ down s L := Nat.succ_le_succ (Nat.zero_le _)

theorem down_one (L : ℕ) (h : 1 ≤ L) : down 1 L = L := by unfold down; rw [Nat.div_one]; omega

theorem map_down_one (S : List ℕ) (h : ∀ L ∈ S, 1 ≤ L) : S.map (down 1) = S := by
  conv_rhs => rw [← List.map_id S]
  exact List.map_congr_left fun L hL => down_one L (h L hL)

/-- Module `m` turns any batch of `c` channels with non-empty spatial dimensions into `c'` channels, the spatial dimensions being
divided by `s` (rounding up), and never fails on such an input. -/
def Maps (D : ℕ) (m : Mod) (c c' s : ℕ) : Prop :=
  ∀ (x : Tensor ℝ) (B : ℕ) (S : List ℕ), x.shape = B :: c :: S → S.length = D → (∀ L ∈ S, 1 ≤ L) →
    ∃ y, m x = .ok y ∧ y.shape = B :: c' :: S.map (down s)

theorem conv_same (D c c' p d s g : ℕ) (f : Conv.Weight) (hc : 0 < c) (hc' : 0 < c') (k : ℕ) (hk : k = 2 * p + 1) : Maps D (conv D c c' k s (d * (k / 2)) d g f) c c' s := by
  intro x B S hx hS hL
  have e : k / 2 = p := by omega
  have e1 : d * (k - 1) = 2 * (d * p) := by rw [hk]; simp; ring
  unfold conv
  rw [hx]
  simp only
  rw [if_neg]
  · refine ⟨_, rfl, ?_⟩
    simp only [List.cons.injEq, true_and]
    refine List.map_congr_left fun L hl => ?_
    unfold outLen down
    rw [e, e1]
    congr 2
    omega
  · push Not
    refine ⟨hS, rfl, by omega, by omega, ?_⟩
    intro L hl
    have := hL L hl
    rw [e, e1]
    omega

theorem conv1_maps (D c c' s : ℕ) (f : Conv.Weight) (hc : 0 < c) (hc' : 0 < c') : Maps D (conv1 D c c' s f) c c' s := by
  have := conv_same D c c' 0 1 s 1 f hc hc' 1 rfl
  simpa [conv1] using this

theorem convN_ok (D c c' k s g d : ℕ) (f : Conv.Weight) (hk : k % 2 = 1) (hg : 0 < g) (h1 : c % g = 0) (h2 : c' % g = 0) (hc : 0 < c) (hc' : 0 < c') :
    ∃ m, convN D c c' k s g d f = .ok m ∧ Maps D m c c' s := by
  refine ⟨_, ?_, conv_same D c c' (k / 2) d s g f hc hc' k (by omega)⟩
  unfold convN
  rw [if_neg (by omega)]
  unfold checkGroups
  rw [if_neg (by omega), if_neg (by simp [h1, h2])]
  rfl

/-- What the constructor must be given: an odd kernel, a norm layer for every number of channels, and for the basic block
`groups = 1`, `width_per_group = 64`. -/
structure Config.Ok (cfg : Config) : Prop where
  odd : cfg.kernel % 2 = 1
  norm : ∀ c, 0 < c → ∃ f, cfg.norm c = .ok f
  basic : cfg.kind = .basic → cfg.groups = 1 ∧ cfg.baseWidth = 64
  bottle : cfg.kind = .bottleneck → 0 < cfg.groups ∧ 0 < cfg.baseWidth

/-- The downsampling branch fits a block from `c` to `c'` channels with stride `s`. -/
def DownOk (D : ℕ) (o : Option Mod) (c c' s : ℕ) : Prop :=
  match o with
  | some m => Maps D m c c' s
  | none => s = 1 ∧ c = c'

theorem identity_ok (D : ℕ) (o : Option Mod) (c c' s : ℕ) (h : DownOk D o c c' s) (x : Tensor ℝ) (B : ℕ) (S : List ℕ)
    (hx : x.shape = B :: c :: S) (hS : S.length = D) (hL : ∀ L ∈ S, 1 ≤ L) : ∃ y, identityOf o x = .ok y ∧ y.shape = B :: c' :: S.map (down s) := by
  cases o with
  | some m => exact h x B S hx hS hL
  | none =>
    obtain ⟨rfl, rfl⟩ := h
    exact ⟨x, rfl, by rw [map_down_one S hL, hx]⟩

theorem block_ok (cfg : Config) (h : cfg.Ok) (c m s d : ℕ) (o : Option Mod) (f : BlockParams) (hc : 0 < c) (hm : 0 < m)
    (ho : DownOk cfg.D o c (64 * m * cfg.kind.expansion) s) (hd : cfg.kind = .basic → d ≤ 1) :
    ∃ b, mkBlock cfg.kind cfg.D cfg.norm c (64 * m) cfg.kernel s o cfg.groups cfg.baseWidth d f = .ok b ∧
      Maps cfg.D b c (64 * m * cfg.kind.expansion) s := by
  have hdown : ∀ S : List ℕ, (∀ L ∈ S.map (down s), 1 ≤ L) := by
    intro S L hL
    obtain ⟨L', -, rfl⟩ := List.mem_map.1 hL
    exact down_pos _ _
  obtain ⟨kind, D, norm, k, g, w⟩ := cfg
  cases kind with
  | basic =>
    obtain ⟨rfl, rfl⟩ := h.basic rfl
    have hd' := hd rfl
    simp only [Kind.expansion, mul_one] at ho ⊢
    obtain ⟨c1, e1, m1⟩ := convN_ok D c (64 * m) k s 1 1 f.c1 h.odd (by norm_num) (Nat.mod_one _) (Nat.mod_one _) hc (by omega)
    obtain ⟨c2, e2, m2⟩ := convN_ok D (64 * m) (64 * m) k 1 1 1 f.c2 h.odd (by norm_num) (Nat.mod_one _) (Nat.mod_one _) (by omega) (by omega)
    obtain ⟨n, hn⟩ := h.norm (64 * m) (by omega)
    simp only at hn
    refine ⟨basicForward c1 c2 (n f.n1) (n f.n2) o, ?_, ?_⟩
    · simp only [mkBlock, basicBlock]
      rw [if_neg (by simp), if_neg (by omega)]
      simp only [e1, e2, hn, res_bind_ok]
    · intro x B S hx hS hL
      obtain ⟨y1, r1, s1⟩ := m1 x B S hx hS hL
      obtain ⟨y2, r2, s2⟩ := m2 (relu (applyNorm (n f.n1) y1)) B (S.map (down s)) (by simp [relu, applyNorm, Tensor.map, s1]) (by simpa using hS) (hdown S)
      obtain ⟨y3, r3, s3⟩ := identity_ok D o c _ s ho x B S hx hS hL
      rw [map_down_one _ (hdown S)] at s2
      simp only [basicForward, r1, r2, r3, res_bind_ok, addTo]
      rw [if_pos (by simp [applyNorm, s2, s3])]
      exact ⟨_, rfl, by simp [relu, applyNorm, Tensor.map, s2]⟩
  | bottleneck =>
    obtain ⟨hg, hw⟩ := h.bottle rfl
    simp only at hg hw
    simp only [Kind.expansion] at ho ⊢
    have hwd : 64 * m * w / 64 = m * w := by rw [mul_assoc]; exact Nat.mul_div_cancel_left _ (by norm_num)
    have hpos : 0 < m * w * g := Nat.mul_pos (Nat.mul_pos hm hw) hg
    obtain ⟨c1, e1, m1⟩ := convN_ok D c (m * w * g) k 1 1 1 f.c1 h.odd (by norm_num) (Nat.mod_one _) (Nat.mod_one _) hc hpos
    obtain ⟨c2, e2, m2⟩ := convN_ok D (m * w * g) (m * w * g) k s g d f.c2 h.odd hg (Nat.mul_mod_left _ _) (Nat.mul_mod_left _ _) hpos hpos
    have m3 := conv1_maps D (m * w * g) (64 * m * 4) 1 f.c3 hpos (by omega)
    obtain ⟨n, hn⟩ := h.norm (m * w * g) hpos
    obtain ⟨n', hn'⟩ := h.norm (64 * m * 4) (by omega)
    simp only at hn hn'
    refine ⟨bottleForward c1 c2 (conv1 D (m * w * g) (64 * m * 4) 1 f.c3) (n f.n1) (n f.n2) (n' f.n3) o, ?_, ?_⟩
    · simp only [mkBlock, bottleneck, hwd, e1, e2, hn, hn', res_bind_ok]
    · intro x B S hx hS hL
      obtain ⟨y1, r1, s1⟩ := m1 x B S hx hS hL
      rw [map_down_one _ hL] at s1
      obtain ⟨y2, r2, s2⟩ := m2 (relu (applyNorm (n f.n1) y1)) B S (by simp [relu, applyNorm, Tensor.map, s1]) hS hL
      obtain ⟨y3, r3, s3⟩ := m3 (relu (applyNorm (n f.n2) y2)) B (S.map (down s)) (by simp [relu, applyNorm, Tensor.map, s2]) (by simpa using hS) (hdown S)
      obtain ⟨y4, r4, s4⟩ := identity_ok D o c _ s ho x B S hx hS hL
      rw [map_down_one _ (hdown S)] at s3
      simp only [bottleForward, r1, r2, r3, r4, res_bind_ok, addTo]
      rw [if_pos (by simp [applyNorm, s3, s4])]
      exact ⟨_, rfl, by simp [relu, applyNorm, Tensor.map, s3]⟩

theorem mkDown_ok (cfg : Config) (h : cfg.Ok) (c m s : ℕ) (f : BlockParams) (hc : 0 < c) (hm : 0 < m) :
    ∃ o, mkDown cfg c (64 * m) s f = .ok o ∧ DownOk cfg.D o c (64 * m * cfg.kind.expansion) s := by
  unfold mkDown
  have he : 0 < 64 * m * cfg.kind.expansion := by cases cfg.kind <;> simp [Kind.expansion] <;> omega
  by_cases hcnd : s ≠ 1 ∨ c ≠ 64 * m * cfg.kind.expansion
  · rw [if_pos hcnd]
    obtain ⟨n, hn⟩ := h.norm _ he
    rw [hn]
    refine ⟨_, rfl, ?_⟩
    intro x B S hx hS hL
    obtain ⟨y, r, e⟩ := conv1_maps cfg.D c _ s f.down hc he x B S hx hS hL
    exact ⟨applyNorm (n f.nd) y, by simp only [r, res_bind_ok], e⟩
  · rw [if_neg hcnd]
    push Not at hcnd
    exact ⟨none, rfl, hcnd.1, hcnd.2⟩

/-- A layer: the stride (1 when dilating) and what it does. -/
theorem makeLayer_ok (cfg : Config) (h : cfg.Ok) (b : Builder) (m n s : ℕ) (t : StrideType) (f : ℕ → BlockParams) (hb : 0 < b.inplanes) (hm : 0 < m)
    (ht : t ≠ .other) (hd : cfg.kind = .basic → b.dilation ≤ 1 ∧ t = .stride) :
    ∃ l b', makeLayer cfg b (64 * m) n s t f = .ok (l, b') ∧ b'.inplanes = 64 * m * cfg.kind.expansion ∧
      (cfg.kind = .basic → b'.dilation ≤ 1) ∧ l.length = max 1 n ∧
      Maps cfg.D (seq l) b.inplanes (64 * m * cfg.kind.expansion) (if t = .stride then s else 1) := by
  have he : 0 < 64 * m * cfg.kind.expansion := by cases cfg.kind <;> simp [Kind.expansion] <;> omega
  obtain ⟨s', d', hs', hss, hdd⟩ : ∃ s' d', strideOf t s b.dilation = .ok (s', d') ∧ s' = (if t = .stride then s else 1) ∧ (cfg.kind = .basic → d' ≤ 1) := by
    cases t with
    | stride => exact ⟨s, b.dilation, rfl, rfl, fun hk => (hd hk).1⟩
    | dilation => exact ⟨1, b.dilation * s, rfl, rfl, fun hk => absurd (hd hk).2 (by simp)⟩
    | other => exact absurd rfl ht
  obtain ⟨o, ho, hok⟩ := mkDown_ok cfg h b.inplanes m s' (f 0) hb hm
  obtain ⟨first, hf, mf⟩ := block_ok cfg h b.inplanes m s' b.dilation o (f 0) hb hm hok (fun hk => (hd hk).1)
  choose g hg mg using fun j => block_ok cfg h (64 * m * cfg.kind.expansion) m 1 d' none (f (j + 1)) he hm ⟨rfl, rfl⟩ hdd
  have hrest : ((List.range (n - 1)).mapM fun j =>
      mkBlock cfg.kind cfg.D cfg.norm (64 * m * cfg.kind.expansion) (64 * m) cfg.kernel 1 none cfg.groups cfg.baseWidth d' (f (j + 1))) =
      .ok ((List.range (n - 1)).map g) := mapM_ok _ _ _ (fun j _ => hg j)
  refine ⟨first :: (List.range (n - 1)).map g, ⟨64 * m * cfg.kind.expansion, d'⟩, ?_, rfl, hdd, ?_, ?_⟩
  · unfold makeLayer
    simp only [hs', res_bind_ok, ho, hf, hrest]
  · simp; omega
  · intro x B S hx hS hL
    obtain ⟨y, r, e⟩ := mf x B S hx hS hL
    unfold seq
    rw [List.foldlM_cons, r]
    simp only [res_bind_ok]
    obtain ⟨z, hz, hzs⟩ := foldlM_inv (fun (x : Tensor ℝ) (m : Mod) => m x) (fun _ (u : Tensor ℝ) => u.shape = B :: (64 * m * cfg.kind.expansion) :: S.map (down s'))
      ((List.range (n - 1)).map g) 0 y e (by
        intro i hi u hu
        rw [List.getElem_map]
        have hdn : ∀ L ∈ S.map (down s'), 1 ≤ L := by
          intro L hL
          obtain ⟨L', -, rfl⟩ := List.mem_map.1 hL
          exact down_pos _ _
        obtain ⟨v, hv, hvs⟩ := mg ((List.range (n - 1))[i]'(by simpa using hi)) u B (S.map (down s')) hu (by simpa using hS) hdn
        rw [map_down_one _ hdn] at hvs
        exact ⟨v, hv, hvs⟩)
    rw [← hss]
    exact ⟨z, hz, hzs⟩

theorem makeLayers_ok (cfg : Config) (h : cfg.Ok) (f : ℕ → ℕ → BlockParams) (l : List (ℕ × StrideType)) (i : ℕ) (b : Builder) (hi : 1 ≤ i)
    (hb : b.inplanes = 64 * 2 ^ (i - 1) * cfg.kind.expansion) (hdil : cfg.kind = .basic → b.dilation ≤ 1)
    (hl : ∀ p ∈ l, p.2 ≠ .other ∧ (cfg.kind = .basic → p.2 = .stride)) :
    ∃ ls, makeLayers cfg f i b l = .ok ls ∧ ls.map List.length = l.map (fun p => max 1 p.1) ∧
      ∀ (x : Tensor ℝ) (B : ℕ) (S : List ℕ), x.shape = B :: b.inplanes :: S → S.length = cfg.D → (∀ L ∈ S, 1 ≤ L) →
        ∃ y S', ls.foldlM (fun x l => seq l x) x = .ok y ∧ y.shape = B :: (64 * 2 ^ (i - 1 + l.length) * cfg.kind.expansion) :: S' ∧ S'.length = cfg.D := by
  induction l generalizing i b with
  | nil =>
    refine ⟨[], rfl, rfl, ?_⟩
    intro x B S hx hS hL
    exact ⟨x, S, rfl, by rw [hx, hb]; simp, hS⟩
  | cons p l ih =>
    obtain ⟨n, t⟩ := p
    have he : 0 < cfg.kind.expansion := by cases cfg.kind <;> simp [Kind.expansion]
    obtain ⟨l1, b1, r1, hin, hdl, hlen, hmaps⟩ := makeLayer_ok cfg h b (2 ^ i) n 2 t (f i) (by rw [hb]; positivity) (by positivity)
      (hl (n, t) (by simp)).1 (fun hk => ⟨hdil hk, (hl (n, t) (by simp)).2 hk⟩)
    obtain ⟨ls, r2, hls, hmap⟩ := ih (i + 1) b1 (by omega) (by rw [hin]; simp) hdl (fun p hp => hl p (by simp [hp]))
    refine ⟨l1 :: ls, ?_, by simp [hlen, hls], ?_⟩
    · simp only [makeLayers, r1, res_bind_ok, r2]
    · intro x B S hx hS hL
      obtain ⟨y, ry, sy⟩ := hmaps x B S hx hS hL
      have hdn : ∀ L ∈ S.map (down (if t = .stride then 2 else 1)), 1 ≤ L := by
        intro L hL
        obtain ⟨L', -, rfl⟩ := List.mem_map.1 hL
        exact down_pos _ _
      obtain ⟨z, S', rz, sz, hS'⟩ := hmap y B _ (by rw [sy, hin]) (by simpa using hS) hdn
      refine ⟨z, S', ?_, ?_, hS'⟩
      · rw [List.foldlM_cons, ry]
        simp only [res_bind_ok]
        exact rz
      · rw [sz]
        congr 3
        simp; omega

/-- **C64 (shape correctness).**  For the basic and the bottleneck network, in one or two dimensions, with an odd kernel, at least two
layers, any numbers of blocks, and `stride_type` absent or of length `len(layers) - 1` with known entries (only `"stride"` for
the basic block): the constructor succeeds, layer `i` has `max 1 layers[i]` blocks, and every input `(B, in_channels, …)`
whose spatial dimensions are not empty is mapped without error (in particular the two branches of every residual block have
equal shapes) to a tensor of shape `(B, classes)`. -/
theorem resnet_correct (cfg : Config) (h : cfg.Ok) (inC : ℕ) (hin : 0 < inC) (layers : List ℕ) (hl : 2 ≤ layers.length) (classes : ℕ)
    (st : Option (List StrideType)) (hst : ∀ l, st = some l → l.length + 1 = layers.length ∧ ∀ t ∈ l, t ≠ .other ∧ (cfg.kind = .basic → t = .stride))
    (f : NetParams) :
    ∃ net, init cfg inC layers classes st f = .ok net ∧ net.layers.map List.length = layers.map (max 1 ·) ∧
      ∀ (x : Tensor ℝ) (B : ℕ) (S : List ℕ), x.shape = B :: inC :: S → S.length = cfg.D → (∀ L ∈ S, 1 ≤ L) →
        ∃ y, forward net x = .ok y ∧ y.shape = [B, classes] := by
  have hstl : (strideTypes st layers).length + 1 = layers.length := by
    cases st with
    | none => simp [strideTypes]; omega
    | some l => exact (hst l rfl).1
  have hstt : ∀ t ∈ strideTypes st layers, t ≠ .other ∧ (cfg.kind = .basic → t = .stride) := by
    cases st with
    | none =>
      intro t ht
      simp [strideTypes] at ht
      simp [ht.2]
    | some l => exact (hst l rfl).2
  obtain ⟨n0, tl, rfl⟩ : ∃ a tl, layers = a :: tl := by
    cases layers with
    | nil => simp at hl
    | cons a tl => exact ⟨a, tl, rfl⟩
  obtain ⟨n, hn⟩ := h.norm 64 (by norm_num)
  have h64 : (64 : ℕ) * 1 = 64 := by norm_num
  obtain ⟨l0, b, r0, hbi, hbd, hlen0, hmaps0⟩ := makeLayer_ok cfg h ⟨64, 1⟩ 1 n0 1 .stride (f.blocks 0) (by norm_num) (by norm_num) (by simp) (fun _ => ⟨le_refl 1, rfl⟩)
  rw [h64] at r0
  obtain ⟨ls, rl, hls, hmapl⟩ := makeLayers_ok cfg h f.blocks (tl.zip (strideTypes st (n0 :: tl))) 1 b le_rfl (by rw [hbi]; simp) hbd
    (fun p hp => hstt p.2 (List.of_mem_zip hp).2)
  have hzip : (tl.zip (strideTypes st (n0 :: tl))).map (fun p => max 1 p.1) = tl.map (max 1 ·) := by
    have : (tl.zip (strideTypes st (n0 :: tl))).map Prod.fst = tl := List.map_fst_zip (by simp at hstl; omega)
    conv_rhs => rw [← this]
    rw [List.map_map]
    rfl
  have hziplen : (tl.zip (strideTypes st (n0 :: tl))).length = tl.length := by
    rw [List.length_zip]; simp at hstl; omega
  refine ⟨⟨cfg.D, conv cfg.D inC 64 7 2 3 1 1 f.stem, n f.n0, maxpool cfg.D, l0 :: ls, 64 * 2 ^ ((n0 :: tl).length - 1) * cfg.kind.expansion, classes, f.fcW, f.fcB⟩, ?_, ?_, ?_⟩
  · unfold init
    rw [if_neg (by omega)]
    simp only [hn, res_bind_ok, List.headD_cons, r0, List.tail_cons, rl]
    rw [if_neg (by omega)]
  · simp [hlen0, hls, hzip]
  · intro x B S hx hS hL
    have hstem := conv_same cfg.D inC 64 3 1 2 1 f.stem hin (by norm_num) 7 (by norm_num)
    simp only [Nat.reduceDiv, Nat.one_mul] at hstem
    obtain ⟨y1, e1, s1⟩ := hstem x B S hx hS hL
    have hd1 : ∀ L ∈ S.map (down 2), 1 ≤ L := by
      intro L hL
      obtain ⟨L', -, rfl⟩ := List.mem_map.1 hL
      exact down_pos _ _
    obtain ⟨y2, e2, s2⟩ : ∃ y, maxpool cfg.D (relu (applyNorm (n f.n0) y1)) = .ok y ∧ y.shape = B :: 64 :: (S.map (down 2)).map (down 2) := by
      unfold maxpool
      have : (relu (applyNorm (n f.n0) y1)).shape = B :: 64 :: S.map (down 2) := by simp [relu, applyNorm, Tensor.map, s1]
      rw [this]
      simp only
      rw [if_neg]
      · refine ⟨_, rfl, ?_⟩
        simp only [List.cons.injEq, true_and]
        refine List.map_congr_left fun L hl => ?_
        unfold outLen down
        congr 2
      · push Not
        refine ⟨by simpa using hS, by norm_num, ?_⟩
        intro L hl
        have := hd1 L hl
        omega
    have hd2 : ∀ L ∈ (S.map (down 2)).map (down 2), 1 ≤ L := by
      intro L hL
      obtain ⟨L', -, rfl⟩ := List.mem_map.1 hL
      exact down_pos _ _
    obtain ⟨y3, e3, s3⟩ := hmaps0 y2 B _ s2 (by simpa using hS) hd2
    rw [if_pos rfl, map_down_one _ hd2] at s3
    obtain ⟨y4, S', e4, s4, hS'⟩ := hmapl y3 B _ (by rw [s3, hbi]) (by simpa using hS) hd2
    simp only [forward, e1, e2, res_bind_ok, List.foldlM_cons, e3, e4, head, s4]
    rw [if_neg]
    · exact ⟨_, rfl, rfl⟩
    push Not
    refine ⟨hS', ?_⟩
    rw [hziplen]
    simp

/-- A config with a norm layer for every number of channels. -/
def demo (kind : Kind) (D k g w : ℕ) : Config := ⟨kind, D, fun _ => .ok fun _ x i => x.get i, k, g, w⟩

/-- Non-vacuity: a two-dimensional grouped bottleneck network with a dilated layer. -/
example (f : NetParams) : ∃ net, init (demo .bottleneck 2 5 2 32) 3 [3, 4, 6] 10 (some [.stride, .dilation]) f = .ok net ∧
    ∃ y, forward net ⟨[8, 3, 17, 100], fun _ => 1⟩ = .ok y ∧ y.shape = [8, 10] := by
  obtain ⟨net, h1, -, h3⟩ := resnet_correct (demo .bottleneck 2 5 2 32) ⟨rfl, fun c _ => ⟨_, rfl⟩, (fun h => by cases h), fun _ => ⟨by norm_num [demo], by norm_num [demo]⟩⟩ 3 (by norm_num)
    [3, 4, 6] (by norm_num) 10 (some [.stride, .dilation]) (by rintro l hl; obtain rfl := Option.some.inj hl; simp [demo]) f
  exact ⟨net, h1, h3 _ 8 [17, 100] rfl rfl (by simp)⟩

/-- Non-vacuity: a one-dimensional basic network. -/
example (f : NetParams) : ∃ net, init (demo .basic 1 3 1 64) 2 [2, 2] 1 none f = .ok net ∧
    ∃ y, forward net ⟨[4, 2, 2048], fun _ => 1⟩ = .ok y ∧ y.shape = [4, 1] := by
  obtain ⟨net, h1, -, h3⟩ := resnet_correct (demo .basic 1 3 1 64) ⟨rfl, fun c _ => ⟨_, rfl⟩, fun _ => ⟨rfl, rfl⟩, fun h => by cases h⟩ 2 (by norm_num)
    [2, 2] (by norm_num) 1 none (fun l h => by cases h) f
  exact ⟨net, h1, h3 _ 4 [2048] rfl rfl (by simp)⟩

/-- **C64 (even kernels).**  An even kernel size is a ValueError, for every architecture. -/
theorem resnet_even_kernel (cfg : Config) (hk : cfg.kernel % 2 = 0) (hn : ∀ c, ∃ f, cfg.norm c = .ok f) (inC : ℕ) (layers : List ℕ) (classes : ℕ)
    (st : Option (List StrideType)) (f : NetParams) : init cfg inC layers classes st f = .error .value := by
  unfold init
  by_cases h : ((strideTypes st layers).length : Int) ≠ (layers.length : Int) - 1
  · rw [if_pos h]
  · rw [if_neg h]
    obtain ⟨n, e⟩ := hn 64
    have hd : ∃ o, mkDown cfg 64 64 1 (f.blocks 0 0) = .ok o := by
      unfold mkDown
      split
      · obtain ⟨n', e'⟩ := hn (64 * cfg.kind.expansion)
        rw [e']
        exact ⟨_, rfl⟩
      · exact ⟨none, rfl⟩
    obtain ⟨o, ho⟩ := hd
    have hb : mkBlock cfg.kind cfg.D cfg.norm 64 64 cfg.kernel 1 o cfg.groups cfg.baseWidth 1 (f.blocks 0 0) = .error .value := by
      cases hkind : cfg.kind with
      | basic =>
        simp only [mkBlock, basicBlock]
        by_cases hg : cfg.groups ≠ 1 ∨ cfg.baseWidth ≠ 64
        · rw [if_pos hg]
        · rw [if_neg hg, if_neg (by norm_num)]
          simp only [convN]
          rw [if_pos hk]
          rfl
      | bottleneck =>
        simp only [mkBlock, bottleneck, convN]
        rw [if_pos hk]
        rfl
    simp only [e, res_bind_ok, makeLayer, strideOf, ho, hb]
    rfl

example (f : NetParams) : init (demo .basic 1 4 1 64) 2 [2, 2] 1 none f = .error .value :=
  resnet_even_kernel _ rfl (fun c => ⟨_, rfl⟩) _ _ _ _ f

/-- **C64 (argument checks).**  A `stride_type` of the wrong length is a ValueError; so are `groups ≠ 1` or
`width_per_group ≠ 64` for the basic block. -/
theorem resnet_rejects (cfg : Config) (inC : ℕ) (layers : List ℕ) (classes : ℕ) (f : NetParams) :
    (∀ l, l.length + 1 ≠ layers.length → init cfg inC layers classes (some l) f = .error .value) ∧
    (layers = [] → init cfg inC layers classes none f = .error .value) ∧
    (cfg.kind = .basic → (cfg.groups ≠ 1 ∨ cfg.baseWidth ≠ 64) → (∀ c, ∃ f, cfg.norm c = .ok f) → ∀ st, init cfg inC layers classes st f = .error .value) := by
  refine ⟨?_, ?_, ?_⟩
  · intro l hl
    unfold init
    rw [if_pos]
    simp only [strideTypes, Option.getD_some]
    omega
  · rintro rfl
    unfold init
    rw [if_pos]
    simp [strideTypes]
  · intro hk hg hn st
    unfold init
    by_cases h : ((strideTypes st layers).length : Int) ≠ (layers.length : Int) - 1
    · rw [if_pos h]
    · rw [if_neg h]
      obtain ⟨n, e⟩ := hn 64
      have hd : mkDown cfg 64 64 1 (f.blocks 0 0) = .ok none := by
        unfold mkDown
        rw [if_neg (by simp [hk, Kind.expansion])]
      have hb : mkBlock cfg.kind cfg.D cfg.norm 64 64 cfg.kernel 1 none cfg.groups cfg.baseWidth 1 (f.blocks 0 0) = .error .value := by
        rw [hk]
        simp only [mkBlock, basicBlock]
        rw [if_pos hg]
      simp only [e, res_bind_ok, makeLayer, strideOf, hd, hb]
      rfl

example (f : NetParams) : init (demo .basic 1 3 2 64) 2 [2, 2] 1 none f = .error .value :=
  (resnet_rejects _ _ _ _ f).2.2 rfl (Or.inl (by norm_num [demo])) (fun c => ⟨_, rfl⟩) none

theorem makeLayers_other (cfg : Config) (h : cfg.Ok) (f : ℕ → ℕ → BlockParams) (l : List (ℕ × StrideType)) (i : ℕ) (b : Builder) (hb : 0 < b.inplanes)
    (hbd : cfg.kind = .basic → b.dilation ≤ 1) (hother : ∃ p ∈ l, p.2 = .other) (hk : cfg.kind = .basic → ∀ p ∈ l, p.2 ≠ .dilation) :
    makeLayers cfg f i b l = .error .value := by
  induction l generalizing i b with
  | nil => simp at hother
  | cons p l ih =>
    obtain ⟨n, t⟩ := p
    unfold makeLayers
    by_cases ht : t = .other
    · subst ht
      rfl
    · obtain ⟨ly, b', r, e1, e2, -, -⟩ := makeLayer_ok cfg h b (2 ^ i) n 2 t (f i) hb (by positivity) ht (fun hkk => ⟨hbd hkk, by
        have := hk hkk (n, t) (by simp)
        cases t <;> simp_all⟩)
      rw [r]
      simp only [res_bind_ok]
      have hpos : 0 < b'.inplanes := by
        rw [e1]
        cases cfg.kind <;> simp [Kind.expansion]
      rw [ih (i + 1) b' hpos e2 (by
        obtain ⟨q, hq, hqo⟩ := hother
        rcases List.mem_cons.1 hq with rfl | hq
        · exact absurd hqo ht
        · exact ⟨q, hq, hqo⟩) (fun hkk q hq => hk hkk q (by simp [hq]))]
      rfl

/-- **C64 (stride types).**  A `stride_type` other than `"stride"` or `"dilation"`, at any position, is a ValueError. -/
theorem resnet_stride_type_reject (cfg : Config) (h : cfg.Ok) (inC n0 : ℕ) (layers : List ℕ) (classes : ℕ) (st : List StrideType) (f : NetParams) (hl : st.length = layers.length)
    (hother : StrideType.other ∈ st) (hk : cfg.kind = .basic → StrideType.dilation ∉ st) :
    init cfg inC (n0 :: layers) classes (some st) f = .error .value := by
  obtain ⟨nm, hn⟩ := h.norm 64 (by norm_num)
  obtain ⟨l0, b, r0, hbi, hbd, -, -⟩ := makeLayer_ok cfg h ⟨64, 1⟩ 1 n0 1 .stride (f.blocks 0) (by norm_num) (by norm_num) (by simp) (fun _ => ⟨le_refl 1, rfl⟩)
  rw [show (64 : ℕ) * 1 = 64 by norm_num] at r0
  unfold init
  rw [if_neg (by simp [strideTypes, hl])]
  simp only [hn, res_bind_ok, List.headD_cons, r0, List.tail_cons, strideTypes, Option.getD_some]
  rw [makeLayers_other cfg h f.blocks (layers.zip st) 1 b (by rw [hbi]; cases cfg.kind <;> simp [Kind.expansion]) hbd]
  · rfl
  · obtain ⟨k, hk', e⟩ := List.mem_iff_getElem.1 hother
    refine ⟨(layers[k]'(by omega), st[k]), ?_, e⟩
    have hz : k < (layers.zip st).length := by simp; omega
    have := List.getElem_mem hz
    rwa [List.getElem_zip] at this
  · intro hkk p hp hpd
    have := (List.of_mem_zip hp).2
    rw [hpd] at this
    exact hk hkk this

example (f : NetParams) : init (demo .basic 1 3 1 64) 2 [2, 2, 2] 1 (some [.stride, .other]) f = .error .value :=
  resnet_stride_type_reject _ ⟨rfl, fun c _ => ⟨_, rfl⟩, fun _ => ⟨rfl, rfl⟩, fun h => by cases h⟩ _ _ _ _ _ f rfl (by simp) (by simp)

/-- **C64 (finding: single layer).**  With a single layer, which passes the length check of `stride_type`, the constructor raises
UnboundLocalError (`block_size` is only bound in the loop over the other layers). -/
theorem resnet_one_layer_fails (cfg : Config) (h : cfg.Ok) (inC n classes : ℕ) (f : NetParams) : init cfg inC [n] classes none f = .error .unboundLocal := by
  obtain ⟨nm, hn⟩ := h.norm 64 (by norm_num)
  have h64 : (64 : ℕ) * 1 = 64 := by norm_num
  obtain ⟨l0, b, r0, hbi, hbd, hlen0, hmaps0⟩ := makeLayer_ok cfg h ⟨64, 1⟩ 1 n 1 .stride (f.blocks 0) (by norm_num) (by norm_num) (by simp) (fun _ => ⟨le_refl 1, rfl⟩)
  rw [h64] at r0
  unfold init
  rw [if_neg (by simp [strideTypes])]
  simp only [hn, res_bind_ok, List.headD_cons, r0, List.tail_cons, List.zip_nil_left, makeLayers]
  rw [if_pos (show [n].length = 1 from rfl)]

example (f : NetParams) : init (demo .basic 1 3 1 64) 2 [4] 1 none f = .error .unboundLocal :=
  resnet_one_layer_fails _ ⟨rfl, fun c _ => ⟨_, rfl⟩, fun _ => ⟨rfl, rfl⟩, fun h => by cases h⟩ _ _ _ f

theorem makeLayer_dilated (cfg : Config) (h : cfg.Ok) (hb : cfg.kind = .basic) (b : Builder) (m n s : ℕ) (t : StrideType) (f : ℕ → BlockParams) (hin : 0 < b.inplanes)
    (hm : 0 < m) (ht : t ≠ .other) (hd : 1 < b.dilation) : makeLayer cfg b (64 * m) n s t f = .error .notImplemented := by
  obtain ⟨hg, hw⟩ := h.basic hb
  obtain ⟨r, hr⟩ : ∃ r, strideOf t s b.dilation = .ok r := by
    cases t with
    | stride => exact ⟨_, rfl⟩
    | dilation => exact ⟨_, rfl⟩
    | other => exact absurd rfl ht
  obtain ⟨s', d'⟩ := r
  obtain ⟨o, ho, -⟩ := mkDown_ok cfg h b.inplanes m s' (f 0) hin hm
  unfold makeLayer
  simp only [hr, res_bind_ok, ho, hb, mkBlock, basicBlock]
  rw [if_neg (by simp [hg, hw]), if_pos hd]
  rfl

theorem makeLayers_dilation (cfg : Config) (h : cfg.Ok) (hb : cfg.kind = .basic) (f : ℕ → ℕ → BlockParams) (pre post : List (ℕ × StrideType)) (n : ℕ)
    (hpre : ∀ p ∈ pre, p.2 = .stride) (hpost : ∀ p ∈ post, p.2 ≠ .other) (hn : 2 ≤ n ∨ post ≠ []) (i : ℕ) (b : Builder) (hin : 0 < b.inplanes) (hd : b.dilation = 1) :
    makeLayers cfg f i b (pre ++ (n, .dilation) :: post) = .error .notImplemented := by
  induction pre generalizing i b with
  | cons p pre ih =>
    obtain ⟨k, t⟩ := p
    obtain rfl : t = .stride := hpre (k, t) (by simp)
    obtain ⟨l1, b1, r1, e1, -, -, -⟩ := makeLayer_ok cfg h b (2 ^ i) k 2 .stride (f i) hin (by positivity) (by simp) (fun _ => ⟨by omega, rfl⟩)
    have hb1 : b1.dilation = 1 := by
      unfold makeLayer at r1
      simp only [strideOf, res_bind_ok] at r1
      obtain ⟨o, ho, -⟩ := mkDown_ok cfg h b.inplanes (2 ^ i) 2 (f i 0) hin (by positivity)
      rw [ho] at r1
      simp only [res_bind_ok] at r1
      cases hA : mkBlock cfg.kind cfg.D cfg.norm b.inplanes (64 * 2 ^ i) cfg.kernel 2 o cfg.groups cfg.baseWidth b.dilation (f i 0) with
      | error e => rw [hA] at r1; simp at r1
      | ok A =>
        rw [hA] at r1
        simp only [res_bind_ok] at r1
        cases hR : ((List.range (k - 1)).mapM fun j => mkBlock cfg.kind cfg.D cfg.norm (64 * 2 ^ i * cfg.kind.expansion) (64 * 2 ^ i) cfg.kernel 1 none cfg.groups
            cfg.baseWidth b.dilation (f i (j + 1))) with
        | error e => rw [hR] at r1; simp at r1
        | ok R =>
          rw [hR] at r1
          simp only [res_bind_ok] at r1
          have := Except.ok.inj r1
          simp only [Prod.mk.injEq] at this
          rw [← this.2]
          exact hd
    rw [List.cons_append, makeLayers, r1]
    simp only [res_bind_ok]
    rw [ih (fun p hp => hpre p (by simp [hp])) (i + 1) b1 (by rw [e1]; cases cfg.kind <;> simp [Kind.expansion]) hb1]
    rfl
  | nil =>
    obtain ⟨hg, hw⟩ := h.basic hb
    rw [List.nil_append, makeLayers]
    obtain ⟨o, ho, hok⟩ := mkDown_ok cfg h b.inplanes (2 ^ i) 1 (f i 0) hin (by positivity)
    obtain ⟨A, hA, -⟩ := block_ok cfg h b.inplanes (2 ^ i) 1 b.dilation o (f i 0) hin (by positivity) hok (fun _ => by omega)
    have hrej : ∀ j, mkBlock cfg.kind cfg.D cfg.norm (64 * 2 ^ i * cfg.kind.expansion) (64 * 2 ^ i) cfg.kernel 1 none cfg.groups cfg.baseWidth (b.dilation * 2) (f i (j + 1)) =
        .error .notImplemented := by
      intro j
      rw [hb]
      simp only [mkBlock, basicBlock]
      rw [if_neg (by simp [hg, hw]), if_pos (by omega)]
    by_cases h2 : 2 ≤ n
    · have : makeLayer cfg b (64 * 2 ^ i) n 2 .dilation (f i) = .error .notImplemented := by
        unfold makeLayer
        simp only [strideOf, res_bind_ok, ho, hA]
        obtain ⟨k, rfl⟩ : ∃ k, n = k + 2 := ⟨n - 2, by omega⟩
        rw [show k + 2 - 1 = k + 1 by omega, List.range_succ_eq_map, List.mapM_cons, hrej 0]
        rfl
      rw [this]
      rfl
    · have hpne := hn.resolve_left h2
      have hone : makeLayer cfg b (64 * 2 ^ i) n 2 .dilation (f i) = .ok ([A], ⟨64 * 2 ^ i * cfg.kind.expansion, b.dilation * 2⟩) := by
        unfold makeLayer
        simp only [strideOf, res_bind_ok, ho, hA]
        rw [show n - 1 = 0 by omega]
        rfl
      rw [hone]
      simp only [res_bind_ok]
      cases post with
      | nil => exact absurd rfl hpne
      | cons q post =>
        obtain ⟨k, t⟩ := q
        rw [makeLayers, makeLayer_dilated cfg h hb ⟨64 * 2 ^ i * cfg.kind.expansion, b.dilation * 2⟩ (2 ^ (i + 1)) k 2 t (f (i + 1))
          (by cases cfg.kind <;> simp [Kind.expansion]) (by positivity) (hpost (k, t) (by simp)) (by show 1 < b.dilation * 2; omega)]
        rfl

/-- **C64 (dilation in the basic network).**  A basic network with a `"dilation"` entry is a NotImplementedError if the layer has two or more blocks or is not the
last one. -/
theorem resnet_basic_dilation (cfg : Config) (h : cfg.Ok) (hb : cfg.kind = .basic) (inC n0 : ℕ) (pre post : List (ℕ × StrideType)) (n classes : ℕ) (f : NetParams)
    (hpre : ∀ p ∈ pre, p.2 = .stride) (hpost : ∀ p ∈ post, p.2 ≠ .other) (hn : 2 ≤ n ∨ post ≠ []) :
    init cfg inC (n0 :: (pre ++ (n, StrideType.dilation) :: post).map Prod.fst) classes (some ((pre ++ (n, StrideType.dilation) :: post).map Prod.snd)) f = .error .notImplemented := by
  obtain ⟨nm, hnm⟩ := h.norm 64 (by norm_num)
  obtain ⟨l0, b, r0, hbi, hbd, -, -⟩ := makeLayer_ok cfg h ⟨64, 1⟩ 1 n0 1 .stride (f.blocks 0) (by norm_num) (by norm_num) (by simp) (fun _ => ⟨le_refl 1, rfl⟩)
  have hb1 : b.dilation = 1 := by
    unfold makeLayer at r0
    simp only [strideOf, res_bind_ok] at r0
    obtain ⟨o, ho, hok⟩ := mkDown_ok cfg h 64 1 1 (f.blocks 0 0) (by norm_num) (by norm_num)
    obtain ⟨A, hA, -⟩ := block_ok cfg h 64 1 1 1 o (f.blocks 0 0) (by norm_num) (by norm_num) hok (fun _ => le_rfl)
    rw [ho] at r0
    simp only [res_bind_ok, hA] at r0
    cases hR : ((List.range (n0 - 1)).mapM fun j => mkBlock cfg.kind cfg.D cfg.norm (64 * 1 * cfg.kind.expansion) (64 * 1) cfg.kernel 1 none cfg.groups
        cfg.baseWidth 1 (f.blocks 0 (j + 1))) with
    | error e => rw [hR] at r0; simp at r0
    | ok R =>
      rw [hR] at r0
      simp only [res_bind_ok] at r0
      have := Except.ok.inj r0
      simp only [Prod.mk.injEq] at this
      rw [← this.2]
  rw [show (64 : ℕ) * 1 = 64 by norm_num] at r0
  generalize hL : pre ++ (n, StrideType.dilation) :: post = L at *
  unfold init
  rw [if_neg (by simp [strideTypes])]
  simp only [hnm, res_bind_ok, List.headD_cons, r0, List.tail_cons, strideTypes, Option.getD_some]
  have hz : (L.map Prod.fst).zip (L.map Prod.snd) = L := by
    rw [List.zip_map']
    simp
  rw [hz, ← hL, makeLayers_dilation cfg h hb f.blocks pre post n hpre hpost hn 1 b (by rw [hbi]; cases cfg.kind <;> simp [Kind.expansion]) hb1]
  rfl

example (f : NetParams) : init (demo .basic 1 3 1 64) 2 [2, 2, 2, 2] 1 (some [.stride, .dilation, .stride]) f = .error .notImplemented :=
  resnet_basic_dilation (demo .basic 1 3 1 64) ⟨rfl, fun c _ => ⟨_, rfl⟩, fun _ => ⟨rfl, rfl⟩, fun h => by cases h⟩ rfl 2 2 [(2, .stride)] [(2, .stride)] 2 1 f
    (by simp) (by simp) (Or.inl le_rfl)

end Verif.ResNet
