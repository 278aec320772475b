import Verif.Props.ResNetInit
import Verif.Props.GroupNorm
import Verif.Props.Batch
/-!
# The residual networks treat the elements of a batch independently (C98)
-/
set_option linter.unusedSimpArgs false
set_option linter.unusedVariables false
namespace Verif.ResNet
open Spec.Batch

/-- Element `b` of batch `x` is element `b'` of batch `x'` (and has no empty dimension). -/
def RowEq (b b' : ℕ) (x x' : Tensor ℝ) : Prop := ∃ B B' rest, x.shape = B :: rest ∧ x'.shape = B' :: rest ∧ b < B ∧ b' < B' ∧ (∀ L ∈ rest, 1 ≤ L) ∧
  ∀ i, InB i rest → x.get (b :: i) = x'.get (b' :: i)

/-- A module whose result for a batch element depends on that element only. -/
def Local (m : Mod) : Prop := ∀ x x' b b' y y', RowEq b b' x x' → m x = .ok y → m x' = .ok y' → RowEq b b' y y'

/-- A norm layer that treats batch elements independently, on inputs with `D` spatial dimensions. -/
def BatchFree (D : ℕ) (norm : NormLayer) : Prop := ∀ c n, 0 < c → norm c = .ok n → ∀ p x x' b b' B S, x.shape = B :: c :: S → S.length = D → RowEq b b' x x' →
  RowEq b b' (applyNorm (n p) x) (applyNorm (n p) x')

theorem taps_inB (s p d : ℕ) (S t u j : List ℕ) (h : Conv.taps s p d S t u = some j) : InB j S := by
  induction S generalizing t u j with
  | nil => simp [Conv.taps] at h; subst h; trivial
  | cons L S ih =>
    unfold Conv.taps at h
    split at h
    · rename_i j0 js h1 h2
      obtain rfl := Option.some.inj h
      refine ⟨?_, ih _ _ _ h2⟩
      unfold Conv.tap at h1
      split_ifs at h1 with hc
      have := Option.some.inj h1
      omega
    · simp at h

theorem outLen_pos (k s p d L : ℕ) : 1 ≤ outLen k s p d L := Nat.succ_le_succ (Nat.zero_le _)

/-- The input channel read by output channel `o`. -/
theorem channel_lt (inC outC g o c : ℕ) (hg : 0 < g) (h1 : inC % g = 0) (h2 : outC % g = 0) (ho : o < outC) (hc : c < inC / g) :
    o / (outC / g) * (inC / g) + c < inC := by
  have e1 : inC = g * (inC / g) := by have := Nat.div_add_mod inC g; omega
  have e2 : outC = g * (outC / g) := by have := Nat.div_add_mod outC g; omega
  have hq : o / (outC / g) < g := by
    refine Nat.div_lt_of_lt_mul ?_
    rw [Nat.mul_comm]; omega
  have := idx_lt hq hc
  omega

theorem conv_local (D inC outC k s p d g : ℕ) (w : Conv.Weight) (hg : 0 < g) (h1 : inC % g = 0) (h2 : outC % g = 0) : Local (conv D inC outC k s p d g w) := by
  rintro x x' b b' y y' ⟨B, B', rest, hx, hx', hb, hb', hpos, heq⟩ hy hy'
  unfold conv at hy hy'
  rw [hx] at hy
  rw [hx'] at hy'
  cases rest with
  | nil => simp at hy
  | cons C S =>
    simp only at hy hy'
    split_ifs at hy hy' with hcond
    obtain rfl := Except.ok.inj hy
    obtain rfl := Except.ok.inj hy'
    push Not at hcond
    obtain ⟨-, rfl, -, ho, -⟩ := hcond
    refine ⟨B, B', outC :: S.map (outLen k s p d), rfl, rfl, hb, hb', ?_, ?_⟩
    · intro L hL
      rcases List.mem_cons.1 hL with rfl | hL
      · omega
      · obtain ⟨L', -, rfl⟩ := List.mem_map.1 hL
        exact outLen_pos _ _ _ _ _
    · intro i hi
      cases i with
      | nil => exact absurd hi (by simp [InB])
      | cons o t =>
        simp only [List.headD_cons, List.tail_cons, Conv.convAt]
        refine Finset.sum_congr rfl fun c hc => ?_
        congr 1
        refine List.map_congr_left fun u hu => ?_
        congr 1
        cases ht : Conv.taps s p d S t u with
        | none => rfl
        | some j =>
          simp only [ht]
          exact heq _ ⟨channel_lt C outC g o c hg h1 h2 hi.1 (Finset.mem_range.1 hc), taps_inB _ _ _ _ _ _ _ ht⟩

theorem maxpool_local (D : ℕ) : Local (maxpool D) := by
  rintro x x' b b' y y' ⟨B, B', rest, hx, hx', hb, hb', hpos, heq⟩ hy hy'
  unfold maxpool at hy hy'
  rw [hx] at hy
  rw [hx'] at hy'
  cases rest with
  | nil => simp at hy
  | cons C S =>
    simp only at hy hy'
    split_ifs at hy hy' with hcond
    obtain rfl := Except.ok.inj hy
    obtain rfl := Except.ok.inj hy'
    push Not at hcond
    refine ⟨B, B', C :: S.map (outLen 3 2 1 1), rfl, rfl, hb, hb', ?_, ?_⟩
    · intro L hL
      rcases List.mem_cons.1 hL with rfl | hL
      · omega
      · obtain ⟨L', -, rfl⟩ := List.mem_map.1 hL
        exact outLen_pos _ _ _ _ _
    · intro i hi
      cases i with
      | nil => exact absurd hi (by simp [InB])
      | cons c t =>
        simp only [List.headD_cons, List.tail_cons, Conv.maxAt]
        congr 2
        refine List.filterMap_congr fun u hu => ?_
        cases ht : Conv.taps 2 1 1 S t u with
        | none => rfl
        | some j =>
          simp only [Option.map_some]
          rw [heq (c :: j) ⟨hi.1, taps_inB _ _ _ _ _ _ _ ht⟩]

theorem relu_local {b b' : ℕ} {x x' : Tensor ℝ} (h : RowEq b b' x x') : RowEq b b' (relu x) (relu x') := by
  obtain ⟨B, B', rest, hx, hx', hb, hb', hpos, heq⟩ := h
  refine ⟨B, B', rest, hx, hx', hb, hb', hpos, fun i hi => ?_⟩
  show max (x.get (b :: i)) 0 = max (x'.get (b' :: i)) 0
  rw [heq i hi]

theorem addTo_local {b b' : ℕ} {x x' z z' y y' : Tensor ℝ} (h : RowEq b b' x x') (hz : RowEq b b' z z') (hy : addTo x z = .ok y) (hy' : addTo x' z' = .ok y') :
    RowEq b b' y y' := by
  obtain ⟨B, B', rest, hx, hx', hb, hb', hpos, heq⟩ := h
  obtain ⟨A, A', rest2, gx, gx', -, -, -, geq⟩ := hz
  unfold addTo at hy hy'
  split_ifs at hy hy' with h1 h2
  obtain rfl := Except.ok.inj hy
  obtain rfl := Except.ok.inj hy'
  rw [hx, gx] at h1
  simp only [List.cons.injEq] at h1
  obtain ⟨-, rfl⟩ := h1
  refine ⟨B, B', rest, hx, hx', hb, hb', hpos, fun i hi => ?_⟩
  show x.get (b :: i) + z.get (b :: i) = x'.get (b' :: i) + z'.get (b' :: i)
  rw [heq i hi, geq i hi]

/-- The output of a convolution has the channels of the norm layer behind it. -/
theorem conv_shape (D inC outC k s p d g : ℕ) (w : Conv.Weight) (x y : Tensor ℝ) (h : conv D inC outC k s p d g w x = .ok y) :
    0 < outC ∧ ∃ B S, y.shape = B :: outC :: S ∧ S.length = D := by
  unfold conv at h
  split at h
  · split_ifs at h with hc
    obtain rfl := Except.ok.inj h
    push Not at hc
    exact ⟨by omega, _, _, rfl, by simpa using hc.1⟩
  · simp at h

theorem convN_inv (D inC outC k s g d : ℕ) (w : Conv.Weight) (m : Mod) (h : convN D inC outC k s g d w = .ok m) :
    Local m ∧ ∀ x y, m x = .ok y → 0 < outC ∧ ∃ B S, y.shape = B :: outC :: S ∧ S.length = D := by
  unfold convN at h
  split_ifs at h
  obtain ⟨u, hu, h⟩ := bind_inv h
  obtain rfl := Except.ok.inj h
  unfold checkGroups at hu
  split_ifs at hu with h0 hg
  push Not at hg
  exact ⟨conv_local _ _ _ _ _ _ _ _ _ (by omega) hg.1 hg.2, fun x y hy => conv_shape _ _ _ _ _ _ _ _ _ x y hy⟩

theorem conv1_inv (D inC outC s : ℕ) (w : Conv.Weight) :
    Local (conv1 D inC outC s w) ∧ ∀ x y, conv1 D inC outC s w x = .ok y → 0 < outC ∧ ∃ B S, y.shape = B :: outC :: S ∧ S.length = D :=
  ⟨conv_local _ _ _ _ _ _ _ _ _ (by norm_num) (Nat.mod_one _) (Nat.mod_one _), fun x y hy => conv_shape _ _ _ _ _ _ _ _ _ x y hy⟩

/-- A convolution followed by its norm layer. -/
theorem conv_norm_local (D outC : ℕ) (norm : NormLayer) (hn : BatchFree D norm) (n : Affine → Fn) (e : norm outC = .ok n) (p : Affine) (m : Mod)
    (hm : Local m ∧ ∀ x y, m x = .ok y → 0 < outC ∧ ∃ B S, y.shape = B :: outC :: S ∧ S.length = D) (x x' y y' : Tensor ℝ) (b b' : ℕ) (h : RowEq b b' x x')
    (hy : m x = .ok y) (hy' : m x' = .ok y') : RowEq b b' (applyNorm (n p) y) (applyNorm (n p) y') := by
  obtain ⟨hp, B, S, hs, hD⟩ := hm.2 x y hy
  exact hn outC n hp e p y y' b b' B S hs hD (hm.1 x x' b b' y y' h hy hy')

theorem identity_local (o : Option Mod) (ho : ∀ m, o = some m → Local m) (x x' y y' : Tensor ℝ) (b b' : ℕ) (h : RowEq b b' x x')
    (hy : identityOf o x = .ok y) (hy' : identityOf o x' = .ok y') : RowEq b b' y y' := by
  cases o with
  | none =>
    obtain rfl := Except.ok.inj hy
    obtain rfl := Except.ok.inj hy'
    exact h
  | some m => exact ho m rfl x x' b b' y y' h hy hy'

theorem block_local (kind : Kind) (D : ℕ) (norm : NormLayer) (hn : BatchFree D norm) (inplanes planes k stride : ℕ) (o : Option Mod) (ho : ∀ m, o = some m → Local m)
    (groups baseWidth dilation : ℕ) (f : BlockParams) (m : Mod) (hm : mkBlock kind D norm inplanes planes k stride o groups baseWidth dilation f = .ok m) : Local m := by
  intro x x' b b' y y' h hy hy'
  cases kind with
  | basic =>
    simp only [mkBlock, basicBlock] at hm
    split_ifs at hm
    obtain ⟨c1, e1, hm⟩ := bind_inv hm
    obtain ⟨n1, d1, hm⟩ := bind_inv hm
    obtain ⟨c2, e2, hm⟩ := bind_inv hm
    obtain ⟨n2, d2, hm⟩ := bind_inv hm
    obtain rfl := Except.ok.inj hm
    unfold basicForward at hy hy'
    obtain ⟨u1, a1, hy⟩ := bind_inv hy
    obtain ⟨u1', a1', hy'⟩ := bind_inv hy'
    obtain ⟨u2, a2, hy⟩ := bind_inv hy
    obtain ⟨u2', a2', hy'⟩ := bind_inv hy'
    obtain ⟨z, az, hy⟩ := bind_inv hy
    obtain ⟨z', az', hy'⟩ := bind_inv hy'
    obtain ⟨v, av, hy⟩ := bind_inv hy
    obtain ⟨v', av', hy'⟩ := bind_inv hy'
    obtain rfl := Except.ok.inj hy
    obtain rfl := Except.ok.inj hy'
    have r1 := conv_norm_local D _ norm hn n1 d1 f.n1 c1 (convN_inv _ _ _ _ _ _ _ _ _ e1) x x' u1 u1' b b' h a1 a1'
    have r2 := conv_norm_local D _ norm hn n2 d2 f.n2 c2 (convN_inv _ _ _ _ _ _ _ _ _ e2) _ _ u2 u2' b b' (relu_local r1) a2 a2'
    exact relu_local (addTo_local r2 (identity_local o ho x x' z z' b b' h az az') av av')
  | bottleneck =>
    simp only [mkBlock, bottleneck] at hm
    obtain ⟨c1, e1, hm⟩ := bind_inv hm
    obtain ⟨n1, d1, hm⟩ := bind_inv hm
    obtain ⟨c2, e2, hm⟩ := bind_inv hm
    obtain ⟨n2, d2, hm⟩ := bind_inv hm
    obtain ⟨n3, d3, hm⟩ := bind_inv hm
    obtain rfl := Except.ok.inj hm
    unfold bottleForward at hy hy'
    obtain ⟨u1, a1, hy⟩ := bind_inv hy
    obtain ⟨u1', a1', hy'⟩ := bind_inv hy'
    obtain ⟨u2, a2, hy⟩ := bind_inv hy
    obtain ⟨u2', a2', hy'⟩ := bind_inv hy'
    obtain ⟨u3, a3, hy⟩ := bind_inv hy
    obtain ⟨u3', a3', hy'⟩ := bind_inv hy'
    obtain ⟨z, az, hy⟩ := bind_inv hy
    obtain ⟨z', az', hy'⟩ := bind_inv hy'
    obtain ⟨v, av, hy⟩ := bind_inv hy
    obtain ⟨v', av', hy'⟩ := bind_inv hy'
    obtain rfl := Except.ok.inj hy
    obtain rfl := Except.ok.inj hy'
    have r1 := conv_norm_local D _ norm hn n1 d1 f.n1 c1 (convN_inv _ _ _ _ _ _ _ _ _ e1) x x' u1 u1' b b' h a1 a1'
    have r2 := conv_norm_local D _ norm hn n2 d2 f.n2 c2 (convN_inv _ _ _ _ _ _ _ _ _ e2) _ _ u2 u2' b b' (relu_local r1) a2 a2'
    have r3 := conv_norm_local D _ norm hn n3 d3 f.n3 _ (conv1_inv _ _ _ _ _) _ _ u3 u3' b b' (relu_local r2) a3 a3'
    exact relu_local (addTo_local r3 (identity_local o ho x x' z z' b b' h az az') av av')

theorem mkDown_local (cfg : Config) (hn : BatchFree cfg.D cfg.norm) (c p s : ℕ) (f : BlockParams) (o : Option Mod) (h : mkDown cfg c p s f = .ok o) :
    ∀ m, o = some m → Local m := by
  unfold mkDown at h
  split_ifs at h
  · obtain ⟨n, e, h⟩ := bind_inv h
    obtain rfl := Except.ok.inj h
    intro m hm
    obtain rfl := Option.some.inj hm
    intro x x' b b' y y' hxx hy hy'
    obtain ⟨u, a, hy⟩ := bind_inv hy
    obtain ⟨u', a', hy'⟩ := bind_inv hy'
    obtain rfl := Except.ok.inj hy
    obtain rfl := Except.ok.inj hy'
    exact conv_norm_local cfg.D _ cfg.norm hn n e f.nd _ (conv1_inv _ _ _ _ _) x x' u u' b b' hxx a a'
  · obtain rfl := Except.ok.inj h
    intro m hm
    simp at hm

theorem seq_local (ms : List Mod) (h : ∀ m ∈ ms, Local m) : Local (seq ms) := by
  induction ms with
  | nil =>
    intro x x' b b' y y' hxx hy hy'
    obtain rfl := Except.ok.inj hy
    obtain rfl := Except.ok.inj hy'
    exact hxx
  | cons m ms ih =>
    intro x x' b b' y y' hxx hy hy'
    unfold seq at hy hy'
    rw [List.foldlM_cons] at hy hy'
    obtain ⟨u, a, hy⟩ := bind_inv hy
    obtain ⟨u', a', hy'⟩ := bind_inv hy'
    exact ih (fun m' hm' => h m' (by simp [hm'])) u u' b b' y y' (h m (by simp) x x' b b' u u' hxx a a') hy hy'

theorem makeLayer_local (cfg : Config) (hn : BatchFree cfg.D cfg.norm) (b : Builder) (planes blocks stride : ℕ) (t : StrideType) (f : ℕ → BlockParams)
    (l : List Mod) (b' : Builder) (h : makeLayer cfg b planes blocks stride t f = .ok (l, b')) : Local (seq l) := by
  unfold makeLayer at h
  obtain ⟨⟨s, d⟩, hs, h⟩ := bind_inv h
  obtain ⟨o, ho, h⟩ := bind_inv h
  obtain ⟨first, hf, h⟩ := bind_inv h
  obtain ⟨rest, hr, h⟩ := bind_inv h
  have h := Except.ok.inj h
  simp only [Prod.mk.injEq] at h
  obtain ⟨rfl, rfl⟩ := h
  refine seq_local _ fun m hm => ?_
  rcases List.mem_cons.1 hm with rfl | hm
  · exact block_local _ _ _ hn _ _ _ _ _ (mkDown_local cfg hn _ _ _ _ o ho) _ _ _ _ _ hf
  · obtain ⟨j, -, hj⟩ := mapM_inv hr m hm
    exact block_local _ _ _ hn _ _ _ _ none (by simp) _ _ _ _ _ hj

theorem makeLayers_local (cfg : Config) (hn : BatchFree cfg.D cfg.norm) (f : ℕ → ℕ → BlockParams) (l : List (ℕ × StrideType)) (i : ℕ) (b : Builder)
    (ls : List (List Mod)) (h : makeLayers cfg f i b l = .ok ls) : ∀ m ∈ ls, Local (seq m) := by
  induction l generalizing i b ls with
  | nil =>
    simp only [makeLayers] at h
    obtain rfl := Except.ok.inj h
    simp
  | cons p l ih =>
    obtain ⟨n, t⟩ := p
    unfold makeLayers at h
    obtain ⟨⟨ly, c⟩, h1, h⟩ := bind_inv h
    obtain ⟨rs, h2, h⟩ := bind_inv h
    obtain rfl := Except.ok.inj h
    intro m hm
    rcases List.mem_cons.1 hm with rfl | hm
    · exact makeLayer_local cfg hn b _ n 2 t (f i) _ c h1
    · exact ih (i + 1) c rs h2 m hm

theorem head_local (net : Net) (x x' y y' : Tensor ℝ) (b b' : ℕ) (h : RowEq b b' x x') (hy : head net x = .ok y) (hy' : head net x' = .ok y') (o : ℕ) :
    y.get [b, o] = y'.get [b', o] := by
  obtain ⟨B, B', rest, hx, hx', hb, hb', hpos, heq⟩ := h
  unfold head at hy hy'
  rw [hx] at hy
  rw [hx'] at hy'
  cases rest with
  | nil => simp at hy
  | cons C S =>
    simp only at hy hy'
    split_ifs at hy hy' with hc
    push Not at hc
    obtain rfl := Except.ok.inj hy
    obtain rfl := Except.ok.inj hy'
    simp only [List.headD_cons, List.tail_cons, Conv.linearAt]
    congr 1
    refine Finset.sum_congr rfl fun c hcc => ?_
    congr 1
    unfold Conv.avgAt
    congr 2
    refine List.map_congr_left fun j hj => ?_
    exact heq (c :: j) ⟨by rw [hc.2]; exact Finset.mem_range.1 hcc, (mem_allIdx S j).1 hj⟩

theorem forward_local (cfg : Config) (hn : BatchFree cfg.D cfg.norm) (inC : ℕ) (layers : List ℕ) (classes : ℕ) (st : Option (List StrideType)) (f : NetParams)
    (net : Net) (h : init cfg inC layers classes st f = .ok net) (x x' y y' : Tensor ℝ) (b b' : ℕ) (hxx : RowEq b b' x x') (hy : forward net x = .ok y)
    (hy' : forward net x' = .ok y') (o : ℕ) : y.get [b, o] = y'.get [b', o] := by
  unfold init at h
  by_cases hlen : ((strideTypes st layers).length : Int) ≠ (layers.length : Int) - 1
  · rw [if_pos hlen] at h; simp at h
  rw [if_neg hlen] at h
  obtain ⟨n, e, h⟩ := bind_inv h
  obtain ⟨⟨l0, bd⟩, h0, h⟩ := bind_inv h
  obtain ⟨ls, h1, h⟩ := bind_inv h
  split_ifs at h
  obtain rfl := Except.ok.inj h
  unfold forward at hy hy'
  simp only at hy hy'
  obtain ⟨x1, g1, hy⟩ := bind_inv hy
  obtain ⟨x1', g1', hy'⟩ := bind_inv hy'
  obtain ⟨x2, g2, hy⟩ := bind_inv hy
  obtain ⟨x2', g2', hy'⟩ := bind_inv hy'
  obtain ⟨x3, g3, hy⟩ := bind_inv hy
  obtain ⟨x3', g3', hy'⟩ := bind_inv hy'
  have r1 := conv_norm_local cfg.D 64 cfg.norm hn n e f.n0 (conv cfg.D inC 64 7 2 3 1 1 f.stem)
    ⟨conv_local _ _ _ _ _ _ _ _ _ (by norm_num) (Nat.mod_one _) (Nat.mod_one _), fun x y hy => conv_shape _ _ _ _ _ _ _ _ _ x y hy⟩ x x' x1 x1' b b' hxx g1 g1'
  have r2 := maxpool_local cfg.D _ _ b b' x2 x2' (relu_local r1) g2 g2'
  have hall : ∀ m ∈ l0 :: ls, Local (seq m) := by
    intro m hm
    rcases List.mem_cons.1 hm with rfl | hm
    · exact makeLayer_local cfg hn _ _ _ _ _ _ _ _ h0
    · exact makeLayers_local cfg hn _ _ _ _ _ h1 m hm
  have r3 : RowEq b b' x3 x3' := by
    have key := seq_local ((l0 :: ls).map fun l x => seq l x) (by
      intro m hm
      obtain ⟨l, hl, rfl⟩ := List.mem_map.1 hm
      exact hall l hl)
    refine key x2 x2' b b' x3 x3' r2 ?_ ?_
    · unfold seq
      rw [List.foldlM_map]
      exact g3
    · unfold seq
      rw [List.foldlM_map]
      exact g3'
  exact head_local _ x3 x3' y y' b b' r3 hy hy' o

/-- **C98.**  For every accepted architecture (basic or bottleneck, any number of spatial dimensions, kernel, groups, strides or dilations, depths) whose norm layers
treat batch elements independently, with any parameters: selecting elements of the batch before the network gives the selection of its outputs. -/
theorem resnet_batch (cfg : Config) (h : cfg.Ok) (hn : BatchFree cfg.D cfg.norm) (inC : ℕ) (hin : 0 < inC) (layers : List ℕ) (hl : 2 ≤ layers.length) (classes : ℕ)
    (st : Option (List StrideType)) (hst : ∀ l, st = some l → l.length + 1 = layers.length ∧ ∀ t ∈ l, t ≠ .other ∧ (cfg.kind = .basic → t = .stride))
    (f : NetParams) :
    ∃ net, init cfg inC layers classes st f = .ok net ∧
      BatchWise (fun s => ∃ S, s = inC :: S ∧ S.length = cfg.D ∧ ∀ L ∈ S, 1 ≤ L) 0 (forward net) := by
  obtain ⟨net, h1, -, h3⟩ := resnet_correct cfg h inC hin layers hl classes st hst f
  refine ⟨net, h1, ?_⟩
  rintro B _ x σ hx ⟨S, rfl, hS, hL⟩ hσ
  obtain ⟨y, hy, hys⟩ := h3 x B S hx hS hL
  have hps := Batch.pick_shape x σ B _ hx
  obtain ⟨y', hy', hys'⟩ := h3 (x.pick 0 σ) σ.length S hps hS hL
  refine ⟨y, y', hy, hy', by simp [hys], ?_, ?_⟩
  · rw [hys', Batch.pick_shape y σ B _ hys]
  · intro i hi
    rw [hys'] at hi
    obtain ⟨b, o, rfl, hb, ho⟩ := InB.eq2 hi
    show y'.get [b, o] = y.get [σ.getD b 0, o]
    refine forward_local cfg hn inC layers classes st f net h1 _ x y' y b (σ.getD b 0) ?_ hy' hy o
    refine ⟨σ.length, B, inC :: S, hps, hx, hb, Batch.getD_lt hσ hb, ?_, ?_⟩
    · intro L hLL
      rcases List.mem_cons.1 hLL with rfl | hLL
      · omega
      · exact hL L hLL
    · intro i hi
      rfl

theorem init_dvd (c g : ℕ) (o : Option ℕ) (h : GroupNorm.init c o = .ok g) : c % g = 0 := by
  unfold GroupNorm.init at h
  simp only at h
  generalize (if o.getD 0 = 0 then c else o.getD 0) = q at h
  by_cases h1 : q = 0
  · rw [if_pos h1] at h; simp at h
  · rw [if_neg h1] at h
    by_cases h2 : c % q ≠ 0
    · rw [if_pos h2] at h; simp at h
    · rw [if_neg h2] at h
      obtain rfl := Except.ok.inj h
      push Not at h2
      exact h2

/-- **C98 (norm layers).**  The default norm layers of the one- and two-dimensional networks treat batch elements independently, for every number of groups. -/
theorem default_batchFree (groups : Option ℕ) : BatchFree 1 (groupNorm1D groups) ∧ ∀ D, BatchFree D (groupNorm2D groups) := by
  constructor
  · rintro c n hc hn p x x' b b' B S hs hS ⟨A, A', rest, hx, hx', hb, hb', hpos, heq⟩
    rw [hx] at hs
    simp only [List.cons.injEq] at hs
    obtain ⟨rfl, rfl⟩ := hs
    obtain ⟨L, rfl⟩ := List.length_eq_one_iff.1 hS
    unfold groupNorm1D at hn
    obtain ⟨g, hg, hn⟩ := bind_inv hn
    obtain rfl := Except.ok.inj hn
    have hL : 0 < L := hpos L (by simp)
    obtain ⟨y, e, -, hv⟩ := GroupNorm.group_norm_correct _ c g A L (1 / 100000) p.weight p.bias x hx hc hL hg
    obtain ⟨y', e', -, hv'⟩ := GroupNorm.group_norm_correct _ c g A' L (1 / 100000) p.weight p.bias x' hx' hc hL hg
    refine ⟨A, A', [c, L], hx, hx', hb, hb', hpos, ?_⟩
    intro i hi
    obtain ⟨ch, t, rfl, h1, h2⟩ := InB.eq2 hi
    simp only [applyNorm, e, e']
    rw [hv b hb ch h1 t, hv' b' hb' ch h1 t]
    have hdvd : c % g = 0 := init_dvd c g _ hg
    have hcg : g * (c / g) = c := by
      have := Nat.div_add_mod c g
      omega
    have hq : ch / (c / g) < g := Nat.div_lt_of_lt_mul (by rw [Nat.mul_comm, hcg]; exact h1)
    have key : ∀ (F : ℝ → ℝ), Spec.groupMean (c / g) L (ch / (c / g)) (fun c t => F (x.get [b, c, t])) =
        Spec.groupMean (c / g) L (ch / (c / g)) (fun c t => F (x'.get [b', c, t])) := by
      intro F
      unfold Spec.groupMean
      congr 1
      refine Finset.sum_congr rfl fun j hj => Finset.sum_congr rfl fun t ht => ?_
      have hlt : ch / (c / g) * (c / g) + j < c := by have := idx_lt hq (Finset.mem_range.1 hj); omega
      exact congrArg F (heq [ch / (c / g) * (c / g) + j, t] ⟨hlt, Finset.mem_range.1 ht, trivial⟩)
    have e1 := key id
    simp only [id] at e1
    unfold Spec.groupNorm
    simp only
    rw [heq [ch, t] ⟨h1, h2, trivial⟩, e1, key (fun v => (v - Spec.groupMean (c / g) L (ch / (c / g)) fun c t => x'.get [b', c, t]) ^ 2)]
  · rintro D c n hc hn p x x' b b' B S hs hS ⟨A, A', rest, hx, hx', hb, hb', hpos, heq⟩
    rw [hx] at hs
    simp only [List.cons.injEq] at hs
    obtain ⟨rfl, rfl⟩ := hs
    unfold groupNorm2D at hn
    obtain ⟨g, hg, hn⟩ := bind_inv hn
    obtain rfl := Except.ok.inj hn
    have hgd : 0 < g ∧ c % g = 0 := by
      unfold GroupNorm.getter2D at hg
      simp only at hg
      split_ifs at hg with a1 a2
      obtain rfl := Except.ok.inj hg
      push Not at a2
      exact ⟨by omega, a2⟩
    have hcg : g * (c / g) = c := by
      have := Nat.div_add_mod c g
      omega
    refine ⟨A, A', c :: S, hx, hx', hb, hb', hpos, ?_⟩
    intro i hi
    cases i with
    | nil => exact absurd hi (by simp [InB])
    | cons ch t =>
      simp only [applyNorm, hx, hx', List.headD_cons, List.tail_cons]
      have hq : ch / (c / g) < g := Nat.div_lt_of_lt_mul (by rw [Nat.mul_comm, hcg]; exact hi.1)
      have key : ∀ (F : ℝ → ℝ), groupMean (c / g) (ch / (c / g)) S (fun c j => F (x.get (b :: c :: j))) =
          groupMean (c / g) (ch / (c / g)) S (fun c j => F (x'.get (b' :: c :: j))) := by
        intro F
        unfold groupMean
        congr 1
        refine Finset.sum_congr rfl fun j hj => ?_
        congr 1
        refine List.map_congr_left fun k hk => ?_
        have hlt : ch / (c / g) * (c / g) + j < c := by have := idx_lt hq (Finset.mem_range.1 hj); omega
        exact congrArg F (heq ((ch / (c / g) * (c / g) + j) :: k) ⟨hlt, (mem_allIdx S k).1 hk⟩)
      have e1 := key id
      simp only [id] at e1
      rw [heq (ch :: t) hi, e1, key (fun v => (v - groupMean (c / g) (ch / (c / g)) S fun c j => x'.get (b' :: c :: j)) ^ 2)]

/-- **C98 (the default networks).**  `ResNet1D` and `BottleneckResNet1D` with the default norm layer. -/
theorem standard_batch (kind : Kind) (k g w : ℕ) (hk : k % 2 = 1) (hb : kind = .basic → g = 1 ∧ w = 64) (hw : kind = .bottleneck → 0 < g ∧ 0 < w)
    (inC : ℕ) (hin : 0 < inC) (layers : List ℕ) (hl : 2 ≤ layers.length) (classes : ℕ) (f : NetParams) :
    ∃ net, init (standard kind k g w) inC layers classes none f = .ok net ∧ BatchWise (fun s => ∃ L, s = [inC, L] ∧ 1 ≤ L) 0 (forward net) := by
  obtain ⟨net, h1, h2⟩ := resnet_batch (standard kind k g w) (standard_ok kind k g w hk hb hw) (default_batchFree none).1 inC hin layers hl classes none (by simp) f
  refine ⟨net, h1, ?_⟩
  rintro B _ x σ hx ⟨L, rfl, hL⟩ hσ
  exact h2 B [inC, L] x σ hx ⟨[L], rfl, rfl, by simpa using hL⟩ hσ

/-- **C98 (the default networks).**  `ResNet2D` and `BottleneckResNet2D` with the default norm layer. -/
theorem standard_batch2 (kind : Kind) (k g w : ℕ) (hk : k % 2 = 1) (hb : kind = .basic → g = 1 ∧ w = 64) (hw : kind = .bottleneck → 0 < g ∧ 0 < w)
    (inC : ℕ) (hin : 0 < inC) (layers : List ℕ) (hl : 2 ≤ layers.length) (classes : ℕ) (f : NetParams) :
    ∃ net, init ⟨kind, 2, groupNorm2D none, k, g, w⟩ inC layers classes none f = .ok net ∧
      BatchWise (fun s => ∃ H W, s = [inC, H, W] ∧ 1 ≤ H ∧ 1 ≤ W) 0 (forward net) := by
  have hok : (⟨kind, 2, groupNorm2D none, k, g, w⟩ : Config).Ok := by
    refine ⟨hk, ?_, hb, hw⟩
    intro c hc
    simp only [groupNorm2D, GroupNorm.getter2D]
    rw [if_neg (by omega), if_neg (by simp)]
    exact ⟨_, rfl⟩
  obtain ⟨net, h1, h2⟩ := resnet_batch _ hok ((default_batchFree none).2 2) inC hin layers hl classes none (by simp) f
  refine ⟨net, h1, ?_⟩
  rintro B _ x σ hx ⟨H, W, rfl, hH, hW⟩ hσ
  exact h2 B [inC, H, W] x σ hx ⟨[H, W], rfl, rfl, by simpa using ⟨hH, hW⟩⟩ hσ

/-- Non-vacuity: a selection with a repetition from a batch of four. -/
example (f : NetParams) : ∃ net, init (standard .basic 3 1 64) 2 [2, 2] 1 none f = .ok net ∧ ∃ y y',
    forward net ⟨[4, 2, 2048], fun i => (i.headD 0 : ℝ)⟩ = .ok y ∧
    forward net ((⟨[4, 2, 2048], fun i => (i.headD 0 : ℝ)⟩ : Tensor ℝ).pick 0 [2, 0, 2]) = .ok y' ∧ y'.Same (y.pick 0 [2, 0, 2]) := by
  obtain ⟨net, h1, h2⟩ := standard_batch .basic 3 1 64 rfl (fun _ => ⟨rfl, rfl⟩) (fun h => by cases h) 2 (by norm_num) [2, 2] (by norm_num) 1 f
  obtain ⟨y, y', e1, e2, -, e4⟩ := h2 4 [2, 2048] ⟨[4, 2, 2048], fun i => (i.headD 0 : ℝ)⟩ [2, 0, 2] rfl ⟨2048, rfl, by norm_num⟩ Batch.demo_positions
  exact ⟨net, h1, y, y', e1, e2, e4⟩

/-- **C98 (a norm layer that mixes).**  The hypothesis on the norm layer is needed: a layer that, like `BatchNorm` in training mode, subtracts the mean over the
batch does not treat the elements independently. -/
theorem batch_mean_mixes (D : ℕ) : ¬ BatchFree D (fun _ => .ok fun _ x i => x.get i - (x.get (0 :: i.tail) + x.get (1 :: i.tail)) / 2) := by
  intro h
  have hin : ∀ n : ℕ, InB (List.replicate n 0) (List.replicate n 1) := by
    intro n
    induction n with
    | zero => trivial
    | succ n ih => exact ⟨by norm_num, ih⟩
  obtain ⟨B, B', rest, h1, h2, -, -, -, h6⟩ := h 1 _ (by norm_num) rfl Affine.fresh ⟨2 :: 1 :: List.replicate D 1, fun i => (i.headD 0 : ℝ)⟩
    ⟨2 :: 1 :: List.replicate D 1, fun _ => 0⟩ 0 0 2 (List.replicate D 1) rfl (by simp) ⟨2, 2, 1 :: List.replicate D 1, rfl, rfl, by norm_num, by norm_num, by
      intro L hL
      rcases List.mem_cons.1 hL with rfl | hL
      · exact le_rfl
      · rw [List.eq_of_mem_replicate hL], fun i _ => by simp⟩
  simp only [applyNorm, List.cons.injEq] at h1
  obtain ⟨-, rfl⟩ := h1
  have := h6 (0 :: List.replicate D 0) ⟨by norm_num, hin D⟩
  simp only [applyNorm, List.headD_cons, List.tail_cons, Nat.cast_zero, Nat.cast_one] at this
  norm_num at this

end Verif.ResNet
