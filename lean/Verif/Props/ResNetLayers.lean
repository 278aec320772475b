import Verif.Spec.ResNetLayers
import Verif.Props.ResNetBatch
/-!
# C100: what the layers of the residual networks compute
-/
namespace Verif.ResNet
open Spec.Layers Finset

theorem sum_map_range (n : ℕ) (f : ℕ → ℝ) : ((List.range n).map f).sum = ∑ i ∈ range n, f i := by
  induction n with
  | zero => simp
  | succ n ih => rw [List.range_succ, List.map_append, List.sum_append, ih, Finset.sum_range_succ]; simp

theorem sum_allIdx_cons (k : ℕ) (K : List ℕ) (f : List ℕ → ℝ) : ((Tensor.allIdx (k :: K)).map f).sum = ∑ u ∈ range k, ((Tensor.allIdx K).map fun v => f (u :: v)).sum := by
  rw [← sum_map_range]
  show (((List.range k).flatMap fun i => (Tensor.allIdx K).map (i :: ·)).map f).sum = _
  induction List.range k with
  | nil => rfl
  | cons a l ih => simp only [List.flatMap_cons, List.map_append, List.sum_append, ih, List.map_cons, List.sum_cons, List.map_map, Function.comp_def]

theorem sum_allIdx1 (k : ℕ) (f : List ℕ → ℝ) : ((Tensor.allIdx [k]).map f).sum = ∑ u ∈ range k, f [u] := by
  rw [sum_allIdx_cons]
  exact Finset.sum_congr rfl fun u _ => by simp [Tensor.allIdx]

theorem sum_allIdx2 (k l : ℕ) (f : List ℕ → ℝ) : ((Tensor.allIdx [k, l]).map f).sum = ∑ u ∈ range k, ∑ v ∈ range l, f [u, v] := by
  rw [sum_allIdx_cons]
  exact Finset.sum_congr rfl fun u _ => sum_allIdx1 l _

theorem tap_ext (s p d L t u : ℕ) (x : ℕ → ℝ) :
    (match Conv.tap s p d L t u with | some j => x j | none => 0) = ext1 L x ((t * s : ℕ) + (u * d : ℕ) - p) := by
  unfold Conv.tap ext1
  by_cases h : p ≤ t * s + u * d ∧ t * s + u * d < L + p
  · rw [if_pos h, if_pos (by omega)]
    simp only
    congr 1
    omega
  · rw [if_neg h, if_neg (by omega)]

theorem taps1 (s p d L t u : ℕ) (x : List ℕ → ℝ) :
    (match Conv.taps s p d [L] [t] [u] with | some j => x j | none => 0) = ext1 L (fun l => x [l]) ((t * s : ℕ) + (u * d : ℕ) - p) := by
  rw [← tap_ext]
  unfold Conv.taps Conv.taps
  simp only [List.headD_cons, List.tail_cons]
  cases Conv.tap s p d L t u <;> rfl

theorem tap_some (s p d L t u : ℕ) (h : p ≤ t * s + u * d ∧ t * s + u * d < L + p) : Conv.tap s p d L t u = some (t * s + u * d - p) := if_pos h
theorem tap_none (s p d L t u : ℕ) (h : ¬ (p ≤ t * s + u * d ∧ t * s + u * d < L + p)) : Conv.tap s p d L t u = none := if_neg h

theorem taps2_eq (s p d H W t t' u u' : ℕ) : Conv.taps s p d [H, W] [t, t'] [u, u'] =
    match Conv.tap s p d H t u, Conv.tap s p d W t' u' with
    | some i, some j => some [i, j]
    | _, _ => none := by
  unfold Conv.taps Conv.taps Conv.taps
  simp only [List.headD_cons, List.tail_cons]
  cases Conv.tap s p d H t u <;> cases Conv.tap s p d W t' u' <;> rfl

theorem taps1_eq (s p d L t u : ℕ) : Conv.taps s p d [L] [t] [u] = (Conv.tap s p d L t u).map fun j => [j] := by
  unfold Conv.taps Conv.taps
  simp only [List.headD_cons]
  cases Conv.tap s p d L t u <;> rfl

theorem taps2 (s p d H W t t' u u' : ℕ) (x : List ℕ → ℝ) :
    (match Conv.taps s p d [H, W] [t, t'] [u, u'] with | some j => x j | none => 0) =
      ext2 H W (fun h w => x [h, w]) ((t * s : ℕ) + (u * d : ℕ) - p) ((t' * s : ℕ) + (u' * d : ℕ) - p) := by
  rw [taps2_eq]
  unfold ext2
  by_cases h : p ≤ t * s + u * d ∧ t * s + u * d < H + p
  · by_cases h' : p ≤ t' * s + u' * d ∧ t' * s + u' * d < W + p
    · rw [tap_some _ _ _ _ _ _ h, tap_some _ _ _ _ _ _ h', if_pos (by omega)]
      simp only
      congr 2
      · omega
      · congr 1; omega
    · rw [tap_some _ _ _ _ _ _ h, tap_none _ _ _ _ _ _ h', if_neg (by omega)]
  · rw [tap_none _ _ _ _ _ _ h, if_neg (by omega)]

/-- The centre of an odd kernel. -/
theorem centre (t s u d k : ℕ) : ((t * s : ℕ) : ℤ) + (u * d : ℕ) - (d * (k / 2) : ℕ) = t * s + (u - (k / 2 : ℕ)) * d := by push_cast; ring

theorem conv_1d (c c' k s d g : ℕ) (w : Conv.Weight) (hk : k % 2 = 1) (hs : 0 < s) (hc : 0 < c) (hc' : 0 < c') (x : Tensor ℝ) (B L : ℕ)
    (hx : x.shape = [B, c, L]) (hL : 1 ≤ L) :
    ∃ y, conv 1 c c' k s (d * (k / 2)) d g w x = .ok y ∧ y.shape = [B, c', (L - 1) / s + 1] ∧ ∀ b o t, y.get [b, o, t] =
      ∑ j ∈ range (c / g), ∑ u ∈ range k, w o j [u] * ext1 L (fun l => x.get [b, o / (c' / g) * (c / g) + j, l]) (t * s + (u - (k / 2 : ℕ)) * d) := by
  have e2 : d * (k - 1) = 2 * (d * (k / 2)) := by
    have : k - 1 = 2 * (k / 2) := by omega
    rw [this]; ring
  unfold conv
  rw [hx]
  simp only
  rw [if_neg (by simp; omega)]
  refine ⟨_, rfl, ?_, fun b o t => ?_⟩
  · simp only [List.map_cons, List.map_nil, outLen]
    rw [e2, Nat.add_sub_cancel]
  · simp only [List.headD_cons, List.tail_cons]
    unfold Conv.convAt
    refine Finset.sum_congr rfl fun j _ => ?_
    rw [List.map_cons, List.map_nil, sum_allIdx1]
    refine Finset.sum_congr rfl fun u _ => ?_
    refine congrArg (w o j [u] * ·) (Eq.trans (taps1 s _ d L t u fun i => x.get (b :: (o / (c' / g) * (c / g) + j) :: i)) ?_)
    rw [centre]

theorem conv_2d (c c' k s d g : ℕ) (w : Conv.Weight) (hk : k % 2 = 1) (hs : 0 < s) (hc : 0 < c) (hc' : 0 < c') (x : Tensor ℝ) (B H W : ℕ)
    (hx : x.shape = [B, c, H, W]) (hH : 1 ≤ H) (hW : 1 ≤ W) :
    ∃ y, conv 2 c c' k s (d * (k / 2)) d g w x = .ok y ∧ y.shape = [B, c', (H - 1) / s + 1, (W - 1) / s + 1] ∧ ∀ b o t t', y.get [b, o, t, t'] =
      ∑ j ∈ range (c / g), ∑ u ∈ range k, ∑ u' ∈ range k, w o j [u, u'] *
        ext2 H W (fun h v => x.get [b, o / (c' / g) * (c / g) + j, h, v]) (t * s + (u - (k / 2 : ℕ)) * d) (t' * s + (u' - (k / 2 : ℕ)) * d) := by
  have e2 : d * (k - 1) = 2 * (d * (k / 2)) := by
    have : k - 1 = 2 * (k / 2) := by omega
    rw [this]; ring
  unfold conv
  rw [hx]
  simp only
  rw [if_neg (by simp; omega)]
  refine ⟨_, rfl, ?_, fun b o t t' => ?_⟩
  · simp only [List.map_cons, List.map_nil, outLen]
    rw [e2, Nat.add_sub_cancel, Nat.add_sub_cancel]
  · simp only [List.headD_cons, List.tail_cons]
    unfold Conv.convAt
    refine Finset.sum_congr rfl fun j _ => ?_
    rw [List.map_cons, List.map_cons, List.map_nil, sum_allIdx2]
    refine Finset.sum_congr rfl fun u _ => Finset.sum_congr rfl fun u' _ => ?_
    refine congrArg (w o j [u, u'] * ·) (Eq.trans (taps2 s _ d H W t t' u u' fun i => x.get (b :: (o / (c' / g) * (c / g) + j) :: i)) ?_)
    rw [centre, centre]

/-- **C100.**  A convolution of a one-dimensional block: the zero-continued input is correlated with the kernel placed symmetrically around the output
sample (`t` reads `t * stride + (u - (kernel_size - 1) / 2) * dilation`), group by group; nothing is delayed. -/
theorem block_conv_1d (c c' k s d g : ℕ) (w : Conv.Weight) (hk : k % 2 = 1) (hs : 0 < s) (hg : 0 < g) (h1 : c % g = 0) (h2 : c' % g = 0) (hc : 0 < c) (hc' : 0 < c')
    (x : Tensor ℝ) (B L : ℕ) (hx : x.shape = [B, c, L]) (hL : 1 ≤ L) :
    ∃ m y, convN 1 c c' k s g d w = .ok m ∧ m x = .ok y ∧ y.shape = [B, c', (L - 1) / s + 1] ∧ ∀ b o t, y.get [b, o, t] =
      ∑ j ∈ range (c / g), ∑ u ∈ range k, w o j [u] * ext1 L (fun l => x.get [b, o / (c' / g) * (c / g) + j, l]) (t * s + (u - (k / 2 : ℕ)) * d) := by
  obtain ⟨y, e, hy⟩ := conv_1d c c' k s d g w hk hs hc hc' x B L hx hL
  refine ⟨_, y, ?_, e, hy⟩
  unfold convN checkGroups
  rw [if_neg (by omega), if_neg (by omega), if_neg (by omega)]
  rfl

/-- **C100.**  The same in two dimensions. -/
theorem block_conv_2d (c c' k s d g : ℕ) (w : Conv.Weight) (hk : k % 2 = 1) (hs : 0 < s) (hg : 0 < g) (h1 : c % g = 0) (h2 : c' % g = 0) (hc : 0 < c) (hc' : 0 < c')
    (x : Tensor ℝ) (B H W : ℕ) (hx : x.shape = [B, c, H, W]) (hH : 1 ≤ H) (hW : 1 ≤ W) :
    ∃ m y, convN 2 c c' k s g d w = .ok m ∧ m x = .ok y ∧ y.shape = [B, c', (H - 1) / s + 1, (W - 1) / s + 1] ∧ ∀ b o t t', y.get [b, o, t, t'] =
      ∑ j ∈ range (c / g), ∑ u ∈ range k, ∑ u' ∈ range k, w o j [u, u'] *
        ext2 H W (fun h v => x.get [b, o / (c' / g) * (c / g) + j, h, v]) (t * s + (u - (k / 2 : ℕ)) * d) (t' * s + (u' - (k / 2 : ℕ)) * d) := by
  obtain ⟨y, e, hy⟩ := conv_2d c c' k s d g w hk hs hc hc' x B H W hx hH hW
  refine ⟨_, y, ?_, e, hy⟩
  unfold convN checkGroups
  rw [if_neg (by omega), if_neg (by omega), if_neg (by omega)]
  rfl

/-- **C100.**  The stem of a one-dimensional network: kernel 7 and stride 2, centred. -/
theorem stem_1d (cfg : Config) (hD : cfg.D = 1) (inC : ℕ) (hin : 0 < inC) (layers : List ℕ) (classes : ℕ) (st : Option (List StrideType)) (f : NetParams) (net : Net)
    (hn : init cfg inC layers classes st f = .ok net) (x : Tensor ℝ) (B L : ℕ) (hx : x.shape = [B, inC, L]) (hL : 1 ≤ L) :
    ∃ y, net.stem x = .ok y ∧ y.shape = [B, 64, (L - 1) / 2 + 1] ∧ ∀ b, ∀ o < 64, ∀ t, y.get [b, o, t] =
      ∑ c ∈ range inC, ∑ u ∈ range 7, f.stem o c [u] * ext1 L (fun l => x.get [b, c, l]) (2 * t + u - 3) := by
  obtain ⟨y, e, hs, hy⟩ := conv_1d inC 64 7 2 1 1 f.stem rfl (by norm_num) hin (by norm_num) x B L hx hL
  have hstem : net.stem = conv 1 inC 64 7 2 3 1 1 f.stem := by
    unfold init at hn
    split_ifs at hn
    all_goals
      obtain ⟨n, _, hn⟩ := bind_inv hn
      obtain ⟨l, _, hn⟩ := bind_inv hn
      obtain ⟨ls, _, hn⟩ := bind_inv hn
    · cases hn
    · rw [← Except.ok.inj hn, hD]
  refine ⟨y, by rw [hstem]; exact e, hs, fun b o ho t => ?_⟩
  rw [hy, Nat.div_one, Nat.div_one, Nat.div_eq_of_lt ho, Nat.zero_mul]
  refine Finset.sum_congr rfl fun c _ => Finset.sum_congr rfl fun u _ => ?_
  rw [Nat.zero_add]
  congr 2
  push_cast
  ring

/-- **C100.**  The stem of a two-dimensional network. -/
theorem stem_2d (cfg : Config) (hD : cfg.D = 2) (inC : ℕ) (hin : 0 < inC) (layers : List ℕ) (classes : ℕ) (st : Option (List StrideType)) (f : NetParams) (net : Net)
    (hn : init cfg inC layers classes st f = .ok net) (x : Tensor ℝ) (B H W : ℕ) (hx : x.shape = [B, inC, H, W]) (hH : 1 ≤ H) (hW : 1 ≤ W) :
    ∃ y, net.stem x = .ok y ∧ y.shape = [B, 64, (H - 1) / 2 + 1, (W - 1) / 2 + 1] ∧ ∀ b, ∀ o < 64, ∀ t t', y.get [b, o, t, t'] =
      ∑ c ∈ range inC, ∑ u ∈ range 7, ∑ u' ∈ range 7, f.stem o c [u, u'] * ext2 H W (fun h v => x.get [b, c, h, v]) (2 * t + u - 3) (2 * t' + u' - 3) := by
  obtain ⟨y, e, hs, hy⟩ := conv_2d inC 64 7 2 1 1 f.stem rfl (by norm_num) hin (by norm_num) x B H W hx hH hW
  have hstem : net.stem = conv 2 inC 64 7 2 3 1 1 f.stem := by
    unfold init at hn
    split_ifs at hn
    all_goals
      obtain ⟨n, _, hn⟩ := bind_inv hn
      obtain ⟨l, _, hn⟩ := bind_inv hn
      obtain ⟨ls, _, hn⟩ := bind_inv hn
    · cases hn
    · rw [← Except.ok.inj hn, hD]
  refine ⟨y, by rw [hstem]; exact e, hs, fun b o ho t t' => ?_⟩
  rw [hy, Nat.div_one, Nat.div_one, Nat.div_eq_of_lt ho, Nat.zero_mul]
  refine Finset.sum_congr rfl fun c _ => Finset.sum_congr rfl fun u _ => Finset.sum_congr rfl fun u' _ => ?_
  rw [Nat.zero_add]
  congr 2 <;> (push_cast; ring)

theorem max_greatest (l : List ℝ) (hl : l ≠ []) : IsGreatest {v | v ∈ l} (l.max?.getD 0) := by
  cases h : l.max? with
  | none => exact absurd (List.max?_eq_none_iff.1 h) hl
  | some m =>
    rw [List.max?_eq_some_iff] at h
    exact ⟨h.1, fun v hv => h.2 v hv⟩

/-- **C100.**  The pooling after the stem returns the greatest of the samples at distance at most one from sample `2 t`. -/
theorem pool_1d (x : Tensor ℝ) (B C L : ℕ) (hx : x.shape = [B, C, L]) (hC : 0 < C) (hL : 1 ≤ L) :
    ∃ y, maxpool 1 x = .ok y ∧ y.shape = [B, C, (L - 1) / 2 + 1] ∧ ∀ b c t, t ≤ (L - 1) / 2 →
      IsGreatest {v | ∃ l < L, 2 * t ≤ l + 1 ∧ l ≤ 2 * t + 1 ∧ v = x.get [b, c, l]} (y.get [b, c, t]) := by
  unfold maxpool
  rw [hx]
  simp only
  rw [if_neg (by simp; omega)]
  refine ⟨_, rfl, ?_, fun b c t ht => ?_⟩
  · simp only [List.map_cons, List.map_nil, outLen]
    congr 3
  · simp only [List.headD_cons, List.tail_cons, Conv.maxAt, List.map_cons, List.map_nil]
    have hmem : ∀ v, v ∈ (Tensor.allIdx [3]).filterMap (fun u => (Conv.taps 2 1 1 [L] [t] u).map fun j => x.get (b :: c :: j)) ↔
        ∃ l < L, 2 * t ≤ l + 1 ∧ l ≤ 2 * t + 1 ∧ v = x.get [b, c, l] := by
      intro v
      rw [List.mem_filterMap]
      constructor
      · rintro ⟨u, hu, e⟩
        obtain ⟨u, rfl, h1⟩ := InB.eq1 ((mem_allIdx _ _).1 hu)
        rw [taps1_eq] at e
        unfold Conv.tap at e
        split_ifs at e with hc
        · simp only [Option.map_some, Option.some.injEq] at e
          exact ⟨t * 2 + u * 1 - 1, by omega, by omega, by omega, e.symm⟩
        · simp at e
      · rintro ⟨l, h1, h2, h3, rfl⟩
        refine ⟨[l + 1 - 2 * t], (mem_allIdx _ _).2 ⟨by omega, trivial⟩, ?_⟩
        rw [taps1_eq, tap_some _ _ _ _ _ _ (by omega)]
        have q : t * 2 + (l + 1 - 2 * t) * 1 - 1 = l := by omega
        rw [q]; rfl
    have := max_greatest ((Tensor.allIdx [3]).filterMap (fun u => (Conv.taps 2 1 1 [L] [t] u).map fun j => x.get (b :: c :: j)))
      (List.ne_nil_of_mem ((hmem (x.get [b, c, 2 * t])).2 ⟨2 * t, by omega, by omega, by omega, rfl⟩))
    simpa only [hmem] using this

/-- **C100.**  The same in two dimensions. -/
theorem pool_2d (x : Tensor ℝ) (B C H W : ℕ) (hx : x.shape = [B, C, H, W]) (hC : 0 < C) (hH : 1 ≤ H) (hW : 1 ≤ W) :
    ∃ y, maxpool 2 x = .ok y ∧ y.shape = [B, C, (H - 1) / 2 + 1, (W - 1) / 2 + 1] ∧ ∀ b c t t', t ≤ (H - 1) / 2 → t' ≤ (W - 1) / 2 →
      IsGreatest {v | ∃ h < H, ∃ l < W, 2 * t ≤ h + 1 ∧ h ≤ 2 * t + 1 ∧ 2 * t' ≤ l + 1 ∧ l ≤ 2 * t' + 1 ∧ v = x.get [b, c, h, l]} (y.get [b, c, t, t']) := by
  unfold maxpool
  rw [hx]
  simp only
  rw [if_neg (by simp; omega)]
  refine ⟨_, rfl, ?_, fun b c t t' ht ht' => ?_⟩
  · simp only [List.map_cons, List.map_nil, outLen]
    congr 3
  · simp only [List.headD_cons, List.tail_cons, Conv.maxAt, List.map_cons, List.map_nil]
    have hmem : ∀ v, v ∈ (Tensor.allIdx [3, 3]).filterMap (fun u => (Conv.taps 2 1 1 [H, W] [t, t'] u).map fun j => x.get (b :: c :: j)) ↔
        ∃ h < H, ∃ l < W, 2 * t ≤ h + 1 ∧ h ≤ 2 * t + 1 ∧ 2 * t' ≤ l + 1 ∧ l ≤ 2 * t' + 1 ∧ v = x.get [b, c, h, l] := by
      intro v
      rw [List.mem_filterMap]
      constructor
      · rintro ⟨u, hu, e⟩
        obtain ⟨u, u', rfl, h1, h1'⟩ := InB.eq2 ((mem_allIdx _ _).1 hu)
        rw [taps2_eq] at e
        by_cases hc : 1 ≤ t * 2 + u * 1 ∧ t * 2 + u * 1 < H + 1
        · by_cases hc' : 1 ≤ t' * 2 + u' * 1 ∧ t' * 2 + u' * 1 < W + 1
          · rw [tap_some _ _ _ _ _ _ hc, tap_some _ _ _ _ _ _ hc'] at e
            simp only [Option.map_some, Option.some.injEq] at e
            exact ⟨t * 2 + u * 1 - 1, by omega, t' * 2 + u' * 1 - 1, by omega, by omega, by omega, by omega, by omega, e.symm⟩
          · rw [tap_none _ _ _ _ _ _ hc'] at e; simp at e
        · rw [tap_none _ _ _ _ _ _ hc] at e; simp at e
      · rintro ⟨h, a1, l, a2, a3, a4, a5, a6, rfl⟩
        refine ⟨[h + 1 - 2 * t, l + 1 - 2 * t'], (mem_allIdx _ _).2 ⟨by omega, by omega, trivial⟩, ?_⟩
        rw [taps2_eq, tap_some _ _ _ _ _ _ (by omega), tap_some _ _ _ _ _ _ (by omega)]
        have q : t * 2 + (h + 1 - 2 * t) * 1 - 1 = h := by omega
        have q' : t' * 2 + (l + 1 - 2 * t') * 1 - 1 = l := by omega
        rw [q, q']; rfl
    have := max_greatest ((Tensor.allIdx [3, 3]).filterMap (fun u => (Conv.taps 2 1 1 [H, W] [t, t'] u).map fun j => x.get (b :: c :: j)))
      (List.ne_nil_of_mem ((hmem (x.get [b, c, 2 * t, 2 * t'])).2 ⟨2 * t, by omega, 2 * t', by omega, by omega, by omega, by omega, by omega, rfl⟩))
    simpa only [hmem] using this

/-- **C100.**  The head: the mean of every channel over time, then the linear layer. -/
theorem head_1d (net : Net) (hD : net.D = 1) (x : Tensor ℝ) (B L : ℕ) (hx : x.shape = [B, net.fcIn, L]) :
    ∃ y, head net x = .ok y ∧ y.shape = [B, net.classes] ∧ ∀ b o, y.get [b, o] =
      ∑ c ∈ range net.fcIn, net.fcW o c * ((∑ l ∈ range L, x.get [b, c, l]) / L) + net.fcB o := by
  unfold head
  rw [hx]
  simp only
  rw [if_neg (by simp [hD])]
  refine ⟨_, rfl, rfl, fun b o => ?_⟩
  simp only [List.headD_cons, List.tail_cons, Conv.linearAt, Conv.avgAt, numel, Nat.mul_one, sum_allIdx1]

/-- **C100.**  The same in two dimensions. -/
theorem head_2d (net : Net) (hD : net.D = 2) (x : Tensor ℝ) (B H W : ℕ) (hx : x.shape = [B, net.fcIn, H, W]) :
    ∃ y, head net x = .ok y ∧ y.shape = [B, net.classes] ∧ ∀ b o, y.get [b, o] =
      ∑ c ∈ range net.fcIn, net.fcW o c * ((∑ h ∈ range H, ∑ l ∈ range W, x.get [b, c, h, l]) / (H * W)) + net.fcB o := by
  unfold head
  rw [hx]
  simp only
  rw [if_neg (by simp [hD])]
  refine ⟨_, rfl, rfl, fun b o => ?_⟩
  simp only [List.headD_cons, List.tail_cons, Conv.linearAt, Conv.avgAt, numel, Nat.mul_one, sum_allIdx2, Nat.cast_mul]

/-- **C100.**  The default normalisation of the two-dimensional networks: within a batch element and a group of `C / g` consecutive channels, subtract the mean `m`,
divide by the root of the biased variance `v` plus `1e-5`, then apply the channel's weight and bias. -/
theorem group_norm_2d (groups : Option ℕ) (C g : ℕ) (hg : g = match groups with | none => C | some k => min C k) (h0 : 0 < g) (hd : C % g = 0) (p : Affine)
    (x : Tensor ℝ) (B H W : ℕ) (hx : x.shape = [B, C, H, W]) (hH : 0 < H) (hW : 0 < W) :
    ∃ f, groupNorm2D groups C = .ok f ∧ ∀ b, ∀ q < g, ∃ m v : ℝ,
      m * (C / g * H * W : ℕ) = ∑ c ∈ range (C / g), ∑ i ∈ range H, ∑ j ∈ range W, x.get [b, q * (C / g) + c, i, j] ∧
      v * (C / g * H * W : ℕ) = ∑ c ∈ range (C / g), ∑ i ∈ range H, ∑ j ∈ range W, (x.get [b, q * (C / g) + c, i, j] - m) ^ 2 ∧
      ∀ c < C / g, ∀ i j, f p x [b, q * (C / g) + c, i, j] =
        (x.get [b, q * (C / g) + c, i, j] - m) / Real.sqrt (v + 1 / 100000) * p.weight (q * (C / g) + c) + p.bias (q * (C / g) + c) := by
  have hC : 0 < C := by
    cases groups with
    | none => simp only at hg; omega
    | some k => simp only at hg; omega
  have hper : 0 < C / g := by
    have hle : g ≤ C := by
      cases groups with
      | none => simp only at hg; omega
      | some k => simp only at hg; omega
    exact Nat.div_pos hle h0
  have hgm : ∀ (q : ℕ) (u : ℕ → List ℕ → ℝ), groupMean (C / g) q [H, W] u * (C / g * H * W : ℕ) =
      ∑ c ∈ range (C / g), ∑ i ∈ range H, ∑ j ∈ range W, u (q * (C / g) + c) [i, j] := by
    intro q u
    have hn : C / g * numel [H, W] = C / g * H * W := by simp only [numel]; ring
    unfold groupMean
    rw [hn, div_mul_cancel₀]
    · exact Finset.sum_congr rfl fun c _ => sum_allIdx2 H W _
    · exact_mod_cast (Nat.mul_pos (Nat.mul_pos hper hH) hW).ne'
  have hget : GroupNorm.getter2D groups C = .ok g := by
    unfold GroupNorm.getter2D
    cases groups with
    | none => simp only at hg ⊢; rw [← hg] at hd ⊢; rw [if_neg (by omega), if_neg (by omega)]
    | some k => simp only at hg ⊢; rw [← hg, if_neg (by omega), if_neg (by omega)]
  unfold groupNorm2D
  rw [hget, res_bind_ok]
  refine ⟨_, rfl, fun b q hq => ?_⟩
  refine ⟨groupMean (C / g) q [H, W] fun c j => x.get (b :: c :: j),
    groupMean (C / g) q [H, W] fun c j => (x.get (b :: c :: j) - groupMean (C / g) q [H, W] fun c j => x.get (b :: c :: j)) ^ 2, hgm _ _, hgm _ _, fun c hc i j => ?_⟩
  have hdiv : (q * (C / g) + c) / (C / g) = q := by rw [Nat.mul_comm, Nat.mul_add_div hper, Nat.div_eq_of_lt hc, Nat.add_zero]
  simp only [hx, List.headD_cons, List.tail_cons, hdiv]

/-- Non-vacuity: a unit impulse at sample 2 passes a kernel of size 3 with dilation 2 to samples 0, 2 and 4, the last kernel entry first. -/
example : ∃ m y, convN 1 1 1 3 1 1 2 (fun _ _ u => [10, 20, 30].getD (u.headD 0) 0) = .ok m ∧ m ⟨[1, 1, 5], fun i => if i.getD 2 0 = 2 then 1 else 0⟩ = .ok y ∧
    y.get [0, 0, 0] = 30 ∧ y.get [0, 0, 1] = 0 ∧ y.get [0, 0, 2] = 20 ∧ y.get [0, 0, 4] = 10 := by
  obtain ⟨m, y, a, b, _, hy⟩ := block_conv_1d 1 1 3 1 2 1 (fun _ _ u => [10, 20, 30].getD (u.headD 0) 0) rfl (by norm_num) (by norm_num) rfl rfl (by norm_num) (by norm_num)
    ⟨[1, 1, 5], fun i => if i.getD 2 0 = 2 then 1 else 0⟩ 1 5 rfl (by norm_num)
  refine ⟨m, y, a, b, ?_, ?_, ?_, ?_⟩ <;> rw [hy] <;> simp [Finset.sum_range_succ, ext1]

/-- Non-vacuity: pooling five samples. -/
example : ∃ y, maxpool 1 ⟨[1, 1, 5], fun i => ([3, 1, 4, 1, 5] : List ℝ).getD (i.getD 2 0) 0⟩ = .ok y ∧ y.shape = [1, 1, 3] ∧ y.get [0, 0, 1] = 4 := by
  obtain ⟨y, a, b, hy⟩ := pool_1d ⟨[1, 1, 5], fun i => ([3, 1, 4, 1, 5] : List ℝ).getD (i.getD 2 0) 0⟩ 1 1 5 rfl (by norm_num) (by norm_num)
  refine ⟨y, a, b, (hy 0 0 1 (by norm_num)).unique ⟨⟨2, by norm_num, by norm_num, by norm_num, by simp⟩, ?_⟩⟩
  rintro v ⟨l, h1, h2, h3, rfl⟩
  have : l = 1 ∨ l = 2 ∨ l = 3 := by omega
  rcases this with rfl | rfl | rfl <;> norm_num

end Verif.ResNet
