import Verif.Model.Autoencoder
import Verif.Lemmas.Fold
import Verif.Lemmas.Spectral
import Mathlib.Tactic.Linarith
import Mathlib.Tactic.NormNum
import Mathlib.Tactic.Ring
/-!
# Properties of the autoencoder modules (C61, C62, C63)
-/
set_option linter.unusedSimpArgs false
set_option linter.unusedVariables false
namespace Verif.Autoencoder

/-! ## `match_size` -/

/-- **C61 (growing, equal, or one sample too long).**  For a target `n` at least `L - 1` the result has length `n`: if
`n ≥ L` the input sits at offset `(n - L) / 2` in zeros, for `n = L - 1` the first sample is dropped.
(Missing: shrinking by two or more, where the claim is false — `match_size_crop_empty`.) -/
theorem match_size_partial (x : Tensor ℝ) (B C L : ℕ) (hx : x.shape = [B, C, L]) (n : ℕ) (hn : L ≤ n + 1) :
    ∃ y, matchSize x n = .ok y ∧ y.shape = [B, C, n] ∧
      ∀ b c l, l < n → y.get [b, c, l] =
        if L ≤ n then (if (n - L) / 2 ≤ l ∧ l < (n - L) / 2 + L then x.get [b, c, l - (n - L) / 2] else 0)
        else x.get [b, c, l + 1] := by
  unfold matchSize
  rw [hx]
  simp only
  rcases lt_trichotomy n L with h | h | h
  · have e : L = n + 1 := by omega
    subst e
    rw [if_neg (by push_cast; omega), if_pos (by push_cast; omega)]
    have e1 : ((n : Int) - ((n + 1 : ℕ) : Int)) = -1 := by push_cast; ring
    have e2 : Int.fdiv (-1) 2 = -1 := rfl
    rw [e1, e2]
    refine ⟨_, rfl, ?_, ?_⟩
    · simp [slice3, negOrNone, pySliceBound]
    · intro b c l hl
      simp [slice3, negOrNone, pySliceBound]
  · subst h
    rw [if_neg (by omega), if_neg (by omega)]
    refine ⟨x, rfl, hx, ?_⟩
    intro b c l hl
    simp [hl]
  · rw [if_pos (by omega)]
    refine ⟨_, rfl, ?_, ?_⟩
    · simp only [pad3, List.cons.injEq, true_and, and_true]
      have : Int.fdiv ((n : Int) - L) 2 = (((n - L) / 2 : ℕ) : Int) := by
        rw [Int.fdiv_eq_ediv_of_nonneg _ (by norm_num)]; omega
      rw [this]; omega
    · intro b c l hl
      have : Int.fdiv ((n : Int) - L) 2 = (((n - L) / 2 : ℕ) : Int) := by
        rw [Int.fdiv_eq_ediv_of_nonneg _ (by norm_num)]; omega
      simp only [pad3, this, Int.toNat_natCast, List.getD_cons_zero, List.getD_cons_succ]
      rw [if_pos (show L ≤ n by omega)]

example : ∃ y, matchSize ⟨[1, 1, 3], fun i => (i.getD 2 0 : ℝ) + 1⟩ 8 = .ok y ∧ y.shape = [1, 1, 8] ∧
    y.get [0, 0, 1] = 0 ∧ y.get [0, 0, 2] = 1 ∧ y.get [0, 0, 4] = 3 ∧ y.get [0, 0, 5] = 0 := by
  obtain ⟨y, h1, h2, h3⟩ := match_size_partial ⟨[1, 1, 3], fun i => (i.getD 2 0 : ℝ) + 1⟩ 1 1 3 rfl 8 (by norm_num)
  refine ⟨y, h1, h2, ?_, ?_, ?_, ?_⟩ <;> rw [h3 _ _ _ (by norm_num)] <;> norm_num

/-- **C61 (finding: negation for shrinking).**  Asked to remove two or more samples, the function returns an EMPTY
tensor instead of one of the requested length. -/
theorem match_size_crop_empty (x : Tensor ℝ) (B C L : ℕ) (hx : x.shape = [B, C, L]) (n : ℕ) (hn : n + 2 ≤ L) :
    ∃ y, matchSize x n = .ok y ∧ y.shape = [B, C, 0] := by
  unfold matchSize
  rw [hx]
  simp only
  rw [if_neg (by omega), if_pos (by omega)]
  refine ⟨_, rfl, ?_⟩
  simp only [slice3, List.cons.injEq, true_and, and_true]
  obtain ⟨d, hd⟩ : ∃ d : ℕ, L = n + d := ⟨L - n, by omega⟩
  have e1 : (n : Int) - (L : Int) = -(d : Int) := by omega
  rw [e1, Int.fdiv_eq_ediv_of_nonneg _ (by norm_num)]
  have e2 : negOrNone (-(d : Int) - -(d : Int) / 2) = some (-(-(d : Int) - -(d : Int) / 2)) := by
    unfold negOrNone
    rw [if_neg (by omega)]
  rw [e2]
  simp only [pySliceBound]
  rw [if_neg (by omega), if_neg (by omega)]
  omega

example : ∃ y, matchSize ⟨[1, 1, 10], fun _ => 1⟩ 6 = .ok y ∧ y.shape = [1, 1, 0] :=
  match_size_crop_empty _ 1 1 10 rfl 6 (by norm_num)

/-! ## Skip connections -/

/-- **C63 (add).**  For a state of the same batch and channels, at most one sample shorter than the input, the output has the
state's shape and adds the resized input entrywise; for equal lengths it is the plain sum. -/
theorem add_skip_correct (x s : Tensor ℝ) (B C L n : ℕ) (hx : x.shape = [B, C, L]) (hs : s.shape = [B, C, n]) (hn : L ≤ n + 1) :
    ∃ r y, matchSize x n = .ok r ∧ addSkip x s = .ok y ∧ y.shape = [B, C, n] ∧
      (∀ b c l, b < B → c < C → l < n → y.get [b, c, l] = r.get [b, c, l] + s.get [b, c, l]) ∧
      (L = n → ∀ b c l, b < B → c < C → l < n → y.get [b, c, l] = x.get [b, c, l] + s.get [b, c, l]) := by
  obtain ⟨r, h1, h2, h3⟩ := match_size_partial x B C L hx n hn
  have hl : s.lastDim = .ok n := by simp [Tensor.lastDim, hs]
  obtain ⟨y, y1, y2, y3⟩ := Verif.Spectral.zipB_same (· + ·) r s (by rw [h2, hs])
  refine ⟨r, y, h1, ?_, by rw [y2, h2], ?_, ?_⟩
  · simp only [addSkip, skipBase, hl, res_bind_ok, h1, y1]
  · intro b c l hb hc hl
    exact y3 [b, c, l] (by rw [h2]; exact ⟨hb, hc, hl, trivial⟩)
  · intro e b c l hb hc hl
    rw [y3 [b, c, l] (by rw [h2]; exact ⟨hb, hc, hl, trivial⟩), h3 b c l hl]
    subst e
    simp [hl]

example : ∃ y, addSkip ⟨[1, 2, 3], fun _ => 1⟩ ⟨[1, 2, 3], fun i => i.getD 2 0⟩ = .ok y ∧ y.get [0, 1, 2] = 3 := by
  obtain ⟨r, y, -, h2, h3, -, h5⟩ := add_skip_correct ⟨[1, 2, 3], fun _ => 1⟩ ⟨[1, 2, 3], fun i => i.getD 2 0⟩ 1 2 3 3 rfl rfl (by norm_num)
  refine ⟨y, h2, ?_⟩
  rw [h5 rfl 0 1 2 (by norm_num) (by norm_num) (by norm_num)]
  norm_num

theorem catGet_append (a b : List (Tensor ℝ)) (i c l : ℕ) :
    catGet (a ++ b) i ((a.map chans).sum + c) l = catGet b i c l := by
  induction a with
  | nil => simp
  | cons t a ih =>
    simp only [List.cons_append, catGet, List.map_cons, List.sum_cons]
    rw [if_neg (by omega)]
    rw [show chans t + (a.map chans).sum + c - chans t = (a.map chans).sum + c by omega, ih]

/-- The `j`-th chunk of `g` channels. -/
def chunk (g : ℕ) (x : Tensor ℝ) (B L j : ℕ) : Tensor ℝ :=
  ⟨[B, g, L], fun i => x.get (i.set 1 (j * g + i.getD 1 0))⟩

theorem split1_eq (x : Tensor ℝ) (B q g L : ℕ) (hg : 0 < g) (hx : x.shape = [B, q * g, L]) :
    split1 g x = (List.range q).map (chunk g x B L) := by
  unfold split1
  have hc : chans x = q * g := by simp [chans, hx]
  have hq : (q * g + g - 1) / g = q := by
    rw [show q * g + g - 1 = (g - 1) + q * g by omega, Nat.add_mul_div_right _ _ hg, Nat.div_eq_of_lt (by omega)]; omega
  simp only [hc, hq]
  refine List.map_congr_left fun j hj => ?_
  have hj' : j < q := by simpa using hj
  have : g ≤ q * g - j * g := by
    rw [← Nat.sub_mul]; exact Nat.le_mul_of_pos_left g (by omega)
  simp [chunk, hx, Nat.min_eq_left this]

theorem sum_chunks (g : ℕ) (x s : Tensor ℝ) (B L : ℕ) (l : List ℕ) :
    ((l.flatMap fun j => [chunk g x B L j, chunk g s B L j]).map chans).sum = 2 * g * l.length := by
  induction l with
  | nil => simp
  | cons a l ih =>
    simp only [List.flatMap_cons, List.cons_append, List.nil_append, List.map_cons, List.sum_cons, ih, List.length_cons]
    simp only [chunk, chans, List.getD_cons_succ, List.getD_cons_zero]
    ring

/-- **C63 (concatenation).**  For input and state of the same shape `(B, q g, L)` with `g ≥ 1` (`g` the `groups` argument)
the output has `2 q g` channels: blocks of `g` input channels alternate with the same blocks of state channels. -/
theorem concat_skip_correct (g : ℕ) (hg : 0 < g) (x s : Tensor ℝ) (B q L : ℕ) (hx : x.shape = [B, q * g, L])
    (hs : s.shape = [B, q * g, L]) (hq : g = 1 ∨ 0 < q) :
    ∃ y, concatSkip g x s = .ok y ∧ y.shape = [B, concatOutChannels (q * g), L] ∧
      (g ≠ 1 → ∀ b j r l, j < q → r < g → y.get [b, 2 * g * j + r, l] = x.get [b, j * g + r, l] ∧
        y.get [b, 2 * g * j + g + r, l] = s.get [b, j * g + r, l]) ∧
      (g = 1 → ∀ b c l, c < q → y.get [b, c, l] = x.get [b, c, l] ∧ y.get [b, q + c, l] = s.get [b, c, l]) := by
  have hl : s.lastDim = .ok L := by simp [Tensor.lastDim, hs]
  have hm : matchSize x L = .ok x := by
    unfold matchSize; rw [hx]; simp
  have hcx : chans x = q * g := by simp [chans, hx]
  have hcs : chans s = q * g := by simp [chans, hs]
  unfold concatSkip
  simp only [skipBase, hl, res_bind_ok, hm]
  by_cases h1 : g = 1
  · rw [if_pos h1]
    unfold cat1
    simp only [hx]
    rw [if_pos (by simp [hx, hs, hcx, hcs])]
    refine ⟨_, rfl, ?_, fun h => absurd h1 h, ?_⟩
    · simp [hcx, hcs, concatOutChannels]; ring
    · intro _ b c l hc
      subst h1
      simp only [mul_one] at hcx hcs
      simp only [List.getD_cons_zero, List.getD_cons_succ, catGet, hcx, hcs]
      rw [if_pos hc, if_neg (by omega), Nat.add_sub_cancel_left, if_pos hc]
      exact ⟨rfl, rfl⟩
  · rw [if_neg h1, if_neg (by omega), if_neg (by rw [hcx]; simp)]
    have hq0 : 0 < q := by omega
    have hfr : interleave (split1 g x) (split1 g s) = .ok ((List.range q).flatMap fun j => [chunk g x B L j, chunk g s B L j]) := by
      rw [split1_eq x B q g L hg hx, split1_eq s B q g L hg hs]
      unfold interleave
      rw [if_pos (by simp)]
      congr 1
      rw [List.zip_map', List.flatMap_map]
    rw [hfr]
    simp only [res_bind_ok]
    have hall : ((List.range q).flatMap fun j => [chunk g x B L j, chunk g s B L j]).all fun u => decide (u.shape = [B, chans u, L]) := by
      rw [List.all_eq_true]
      intro u hu
      obtain ⟨j, -, hj⟩ := List.mem_flatMap.1 hu
      simp only [List.mem_cons, List.not_mem_nil, or_false] at hj
      rcases hj with rfl | rfl <;> simp [chunk, chans]
    have hne : ∃ t ts, ((List.range q).flatMap fun j => [chunk g x B L j, chunk g s B L j]) = t :: ts ∧ t.shape = [B, g, L] := by
      obtain ⟨q', rfl⟩ : ∃ q', q = q' + 1 := ⟨q - 1, by omega⟩
      rw [List.range_succ_eq_map]
      exact ⟨_, _, rfl, rfl⟩
    obtain ⟨t, ts, ht, hts⟩ := hne
    have hcat : cat1 ((List.range q).flatMap fun j => [chunk g x B L j, chunk g s B L j]) =
        .ok ⟨[B, 2 * g * q, L], fun i => catGet ((List.range q).flatMap fun j => [chunk g x B L j, chunk g s B L j]) (i.getD 0 0) (i.getD 1 0) (i.getD 2 0)⟩ := by
      have hsum := sum_chunks g x s B L (List.range q)
      rw [List.length_range] at hsum
      rw [ht] at hall hsum ⊢
      unfold cat1
      simp only [hts]
      rw [if_pos hall, hsum]
    rw [hcat]
    refine ⟨_, rfl, ?_, ?_, fun h => absurd h h1⟩
    · simp [concatOutChannels]; ring
    · intro _ b j r l hj hr
      have hsplit : (List.range q).flatMap (fun j => [chunk g x B L j, chunk g s B L j]) =
          ((List.range j).flatMap fun j => [chunk g x B L j, chunk g s B L j]) ++
          (chunk g x B L j :: chunk g s B L j :: ((List.range (q - j - 1)).map fun k => j + 1 + k).flatMap fun j => [chunk g x B L j, chunk g s B L j]) := by
        have : List.range q = List.range j ++ (j :: (List.range (q - j - 1)).map fun k => j + 1 + k) := by
          conv_lhs => rw [show q = j + ((q - j - 1) + 1) by omega, List.range_add, List.range_succ_eq_map]
          simp [Function.comp_def]
          intro a _; omega
        conv_lhs => rw [this]
        rw [List.flatMap_append]
        rfl
      simp only [List.getD_cons_zero, List.getD_cons_succ]
      rw [hsplit]
      have hs' := sum_chunks g x s B L (List.range j)
      rw [List.length_range] at hs'
      refine ⟨?_, ?_⟩
      · rw [← hs', catGet_append]
        simp [catGet, chunk, chans, hr]
      · rw [← hs', add_assoc, catGet_append]
        simp [catGet, chunk, chans, hr]

/-- **C63 (every channel exactly once).**  There are positions for the input channels and for the state channels that
together hit every output channel exactly once. -/
theorem concat_skip_bijection (g : ℕ) (hg : 0 < g) (x s : Tensor ℝ) (B q L : ℕ) (hx : x.shape = [B, q * g, L])
    (hs : s.shape = [B, q * g, L]) (hq : g = 1 ∨ 0 < q) :
    ∃ y, ∃ px ps : ℕ → ℕ, concatSkip g x s = .ok y ∧ y.shape = [B, 2 * (q * g), L] ∧
      (∀ c < q * g, px c < 2 * (q * g) ∧ ps c < 2 * (q * g)) ∧
      (∀ c < q * g, ∀ c' < q * g, (px c = px c' → c = c') ∧ (ps c = ps c' → c = c') ∧ px c ≠ ps c') ∧
      (∀ k < 2 * (q * g), ∃ c < q * g, k = px c ∨ k = ps c) ∧
      ∀ b c l, c < q * g → y.get [b, px c, l] = x.get [b, c, l] ∧ y.get [b, ps c, l] = s.get [b, c, l] := by
  obtain ⟨y, h1, h2, h3, h4⟩ := concat_skip_correct g hg x s B q L hx hs hq
  by_cases hg1 : g = 1
  · subst hg1
    refine ⟨y, fun c => c, fun c => q + c, h1, by rw [h2]; rfl, ?_, ?_, ?_, ?_⟩
    · intro c hc; constructor <;> dsimp only <;> omega
    · intro c hc c' hc'; dsimp only; refine ⟨?_, ?_, ?_⟩ <;> intros <;> omega
    · intro k hk
      by_cases h : k < q
      · exact ⟨k, by omega, Or.inl rfl⟩
      · exact ⟨k - q, by omega, Or.inr (by dsimp only; omega)⟩
    · intro b c l hc
      exact h4 rfl b c l (by omega)
  · refine ⟨y, fun c => 2 * g * (c / g) + c % g, fun c => 2 * g * (c / g) + g + c % g, h1, by rw [h2]; rfl, ?_, ?_, ?_, ?_⟩
    · intro c hc
      have hm := Nat.mod_lt c hg
      have hd : c / g < q := by rw [Nat.div_lt_iff_lt_mul hg]; exact hc
      have : 2 * g * (c / g + 1) ≤ 2 * g * q := Nat.mul_le_mul_left _ hd
      have e : 2 * g * q = 2 * (q * g) := by ring
      rw [mul_add, mul_one] at this
      constructor <;> simp only <;> omega
    · intro c _ c' _
      dsimp only
      have hm := Nat.mod_lt c hg
      have hm' := Nat.mod_lt c' hg
      have d1 := Nat.div_add_mod c g
      have d2 := Nat.div_add_mod c' g
      generalize c % g = r at *
      generalize c' % g = r' at *
      generalize c / g = a at *
      generalize c' / g = a' at *
      have key : ∀ u v : ℕ, u < 2 * g → v < 2 * g → 2 * g * a + u = 2 * g * a' + v → a = a' ∧ u = v := by
        intro u v hu hv h
        have h1 : (u + 2 * g * a) / (2 * g) = (v + 2 * g * a') / (2 * g) := by congr 1; omega
        rw [Nat.add_mul_div_left _ _ (by omega), Nat.add_mul_div_left _ _ (by omega), Nat.div_eq_of_lt hu, Nat.div_eq_of_lt hv] at h1
        have : a = a' := by omega
        subst this
        exact ⟨rfl, by omega⟩
      refine ⟨?_, ?_, ?_⟩
      · intro h
        obtain ⟨e1, e2⟩ := key r r' (by omega) (by omega) h
        subst e1; omega
      · intro h
        obtain ⟨e1, e2⟩ := key (g + r) (g + r') (by omega) (by omega) (by omega)
        subst e1; omega
      · intro h
        obtain ⟨e1, e2⟩ := key r (g + r') (by omega) (by omega) (by omega)
        omega
    · intro k hk
      have h2g : 0 < 2 * g := by omega
      have hm := Nat.mod_lt k h2g
      have hd : k / (2 * g) < q := by
        rw [Nat.div_lt_iff_lt_mul h2g]; calc k < 2 * (q * g) := hk
          _ = q * (2 * g) := by ring
      have hk' := Nat.div_add_mod k (2 * g)
      generalize k / (2 * g) = j at *
      generalize k % (2 * g) = r at *
      have hj : (j + 1) * g ≤ q * g := Nat.mul_le_mul_right _ hd
      rw [add_mul, one_mul] at hj
      by_cases h : r < g
      · refine ⟨j * g + r, by omega, Or.inl ?_⟩
        simp only
        rw [Nat.add_comm (j * g), Nat.add_mul_div_right _ _ hg, Nat.div_eq_of_lt h, Nat.add_mul_mod_self_right, Nat.mod_eq_of_lt h]
        rw [Nat.zero_add]; omega
      · refine ⟨j * g + (r - g), by omega, Or.inr ?_⟩
        simp only
        rw [Nat.add_comm (j * g), Nat.add_mul_div_right _ _ hg, Nat.div_eq_of_lt (by omega), Nat.add_mul_mod_self_right,
          Nat.mod_eq_of_lt (by omega)]
        rw [Nat.zero_add]; omega
    · intro b c l hc
      have hd : c / g < q := by rw [Nat.div_lt_iff_lt_mul hg]; exact hc
      have := h3 hg1 b (c / g) (c % g) l hd (Nat.mod_lt c hg)
      rw [Nat.div_add_mod' c g] at this
      exact this

example : ∃ y, concatSkip 2 ⟨[1, 4, 3], fun i => i.getD 1 0⟩ ⟨[1, 4, 3], fun i => 10 + i.getD 1 0⟩ = .ok y ∧ y.shape = [1, 8, 3] ∧
    y.get [0, 1, 0] = 1 ∧ y.get [0, 2, 0] = 10 ∧ y.get [0, 4, 0] = 2 ∧ y.get [0, 7, 0] = 13 := by
  obtain ⟨y, h1, h2, h3, -⟩ := concat_skip_correct 2 (by norm_num) ⟨[1, 4, 3], fun i => i.getD 1 0⟩ ⟨[1, 4, 3], fun i => 10 + i.getD 1 0⟩ 1 2 3
    rfl rfl (by norm_num)
  refine ⟨y, h1, h2, ?_, ?_, ?_, ?_⟩
  · rw [(h3 (by norm_num) 0 0 1 0 (by norm_num) (by norm_num)).1]; norm_num
  · rw [(h3 (by norm_num) 0 0 0 0 (by norm_num) (by norm_num)).2]; norm_num
  · rw [(h3 (by norm_num) 0 1 0 0 (by norm_num) (by norm_num)).1]; norm_num
  · rw [(h3 (by norm_num) 0 1 1 0 (by norm_num) (by norm_num)).2]; norm_num

/-- **C63 (rejection).**  A number of channels that is not a multiple of `groups` is a ValueError. -/
theorem concat_skip_rejects (g : ℕ) (hg : 0 < g) (x s : Tensor ℝ) (B C B' C' L : ℕ) (hx : x.shape = [B, C, L])
    (hs : s.shape = [B', C', L]) (hC : C % g ≠ 0) : concatSkip g x s = .error .value := by
  have hl : s.lastDim = .ok L := by simp [Tensor.lastDim, hs]
  have hm : matchSize x L = .ok x := by
    unfold matchSize; rw [hx]; simp
  unfold concatSkip
  simp only [skipBase, hl, res_bind_ok, hm]
  rw [if_neg (by rintro rfl; exact hC (Nat.mod_one C)), if_neg (by omega), if_pos (by simpa [chans, hx] using hC)]

example : concatSkip 3 ⟨[1, 4, 3], fun _ => 0⟩ ⟨[1, 4, 3], fun _ => 0⟩ = .error .value :=
  concat_skip_rejects 3 (by norm_num) _ _ 1 4 1 4 3 rfl rfl (by norm_num)

/-- **C63 (finding).**  With as many groups as channels (one channel per group) the grouped concatenation is the plain one:
the split is into pieces of `groups` channels, not into `groups` pieces, so input and state are not paired per group. -/
theorem concat_groups_is_plain (g : ℕ) (hg : 0 < g) (x s y z : Tensor ℝ) (B L : ℕ) (hx : x.shape = [B, g, L]) (hs : s.shape = [B, g, L])
    (hy : concatSkip g x s = .ok y) (hz : concatSkip 1 x s = .ok z) : y.shape = z.shape ∧ ∀ b c l, c < 2 * g → y.get [b, c, l] = z.get [b, c, l] := by
  obtain ⟨y', h1, h2, h3, -⟩ := concat_skip_correct g hg x s B 1 L (by rw [hx, one_mul]) (by rw [hs, one_mul]) (by omega)
  obtain ⟨z', k1, k2, -, k4⟩ := concat_skip_correct 1 (by norm_num) x s B g L (by rw [hx, mul_one]) (by rw [hs, mul_one]) (by omega)
  rw [hy] at h1; obtain rfl := Except.ok.inj h1
  rw [hz] at k1; obtain rfl := Except.ok.inj k1
  refine ⟨by rw [h2, k2]; simp, ?_⟩
  intro b c l hc
  by_cases hg1 : g = 1
  · subst hg1
    rw [hy] at hz
    rw [Except.ok.inj hz]
  · by_cases h : c < g
    · have := (h3 hg1 b 0 c l (by norm_num) h).1
      rw [(k4 rfl b c l h).1]
      simpa using this
    · have a := (h3 hg1 b 0 (c - g) l (by norm_num) (by omega)).2
      have b' := (k4 rfl b (c - g) l (by omega)).2
      rw [show g + (c - g) = c by omega] at b'
      rw [b']
      rw [show 2 * g * 0 + g + (c - g) = c by omega] at a
      simpa using a

example (y z : Tensor ℝ) (hy : concatSkip 4 ⟨[1, 4, 2], fun i => i.getD 1 0⟩ ⟨[1, 4, 2], fun _ => 9⟩ = .ok y)
    (hz : concatSkip 1 ⟨[1, 4, 2], fun i => i.getD 1 0⟩ ⟨[1, 4, 2], fun _ => 9⟩ = .ok z) : y.get [0, 1, 0] = z.get [0, 1, 0] :=
  (concat_groups_is_plain 4 (by norm_num) _ _ y z 1 2 rfl rfl hy hz).2 0 1 0 (by norm_num)

end Verif.Autoencoder
