import Verif.Model.Resample
import Verif.Lemmas.Tensor
import Mathlib.Tactic.Linarith
import Mathlib.Tactic.FieldSimp
import Mathlib.Tactic.Ring
import Mathlib.Tactic.NormNum
import Mathlib.Tactic.IntervalCases
import Mathlib.Algebra.Order.Archimedean.Real.Basic
import Mathlib.Data.List.GetD
/-!
# Properties of the resampling operations
-/
set_option linter.unusedVariables false
namespace Verif.Resample

theorem source_same (a j : ℕ) (ha : 0 < a) : source a a j = j := by
  unfold source
  rw [div_self (by exact_mod_cast ha.ne')]; ring

theorem source_lt (a b j : ℕ) (ha : 0 < a) (hj : j < b) : source a b j < (a : ℝ) - 1 / 2 ∧ -(1 / 2) < source a b j := by
  have hb : (0 : ℝ) < b := by exact_mod_cast (by omega : 0 < b)
  have ha' : (0 : ℝ) < a := by exact_mod_cast ha
  have hj' : (j : ℝ) + 1 ≤ b := by exact_mod_cast hj
  have hj0 : (0 : ℝ) ≤ j := by positivity
  unfold source
  constructor
  · have : ((j : ℝ) + 1 / 2) * ((a : ℝ) / b) < a := by
      rw [mul_div_assoc', div_lt_iff₀ hb, mul_comm]
      gcongr; linarith
    linarith
  · have : 0 < ((j : ℝ) + 1 / 2) * ((a : ℝ) / b) := by positivity
    linarith

/-- Mode "bilinear": an output entry lies between two neighbouring input entries. -/
theorem linear_between (a b : ℕ) (v : ℕ → ℝ) (j : ℕ) (ha : 0 < a) (hj : j < b) :
    ∃ i i' : ℕ, ∃ l : ℝ, i < a ∧ i' < a ∧ i ≤ i' ∧ i' ≤ i + 1 ∧ 0 ≤ l ∧ l ≤ 1 ∧ linear a b v j = (1 - l) * v i + l * v i' := by
  obtain ⟨h1, -⟩ := source_lt a b j ha hj
  set s := max (source a b j) 0 with hs
  have hs0 : 0 ≤ s := le_max_right _ _
  have hlt : s < a := by
    have : (0 : ℝ) < a := by exact_mod_cast ha
    exact max_lt (by linarith) this
  have hi : ⌊s⌋₊ < a := (Nat.floor_lt hs0).2 hlt
  refine ⟨⌊s⌋₊, ⌊s⌋₊ + if ⌊s⌋₊ < a - 1 then 1 else 0, s - ⌊s⌋₊, hi, ?_, by omega, by split_ifs <;> omega, ?_, ?_, rfl⟩
  · split_ifs <;> omega
  · have := Nat.floor_le hs0; linarith
  · have := Nat.lt_floor_add_one s; linarith

/-- Mode "bilinear" stays within any bounds of the data. -/
theorem linear_bounds (a b : ℕ) (v : ℕ → ℝ) (j : ℕ) (lo hi : ℝ) (ha : 0 < a) (hj : j < b) (hv : ∀ i < a, lo ≤ v i ∧ v i ≤ hi) :
    lo ≤ linear a b v j ∧ linear a b v j ≤ hi := by
  obtain ⟨i, i', l, h1, h2, -, -, h3, h4, h5⟩ := linear_between a b v j ha hj
  have p := hv i h1
  have q := hv i' h2
  have h6 : 0 ≤ 1 - l := by linarith
  rw [h5]
  constructor
  · nlinarith [mul_le_mul_of_nonneg_left p.1 h6, mul_le_mul_of_nonneg_left q.1 h3]
  · nlinarith [mul_le_mul_of_nonneg_left p.2 h6, mul_le_mul_of_nonneg_left q.2 h3]

example : 1 ≤ linear 3 7 (fun i => (i : ℝ) + 1) 4 ∧ linear 3 7 (fun i => (i : ℝ) + 1) 4 ≤ 3 :=
  linear_bounds 3 7 _ 4 1 3 (by decide) (by decide) fun i hi => by interval_cases i <;> norm_num

/-- Mode "bilinear" maps an affine function of the index to the same function of the source coordinate, moved into range. -/
theorem linear_affine (a b : ℕ) (α β : ℝ) (j : ℕ) (ha : 0 < a) (hj : j < b) :
    linear a b (fun i => α + β * i) j = α + β * min (max (source a b j) 0) (a - 1) := by
  obtain ⟨h1, -⟩ := source_lt a b j ha hj
  unfold linear
  dsimp only
  set s := max (source a b j) 0 with hs
  have hs0 : 0 ≤ s := le_max_right _ _
  have hlt : s < a := by
    have : (0 : ℝ) < a := by exact_mod_cast ha
    exact max_lt (by linarith) this
  have hi : ⌊s⌋₊ < a := (Nat.floor_lt hs0).2 hlt
  have hfl := Nat.floor_le hs0
  have hfu := Nat.lt_floor_add_one s
  split_ifs with h
  · have : (⌊s⌋₊ : ℝ) + 1 ≤ a - 1 := by
      have : ((⌊s⌋₊ + 2 : ℕ) : ℝ) ≤ a := by exact_mod_cast (by omega : ⌊s⌋₊ + 2 ≤ a)
      push_cast at this; linarith
    rw [min_eq_left (by linarith)]
    push_cast; ring
  · have e : ⌊s⌋₊ = a - 1 := by omega
    have : (⌊s⌋₊ : ℝ) = a - 1 := by rw [e, Nat.cast_sub ha]; simp
    rw [min_eq_right (by linarith)]
    push_cast; rw [this]; ring

/-- Both modes leave an axis whose size does not change alone. -/
theorem linear_same (a : ℕ) (v : ℕ → ℝ) (j : ℕ) (hj : j < a) : linear a a v j = v j := by
  unfold linear
  dsimp only
  rw [source_same a j (by omega), max_eq_left (by positivity), Nat.floor_natCast]
  ring

theorem cubic_same (a : ℕ) (v : ℕ → ℝ) (j : ℕ) (hj : j < a) : cubic a a v j = v j := by
  unfold cubic
  dsimp only
  rw [source_same a j (by omega), Int.floor_natCast]
  have : (min (max ((j : ℤ) + 0) 0) ((a : ℤ) - 1)).toNat = j := by omega
  rw [this]
  simp only [Int.cast_natCast, sub_self]
  unfold conv1 conv2
  norm_num

/-- The weights of mode "bicubic" add up to one. -/
theorem cubic_weights (t : ℝ) : conv2 (t + 1) + conv1 t + conv1 (1 - t) + conv2 (1 - t + 1) = 1 := by
  unfold conv1 conv2; ring

/-- Mode "bicubic" reproduces constants. -/
theorem cubic_const (a b : ℕ) (c : ℝ) (j : ℕ) : cubic a b (fun _ => c) j = c := by
  unfold cubic
  dsimp only
  rw [← add_mul, ← add_mul, ← add_mul, cubic_weights, one_mul]

/-- The entries read are entries of the input. -/
theorem clampIdx_lt (a : ℕ) (ha : 0 < a) (i : ℤ) : (min (max i 0) ((a : ℤ) - 1)).toNat < a := by omega

theorem linear_congr (a b : ℕ) (v w : ℕ → ℝ) (j : ℕ) (ha : 0 < a) (hj : j < b) (h : ∀ i < a, v i = w i) : linear a b v j = linear a b w j := by
  obtain ⟨h1, -⟩ := source_lt a b j ha hj
  unfold linear
  dsimp only
  set s := max (source a b j) 0 with hs
  have hs0 : 0 ≤ s := le_max_right _ _
  have hlt : s < a := by
    have : (0 : ℝ) < a := by exact_mod_cast ha
    exact max_lt (by linarith) this
  have hi : ⌊s⌋₊ < a := (Nat.floor_lt hs0).2 hlt
  rw [h _ hi, h _ (by split_ifs <;> omega)]

theorem cubic_congr (a b : ℕ) (v w : ℕ → ℝ) (j : ℕ) (ha : 0 < a) (hj : j < b) (h : ∀ i < a, v i = w i) : cubic a b v j = cubic a b w j := by
  unfold cubic
  dsimp only
  rw [h _ (clampIdx_lt a ha _), h _ (clampIdx_lt a ha _), h _ (clampIdx_lt a ha _), h _ (clampIdx_lt a ha _)]

/-- Mode "bicubic" stays within 5/4 of the bounds of the data (the weights' absolute values add up to at most 5/4 + 1/4). -/
theorem cubic_weights_sign (t : ℝ) (h0 : 0 ≤ t) (h1 : t ≤ 1) :
    conv2 (t + 1) ≤ 0 ∧ 0 ≤ conv1 t ∧ 0 ≤ conv1 (1 - t) ∧ conv2 (1 - t + 1) ≤ 0 ∧ -(3 / 16) ≤ conv2 (t + 1) + conv2 (1 - t + 1) := by
  have e1 : conv2 (t + 1) = -(3 / 4) * (t * (1 - t) ^ 2) := by unfold conv2; ring
  have e2 : conv2 (1 - t + 1) = -(3 / 4) * (t ^ 2 * (1 - t)) := by unfold conv2; ring
  have e3 : conv1 t = (1 - t) * (1 + t - 5 / 4 * t ^ 2) := by unfold conv1; ring
  have e4 : conv1 (1 - t) = t * (3 / 4 + 3 / 2 * t - 5 / 4 * t ^ 2) := by unfold conv1; ring
  have h2 : 0 ≤ 1 - t := by linarith
  have hh : t * (1 - t) ≤ 1 / 4 := by nlinarith [sq_nonneg (t - 1 / 2)]
  rw [e1, e2, e3, e4]
  refine ⟨?_, ?_, ?_, ?_, ?_⟩
  · have : 0 ≤ t * (1 - t) ^ 2 := by positivity
    linarith
  · refine mul_nonneg h2 ?_
    nlinarith
  · refine mul_nonneg h0 ?_
    nlinarith
  · have : 0 ≤ t ^ 2 * (1 - t) := by positivity
    linarith
  · nlinarith

/-- Mode "bicubic" overshoots the range of the data by at most 3/16 of its width. -/
theorem cubic_bounds (a b : ℕ) (v : ℕ → ℝ) (j : ℕ) (lo hi : ℝ) (ha : 0 < a) (hv : ∀ i < a, lo ≤ v i ∧ v i ≤ hi) :
    lo - 3 / 16 * (hi - lo) ≤ cubic a b v j ∧ cubic a b v j ≤ hi + 3 / 16 * (hi - lo) := by
  unfold cubic
  dsimp only
  set s := source a b j
  have ht0 : 0 ≤ s - ⌊s⌋ := by have := Int.floor_le s; linarith
  have ht1 : s - ⌊s⌋ ≤ 1 := by have := Int.lt_floor_add_one s; linarith
  obtain ⟨n1, p1, p2, n2, hsum⟩ := cubic_weights_sign _ ht0 ht1
  have hw := cubic_weights (s - ⌊s⌋)
  have b1 := hv _ (clampIdx_lt a ha (⌊s⌋ + -1))
  have b2 := hv _ (clampIdx_lt a ha (⌊s⌋ + 0))
  have b3 := hv _ (clampIdx_lt a ha (⌊s⌋ + 1))
  have b4 := hv _ (clampIdx_lt a ha (⌊s⌋ + 2))
  have hlh : lo ≤ hi := b1.1.trans b1.2
  generalize conv2 (s - ⌊s⌋ + 1) = c1 at *
  generalize conv1 (s - ⌊s⌋) = c2 at *
  generalize conv1 (1 - (s - ⌊s⌋)) = c3 at *
  generalize conv2 (1 - (s - ⌊s⌋) + 1) = c4 at *
  generalize v (min (max (⌊s⌋ + -1) 0) ((a : ℤ) - 1)).toNat = v1 at *
  generalize v (min (max (⌊s⌋ + 0) 0) ((a : ℤ) - 1)).toNat = v2 at *
  generalize v (min (max (⌊s⌋ + 1) 0) ((a : ℤ) - 1)).toNat = v3 at *
  generalize v (min (max (⌊s⌋ + 2) 0) ((a : ℤ) - 1)).toNat = v4 at *
  have hprod : (-(3 / 16) - (c1 + c4)) * (hi - lo) ≤ 0 := mul_nonpos_of_nonpos_of_nonneg (by linarith) (by linarith)
  have f1 := mul_nonneg (neg_nonneg.2 n1) (sub_nonneg.2 b1.1)
  have f2 := mul_nonneg (neg_nonneg.2 n1) (sub_nonneg.2 b1.2)
  have f3 := mul_nonneg p1 (sub_nonneg.2 b2.1)
  have f4 := mul_nonneg p1 (sub_nonneg.2 b2.2)
  have f5 := mul_nonneg p2 (sub_nonneg.2 b3.1)
  have f6 := mul_nonneg p2 (sub_nonneg.2 b3.2)
  have f7 := mul_nonneg (neg_nonneg.2 n2) (sub_nonneg.2 b4.1)
  have f8 := mul_nonneg (neg_nonneg.2 n2) (sub_nonneg.2 b4.2)
  have e3 : c3 = 1 - c1 - c2 - c4 := by linarith
  subst e3
  constructor <;> nlinarith

/-- **Finding.**  Mode "bicubic" can make non-negative data negative: two tiles of energy zero followed by two of energy one, resampled to eight. -/
theorem cubic_negative : ∃ (v : ℕ → ℝ) (j : ℕ), (∀ i, 0 ≤ v i) ∧ j < 8 ∧ cubic 4 8 v j < 0 := by
  refine ⟨fun i => if i < 2 then 0 else 1, 2, fun i => by dsimp only; split_ifs <;> norm_num, by decide, ?_⟩
  have hs : source 4 8 2 = 3 / 4 := by unfold source; norm_num
  unfold cubic
  dsimp only
  rw [hs]
  have hf : ⌊(3 / 4 : ℝ)⌋ = 0 := by rw [Int.floor_eq_zero_iff]; constructor <;> norm_num
  rw [hf]
  unfold conv1 conv2
  norm_num

/-- Mode "bicubic" does not reproduce straight lines: halfway between two tiles it does, a quarter of the way it does not. -/
theorem cubic_not_affine : ∃ (v : ℕ → ℝ) (j : ℕ), (∀ i, v i = i) ∧ j < 8 ∧ 1 ≤ source 4 8 j ∧ source 4 8 j ≤ 2 ∧ cubic 4 8 v j ≠ source 4 8 j := by
  have hs : source 4 8 3 = 5 / 4 := by unfold source; norm_num
  refine ⟨fun i => i, 3, fun i => rfl, by decide, by rw [hs]; norm_num, by rw [hs]; norm_num, ?_⟩
  unfold cubic
  dsimp only
  rw [hs]
  have hf : ⌊(5 / 4 : ℝ)⌋ = 1 := by rw [Int.floor_eq_iff]; constructor <;> norm_num
  rw [hf]
  unfold conv1 conv2
  norm_num
  rw [show Int.toNat 2 = 2 from rfl, show Int.toNat 3 = 3 from rfl]
  norm_num

/-- A kernel that reads only the input, and leaves an axis of unchanged size alone. -/
structure Good (k : ℕ → ℕ → (ℕ → ℝ) → ℕ → ℝ) : Prop where
  same : ∀ a v j, j < a → k a a v j = v j
  congr : ∀ a b v w j, 0 < a → j < b → (∀ i < a, v i = w i) → k a b v j = k a b w j

theorem good_linear : Good linear := ⟨linear_same, fun a b v w j ha hj h => linear_congr a b v w j ha hj h⟩
theorem good_cubic : Good cubic := ⟨cubic_same, fun a b v w j ha hj h => cubic_congr a b v w j ha hj h⟩

theorem interp2_ok (k : ℕ → ℕ → (ℕ → ℝ) → ℕ → ℝ) (t : Tensor ℝ) (N C H W H' W' : ℕ) (hs : t.shape = [N, C, H, W]) (hC : 0 < C) (hH : 0 < H) (hW : 0 < W)
    (hH' : 0 < H') (hW' : 0 < W') :
    ∃ o, interp2 k H' W' t = .ok o ∧ o.shape = [N, C, H', W'] ∧
      ∀ b c y x, o.get [b, c, y, x] = k H H' (fun p => k W W' (fun q => t.get [b, c, p, q]) x) y := by
  unfold interp2
  rw [hs]
  dsimp only
  rw [if_neg (by omega)]
  exact ⟨_, rfl, rfl, fun b c y x => rfl⟩

/-- An empty dimension, or an empty target, raises. -/
theorem interp2_reject (k : ℕ → ℕ → (ℕ → ℝ) → ℕ → ℝ) (t : Tensor ℝ) (N C H W H' W' : ℕ) (hs : t.shape = [N, C, H, W])
    (h : C = 0 ∨ H = 0 ∨ W = 0 ∨ H' = 0 ∨ W' = 0) : interp2 k H' W' t = .error .runtime := by
  unfold interp2; rw [hs]; dsimp only; rw [if_pos h]

theorem eraseIdx_append_length (l : List ℕ) (k n : ℕ) : (l ++ [k, n]).eraseIdx l.length = l ++ [n] := by
  rw [List.eraseIdx_append_of_length_le (le_refl _)]; simp

theorem stackM2_ok (ts : List (Tensor ℝ)) (lead : List ℕ) (w : ℕ) (hne : ts ≠ []) (hs : ∀ t ∈ ts, t.shape = lead ++ [w]) :
    ∃ o, stackM2 ts = .ok o ∧ o.shape = lead ++ [ts.length, w] ∧
      ∀ i : List ℕ, i.length = lead.length → ∀ k (hk : k < ts.length) x, o.get (i ++ [k, x]) = ts[k].get (i ++ [x]) := by
  cases ts with
  | nil => exact absurd rfl hne
  | cons t rest =>
    have h0 := hs t (by simp)
    have hall : (rest.all fun u => decide (u.shape = t.shape)) = true := by
      rw [List.all_eq_true]
      intro u hu
      rw [h0]; simpa using hs u (by simp [hu])
    unfold stackM2
    simp only [hall, if_true]
    rw [if_neg (by rw [h0]; simp)]
    refine ⟨_, rfl, ?_, ?_⟩
    · simp [h0]
    · intro i hi k hk x
      have hl : t.shape.length - 1 = i.length := by rw [h0, hi]; simp
      simp only [hl]
      rw [eraseIdx_append_length, List.getD_append_right _ _ _ _ (le_refl _)]
      simp only [Nat.sub_self, List.getD_cons_zero]
      rw [List.getD_eq_getElem _ _ hk]

theorem catGet_ok (ts : List (Tensor ℝ)) (b c x : ℕ) (k : ℕ) :
    catGet ts b c k x = ((ts.flatMap fun t => (List.range (height t)).map fun r => t.get [b, c, r, x]).getD k 0) := by
  induction ts generalizing k with
  | nil => simp [catGet]
  | cons t ts ih =>
    unfold catGet
    rw [List.flatMap_cons]
    split_ifs with h
    · rw [List.getD_append _ _ _ _ (by simpa using h), List.getD_eq_getElem _ _ (by simpa using h)]
      simp
    · rw [List.getD_append_right _ _ _ _ (by simpa using h), ih]
      simp

theorem catM2_ok (ts : List (Tensor ℝ)) (B C T : ℕ) (hne : ts ≠ []) (hs : ∀ t ∈ ts, t.shape = [B, C, height t, T]) :
    ∃ o, catM2 ts = .ok o ∧ o.shape = [B, C, (ts.map height).sum, T] ∧
      ∀ b c k x, o.get [b, c, k, x] = ((ts.flatMap fun t => (List.range (height t)).map fun r => t.get [b, c, r, x]).getD k 0) := by
  cases ts with
  | nil => exact absurd rfl hne
  | cons t rest =>
    have h0 := hs t (by simp)
    have hall : ((t :: rest).all fun u => decide (u.shape = [B, C, height u, T])) = true := by
      rw [List.all_eq_true]
      intro u hu
      simpa using hs u hu
    unfold catM2
    dsimp only
    rw [h0]
    dsimp only
    rw [if_pos hall]
    exact ⟨_, rfl, rfl, fun b c k x => catGet_ok _ b c x k⟩

end Verif.Resample
