import Verif.Model.Integrator
import Verif.Spec.Integrator
import Verif.Lemmas.TensorMore
import Verif.Lemmas.Ravel
import Verif.Lemmas.Whiten
/-!
# Properties of the integrators (C41, C42)
-/
set_option linter.unusedSimpArgs false
namespace Verif.Integrator
open Finset Spec.Integrator

theorem conv_window (W : ℕ) (hW : 0 < W) (x : ℕ → ℝ) (L t : ℕ) (ht : t < L) :
    (∑ j ∈ range W, 1 / (W : ℝ) * (if W - 1 ≤ t + j ∧ t + j < W - 1 + L then x (t + j - (W - 1)) else 0)) =
      movingAverage W x t := by
  unfold movingAverage
  rw [← Finset.mul_sum, one_div, inv_mul_eq_div]
  congr 1
  rw [← Finset.sum_filter]
  symm
  apply Finset.sum_nbij' (i := fun s => s + (W - 1) - t) (j := fun j => t + j - (W - 1))
  · intro s hs; simp only [mem_Ico, mem_filter, mem_range] at *; omega
  · intro s hs; simp only [mem_Ico, mem_filter, mem_range] at *; omega
  · intro s hs; simp only [mem_Ico, mem_filter, mem_range] at *; omega
  · intro s hs; simp only [mem_Ico, mem_filter, mem_range] at *; omega
  · intro s hs; simp only [mem_Ico] at hs; congr 1; omega

/-- **C41 (value).**  For every tensor of shape `(*lead, L)`, `L ≥ 1`, and `sample_rate * length ≥ 0`, the
output has the input's shape and each row is the causal moving average of the input row over
`W = ⌊sample_rate * length⌋ + 1` samples with zero history. -/
theorem tophat_correct (sr len : ℝ) (h : 0 ≤ sr * len) (lead : List ℕ) (L : ℕ) (hL : 0 < L) (x : Tensor ℝ)
    (hx : x.shape = lead ++ [L]) :
    ∃ y, tophat sr len x = .ok y ∧ y.shape = x.shape ∧
      ∀ l t, InB l lead → t < L →
        y.get (l ++ [t]) = movingAverage (⌊sr * len⌋₊ + 1) (fun s => x.get (l ++ [s])) t := by
  have hws : windowSize sr len = ((⌊sr * len⌋₊ + 1 : ℕ) : Int) := by
    unfold windowSize
    rw [Whiten.pyInt_nonneg _ h]; push_cast; rw [Int.natCast_floor_eq_floor h]
  generalize ⌊sr * len⌋₊ = m at *
  obtain ⟨x1, h1, h1s, h1g⟩ := reshape_rows x lead L hx hL
  obtain ⟨x2, h2, h2s, h2g⟩ := padLast_ok x1 [numel lead, 1] L m 0 h1s
  have h3 : conv1d x2 (m + 1) (fun _ => 1 / ((m + 1 : ℕ) : ℝ)) = .ok ⟨[numel lead, 1, L], fun i =>
      ∑ j ∈ range (m + 1), 1 / ((m + 1 : ℕ) : ℝ) * x2.get [i.getD 0 0, i.getD 1 0, i.getD 2 0 + j]⟩ := by
    unfold conv1d
    rw [h2s]
    simp only [List.cons_append, List.nil_append]
    rw [if_neg (by omega), show L + m + 0 - (m + 1) + 1 = L by omega]
  obtain ⟨y, h4, h4s, h4g⟩ := reshape_unrows (⟨[numel lead, 1, L], fun i =>
      ∑ j ∈ range (m + 1), 1 / ((m + 1 : ℕ) : ℝ) * x2.get [i.getD 0 0, i.getD 1 0, i.getD 2 0 + j]⟩ : Tensor ℝ) lead L rfl
  refine ⟨y, ?_, by rw [h4s, hx], ?_⟩
  · unfold tophat
    dsimp only
    rw [hws, if_neg (by omega), Slicing.lastDim_append x lead L hx]
    simp only [res_bind_ok, h1]
    rw [show ((m + 1 : ℕ) : Int) - 1 = (m : Int) by omega, show (0 : Int) = ((0 : ℕ) : Int) by rfl, h2]
    simp only [res_bind_ok, Int.toNat_natCast, h3, hx, h4]
  · intro l t hl ht
    rw [h4g l t hl ht]
    dsimp only
    simp only [List.getD_cons_zero, List.getD_cons_succ]
    rw [← conv_window (m + 1) (by omega) _ L t ht]
    refine Finset.sum_congr rfl fun j _ => ?_
    congr 1
    have := h2g [ravel lead l, 0] (t + j)
    simp only [List.cons_append, List.nil_append] at this
    rw [this]
    by_cases hc : m ≤ t + j ∧ t + j < m + L
    · rw [if_pos hc, if_pos (by omega), h1g _ _ (ravel_lt hl) (by omega), unravel_ravel hl]
      rfl
    · rw [if_neg hc, if_neg (by omega)]

/-- Non-vacuity: a 3-sample average of the ramp `0, 1, 2, ..` in a `(2, 5)` tensor. -/
example : ∃ y, tophat 2 1 (⟨[2, 5], fun i => (i.getD 1 0 : ℝ)⟩ : Tensor ℝ) = .ok y ∧ y.get [1, 3] = 2 ∧ y.get [0, 0] = 0 := by
  obtain ⟨y, h1, -, h3⟩ := tophat_correct 2 1 (by norm_num) [2] 5 (by norm_num) ⟨[2, 5], fun i => (i.getD 1 0 : ℝ)⟩ rfl
  have e : ⌊(2 : ℝ) * 1⌋₊ + 1 = 3 := by norm_num
  rw [e] at h3
  refine ⟨y, h1, ?_, ?_⟩
  · rw [show [1, 3] = [1] ++ [3] by rfl, h3 [1] 3 ⟨by norm_num, trivial⟩ (by norm_num)]
    simp [movingAverage, Finset.sum_Ico_eq_sum_range, Finset.sum_range_succ]; norm_num
  · rw [show [0, 0] = [0] ++ [0] by rfl, h3 [0] 0 ⟨by norm_num, trivial⟩ (by norm_num)]
    simp [movingAverage]

/-- **C41 (bound).**  A moving average never exceeds the bound of its input. -/
theorem movingAverage_bound (W : ℕ) (hW : 0 < W) (x : ℕ → ℝ) (t : ℕ) (M : ℝ) (hM : ∀ s ≤ t, |x s| ≤ M) :
    |movingAverage W x t| ≤ M := by
  have hM0 : 0 ≤ M := le_trans (abs_nonneg _) (hM 0 (Nat.zero_le _))
  unfold movingAverage
  rw [abs_div, Nat.abs_cast, div_le_iff₀ (by exact_mod_cast hW)]
  refine le_trans (Finset.abs_sum_le_sum_abs _ _) ?_
  refine le_trans (Finset.sum_le_sum (g := fun _ => M) fun s hs => hM s (by simp at hs; omega)) ?_
  rw [Finset.sum_const, Nat.card_Ico, nsmul_eq_mul, mul_comm]
  apply mul_le_mul_of_nonneg_left _ hM0
  exact_mod_cast (by omega : t + 1 - (t + 1 - W) ≤ W)

example : |movingAverage 3 (fun s => (-1 : ℝ) ^ s) 7| ≤ 1 := movingAverage_bound 3 (by norm_num) _ 7 1 (by simp)

/-- **C41 (bound, on the API).**  If `|x| ≤ M` everywhere, so is the output. -/
theorem tophat_bounded (sr len : ℝ) (h : 0 ≤ sr * len) (lead : List ℕ) (L : ℕ) (hL : 0 < L) (x y : Tensor ℝ)
    (hx : x.shape = lead ++ [L]) (hy : tophat sr len x = .ok y) (M : ℝ) (hM : ∀ i, InB i x.shape → |x.get i| ≤ M)
    (l : List ℕ) (t : ℕ) (hl : InB l lead) (ht : t < L) : |y.get (l ++ [t])| ≤ M := by
  obtain ⟨y', h1, -, h3⟩ := tophat_correct sr len h lead L hL x hx
  rw [hy] at h1; cases h1
  rw [h3 l t hl ht]
  apply movingAverage_bound _ (by omega)
  intro s hs
  apply hM
  rw [hx]
  exact inB_append hl ⟨by omega, trivial⟩

example : ∃ y, tophat 2 1 (⟨[5], fun _ => (3 : ℝ)⟩ : Tensor ℝ) = .ok y ∧ |y.get [4]| ≤ 3 := by
  obtain ⟨y, h1, -⟩ := tophat_correct 2 1 (by norm_num) [] 5 (by norm_num) ⟨[5], fun _ => (3 : ℝ)⟩ rfl
  exact ⟨y, h1, tophat_bounded 2 1 (by norm_num) [] 5 (by norm_num) _ y rfl h1 3 (by simp) [] 4 trivial (by norm_num)⟩

/-- **C41 (linearity).**  The moving average is linear in the series. -/
theorem movingAverage_linear (W : ℕ) (a b : ℝ) (x y : ℕ → ℝ) (t : ℕ) :
    movingAverage W (fun s => a * x s + b * y s) t = a * movingAverage W x t + b * movingAverage W y t := by
  unfold movingAverage
  rw [Finset.sum_add_distrib, ← Finset.mul_sum, ← Finset.mul_sum]
  ring

/-- **C41 (linearity, on the API).** -/
theorem tophat_linear (sr len : ℝ) (h : 0 ≤ sr * len) (lead : List ℕ) (L : ℕ) (hL : 0 < L) (x y : Tensor ℝ)
    (hx : x.shape = lead ++ [L]) (hy : y.shape = lead ++ [L]) (a b : ℝ) :
    ∃ u v w, tophat sr len x = .ok u ∧ tophat sr len y = .ok v ∧
      tophat sr len ⟨lead ++ [L], fun i => a * x.get i + b * y.get i⟩ = .ok w ∧
      ∀ l t, InB l lead → t < L → w.get (l ++ [t]) = a * u.get (l ++ [t]) + b * v.get (l ++ [t]) := by
  obtain ⟨u, h1, -, h3⟩ := tophat_correct sr len h lead L hL x hx
  obtain ⟨v, h1', -, h3'⟩ := tophat_correct sr len h lead L hL y hy
  obtain ⟨w, h1'', -, h3''⟩ := tophat_correct sr len h lead L hL ⟨lead ++ [L], fun i => a * x.get i + b * y.get i⟩ rfl
  refine ⟨u, v, w, h1, h1', h1'', ?_⟩
  intro l t hl ht
  rw [h3 l t hl ht, h3' l t hl ht, h3'' l t hl ht]
  exact movingAverage_linear _ _ _ _ _ _

example : ∃ u v w : Tensor ℝ, tophat 4 2 (⟨[3], fun _ => 1⟩ : Tensor ℝ) = .ok u ∧ tophat 4 2 (⟨[3], fun i => (i.getD 0 0 : ℝ)⟩ : Tensor ℝ) = .ok v ∧
    tophat 4 2 (⟨[] ++ [3], fun i => 2 * 1 + 3 * (i.getD 0 0 : ℝ)⟩ : Tensor ℝ) = .ok w ∧
    ∀ l t, InB l [] → t < 3 → w.get (l ++ [t]) = 2 * u.get (l ++ [t]) + 3 * v.get (l ++ [t]) :=
  tophat_linear 4 2 (by norm_num) [] 3 (by norm_num) ⟨[3], fun _ => 1⟩ ⟨[3], fun i => (i.getD 0 0 : ℝ)⟩ rfl rfl 2 3

/-! ## Leaky integrator -/

theorem leakyRow_spec (lb : ℝ) (d : ℕ → ℝ) (t : ℕ) : leakyRow lb d t = Spec.Integrator.leaky lb (-lb) d t := by
  have key : ∀ t, cumsum d (t + 1) = cumsum d t + d (t + 1) := fun t => by
    unfold cumsum; rw [Finset.sum_range_succ]
  induction t with
  | zero =>
    simp only [leakyRow, cummin, Spec.Integrator.leaky]
    have h0 : cumsum d 0 = d 0 := by simp [cumsum]
    rw [h0]
    rcases le_total (d 0 - lb) lb with h | h
    · rw [min_eq_left h, max_eq_left (by linarith)]; ring
    · rw [min_eq_right h, max_eq_right (by linarith)]; ring
  | succ t ih =>
    rw [Spec.Integrator.leaky, ← ih]
    simp only [leakyRow, cummin]
    rw [key t]
    generalize cumsum d t = S
    generalize cummin (fun t => cumsum d t - lb) t = m
    generalize d (t + 1) = e
    rcases le_total m (S + e - lb) with h | h
    · rw [min_eq_left h]
      rcases le_total m lb with h2 | h2
      · rw [min_eq_left h2, max_eq_right (by linarith)]; ring
      · rw [min_eq_right h2, max_eq_right (by linarith)]; ring
    · rw [min_eq_right h]
      rcases le_total m lb with h2 | h2
      · rw [min_eq_left (by linarith : S + e - lb ≤ lb), min_eq_left h2, max_eq_left (by linarith)]; ring
      · rw [min_eq_right h2]
        rcases le_total (S + e - lb) lb with h3 | h3
        · rw [min_eq_left h3, max_eq_left (by linarith)]; ring
        · rw [min_eq_right h3, max_eq_right (by linarith)]; ring

/-- **C42 (recursion).**  On every row the output follows `y_t = max(lower_bound, y_{t-1} + d_t)`, where
`d_t` is 1 or the sample at or above the threshold and `-decay` below it, started from
`y_{-1} = -lower_bound`. -/
theorem leaky_correct (mode : String) (hm : mode = "count" ∨ mode = "score") (thr decay lb : ℝ) (lead : List ℕ)
    (L : ℕ) (x : Tensor ℝ) (hx : x.shape = lead ++ [L]) :
    ∃ y, leaky mode thr decay lb x = .ok y ∧ y.shape = x.shape ∧
      ∀ l t, y.get (l ++ [t]) = Spec.Integrator.leaky lb (-lb)
        (fun s => increment (mode = "count") thr decay (x.get (l ++ [s]))) t := by
  unfold leaky
  rw [if_pos hm]
  refine ⟨_, rfl, by simp [Whiten.mapRows, hx], ?_⟩
  intro l t
  simp only [Whiten.mapRows, List.dropLast_concat, List.getLastD_concat, leakyRow_spec]
  rfl

/-- **C42 (lower bound).**  The output is never below the lower bound. -/
theorem leaky_ge (mode : String) (hm : mode = "count" ∨ mode = "score") (thr decay lb : ℝ) (lead : List ℕ)
    (L : ℕ) (x y : Tensor ℝ) (hx : x.shape = lead ++ [L]) (hy : leaky mode thr decay lb x = .ok y)
    (l : List ℕ) (t : ℕ) : lb ≤ y.get (l ++ [t]) := by
  obtain ⟨y', h1, -, h3⟩ := leaky_correct mode hm thr decay lb lead L x hx
  rw [hy] at h1; cases h1
  rw [h3]
  cases t <;> exact le_max_left _ _

/-- **C42 (start).**  With lower bound 0 the accumulator starts at the lower bound, as documented. -/
theorem leaky_start_zero_partial (mode : String) (hm : mode = "count" ∨ mode = "score") (thr decay : ℝ) (lead : List ℕ)
    (L : ℕ) (x : Tensor ℝ) (hx : x.shape = lead ++ [L]) :
    ∃ y, leaky mode thr decay 0 x = .ok y ∧
      ∀ l t, y.get (l ++ [t]) = Spec.Integrator.leaky 0 0
        (fun s => increment (mode = "count") thr decay (x.get (l ++ [s]))) t := by
  obtain ⟨y, h1, -, h3⟩ := leaky_correct mode hm thr decay 0 lead L x hx
  refine ⟨y, h1, ?_⟩
  intro l t
  rw [h3, neg_zero]

/-- **C42 (finding).**  For every non-zero lower bound some series is integrated wrongly: the accumulator
does not start from the lower bound (a positive bound suppresses, a negative bound inflates the first steps). -/
theorem leaky_start_wrong (lb : ℝ) (h : lb ≠ 0) : ∃ (thr decay : ℝ) (x y : Tensor ℝ), x.shape = [1] ∧
    leaky "score" thr decay lb x = .ok y ∧
    y.get [0] ≠ Spec.Integrator.leaky lb lb (fun s => increment false thr decay (x.get [s])) 0 := by
  refine ⟨0, 0, ⟨[1], fun _ => 3 * |lb|⟩, ?_⟩
  obtain ⟨y, h1, -, h3⟩ := leaky_correct "score" (Or.inr rfl) 0 0 lb [] 1 ⟨[1], fun _ => 3 * |lb|⟩ rfl
  refine ⟨y, rfl, h1, ?_⟩
  have := h3 [] 0
  rw [List.nil_append] at this
  rw [this]
  have hp : 0 < |lb| := abs_pos.2 h
  have hi : increment false 0 0 (3 * |lb|) = 3 * |lb| := by
    unfold increment; rw [if_pos (by positivity)]; simp
  have hi' : increment (decide ("score" = "count")) 0 0 (3 * |lb|) = 3 * |lb| := hi
  simp only [Spec.Integrator.leaky, hi, hi']
  rw [max_eq_right (by nlinarith [le_abs_self lb, neg_abs_le lb]),
    max_eq_right (by nlinarith [le_abs_self lb, neg_abs_le lb])]
  intro hc
  exact h (by linarith)

/-- Non-vacuity: counting threshold crossings of `0,1,1,0,0,0,1` gives `0,1,2,1,0,0,1`. -/
example : ∃ y, leaky "count" 1 1 0 (⟨[7], fun i => if i.getD 0 0 ∈ [1, 2, 6] then 1 else 0⟩ : Tensor ℝ) = .ok y ∧
    y.get [2] = 2 ∧ y.get [5] = 0 ∧ y.get [6] = 1 := by
  obtain ⟨y, h1, h2⟩ := leaky_start_zero_partial "count" (Or.inl rfl) 1 1 [] 7
    (⟨[7], fun i => if i.getD 0 0 ∈ [1, 2, 6] then 1 else 0⟩ : Tensor ℝ) rfl
  refine ⟨y, h1, ?_, ?_, ?_⟩
  all_goals
    first
    | rw [show [2] = [] ++ [2] by rfl]
    | rw [show [5] = [] ++ [5] by rfl]
    | rw [show [6] = [] ++ [6] by rfl]
    rw [h2]
    norm_num [Spec.Integrator.leaky, increment]

/-- **C42 (validation).**  Any other integration mode raises ValueError. -/
theorem leaky_mode_error (mode : String) (hm : mode ≠ "count" ∧ mode ≠ "score") (thr decay lb : ℝ) (x : Tensor ℝ) :
    leaky mode thr decay lb x = .error .value := by
  unfold leaky
  rw [if_neg (by tauto)]

example : leaky "sum" 0 0 0 (⟨[1], fun _ => 0⟩ : Tensor ℝ) = .error .value := leaky_mode_error _ (by decide) _ _ _ _

end Verif.Integrator
