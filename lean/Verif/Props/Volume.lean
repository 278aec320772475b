import Verif.Props.Distributions
import Verif.Lemmas.Tensor
import Mathlib.Algebra.Order.BigOperators.Group.Finset
import Mathlib.Data.List.GetD
import Mathlib.Data.List.Sort
/-!
# Properties of UniformComovingVolume and RateEvolution (C52, C53)
-/
set_option linter.unusedSimpArgs false
set_option linter.unusedVariables false
set_option linter.unusedSectionVars false
namespace Verif.Distributions
open DistSpec Finset

/-! ## Interpolation on a table -/

/-- The first `n` entries increase strictly. -/
def Incr (n : ℕ) (x : ℕ → ℝ) : Prop := ∀ i j, i < j → j < n → x i < x j

theorem Incr.le {n : ℕ} {x : ℕ → ℝ} (h : Incr n x) {i j : ℕ} (hij : i ≤ j) (hj : j < n) : x i ≤ x j := by
  rcases Nat.lt_or_eq_of_le hij with h' | h'
  · exact (h i j h' hj).le
  · rw [h']

theorem bucketize_eq (n : ℕ) (x : ℕ → ℝ) (q : ℝ) (k : ℕ) (hk : k ≤ n) (h1 : ∀ i, i < k → x i ≤ q) (h2 : ∀ i, k ≤ i → i < n → q < x i) : bucketize n x q = k := by
  unfold bucketize
  have : (range n).filter (fun i => x i ≤ q) = range k := by
    ext i
    simp only [mem_filter, mem_range]
    constructor
    · rintro ⟨a, b⟩
      by_contra hc
      exact absurd b (not_le.2 (h2 i (not_lt.1 hc) a))
    · intro a
      exact ⟨a.trans_le hk, h1 i a⟩
  rw [this, card_range]

theorem chord_left (x₀ x₁ y₀ y₁ : ℝ) : chord x₀ x₁ y₀ y₁ x₀ = y₀ := by simp [chord]

theorem chord_right (x₀ x₁ y₀ y₁ : ℝ) (h : x₀ ≠ x₁) : chord x₀ x₁ y₀ y₁ x₁ = y₁ := by
  unfold chord; rw [div_self (sub_ne_zero.2 h.symm)]; ring

theorem interp_idx (n : ℕ) (x y : ℕ → ℝ) (q : ℝ) (j : ℕ) (h : interpIdx n x q = j + 1) : interp n x y q = chord (x j) (x (j + 1)) (y j) (y (j + 1)) q := by
  unfold interp chord
  rw [h]; rfl

/-- Inside a cell. -/
theorem interpIdx_cell (n : ℕ) (x : ℕ → ℝ) (q : ℝ) (hx : Incr n x) (j : ℕ) (hj : j + 1 < n) (h1 : x j ≤ q) (h2 : q < x (j + 1)) : interpIdx n x q = j + 1 := by
  unfold interpIdx
  rw [bucketize_eq n x q (j + 1) hj.le (fun i hi => (hx.le (Nat.lt_succ_iff.1 hi) (by omega)).trans h1) (fun i a b => h2.trans_le (hx.le a b))]
  omega

theorem interpIdx_below (n : ℕ) (x : ℕ → ℝ) (q : ℝ) (hx : Incr n x) (hn : 2 ≤ n) (h : q < x 1) : interpIdx n x q = 1 := by
  by_cases h0 : x 0 ≤ q
  · exact interpIdx_cell n x q hx 0 (by omega) h0 h
  · unfold interpIdx
    rw [bucketize_eq n x q 0 (by omega) (fun i hi => by omega) (fun i a b => (not_le.1 h0).trans_le (hx.le (Nat.zero_le _) b))]
    omega

theorem interpIdx_above (n : ℕ) (x : ℕ → ℝ) (q : ℝ) (hx : Incr n x) (hn : 2 ≤ n) (h : x (n - 2) ≤ q) : interpIdx n x q = n - 2 + 1 := by
  by_cases h0 : q < x (n - 1)
  · exact interpIdx_cell n x q hx (n - 2) (by omega) h (by rw [show n - 2 + 1 = n - 1 by omega]; exact h0)
  · unfold interpIdx
    rw [bucketize_eq n x q n le_rfl (fun i hi => (hx.le (show i ≤ n - 1 by omega) (by omega)).trans (not_lt.1 h0)) (fun i a b => by omega)]
    omega

/-- Every query is in the first cell or before it, in the last one or beyond, or in a cell between: the interpolation is the chord of some cell, and outside the table of the outermost cell. -/
theorem interp_cases (n : ℕ) (x : ℕ → ℝ) (hx : Incr n x) (hn : 2 ≤ n) (q : ℝ) :
    ∃ j, j + 1 < n ∧ interpIdx n x q = j + 1 ∧ (x j ≤ q ∨ j = 0) ∧ (q < x (j + 1) ∨ j + 2 = n) := by
  have key : ∀ m, m + 1 < n → q < x (m + 1) → ∃ j, j + 1 < n ∧ interpIdx n x q = j + 1 ∧ (x j ≤ q ∨ j = 0) ∧ (q < x (j + 1) ∨ j + 2 = n) := by
    intro m
    induction m with
    | zero => intro h1 h2; exact ⟨0, h1, interpIdx_below n x q hx hn h2, Or.inr rfl, Or.inl h2⟩
    | succ m ih =>
      intro h1 h2
      by_cases h : q < x (m + 1)
      · exact ih (by omega) h
      · exact ⟨m + 1, h1, interpIdx_cell n x q hx (m + 1) h1 (not_lt.1 h) h2, Or.inl (not_lt.1 h), Or.inl h2⟩
  by_cases h : q < x (n - 1)
  · exact key (n - 2) (by omega) (by rw [show n - 2 + 1 = n - 1 by omega]; exact h)
  · have h' : x (n - 2) ≤ q := (hx.le (show n - 2 ≤ n - 1 by omega) (by omega)).trans (not_lt.1 h)
    exact ⟨n - 2, by omega, interpIdx_above n x q hx hn h', Or.inl h', Or.inr (by omega)⟩

/-- **C53.**  Interpolation between two neighbouring grid points is the straight line through their values, grid points included. -/
theorem interp_chord (n : ℕ) (x y : ℕ → ℝ) (hx : Incr n x) (j : ℕ) (hj : j + 1 < n) (q : ℝ) (h1 : x j ≤ q) (h2 : q ≤ x (j + 1)) :
    interp n x y q = chord (x j) (x (j + 1)) (y j) (y (j + 1)) q := by
  rcases lt_or_eq_of_le h2 with h | h
  · exact interp_idx n x y q j (interpIdx_cell n x q hx j hj h1 h)
  · by_cases hl : j + 2 < n
    · rw [interp_idx n x y q (j + 1) (interpIdx_cell n x q hx (j + 1) hl h.ge (by rw [h]; exact hx _ _ (by omega) hl)), h, chord_left,
        chord_right _ _ _ _ (hx j (j + 1) (by omega) hj).ne]
    · have : j = n - 2 := by omega
      subst this
      exact interp_idx n x y q _ (interpIdx_above n x q hx (by omega) h1)

/-- **C53.**  Interpolation reproduces the table at its grid points. -/
theorem interp_at_node (n : ℕ) (x y : ℕ → ℝ) (hx : Incr n x) (hn : 2 ≤ n) (i : ℕ) (hi : i < n) : interp n x y (x i) = y i := by
  rcases Nat.eq_zero_or_pos i with h | h
  · subst h
    rw [interp_chord n x y hx 0 (by omega) (x 0) le_rfl (hx.le (by omega) (by omega)), chord_left]
  · obtain ⟨j, rfl⟩ : ∃ j, i = j + 1 := ⟨i - 1, by omega⟩
    rw [interp_chord n x y hx j hi _ (hx.le (by omega) hi) le_rfl, chord_right _ _ _ _ (hx j (j + 1) (by omega) hi).ne]

/-- **C53.**  Between two neighbouring grid points the interpolated value lies between their values. -/
theorem interp_between (n : ℕ) (x y : ℕ → ℝ) (hx : Incr n x) (j : ℕ) (hj : j + 1 < n) (q : ℝ) (h1 : x j ≤ q) (h2 : q ≤ x (j + 1)) :
    min (y j) (y (j + 1)) ≤ interp n x y q ∧ interp n x y q ≤ max (y j) (y (j + 1)) := by
  rw [interp_chord n x y hx j hj q h1 h2]
  have hd : 0 < x (j + 1) - x j := by linarith [hx j (j + 1) (by omega) hj]
  unfold chord
  set t := (q - x j) / (x (j + 1) - x j) with ht
  have ht0 : 0 ≤ t := div_nonneg (by linarith) hd.le
  have ht1 : t ≤ 1 := by rw [ht, div_le_one hd]; linarith
  have e : y j + t * (y (j + 1) - y j) = (1 - t) * y j + t * y (j + 1) := by ring
  rw [e]
  have a := min_le_left (y j) (y (j + 1))
  have b := min_le_right (y j) (y (j + 1))
  have c := le_max_left (y j) (y (j + 1))
  have d := le_max_right (y j) (y (j + 1))
  constructor <;> nlinarith

theorem chord_strictMono (x₀ x₁ y₀ y₁ : ℝ) (hx : x₀ < x₁) (hy : y₀ < y₁) : StrictMono (chord x₀ x₁ y₀ y₁) := by
  intro a b hab
  have h1 : 0 < x₁ - x₀ := by linarith
  have : (a - x₀) / (x₁ - x₀) < (b - x₀) / (x₁ - x₀) := by
    apply div_lt_div_of_pos_right _ h1; linarith
  unfold chord
  nlinarith

/-- Interpolation compares with the table the way the query compares with the grid. -/
theorem interp_le_node_iff (n : ℕ) (x y : ℕ → ℝ) (hx : Incr n x) (hy : Incr n y) (hn : 2 ≤ n) (q : ℝ) (i : ℕ) (hi : i < n) : interp n x y q ≤ y i ↔ q ≤ x i := by
  obtain ⟨j, hj, hidx, ha, hb⟩ := interp_cases n x hx hn q
  have hm := chord_strictMono (x j) (x (j + 1)) (y j) (y (j + 1)) (hx j (j + 1) (by omega) hj) (hy j (j + 1) (by omega) hj)
  have el := chord_left (x j) (x (j + 1)) (y j) (y (j + 1))
  have er := chord_right (x j) (x (j + 1)) (y j) (y (j + 1)) (hx j (j + 1) (by omega) hj).ne
  rw [interp_idx n x y q j hidx]
  by_cases hle : i ≤ j
  · rcases Nat.lt_or_eq_of_le hle with h | h
    · have hq : x j ≤ q := ha.resolve_right (by omega)
      have h3 : y j ≤ chord (x j) (x (j + 1)) (y j) (y (j + 1)) q := by
        have := hm.monotone hq; rwa [el] at this
      have h4 := hy i j h (by omega)
      have h5 := hx i j h (by omega)
      constructor <;> intro h' <;> linarith
    · rw [h]
      have := hm.le_iff_le (a := q) (b := x j)
      rwa [el] at this
  · have h : j + 1 ≤ i := by omega
    rcases Nat.lt_or_eq_of_le h with h' | h'
    · have hq : q < x (j + 1) := hb.resolve_right (by omega)
      have h3 : chord (x j) (x (j + 1)) (y j) (y (j + 1)) q < y (j + 1) := by
        have := hm hq; rwa [er] at this
      have h4 := hy _ i h' hi
      have h5 := hx _ i h' hi
      constructor <;> intro h'' <;> linarith
    · rw [← h']
      have := hm.le_iff_le (a := q) (b := x (j + 1))
      rwa [er] at this

theorem node_le_interp_iff (n : ℕ) (x y : ℕ → ℝ) (hx : Incr n x) (hy : Incr n y) (hn : 2 ≤ n) (q : ℝ) (i : ℕ) (hi : i < n) : y i ≤ interp n x y q ↔ x i ≤ q := by
  obtain ⟨j, hj, hidx, ha, hb⟩ := interp_cases n x hx hn q
  have hm := chord_strictMono (x j) (x (j + 1)) (y j) (y (j + 1)) (hx j (j + 1) (by omega) hj) (hy j (j + 1) (by omega) hj)
  have el := chord_left (x j) (x (j + 1)) (y j) (y (j + 1))
  have er := chord_right (x j) (x (j + 1)) (y j) (y (j + 1)) (hx j (j + 1) (by omega) hj).ne
  rw [interp_idx n x y q j hidx]
  by_cases hle : i ≤ j
  · rcases Nat.lt_or_eq_of_le hle with h | h
    · have hq : x j ≤ q := ha.resolve_right (by omega)
      have h3 : y j ≤ chord (x j) (x (j + 1)) (y j) (y (j + 1)) q := by
        have := hm.monotone hq; rwa [el] at this
      have h4 := hy i j h (by omega)
      have h5 := hx i j h (by omega)
      constructor <;> intro h' <;> linarith
    · rw [h]
      have := hm.le_iff_le (a := x j) (b := q)
      rwa [el] at this
  · have h : j + 1 ≤ i := by omega
    rcases Nat.lt_or_eq_of_le h with h' | h'
    · have hq : q < x (j + 1) := hb.resolve_right (by omega)
      have h3 : chord (x j) (x (j + 1)) (y j) (y (j + 1)) q < y (j + 1) := by
        have := hm hq; rwa [er] at this
      have h4 := hy _ i h' hi
      have h5 := hx _ i h' hi
      constructor <;> intro h'' <;> linarith
    · rw [← h']
      have := hm.le_iff_le (a := x (j + 1)) (b := q)
      rwa [er] at this

/-- Interpolating the inverse table undoes interpolating the table. -/
theorem interp_inverse (n : ℕ) (x y : ℕ → ℝ) (hx : Incr n x) (hy : Incr n y) (hn : 2 ≤ n) (q r : ℝ) : interp n x y q ≤ r ↔ q ≤ interp n y x r := by
  obtain ⟨j, hj, hidx, ha, hb⟩ := interp_cases n x hx hn q
  obtain ⟨k, hk, hidx', ha', hb'⟩ := interp_cases n y hy hn r
  have hmj := chord_strictMono (x j) (x (j + 1)) (y j) (y (j + 1)) (hx j (j + 1) (by omega) hj) (hy j (j + 1) (by omega) hj)
  by_cases hjk : j = k
  · subst hjk
    rw [interp_idx n x y q j hidx, interp_idx n y x r j hidx']
    unfold chord
    have h1 : 0 < x (j + 1) - x j := by linarith [hx j (j + 1) (by omega) hj]
    have h2 : 0 < y (j + 1) - y j := by linarith [hy j (j + 1) (by omega) hj]
    rw [← sub_nonneg, ← sub_nonneg (b := q)]
    have e : (r - (y j + (q - x j) / (x (j + 1) - x j) * (y (j + 1) - y j))) * (x (j + 1) - x j) =
        (x j + (r - y j) / (y (j + 1) - y j) * (x (j + 1) - x j) - q) * (y (j + 1) - y j) := by
      field_simp
      ring
    rw [← mul_nonneg_iff_of_pos_right h1, e, mul_nonneg_iff_of_pos_right h2]
  · rcases Nat.lt_or_gt_of_ne hjk with h | h
    · -- the query is left of grid point `j + 1 ≤ k`, the value right of it
      have hq : q < x (j + 1) := hb.resolve_right (by omega)
      have hr : y k ≤ r := ha'.resolve_right (by omega)
      have h1 : interp n x y q ≤ y (j + 1) := (interp_le_node_iff n x y hx hy hn q (j + 1) (by omega)).2 hq.le
      have h2 : x k ≤ interp n y x r := (node_le_interp_iff n y x hy hx hn r k (by omega)).2 hr
      have h3 := hx.le (show j + 1 ≤ k by omega) (by omega)
      have h4 := hy.le (show j + 1 ≤ k by omega) (by omega)
      constructor <;> intro _ <;> linarith
    · have hq : x j ≤ q := ha.resolve_right (by omega)
      have hr : r < y (k + 1) := hb'.resolve_right (by omega)
      have h1 : y j ≤ interp n x y q := (node_le_interp_iff n x y hx hy hn q j (by omega)).2 hq
      have h2 : ¬ (x (k + 1) ≤ interp n y x r) := fun h' => absurd ((node_le_interp_iff n y x hy hx hn r (k + 1) (by omega)).1 h') (not_le.2 hr)
      have h3 := hx.le (show k + 1 ≤ j by omega) (by omega)
      have h4 := hy.le (show k + 1 ≤ j by omega) (by omega)
      push Not at h2
      constructor <;> intro _ <;> linarith

/-! ## The grids -/

theorem zAt_incr (zmax : ℝ) (n : ℕ) (hz : 0 < zmax) (hn : 2 ≤ n) : Incr n (zAt zmax n) := by
  intro i j hij hj
  unfold zAt
  have h1 : (0 : ℝ) < (n : ℝ) - 1 := by
    have : (2 : ℝ) ≤ n := by exact_mod_cast hn
    linarith
  have h2 : 0 < zmax / ((n : ℝ) - 1) := div_pos hz h1
  have h3 : (i : ℝ) < j := by exact_mod_cast hij
  nlinarith

theorem zAt_nonneg (zmax : ℝ) (n i : ℕ) (hz : 0 < zmax) (hn : 2 ≤ n) : 0 ≤ zAt zmax n i := by
  unfold zAt
  have h1 : (0 : ℝ) < (n : ℝ) - 1 := by
    have : (2 : ℝ) ≤ n := by exact_mod_cast hn
    linarith
  positivity

theorem zAt_last (zmax : ℝ) (n : ℕ) (hn : 2 ≤ n) : zAt zmax n (n - 1) = zmax := by
  unfold zAt
  have h1 : (0 : ℝ) < (n : ℝ) - 1 := by
    have : (2 : ℝ) ≤ n := by exact_mod_cast hn
    linarith
  rw [Nat.cast_sub (by omega), Nat.cast_one, mul_div_cancel₀ _ h1.ne']

theorem hubble_pos (h0 om z : ℝ) (hh : 0 < h0) (ho : 0 ≤ om) (ho' : om ≤ 1) (hz : 0 ≤ z) : 0 < hubble h0 om z := by
  unfold hubble
  have h1 : 1 ≤ (1 + z) ^ 3 := one_le_pow₀ (by linarith)
  have : 0 < om * (1 + z) ^ 3 + (1 - om) := by nlinarith
  exact mul_pos hh (Real.sqrt_pos.2 this)

theorem cumTrap_succ (x y : ℕ → ℝ) (i : ℕ) : cumTrap x y (i + 1) = cumTrap x y i + (y i + y (i + 1)) / 2 * (x (i + 1) - x i) := sum_range_succ _ _

theorem cumTrap_zero (x y : ℕ → ℝ) : cumTrap x y 0 = 0 := sum_range_zero _

/-- A cumulative trapezoid integral of a table that is positive, except possibly at its first point, increases. -/
theorem cumTrap_incr (n : ℕ) (x y : ℕ → ℝ) (hx : Incr n x) (hy0 : ∀ i, i < n → 0 ≤ y i) (hy : ∀ i, 0 < i → i < n → 0 < y i) : Incr n (cumTrap x y) := by
  intro i j hij
  induction j with
  | zero => omega
  | succ j ih =>
    intro hj
    have step : cumTrap x y j < cumTrap x y (j + 1) := by
      rw [cumTrap_succ]
      have a := hx j (j + 1) (by omega) hj
      have b := hy (j + 1) (by omega) hj
      have c := hy0 j (by omega)
      have : 0 < (y j + y (j + 1)) / 2 * (x (j + 1) - x j) := mul_pos (by linarith) (by linarith)
      linarith
    rcases Nat.lt_or_eq_of_le (Nat.lt_succ_iff.1 hij) with h | h
    · exact (ih h (by omega)).trans step
    · rw [h]; exact step

section
variable {h0 om zmax : ℝ} {n : ℕ} (hh : 0 < h0) (ho : 0 ≤ om) (ho' : om ≤ 1) (hz : 0 < zmax) (hn : 2 ≤ n)
include hh ho ho' hz hn

theorem dc_incr (t : DistanceType) : Incr n fun i => (nodeAt t h0 om zmax n i).dc := by
  intro i j hij hj
  unfold nodeAt
  dsimp only
  apply div_lt_div_of_pos_right _ (by norm_num : (0 : ℝ) < 1000)
  have hp : ∀ i, 0 < speedOfLight / hubble h0 om (zAt zmax n i) := fun i =>
    div_pos (by norm_num [speedOfLight]) (hubble_pos h0 om _ hh ho ho' (zAt_nonneg zmax n i hz hn))
  exact cumTrap_incr n _ _ (zAt_incr zmax n hz hn) (fun i _ => (hp i).le) (fun i _ _ => hp i) i j hij hj

theorem dc_zero (t : DistanceType) : (nodeAt t h0 om zmax n 0).dc = 0 := by
  unfold nodeAt
  dsimp only
  rw [cumTrap_zero, zero_div]

theorem dc_nonneg (t : DistanceType) (i : ℕ) (hi : i < n) : 0 ≤ (nodeAt t h0 om zmax n i).dc := by
  have := (dc_incr hh ho ho' hz hn t).le (Nat.zero_le i) hi
  rwa [dc_zero hh ho ho' hz hn] at this

/-- **C53.**  For a positive Hubble constant and a matter density in `[0, 1]`, the distance grid increases strictly, whatever the distance type. -/
theorem dist_incr (t : DistanceType) : Incr n fun i => (nodeAt t h0 om zmax n i).dist := by
  cases t with
  | redshift => exact zAt_incr zmax n hz hn
  | comoving => exact dc_incr hh ho ho' hz hn .comoving
  | luminosity =>
    intro i j hij hj
    have h1 := dc_incr hh ho ho' hz hn .luminosity i j hij hj
    have h2 := zAt_incr zmax n hz hn i j hij hj
    have h3 := dc_nonneg hh ho ho' hz hn .luminosity i (by omega)
    have h4 := zAt_nonneg zmax n i hz hn
    change (nodeAt .luminosity h0 om zmax n i).dc * (1 + zAt zmax n i) < (nodeAt .luminosity h0 om zmax n j).dc * (1 + zAt zmax n j)
    dsimp only at h1
    nlinarith

end

theorem filter_range_interval (P : ℕ → Bool) (h : ∀ i j k, i ≤ j → j ≤ k → P i = true → P k = true → P j = true) (n : ℕ) :
    ∃ a m, (List.range n).filter P = List.range' a m ∧ (0 < m → a + m ≤ n) := by
  induction n with
  | zero => exact ⟨0, 0, rfl, by omega⟩
  | succ n ih =>
    obtain ⟨a, m, e, hb⟩ := ih
    rw [List.range_succ, List.filter_append, e]
    by_cases hP : P n = true
    · rcases Nat.eq_zero_or_pos m with h0 | h0
      · refine ⟨n, 1, ?_, by omega⟩
        subst h0
        simp [List.filter_cons, hP]
      · have hlast : a + m = n := by
          by_contra hc
          have hlt : a + m < n := by have := hb h0; omega
          have ha : P a = true := by
            have : a ∈ (List.range n).filter P := by rw [e]; simp [List.mem_range'_1]; omega
            exact (List.mem_filter.1 this).2
          have hm : P (a + m) = true := h a (a + m) n (by omega) (by omega) ha hP
          have : a + m ∈ (List.range n).filter P := List.mem_filter.2 ⟨List.mem_range.2 hlt, hm⟩
          rw [e, List.mem_range'_1] at this
          omega
        refine ⟨a, m + 1, ?_, by omega⟩
        rw [List.range'_1_concat, hlast]
        simp [List.filter_cons, hP]
    · refine ⟨a, m, ?_, fun h => (hb h).trans (by omega)⟩
      simp [List.filter_cons, hP]

/-- The grid of a constructed distribution is a stretch of the full grid, consisting of the points whose distance lies in the range. -/
structure Built (rate : ℝ → ℝ) (minimum maximum : ℝ) (t : DistanceType) (h0 om zmax : ℝ) (n : ℕ) (v : Volume) (a : ℕ) : Prop where
  two : 2 ≤ v.n
  fits : a + v.n ≤ n
  nodes : v.nodes = (List.range' a v.n).map (nodeAt t h0 om zmax n)
  range : ∀ i, i < n → ((a ≤ i ∧ i < a + v.n) ↔ (minimum ≤ (nodeAt t h0 om zmax n i).dist ∧ (nodeAt t h0 om zmax n i).dist ≤ maximum))
  emin : v.minimum = minimum
  emax : v.maximum = maximum
  eh0 : v.h0 = h0
  eom : v.om = om
  edz : v.dz = zmax / ((n : ℝ) - 1)
  erate : v.rate = rate

/-- **C53 (constructor).**  For a known distance type, a positive Hubble constant, a matter density in `[0, 1]` and at least two grid points: ValueError exactly if the maximum exceeds the distance of the largest redshift on the grid;
otherwise RuntimeError if fewer than two grid points lie in `[minimum, maximum]`, and a distribution on exactly those points if there are more. -/
theorem volume_init (rate : ℝ → ℝ) (minimum maximum : ℝ) (s : String) (t : DistanceType) (h0 om zmax : ℝ) (n : ℕ) (ht : parseType s = .ok t)
    (hh : 0 < h0) (ho : 0 ≤ om) (ho' : om ≤ 1) (hz : 0 < zmax) (hn : 2 ≤ n) :
    (Volume.init rate minimum maximum s h0 om zmax n = .error .value ↔ (nodeAt t h0 om zmax n (n - 1)).dist < maximum) ∧
    (maximum ≤ (nodeAt t h0 om zmax n (n - 1)).dist →
      if ((range n).filter fun i => minimum ≤ (nodeAt t h0 om zmax n i).dist ∧ (nodeAt t h0 om zmax n i).dist ≤ maximum).card < 2 then
        Volume.init rate minimum maximum s h0 om zmax n = .error .runtime
      else ∃ v a, Volume.init rate minimum maximum s h0 om zmax n = .ok v ∧ Built rate minimum maximum t h0 om zmax n v a) := by
  have hd := dist_incr hh ho ho' hz hn t
  have hzi := zAt_incr zmax n hz hn
  have hlast : (zmax < interp n (fun i => (nodeAt t h0 om zmax n i).dist) (zAt zmax n) maximum) ↔ (nodeAt t h0 om zmax n (n - 1)).dist < maximum := by
    have := interp_le_node_iff n (fun i => (nodeAt t h0 om zmax n i).dist) (zAt zmax n) hd hzi hn maximum (n - 1) (by omega)
    rw [zAt_last zmax n hn] at this
    rw [← not_le, this, not_le]
  have hP : ∀ i, i < n → ((interp n (fun i => (nodeAt t h0 om zmax n i).dist) (zAt zmax n) minimum ≤ (nodeAt t h0 om zmax n i).z ∧
      (nodeAt t h0 om zmax n i).z ≤ interp n (fun i => (nodeAt t h0 om zmax n i).dist) (zAt zmax n) maximum) ↔
      (minimum ≤ (nodeAt t h0 om zmax n i).dist ∧ (nodeAt t h0 om zmax n i).dist ≤ maximum)) := by
    intro i hi
    have a := interp_le_node_iff n (fun i => (nodeAt t h0 om zmax n i).dist) (zAt zmax n) hd hzi hn minimum i hi
    have b := node_le_interp_iff n (fun i => (nodeAt t h0 om zmax n i).dist) (zAt zmax n) hd hzi hn maximum i hi
    change (_ ≤ zAt zmax n i ∧ zAt zmax n i ≤ _) ↔ _
    rw [a, b]
  set Q : ℕ → Bool := fun i => decide (minimum ≤ (nodeAt t h0 om zmax n i).dist ∧ (nodeAt t h0 om zmax n i).dist ≤ maximum) ∧ decide (i < n) with hQ
  have hfil : ((List.range n).map (nodeAt t h0 om zmax n)).filter (fun p => decide (interp n (fun i => (nodeAt t h0 om zmax n i).dist) (zAt zmax n) minimum ≤ p.z ∧
      p.z ≤ interp n (fun i => (nodeAt t h0 om zmax n i).dist) (zAt zmax n) maximum)) = ((List.range n).filter Q).map (nodeAt t h0 om zmax n) := by
    rw [List.filter_map]
    congr 1
    apply List.filter_congr
    intro i hi
    have hi' := List.mem_range.1 hi
    rw [Bool.eq_iff_iff]
    simp only [Function.comp, hQ, decide_eq_true_eq]
    rw [hP i hi']
    exact (and_iff_left hi').symm
  obtain ⟨a, m, hint, hfit⟩ := filter_range_interval Q (by
    intro i j k hij hjk hi hk
    simp only [hQ, decide_eq_true_eq] at hi hk ⊢
    obtain ⟨⟨i1, i2⟩, i3⟩ := hi
    obtain ⟨⟨k1, k2⟩, k3⟩ := hk
    exact ⟨⟨i1.trans (hd.le hij (by omega)), (hd.le hjk k3).trans k2⟩, by omega⟩) n
  have hcard : ((range n).filter fun i => minimum ≤ (nodeAt t h0 om zmax n i).dist ∧ (nodeAt t h0 om zmax n i).dist ≤ maximum).card = m := by
    have : ((range n).filter fun i => minimum ≤ (nodeAt t h0 om zmax n i).dist ∧ (nodeAt t h0 om zmax n i).dist ≤ maximum) = (List.range' a m).toFinset := by
      rw [← hint]
      ext i
      simp only [mem_filter, mem_range, List.mem_toFinset, List.mem_filter, List.mem_range, hQ, decide_eq_true_eq]
      tauto
    rw [this, List.toFinset_card_of_nodup List.nodup_range', List.length_range']
  have hbody : Volume.init rate minimum maximum s h0 om zmax n = if (nodeAt t h0 om zmax n (n - 1)).dist < maximum then .error .value
      else if m < 2 then .error .runtime else .ok ⟨minimum, maximum, h0, om, zAt zmax n 1 - zAt zmax n 0, rate, (List.range' a m).map (nodeAt t h0 om zmax n)⟩ := by
    unfold Volume.init
    rw [ht]
    simp only [res_bind_ok]
    rw [if_neg (by omega), hfil, hint]
    simp only [hlast, List.length_map, List.length_range']
  rw [hcard, hbody]
  refine ⟨?_, ?_⟩
  · by_cases h : (nodeAt t h0 om zmax n (n - 1)).dist < maximum
    · simp [h]
    · rw [if_neg h]
      split_ifs <;> simp [h]
  · intro hle
    rw [if_neg (not_lt.2 hle)]
    split_ifs with hm
    · rfl
    · refine ⟨_, a, rfl, ?_⟩
      have hvn : Volume.n ⟨minimum, maximum, h0, om, zAt zmax n 1 - zAt zmax n 0, rate, (List.range' a m).map (nodeAt t h0 om zmax n)⟩ = m := by
        simp [Volume.n]
      refine ⟨by rw [hvn]; omega, by rw [hvn]; exact hfit (by omega), by rw [hvn], ?_, rfl, rfl, rfl, rfl, ?_, rfl⟩
      · intro i hi
        rw [hvn]
        have : i ∈ (List.range n).filter Q ↔ i ∈ List.range' a m := by rw [hint]
        rw [List.mem_range'_1, List.mem_filter, List.mem_range] at this
        rw [← this]
        simp only [hQ, decide_eq_true_eq, hi, true_and, and_true]
      · unfold zAt; push_cast; ring

/-- Unknown distance types and one-point grids are rejected. -/
theorem volume_init_reject (rate : ℝ → ℝ) (minimum maximum : ℝ) (s : String) (h0 om zmax : ℝ) (n : ℕ) :
    (s ≠ "redshift" → s ≠ "comoving_distance" → s ≠ "luminosity_distance" → Volume.init rate minimum maximum s h0 om zmax n = .error .value) ∧
    (∀ t, parseType s = .ok t → n < 2 → Volume.init rate minimum maximum s h0 om zmax n = .error .index) := by
  refine ⟨?_, ?_⟩
  · intro a b c
    unfold Volume.init parseType
    rw [if_neg a, if_neg b, if_neg c]; rfl
  · intro t ht hn
    unfold Volume.init
    rw [ht]
    simp only [res_bind_ok]
    rw [if_pos hn]

/-! ## The probability tables -/

section
variable {rate : ℝ → ℝ} {minimum maximum : ℝ} {t : DistanceType} {h0 om zmax : ℝ} {n : ℕ} {v : Volume} {a : ℕ}

theorem Built.node (B : Built rate minimum maximum t h0 om zmax n v a) (i : ℕ) (hi : i < v.n) : v.nodes.getD i ⟨0, 0, 0⟩ = nodeAt t h0 om zmax n (a + i) := by
  rw [List.getD_eq_getElem _ _ hi]
  simp [B.nodes]

theorem Built.dist_eq (B : Built rate minimum maximum t h0 om zmax n v a) (i : ℕ) (hi : i < v.n) : v.dist i = (nodeAt t h0 om zmax n (a + i)).dist := by
  unfold Volume.dist; rw [B.node i hi]

theorem Built.dc_eq (B : Built rate minimum maximum t h0 om zmax n v a) (i : ℕ) (hi : i < v.n) : v.dc i = (nodeAt t h0 om zmax n (a + i)).dc := by
  unfold Volume.dc; rw [B.node i hi]

theorem Built.z_eq (B : Built rate minimum maximum t h0 om zmax n v a) (i : ℕ) (hi : i < v.n) : v.z i = zAt zmax n (a + i) := by
  unfold Volume.z; rw [B.node i hi]; rfl

variable (B : Built rate minimum maximum t h0 om zmax n v a) (hh : 0 < h0) (ho : 0 ≤ om) (ho' : om ≤ 1) (hz : 0 < zmax) (hn : 2 ≤ n) (hr : ∀ z, 0 ≤ z → 0 < rate z)
include B hh ho ho' hz hn hr

/-- The distances of the constructed grid increase. -/
theorem Built.dist_incr : Incr v.n v.dist := by
  intro i j hij hj
  rw [B.dist_eq i (by omega), B.dist_eq j hj]
  exact Distributions.dist_incr hh ho ho' hz hn t (a + i) (a + j) (by omega) (by have := B.fits; omega)

theorem Built.dist_range (i : ℕ) (hi : i < v.n) : minimum ≤ v.dist i ∧ v.dist i ≤ maximum := by
  rw [B.dist_eq i hi]
  exact (B.range (a + i) (by have := B.fits; omega)).1 ⟨by omega, by omega⟩

theorem Built.gradient_pos (i : ℕ) (hi : i < v.n) : 0 < gradient v.n v.dist v.dz i := by
  have hd := B.dist_incr hh ho ho' hz hn hr
  have h2 := B.two
  have hdz : 0 < v.dz := by
    rw [B.edz]
    have : (2 : ℝ) ≤ n := by exact_mod_cast hn
    exact div_pos hz (by linarith)
  unfold gradient
  split_ifs with h1 h3
  · have := hd 0 1 (by omega) (by omega); exact div_pos (by linarith) hdz
  · have := hd (i - 1) i (by omega) (by omega); exact div_pos (by linarith) hdz
  · have := hd (i - 1) (i + 1) (by omega) (by omega); exact div_pos (by linarith) (by linarith)

theorem Built.p_nonneg (i : ℕ) (hi : i < v.n) : 0 ≤ v.p i := by
  unfold Volume.p
  have h1 := B.gradient_pos hh ho ho' hz hn hr i hi
  have h2 : 0 ≤ v.z i := by rw [B.z_eq i hi]; exact zAt_nonneg zmax n _ hz hn
  have h3 := hubble_pos h0 om _ hh ho ho' h2
  rw [B.eh0, B.eom, B.erate]
  have h4 := hr _ h2
  positivity

theorem Built.p_pos (i : ℕ) (hi : i < v.n) (h : 0 < a + i) : 0 < v.p i := by
  unfold Volume.p
  have h1 := B.gradient_pos hh ho ho' hz hn hr i hi
  have h2 : 0 ≤ v.z i := by rw [B.z_eq i hi]; exact zAt_nonneg zmax n _ hz hn
  have h3 := hubble_pos h0 om _ hh ho ho' h2
  have h5 : 0 < v.dc i := by
    rw [B.dc_eq i hi]
    have := dc_incr hh ho ho' hz hn t 0 (a + i) h (by have := B.fits; omega)
    dsimp only at this
    rwa [dc_zero hh ho ho' hz hn] at this
  rw [B.eh0, B.eom, B.erate]
  have h4 := hr _ h2
  positivity

/-- At redshift zero the density vanishes. -/
theorem Built.p_zero (h : a = 0) : v.p 0 = 0 := by
  unfold Volume.p
  have : v.dc 0 = 0 := by
    rw [B.dc_eq 0 (by have := B.two; omega), h]
    exact dc_zero hh ho ho' hz hn t
  rw [this]; ring

theorem Built.norm_pos : 0 < cumTrap v.dist v.p (v.n - 1) := by
  have h2 := B.two
  have := cumTrap_incr v.n v.dist v.p (B.dist_incr hh ho ho' hz hn hr) (fun i hi => B.p_nonneg hh ho ho' hz hn hr i hi)
    (fun i h1 hi => B.p_pos hh ho ho' hz hn hr i hi (by omega)) 0 (v.n - 1) (by omega) (by omega)
  rwa [cumTrap_zero] at this

/-- **C53.**  The tabulated density is, up to one positive constant, the comoving volume element `D_c² / H(z)` times the rate, divided by the numerical derivative of the distance; it is not negative, and its trapezoid integral over the grid is one. -/
theorem volume_pdf : (∃ c, 0 < c ∧ ∀ i, i < v.n → v.pdf i = c * (v.dc i ^ 2 / hubble h0 om (v.z i) * rate (v.z i) / gradient v.n v.dist v.dz i)) ∧
    (∀ i, i < v.n → 0 ≤ v.pdf i) ∧ cumTrap v.dist v.pdf (v.n - 1) = 1 := by
  have hN := B.norm_pos hh ho ho' hz hn hr
  refine ⟨⟨(cumTrap v.dist v.p (v.n - 1))⁻¹, inv_pos.2 hN, ?_⟩, ?_, ?_⟩
  · intro i hi
    unfold Volume.pdf
    conv_lhs => rw [Volume.p]
    rw [B.eh0, B.eom, B.erate]
    ring
  · intro i hi
    exact div_nonneg (B.p_nonneg hh ho ho' hz hn hr i hi) hN.le
  · have : cumTrap v.dist v.pdf (v.n - 1) = cumTrap v.dist v.p (v.n - 1) / cumTrap v.dist v.p (v.n - 1) := by
      conv_lhs => unfold cumTrap
      rw [show (fun j => (v.pdf j + v.pdf (j + 1)) / 2 * (v.dist (j + 1) - v.dist j)) =
        fun j => (v.p j + v.p (j + 1)) / 2 * (v.dist (j + 1) - v.dist j) * (cumTrap v.dist v.p (v.n - 1))⁻¹ from by
          funext j; unfold Volume.pdf; ring]
      rw [← sum_mul, ← div_eq_mul_inv]
      rfl
    rw [this, div_self hN.ne']

theorem Built.pdf_pos (i : ℕ) (hi : i < v.n) (h : 0 < a + i) : 0 < v.pdf i :=
  div_pos (B.p_pos hh ho ho' hz hn hr i hi h) (B.norm_pos hh ho ho' hz hn hr)

/-- **C53.**  The cumulative table runs strictly increasing from zero to one. -/
theorem volume_cdf : v.cdf 0 = 0 ∧ v.cdf (v.n - 1) = 1 ∧ Incr v.n v.cdf :=
  ⟨cumTrap_zero _ _, (volume_pdf B hh ho ho' hz hn hr).2.2, cumTrap_incr v.n v.dist v.pdf (B.dist_incr hh ho ho' hz hn hr)
    (volume_pdf B hh ho ho' hz hn hr).2.1 (fun i h1 hi => B.pdf_pos hh ho ho' hz hn hr i hi (by omega))⟩

/-- **C53 (sampling).**  Every sample lies between the first and the last grid point in the range, hence between minimum and maximum, and the samples have the distribution function obtained by joining the cumulative table by straight lines: `F` equals the table
at every grid point and is linear between neighbours. -/
theorem volume_sample_law : ∃ F : ℝ → ℝ, HasLaw v.sample (v.dist 0) (v.dist (v.n - 1)) F ∧ minimum ≤ v.dist 0 ∧ v.dist (v.n - 1) ≤ maximum ∧
    (∀ i, i < v.n → F (v.dist i) = v.cdf i) ∧
    ∀ j x, j + 1 < v.n → v.dist j ≤ x → x ≤ v.dist (j + 1) → F x = chord (v.dist j) (v.dist (j + 1)) (v.cdf j) (v.cdf (j + 1)) x := by
  have h2 := B.two
  have hd := B.dist_incr hh ho ho' hz hn hr
  obtain ⟨c0, c1, hc⟩ := volume_cdf B hh ho ho' hz hn hr
  refine ⟨interp v.n v.dist v.cdf, ?_, (B.dist_range hh ho ho' hz hn hr 0 (by omega)).1, (B.dist_range hh ho ho' hz hn hr (v.n - 1) (by omega)).2,
    fun i hi => interp_at_node v.n v.dist v.cdf hd h2 i hi, fun j x hj h3 h4 => interp_chord v.n v.dist v.cdf hd j hj x h3 h4⟩
  refine hasLaw_of_inverse _ _ _ _ ?_ ?_ ?_
  · intro u hu0 hu1
    unfold Volume.sample
    rw [node_le_interp_iff v.n v.cdf v.dist hc hd h2 u 0 (by omega), interp_le_node_iff v.n v.cdf v.dist hc hd h2 u (v.n - 1) (by omega), c0, c1]
    exact ⟨hu0, hu1.le⟩
  · intro u x hu0 hu1 hx1 hx2
    exact interp_inverse v.n v.cdf v.dist hc hd h2 u x
  · intro x hx1 hx2
    have e1 := node_le_interp_iff v.n v.dist v.cdf hd hc h2 x 0 (by omega)
    have e2 := interp_le_node_iff v.n v.dist v.cdf hd hc h2 x (v.n - 1) (by omega)
    rw [c0] at e1
    rw [c1] at e2
    exact ⟨e1.2 hx1, e2.2 hx2⟩

theorem interpX_fin (y : ℕ → XR) (g : ℕ → ℝ) (x : ℝ) (j : ℕ) (hidx : interpIdx v.n v.dist x = j + 1) (h1 : y j = .fin (g j)) (h2 : y (j + 1) = .fin (g (j + 1))) :
    interpX v.n v.dist y x = .fin (chord (v.dist j) (v.dist (j + 1)) (g j) (g (j + 1)) x) := by
  unfold interpX chord
  rw [hidx]
  simp only [Nat.add_sub_cancel, h1, h2, XR.neg, XR.add, XR.smul]
  rfl

/-- **C52/C53 (log_prob).**  Outside the range it is `-inf`.  Between two grid points at positive redshift it is the straight line through the logarithms of the tabulated density, in particular that logarithm at the grid points themselves; at a grid point at redshift zero
or in the cell above it the value is not a number. -/
theorem volume_log_prob :
    (∀ x, x < minimum ∨ maximum < x → v.logProb x = .ninf) ∧
    (∀ j x, j + 1 < v.n → 0 < a + j → v.dist j ≤ x → x ≤ v.dist (j + 1) →
      v.logProb x = .fin (chord (v.dist j) (v.dist (j + 1)) (Real.log (v.pdf j)) (Real.log (v.pdf (j + 1))) x)) ∧
    (∀ i, i < v.n → 0 < a ∨ 1 < i → IsLog (v.logProb (v.dist i)) (v.pdf i)) ∧
    (a = 0 → ∀ x, v.dist 0 ≤ x → x < v.dist 1 → v.logProb x = .nan) := by
  have h2 := B.two
  have hd := B.dist_incr hh ho ho' hz hn hr
  have hlog : ∀ i, i < v.n → 0 < a + i → xlog (v.pdf i) = .fin (Real.log (v.pdf i)) := by
    intro i hi h
    have := B.pdf_pos hh ho ho' hz hn hr i hi h
    unfold xlog
    rw [if_neg (not_lt.2 this.le), if_neg this.ne']
  have hin : ∀ x, v.dist 0 ≤ x → x ≤ v.dist (v.n - 1) → v.minimum ≤ x ∧ x ≤ v.maximum := by
    intro x h3 h4
    rw [B.emin, B.emax]
    exact ⟨(B.dist_range hh ho ho' hz hn hr 0 (by omega)).1.trans h3, h4.trans (B.dist_range hh ho ho' hz hn hr (v.n - 1) (by omega)).2⟩
  have hcell : ∀ j x, j + 1 < v.n → 0 < a + j → v.dist j ≤ x → x ≤ v.dist (j + 1) →
      v.logProb x = .fin (chord (v.dist j) (v.dist (j + 1)) (Real.log (v.pdf j)) (Real.log (v.pdf (j + 1))) x) := by
    intro j x hj haj h3 h4
    unfold Volume.logProb
    rw [if_pos (hin x ((hd.le (Nat.zero_le j) (by omega)).trans h3) (h4.trans (hd.le (by omega) (by omega))))]
    rcases lt_or_eq_of_le h4 with h | h
    · exact interpX_fin B hh ho ho' hz hn hr _ (fun i => Real.log (v.pdf i)) x j (interpIdx_cell v.n v.dist x hd j hj h3 h) (hlog j (by omega) haj) (hlog (j + 1) hj (by omega))
    · by_cases hl : j + 2 < v.n
      · rw [interpX_fin B hh ho ho' hz hn hr _ (fun i => Real.log (v.pdf i)) x (j + 1) (interpIdx_cell v.n v.dist x hd (j + 1) hl h.ge (by rw [h]; exact hd _ _ (by omega) hl))
          (hlog (j + 1) (by omega) (by omega)) (hlog (j + 2) hl (by omega)), h, chord_left, chord_right _ _ _ _ (hd j (j + 1) (by omega) hj).ne]
      · have : j = v.n - 2 := by omega
        subst this
        exact interpX_fin B hh ho ho' hz hn hr _ (fun i => Real.log (v.pdf i)) x _ (interpIdx_above v.n v.dist x hd h2 h3) (hlog _ (by omega) haj) (hlog _ hj (by omega))
  refine ⟨?_, hcell, ?_, ?_⟩
  · intro x hx
    unfold Volume.logProb
    rw [if_neg]
    rw [B.emin, B.emax]
    rintro ⟨h3, h4⟩
    rcases hx with h | h <;> linarith
  · intro i hi hai
    right
    refine ⟨B.pdf_pos hh ho ho' hz hn hr i hi (by omega), ?_⟩
    by_cases h0 : i = 0
    · subst h0
      rw [hcell 0 _ (by omega) (by omega) le_rfl (hd 0 1 (by omega) (by omega)).le, chord_left]
    · obtain ⟨j, rfl⟩ : ∃ j, i = j + 1 := ⟨i - 1, by omega⟩
      rw [hcell j _ hi (by omega) (hd j (j + 1) (by omega) hi).le le_rfl, chord_right _ _ _ _ (hd j (j + 1) (by omega) hi).ne]
  · intro ha x h3 h4
    have hp0 : xlog (v.pdf 0) = .ninf := by
      unfold xlog Volume.pdf
      rw [B.p_zero hh ho ho' hz hn hr ha, zero_div]
      simp
    have hp1 := hlog 1 (by omega) (by omega)
    unfold Volume.logProb
    rw [if_pos (hin x h3 (h4.le.trans (hd.le (by omega) (by omega))))]
    unfold interpX
    rw [interpIdx_cell v.n v.dist x hd 0 (by omega) h3 h4]
    simp only [Nat.add_sub_cancel, Nat.sub_self, zero_add, hp0, hp1, XR.neg, XR.add, XR.smul]
    have ht : ¬ (x - v.dist 0) / (v.dist 1 - v.dist 0) < 0 := not_lt.2 (div_nonneg (by linarith) (by linarith))
    rw [if_neg ht]
    split_ifs <;> rfl

end

/-- For the redshift the numerical derivative is exactly one. -/
theorem volume_redshift_gradient {rate : ℝ → ℝ} {minimum maximum h0 om zmax : ℝ} {n : ℕ} {v : Volume} {a : ℕ} (B : Built rate minimum maximum .redshift h0 om zmax n v a)
    (hz : 0 < zmax) (hn : 2 ≤ n) (i : ℕ) (hi : i < v.n) : gradient v.n v.dist v.dz i = 1 := by
  have h2 := B.two
  have hdz : 0 < v.dz := by
    rw [B.edz]
    have : (2 : ℝ) ≤ n := by exact_mod_cast hn
    exact div_pos hz (by linarith)
  have e : ∀ i, i < v.n → v.dist i = ((a + i : ℕ) : ℝ) * v.dz := by
    intro i hi
    rw [B.dist_eq i hi, B.edz]; rfl
  unfold gradient
  split_ifs with h1 h3
  · rw [e 1 (by omega), e 0 (by omega), div_eq_one_iff_eq hdz.ne']; push_cast; ring
  · rw [e i hi, e (i - 1) (by omega), div_eq_one_iff_eq hdz.ne']
    obtain ⟨k, rfl⟩ : ∃ k, i = k + 1 := ⟨i - 1, by omega⟩
    simp only [Nat.add_sub_cancel]; push_cast; ring
  · rw [e (i + 1) (by omega), e (i - 1) (by omega), div_eq_one_iff_eq (by positivity)]
    obtain ⟨k, rfl⟩ : ∃ k, i = k + 1 := ⟨i - 1, by omega⟩
    simp only [Nat.add_sub_cancel]; push_cast; ring

/-- Non-vacuity: redshifts 0 to 2 on a grid of six points up to redshift 5 with the Planck parameters; the grid has the three points 0, 1, 2 in it. -/
example : ∃ v a, Volume.init (fun z => 1 / (1 + z)) 0 2 "redshift" 67.66 0.30966 5 6 = .ok v ∧ Built (fun z => 1 / (1 + z)) 0 2 .redshift 67.66 0.30966 5 6 v a ∧
    ∀ z : ℝ, 0 ≤ z → 0 < 1 / (1 + z) := by
  have h := (volume_init (fun z => 1 / (1 + z)) 0 2 "redshift" .redshift 67.66 0.30966 5 6 (by simp [parseType]) (by norm_num) (by norm_num) (by norm_num) (by norm_num) (by norm_num)).2
    (by simp [nodeAt, zAt]; norm_num)
  rw [if_neg] at h
  · obtain ⟨v, a, h1, h2⟩ := h
    exact ⟨v, a, h1, h2, fun z hz => by positivity⟩
  · rw [not_lt]
    have : ({0, 1} : Finset ℕ) ⊆ (range 6).filter fun i => (0 : ℝ) ≤ (nodeAt .redshift 67.66 0.30966 5 6 i).dist ∧ (nodeAt .redshift 67.66 0.30966 5 6 i).dist ≤ 2 := by
      intro i hi
      simp only [mem_insert, mem_singleton] at hi
      rcases hi with rfl | rfl <;> simp [nodeAt, zAt] <;> norm_num
    exact (by simp : ({0, 1} : Finset ℕ).card = 2) ▸ card_le_card this

end Verif.Distributions
