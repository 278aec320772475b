import Verif.Model.PhenomD
import Verif.Spec.PhenomD
import Mathlib.Data.List.Chain
import Mathlib.Data.List.GetD
import Mathlib.Tactic.FieldSimp
import Mathlib.Tactic.Linarith
/-!
# IMRPhenomD: the quasi-normal-mode tables and their interpolation (C59)
-/
namespace Verif.PhenomD
open PhenomDSpec

theorem tabA_length : tabA.length = 1003 := by decide +kernel
theorem tabRing_length : tabRing.length = 1003 := by decide +kernel
theorem tabDamp_length : tabDamp.length = 1003 := by decide +kernel
theorem tabA_chain : tabA.IsChain (· < ·) := by decide +kernel
theorem tabRing_chain : tabRing.IsChain (· < ·) := by decide +kernel
theorem tabA_first : tabA.getD 0 0 = -1000 := by decide +kernel
theorem tabA_last : tabA.getD 1002 0 = 1000 := by decide +kernel
theorem tabRing_range : tabRing.all (fun x => decide (464014 ≤ x ∧ x ≤ 1579619)) = true := by decide +kernel
theorem tabDamp_range : tabDamp.all (fun x => decide (29080 ≤ x ∧ x ≤ 1420000)) = true := by decide +kernel

theorem getD_lt (l : List ℤ) (h : l.IsChain (· < ·)) (i j : ℕ) (hij : i < j) (hj : j < l.length) : l.getD i 0 < l.getD j 0 := by
  rw [List.getD_eq_getElem l 0 hj, List.getD_eq_getElem l 0 (hij.trans hj)]
  exact List.pairwise_iff_getElem.1 h.pairwise i j (hij.trans hj) hj hij

/-- **C59.**  The spin grid increases strictly from -1 to 1. -/
theorem qnmA_lt (i j : ℕ) (hij : i < j) (hj : j < 1003) : qnmA i < qnmA j := by
  have := getD_lt tabA tabA_chain i j hij (by rw [tabA_length]; exact hj)
  unfold qnmA
  have h2 : ((tabA.getD i 0 : ℤ) : ℝ) < ((tabA.getD j 0 : ℤ) : ℝ) := by exact_mod_cast this
  exact div_lt_div_of_pos_right h2 (by norm_num)

theorem qnmA_le (i j : ℕ) (hij : i ≤ j) (hj : j < 1003) : qnmA i ≤ qnmA j := by
  rcases hij.lt_or_eq with h | h
  · exact (qnmA_lt i j h hj).le
  · rw [h]

theorem qnmA_first : qnmA 0 = -1 := by unfold qnmA; rw [tabA_first]; norm_num
theorem qnmA_last : qnmA 1002 = 1 := by unfold qnmA; rw [tabA_last]; norm_num

/-- The ringdown frequency grows strictly with the spin. -/
theorem qnmRing_lt (i j : ℕ) (hij : i < j) (hj : j < 1003) : qnmRing i < qnmRing j := by
  have := getD_lt tabRing tabRing_chain i j hij (by rw [tabRing_length]; exact hj)
  unfold qnmRing
  have h2 : ((tabRing.getD i 0 : ℤ) : ℝ) < ((tabRing.getD j 0 : ℤ) : ℝ) := by exact_mod_cast this
  exact div_lt_div_of_pos_right h2 (by norm_num)

theorem qnmRing_range (i : ℕ) (hi : i < 1003) : 0.0464014 ≤ qnmRing i ∧ qnmRing i ≤ 0.1579619 := by
  have h := List.all_eq_true.1 tabRing_range (tabRing.getD i 0) (by
    rw [List.getD_eq_getElem tabRing 0 (by rw [tabRing_length]; exact hi)]; exact List.getElem_mem _)
  simp only [decide_eq_true_eq] at h
  unfold qnmRing
  have h1 : (464014 : ℝ) ≤ ((tabRing.getD i 0 : ℤ) : ℝ) := by exact_mod_cast h.1
  have h2 : ((tabRing.getD i 0 : ℤ) : ℝ) ≤ 1579619 := by exact_mod_cast h.2
  constructor
  · rw [le_div_iff₀ (by norm_num)]; linarith
  · rw [div_le_iff₀ (by norm_num)]; linarith

theorem qnmDamp_range (i : ℕ) (hi : i < 1003) : 0.0002908 ≤ qnmDamp i ∧ qnmDamp i ≤ 0.0142 := by
  have h := List.all_eq_true.1 tabDamp_range (tabDamp.getD i 0) (by
    rw [List.getD_eq_getElem tabDamp 0 (by rw [tabDamp_length]; exact hi)]; exact List.getElem_mem _)
  simp only [decide_eq_true_eq] at h
  unfold qnmDamp
  have h1 : (29080 : ℝ) ≤ ((tabDamp.getD i 0 : ℤ) : ℝ) := by exact_mod_cast h.1
  have h2 : ((tabDamp.getD i 0 : ℤ) : ℝ) ≤ 1420000 := by exact_mod_cast h.2
  constructor
  · rw [le_div_iff₀ (by norm_num)]; linarith
  · rw [div_le_iff₀ (by norm_num)]; linarith

theorem filter_lt_length (n k : ℕ) : ((List.range n).filter fun i => decide (i < k)).length = min n k := by
  induction n with
  | zero => simp
  | succ n ih =>
    rw [List.range_succ, List.filter_append, List.length_append, ih]
    by_cases h : n < k
    · simp [h]; omega
    · simp [h]; omega

/-- Between two knots the bucket is the upper one. -/
theorem bucketize_between (i : ℕ) (hi : i + 1 < 1003) (x : ℝ) (h1 : qnmA i < x) (h2 : x ≤ qnmA (i + 1)) : bucketize x = i + 1 := by
  unfold bucketize
  rw [tabA_length]
  have : (List.range 1003).filter (fun j => decide (qnmA j < x)) = (List.range 1003).filter (fun j => decide (j < i + 1)) := by
    apply List.filter_congr
    intro j hj
    have hj : j < 1003 := List.mem_range.1 hj
    apply decide_eq_decide.2
    constructor
    · intro h
      by_contra hc
      have := qnmA_le (i + 1) j (by omega) hj
      linarith
    · intro h
      have := qnmA_le j i (by omega) (by omega)
      linarith
  rw [this, filter_lt_length]
  omega

/-- At or below the first knot the bucket is the first. -/
theorem bucketize_first (x : ℝ) (h : x ≤ -1) : bucketize x = 0 := by
  unfold bucketize
  rw [tabA_length]
  have : (List.range 1003).filter (fun j => decide (qnmA j < x)) = (List.range 1003).filter (fun j => decide (j < 0)) := by
    apply List.filter_congr
    intro j hj
    have hj : j < 1003 := List.mem_range.1 hj
    apply decide_eq_decide.2
    constructor
    · intro h
      have := qnmA_le 0 j (by omega) hj
      rw [qnmA_first] at this
      linarith
    · intro h; omega
  rw [this, filter_lt_length]
  omega

/-- **C59.**  The table lookup is linear interpolation in the spin. -/
theorem interp_linear (t : ℕ → ℝ) : LinearInterp 1003 qnmA t (interp t) := by
  intro i hi s hs0 hs1
  have hlt := qnmA_lt i (i + 1) (by omega) hi
  have hne : qnmA (i + 1) - qnmA i ≠ 0 := by linarith
  rcases hs0.lt_or_eq with hs | hs
  · have hb := bucketize_between i hi ((1 - s) * qnmA i + s * qnmA (i + 1)) (by nlinarith) (by nlinarith)
    have hr : rightIdx ((1 - s) * qnmA i + s * qnmA (i + 1)) = i + 1 := by
      unfold rightIdx; rw [hb, tabA_length]; omega
    unfold interp
    dsimp only
    rw [hr, Nat.add_sub_cancel]
    field_simp
    ring
  · subst hs
    rw [show (1 - (0 : ℝ)) * qnmA i + 0 * qnmA (i + 1) = qnmA i by ring, show (1 - (0 : ℝ)) * t i + 0 * t (i + 1) = t i by ring]
    cases i with
    | zero =>
      have hb := bucketize_first (qnmA 0) qnmA_first.le
      have hr : rightIdx (qnmA 0) = 1 := by unfold rightIdx; rw [hb, tabA_length]; rfl
      unfold interp
      dsimp only
      rw [hr]
      ring
    | succ j =>
      have hl := qnmA_lt j (j + 1) (by omega) (by omega)
      have hb := bucketize_between j (by omega) (qnmA (j + 1)) hl le_rfl
      have hr : rightIdx (qnmA (j + 1)) = j + 1 := by unfold rightIdx; rw [hb, tabA_length]; omega
      unfold interp
      dsimp only
      rw [hr, Nat.add_sub_cancel]
      have : qnmA (j + 1) - qnmA j ≠ 0 := by linarith
      field_simp
      ring

/-- Every spin of the grid lies on a segment. -/
theorem segment (x : ℝ) (h1 : -1 ≤ x) (h2 : x ≤ 1) : ∃ i t, i + 1 < 1003 ∧ 0 ≤ t ∧ t ≤ 1 ∧ x = (1 - t) * qnmA i + t * qnmA (i + 1) := by
  have : ∃ i, i + 1 < 1003 ∧ qnmA i ≤ x ∧ x ≤ qnmA (i + 1) := by
    by_contra hc
    push Not at hc
    have : ∀ n, n < 1003 → qnmA n ≤ x := by
      intro n
      induction n with
      | zero => intro _; rw [qnmA_first]; exact h1
      | succ n ih => intro hn; exact (hc n hn (ih (by omega))).le
    have h3 := hc 1001 (by norm_num) (this 1001 (by norm_num))
    rw [qnmA_last] at h3
    linarith
  obtain ⟨i, hi, a, b⟩ := this
  have hlt := qnmA_lt i (i + 1) (by omega) hi
  have hp : 0 < qnmA (i + 1) - qnmA i := by linarith
  refine ⟨i, (x - qnmA i) / (qnmA (i + 1) - qnmA i), hi, div_nonneg (by linarith) hp.le, (div_le_one hp).2 (by linarith), ?_⟩
  field_simp
  ring

theorem interp_bounds (t : ℕ → ℝ) (lo hi : ℝ) (ht : ∀ i, i < 1003 → lo ≤ t i ∧ t i ≤ hi) (x : ℝ) (h1 : -1 ≤ x) (h2 : x ≤ 1) :
    lo ≤ interp t x ∧ interp t x ≤ hi := by
  obtain ⟨i, s, hi', hs0, hs1, rfl⟩ := segment x h1 h2
  rw [interp_linear t i hi' s hs0 hs1]
  obtain ⟨a, b⟩ := ht i (by omega)
  obtain ⟨c, d⟩ := ht (i + 1) hi'
  constructor <;> nlinarith

/-- **C59.**  Ringdown frequency and damping of any final spin in the grid. -/
theorem ring_bounds (x : ℝ) (h1 : -1 ≤ x) (h2 : x ≤ 1) :
    (0.0464014 ≤ interp qnmRing x ∧ interp qnmRing x ≤ 0.1579619) ∧ (0.0002908 ≤ interp qnmDamp x ∧ interp qnmDamp x ≤ 0.0142) :=
  ⟨interp_bounds _ _ _ qnmRing_range x h1 h2, interp_bounds _ _ _ qnmDamp_range x h1 h2⟩

/-- **C59.**  A batch is interpolated when every final spin is in `[-1, 1]`, and otherwise rejected as a whole. -/
theorem interpFinspin_ok (l : List ℝ) (h : ∀ x ∈ l, -1 ≤ x ∧ x ≤ 1) : interpFinspin l = .ok (l.map fun x => (interp qnmRing x, interp qnmDamp x)) := by
  unfold interpFinspin raiseIf
  rw [tabA_length, qnmA_first, qnmA_last, if_neg]
  · rfl
  · rintro (hc | hc)
    · obtain ⟨x, hx, hd⟩ := List.any_eq_true.1 hc
      have := (h x hx).1
      have := of_decide_eq_true hd
      linarith
    · obtain ⟨x, hx, hd⟩ := List.any_eq_true.1 hc
      have := (h x hx).2
      have := of_decide_eq_true hd
      linarith

theorem interpFinspin_reject (l : List ℝ) (h : ∃ x ∈ l, x < -1 ∨ 1 < x) : interpFinspin l = .error .runtime := by
  obtain ⟨x, hx, hd⟩ := h
  unfold interpFinspin raiseIf
  rw [tabA_length, qnmA_first, qnmA_last, if_pos]
  · rfl
  · rcases hd with hd | hd
    · exact Or.inl (List.any_eq_true.2 ⟨x, hx, decide_eq_true hd⟩)
    · exact Or.inr (List.any_eq_true.2 ⟨x, hx, decide_eq_true hd⟩)

end Verif.PhenomD
