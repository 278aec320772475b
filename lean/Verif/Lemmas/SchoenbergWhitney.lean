import Verif.Lemmas.BSpline
import Mathlib.Analysis.Calculus.MeanValue
import Mathlib.Analysis.Calculus.Deriv.Mul
import Mathlib.Analysis.Calculus.Deriv.Add
import Mathlib.Topology.Order.OrderClosed
/-!
# Schoenberg–Whitney: the collocation matrix is invertible

A spline that vanishes at all sites is zero, if each site lies in the support of its B-spline.  The proof counts sign changes of the successive
(right) derivatives, which are splines of lower degree; the last one is piecewise constant.
-/
namespace Verif.Spline
open Finset Polynomial Set Filter Topology

variable {n k : ℕ} {t : ℕ → ℝ}

/-- The functions of the recursion, zero beyond the last column. -/
noncomputable def ext (n k : ℕ) (t : ℕ → ℝ) (d i : ℕ) (x : ℝ) : ℝ := if i < n then basisD t (n + k + 1) n d i x else 0

theorem ext_succ (d i : ℕ) (x : ℝ) :
    ext n k t (d + 1) i x = left t (d + 1) i x * ext n k t d i x + right t (d + 1) i x * ext n k t d (i + 1) x := by
  unfold ext
  by_cases hi : i < n
  · rw [if_pos hi, if_pos hi]; rfl
  · rw [if_neg hi, if_neg hi, if_neg (by omega)]; ring

theorem ext_zero (h : Good n k t) (i : ℕ) (x : ℝ) (h0 : t k ≤ x) :
    ext n k t 0 i x = if i < n ∧ t i ≤ x ∧ (x < t (i + 1) ∨ i + 1 = n) then 1 else 0 := by
  unfold ext
  by_cases hi : i < n
  · rw [if_pos hi]
    simp only [basisD, zeroth_eq h i hi x h0]
    have hl := h.last
    by_cases hin : i + 1 = n
    · have e : i = n - 1 := by omega
      subst e
      rw [hin]
      split_ifs with a b c <;> simp_all
      linarith
    · have hiff : (i < n ∧ t i ≤ x ∧ (x < t (i + 1) ∨ i + 1 = n)) ↔ (t i ≤ x ∧ x < t (i + 1)) := by tauto
      rw [if_neg (by tauto)]
      simp only [hiff]
  · rw [if_neg hi, if_neg (by tauto)]

/-- Support. -/
theorem ext_support (h : Good n k t) (x : ℝ) (h0 : t k ≤ x) (h1 : x ≤ t n) (d : ℕ) (hd : d ≤ k) (i : ℕ) (hne : ext n k t d i x ≠ 0) :
    i < n ∧ t i ≤ x ∧ (x < t (i + d + 1) ∨ (i + 1 = n ∧ x = t n)) := by
  unfold ext at hne
  split_ifs at hne with hi
  · exact ⟨hi, basisD_support h x h0 h1 d hd i hi hne⟩
  · exact absurd rfl hne

theorem ext_sum (h : Good n k t) (x : ℝ) (h0 : t k ≤ x) (h1 : x ≤ t n) (d : ℕ) (hd : d ≤ k) : ∑ i ∈ range n, ext n k t d i x = 1 := by
  have hm := congrArg (fun p => p.coeff d) (marsden h x h0 h1 d hd)
  simp only [finsetSum_coeff, coeff_C_mul, coeff_X_add_C_pow] at hm
  rw [Nat.sub_self, pow_zero, one_mul, Nat.choose_self, Nat.cast_one] at hm
  rw [← hm]
  refine sum_congr rfl fun i hi => ?_
  have : (∏ j ∈ range d, (X + C (t (i + 1 + j)))).coeff d = 1 := by
    have mon : (∏ j ∈ range d, (X + C (t (i + 1 + j)))).Monic := monic_prod_of_monic _ _ fun j _ => monic_X_add_C _
    have deg : (∏ j ∈ range d, (X + C (t (i + 1 + j)))).natDegree = d := by
      rw [natDegree_prod_of_monic _ _ fun j _ => monic_X_add_C _]; simp
    have := mon.coeff_natDegree
    rwa [deg] at this
  rw [this, mul_one]
  unfold ext
  rw [if_pos (mem_range.1 hi)]

/-! ## Derivatives -/

/-- The derivative of `ext d i`. -/
noncomputable def dext (n k : ℕ) (t : ℕ → ℝ) : ℕ → ℕ → ℝ → ℝ
  | 0, _, _ => 0
  | d + 1, i, x => (d + 1 : ℝ) * (ext n k t d i x / (t (i + (d + 1)) - t i) - ext n k t d (i + 1) x / (t (i + (d + 1) + 1) - t (i + 1)))

theorem dext_algebra (h : Good n k t) (d i : ℕ) (hd : d + 1 ≤ k) (x : ℝ) :
    ext n k t d i x / (t (i + (d + 1)) - t i) + left t (d + 1) i x * dext n k t d i x
      + (-(ext n k t d (i + 1) x) / (t (i + (d + 1) + 1) - t (i + 1)) + right t (d + 1) i x * dext n k t d (i + 1) x) = dext n k t (d + 1) i x := by
  cases d with
  | zero => simp only [dext]; push_cast; ring
  | succ d =>
    by_cases hin : i < n
    swap
    · simp only [dext, ext, if_neg hin, if_neg (show ¬ (i + 1 < n) by omega), if_neg (show ¬ (i + 1 + 1 < n) by omega)]; ring
    have key : ∀ b0 b1 b2 t0 t1 t2 ta tb tc : ℝ, (b1 = 0 ∨ ta - t1 = 0 ∨ (tb - t1 ≠ 0 ∧ ta - t0 ≠ 0)) →
        ((x - t0) / (tc - t0) * b0 + (ta - x) / (ta - t1) * b1) / (ta - t0) + (x - t0) / (ta - t0) * ((d + 1 : ℝ) * (b0 / (tc - t0) - b1 / (ta - t1)))
         + (-((x - t1) / (ta - t1) * b1 + (tb - x) / (tb - t2) * b2) / (tb - t1) + (tb - x) / (tb - t1) * ((d + 1 : ℝ) * (b1 / (ta - t1) - b2 / (tb - t2))))
        = ((d + 1 : ℝ) + 1) * (((x - t0) / (tc - t0) * b0 + (ta - x) / (ta - t1) * b1) / (ta - t0) - ((x - t1) / (ta - t1) * b1 + (tb - x) / (tb - t2) * b2) / (tb - t1)) := by
      intro b0 b1 b2 t0 t1 t2 ta tb tc hc
      have h1 : b1 / (ta - t1) * ((x - t0) / (ta - t0) - (tb - x) / (tb - t1)) = b1 / (ta - t1) * (- ((ta - x) / (ta - t0)) + (x - t1) / (tb - t1)) := by
        rcases hc with hc | hc | ⟨hc, hc'⟩
        · rw [hc]; ring
        · rw [hc]; simp
        · congr 1; field_simp; ring
      linear_combination (-(d + 1 : ℝ)) * h1
    have := key (ext n k t d i x) (ext n k t d (i + 1) x) (ext n k t d (i + 1 + 1) x) (t i) (t (i + 1)) (t (i + 1 + 1)) (t (i + (d + 1 + 1)))
      (t (i + (d + 1 + 1) + 1)) (t (i + (d + 1))) (by
        by_cases hi : i + 1 < n
        · right
          by_cases he : t (i + (d + 1 + 1)) - t (i + 1) = 0
          · exact Or.inl he
          · right
            have m1 := h.mono (i + 1) (i + (d + 1 + 1)) (by omega) (by omega)
            have m2 := h.mono i (i + 1) (by omega) (by omega)
            have m3 := h.mono (i + (d + 1 + 1)) (i + (d + 1 + 1) + 1) (by omega) (by omega)
            have : 0 < t (i + (d + 1 + 1)) - t (i + 1) := lt_of_le_of_ne (by linarith) (Ne.symm he)
            exact ⟨by intro h0; linarith, by intro h0; linarith⟩
        · left; unfold ext; rw [if_neg hi])
    simp only [dext, ext_succ, left, right] at this ⊢
    rw [show i + 1 + (d + 1) + 1 = i + (d + 1 + 1) + 1 by omega, show i + 1 + (d + 1) = i + (d + 1 + 1) by omega,
      show i + (d + 1) + 1 = i + (d + 1 + 1) by omega]
    push_cast
    exact this

theorem ext_hasDeriv (h : Good n k t) (d : ℕ) : d ≤ k → ∀ i x, t k ≤ x → HasDerivWithinAt (ext n k t d i) (dext n k t d i x) (Ici x) x := by
  induction d with
  | zero =>
    intro _ i x hx
    have hc : HasDerivWithinAt (fun _ : ℝ => ext n k t 0 i x) 0 (Ici x) x := hasDerivWithinAt_const _ _ _
    refine hc.congr_of_eventuallyEq ?_ rfl
    have hev : ∀ c : ℝ, ∀ᶠ y in 𝓝[≥] x, (y < c ↔ x < c) := by
      intro c
      by_cases hxc : x < c
      · filter_upwards [mem_nhdsWithin_of_mem_nhds (Iio_mem_nhds hxc)] with y hy
        exact ⟨fun _ => hxc, fun _ => hy⟩
      · filter_upwards [self_mem_nhdsWithin] with y hy
        exact ⟨fun h' => absurd (lt_of_le_of_lt hy h') hxc, fun h' => absurd h' hxc⟩
    filter_upwards [hev (t i), hev (t (i + 1)), self_mem_nhdsWithin] with y h1 h2 hy
    have hiff : (i < n ∧ t i ≤ y ∧ (y < t (i + 1) ∨ i + 1 = n)) ↔ (i < n ∧ t i ≤ x ∧ (x < t (i + 1) ∨ i + 1 = n)) := by
      rw [h2, ← not_lt, h1, not_lt]
    rw [ext_zero h i y (le_trans hx hy), ext_zero h i x hx]
    simp only [hiff]
  | succ d ih =>
    intro hd i x hx
    have e : ext n k t (d + 1) i = fun y => left t (d + 1) i y * ext n k t d i y + right t (d + 1) i y * ext n k t d (i + 1) y := by
      funext y; exact ext_succ d i y
    rw [e, ← dext_algebra h d i hd x]
    have hl : HasDerivWithinAt (left t (d + 1) i) (1 / (t (i + (d + 1)) - t i)) (Ici x) x :=
      ((hasDerivWithinAt_id x _).sub_const _).div_const _
    have hr : HasDerivWithinAt (right t (d + 1) i) (-1 / (t (i + (d + 1) + 1) - t (i + 1))) (Ici x) x :=
      ((hasDerivWithinAt_id x _).const_sub _).div_const _
    refine ((hl.mul (ih (by omega) i x hx)).add (hr.mul (ih (by omega) (i + 1) x hx))).congr_deriv ?_
    ring

/-- Simple interior knots. -/
def Simple (n k : ℕ) (t : ℕ → ℝ) : Prop := ∀ i, k ≤ i → i < n → t i < t (i + 1)

theorem Simple.strict (hs : Simple n k t) (i j : ℕ) (hi : k ≤ i) (hij : i < j) (hj : j ≤ n) : t i < t j := by
  induction j with
  | zero => omega
  | succ j ih =>
    rcases Nat.lt_or_ge i j with h | h
    · exact (ih h (by omega)).trans (hs j (by omega) (by omega))
    · have : i = j := by omega
      subst this; exact hs i hi (by omega)

/-- The piece of a point. -/
theorem piece (hkn : k < n) (x : ℝ) (h0 : t k < x) : ∃ l, k ≤ l ∧ l < n ∧ t l < x ∧ (x ≤ t (l + 1) ∨ l + 1 = n) := by
  have key : ∀ m, k < m → m ≤ n → ∃ l, k ≤ l ∧ l < m ∧ t l < x ∧ (x ≤ t (l + 1) ∨ l + 1 = m) := by
    intro m
    induction m with
    | zero => intro h; omega
    | succ m ih =>
      intro hm hmn
      rcases Nat.lt_or_ge k m with hkm | hkm
      · obtain ⟨l, a, b, c, e⟩ := ih hkm (by omega)
        rcases e with e | e
        · exact ⟨l, a, by omega, c, Or.inl e⟩
        · rcases le_or_gt x (t m) with hx | hx
          · exact ⟨l, a, by omega, c, Or.inl (by rw [e]; exact hx)⟩
          · exact ⟨m, by omega, by omega, hx, Or.inr rfl⟩
      · have : k = m := by omega
        subst this
        exact ⟨k, le_rfl, by omega, h0, Or.inr rfl⟩
  exact key n hkn le_rfl

theorem ext_zero_piece (h : Good n k t) (l : ℕ) (hkl : k ≤ l) (hln : l < n) (y : ℝ) (h0 : t l ≤ y) (h1 : y < t (l + 1) ∨ l + 1 = n) (i : ℕ) :
    ext n k t 0 i y = if i = l then 1 else 0 := by
  have hk0 : t k ≤ y := le_trans (h.mono k l hkl (by omega)) h0
  rw [ext_zero h i y hk0]
  by_cases hil : i = l
  · subst hil
    rw [if_pos ⟨hln, h0, h1⟩, if_pos rfl]
  · rw [if_neg hil, if_neg]
    rintro ⟨a, b, c⟩
    rcases Nat.lt_or_ge i l with hlt | hge
    · have := h.mono (i + 1) l (by omega) (by omega)
      rcases c with c | c
      · linarith
      · omega
    · have := h.mono (l + 1) i (by omega) (by omega)
      rcases h1 with h1 | h1
      · linarith
      · omega

theorem ext_continuous (h : Good n k t) (hs : Simple n k t) (d : ℕ) (hd : d + 1 ≤ k) (i : ℕ) : ContinuousOn (ext n k t (d + 1) i) (Ici (t k)) := by
  have hkn : k < n := by have := h.hn; omega
  have hcl : ∀ d i, Continuous (left t d i) := fun d i => by unfold left; fun_prop
  have hcr : ∀ d i, Continuous (right t d i) := fun d i => by unfold right; fun_prop
  induction d generalizing i with
  | succ d ih =>
    have e : ext n k t (d + 1 + 1) i = fun y => left t (d + 1 + 1) i y * ext n k t (d + 1) i y + right t (d + 1 + 1) i y * ext n k t (d + 1) (i + 1) y := by
      funext y; exact ext_succ (d + 1) i y
    rw [e]
    exact ((hcl _ _).continuousOn.mul (ih (by omega) i)).add ((hcr _ _).continuousOn.mul (ih (by omega) (i + 1)))
  | zero =>
    intro x hx
    have hright : ContinuousWithinAt (ext n k t (0 + 1) i) (Ici x) x := (ext_hasDeriv h (0 + 1) hd i x hx).continuousWithinAt
    rcases eq_or_lt_of_le (show t k ≤ x from hx) with hx0 | hx0
    · rw [hx0]; exact hright
    obtain ⟨l, hkl, hln, hl0, hl1⟩ := piece hkn x hx0
    suffices hleft : ContinuousWithinAt (ext n k t (0 + 1) i) (Iio x) x by
      refine (ContinuousWithinAt.union hleft hright).mono ?_
      rw [Iio_union_Ici]; exact subset_univ _
    have hg : Continuous fun y => left t 1 i y * (if i = l then 1 else 0) + right t 1 i y * (if i + 1 = l then 1 else 0) := by
      have := hcl 1 i; have := hcr 1 i; fun_prop
    refine hg.continuousWithinAt.congr_of_eventuallyEq ?_ ?_
    · filter_upwards [self_mem_nhdsWithin, mem_nhdsWithin_of_mem_nhds (Ioi_mem_nhds hl0)] with y hy1 hy2
      have hy1 : y < x := hy1
      have hy2 : t l < y := hy2
      rw [ext_succ, ext_zero_piece h l hkl hln y hy2.le (hl1.imp (fun h' => lt_of_lt_of_le hy1 h') id),
        ext_zero_piece h l hkl hln y hy2.le (hl1.imp (fun h' => lt_of_lt_of_le hy1 h') id)]
    · rw [ext_succ]
      by_cases hc : x < t (l + 1) ∨ l + 1 = n
      · rw [ext_zero_piece h l hkl hln x hl0.le hc, ext_zero_piece h l hkl hln x hl0.le hc]
      · push Not at hc
        obtain ⟨hc1, hc2⟩ := hc
        have hx1 : x = t (l + 1) := le_antisymm (by rcases hl1 with h' | h' <;> [exact h'; exact absurd h' hc2]) hc1
        have hst : t (l + 1) < t (l + 1 + 1) := hs (l + 1) (by omega) (by omega)
        rw [ext_zero_piece h (l + 1) (by omega) (by omega) x hx1.ge (Or.inl (by rw [hx1]; exact hst)),
          ext_zero_piece h (l + 1) (by omega) (by omega) x hx1.ge (Or.inl (by rw [hx1]; exact hst))]
        have hst' : t l < t (l + 1) := by rw [← hx1]; exact hl0
        unfold left right
        rw [hx1]
        by_cases h1 : i = l
        · subst h1
          simp only [if_true]
          rw [if_neg (by omega), if_neg (by omega)]
          rw [div_self (by linarith), div_self (by linarith)]; ring
        · by_cases h2 : i = l + 1
          · subst h2
            simp [show ¬ l + 1 + 1 = l by omega]
          · rw [if_neg h1, if_neg h2, if_neg (show ¬ i + 1 = l + 1 by omega)]
            by_cases h3 : i + 1 = l
            · rw [show i + 1 + 1 = l + 1 by omega, sub_self, zero_div]; ring
            · rw [if_neg h3]

/-! ## Splines -/

/-- A combination of the functions of degree `d`. -/
noncomputable def S (n k : ℕ) (t : ℕ → ℝ) (d : ℕ) (c : ℕ → ℝ) (x : ℝ) : ℝ := ∑ i ∈ range n, c i * ext n k t d i x

/-- The coefficients of the derivative. -/
noncomputable def dc (t : ℕ → ℝ) (d : ℕ) (c : ℕ → ℝ) (i : ℕ) : ℝ := (d + 1 : ℝ) * (c i - if i = 0 then 0 else c (i - 1)) / (t (i + (d + 1)) - t i)

theorem S_hasDeriv (h : Good n k t) (d : ℕ) (hd : d + 1 ≤ k) (c : ℕ → ℝ) (x : ℝ) (hx : t k ≤ x) :
    HasDerivWithinAt (S n k t (d + 1) c) (S n k t d (dc t d c) x) (Ici x) x := by
  have hd' : HasDerivWithinAt (S n k t (d + 1) c) (∑ i ∈ range n, c i * dext n k t (d + 1) i x) (Ici x) x := by
    unfold S
    exact HasDerivWithinAt.fun_sum fun i _ => (ext_hasDeriv h (d + 1) hd i x hx).const_mul _
  refine hd'.congr_deriv ?_
  unfold S
  obtain ⟨m, rfl⟩ : ∃ m, n = m + 1 := ⟨n - 1, by have := h.hn; omega⟩
  have e1 : ∑ i ∈ range (m + 1), c i * dext (m + 1) k t (d + 1) i x
      = ∑ i ∈ range (m + 1), (d + 1 : ℝ) * c i * (ext (m + 1) k t d i x / (t (i + (d + 1)) - t i))
        - ∑ i ∈ range (m + 1), (d + 1 : ℝ) * c i * (ext (m + 1) k t d (i + 1) x / (t (i + (d + 1) + 1) - t (i + 1))) := by
    rw [← sum_sub_distrib]
    refine sum_congr rfl fun i _ => ?_
    simp only [dext]; ring
  have e2 : ∑ i ∈ range (m + 1), (d + 1 : ℝ) * c i * (ext (m + 1) k t d (i + 1) x / (t (i + (d + 1) + 1) - t (i + 1)))
      = ∑ i ∈ range (m + 1), (d + 1 : ℝ) * (if i = 0 then 0 else c (i - 1)) * (ext (m + 1) k t d i x / (t (i + (d + 1)) - t i)) := by
    rw [sum_range_succ, sum_range_succ' _ m]
    have : ext (m + 1) k t d (m + 1) x = 0 := by unfold ext; rw [if_neg (by omega)]
    rw [this]
    simp only [zero_div, mul_zero, add_zero, if_true, zero_mul]
    refine sum_congr rfl fun i _ => ?_
    rw [if_neg (by omega), show i + 1 - 1 = i by omega, show i + (d + 1) + 1 = i + 1 + (d + 1) by omega]
  rw [e1, e2, ← sum_sub_distrib]
  refine sum_congr rfl fun i _ => ?_
  unfold dc; ring

theorem S_continuous (h : Good n k t) (hs : Simple n k t) (d : ℕ) (hd : d + 1 ≤ k) (c : ℕ → ℝ) : ContinuousOn (S n k t (d + 1) c) (Ici (t k)) := by
  unfold S
  exact continuousOn_finsetSum _ fun i _ => continuousOn_const.mul (ext_continuous h hs d hd i)

/-- Local linear independence. -/
theorem local_independence (h : Good n k t) (hs : Simple n k t) (l : ℕ) (hkl : k ≤ l) (hln : l < n) (a b : ℝ) (hab : a < b) (ha : t l ≤ a) (hb : b ≤ t (l + 1))
    (d : ℕ) (hd : d ≤ k) (c : ℕ → ℝ) (h0 : ∀ x, a < x → x < b → S n k t d c x = 0) : ∀ i, l ≤ i + d → i ≤ l → c i = 0 := by
  have hin : ∀ x, a < x → x < b → t k ≤ x ∧ x ≤ t n ∧ x < t n := by
    intro x h1 h2
    have m1 := h.mono k l hkl (by omega)
    have m2 := h.mono (l + 1) n (by omega) (by omega)
    exact ⟨by linarith, by linarith, by linarith⟩
  induction d generalizing c with
  | zero =>
    intro i h1 h2
    have hil : i = l := by omega
    subst hil
    have := h0 ((a + b) / 2) (by linarith) (by linarith)
    unfold S at this
    rw [sum_eq_single i] at this
    · rwa [ext_zero_piece h i hkl hln _ (by linarith) (Or.inl (by linarith)), if_pos rfl, mul_one] at this
    · intro j _ hj
      rw [ext_zero_piece h i hkl hln _ (by linarith) (Or.inl (by linarith)), if_neg hj, mul_zero]
    · intro hh; rw [Finset.mem_range] at hh; omega
  | succ d ih =>
    have hder : ∀ x, a < x → x < b → S n k t d (dc t d c) x = 0 := by
      intro x h1 h2
      have hD := S_hasDeriv h d hd c x (hin x h1 h2).1
      have hZ : HasDerivWithinAt (S n k t (d + 1) c) 0 (Ici x) x := by
        refine (hasDerivWithinAt_const x (Ici x) (0 : ℝ)).congr_of_eventuallyEq ?_ (h0 x h1 h2)
        filter_upwards [self_mem_nhdsWithin, mem_nhdsWithin_of_mem_nhds (Iio_mem_nhds h2)] with y hy1 hy2
        exact h0 y (lt_of_lt_of_le h1 hy1) hy2
      exact (uniqueDiffWithinAt_Ici x).eq_deriv _ hD hZ
    have hdc := ih (by omega) (dc t d c) hder
    have hstep : ∀ i, l ≤ i + d → i ≤ l → c i = c (i - 1) := by
      intro i h1 h2
      have := hdc i h1 h2
      unfold dc at this
      rw [if_neg (by omega)] at this
      have hgap : 0 < t (i + (d + 1)) - t i := by
        have m1 := h.mono i l h2 (by omega)
        have m2 := h.mono (l + 1) (i + (d + 1)) (by omega) (by omega)
        have := hs l hkl hln
        linarith
      have hd1 : (0 : ℝ) < d + 1 := by positivity
      rcases div_eq_zero_iff.1 this with h' | h'
      · rcases mul_eq_zero.1 h' with h' | h'
        · linarith
        · linarith
      · linarith
    have hall : ∀ i, l ≤ i + (d + 1) → i ≤ l → c i = c l := by
      intro i
      have : ∀ m i, l = i + m → m ≤ d + 1 → c i = c l := by
        intro m
        induction m with
        | zero => intro i h1 _; rw [h1]; rfl
        | succ m ihm =>
          intro i h1 h2
          rw [← ihm (i + 1) (by omega) (by omega), hstep (i + 1) (by omega) (by omega), Nat.add_sub_cancel]
      intro h1 h2
      exact this (l - i) i (by omega) (by omega)
    have hx := h0 ((a + b) / 2) (by linarith) (by linarith)
    obtain ⟨q1, q2, q3⟩ := hin ((a + b) / 2) (by linarith) (by linarith)
    have hsum : S n k t (d + 1) c ((a + b) / 2) = c l * ∑ i ∈ range n, ext n k t (d + 1) i ((a + b) / 2) := by
      unfold S
      rw [mul_sum]
      refine sum_congr rfl fun i _ => ?_
      by_cases hne : ext n k t (d + 1) i ((a + b) / 2) = 0
      · rw [hne, mul_zero, mul_zero]
      · obtain ⟨s1, s2, s3⟩ := ext_support h _ q1 q2 (d + 1) hd i hne
        have s3 : (a + b) / 2 < t (i + (d + 1) + 1) := by
          rcases s3 with s3 | s3
          · exact s3
          · linarith [s3.2]
        rw [hall i]
        · by_contra hc
          have := h.mono (i + (d + 1) + 1) l (by omega) (by omega)
          linarith
        · by_contra hc
          have := h.mono (l + 1) i (by omega) (by omega)
          linarith
    rw [hsum, ext_sum h _ q1 q2 (d + 1) hd, mul_one] at hx
    intro i h1 h2
    rw [hall i h1 h2, hx]

/-! ## Counting sign changes -/

/-- `f` takes `r + 1` values of alternating sign on `[a, b)`. -/
def Alt (f : ℝ → ℝ) (a b : ℝ) (r : ℕ) : Prop :=
  ∃ (y : ℕ → ℝ) (e : ℝ), a ≤ y 0 ∧ y r < b ∧ (∀ i < r, y i < y (i + 1)) ∧ ∀ i ≤ r, 0 < e * (-1) ^ i * f (y i)

/-- `f` goes up and down alternately over `r + 1` points of `[a, b]`. -/
def Zig (f : ℝ → ℝ) (a b : ℝ) (r : ℕ) : Prop :=
  ∃ (y : ℕ → ℝ) (e : ℝ), a ≤ y 0 ∧ y r ≤ b ∧ (∀ i < r, y i < y (i + 1)) ∧ ∀ i < r, 0 < e * (-1) ^ i * (f (y (i + 1)) - f (y i))

theorem steps_lt (y : ℕ → ℝ) (r : ℕ) (h : ∀ i < r, y i < y (i + 1)) (i j : ℕ) (hij : i ≤ j) (hj : j ≤ r) : y i ≤ y j := by
  induction j with
  | zero => rw [show i = 0 by omega]
  | succ j ih =>
    rcases Nat.lt_or_ge i (j + 1) with h1 | h1
    · exact (ih (by omega) (by omega)).trans (h j (by omega)).le
    · rw [show i = j + 1 by omega]

theorem slope_pos {f g : ℝ → ℝ} {a b : ℝ} (hf : ContinuousOn f (Icc a b)) (hg : ∀ x ∈ Ico a b, HasDerivWithinAt f (g x) (Ici x) x)
    (u v : ℝ) (hu : a ≤ u) (huv : u < v) (hv : v ≤ b) (s : ℝ) (h : 0 < s * (f v - f u)) : ∃ z, u ≤ z ∧ z < v ∧ 0 < s * g z := by
  by_contra hc
  push Not at hc
  have hsub : Icc u v ⊆ Icc a b := Icc_subset_Icc hu hv
  have hcont : ContinuousOn (fun x => s * f x) (Icc u v) := continuousOn_const.mul (hf.mono hsub)
  have := image_le_of_deriv_right_le_deriv_boundary (f := fun x => s * f x) (f' := fun x => s * g x) (B := fun _ => s * f u) (B' := fun _ => 0) hcont
    (fun x hx => (hg x ⟨le_trans hu hx.1, lt_of_lt_of_le hx.2 hv⟩).const_mul s) le_rfl continuousOn_const
    (fun x _ => hasDerivWithinAt_const _ _ _) (fun x hx => hc x hx.1 hx.2) (right_mem_Icc.2 huv.le)
  nlinarith

theorem zig_deriv {f g : ℝ → ℝ} {a b : ℝ} (hf : ContinuousOn f (Icc a b)) (hg : ∀ x ∈ Ico a b, HasDerivWithinAt f (g x) (Ici x) x) (r : ℕ)
    (h : Zig f a b (r + 1)) : Alt g a b r := by
  obtain ⟨y, e, h0, h1, h2, h3⟩ := h
  have hz : ∀ i, ∃ z, i ≤ r → y i ≤ z ∧ z < y (i + 1) ∧ 0 < e * (-1) ^ i * g z := by
    intro i
    by_cases hi : i ≤ r
    · obtain ⟨z, a1, a2, a3⟩ := slope_pos hf hg (y i) (y (i + 1)) (h0.trans (steps_lt y _ h2 0 i (by omega) (by omega))) (h2 i (by omega))
        ((steps_lt y _ h2 (i + 1) (r + 1) (by omega) le_rfl).trans h1) _ (h3 i (by omega))
      exact ⟨z, fun _ => ⟨a1, a2, a3⟩⟩
    · exact ⟨0, fun h => absurd h hi⟩
  choose z hz using hz
  refine ⟨z, e, h0.trans (hz 0 (by omega)).1, lt_of_lt_of_le (hz r le_rfl).2.1 h1, ?_, fun i hi => (hz i hi).2.2⟩
  intro i hi
  exact lt_of_lt_of_le (hz i (by omega)).2.1 (hz (i + 1) (by omega)).1

theorem neg_one_pow_mul_self (i : ℕ) : ((-1 : ℝ) ^ i) * (-1) ^ i = 1 := by
  rw [← mul_pow]; simp

theorem alt_zig {f : ℝ → ℝ} {a b : ℝ} {r : ℕ} (h : Alt f a b r) (eL eR : ℕ) (hL : eL = 0 ∨ (eL = 1 ∧ f a = 0)) (hR : eR = 0 ∨ (eR = 1 ∧ f b = 0)) :
    Zig f a b (r + eL + eR) := by
  obtain ⟨y, e, h0, h1, h2, h3⟩ := h
  have base : ∀ i < r, 0 < -e * (-1) ^ i * (f (y (i + 1)) - f (y i)) := by
    intro i hi
    have p1 := h3 i (by omega)
    have p2 := h3 (i + 1) (by omega)
    rw [pow_succ] at p2
    linarith
  -- the left end
  have hleft : ∃ (y' : ℕ → ℝ) (e' : ℝ), a ≤ y' 0 ∧ y' (r + eL) < b ∧ (∀ i < r + eL, y' i < y' (i + 1)) ∧
      (∀ i < r + eL, 0 < -e' * (-1) ^ i * (f (y' (i + 1)) - f (y' i))) ∧ 0 < e' * (-1) ^ (r + eL) * f (y' (r + eL)) := by
    rcases hL with rfl | ⟨rfl, hL⟩
    · exact ⟨y, e, h0, h1, h2, base, h3 r le_rfl⟩
    · have hay : a < y 0 := by
        rcases eq_or_lt_of_le h0 with h' | h'
        · have := h3 0 (by omega); rw [← h', hL] at this; simp at this
        · exact h'
      refine ⟨fun i => if i = 0 then a else y (i - 1), -e, by simp, by simpa using h1, ?_, ?_, ?_⟩
      · intro i hi
        rcases Nat.eq_zero_or_pos i with rfl | hp
        · simpa using hay
        · simp only [if_neg hp.ne', if_neg (Nat.succ_ne_zero i), Nat.add_sub_cancel]
          have := h2 (i - 1) (by omega)
          rwa [show i - 1 + 1 = i by omega] at this
      · intro i hi
        rcases Nat.eq_zero_or_pos i with rfl | hp
        · have := h3 0 (by omega)
          simp only [if_true, if_neg (Nat.succ_ne_zero 0), Nat.add_sub_cancel, hL]
          simpa using this
        · simp only [if_neg hp.ne', if_neg (Nat.succ_ne_zero i), Nat.add_sub_cancel]
          have := base (i - 1) (by omega)
          rw [show i - 1 + 1 = i by omega] at this
          obtain ⟨j, rfl⟩ : ∃ j, i = j + 1 := ⟨i - 1, by omega⟩
          rw [Nat.add_sub_cancel] at this ⊢
          rw [pow_succ]; linarith
      · have := h3 r le_rfl
        simp only [if_neg (Nat.succ_ne_zero r), Nat.add_sub_cancel, pow_succ]
        linarith
  obtain ⟨y', e', q0, q1, q2, q3, q4⟩ := hleft
  rcases hR with rfl | ⟨rfl, hR⟩
  · exact ⟨y', -e', q0, q1.le, q2, q3⟩
  · refine ⟨fun i => if i ≤ r + eL then y' i else b, -e', by simpa using q0, by simp, ?_, ?_⟩
    · intro i hi
      rcases Nat.lt_or_ge i (r + eL) with h' | h'
      · simp only [if_pos h'.le, if_pos (show i + 1 ≤ r + eL by omega)]; exact q2 i h'
      · have : i = r + eL := by omega
        subst this
        simp only [le_refl, if_true, if_neg (show ¬ r + eL + 1 ≤ r + eL by omega)]; exact q1
    · intro i hi
      rcases Nat.lt_or_ge i (r + eL) with h' | h'
      · simp only [if_pos h'.le, if_pos (show i + 1 ≤ r + eL by omega)]; exact q3 i h'
      · have : i = r + eL := by omega
        subst this
        simp only [le_refl, if_true, if_neg (show ¬ r + eL + 1 ≤ r + eL by omega), hR]; linarith

/-- A function that vanishes at `m + 2` points and not throughout any of the gaps has a derivative with `m + 1` sign changes. -/
theorem zeros_alt {f g : ℝ → ℝ} {a b : ℝ} (hf : ContinuousOn f (Icc a b)) (hg : ∀ x ∈ Ico a b, HasDerivWithinAt f (g x) (Ici x) x)
    (z : ℕ → ℝ) (m : ℕ) (hz0 : a ≤ z 0) (hzb : z (m + 1) ≤ b) (hz : ∀ i < m + 1, z i < z (i + 1)) (hfz : ∀ i ≤ m + 1, f (z i) = 0)
    (hw : ∀ i < m + 1, ∃ w, z i < w ∧ w < z (i + 1) ∧ f w ≠ 0) : Alt g a b (m + 1) := by
  have gap : ∀ i < m + 1, ∃ s p q, z i ≤ p ∧ p < q ∧ q < z (i + 1) ∧ 0 < s * g p ∧ 0 < -s * g q := by
    intro i hi
    obtain ⟨w, w1, w2, w3⟩ := hw i hi
    have ha : a ≤ z i := hz0.trans (steps_lt z _ hz 0 i (by omega) (by omega))
    have hb : z (i + 1) ≤ b := (steps_lt z _ hz (i + 1) (m + 1) (by omega) le_rfl).trans hzb
    have hpos : 0 < f w * f w := mul_self_pos.2 w3
    obtain ⟨p, p1, p2, p3⟩ := slope_pos hf hg (z i) w ha w1 (w2.le.trans hb) (f w) (by rw [hfz i (by omega), sub_zero]; exact hpos)
    obtain ⟨q, q1, q2, q3⟩ := slope_pos hf hg w (z (i + 1)) (ha.trans w1.le) w2 hb (-f w) (by rw [hfz (i + 1) (by omega)]; linarith)
    exact ⟨f w, p, q, p1, lt_of_lt_of_le p2 q1, q2, p3, q3⟩
  have main : ∀ j ≤ m, Alt g a (z (j + 1)) (j + 1) := by
    intro j
    induction j with
    | zero =>
      intro _
      obtain ⟨s, p, q, g1, g2, g3, g4, g5⟩ := gap 0 (by omega)
      refine ⟨fun i => if i = 0 then p else q, s, by simpa using hz0.trans g1, by simpa using g3, ?_, ?_⟩
      · intro i hi
        rw [show i = 0 by omega]; simpa using g2
      · intro i hi
        rcases Nat.eq_zero_or_pos i with rfl | hp
        · simpa using g4
        · rw [show i = 1 by omega]; simpa using g5
    | succ j ih =>
      intro hj
      obtain ⟨y, e, h0, h1, h2, h3⟩ := ih (by omega)
      obtain ⟨s, p, q, g1, g2, g3, g4, g5⟩ := gap (j + 1) (by omega)
      have hv : ∃ v, z (j + 1) ≤ v ∧ v < z (j + 1 + 1) ∧ 0 < e * (-1) ^ (j + 1 + 1) * g v := by
        have hne : e * (-1) ^ (j + 1 + 1) ≠ 0 := by
          have h4 := h3 (j + 1) le_rfl
          intro h0
          rw [pow_succ, ← mul_assoc] at h0
          have : e * (-1) ^ (j + 1) = 0 := by linarith
          rw [this, zero_mul] at h4
          exact lt_irrefl _ h4
        rcases lt_or_gt_of_ne hne with hneg | hpos
        · rcases lt_or_ge 0 (g p) with hp | hp
          · have hs : 0 < s := by
              by_contra hc
              nlinarith
            exact ⟨q, g1.trans g2.le, g3, by nlinarith⟩
          · have : g p ≠ 0 := fun h => by rw [h, mul_zero] at g4; exact lt_irrefl _ g4
            exact ⟨p, g1, g2.trans g3, mul_pos_of_neg_of_neg hneg (lt_of_le_of_ne hp this)⟩
        · rcases lt_or_ge 0 (g p) with hp | hp
          · exact ⟨p, g1, g2.trans g3, mul_pos hpos hp⟩
          · have hp' : g p < 0 := lt_of_le_of_ne hp fun h => by rw [h, mul_zero] at g4; exact lt_irrefl _ g4
            have hs : s < 0 := by
              by_contra hc
              nlinarith
            exact ⟨q, g1.trans g2.le, g3, mul_pos hpos (by nlinarith)⟩
      obtain ⟨v, v1, v2, v3⟩ := hv
      refine ⟨fun i => if i ≤ j + 1 then y i else v, e, by simpa using h0, by simpa using v2, ?_, ?_⟩
      · intro i hi
        rcases Nat.lt_or_ge i (j + 1) with h' | h'
        · simp only [if_pos h'.le, if_pos (show i + 1 ≤ j + 1 by omega)]; exact h2 i h'
        · have : i = j + 1 := by omega
          subst this
          simp only [le_refl, if_true, if_neg (show ¬ j + 1 + 1 ≤ j + 1 by omega)]; exact lt_of_lt_of_le h1 v1
      · intro i hi
        rcases Nat.lt_or_ge i (j + 1 + 1) with h' | h'
        · simp only [if_pos (show i ≤ j + 1 by omega)]; exact h3 i (by omega)
        · have : i = j + 1 + 1 := by omega
          subst this
          simp only [if_neg (show ¬ j + 1 + 1 ≤ j + 1 by omega)]; exact v3
  obtain ⟨y, e, h0, h1, h2, h3⟩ := main m le_rfl
  exact ⟨y, e, h0, lt_of_lt_of_le h1 hzb, h2, h3⟩

/-- A piecewise constant function has fewer sign changes than pieces. -/
theorem alt_pieces (h : Good n k t) (c : ℕ → ℝ) (lo hi r : ℕ) (hlo : k ≤ lo) (hlh : lo ≤ hi) (hhi : hi ≤ n) (halt : Alt (S n k t 0 c) (t lo) (t hi) r) :
    r + lo + 1 ≤ hi := by
  obtain ⟨y, e, h0, h1, h2, h3⟩ := halt
  have hval : ∀ l, k ≤ l → l < n → ∀ x, t l ≤ x → x < t (l + 1) → S n k t 0 c x = c l := by
    intro l a1 a2 x a3 a4
    unfold S
    rw [sum_eq_single l]
    · rw [ext_zero_piece h l a1 a2 x a3 (Or.inl a4), if_pos rfl, mul_one]
    · intro j _ hj
      rw [ext_zero_piece h l a1 a2 x a3 (Or.inl a4), if_neg hj, mul_zero]
    · intro hh; rw [Finset.mem_range] at hh; omega
  have key : ∀ i ≤ r, t (lo + i) ≤ y i ∧ lo + i < hi := by
    intro i
    induction i with
    | zero =>
      intro _
      refine ⟨h0, ?_⟩
      by_contra hc
      have heq : lo + 0 = hi := by omega
      have := steps_lt y r h2 0 r (by omega) le_rfl
      rw [Nat.add_zero] at heq
      rw [heq] at h0
      linarith
    | succ i ih =>
      intro hi'
      obtain ⟨q1, q2⟩ := ih (by omega)
      have hle : t (lo + (i + 1)) ≤ y (i + 1) := by
        by_contra hc
        push Not at hc
        have hyi := h2 i (by omega)
        have e1 := hval (lo + i) (by omega) (by omega) (y i) q1 (by rw [← Nat.add_assoc] at hc; linarith)
        have e2 := hval (lo + i) (by omega) (by omega) (y (i + 1)) (by linarith) hc
        have p1 := h3 i (by omega)
        have p2 := h3 (i + 1) hi'
        rw [e1] at p1
        rw [e2, pow_succ] at p2
        linarith
      refine ⟨hle, ?_⟩
      by_contra hc
      have heq : lo + (i + 1) = hi := by omega
      rw [heq] at hle
      have := steps_lt y r h2 (i + 1) r hi' le_rfl
      linarith
  have := (key r le_rfl).2
  omega

/-! ## Blocks of coefficients -/

/-- The left end of a block: the whole left end, or a simple knot where everything vanishes. -/
def LeftEnd (k p lo eL : ℕ) : Prop := (p = 0 ∧ lo = k ∧ eL = 0) ∨ (k + 1 ≤ p ∧ lo = p ∧ eL = 1)

/-- The right end of a block of degree `d` whose last coefficient is `q - 1`. -/
def RightEnd (n d q hi eR : ℕ) : Prop := (hi = n ∧ eR = 0) ∨ (hi = q + d ∧ q + d + 1 ≤ n ∧ eR = 1)

theorem S_left_zero (h : Good n k t) (d : ℕ) (hd : d + 1 ≤ k) (c : ℕ → ℝ) (p : ℕ) (hp : k + 1 ≤ p) (hpn : p ≤ n) (hs : Simple n k t) (hc : ∀ i < p, c i = 0) :
    S n k t (d + 1) c (t p) = 0 := by
  unfold S
  refine sum_eq_zero fun i _ => ?_
  rcases Nat.lt_or_ge i p with hi | hi
  · rw [hc i hi, zero_mul]
  · have h0 : t k ≤ t p := h.mono _ _ (by omega) (by omega)
    have h1 : t p ≤ t n := h.mono _ _ hpn (by omega)
    have hzero : ∀ j, p < j → ext n k t d j (t p) = 0 := by
      intro j hj
      by_contra hne
      obtain ⟨a, b, _⟩ := ext_support h (t p) h0 h1 d (by omega) j hne
      have := hs.strict p j (by omega) hj (by omega)
      linarith
    rw [ext_succ, hzero (i + 1) (by omega)]
    rcases Nat.lt_or_ge p i with h' | h'
    · rw [hzero i h']; ring
    · have : i = p := by omega
      subst this
      unfold left; simp

theorem S_right_zero (h : Good n k t) (d : ℕ) (hd : d ≤ k) (c : ℕ → ℝ) (q : ℕ) (hq : q + d + 1 ≤ n) (hc : ∀ i, q ≤ i → c i = 0) (x : ℝ)
    (hx0 : t k ≤ x) (hx : t (q + d) ≤ x) (hxn : x ≤ t n) : S n k t d c x = 0 := by
  unfold S
  refine sum_eq_zero fun i _ => ?_
  rcases Nat.lt_or_ge i q with hi | hi
  · have : ext n k t d i x = 0 := by
      by_contra hne
      obtain ⟨a, _, b⟩ := ext_support h x hx0 hxn d hd i hne
      rcases b with b | b
      · have := h.mono (i + d + 1) (q + d) (by omega) (by omega)
        linarith
      · omega
    rw [this, mul_zero]
  · rw [hc i hi, zero_mul]

/-- The number of sign changes of a spline of degree `d`. -/
theorem count (h : Good n k t) (hs : Simple n k t) (p lo hi eL eR : ℕ) (hL : LeftEnd k p lo eL) (hlh : lo ≤ hi) (hhi : hi ≤ n) (d : ℕ) :
    d ≤ k → ∀ (c : ℕ → ℝ) (q r : ℕ), RightEnd n d q hi eR → (∀ i < p, c i = 0) → (∀ i, q ≤ i → i < n → c i = 0) → Alt (S n k t d c) (t lo) (t hi) r →
      r + d * (eL + eR) + lo + 1 ≤ hi + d := by
  have hklo : k ≤ lo := by rcases hL with h' | h' <;> omega
  induction d with
  | zero =>
    intro _ c q r _ _ _ halt
    have := alt_pieces h c lo hi r hklo hlh hhi halt
    omega
  | succ d ih =>
    intro hd c q r hR hc1 hc2 halt
    -- coefficients beyond the last column do not matter
    have hcong : S n k t (d + 1) c = S n k t (d + 1) (fun i => if i < n then c i else 0) := by
      funext x; unfold S
      refine sum_congr rfl fun i hi => ?_
      beta_reduce
      rw [if_pos (Finset.mem_range.1 hi)]
    set c' : ℕ → ℝ := fun i => if i < n then c i else 0 with hc'
    have hc1' : ∀ i < p, c' i = 0 := fun i hi => by simp only [hc']; split_ifs; exacts [hc1 i hi, rfl]
    have hc2' : ∀ i, q ≤ i → c' i = 0 := fun i hi => by simp only [hc']; split_ifs with h'; exacts [hc2 i hi h', rfl]
    rw [hcong] at halt
    have hkk : t k ≤ t lo := h.mono _ _ hklo (by omega)
    have hcont : ContinuousOn (S n k t (d + 1) c') (Icc (t lo) (t hi)) :=
      (S_continuous h hs d hd c').mono fun x hx => le_trans hkk hx.1
    have hder : ∀ x ∈ Ico (t lo) (t hi), HasDerivWithinAt (S n k t (d + 1) c') (S n k t d (dc t d c') x) (Ici x) x :=
      fun x hx => S_hasDeriv h d hd c' x (le_trans hkk hx.1)
    have hzig := alt_zig halt eL eR (by
      rcases hL with h' | h'
      · exact Or.inl h'.2.2
      · refine Or.inr ⟨h'.2.2, ?_⟩
        rw [h'.2.1]
        exact S_left_zero h d hd c' p h'.1 (by omega) hs hc1') (by
      rcases hR with h' | h'
      · exact Or.inl h'.2
      · refine Or.inr ⟨h'.2.2, ?_⟩
        exact S_right_zero h (d + 1) hd c' q h'.2.1 hc2' _ (h.mono _ _ (by omega) (by omega)) (by rw [h'.1]) (h.mono _ _ hhi (by omega)))
    rcases Nat.eq_zero_or_pos (r + eL + eR) with h0 | h0
    · have e1 : r = 0 := by omega
      have e2 : eL + eR = 0 := by omega
      rw [e1, e2]; omega
    · obtain ⟨r', hr'⟩ : ∃ r', r + eL + eR = r' + 1 := ⟨r + eL + eR - 1, by omega⟩
      rw [hr'] at hzig
      have halt' := zig_deriv hcont hder r' hzig
      have := ih (by omega) (dc t d c') (q + 1) r' (by
        rcases hR with h' | h'
        · exact Or.inl h'
        · exact Or.inr ⟨by omega, by omega, h'.2.2⟩) (fun i hi => by
          unfold dc
          rw [hc1' i hi]
          split_ifs
          · simp
          · rw [hc1' (i - 1) (by omega)]; simp) (fun i hi _ => by
          unfold dc
          rw [hc2' i (by omega), if_neg (by omega), hc2' (i - 1) (by omega)]; simp) halt'
      have e3 : (d + 1) * (eL + eR) = d * (eL + eR) + (eL + eR) := by ring
      rw [e3]; omega

/-- The sites sit properly over the knots. -/
structure Sites (n k : ℕ) (t x : ℕ → ℝ) : Prop where
  first : x 0 = t k
  last : x (n - 1) = t n
  inc : ∀ i j, i < j → j < n → x i < x j
  above : ∀ i, 1 ≤ i → i < n → t i < x i
  below : ∀ i, i + 1 < n → x i < t (i + k + 1)

/-- **Schoenberg–Whitney**, for a block of coefficients `p, …, q - 1`. -/
theorem block_zero (h : Good n k t) (hs : Simple n k t) (x : ℕ → ℝ) (hx : Sites n k t x) (m : ℕ) :
    ∀ (p q lo hi eL eR : ℕ), q ≤ p + m → q ≤ n → LeftEnd k p lo eL → RightEnd n k q hi eR → (eR = 0 → q = n) → ∀ c : ℕ → ℝ,
      (∀ i, ¬ (p ≤ i ∧ i < q) → c i = 0) → (∀ i, p ≤ i → i < q → S n k t k c (x i) = 0) → ∀ i, c i = 0 := by
  have hk := h.hk
  have hkn := h.hn
  induction m using Nat.strong_induction_on with
  | _ m IH =>
  intro p q lo hi eL eR hqm hqn hL hR hRn c hsup hzero
  rcases Nat.lt_or_ge p q with hpq | hpq
  swap
  · intro i; exact hsup i (by omega)
  have hklo : k ≤ lo := by rcases hL with h' | h' <;> omega
  have hplo : p ≤ lo := by rcases hL with h' | h' <;> omega
  have hhin : hi ≤ n := by rcases hR with h' | h' <;> omega
  have hhiq : hi ≤ q + k := by
    rcases hR with h' | h'
    · have := hRn h'.2; omega
    · omega
  have hlh : lo < hi := by
    rcases hL with h' | h' <;> rcases hR with h'' | h''
    · omega
    · omega
    · have := hRn h''.2; omega
    · omega
  have hkk : t k ≤ t lo := h.mono _ _ hklo (by omega)
  have hhn : t hi ≤ t n := h.mono _ _ hhin (by omega)
  have hxb : ∀ i, i < n → t k ≤ x i ∧ x i ≤ t n := by
    intro i hi'
    constructor
    · rcases Nat.eq_zero_or_pos i with rfl | h0
      · exact hx.first.ge
      · rw [← hx.first]; exact (hx.inc 0 i h0 hi').le
    · rcases Nat.lt_or_ge i (n - 1) with h0 | h0
      · rw [← hx.last]; exact (hx.inc i (n - 1) h0 (by omega)).le
      · rw [show i = n - 1 by omega]; exact hx.last.le
  -- the zeros, with the ends where all derivatives vanish
  obtain ⟨z, M, hz0, hzM, hzinc, hzf, hMM⟩ : ∃ (z : ℕ → ℝ) (M : ℕ), t lo ≤ z 0 ∧ z (M + 1) ≤ t hi ∧ (∀ i < M + 1, z i < z (i + 1)) ∧
      (∀ i ≤ M + 1, S n k t k c (z i) = 0) ∧ M + 2 = (q - p) + eL + eR := by
    obtain ⟨k', rfl⟩ : ∃ k', k = k' + 1 := ⟨k - 1, by omega⟩
    have heL : eL ≤ 1 := by rcases hL with h' | h' <;> omega
    have heR : eR ≤ 1 := by rcases hR with h' | h' <;> omega
    have hnn : 2 ≤ (q - p) + eL + eR := by
      rcases hL with h' | h' <;> rcases hR with h'' | h''
      · have := hRn h''.2; omega
      · omega
      · omega
      · omega
    refine ⟨fun i => if eL = 1 ∧ i = 0 then t lo else if i - eL < q - p then x (p + (i - eL)) else t hi, (q - p) + eL + eR - 2, ?_, ?_, ?_, ?_, ?_⟩
    · by_cases he : eL = 1
      · simp [he]
      · have he0 : eL = 0 := by rcases hL with h' | h' <;> omega
        have hp0 : p = 0 ∧ lo = k' + 1 := by rcases hL with h' | h' <;> omega
        simp only [he0, Nat.sub_zero]
        rw [if_neg (by omega), if_pos (by omega), hp0.1, hp0.2, Nat.zero_add, hx.first]
    · rw [show q - p + eL + eR - 2 + 1 = q - p + eL + eR - 1 by omega]
      beta_reduce
      rw [if_neg (by omega)]
      rcases hR with h' | h'
      · rw [h'.2, Nat.add_zero, if_pos (by omega), h'.1]
        exact (hxb _ (by omega)).2
      · rw [h'.2.2, if_neg (by omega)]
    · intro i hi'
      simp only [if_neg (show ¬ (eL = 1 ∧ i + 1 = 0) by omega)]
      by_cases c0 : eL = 1 ∧ i = 0
      · rw [if_pos c0, if_pos (by omega), c0.2, c0.1, Nat.zero_add, Nat.sub_self, Nat.add_zero]
        rcases hL with h' | h'
        · omega
        · rw [h'.2.1]; exact hx.above p (by omega) (by omega)
      · rw [if_neg c0, if_pos (show i - eL < q - p by omega)]
        by_cases c1 : i + 1 - eL < q - p
        · rw [if_pos c1]
          exact hx.inc _ _ (by omega) (by omega)
        · rw [if_neg c1]
          rcases hR with h' | h'
          · omega
          · rw [h'.1]
            have := hx.below (p + (i - eL)) (by omega)
            rw [show p + (i - eL) + (k' + 1) + 1 = q + (k' + 1) by omega] at this
            exact this
    · intro i hi'
      by_cases c0 : eL = 1 ∧ i = 0
      · simp only [if_pos c0]
        rcases hL with h' | h'
        · omega
        · rw [h'.2.1]; exact S_left_zero h k' le_rfl c p h'.1 (by omega) hs fun j hj => hsup j (by omega)
      · simp only [if_neg c0]
        by_cases c1 : i - eL < q - p
        · simp only [if_pos c1]; exact hzero _ (by omega) (by omega)
        · simp only [if_neg c1]
          rcases hR with h' | h'
          · have := hRn h'.2; omega
          · rw [h'.1]
            exact S_right_zero h (k' + 1) le_rfl c q h'.2.1 (fun j hj => hsup j (by omega)) _ (h.mono _ _ (by omega) (by omega)) le_rfl
              (h.mono _ _ (by omega) (by omega))
    · omega
  by_cases hgap : ∀ i < M + 1, ∃ w, z i < w ∧ w < z (i + 1) ∧ S n k t k c w ≠ 0
  · -- too many sign changes
    exfalso
    obtain ⟨k', rfl⟩ : ∃ k', k = k' + 1 := ⟨k - 1, by omega⟩
    have hcont : ContinuousOn (S n (k' + 1) t (k' + 1) c) (Icc (t lo) (t hi)) := (S_continuous h hs k' le_rfl c).mono fun y hy => le_trans hkk hy.1
    have hder : ∀ y ∈ Ico (t lo) (t hi), HasDerivWithinAt (S n (k' + 1) t (k' + 1) c) (S n (k' + 1) t k' (dc t k' c) y) (Ici y) y :=
      fun y hy => S_hasDeriv h k' le_rfl c y (le_trans hkk hy.1)
    have halt := zeros_alt hcont hder z M hz0 hzM hzinc hzf hgap
    have := count h hs p lo hi eL eR hL hlh.le hhin k' (by omega) (dc t k' c) (q + 1) (M + 1) (by
      rcases hR with h' | h'
      · exact Or.inl h'
      · exact Or.inr ⟨by omega, by omega, h'.2.2⟩) (fun i hi' => by
        unfold dc
        rw [hsup i (by omega)]
        split_ifs
        · simp
        · rw [hsup (i - 1) (by omega)]; simp) (fun i hi' _ => by
        unfold dc
        rw [hsup i (by omega), if_neg (by omega), hsup (i - 1) (by omega)]; simp) halt
    rcases hL with h' | h' <;> rcases hR with h'' | h''
    · have := hRn h''.2; simp only [h'.2.2, h''.2] at *; omega
    · simp only [h'.2.2, h''.2.2] at *; omega
    · have := hRn h''.2; simp only [h'.2.2, h''.2] at *; omega
    · simp only [h'.2.2, h''.2.2] at *; omega
  · -- a gap where the spline vanishes
    push Not at hgap
    obtain ⟨g, hg, hgz⟩ := hgap
    have hzg := hzinc g hg
    have hza : t lo ≤ z g := hz0.trans (steps_lt z _ hzinc 0 g (by omega) (by omega))
    have hzb : z (g + 1) ≤ t hi := (steps_lt z _ hzinc (g + 1) (M + 1) (by omega) le_rfl).trans hzM
    obtain ⟨l, l1, l2, l3, l4⟩ := piece (n := n) (k := k) (t := t) (by omega) ((z g + z (g + 1)) / 2) (by linarith)
    have l4 : (z g + z (g + 1)) / 2 ≤ t (l + 1) := by
      rcases l4 with l4 | l4
      · exact l4
      · rw [l4]; linarith
    have hc0 := local_independence h hs l l1 l2 (max (t l) (z g)) ((z g + z (g + 1)) / 2) (max_lt l3 (by linarith)) (le_max_left _ _) l4 k le_rfl c
      (fun y h1 h2 => hgz y (lt_of_le_of_lt (le_max_right _ _) h1) (by linarith))
    have hlhi : l < hi := by
      by_contra hc
      have := h.mono hi l (by omega) (by omega)
      linarith
    have hlol : lo ≤ l := by
      by_contra hc
      have := h.mono (l + 1) lo (by omega) (by omega)
      linarith
    -- split
    have hsplit : ∀ y, S n k t k c y = S n k t k (fun i => if i + k < l then c i else 0) y + S n k t k (fun i => if l < i then c i else 0) y := by
      intro y
      unfold S
      rw [← sum_add_distrib]
      refine sum_congr rfl fun i _ => ?_
      rw [← add_mul]
      congr 1
      beta_reduce
      by_cases a1 : i + k < l
      · rw [if_pos a1, if_neg (by omega), add_zero]
      · rw [if_neg a1, zero_add]
        split_ifs with a2
        · rfl
        · exact hc0 i (by omega) (by omega)
    have hR0 : ∀ i, i + k < l → S n k t k (fun i => if l < i then c i else 0) (x i) = 0 := by
      intro i hil
      unfold S
      refine sum_eq_zero fun j _ => ?_
      beta_reduce
      split_ifs with hj
      · have : ext n k t k j (x i) = 0 := by
          by_contra hne
          obtain ⟨a, b, _⟩ := ext_support h (x i) (hxb i (by omega)).1 (hxb i (by omega)).2 k le_rfl j hne
          have := hx.below i (by omega)
          have := h.mono (i + k + 1) j (by omega) (by omega)
          linarith
        rw [this, mul_zero]
      · rw [zero_mul]
    have hL0 : ∀ i, l < i → i < n → S n k t k (fun i => if i + k < l then c i else 0) (x i) = 0 := by
      intro i hil hin
      unfold S
      refine sum_eq_zero fun j _ => ?_
      beta_reduce
      split_ifs with hj
      · have : ext n k t k j (x i) = 0 := by
          by_contra hne
          obtain ⟨a, _, b⟩ := ext_support h (x i) (hxb i (by omega)).1 (hxb i (by omega)).2 k le_rfl j hne
          have := hx.above i (by omega) hin
          have := h.mono (j + k + 1) i (by omega) (by omega)
          rcases b with b | b
          · linarith
          · omega
        rw [this, mul_zero]
      · rw [zero_mul]
    have hleft := IH (l - k - p) (by omega) p (l - k) lo l eL 1 (by omega) (by omega) hL (Or.inr ⟨by omega, by omega, rfl⟩) (by omega)
      (fun i => if i + k < l then c i else 0) (fun i hi' => by
        split_ifs with hj
        · exact hsup i (by omega)
        · rfl) (fun i h1 h2 => by
        have e := hsplit (x i)
        rw [hzero i h1 (by omega), hR0 i (by omega), add_zero] at e
        exact e.symm)
    have hright := IH (q - (l + 1)) (by omega) (l + 1) q (l + 1) hi 1 eR (by omega) hqn (Or.inr ⟨by omega, rfl, rfl⟩) hR hRn
      (fun i => if l < i then c i else 0) (fun i hi' => by
        split_ifs with hj
        · exact hsup i (by omega)
        · rfl) (fun i h1 h2 => by
        have e := hsplit (x i)
        rw [hzero i (by omega) h2, hL0 i (by omega) (by omega), zero_add] at e
        exact e.symm)
    intro i
    by_cases a1 : i + k < l
    · have := hleft i; simp only [if_pos a1] at this; exact this
    · by_cases a2 : l < i
      · have := hright i; simp only [if_pos a2] at this; exact this
      · exact hc0 i (by omega) (by omega)

/-- **Schoenberg–Whitney.**  A spline that vanishes at all sites is zero. -/
theorem schoenberg_whitney (h : Good n k t) (hs : Simple n k t) (x : ℕ → ℝ) (hx : Sites n k t x) (c : ℕ → ℝ)
    (hc : ∀ j < n, ∑ i ∈ range n, c i * basisD t (n + k + 1) n k i (x j) = 0) : ∀ i < n, c i = 0 := by
  intro i hi
  have := block_zero h hs x hx n 0 n k n 0 0 (by omega) le_rfl (Or.inl ⟨rfl, rfl, rfl⟩) (Or.inl ⟨rfl, rfl⟩) (fun _ => rfl)
    (fun i => if i < n then c i else 0) (fun i hi' => by rw [if_neg (by omega)]) (fun j _ hj => by
      refine Eq.trans ?_ (hc j hj)
      unfold S ext
      refine sum_congr rfl fun i hi' => ?_
      beta_reduce
      rw [if_pos (Finset.mem_range.1 hi'), if_pos (Finset.mem_range.1 hi')]) i
  rwa [if_pos hi] at this

/-! ## The generated knots -/

theorem mean_lt (x : List ℝ) (k i : ℕ) (hk : 1 ≤ k) (a : ℝ) (ha : ∀ j < k, a < at' x (i + 1 + j)) : a < (∑ j ∈ range k, at' x (i + 1 + j)) / k := by
  have hk0 : (0 : ℝ) < k := by exact_mod_cast hk
  rw [lt_div_iff₀ hk0]
  calc a * k = ∑ _j ∈ range k, a := by rw [sum_const, card_range, nsmul_eq_mul, mul_comm]
    _ < _ := sum_lt_sum_of_nonempty ⟨0, Finset.mem_range.2 hk⟩ fun j hj => ha j (Finset.mem_range.1 hj)

theorem lt_mean (x : List ℝ) (k i : ℕ) (hk : 1 ≤ k) (a : ℝ) (ha : ∀ j < k, at' x (i + 1 + j) < a) : (∑ j ∈ range k, at' x (i + 1 + j)) / k < a := by
  have hk0 : (0 : ℝ) < k := by exact_mod_cast hk
  rw [div_lt_iff₀ hk0]
  calc _ < ∑ _j ∈ range k, a := sum_lt_sum_of_nonempty ⟨0, Finset.mem_range.2 hk⟩ fun j hj => ha j (Finset.mem_range.1 hj)
    _ = a * k := by rw [sum_const, card_range, nsmul_eq_mul, mul_comm]

theorem knots_sites (x : List ℝ) (k : ℕ) (hk : 1 ≤ k) (hx : k + 2 ≤ x.length) (inc : Spec.Increasing x.length (at' x)) :
    Sites x.length k (knot x k) (at' x) := by
  refine ⟨(knot_lo x k k hx le_rfl).symm, (knot_hi x k _ le_rfl).symm, inc, ?_, ?_⟩
  · intro i h1 h2
    rcases Nat.lt_or_ge k i with h | h
    · obtain ⟨q, rfl⟩ : ∃ q, i = k + 1 + q := ⟨i - (k + 1), by omega⟩
      rw [knot_mid x k q (by omega)]
      exact lt_mean x k q hk _ fun j hj => inc _ _ (by omega) h2
    · rw [knot_lo x k i hx h]; exact inc _ _ (by omega) h2
  · intro i h1
    rcases Nat.lt_or_ge (i + k + 1) x.length with h | h
    · rw [show i + k + 1 = k + 1 + i by omega, knot_mid x k i h]
      exact mean_lt x k i hk _ fun j hj => inc _ _ (by omega) (by omega)
    · rw [knot_hi x k _ h]; exact inc _ _ (by omega) (by omega)

theorem knots_simple (x : List ℝ) (k : ℕ) (hk : 1 ≤ k) (hx : k + 2 ≤ x.length) (inc : Spec.Increasing x.length (at' x)) :
    Simple x.length k (knot x k) := by
  intro i h1 h2
  rcases Nat.lt_or_ge k i with h | h
  · obtain ⟨q, rfl⟩ : ∃ q, i = k + 1 + q := ⟨i - (k + 1), by omega⟩
    rw [knot_mid x k q (by omega)]
    rcases Nat.lt_or_ge (q + 1 + k + 1) x.length with h' | h'
    · rw [show k + 1 + q + 1 = k + 1 + (q + 1) by omega, knot_mid x k (q + 1) h']
      have hk0 : (0 : ℝ) < k := by exact_mod_cast hk
      apply div_lt_div_of_pos_right _ hk0
      exact sum_lt_sum_of_nonempty ⟨0, Finset.mem_range.2 hk⟩ fun j hj => inc _ _ (by omega) (by have := Finset.mem_range.1 hj; omega)
    · rw [knot_hi x k _ (by omega)]
      exact lt_mean x k q hk _ fun j hj => inc _ _ (by omega) (by omega)
  · have : i = k := by omega
    subst this
    rw [knot_lo x i i hx le_rfl, show i + 1 = i + 1 + 0 by omega, knot_mid x i 0 (by omega)]
    exact mean_lt x i 0 hk _ fun j hj => inc _ _ (by omega) (by omega)

end Verif.Spline
