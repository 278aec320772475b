import Verif.Model.Spline
import Verif.Spec.Spline
import Mathlib.Algebra.Polynomial.Eval.Degree
import Mathlib.Algebra.Polynomial.Coeff
import Mathlib.Algebra.BigOperators.Ring.Finset
import Mathlib.Algebra.BigOperators.Field
import Mathlib.Algebra.Order.BigOperators.Group.Finset
import Mathlib.Tactic.Linarith
import Mathlib.Tactic.FieldSimp
import Mathlib.Tactic.Ring
/-!
# Lemmas on the B-spline recursion
-/
namespace Verif.Spline
open Finset Polynomial

/-- Knot sequences the recursion is meant for: nondecreasing, both ends repeated, positive last interval. -/
structure Good (n k : ℕ) (t : ℕ → ℝ) : Prop where
  hk : 1 ≤ k
  hn : k + 1 ≤ n
  mono : ∀ i j, i ≤ j → j ≤ n + k → t i ≤ t j
  lo : ∀ i ≤ k, t i = t k
  hi : ∀ i, n ≤ i → i ≤ n + k → t i = t n
  last : t (n - 1) < t n

variable {n k : ℕ} {t : ℕ → ℝ}

theorem zeroth_eq (h : Good n k t) (i : ℕ) (hi : i < n) (x : ℝ) (h0 : t k ≤ x) :
    zeroth t (n + k + 1) n i x = if i + 1 = n ∧ t n ≤ x then 1 else if t i ≤ x ∧ x < t (i + 1) then 1 else 0 := by
  have hk := h.hk
  unfold zeroth
  rw [show n + k + 1 - 2 = n + k - 1 by omega, h.hi (n + k - 1) (by omega) (by omega)]
  rw [if_neg (show ¬ (i = 0 ∧ x < t 1) from fun hh => by rw [h.lo 1 hk] at hh; linarith [hh.2])]

/-- Local support. -/
theorem basisD_support (h : Good n k t) (x : ℝ) (h0 : t k ≤ x) (h1 : x ≤ t n) (d : ℕ) :
    d ≤ k → ∀ i < n, basisD t (n + k + 1) n d i x ≠ 0 → t i ≤ x ∧ (x < t (i + d + 1) ∨ (i + 1 = n ∧ x = t n)) := by
  have hk := h.hk
  induction d with
  | zero =>
    intro _ i hi hne
    simp only [basisD, zeroth_eq h i hi x h0] at hne
    split_ifs at hne with a b
    · refine ⟨?_, Or.inr ⟨a.1, le_antisymm h1 a.2⟩⟩
      have := h.last
      rw [show i = n - 1 by omega]; linarith [a.2]
    · exact ⟨b.1, Or.inl b.2⟩
    · exact absurd rfl hne
  | succ d ih =>
    intro hd i hi hne
    simp only [basisD] at hne
    by_cases ha : basisD t (n + k + 1) n d i x = 0
    · by_cases hb : i + 1 < n
      · rw [ha, if_pos hb, mul_zero, zero_add] at hne
        have hr : basisD t (n + k + 1) n d (i + 1) x ≠ 0 := right_ne_zero_of_mul hne
        have hr' : right t (d + 1) i x ≠ 0 := left_ne_zero_of_mul hne
        obtain ⟨q, hq⟩ := ih (by omega) (i + 1) hb hr
        refine ⟨le_trans (h.mono i (i + 1) (by omega) (by omega)) q, Or.inl ?_⟩
        rcases hq with hq | ⟨hq, hx⟩
        · rw [show i + (d + 1) + 1 = i + 1 + d + 1 by omega]; exact hq
        · exfalso; apply hr'
          unfold right
          rw [h.hi (i + (d + 1) + 1) (by omega) (by omega), hx, sub_self, zero_div]
      · rw [ha, if_neg hb] at hne; simp at hne
    · obtain ⟨q, hq⟩ := ih (by omega) i hi ha
      refine ⟨q, ?_⟩
      rcases hq with hq | hq
      · exact Or.inl (lt_of_lt_of_le hq (h.mono _ _ (by omega) (by omega)))
      · exact Or.inr hq

/-- Non-negativity. -/
theorem basisD_nonneg (h : Good n k t) (x : ℝ) (h0 : t k ≤ x) (h1 : x ≤ t n) (d : ℕ) :
    d ≤ k → ∀ i < n, 0 ≤ basisD t (n + k + 1) n d i x := by
  have hk := h.hk
  induction d with
  | zero =>
    intro _ i hi
    simp only [basisD, zeroth_eq h i hi x h0]
    split_ifs <;> norm_num
  | succ d ih =>
    intro hd i hi
    simp only [basisD]
    apply add_nonneg
    · by_cases ha : basisD t (n + k + 1) n d i x = 0
      · rw [ha, mul_zero]
      · obtain ⟨q, _⟩ := basisD_support h x h0 h1 d (by omega) i hi ha
        apply mul_nonneg _ (ih (by omega) i hi)
        apply div_nonneg (by linarith)
        linarith [h.mono i (i + (d + 1)) (by omega) (by omega)]
    · by_cases hb : i + 1 < n
      · rw [if_pos hb]
        by_cases ha : basisD t (n + k + 1) n d (i + 1) x = 0
        · rw [ha, mul_zero]
        · obtain ⟨_, q⟩ := basisD_support h x h0 h1 d (by omega) (i + 1) hb ha
          apply mul_nonneg _ (ih (by omega) (i + 1) hb)
          have hx : x ≤ t (i + (d + 1) + 1) := by
            rcases q with q | ⟨q, hx⟩
            · rw [show i + (d + 1) + 1 = i + 1 + d + 1 by omega]; exact q.le
            · rw [h.hi (i + (d + 1) + 1) (by omega) (by omega)]; exact hx.le
          apply div_nonneg (by linarith)
          linarith [h.mono (i + 1) (i + (d + 1) + 1) (by omega) (by omega)]
      · rw [if_neg hb, mul_zero]

theorem basisD_zero_col (h : Good n k t) (x : ℝ) (h0 : t k ≤ x) (h1 : x ≤ t n) (d : ℕ) (hd : d + 1 ≤ k) :
    basisD t (n + k + 1) n d 0 x = 0 := by
  have hn := h.hn
  by_contra hne
  obtain ⟨_, q⟩ := basisD_support h x h0 h1 d (by omega) 0 (by omega) hne
  rcases q with q | q
  · rw [h.lo (0 + d + 1) (by omega)] at q; linarith
  · omega

/-- The two factors multiplying one lower-degree function add up to one where that function does not vanish. -/
theorem factors (h : Good n k t) (x : ℝ) (h0 : t k ≤ x) (h1 : x ≤ t n) (d i : ℕ) (hd : d + 1 ≤ k) (hi : i + 1 < n)
    (hne : basisD t (n + k + 1) n d (i + 1) x ≠ 0) : t (i + 1) < t (i + 1 + (d + 1)) := by
  obtain ⟨a, q⟩ := basisD_support h x h0 h1 d (by omega) (i + 1) hi hne
  rcases q with q | ⟨q, hx⟩
  · exact lt_of_le_of_lt a q
  · rw [h.hi (i + 1 + (d + 1)) (by omega) (by omega), show i + 1 = n - 1 by omega]; exact h.last

theorem sum_succ (h : Good n k t) (x : ℝ) (h0 : t k ≤ x) (h1 : x ≤ t n) (d : ℕ) (hd : d + 1 ≤ k) (f : ℕ → ℝ[X]) :
    ∑ i ∈ range n, C (basisD t (n + k + 1) n (d + 1) i x) * f i =
      ∑ i ∈ range (n - 1), C (basisD t (n + k + 1) n d (i + 1) x) *
        (C (left t (d + 1) (i + 1) x) * f (i + 1) + C (right t (d + 1) i x) * f i) := by
  have hn := h.hn
  obtain ⟨m, rfl⟩ : ∃ m, n = m + 1 := ⟨n - 1, by omega⟩
  simp only [basisD, add_mul, C_add, sum_add_distrib, mul_add, Nat.add_sub_cancel]
  congr 1
  · rw [sum_range_succ', basisD_zero_col h x h0 h1 d hd]
    simp only [mul_zero, C_0, zero_mul, add_zero]
    refine sum_congr rfl fun i _ => ?_
    rw [C_mul]; ring
  · rw [sum_range_succ, if_neg (by omega)]
    simp only [mul_zero, C_0, zero_mul, add_zero]
    refine sum_congr rfl fun i hi => ?_
    rw [mem_range] at hi
    rw [if_pos (by omega), C_mul]; ring

theorem sum_zeroth (h : Good n k t) (x : ℝ) (h0 : t k ≤ x) (h1 : x ≤ t n) :
    ∑ i ∈ range n, basisD t (n + k + 1) n 0 i x = 1 := by
  have hn := h.hn
  have hk := h.hk
  simp only [basisD]
  rw [sum_congr rfl fun i hi => zeroth_eq h i (mem_range.1 hi) x h0]
  rcases eq_or_lt_of_le h1 with hx | hx
  · rw [sum_eq_single (n - 1)]
    · rw [if_pos ⟨by omega, hx.symm.le⟩]
    · intro i hi hne
      rw [mem_range] at hi
      rw [if_neg (by omega), if_neg]
      rintro ⟨_, q⟩
      have := h.mono (i + 1) n (by omega) (by omega)
      rw [hx] at q; linarith
    · intro hh; rw [mem_range] at hh; omega
  · have key : ∀ p ≤ n, x < t p → ∑ i ∈ range p, (if t i ≤ x ∧ x < t (i + 1) then (1 : ℝ) else 0) = 1 := by
      intro p
      induction p with
      | zero => intro _ hlt; rw [h.lo 0 (by omega)] at hlt; linarith
      | succ p ih =>
        intro hp hlt
        rw [sum_range_succ]
        by_cases hq : x < t p
        · rw [ih (by omega) hq, if_neg (by intro hh; linarith [hh.1]), add_zero]
        · rw [if_pos ⟨not_lt.1 hq, hlt⟩, sum_eq_zero, zero_add]
          intro i hi
          rw [mem_range] at hi
          rw [if_neg]
          rintro ⟨_, q⟩
          have := h.mono (i + 1) p (by omega) (by omega)
          linarith
    refine Eq.trans (sum_congr rfl fun i _ => ?_) (key n le_rfl hx)
    rw [if_neg (by intro hh; linarith [hh.2])]

/-- Marsden's identity. -/
theorem marsden (h : Good n k t) (x : ℝ) (h0 : t k ≤ x) (h1 : x ≤ t n) (d : ℕ) :
    d ≤ k → ∑ i ∈ range n, C (basisD t (n + k + 1) n d i x) * ∏ j ∈ range d, (X + C (t (i + 1 + j))) = (X + C x) ^ d := by
  induction d with
  | zero =>
    intro _
    simp only [range_zero, prod_empty, mul_one, pow_zero]
    rw [← map_sum, sum_zeroth h x h0 h1, C_1]
  | succ d ih =>
    intro hd
    have hn := h.hn
    rw [sum_succ h x h0 h1 d hd, pow_succ, ← ih (by omega)]
    obtain ⟨m, rfl⟩ : ∃ m, n = m + 1 := ⟨n - 1, by omega⟩
    rw [sum_range_succ', basisD_zero_col h x h0 h1 d hd]
    simp only [C_0, zero_mul, add_zero, sum_mul, Nat.add_sub_cancel]
    refine sum_congr rfl fun i hi => ?_
    rw [mem_range] at hi
    by_cases hne : basisD t (m + 1 + k + 1) (m + 1) d (i + 1) x = 0
    · rw [hne, C_0]; simp
    · have hlt := factors h x h0 h1 d i hd (by omega) hne
      rw [prod_range_succ, prod_range_succ']
      have e1 : ∏ j ∈ range d, (X + C (t (i + 1 + (j + 1)))) = ∏ j ∈ range d, (X + C (t (i + 1 + 1 + j))) :=
        prod_congr rfl fun j _ => by rw [show i + 1 + (j + 1) = i + 1 + 1 + j by omega]
      rw [e1]
      have e2 : C (left t (d + 1) (i + 1) x) * (X + C (t (i + 1 + 1 + d))) + C (right t (d + 1) i x) * (X + C (t (i + 1 + 0)))
          = X + C x := by
        have a1 : left t (d + 1) (i + 1) x + right t (d + 1) i x = 1 := by
          unfold left right
          rw [show i + (d + 1) + 1 = i + 1 + (d + 1) by omega]
          field_simp [sub_ne_zero.2 hlt.ne']; ring
        have a2 : left t (d + 1) (i + 1) x * t (i + 1 + 1 + d) + right t (d + 1) i x * t (i + 1) = x := by
          unfold left right
          rw [show i + (d + 1) + 1 = i + 1 + (d + 1) by omega, show i + 1 + 1 + d = i + 1 + (d + 1) by omega]
          field_simp [sub_ne_zero.2 hlt.ne']; ring
        calc _ = C (left t (d + 1) (i + 1) x + right t (d + 1) i x) * X
              + C (left t (d + 1) (i + 1) x * t (i + 1 + 1 + d) + right t (d + 1) i x * t (i + 1)) := by
                simp only [C_add, C_mul, Nat.add_zero]; ring
          _ = X + C x := by rw [a1, a2, C_1, one_mul]
      calc _ = C (basisD t (m + 1 + k + 1) (m + 1) d (i + 1) x) * (∏ j ∈ range d, (X + C (t (i + 1 + 1 + j)))) *
            (C (left t (d + 1) (i + 1) x) * (X + C (t (i + 1 + 1 + d))) + C (right t (d + 1) i x) * (X + C (t (i + 1 + 0)))) := by ring
        _ = _ := by rw [e2]

/-- Monomials up to the degree are combinations of the basis. -/
theorem monomial_span (h : Good n k t) (l : ℕ) (hl : l ≤ k) :
    ∃ c : ℕ → ℝ, ∀ x, t k ≤ x → x ≤ t n → ∑ i ∈ range n, c i * basisD t (n + k + 1) n k i x = x ^ l := by
  refine ⟨fun i => (∏ j ∈ range k, (X + C (t (i + 1 + j)))).coeff (k - l) / (k.choose (k - l) : ℝ), fun x h0 h1 => ?_⟩
  have hm := congrArg (fun p => p.coeff (k - l)) (marsden h x h0 h1 k le_rfl)
  simp only [finset_sum_coeff, coeff_C_mul, coeff_X_add_C_pow] at hm
  rw [show k - (k - l) = l by omega] at hm
  have hc : (k.choose (k - l) : ℝ) ≠ 0 := by exact_mod_cast (Nat.choose_pos (by omega)).ne'
  rw [eq_comm, ← mul_left_inj' hc, ← hm, sum_mul]
  refine sum_congr rfl fun i _ => ?_
  field_simp

theorem poly_span (h : Good n k t) (p : ℝ[X]) (hp : p.natDegree ≤ k) :
    ∃ c : ℕ → ℝ, ∀ x, t k ≤ x → x ≤ t n → ∑ i ∈ range n, c i * basisD t (n + k + 1) n k i x = p.eval x := by
  choose c hc using fun l : Fin (k + 1) => monomial_span h l.1 (by omega)
  refine ⟨fun i => ∑ l : Fin (k + 1), p.coeff l * c l i, fun x h0 h1 => ?_⟩
  rw [eval_eq_sum_range' (show p.natDegree < k + 1 by omega), ← Fin.sum_univ_eq_sum_range (fun l => p.coeff l * x ^ l)]
  simp only [sum_mul]
  rw [sum_comm]
  refine sum_congr rfl fun l _ => ?_
  rw [← hc l x h0 h1, mul_sum]
  exact sum_congr rfl fun i _ => by ring

theorem basisD_sum (h : Good n k t) (x : ℝ) (h0 : t k ≤ x) (h1 : x ≤ t n) : ∑ i ∈ range n, basisD t (n + k + 1) n k i x = 1 := by
  have hm := congrArg (fun p => p.coeff k) (marsden h x h0 h1 k le_rfl)
  simp only [finset_sum_coeff, coeff_C_mul, coeff_X_add_C_pow] at hm
  rw [Nat.sub_self, pow_zero, one_mul, Nat.choose_self, Nat.cast_one] at hm
  rw [← hm]
  refine sum_congr rfl fun i _ => ?_
  have : (∏ j ∈ range k, (X + C (t (i + 1 + j)))).coeff k = 1 := by
    have mon : (∏ j ∈ range k, (X + C (t (i + 1 + j)))).Monic := monic_prod_of_monic _ _ fun j _ => monic_X_add_C _
    have deg : (∏ j ∈ range k, (X + C (t (i + 1 + j)))).natDegree = k := by
      rw [natDegree_prod_of_monic _ _ fun j _ => monic_X_add_C _]; simp
    have := mon.coeff_natDegree
    rwa [deg] at this
  rw [this, mul_one]

/-- On the half-open knot interval the code's functions are the textbook ones. -/
theorem N_left (h : Good n k t) (x : ℝ) (d : ℕ) : ∀ i, i + d + 1 ≤ n + k → x < t i → Spec.N t d i x = 0 := by
  induction d with
  | zero => intro i _ hx; simp only [Spec.N]; rw [if_neg]; rintro ⟨a, _⟩; linarith
  | succ d ih =>
    intro i hi hx
    simp only [Spec.N]
    rw [ih i (by omega) hx, ih (i + 1) (by omega) (lt_of_lt_of_le hx (h.mono _ _ (by omega) (by omega)))]
    ring

theorem basisD_eq_N (h : Good n k t) (x : ℝ) (h0 : t k ≤ x) (h1 : x < t n) (d : ℕ) :
    d ≤ k → ∀ i < n, basisD t (n + k + 1) n d i x = Spec.N t d i x := by
  induction d with
  | zero =>
    intro _ i hi
    simp only [basisD, zeroth_eq h i hi x h0, Spec.N]
    rw [if_neg (by intro hh; linarith [hh.2])]
  | succ d ih =>
    intro hd i hi
    simp only [basisD, Spec.N]
    rw [ih (by omega) i hi]
    unfold left right
    congr 1
    by_cases hb : i + 1 < n
    · rw [if_pos hb, ih (by omega) (i + 1) hb]
    · rw [if_neg hb, N_left h x d (i + 1) (by omega) (by rw [show i + 1 = n by omega]; exact h1)]

theorem basisD_last (h : Good n k t) (d : ℕ) (hd : d ≤ k) (i : ℕ) (hi : i < n) :
    basisD t (n + k + 1) n d i (t n) = if i + 1 = n then 1 else 0 := by
  have hk := h.hk
  have hkn : t k ≤ t n := h.mono _ _ (by have := h.hn; omega) (by omega)
  have other : ∀ e ≤ k, ∀ j < n, j + 1 ≠ n → basisD t (n + k + 1) n e j (t n) = 0 := by
    intro e
    induction e with
    | zero =>
      intro _ j hj hne
      by_contra hh
      obtain ⟨_, q⟩ := basisD_support h (t n) hkn le_rfl 0 (by omega) j hj hh
      rcases q with q | q
      · linarith [h.mono (j + 0 + 1) n (by omega) (by omega)]
      · exact hne q.1
    | succ e ih =>
      intro he j hj hne
      simp only [basisD]
      rw [ih (by omega) j hj hne]
      by_cases h2 : j + 1 + 1 = n
      · unfold right
        rw [h.hi (j + (e + 1) + 1) (by omega) (by omega), sub_self, zero_div]; ring
      · rw [if_pos (by omega), ih (by omega) (j + 1) (by omega) h2]; ring
  split_ifs with hl
  · induction d with
    | zero => simp only [basisD, zeroth_eq h i hi _ hkn]; rw [if_pos ⟨hl, le_rfl⟩]
    | succ d ih =>
      simp only [basisD]
      rw [ih (by omega), if_neg (by omega)]
      unfold left
      rw [h.hi (i + (d + 1)) (by omega) (by omega), show i = n - 1 by omega]
      have := h.last
      rw [div_self (by linarith)]; ring
  · exact other d hd i hi hl

/-! ## The generated knots -/

theorem knot_lo (x : List ℝ) (k i : ℕ) (hx : k + 2 ≤ x.length) (hi : i ≤ k) : knot x k i = at' x 0 := by
  unfold knot
  rw [if_neg (by omega), if_neg (by omega), if_pos (by omega)]

theorem knot_hi (x : List ℝ) (k i : ℕ) (hi : x.length ≤ i) : knot x k i = at' x (x.length - 1) := by
  unfold knot
  rw [if_neg (by omega), if_pos (by omega)]

theorem knot_mid (x : List ℝ) (k i : ℕ) (hi : i + k + 1 < x.length) :
    knot x k (k + 1 + i) = (∑ j ∈ range k, at' x (i + 1 + j)) / k := by
  unfold knot
  rw [if_pos (by omega)]
  congr 1
  refine sum_congr rfl fun j _ => ?_
  congr 1
  omega

theorem knots_good (x : List ℝ) (k : ℕ) (hk : 1 ≤ k) (hx : k + 2 ≤ x.length) (inc : Spec.Increasing x.length (at' x)) :
    Good x.length k (knot x k) := by
  have hk0 : (0 : ℝ) < k := by exact_mod_cast hk
  have sumlt : ∀ i a, i + k + 1 < x.length → (∀ j < k, a < at' x (i + 1 + j)) → a < (∑ j ∈ range k, at' x (i + 1 + j)) / k := by
    intro i a _ ha
    rw [lt_div_iff₀ hk0]
    calc a * k = ∑ _j ∈ range k, a := by rw [sum_const, card_range, nsmul_eq_mul, mul_comm]
      _ < _ := sum_lt_sum_of_nonempty ⟨0, mem_range.2 hk⟩ fun j hj => ha j (mem_range.1 hj)
  have sumgt : ∀ i a, i + k + 1 < x.length → (∀ j < k, at' x (i + 1 + j) < a) → (∑ j ∈ range k, at' x (i + 1 + j)) / k < a := by
    intro i a _ ha
    rw [div_lt_iff₀ hk0]
    calc _ < ∑ _j ∈ range k, a := sum_lt_sum_of_nonempty ⟨0, mem_range.2 hk⟩ fun j hj => ha j (mem_range.1 hj)
      _ = a * k := by rw [sum_const, card_range, nsmul_eq_mul, mul_comm]
  have step : ∀ i, i + 1 ≤ x.length + k → knot x k i ≤ knot x k (i + 1) := by
    intro i hi
    by_cases c1 : i + 1 ≤ k
    · rw [knot_lo x k i hx (by omega), knot_lo x k (i + 1) hx c1]
    · by_cases c2 : i = k
      · subst c2
        rw [knot_lo x i i hx le_rfl, show i + 1 = i + 1 + 0 by omega, knot_mid x i 0 (by omega)]
        exact (sumlt 0 _ (by omega) fun j hj => inc _ _ (by omega) (by omega)).le
      · obtain ⟨q, rfl⟩ : ∃ q, i = k + 1 + q := ⟨i - (k + 1), by omega⟩
        by_cases c3 : q + k + 1 < x.length
        · rw [knot_mid x k q c3]
          by_cases c4 : q + 1 + k + 1 < x.length
          · rw [show k + 1 + q + 1 = k + 1 + (q + 1) by omega, knot_mid x k (q + 1) c4]
            apply div_le_div_of_nonneg_right _ hk0.le
            exact sum_le_sum fun j hj => (inc _ _ (by omega) (by have := mem_range.1 hj; omega)).le
          · rw [knot_hi x k (k + 1 + q + 1) (by omega)]
            exact (sumgt q _ c3 fun j hj => inc _ _ (by omega) (by omega)).le
        · rw [knot_hi x k _ (by omega), knot_hi x k _ (by omega)]
  refine ⟨hk, by omega, ?_, ?_, ?_, ?_⟩
  · intro i j hij
    induction j with
    | zero => intro _; rw [show i = 0 by omega]
    | succ j ih =>
      intro hj
      rcases Nat.lt_or_ge i (j + 1) with hlt | hge
      · exact le_trans (ih (by omega) (by omega)) (step j hj)
      · rw [show i = j + 1 by omega]
  · intro i hi; rw [knot_lo x k i hx hi, knot_lo x k k hx le_rfl]
  · intro i hi _; rw [knot_hi x k i hi, knot_hi x k _ le_rfl]
  · rw [knot_hi x k x.length le_rfl]
    obtain ⟨q, hq⟩ : ∃ q, x.length - 1 = k + 1 + q := ⟨x.length - 1 - (k + 1), by omega⟩
    rw [hq, knot_mid x k q (by omega), ← hq]
    exact sumgt q _ (by omega) fun j hj => inc _ _ (by omega) (by omega)

end Verif.Spline
