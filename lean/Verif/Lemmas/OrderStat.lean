import Mathlib.Data.List.Sort
import Mathlib.Data.List.GetD
import Mathlib.Data.Nat.Choose.Sum
import Mathlib.MeasureTheory.Integral.Layercake
import Mathlib.MeasureTheory.Constructions.Pi
import Mathlib.Probability.Distributions.Exponential
import Mathlib.Analysis.SpecialFunctions.ImproperIntegrals
/-! # Expected order statistics of independent exponential variables -/
namespace Verif.OrderStat
open MeasureTheory ProbabilityTheory Finset

/-- In a sorted list, entry `k` exceeds `x` exactly when at most `k` entries do not. -/
theorem lt_getD_sorted (x : ℝ) : ∀ (s : List ℝ), s.Pairwise (· ≤ ·) → ∀ k, k < s.length →
    (x < s.getD k 0 ↔ s.countP (fun v => decide (v ≤ x)) ≤ k) := by
  intro s
  induction s with
  | nil => intro _ k hk; simp at hk
  | cons a t ih =>
    intro hs k hk
    rw [List.pairwise_cons] at hs
    obtain ⟨ha, ht⟩ := hs
    rw [List.countP_cons]
    by_cases hax : a ≤ x
    · rw [if_pos (by simpa using hax)]
      cases k with
      | zero => simp [hax]
      | succ k =>
        rw [List.getD_cons_succ, ih ht k (by simpa using hk)]
        omega
    · rw [if_neg (by simpa using hax)]
      have h0 : t.countP (fun v => decide (v ≤ x)) = 0 := by
        rw [List.countP_eq_zero]
        intro v hv
        have := ha v hv
        simp; linarith [not_le.1 hax]
      rw [h0]
      simp only [Nat.add_zero, Nat.zero_le, iff_true]
      cases k with
      | zero => simpa using not_le.1 hax
      | succ k =>
        rw [List.getD_cons_succ]
        have hk' : k < t.length := by simpa using hk
        have := ha (t.getD k 0) (by rw [List.getD_eq_getElem _ _ hk']; exact List.getElem_mem hk')
        linarith [not_le.1 hax]

/-- Order statistic `k` of `n` numbers: entry `k` of the sorted list. -/
noncomputable def ord {n : ℕ} (k : ℕ) (x : Fin n → ℝ) : ℝ := ((List.ofFn x).insertionSort (· ≤ ·)).getD k 0

/-- The positions whose value does not exceed `x`. -/
noncomputable def below {n : ℕ} (x : ℝ) (ω : Fin n → ℝ) : Finset (Fin n) := {i | ω i ≤ x}

theorem countP_ofFn {n : ℕ} (x : ℝ) (ω : Fin n → ℝ) :
    (List.ofFn ω).countP (fun v => decide (v ≤ x)) = (below x ω).card := by
  rw [List.ofFn_eq_map, List.countP_map, List.countP_eq_length_filter, below]
  have : (List.finRange n).filter ((fun v => decide (v ≤ x)) ∘ ω) = (List.finRange n).filter (fun i => decide (ω i ≤ x)) := rfl
  rw [this, Finset.card_def]
  rw [Finset.filter_val, Fin.univ_def]
  simp

theorem lt_ord {n : ℕ} (k : ℕ) (hk : k < n) (x : ℝ) (ω : Fin n → ℝ) : x < ord k ω ↔ (below x ω).card ≤ k := by
  unfold ord
  rw [lt_getD_sorted x _ (List.pairwise_insertionSort _ _) k (by simpa using hk),
    ((List.perm_insertionSort (· ≤ ·) (List.ofFn ω)).countP_eq _), countP_ofFn]

theorem below_eq_pi {n : ℕ} (x : ℝ) (S : Finset (Fin n)) :
    {ω : Fin n → ℝ | below x ω = S} = Set.pi Set.univ (fun i => if i ∈ S then Set.Iic x else Set.Ioi x) := by
  ext ω
  simp only [Set.mem_ofPred_eq, Set.mem_pi, Set.mem_univ, true_implies]
  constructor
  · intro h i
    subst h
    unfold below
    by_cases hi : ω i ≤ x
    · rw [if_pos (by simpa using hi)]; exact hi
    · rw [if_neg (by simpa using hi)]; exact not_le.1 hi
  · intro h
    ext i
    have := h i
    unfold below
    by_cases hi : i ∈ S
    · rw [if_pos hi] at this; simpa [hi] using this
    · rw [if_neg hi] at this; simpa [hi] using this

theorem measurable_below {n : ℕ} (x : ℝ) (S : Finset (Fin n)) : MeasurableSet {ω : Fin n → ℝ | below x ω = S} := by
  rw [below_eq_pi]
  refine MeasurableSet.univ_pi fun i => ?_
  split_ifs
  · exact measurableSet_Iic
  · exact measurableSet_Ioi

/-- The event that at most `k` values are at most `x`. -/
theorem card_le_eq {n : ℕ} (k : ℕ) (x : ℝ) : {ω : Fin n → ℝ | (below x ω).card ≤ k} =
    ⋃ S ∈ (univ : Finset (Finset (Fin n))).filter (fun S => S.card ≤ k), {ω | below x ω = S} := by
  ext ω; simp

theorem measurable_ord {n : ℕ} (k : ℕ) (hk : k < n) : Measurable (ord (n := n) k) := by
  refine measurable_of_Ioi fun x => ?_
  have : ord (n := n) k ⁻¹' Set.Ioi x = {ω | (below x ω).card ≤ k} := by
    ext ω; exact lt_ord k hk x ω
  rw [this, card_le_eq]
  exact Finset.measurableSet_biUnion _ fun S _ => measurable_below x S

theorem measure_below {n : ℕ} (μ : Measure ℝ) [IsProbabilityMeasure μ] (x : ℝ) (S : Finset (Fin n)) :
    (Measure.pi fun _ : Fin n => μ).real {ω | below x ω = S} =
      μ.real (Set.Iic x) ^ S.card * (1 - μ.real (Set.Iic x)) ^ (n - S.card) := by
  rw [below_eq_pi, Measure.real, Measure.pi_pi, ENNReal.toReal_prod]
  have hc : μ.real (Set.Ioi x) = 1 - μ.real (Set.Iic x) := by
    rw [← Set.compl_Iic, probReal_compl_eq_one_sub measurableSet_Iic]
  have : ∀ i : Fin n, (μ (if i ∈ S then Set.Iic x else Set.Ioi x)).toReal =
      if i ∈ S then μ.real (Set.Iic x) else 1 - μ.real (Set.Iic x) := by
    intro i
    split_ifs
    · rfl
    · exact hc
  simp only [this]
  rw [Finset.prod_ite, Finset.prod_const, Finset.prod_const]
  have h1 : (univ.filter fun i : Fin n => i ∈ S) = S := by ext; simp
  have h2 : (univ.filter fun i : Fin n => i ∉ S).card = n - S.card := by
    have : (univ.filter fun i : Fin n => i ∉ S) = Sᶜ := by ext; simp
    rw [this, Finset.card_compl, Fintype.card_fin]
  rw [h1, h2]

/-- The tail of an order statistic is a binomial sum. -/
theorem tail {n : ℕ} (μ : Measure ℝ) [IsProbabilityMeasure μ] (k : ℕ) (hk : k < n) (x : ℝ) :
    (Measure.pi fun _ : Fin n => μ).real {ω | x < ord k ω} =
      ∑ j ∈ range (k + 1), (n.choose j : ℝ) * (μ.real (Set.Iic x) ^ j * (1 - μ.real (Set.Iic x)) ^ (n - j)) := by
  have h0 : {ω : Fin n → ℝ | x < ord k ω} = {ω | (below x ω).card ≤ k} := by
    ext ω; exact lt_ord k hk x ω
  rw [h0, card_le_eq, measureReal_biUnion_finset ?_ (fun S _ => measurable_below x S)]
  · simp only [measure_below]
    rw [Finset.sum_filter]
    have := Finset.sum_powerset_apply_card (x := (univ : Finset (Fin n)))
      (fun j => if j ≤ k then μ.real (Set.Iic x) ^ j * (1 - μ.real (Set.Iic x)) ^ (n - j) else 0)
    rw [Finset.powerset_univ] at this
    rw [this, Finset.card_univ, Fintype.card_fin]
    simp only [nsmul_eq_mul, mul_ite, mul_zero]
    rw [← Finset.sum_filter]
    refine Finset.sum_congr ?_ fun _ _ => rfl
    ext j; simp; omega
  · intro S _ T _ hST
    rw [Function.onFun, Set.disjoint_left]
    intro ω h1 h2
    exact hST (h1.symm.trans h2)

/-- Beta integrals in exponential form. -/
theorem beta_exp (r : ℝ) (hr : 0 < r) (j : ℕ) : ∀ m : ℕ, 0 < m →
    IntegrableOn (fun x => (1 - Real.exp (-(r * x))) ^ j * Real.exp (-(r * x)) ^ m) (Set.Ioi 0) ∧
    ∫ x in Set.Ioi 0, (1 - Real.exp (-(r * x))) ^ j * Real.exp (-(r * x)) ^ m =
      (j.factorial * (m - 1).factorial : ℝ) / (j + m).factorial / r := by
  induction j with
  | zero =>
    intro m hm
    have hm' : (0 : ℝ) < m := by exact_mod_cast hm
    have e : (fun x : ℝ => (1 - Real.exp (-(r * x))) ^ 0 * Real.exp (-(r * x)) ^ m) = fun x => Real.exp (-(m * r) * x) := by
      funext x
      rw [pow_zero, one_mul, ← Real.exp_nat_mul]
      congr 1; ring
    have hneg : -(m * r) < 0 := by have := mul_pos hm' hr; linarith
    rw [e]
    refine ⟨integrableOn_exp_mul_Ioi hneg 0, ?_⟩
    rw [integral_exp_mul_Ioi hneg 0]
    obtain ⟨m, rfl⟩ : ∃ l, m = l + 1 := ⟨m - 1, by omega⟩
    simp only [Nat.factorial_zero, Nat.zero_add, Nat.add_sub_cancel, Nat.factorial_succ]
    have := Nat.factorial_pos m
    have h3 : (m.factorial : ℝ) ≠ 0 := by positivity
    push_cast at *
    simp only [mul_zero, Real.exp_zero]
    field_simp
  | succ j ih =>
    intro m hm
    obtain ⟨i1, e1⟩ := ih m hm
    obtain ⟨i2, e2⟩ := ih (m + 1) (by omega)
    have e : (fun x : ℝ => (1 - Real.exp (-(r * x))) ^ (j + 1) * Real.exp (-(r * x)) ^ m) =
        fun x => (1 - Real.exp (-(r * x))) ^ j * Real.exp (-(r * x)) ^ m -
          (1 - Real.exp (-(r * x))) ^ j * Real.exp (-(r * x)) ^ (m + 1) := by
      funext x; ring
    rw [e]
    refine ⟨i1.sub i2, ?_⟩
    rw [integral_sub i1 i2, e1, e2]
    obtain ⟨m, rfl⟩ : ∃ l, m = l + 1 := ⟨m - 1, by omega⟩
    have a1 : j + (m + 1 + 1) = (j + m + 1) + 1 := by ring
    have a2 : j + 1 + (m + 1) = (j + m + 1) + 1 := by ring
    have a3 : j + (m + 1) = j + m + 1 := by ring
    rw [a1, a2, a3]
    simp only [Nat.add_sub_cancel, Nat.factorial_succ (j + m + 1), Nat.factorial_succ j, Nat.factorial_succ m]
    have h3 : ((j + m + 1).factorial : ℝ) ≠ 0 := by have := Nat.factorial_pos (j + m + 1); positivity
    push_cast
    field_simp
    ring

theorem cdf_exp (r : ℝ) (hr : 0 < r) (x : ℝ) (hx : 0 < x) :
    (expMeasure r).real (Set.Iic x) = 1 - Real.exp (-(r * x)) := by
  have := isProbabilityMeasure_expMeasure hr
  rw [← cdf_eq_real, cdf_expMeasure_eq hr, if_pos hx.le]

theorem exp_nonneg_ae (r : ℝ) (hr : 0 < r) : ∀ᵐ x ∂(expMeasure r), 0 ≤ x := by
  have := isProbabilityMeasure_expMeasure hr
  rw [ae_iff]
  have h : (expMeasure r).real (Set.Iic 0) = 0 := by
    rw [← cdf_eq_real, cdf_expMeasure_eq hr]; simp
  refine measure_mono_null (t := Set.Iic 0) (fun x hx => ?_) ?_
  · simp only [Set.mem_ofPred_eq, not_le] at hx; exact hx.le
  · exact (measureReal_eq_zero_iff).1 h

theorem ord_nonneg {n : ℕ} (k : ℕ) (ω : Fin n → ℝ) (h : ∀ i, 0 ≤ ω i) : 0 ≤ ord k ω := by
  unfold ord
  by_cases hk : k < ((List.ofFn ω).insertionSort (· ≤ ·)).length
  · rw [List.getD_eq_getElem _ _ hk]
    have := List.getElem_mem hk
    rw [List.mem_insertionSort, List.mem_ofFn] at this
    obtain ⟨i, hi⟩ := this
    rw [← hi]; exact h i
  · rw [List.getD_eq_default _ _ (not_lt.1 hk)]

/-- The expected order statistics of `n` independent exponential variables. -/
theorem expected_ord (r : ℝ) (hr : 0 < r) (n k : ℕ) (hk : k < n) :
    Integrable (ord (n := n) k) (Measure.pi fun _ : Fin n => expMeasure r) ∧
    ∫ ω, ord (n := n) k ω ∂(Measure.pi fun _ : Fin n => expMeasure r) = ∑ j ∈ range (k + 1), 1 / ((n : ℝ) - j) / r := by
  have := isProbabilityMeasure_expMeasure hr
  have hnn : 0 ≤ᵐ[Measure.pi fun _ : Fin n => expMeasure r] ord (n := n) k := by
    have h : ∀ i : Fin n, ∀ᵐ ω ∂(Measure.pi fun _ : Fin n => expMeasure r), 0 ≤ ω i := fun i =>
      (measurePreserving_eval (fun _ : Fin n => expMeasure r) i).quasiMeasurePreserving.ae (exp_nonneg_ae r hr)
    filter_upwards [ae_all_iff.2 h] with ω hω using ord_nonneg k ω hω
  have hm : Measurable (ord (n := n) k) := measurable_ord k hk
  set f : ℝ → ℝ := fun x => ∑ j ∈ range (k + 1), (n.choose j : ℝ) *
    ((1 - Real.exp (-(r * x))) ^ j * Real.exp (-(r * x)) ^ (n - j)) with hf
  have htail : ∀ x, 0 < x → (Measure.pi fun _ : Fin n => expMeasure r).real {ω | x < ord k ω} = f x := by
    intro x hx
    rw [tail _ k hk x, cdf_exp r hr x hx]
    simp only [sub_sub_cancel, hf]
  have hfi : IntegrableOn f (Set.Ioi 0) := by
    refine integrable_finsetSum _ fun j hj => ?_
    have hj' : j < k + 1 := by simpa using hj
    exact ((beta_exp r hr j (n - j) (by omega)).1).const_mul _
  have hval : ∫ x in Set.Ioi 0, f x = ∑ j ∈ range (k + 1), 1 / ((n : ℝ) - j) / r := by
    rw [hf, integral_finsetSum _ fun j hj => ?_]
    · refine sum_congr rfl fun j hj => ?_
      have hj' : j < k + 1 := by simpa using hj
      rw [integral_const_mul, (beta_exp r hr j (n - j) (by omega)).2]
      have hjn : j ≤ n := by omega
      rw [Nat.add_sub_of_le hjn, Nat.cast_choose ℝ hjn]
      obtain ⟨m, hm⟩ : ∃ l, n - j = l + 1 := ⟨n - j - 1, by omega⟩
      have hc : (n : ℝ) - j = m + 1 := by
        have : n = j + (m + 1) := by omega
        rw [this]; push_cast; ring
      rw [hm, hc, Nat.add_sub_cancel, Nat.factorial_succ]
      have h1 : (m.factorial : ℝ) ≠ 0 := by positivity
      have h2 : (j.factorial : ℝ) ≠ 0 := by positivity
      have h3 : (n.factorial : ℝ) ≠ 0 := by positivity
      push_cast
      field_simp
    · have hj' : j < k + 1 := by simpa using hj
      exact ((beta_exp r hr j (n - j) (by omega)).1).const_mul _
  have hint : Integrable (ord (n := n) k) (Measure.pi fun _ : Fin n => expMeasure r) := by
    refine ⟨hm.aestronglyMeasurable, ?_⟩
    rw [hasFiniteIntegral_iff_ofReal hnn, lintegral_eq_lintegral_meas_lt _ hnn hm.aemeasurable]
    have e : ∫⁻ t in Set.Ioi 0, (Measure.pi fun _ : Fin n => expMeasure r) {ω | t < ord k ω} = ∫⁻ t in Set.Ioi 0, ENNReal.ofReal (f t) := by
      refine setLIntegral_congr_fun measurableSet_Ioi fun t ht => ?_
      rw [← htail t ht, Measure.real, ENNReal.ofReal_toReal (measure_ne_top _ _)]
    rw [e]
    exact hfi.lintegral_lt_top
  refine ⟨hint, ?_⟩
  rw [hint.integral_eq_integral_meas_lt hnn, ← hval]
  exact setIntegral_congr_fun measurableSet_Ioi fun t ht => htail t ht

end Verif.OrderStat
