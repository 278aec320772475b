import Verif.Model.Butter
import Verif.Props.IIRSteady
import Verif.Props.GeneratorOut
import Mathlib.RingTheory.Polynomial.Cyclotomic.Basic
import Mathlib.RingTheory.RootsOfUnity.Complex
/-!
# The Butterworth highpass filter (C78)
-/
namespace Verif.Butter
open Finset IIRSpec

/-! ## Expanding products -/

theorem polyStep_length (c : List ℂ) (r : ℂ) : (polyStep c r).length = c.length + 1 := by simp [polyStep]

theorem polyStep_getD (c : List ℂ) (r : ℂ) (k : ℕ) : (polyStep c r).getD k 0 = c.getD k 0 - (if k = 0 then 0 else r * c.getD (k - 1) 0) := by
  by_cases hk : k < c.length + 1
  · have h1 : (polyStep c r).getD k 0 = (c ++ [0]).getD k 0 - (0 :: c.map (r * ·)).getD k 0 := by
      simp only [List.getD_eq_getElem?_getD, polyStep]
      rw [List.getElem?_eq_getElem (by simpa using hk), List.getElem?_eq_getElem (by simpa using hk), List.getElem?_eq_getElem (by simpa using hk)]
      simp
    rw [h1]
    congr 1
    · by_cases h : k < c.length
      · simp [List.getD_eq_getElem?_getD, List.getElem?_append, h]
      · have : k = c.length := by omega
        simp [List.getD_eq_getElem?_getD, this]
    · cases k with
      | zero => simp
      | succ k =>
        have : k < c.length := by omega
        simp [List.getD_eq_getElem?_getD, this]
  · have h1 : ¬ k < c.length := by omega
    have h2 : ¬ k - 1 < c.length := by omega
    have h3 : ¬ k < (polyStep c r).length := by rw [polyStep_length]; exact hk
    simp [List.getD_eq_getElem?_getD, h1, h2, h3]

theorem ext_getD (l m : List ℂ) (hl : l.length = m.length) (h : ∀ k, l.getD k 0 = m.getD k 0) : l = m := by
  refine List.ext_getElem hl fun k h1 h2 => ?_
  have := h k
  simpa [List.getD_eq_getElem?_getD, h1, h2] using this

theorem polyStep_comm (c : List ℂ) (r s : ℂ) : polyStep (polyStep c r) s = polyStep (polyStep c s) r := by
  refine ext_getD _ _ (by simp [polyStep_length]) fun k => ?_
  simp only [polyStep_getD]
  split_ifs <;> ring

/-- The value of the polynomial with complex coefficients. -/
noncomputable def evalC (c : List ℂ) (w : ℂ) : ℂ := ∑ k ∈ range c.length, c.getD k 0 * w ^ k

theorem evalC_step (c : List ℂ) (r w : ℂ) : evalC (polyStep c r) w = evalC c w * (1 - r * w) := by
  unfold evalC
  rw [polyStep_length]
  simp only [polyStep_getD, sub_mul, Finset.sum_sub_distrib]
  rw [Finset.sum_range_succ, Finset.sum_range_succ' (fun k => (if k = 0 then 0 else r * c.getD (k - 1) 0) * w ^ k)]
  have h0 : c.getD c.length 0 = 0 := by simp [List.getD_eq_getElem?_getD]
  rw [h0]
  simp only [Nat.add_eq_zero_iff, one_ne_zero, and_false, if_false, if_true, Nat.add_sub_cancel, zero_mul, add_zero]
  rw [mul_sub, mul_one, Finset.sum_mul]
  congr 1
  refine Finset.sum_congr rfl fun k _ => ?_
  rw [pow_succ]; ring

theorem evalC_foldl (roots : List ℂ) (c : List ℂ) (w : ℂ) : evalC (roots.foldl polyStep c) w = evalC c w * (roots.map fun r => 1 - r * w).prod := by
  induction roots generalizing c with
  | nil => simp
  | cons r l ih => rw [List.foldl_cons, ih, evalC_step, List.map_cons, List.prod_cons]; ring

theorem evalC_poly (roots : List ℂ) (w : ℂ) : evalC (poly roots) w = (roots.map fun r => 1 - r * w).prod := by
  rw [poly, evalC_foldl]
  simp [evalC]

theorem poly_length (roots : List ℂ) : (poly roots).length = roots.length + 1 := by
  have : ∀ c : List ℂ, (roots.foldl polyStep c).length = c.length + roots.length := by
    induction roots with
    | nil => simp
    | cons r l ih => intro c; rw [List.foldl_cons, ih, polyStep_length, List.length_cons]; omega
  rw [poly, this]; simp [add_comm]

theorem poly_perm (l m : List ℂ) (h : l.Perm m) : poly l = poly m :=
  h.foldl_eq' (fun x _ y _ z => polyStep_comm z x y) [1]

theorem poly_conj (roots : List ℂ) : (poly roots).map (starRingEnd ℂ) = poly (roots.map (starRingEnd ℂ)) := by
  have hstep : ∀ (c : List ℂ) r, (polyStep c r).map (starRingEnd ℂ) = polyStep (c.map (starRingEnd ℂ)) (starRingEnd ℂ r) := by
    intro c r
    refine ext_getD _ _ (by simp [polyStep_length]) fun k => ?_
    have hm : ∀ (l : List ℂ) k, (l.map (starRingEnd ℂ)).getD k 0 = starRingEnd ℂ (l.getD k 0) := by
      intro l k
      by_cases h : k < l.length <;> simp [List.getD_eq_getElem?_getD, h]
    rw [hm, polyStep_getD, polyStep_getD, hm, hm, map_sub]
    split_ifs <;> simp
  have : ∀ c : List ℂ, (roots.foldl polyStep c).map (starRingEnd ℂ) = (roots.map (starRingEnd ℂ)).foldl polyStep (c.map (starRingEnd ℂ)) := by
    induction roots with
    | nil => simp
    | cons r l ih => intro c; rw [List.foldl_cons, ih, hstep, List.map_cons, List.foldl_cons]
  rw [poly, this, poly]; simp

/-- If the roots come in conjugate pairs, dropping the imaginary parts changes nothing. -/
theorem poly_real (roots : List ℂ) (h : (roots.map (starRingEnd ℂ)).Perm roots) (w : ℂ) :
    evalAt ((poly roots).map Complex.re) w = (roots.map fun r => 1 - r * w).prod := by
  have hc : (poly roots).map (starRingEnd ℂ) = poly roots := by rw [poly_conj, poly_perm _ _ h]
  rw [← evalC_poly, evalAt, evalC, List.length_map]
  refine Finset.sum_congr rfl fun k hk => ?_
  congr 1
  have hk := Finset.mem_range.1 hk
  have := congrArg (fun l => l.getD k 0) hc
  simp only [List.getD_eq_getElem?_getD, List.getElem?_map, List.getElem?_eq_getElem hk, Option.map_some, Option.getD_some] at this ⊢
  exact Complex.conj_eq_iff_re.1 this

/-! ## The poles -/

theorem conj_four : (starRingEnd ℂ) 4 = 4 := map_ofNat _ 4

section
variable (N : ℕ) (Wn : ℝ)

theorem protoPole_conj (hN : 0 < N) (k : ℕ) (hk : k < N) : (starRingEnd ℂ) (protoPole N k) = protoPole N (N - 1 - k) := by
  unfold protoPole
  rw [map_neg, ← Complex.exp_conj]
  congr 2
  have : ((N - 1 - k : ℕ) : ℝ) = N - 1 - k := by
    rw [Nat.cast_sub (by omega), Nat.cast_sub (by omega)]; simp
  rw [this]
  simp only [map_div₀, map_mul, Complex.conj_I, Complex.conj_ofReal, map_natCast, map_ofNat]
  push_cast
  ring

theorem hpPole_conj (hN : 0 < N) (k : ℕ) (hk : k < N) : (starRingEnd ℂ) (hpPole N Wn k) = hpPole N Wn (N - 1 - k) := by
  unfold hpPole
  rw [map_div₀, protoPole_conj N hN k hk, Complex.conj_ofReal]

theorem pole_conj (hN : 0 < N) (k : ℕ) (hk : k < N) : (starRingEnd ℂ) (pole N Wn k) = pole N Wn (N - 1 - k) := by
  unfold pole
  rw [map_div₀, map_add, map_sub, hpPole_conj N Wn hN k hk, conj_four]

theorem protoPole_eq (k : ℕ) : protoPole N k = -Complex.exp (((Real.pi * (-(N : ℝ) + 1 + 2 * k) / (2 * N) : ℝ) : ℂ) * Complex.I) := by
  unfold protoPole
  congr 2
  push_cast
  ring

theorem protoPole_norm (k : ℕ) : ‖protoPole N k‖ = 1 := by
  rw [protoPole_eq, norm_neg, Complex.norm_exp_ofReal_mul_I]

theorem protoPole_re (k : ℕ) (hk : k < N) : (protoPole N k).re < 0 := by
  have hN : (0 : ℝ) < N := by exact_mod_cast (by omega : 0 < N)
  have hk' : (k : ℝ) + 1 ≤ N := by exact_mod_cast hk
  have hk0 : (0 : ℝ) ≤ k := Nat.cast_nonneg k
  have hpi := Real.pi_pos
  rw [protoPole_eq, Complex.neg_re, Complex.exp_ofReal_mul_I_re, neg_lt_zero]
  refine Real.cos_pos_of_mem_Ioo ⟨?_, ?_⟩
  · rw [lt_div_iff₀ (by positivity)]; nlinarith
  · rw [div_lt_iff₀ (by positivity)]; nlinarith

theorem warped_pos (h0 : 0 < Wn) (h1 : Wn < 1) : 0 < warped Wn := by
  unfold warped
  have hpi := Real.pi_pos
  have := Real.tan_pos_of_pos_of_lt_pi_div_two (x := Real.pi * Wn / 2) (by positivity) (by nlinarith)
  linarith

theorem hpPole_re (h0 : 0 < Wn) (h1 : Wn < 1) (k : ℕ) (hk : k < N) : (hpPole N Wn k).re < 0 := by
  unfold hpPole
  have hw := warped_pos Wn h0 h1
  have hp := protoPole_re N k hk
  rw [Complex.div_re, Complex.ofReal_re, Complex.ofReal_im, zero_mul, zero_div, add_zero]
  have hn : Complex.normSq (protoPole N k) = 1 := by rw [Complex.normSq_eq_norm_sq, protoPole_norm]; norm_num
  rw [hn, div_one]
  exact mul_neg_of_pos_of_neg hw hp

theorem four_sub_ne (h0 : 0 < Wn) (h1 : Wn < 1) (k : ℕ) (hk : k < N) : (4 : ℂ) - hpPole N Wn k ≠ 0 := by
  intro h
  have := congrArg Complex.re h
  have hq := hpPole_re N Wn h0 h1 k hk
  simp at this
  linarith

/-- Every pole is inside the unit circle. -/
theorem pole_norm (h0 : 0 < Wn) (h1 : Wn < 1) (k : ℕ) (hk : k < N) : ‖pole N Wn k‖ < 1 := by
  have hq := hpPole_re N Wn h0 h1 k hk
  have hne := four_sub_ne N Wn h0 h1 k hk
  unfold pole
  rw [norm_div, div_lt_one (norm_pos_iff.2 hne)]
  have h2 : ‖4 + hpPole N Wn k‖ ^ 2 < ‖4 - hpPole N Wn k‖ ^ 2 := by
    rw [← Complex.normSq_eq_norm_sq, ← Complex.normSq_eq_norm_sq, Complex.normSq_apply, Complex.normSq_apply]
    simp
    nlinarith
  exact lt_of_pow_lt_pow_left₀ 2 (norm_nonneg _) h2

theorem prod_neg_proto (hN : 0 < N) : ∏ k ∈ range N, (-protoPole N k) = 1 := by
  have e : ∀ k ∈ range N, -protoPole N k = Complex.exp (((Real.pi * (-(N : ℝ) + 1 + 2 * k) / (2 * N) : ℝ) : ℂ) * Complex.I) := by
    intro k _; rw [protoPole_eq, neg_neg]
  rw [Finset.prod_congr rfl e, ← Complex.exp_sum, ← Finset.sum_mul, ← Complex.ofReal_sum]
  have hs : ∑ k ∈ range N, Real.pi * (-(N : ℝ) + 1 + 2 * k) / (2 * N) = 0 := by
    have h := Finset.sum_range_reflect (fun k : ℕ => Real.pi * (-(N : ℝ) + 1 + 2 * k) / (2 * N)) N
    have h2 : ∑ k ∈ range N, Real.pi * (-(N : ℝ) + 1 + 2 * ((N - 1 - k : ℕ) : ℝ)) / (2 * N) = -∑ k ∈ range N, Real.pi * (-(N : ℝ) + 1 + 2 * k) / (2 * N) := by
      rw [← Finset.sum_neg_distrib]
      refine Finset.sum_congr rfl fun k hk => ?_
      have hk := Finset.mem_range.1 hk
      rw [Nat.cast_sub (by omega), Nat.cast_sub (by omega)]
      push_cast
      ring
    rw [h2] at h
    linarith
  rw [hs]; simp

theorem hpGain_one (hN : 0 < N) : hpGain N = 1 := by
  unfold hpGain; rw [prod_neg_proto N hN]; simp

theorem gain_eq (hN : 0 < N) : ((gain N Wn : ℝ) : ℂ) = (4 : ℂ) ^ N / ∏ k ∈ range N, (4 - hpPole N Wn k) := by
  unfold gain
  rw [hpGain_one N hN, one_mul]
  apply Complex.conj_eq_iff_re.1
  rw [map_div₀, map_prod, map_pow]
  have : ∏ k ∈ range N, (starRingEnd ℂ) (4 - hpPole N Wn k) = ∏ k ∈ range N, (4 - hpPole N Wn k) := by
    rw [← Finset.prod_range_reflect (fun k => 4 - hpPole N Wn k)]
    refine Finset.prod_congr rfl fun k hk => ?_
    rw [map_sub, hpPole_conj N Wn hN k (Finset.mem_range.1 hk), conj_four]
  rw [this, conj_four]

theorem poles_perm (hN : 0 < N) : (((List.range N).map (pole N Wn)).map (starRingEnd ℂ)).Perm ((List.range N).map (pole N Wn)) := by
  have : ((List.range N).map (pole N Wn)).map (starRingEnd ℂ) = ((List.range N).map (pole N Wn)).reverse := by
    refine List.ext_getElem (by simp) fun k h1 h2 => ?_
    simp at h1
    simp [pole_conj N Wn hN k h1]
  rw [this]
  exact List.reverse_perm _

/-- The denominator. -/
theorem denominator (hN : 0 < N) (w : ℂ) : evalAt (highpass N Wn).2 w = ∏ k ∈ range N, (1 - pole N Wn k * w) := by
  unfold highpass
  rw [poly_real _ (poles_perm N Wn hN), List.map_map, Finset.prod_range]
  rw [← List.prod_ofFn]
  congr 1
  refine List.ext_getElem (by simp) fun k h1 h2 => ?_
  simp

/-- The numerator. -/
theorem numerator (w : ℂ) : evalAt (highpass N Wn).1 w = gain N Wn * (1 - w) ^ N := by
  have h := poly_real (List.replicate N 1) (by simp) w
  have e : evalAt (highpass N Wn).1 w = gain N Wn * evalAt ((poly (List.replicate N 1)).map Complex.re) w := by
    unfold highpass evalAt
    rw [Finset.mul_sum, List.length_map, List.length_map]
    refine Finset.sum_congr rfl fun k hk => ?_
    have hk := Finset.mem_range.1 hk
    simp [List.getD_eq_getElem?_getD, hk]
    ring
  rw [e, h]
  simp

/-- **C78.**  The design is a stable filter; numerator and denominator have `N + 1` coefficients. -/
theorem stable (hN : 0 < N) (h0 : 0 < Wn) (h1 : Wn < 1) :
    Stable (highpass N Wn).2 ∧ (highpass N Wn).2.length = N + 1 ∧ (highpass N Wn).1.length = N + 1 := by
  refine ⟨fun w hw h => ?_, by simp [highpass, poly_length], by simp [highpass, poly_length]⟩
  rw [denominator N Wn hN, Finset.prod_eq_zero_iff] at h
  obtain ⟨k, hk, e⟩ := h
  have hp := pole_norm N Wn h0 h1 k (Finset.mem_range.1 hk)
  have e2 : pole N Wn k * w = 1 := by linear_combination -e
  have := congrArg norm e2
  rw [norm_mul, norm_one] at this
  nlinarith [norm_nonneg (pole N Wn k), norm_nonneg w]

end

/-! ## The gain -/

/-- The product over the roots of `-1`. -/
theorem roots_prod (N : ℕ) (hN : 0 < N) (x y : ℝ) : ∏ k ∈ range N, ‖(x : ℂ) - y * (Complex.I * protoPole N k)‖ ^ 2 = x ^ (2 * N) + y ^ (2 * N) := by
  have hN2 : 2 * N ≠ 0 := by omega
  have hprim := Complex.isPrimitiveRoot_exp (2 * N) hN2
  have hNc : (N : ℂ) ≠ 0 := by exact_mod_cast hN.ne'
  set ζ := Complex.exp (2 * Real.pi * Complex.I / ((2 * N : ℕ) : ℂ)) with hζ
  set η := Complex.exp (Real.pi * Complex.I / (2 * N)) with hη
  have h1 := hprim.pow_sub_pow_eq_prod_sub_mul (x : ℂ) (y * η) (by omega)
  have hη2 : η ^ (2 * N) = -1 := by
    rw [hη, ← Complex.exp_nat_mul, ← Complex.exp_pi_mul_I]
    congr 1
    push_cast
    field_simp
  rw [mul_pow, hη2] at h1
  have h2 : ∏ ξ ∈ Polynomial.nthRootsFinset (2 * N) (1 : ℂ), ((x : ℂ) - ξ * (y * η)) = ∏ j ∈ range (2 * N), ((x : ℂ) - ζ ^ j * (y * η)) := by
    symm
    refine Finset.prod_bij (fun j _ => ζ ^ j) ?_ ?_ ?_ (fun _ _ => rfl)
    · intro j _
      rw [Polynomial.mem_nthRootsFinset (by omega), ← pow_mul, mul_comm, pow_mul, hprim.pow_eq_one, one_pow]
    · intro i hi j hj e
      exact hprim.pow_inj (Finset.mem_range.1 hi) (Finset.mem_range.1 hj) e
    · intro ξ hξ
      rw [Polynomial.mem_nthRootsFinset (by omega)] at hξ
      have : NeZero (2 * N) := ⟨hN2⟩
      obtain ⟨i, hi, e⟩ := hprim.eq_pow_of_pow_eq_one hξ
      exact ⟨i, Finset.mem_range.2 hi, e⟩
  rw [h2, two_mul, Finset.prod_range_add, ← Finset.prod_range_reflect, ← Finset.prod_mul_distrib] at h1
  have h3 : ∀ k ∈ range N, ((x : ℂ) - ζ ^ (N - 1 - k) * (y * η)) * ((x : ℂ) - ζ ^ (N + k) * (y * η)) = ((‖(x : ℂ) - y * (Complex.I * protoPole N k)‖ ^ 2 : ℝ) : ℂ) := by
    intro k hk
    have hk := Finset.mem_range.1 hk
    have ea : ζ ^ (N + k) * η = Complex.I * protoPole N k := by
      unfold protoPole
      rw [hζ, hη, ← Complex.exp_nat_mul, ← Complex.exp_add, mul_neg, ← neg_mul]
      have : -Complex.I = Complex.exp (Real.pi * Complex.I * (3 / 2)) := by
        rw [show (Real.pi * Complex.I * (3 / 2) : ℂ) = Real.pi * Complex.I + Real.pi / 2 * Complex.I by ring, Complex.exp_add, Complex.exp_pi_mul_I, Complex.exp_pi_div_two_mul_I]
        ring
      rw [this, ← Complex.exp_add]
      rw [Complex.exp_eq_exp_iff_exists_int]
      refine ⟨0, ?_⟩
      push_cast
      field_simp
      ring
    have eb : ζ ^ (N - 1 - k) * η = (starRingEnd ℂ) (Complex.I * protoPole N k) := by
      rw [map_mul, protoPole_conj N hN k hk, Complex.conj_I]
      unfold protoPole
      rw [hζ, hη, ← Complex.exp_nat_mul, ← Complex.exp_add, neg_mul_neg]
      have : Complex.I = Complex.exp (Real.pi * Complex.I / 2) := by
        rw [show (Real.pi * Complex.I / 2 : ℂ) = Real.pi / 2 * Complex.I by ring, Complex.exp_pi_div_two_mul_I]
      conv_rhs => rw [this, ← Complex.exp_add]
      rw [Complex.exp_eq_exp_iff_exists_int]
      refine ⟨0, ?_⟩
      have hc : ((N - 1 - k : ℕ) : ℂ) = N - 1 - k := by
        rw [Nat.cast_sub (by omega), Nat.cast_sub (by omega)]; simp
      have hc' : ((N - 1 - k : ℕ) : ℝ) = N - 1 - k := by
        rw [Nat.cast_sub (by omega), Nat.cast_sub (by omega)]; simp
      rw [hc, hc']
      conv_rhs => rw [← this]
      push_cast
      field_simp
      ring
    rw [show ζ ^ (N + k) * (y * η) = y * (Complex.I * protoPole N k) by rw [← ea]; ring,
      show ζ ^ (N - 1 - k) * (y * η) = (starRingEnd ℂ) (y * (Complex.I * protoPole N k)) by rw [map_mul, ← eb, Complex.conj_ofReal]; ring]
    rw [← Complex.normSq_eq_norm_sq, ← Complex.mul_conj, map_sub, Complex.conj_ofReal]
    ring
  rw [Finset.prod_congr rfl h3, ← Complex.ofReal_prod, ← two_mul] at h1
  apply Complex.ofReal_injective
  rw [← h1]
  push_cast
  ring

/-- **C78.**  The squared gain at `θ` radians per sample, in closed form. -/
theorem response_sq (N : ℕ) (Wn : ℝ) (hN : 0 < N) (h0 : 0 < Wn) (h1 : Wn < 1) (θ : ℝ) :
    ‖response (highpass N Wn).2 (highpass N Wn).1 θ‖ ^ 2 =
      Real.sin (θ / 2) ^ (2 * N) / (Real.sin (θ / 2) ^ (2 * N) + (Real.tan (Real.pi * Wn / 2) * Real.cos (θ / 2)) ^ (2 * N)) := by
  set s := Real.sin (θ / 2) with hs
  set c := Real.cos (θ / 2) with hc
  set W := Real.tan (Real.pi * Wn / 2) with hW
  have hwW : warped Wn = 4 * W := by unfold warped; rw [hW]; ring
  set w : ℂ := Complex.exp (-(θ * Complex.I)) with hw
  set u : ℂ := Complex.exp (((-(θ / 2) : ℝ) : ℂ) * Complex.I) with hu
  have hu1 : ‖u‖ = 1 := Complex.norm_exp_ofReal_mul_I _
  have hu0 : u ≠ 0 := Complex.exp_ne_zero _
  have huv : u = c - s * Complex.I := by
    rw [hu, Complex.exp_mul_I, ← Complex.ofReal_cos, ← Complex.ofReal_sin, Real.cos_neg, Real.sin_neg, ← hs, ← hc]; push_cast; ring
  have hwu : w = u * u := by
    rw [hw, hu, ← Complex.exp_add]; congr 1; push_cast; ring
  have hcs : (c : ℂ) ^ 2 + (s : ℂ) ^ 2 = 1 := by
    rw [hc, hs]; exact_mod_cast Real.cos_sq_add_sin_sq (θ / 2)
  have hI := Complex.I_sq
  have hcu : (c + s * Complex.I : ℂ) * u = 1 := by
    rw [huv]; linear_combination hcs - (s : ℂ) ^ 2 * hI
  have hm : 1 - w = u * (2 * s * Complex.I) := by
    rw [hwu]; linear_combination (-1 : ℂ) * hcu + u * huv - 2 * (u * huv)
  have hp : 1 + w = u * (2 * c) := by
    rw [hwu]; linear_combination (-1 : ℂ) * hcu + u * huv
  unfold response
  rw [← hw, denominator N Wn hN, numerator, gain_eq N Wn hN]
  have hD : ∏ k ∈ range N, (4 - hpPole N Wn k) ≠ 0 := Finset.prod_ne_zero_iff.2 fun k hk => four_sub_ne N Wn h0 h1 k (Finset.mem_range.1 hk)
  have hden : ∏ k ∈ range N, (1 - pole N Wn k * w) = (∏ k ∈ range N, (4 * (1 - w) - hpPole N Wn k * (1 + w))) / ∏ k ∈ range N, (4 - hpPole N Wn k) := by
    rw [← Finset.prod_div_distrib]
    refine Finset.prod_congr rfl fun k hk => ?_
    have := four_sub_ne N Wn h0 h1 k (Finset.mem_range.1 hk)
    unfold pole
    field_simp
    ring
  rw [hden, div_mul_eq_mul_div, div_div_div_cancel_right₀ hD, norm_div, div_pow, norm_mul, norm_pow, norm_pow, hm, norm_prod]
  have hk : ∀ k ∈ range N, ‖4 * (u * (2 * s * Complex.I)) - hpPole N Wn k * (1 + w)‖ ^ 2 = 64 * ‖((W * c : ℝ) : ℂ) - s * (Complex.I * protoPole N k)‖ ^ 2 := by
    intro k _
    have hpp : protoPole N k ≠ 0 := by
      intro h; have := protoPole_norm N k; rw [h] at this; simp at this
    have : 4 * (u * (2 * s * Complex.I)) - hpPole N Wn k * (1 + w) = -8 * u / protoPole N k * (((W * c : ℝ) : ℂ) - s * (Complex.I * protoPole N k)) := by
      rw [hp]; unfold hpPole; rw [hwW]; push_cast; field_simp; ring
    rw [this, norm_mul, norm_div, norm_mul, hu1, protoPole_norm, mul_pow]
    norm_num
  rw [← Finset.prod_pow, Finset.prod_congr rfl hk, Finset.prod_mul_distrib, roots_prod N hN, Finset.prod_const, Finset.card_range]
  have hnn : ‖u * (2 * s * Complex.I)‖ = 2 * |s| := by
    rw [norm_mul, hu1, norm_mul, norm_mul, Complex.norm_I, Complex.norm_real, Real.norm_eq_abs]; norm_num
  rw [hnn]
  have h4 : ‖(4 : ℂ)‖ = 4 := by norm_num
  have hnum : (‖(4 : ℂ)‖ ^ N * (2 * |s|) ^ N) ^ 2 = 64 ^ N * s ^ (2 * N) := by
    rw [h4, ← mul_pow, ← mul_assoc, ← pow_mul, mul_pow, mul_comm N 2, pow_mul (4 * 2 : ℝ), pow_mul |s|, sq_abs, ← pow_mul s]
    norm_num
  rw [hnum, mul_div_mul_left _ _ (by positivity), add_comm]

end Verif.Butter
