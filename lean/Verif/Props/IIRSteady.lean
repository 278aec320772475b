import Verif.Props.IIRFilter
import Mathlib.Analysis.Normed.Ring.InfiniteSum
import Mathlib.Analysis.SpecificLimits.Normed
import Mathlib.Analysis.Complex.Polynomial.Basic
import Mathlib.Algebra.Polynomial.Splits
import Mathlib.Analysis.SpecialFunctions.Complex.Circle
/-!
# Stable filters: decay, boundedness, response to sinusoids (C77)
-/
namespace Verif.IIRFilter
open Finset IIRSpec PowerSeries

/-- Coefficients summable with the weights `ρ ^ n`. -/
def Wt (ρ : ℝ) (f : ℂ⟦X⟧) : Prop := Summable fun n => ‖coeff n f‖ * ρ ^ n

theorem Wt.mul {ρ : ℝ} (hρ : 0 ≤ ρ) {f g : ℂ⟦X⟧} (hf : Wt ρ f) (hg : Wt ρ g) : Wt ρ (f * g) := by
  have h := summable_norm_sum_mul_antidiagonal_of_summable_norm (f := fun n => ‖coeff n f‖ * ρ ^ n) (g := fun n => ‖coeff n g‖ * ρ ^ n)
    hf.norm hg.norm
  refine Summable.of_nonneg_of_le (fun n => by positivity) (fun n => ?_) h
  rw [Real.norm_of_nonneg (Finset.sum_nonneg fun _ _ => by positivity), PowerSeries.coeff_mul]
  refine (mul_le_mul_of_nonneg_right (norm_sum_le _ _) (by positivity)).trans (le_of_eq ?_)
  rw [Finset.sum_mul]
  refine Finset.sum_congr rfl fun p hp => ?_
  rw [norm_mul, ← Finset.mem_antidiagonal.1 hp, pow_add]
  ring

theorem Wt.poly (ρ : ℝ) (P : Polynomial ℂ) : Wt ρ (P : ℂ⟦X⟧) := by
  refine summable_of_ne_finset_zero (s := P.support) fun n hn => ?_
  rw [Polynomial.coeff_coe, Polynomial.notMem_support_iff.1 hn, norm_zero, zero_mul]

theorem Wt.inv {ρ : ℝ} (hρ : 0 ≤ ρ) (r : ℂ) (hr : ρ < ‖r‖) : ∃ g, Wt ρ g ∧ ((Polynomial.X - Polynomial.C r : Polynomial ℂ) : ℂ⟦X⟧) * g = 1 := by
  have hr0 : r ≠ 0 := fun h => by rw [h, norm_zero] at hr; linarith
  refine ⟨PowerSeries.mk fun n => -(r⁻¹) ^ (n + 1), ?_, ?_⟩
  · have hs : Summable fun n : ℕ => ‖r‖⁻¹ * (ρ / ‖r‖) ^ n := by
      refine (summable_geometric_of_lt_one (by positivity) ?_).mul_left _
      rw [div_lt_one (by linarith)]; exact hr
    refine hs.congr fun n => ?_
    rw [PowerSeries.coeff_mk, norm_neg, norm_pow, norm_inv, div_pow, inv_pow, pow_succ]
    have : ‖r‖ ≠ 0 := norm_ne_zero_iff.2 hr0
    field_simp
  · ext n
    rw [Polynomial.coe_sub, Polynomial.coe_X, Polynomial.coe_C, sub_mul, map_sub, PowerSeries.coeff_C_mul, PowerSeries.coeff_mk]
    cases n with
    | zero => simp [hr0]
    | succ n =>
      rw [PowerSeries.coeff_succ_X_mul, PowerSeries.coeff_mk, PowerSeries.coeff_one]
      simp only [Nat.add_eq_zero_iff, one_ne_zero, and_false, if_false]
      rw [pow_succ _ (n + 1)]
      field_simp
      ring

theorem Wt.prod_inv {ρ : ℝ} (hρ : 0 ≤ ρ) (s : Multiset ℂ) (hs : ∀ r ∈ s, ρ < ‖r‖) :
    ∃ g, Wt ρ g ∧ (((s.map fun r => Polynomial.X - Polynomial.C r).prod : Polynomial ℂ) : ℂ⟦X⟧) * g = 1 := by
  induction s using Multiset.induction_on with
  | empty => exact ⟨((1 : Polynomial ℂ) : ℂ⟦X⟧), Wt.poly ρ 1, by simp⟩
  | cons r s ih =>
    obtain ⟨g, hg, eg⟩ := ih fun q hq => hs q (Multiset.mem_cons_of_mem hq)
    obtain ⟨k, hk, ek⟩ := Wt.inv hρ r (hs r (Multiset.mem_cons_self r s))
    refine ⟨k * g, hk.mul hρ hg, ?_⟩
    rw [Multiset.map_cons, Multiset.prod_cons, Polynomial.coe_mul]
    calc _ = (((Polynomial.X - Polynomial.C r : Polynomial ℂ) : ℂ⟦X⟧) * k) * ((((s.map fun r => Polynomial.X - Polynomial.C r).prod : Polynomial ℂ) : ℂ⟦X⟧) * g) := by ring
      _ = 1 := by rw [ek, eg, one_mul]

/-- The polynomial with the given coefficients. -/
noncomputable def polyOf (l : List ℝ) : Polynomial ℂ := ∑ k ∈ range l.length, Polynomial.C (l.getD k 0 : ℂ) * Polynomial.X ^ k

theorem polyOf_eval (l : List ℝ) (w : ℂ) : (polyOf l).eval w = evalAt l w := by
  simp [polyOf, evalAt, Polynomial.eval_finsetSum]

theorem polyOf_coe (l : List ℝ) : ((polyOf l : Polynomial ℂ) : ℂ⟦X⟧) = PowerSeries.map Complex.ofRealHom (PowerSeries.mk fun k => l.getD k 0) := by
  ext n
  rw [Polynomial.coeff_coe, PowerSeries.coeff_map, PowerSeries.coeff_mk, polyOf, Polynomial.finsetSum_coeff]
  simp only [Polynomial.coeff_C_mul, Polynomial.coeff_X_pow, mul_ite, mul_one, mul_zero, Finset.sum_ite_eq, Finset.mem_range]
  split_ifs with h
  · rfl
  · simp [List.getD_eq_getElem?_getD, h]

theorem stable_head (a : List ℝ) (hs : Stable a) : a.getD 0 0 ≠ 0 := by
  intro h
  refine hs 0 (by simp) ?_
  unfold evalAt
  refine Finset.sum_eq_zero fun k _ => ?_
  cases k with
  | zero => rw [h]; simp
  | succ k => simp

/-- The impulse response of a stable filter decays geometrically. -/
theorem transfer_weight (a b : List ℝ) (hs : Stable a) :
    ∃ ρ : ℝ, 1 < ρ ∧ Summable fun n => |coeff n (transfer a b)| * ρ ^ n := by
  have hroot : ∀ r ∈ (polyOf a).roots, 1 < ‖r‖ := by
    intro r hr
    by_contra h
    push Not at h
    have := (Polynomial.mem_roots'.1 hr).2
    rw [Polynomial.IsRoot.def, polyOf_eval] at this
    exact hs r h this
  obtain ⟨ρ, h1, hρ⟩ : ∃ ρ : ℝ, 1 < ρ ∧ ∀ r ∈ (polyOf a).roots, ρ < ‖r‖ := by
    generalize (polyOf a).roots = s at hroot
    induction s using Multiset.induction_on with
    | empty => exact ⟨2, by norm_num, by simp⟩
    | cons r s ih =>
      obtain ⟨ρ, h1, h2⟩ := ih fun q hq => hroot q (Multiset.mem_cons_of_mem hq)
      have hr := hroot r (Multiset.mem_cons_self r s)
      refine ⟨min ρ ((1 + ‖r‖) / 2), lt_min h1 (by linarith), fun q hq => ?_⟩
      rcases Multiset.mem_cons.1 hq with e | e
      · rw [e]; exact (min_le_right _ _).trans_lt (by linarith)
      · exact (min_le_left _ _).trans_lt (h2 q e)
  refine ⟨ρ, h1, ?_⟩
  have hρ0 : 0 ≤ ρ := by linarith
  obtain ⟨g, hg, eg⟩ := Wt.prod_inv hρ0 _ hρ
  have hne : polyOf a ≠ 0 := by
    intro h
    have := hs 0 (by simp)
    rw [← polyOf_eval, h, Polynomial.eval_zero] at this
    exact this rfl
  have hsp : polyOf a = Polynomial.C (polyOf a).leadingCoeff * ((polyOf a).roots.map fun r => Polynomial.X - Polynomial.C r).prod :=
    (IsAlgClosed.splits (polyOf a)).eq_prod_roots
  have hl : (polyOf a).leadingCoeff ≠ 0 := Polynomial.leadingCoeff_ne_zero.2 hne
  have hinv : ((polyOf a : Polynomial ℂ) : ℂ⟦X⟧) * (((Polynomial.C (polyOf a).leadingCoeff⁻¹ : Polynomial ℂ) : ℂ⟦X⟧) * g) = 1 := by
    have e : ((polyOf a : Polynomial ℂ) : ℂ⟦X⟧) = ((Polynomial.C (polyOf a).leadingCoeff : Polynomial ℂ) : ℂ⟦X⟧) *
        (((((polyOf a).roots.map fun r => Polynomial.X - Polynomial.C r).prod : Polynomial ℂ)) : ℂ⟦X⟧) := by
      rw [← Polynomial.coe_mul]; exact congrArg _ hsp
    rw [e]
    calc _ = (((Polynomial.C (polyOf a).leadingCoeff : Polynomial ℂ) : ℂ⟦X⟧) * ((Polynomial.C (polyOf a).leadingCoeff⁻¹ : Polynomial ℂ) : ℂ⟦X⟧)) *
          ((((((polyOf a).roots.map fun r => Polynomial.X - Polynomial.C r).prod : Polynomial ℂ)) : ℂ⟦X⟧) * g) := by ring
      _ = 1 := by
        rw [eg, ← Polynomial.coe_mul, ← Polynomial.C_mul, mul_inv_cancel₀ hl]; simp
  have hmap : PowerSeries.map Complex.ofRealHom (transfer a b) = (((Polynomial.C (polyOf a).leadingCoeff⁻¹ : Polynomial ℂ) : ℂ⟦X⟧) * g) * (polyOf b : Polynomial ℂ) := by
    have h0 : (PowerSeries.mk fun k => a.getD k 0) * transfer a b = PowerSeries.mk fun k => b.getD k 0 := by
      unfold transfer
      rw [← mul_assoc, PowerSeries.mul_inv_cancel, one_mul]
      rw [← PowerSeries.coeff_zero_eq_constantCoeff_apply, PowerSeries.coeff_mk]
      exact stable_head a hs
    have h1 := congrArg (PowerSeries.map Complex.ofRealHom) h0
    rw [map_mul, ← polyOf_coe, ← polyOf_coe] at h1
    rw [← h1]
    calc _ = (((polyOf a : Polynomial ℂ) : ℂ⟦X⟧) * (((Polynomial.C (polyOf a).leadingCoeff⁻¹ : Polynomial ℂ) : ℂ⟦X⟧) * g)) * PowerSeries.map Complex.ofRealHom (transfer a b) := by rw [hinv, one_mul]
      _ = _ := by ring
  have hw : Wt ρ (PowerSeries.map Complex.ofRealHom (transfer a b)) := by
    rw [hmap]; exact ((Wt.poly ρ _).mul hρ0 hg).mul hρ0 (Wt.poly ρ _)
  refine hw.congr fun n => ?_
  rw [PowerSeries.coeff_map, Complex.ofRealHom_eq_coe, Complex.norm_real, Real.norm_eq_abs]

/-- The sum of the impulse response with powers of a delay on the unit circle is the quotient of the two polynomials. -/
theorem transfer_eval (a b : List ℝ) (hs : Stable a) (w : ℂ) (hw : ‖w‖ ≤ 1) :
    (∑' n, ((coeff n (transfer a b) : ℝ) : ℂ) * w ^ n) = evalAt b w / evalAt a w := by
  obtain ⟨ρ, hρ, hsum⟩ := transfer_weight a b hs
  have hfin : ∀ l : List ℝ, Summable (fun n => ‖(l.getD n 0 : ℂ) * w ^ n‖) ∧ (∑' n, (l.getD n 0 : ℂ) * w ^ n) = evalAt l w := by
    intro l
    have h0 : ∀ n ∉ range l.length, (l.getD n 0 : ℂ) * w ^ n = 0 := by
      intro n hn
      rw [Finset.mem_range] at hn
      simp [List.getD_eq_getElem?_getD, hn]
    refine ⟨summable_of_ne_finset_zero (s := range l.length) fun n hn => by rw [h0 n hn, norm_zero], ?_⟩
    exact tsum_eq_sum h0
  have hh : Summable fun n => ‖((coeff n (transfer a b) : ℝ) : ℂ) * w ^ n‖ := by
    refine Summable.of_nonneg_of_le (fun n => norm_nonneg _) (fun n => ?_) hsum
    rw [norm_mul, norm_pow, Complex.norm_real, Real.norm_eq_abs]
    refine mul_le_mul_of_nonneg_left ?_ (abs_nonneg _)
    exact (pow_le_one₀ (norm_nonneg _) hw).trans (one_le_pow₀ hρ.le)
  have h := tsum_mul_tsum_eq_tsum_sum_antidiagonal_of_summable_norm (hfin a).1 hh
  rw [(hfin a).2] at h
  rw [eq_div_iff (hs w hw), mul_comm, h, ← (hfin b).2]
  refine tsum_congr fun n => ?_
  have h0 : (PowerSeries.mk fun k => a.getD k 0) * transfer a b = PowerSeries.mk fun k => b.getD k 0 := by
    unfold transfer
    rw [← mul_assoc, PowerSeries.mul_inv_cancel, one_mul]
    rw [← PowerSeries.coeff_zero_eq_constantCoeff_apply, PowerSeries.coeff_mk]
    exact stable_head a hs
  have hc := congrArg (coeff n) h0
  rw [PowerSeries.coeff_mul, PowerSeries.coeff_mk] at hc
  rw [← hc, Complex.ofReal_sum, Finset.sum_mul]
  refine Finset.sum_congr rfl fun p hp => ?_
  rw [PowerSeries.coeff_mk, ← Finset.mem_antidiagonal.1 hp, pow_add, Complex.ofReal_mul]
  ring

/-- What decay gives: a bound for all tails of the weighted impulse response. -/
theorem tail_bound (h : ℕ → ℝ) (ρ : ℝ) (hρ : 1 < ρ) (hs : Summable fun n => |h n| * ρ ^ n) (c : ℕ → ℂ) (hc : ∀ n, ‖c n‖ = |h n|) (m : ℕ) :
    Summable c ∧ ‖(∑' n, c n) - ∑ n ∈ range m, c n‖ ≤ (∑' n, |h n| * ρ ^ n) * (ρ⁻¹) ^ m := by
  have hρ0 : 0 < ρ := by linarith
  have hle : ∀ n, ‖c n‖ ≤ |h n| * ρ ^ n := fun n => by
    rw [hc]; exact le_mul_of_one_le_right (abs_nonneg _) (one_le_pow₀ hρ.le)
  have hn : Summable fun n => ‖c n‖ := Summable.of_nonneg_of_le (fun _ => norm_nonneg _) hle hs
  have hsc : Summable c := hn.of_norm
  refine ⟨hsc, ?_⟩
  rw [← hsc.sum_add_tsum_nat_add m, add_sub_cancel_left]
  have h1 : Summable fun n => ‖c (n + m)‖ := (summable_nat_add_iff m).2 hn
  have h2 : Summable fun n => |h (n + m)| * ρ ^ (n + m) := (summable_nat_add_iff m (f := fun n => |h n| * ρ ^ n)).2 hs
  calc ‖∑' n, c (n + m)‖ ≤ ∑' n, ‖c (n + m)‖ := norm_tsum_le_tsum_norm h1
    _ ≤ ∑' n, (|h (n + m)| * ρ ^ (n + m)) * (ρ⁻¹) ^ m := by
        refine h1.tsum_le_tsum (fun n => ?_) (h2.mul_right _)
        rw [hc, pow_add, inv_pow, mul_assoc, mul_assoc, mul_inv_cancel₀ (by positivity), mul_one]
        exact le_mul_of_one_le_right (abs_nonneg _) (one_le_pow₀ hρ.le)
    _ = (∑' n, |h (n + m)| * ρ ^ (n + m)) * (ρ⁻¹) ^ m := tsum_mul_right
    _ ≤ _ := by
        refine mul_le_mul_of_nonneg_right ?_ (by positivity)
        rw [← hs.sum_add_tsum_nat_add m]
        exact le_add_of_nonneg_left (Finset.sum_nonneg fun _ _ => by positivity)

/-- **C77.**  A stable filter answers a sinusoid with the same sinusoid: no phase shift, and the amplitude multiplied by the squared modulus of the
frequency response.  What is added at the two ends decays geometrically, at a rate and with a constant that depend on the filter alone. -/
theorem sinusoid (a b : List ℝ) (hs : Stable a) :
    ∃ C r : ℝ, 0 ≤ C ∧ 0 < r ∧ r < 1 ∧ ∀ (N : ℕ) (θ φ : ℝ) (n : ℕ), n < N →
      |filtRow a b N (fun t => Real.cos (θ * t + φ)) n - ‖response a b θ‖ ^ 2 * Real.cos (θ * n + φ)| ≤ C * (r ^ n + r ^ (N - n)) := by
  obtain ⟨ρ, hρ, hsum⟩ := transfer_weight a b hs
  have ha := stable_head a hs
  set h : ℕ → ℝ := fun n => coeff n (transfer a b) with hh
  set M := ∑' n, |h n| * ρ ^ n with hM
  have hρ0 : 0 < ρ := by linarith
  have hM0 : 0 ≤ M := tsum_nonneg fun n => by positivity
  refine ⟨M * M, ρ⁻¹, by positivity, by positivity, inv_lt_one_of_one_lt₀ hρ, ?_⟩
  intro N θ φ n hn
  set w : ℂ := Complex.exp (-(θ * Complex.I)) with hw
  have hwn : ‖w‖ = 1 := by
    rw [hw, ← neg_mul, ← Complex.ofReal_neg]; exact Complex.norm_exp_ofReal_mul_I _
  have hcw : ‖(starRingEnd ℂ) w‖ = 1 := by rw [RCLike.norm_conj, hwn]
  have hww : w * (starRingEnd ℂ) w = 1 := by
    rw [Complex.mul_conj, Complex.normSq_eq_norm_sq, hwn]; norm_num
  set H : ℂ := ∑' n, (h n : ℂ) * w ^ n with hH
  have hHr : response a b θ = H := by rw [hH, transfer_eval a b hs w hwn.le]; rfl
  have hnorm : ∀ (u : ℂ), ‖u‖ = 1 → ∀ k, ‖(h k : ℂ) * u ^ k‖ = |h k| := by
    intro u hu k
    rw [norm_mul, norm_pow, hu, one_pow, mul_one, Complex.norm_real, Real.norm_eq_abs]
  set E : ℕ → ℂ := fun t => Complex.exp (((θ * t + φ : ℝ) : ℂ) * Complex.I) with hE
  have hEre : ∀ t : ℕ, Real.cos (θ * t + φ) = (E t).re := fun t => by rw [hE]; exact (Complex.exp_ofReal_mul_I_re _).symm
  have hE1 : ∀ t, ‖E t‖ = 1 := fun t => Complex.norm_exp_ofReal_mul_I _
  have hEs : ∀ m k : ℕ, k ≤ m → E (m - k) = w ^ k * E m := by
    intro m k hk
    rw [hE, hw, ← Complex.exp_nat_mul, ← Complex.exp_add]
    refine congrArg Complex.exp ?_
    push_cast [Nat.cast_sub hk]
    ring
  have hEa : ∀ m k : ℕ, E (m + k) = (starRingEnd ℂ) w ^ k * E m := by
    intro m k
    have := hEs (m + k) k (by omega)
    rw [show m + k - k = m by omega] at this
    rw [this, ← mul_assoc, ← mul_pow, mul_comm _ w, hww, one_pow, one_mul]
  -- the causal pass
  have hv : ∀ m, lfilterRow a b (fun t => Real.cos (θ * t + φ)) m = ((∑ k ∈ range (m + 1), (h k : ℂ) * w ^ k) * E m).re := by
    intro m
    rw [lfilter_conv a b _ ha, Finset.sum_mul, Complex.re_sum]
    refine Finset.sum_congr rfl fun k hk => ?_
    have := Finset.mem_range.1 hk
    rw [hEre, hEs m k (by omega), mul_assoc, Complex.re_ofReal_mul]
  set D : ℕ → ℂ := fun m => H - ∑ k ∈ range m, (h k : ℂ) * w ^ k with hD
  have hDb : ∀ m, ‖D m‖ ≤ M * (ρ⁻¹) ^ m := fun m => (tail_bound h ρ hρ hsum _ (hnorm w hwn) m).2
  set F : ℂ := ∑' n, (h n : ℂ) * (starRingEnd ℂ) w ^ n with hF
  have hFH : F = (starRingEnd ℂ) H := by
    rw [hF, hH, Complex.conj_tsum]
    refine tsum_congr fun k => ?_
    rw [map_mul, Complex.conj_ofReal, map_pow]
  set G : ℕ → ℂ := fun m => F - ∑ k ∈ range m, (h k : ℂ) * (starRingEnd ℂ) w ^ k with hG
  have hGb : ∀ m, ‖G m‖ ≤ M * (ρ⁻¹) ^ m := fun m => (tail_bound h ρ hρ hsum _ (hnorm _ hcw) m).2
  have hHb : ‖H‖ ≤ M := by
    have := hDb 0
    simpa [hD] using this
  -- the backward pass
  have key : filtRow a b N (fun t => Real.cos (θ * t + φ)) n =
      (((F - G (N - n)) * H - ∑ k ∈ range (N - n), (h k : ℂ) * (starRingEnd ℂ) w ^ k * D (n + k + 1)) * E n).re := by
    rw [filtRow_eq a b N _ ha n hn]
    have e1 : F - G (N - n) = ∑ k ∈ range (N - n), (h k : ℂ) * (starRingEnd ℂ) w ^ k := by rw [hG]; ring
    rw [e1, Finset.sum_mul, ← Finset.sum_sub_distrib, Finset.sum_mul, Complex.re_sum]
    refine Finset.sum_congr rfl fun k _ => ?_
    rw [hv, hEa n k]
    have e2 : ∑ k ∈ range (n + k + 1), (h k : ℂ) * w ^ k = H - D (n + k + 1) := by rw [hD]; ring
    rw [e2, ← Complex.re_ofReal_mul]
    congr 1
    ring
  have hmain : (‖response a b θ‖ ^ 2 * Real.cos (θ * n + φ) : ℝ) = (F * H * E n).re := by
    rw [hFH, mul_comm _ H, Complex.mul_conj, Complex.normSq_eq_norm_sq, Complex.re_ofReal_mul, hHr, hEre]
  rw [key, hmain, ← Complex.sub_re]
  refine (Complex.abs_re_le_norm _).trans ?_
  have e3 : ((F - G (N - n)) * H - ∑ k ∈ range (N - n), (h k : ℂ) * (starRingEnd ℂ) w ^ k * D (n + k + 1)) * E n - F * H * E n =
      -((G (N - n) * H + ∑ k ∈ range (N - n), (h k : ℂ) * (starRingEnd ℂ) w ^ k * D (n + k + 1)) * E n) := by ring
  rw [e3, norm_neg, norm_mul, hE1, mul_one]
  refine (norm_add_le _ _).trans ?_
  have b1 : ‖G (N - n) * H‖ ≤ M * M * (ρ⁻¹) ^ (N - n) := by
    rw [norm_mul]
    calc _ ≤ (M * (ρ⁻¹) ^ (N - n)) * M := mul_le_mul (hGb _) hHb (norm_nonneg _) (by positivity)
      _ = _ := by ring
  have hab : Summable fun k => |h k| := Summable.of_nonneg_of_le (fun _ => abs_nonneg _)
    (fun k => le_mul_of_one_le_right (abs_nonneg _) (one_le_pow₀ hρ.le)) hsum
  have b2 : ‖∑ k ∈ range (N - n), (h k : ℂ) * (starRingEnd ℂ) w ^ k * D (n + k + 1)‖ ≤ M * M * (ρ⁻¹) ^ n := by
    calc _ ≤ ∑ k ∈ range (N - n), ‖(h k : ℂ) * (starRingEnd ℂ) w ^ k * D (n + k + 1)‖ := norm_sum_le _ _
      _ ≤ ∑ k ∈ range (N - n), |h k| * (M * (ρ⁻¹) ^ n) := by
          refine Finset.sum_le_sum fun k _ => ?_
          rw [norm_mul, hnorm _ hcw]
          refine mul_le_mul_of_nonneg_left ((hDb _).trans (mul_le_mul_of_nonneg_left ?_ hM0)) (abs_nonneg _)
          exact pow_le_pow_of_le_one (by positivity) (inv_le_one_of_one_le₀ hρ.le) (by omega)
      _ = (∑ k ∈ range (N - n), |h k|) * (M * (ρ⁻¹) ^ n) := by rw [Finset.sum_mul]
      _ ≤ M * (M * (ρ⁻¹) ^ n) := by
          refine mul_le_mul_of_nonneg_right ?_ (by positivity)
          refine (hab.sum_le_tsum _ fun _ _ => abs_nonneg _).trans (hab.tsum_le_tsum (fun k => ?_) hsum)
          exact le_mul_of_one_le_right (abs_nonneg _) (one_le_pow₀ hρ.le)
      _ = _ := by ring
  linarith

/-- **C77.**  A stable filter is bounded, however long the series: outputs are at most a constant times the largest input. -/
theorem bounded (a b : List ℝ) (hs : Stable a) :
    ∃ C : ℝ, 0 ≤ C ∧ ∀ (N : ℕ) (x : ℕ → ℝ) (B : ℝ), (∀ t, t < N → |x t| ≤ B) → ∀ n, n < N → |filtRow a b N x n| ≤ C * B := by
  obtain ⟨ρ, hρ, hsum⟩ := transfer_weight a b hs
  have ha := stable_head a hs
  have hab : Summable fun k => |coeff k (transfer a b)| := Summable.of_nonneg_of_le (fun _ => abs_nonneg _)
    (fun k => le_mul_of_one_le_right (abs_nonneg _) (one_le_pow₀ hρ.le)) hsum
  set M := ∑' k, |coeff k (transfer a b)| with hM
  have hM0 : 0 ≤ M := tsum_nonneg fun _ => abs_nonneg _
  refine ⟨M * M, by positivity, fun N x B hB n hn => ?_⟩
  have hB0 : 0 ≤ B := (abs_nonneg _).trans (hB n hn)
  have hv : ∀ m, m < N → |lfilterRow a b x m| ≤ M * B := by
    intro m hm
    rw [lfilter_conv a b x ha]
    calc _ ≤ ∑ k ∈ range (m + 1), |coeff k (transfer a b) * x (m - k)| := Finset.abs_sum_le_sum_abs _ _
      _ ≤ ∑ k ∈ range (m + 1), |coeff k (transfer a b)| * B := by
          refine Finset.sum_le_sum fun k _ => ?_
          rw [abs_mul]
          exact mul_le_mul_of_nonneg_left (hB _ (by omega)) (abs_nonneg _)
      _ = (∑ k ∈ range (m + 1), |coeff k (transfer a b)|) * B := by rw [Finset.sum_mul]
      _ ≤ M * B := mul_le_mul_of_nonneg_right (hab.sum_le_tsum _ fun _ _ => abs_nonneg _) hB0
  rw [filtRow_eq a b N x ha n hn]
  calc _ ≤ ∑ k ∈ range (N - n), |coeff k (transfer a b) * lfilterRow a b x (n + k)| := Finset.abs_sum_le_sum_abs _ _
    _ ≤ ∑ k ∈ range (N - n), |coeff k (transfer a b)| * (M * B) := by
        refine Finset.sum_le_sum fun k hk => ?_
        have := Finset.mem_range.1 hk
        rw [abs_mul]
        exact mul_le_mul_of_nonneg_left (hv _ (by omega)) (abs_nonneg _)
    _ = (∑ k ∈ range (N - n), |coeff k (transfer a b)|) * (M * B) := by rw [Finset.sum_mul]
    _ ≤ M * (M * B) := mul_le_mul_of_nonneg_right (hab.sum_le_tsum _ fun _ _ => abs_nonneg _) (by positivity)
    _ = _ := by ring

/-- A stable filter. -/
example : Stable [2, 1] := by
  intro w hw h
  have e : evalAt [2, 1] w = 2 + w := by simp [evalAt, Finset.sum_range_succ]
  rw [e] at h
  have : w = -2 := by linear_combination h
  rw [this] at hw
  norm_num at hw

/-- **C77.**  The ends are not padded: the filter does not commute with time reversal.  An impulse at the first sample and one at the last sample are
answered differently. -/
theorem ends_differ :
    filtRow [1, 0] [1, 1] 2 (fun t => if t = 0 then 1 else 0) 0 = 2 ∧ filtRow [1, 0] [1, 1] 2 (fun t => if t = 1 then 1 else 0) 1 = 1 := by
  constructor
  · simp [filtRow, lfilterRow, outputs, fir, Finset.sum_range_succ]
    norm_num
  · simp [filtRow, lfilterRow, outputs, fir, Finset.sum_range_succ]

end Verif.IIRFilter
