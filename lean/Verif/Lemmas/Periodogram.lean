import Verif.Lemmas.MedianMean
import Verif.Lemmas.GaussSq
import Verif.Lemmas.Fourier
import Verif.Spec.SpectralNoise
import Mathlib.Probability.Distributions.Gaussian.HasGaussianLaw.Independence
/-! # Periodograms of white noise -/
namespace Verif.Periodogram
open MeasureTheory ProbabilityTheory Finset Verif.Fourier Verif.Spec Verif.Spec.Noise

/-- Coefficients of the demeaned windowed transform. -/
noncomputable def coef (N : ℕ) (w : ℕ → ℝ) (k t : ℕ) : ℂ := (w t : ℂ) * ω N (-((k : ℤ) * t)) - rfft N w k / N

theorem spec_demean (N : ℕ) (hN : 0 < N) (w seg : ℕ → ℝ) (k : ℕ) :
    Welch.spec N w (fun t => seg t - Welch.mean N seg) k = ∑ t ∈ range N, coef N w k t * (seg t : ℂ) := by
  have hN' : (N : ℂ) ≠ 0 := by exact_mod_cast hN.ne'
  have h1 : ∑ t ∈ range N, coef N w k t * (seg t : ℂ) =
      ∑ t ∈ range N, ((w t : ℂ) * seg t * ω N (-((k : ℤ) * t))) - rfft N w k / N * ∑ t ∈ range N, (seg t : ℂ) := by
    rw [mul_sum, ← sum_sub_distrib]
    exact sum_congr rfl fun t _ => by unfold coef; ring
  rw [h1]
  unfold Welch.spec rfft dft Welch.mean
  have h2 : ∀ t ∈ range N, ((w t * (seg t - (∑ t ∈ range N, seg t) / N) : ℝ) : ℂ) * ω N (-((k : ℤ) * t)) =
      (w t : ℂ) * seg t * ω N (-((k : ℤ) * t)) - ((∑ t ∈ range N, (seg t : ℂ)) / N) * ((w t : ℂ) * ω N (-((k : ℤ) * t))) := by
    intro t _; push_cast; ring
  rw [sum_congr rfl h2, sum_sub_distrib, ← mul_sum]
  ring

theorem sum_coef (N : ℕ) (hN : 0 < N) (w : ℕ → ℝ) (k : ℕ) : ∑ t ∈ range N, coef N w k t = 0 := by
  have hN' : (N : ℂ) ≠ 0 := by exact_mod_cast hN.ne'
  unfold coef
  rw [sum_sub_distrib, sum_const, card_range, nsmul_eq_mul]
  unfold rfft dft
  field_simp
  ring

theorem sum_coef_sq (N : ℕ) (hN : 0 < N) (w : ℕ → ℝ) (k : ℕ) :
    ∑ t ∈ range N, ‖coef N w k t‖ ^ 2 = ∑ t ∈ range N, w t ^ 2 - ‖rfft N w k‖ ^ 2 / N := by
  have hN' : (N : ℂ) ≠ 0 := by exact_mod_cast hN.ne'
  have hc : ((∑ t ∈ range N, ‖coef N w k t‖ ^ 2 : ℝ) : ℂ) =
      ((∑ t ∈ range N, w t ^ 2 - ‖rfft N w k‖ ^ 2 / N : ℝ) : ℂ) := by
    push_cast
    simp only [← Complex.mul_conj']
    have h : ∀ t ∈ range N, coef N w k t * (starRingEnd ℂ) (coef N w k t) =
        (w t : ℂ) ^ 2 - (starRingEnd ℂ) (rfft N w k) / N * ((w t : ℂ) * ω N (-((k : ℤ) * t)))
          - rfft N w k / N * (starRingEnd ℂ) ((w t : ℂ) * ω N (-((k : ℤ) * t)))
          + rfft N w k * (starRingEnd ℂ) (rfft N w k) / N ^ 2 := by
      intro t _
      have h1 := ω_normSq N (-((k : ℤ) * t))
      unfold coef
      rw [map_sub, map_mul, map_div₀, Complex.conj_ofReal, Complex.conj_natCast]
      linear_combination (w t : ℂ) ^ 2 * h1
    rw [sum_congr rfl h, sum_add_distrib, sum_sub_distrib, sum_sub_distrib, ← mul_sum, ← mul_sum, ← map_sum]
    have e : ∑ t ∈ range N, (w t : ℂ) * ω N (-((k : ℤ) * t)) = rfft N w k := rfl
    rw [e, sum_const, card_range, nsmul_eq_mul]
    field_simp
    ring
  exact_mod_cast hc

variable {Ω : Type*} [MeasurableSpace Ω] {P : Measure Ω}

/-- Linear form of the samples. -/
noncomputable def lin (N : ℕ) (a : ℕ → ℝ) (X : ℕ → Ω → ℝ) (ω : Ω) : ℝ := ∑ t ∈ range N, a t * X t ω

theorem lin_memLp (N : ℕ) (a : ℕ → ℝ) (X : ℕ → Ω → ℝ) (h : ∀ t < N, MemLp (X t) 2 P) : MemLp (lin N a X) 2 P :=
  memLp_finsetSum _ fun t ht => (h t (by simpa using ht)).const_mul _

theorem lin_mean [IsProbabilityMeasure P] (N : ℕ) (a : ℕ → ℝ) (X : ℕ → Ω → ℝ) (m σ2 : ℝ) (h : White P N X m σ2) :
    ∫ ω, lin N a X ω ∂P = m * ∑ t ∈ range N, a t := by
  unfold lin
  rw [integral_finsetSum]
  · rw [mul_sum]
    refine sum_congr rfl fun t ht => ?_
    rw [integral_const_mul, h.mean t (by simpa using ht)]; ring
  · intro t ht
    exact ((h.memLp t (by simpa using ht)).integrable (by norm_num)).const_mul _

theorem lin_cov [IsProbabilityMeasure P] (N : ℕ) (a b : ℕ → ℝ) (X Y : ℕ → Ω → ℝ) (f : ℕ → ℕ → ℝ)
    (hX : ∀ t < N, MemLp (X t) 2 P) (hY : ∀ t < N, MemLp (Y t) 2 P)
    (h : ∀ s < N, ∀ t < N, cov[X s, Y t; P] = f s t) :
    cov[lin N a X, lin N b Y; P] = ∑ s ∈ range N, ∑ t ∈ range N, a s * b t * f s t := by
  unfold lin
  rw [covariance_fun_sum_fun_sum' (fun t ht => (hX t (by simpa using ht)).const_mul _)
    (fun t ht => (hY t (by simpa using ht)).const_mul _)]
  refine sum_congr rfl fun s hs => sum_congr rfl fun t ht => ?_
  rw [covariance_const_mul_left, covariance_const_mul_right, h s (by simpa using hs) t (by simpa using ht)]
  ring

theorem lin_cov_white [IsProbabilityMeasure P] (N : ℕ) (a b : ℕ → ℝ) (X : ℕ → Ω → ℝ) (m σ2 : ℝ) (h : White P N X m σ2) :
    cov[lin N a X, lin N b X; P] = σ2 * ∑ t ∈ range N, a t * b t := by
  rw [lin_cov N a b X X _ h.memLp h.memLp h.cov, mul_sum]
  refine sum_congr rfl fun s hs => ?_
  rw [sum_eq_single s (fun t _ hts => by rw [if_neg (Ne.symm hts), mul_zero]) (fun h' => absurd hs h'), if_pos rfl]
  ring

theorem lin_sq [IsProbabilityMeasure P] (N : ℕ) (a : ℕ → ℝ) (X : ℕ → Ω → ℝ) (m σ2 : ℝ) (h : White P N X m σ2)
    (ha : ∑ t ∈ range N, a t = 0) :
    Integrable (fun ω => lin N a X ω ^ 2) P ∧ ∫ ω, lin N a X ω ^ 2 ∂P = σ2 * ∑ t ∈ range N, a t ^ 2 := by
  have hm := lin_memLp N a X h.memLp
  refine ⟨hm.integrable_sq, ?_⟩
  have h1 := lin_cov_white N a a X m σ2 h
  rw [covariance_self hm.aemeasurable, variance_of_integral_eq_zero hm.aemeasurable
    (by rw [lin_mean N a X m σ2 h, ha, mul_zero])] at h1
  rw [h1]
  exact congrArg _ (sum_congr rfl fun t _ => by ring)

theorem white_shift (T N o : ℕ) (X : ℕ → Ω → ℝ) (m σ2 : ℝ) (h : White P T X m σ2) (ho : o + N ≤ T) :
    White P N (fun t => X (o + t)) m σ2 where
  memLp t ht := h.memLp _ (by omega)
  mean t ht := h.mean _ (by omega)
  cov s hs t ht := by
    rw [h.cov _ (by omega) _ (by omega)]
    simp

omit [MeasurableSpace Ω] in
/-- The squared modulus of a demeaned windowed transform. -/
theorem normSq_spec (N : ℕ) (hN : 0 < N) (w : ℕ → ℝ) (k : ℕ) (X : ℕ → Ω → ℝ) (ω : Ω) :
    ‖Welch.spec N w (fun t => X t ω - Welch.mean N fun t => X t ω) k‖ ^ 2 =
      lin N (fun t => (coef N w k t).re) X ω ^ 2 + lin N (fun t => (coef N w k t).im) X ω ^ 2 := by
  rw [spec_demean N hN w (fun t => X t ω) k, ← Complex.normSq_eq_norm_sq, Complex.normSq_apply, ← sq, ← sq]
  unfold lin
  congr 2
  · rw [Complex.re_sum]; exact sum_congr rfl fun t _ => by simp
  · rw [Complex.im_sum]; exact sum_congr rfl fun t _ => by simp

theorem sum_re_im (N : ℕ) (hN : 0 < N) (w : ℕ → ℝ) (k : ℕ) :
    ∑ t ∈ range N, (coef N w k t).re = 0 ∧ ∑ t ∈ range N, (coef N w k t).im = 0 := by
  have h := sum_coef N hN w k
  refine ⟨?_, ?_⟩
  · have := congrArg Complex.re h; rwa [Complex.re_sum] at this
  · have := congrArg Complex.im h; rwa [Complex.im_sum] at this

theorem sum_sq_re_im (N : ℕ) (hN : 0 < N) (w : ℕ → ℝ) (k : ℕ) :
    ∑ t ∈ range N, (coef N w k t).re ^ 2 + ∑ t ∈ range N, (coef N w k t).im ^ 2 =
      ∑ t ∈ range N, w t ^ 2 - ‖rfft N w k‖ ^ 2 / N := by
  rw [← sum_coef_sq N hN, ← sum_add_distrib]
  refine sum_congr rfl fun t _ => ?_
  rw [← Complex.normSq_eq_norm_sq, Complex.normSq_apply, sq, sq]

/-- Expected periodogram of one segment of white noise. -/
theorem expected_periodogram [IsProbabilityMeasure P] (N : ℕ) (hN : 0 < N) (w : ℕ → ℝ) (k : ℕ) (X : ℕ → Ω → ℝ)
    (m σ2 : ℝ) (h : White P N X m σ2) :
    Integrable (fun ω => ‖Welch.spec N w (fun t => X t ω - Welch.mean N fun t => X t ω) k‖ ^ 2) P ∧
    ∫ ω, ‖Welch.spec N w (fun t => X t ω - Welch.mean N fun t => X t ω) k‖ ^ 2 ∂P =
      σ2 * (∑ t ∈ range N, w t ^ 2 - ‖rfft N w k‖ ^ 2 / N) := by
  simp only [normSq_spec N hN]
  obtain ⟨h0, h1⟩ := sum_re_im N hN w k
  obtain ⟨a1, b1⟩ := lin_sq N _ X m σ2 h h0
  obtain ⟨a2, b2⟩ := lin_sq N _ X m σ2 h h1
  refine ⟨a1.add a2, ?_⟩
  rw [integral_add a1 a2, b1, b2, ← mul_add, sum_sq_re_im N hN]

theorem gaussian_memLp [IsProbabilityMeasure P] (T : ℕ) (X : ℕ → Ω → ℝ) (m : ℝ) (v : NNReal) (h : GaussianWhite P T X m v) :
    ∀ t < T, MemLp (X t) 2 P := fun t ht => (h.law t ht).hasGaussianLaw.memLp_two

theorem gaussian_white [IsProbabilityMeasure P] (T : ℕ) (X : ℕ → Ω → ℝ) (m : ℝ) (v : NNReal) (h : GaussianWhite P T X m v) :
    White P T X m v where
  memLp := gaussian_memLp T X m v h
  mean t ht := by
    have := (h.law t ht).integral_eq
    rw [integral_id_gaussianReal] at this
    exact this
  cov s hs t ht := by
    split_ifs with hst
    · subst hst
      rw [covariance_self (h.law s hs).aemeasurable, (h.law s hs).variance_eq, variance_id_gaussianReal]
    · exact (h.indep.indepFun (i := ⟨s, hs⟩) (j := ⟨t, ht⟩) (by simpa using hst)).covariance_eq_zero
        (gaussian_memLp T X m v h s hs) (gaussian_memLp T X m v h t ht)

/-- The pair (real part, imaginary part) of the transform of segment `s`. -/
noncomputable def part (N hop : ℕ) (c : ℕ → ℂ) (X : ℕ → Ω → ℝ) (s : ℕ) (j : Fin 2) : Ω → ℝ :=
  lin N (fun t => if j = 0 then (c t).re else (c t).im) (fun t => X (s * hop + t))

/-- The parts of all segments are jointly Gaussian. -/
theorem parts_gaussian [IsProbabilityMeasure P] (T N hop S : ℕ) (X : ℕ → Ω → ℝ) (m : ℝ) (v : NNReal)
    (h : GaussianWhite P T X m v) (hS : ∀ s < S, s * hop + N ≤ T) (c : ℕ → ℂ) :
    HasGaussianLaw (fun ω (s : Fin S) (j : Fin 2) => part N hop c X s j ω) P := by
  have hg : HasGaussianLaw (fun ω (t : Fin T) => X t ω) P :=
    h.indep.hasGaussianLaw (fun t : Fin T => (h.law t t.2).hasGaussianLaw)
  let L : (Fin T → ℝ) →L[ℝ] (Fin S → Fin 2 → ℝ) := ContinuousLinearMap.pi fun s => ContinuousLinearMap.pi fun j =>
    ∑ t ∈ range N, (if j = 0 then (c t).re else (c t).im) •
      (if h : (s : ℕ) * hop + t < T then ContinuousLinearMap.proj (R := ℝ) (φ := fun _ : Fin T => ℝ) ⟨s * hop + t, h⟩ else 0)
  have := hg.map_fun L
  have heq : (fun ω (s : Fin S) (j : Fin 2) => part N hop c X s j ω) = fun ω => L fun t : Fin T => X t ω := by
    funext ω s j
    change lin N _ _ ω = (∑ t ∈ range N, (if j = 0 then (c t).re else (c t).im) •
      (if h : (s : ℕ) * hop + t < T then ContinuousLinearMap.proj (R := ℝ) (φ := fun _ : Fin T => ℝ) ⟨s * hop + t, h⟩ else 0) :
        (Fin T → ℝ) →L[ℝ] ℝ) (fun t : Fin T => X t ω)
    rw [_root_.sum_apply]
    unfold lin
    refine sum_congr rfl fun t ht => ?_
    have hst : (s : ℕ) * hop + t < T := by
      have := hS s s.2
      have := mem_range.1 ht
      omega
    rw [dif_pos hst]
    rfl
  rw [heq]; exact this

/-- The squared moduli of the transforms of disjoint segments of Gaussian white noise are independent
exponential variables. -/
theorem periodograms_exp [IsProbabilityMeasure P] (T N hop S : ℕ) (hhop : N ≤ hop) (X : ℕ → Ω → ℝ) (m : ℝ) (v : NNReal) (hv : v ≠ 0)
    (h : GaussianWhite P T X m v) (hS : ∀ s < S, s * hop + N ≤ T) (c : ℕ → ℂ) (hc : ∑ t ∈ range N, c t = 0)
    (hc2 : ∑ t ∈ range N, c t ^ 2 = 0) (E : ℝ) (hE : ∑ t ∈ range N, ‖c t‖ ^ 2 = E) (hE0 : 0 < E) :
    iIndepFun (fun (s : Fin S) ω => part N hop c X s 0 ω ^ 2 + part N hop c X s 1 ω ^ 2) P ∧
    ∀ s : Fin S, AEMeasurable (fun ω => part N hop c X s 0 ω ^ 2 + part N hop c X s 1 ω ^ 2) P ∧
      P.map (fun ω => part N hop c X s 0 ω ^ 2 + part N hop c X s 1 ω ^ 2) = expMeasure (1 / (v * E)) := by
  have hw := gaussian_white T X m v h
  have hg := parts_gaussian T N hop S X m v h hS c
  have hre : ∑ t ∈ range N, (c t).re = 0 := by have := congrArg Complex.re hc; rwa [Complex.re_sum] at this
  have him : ∑ t ∈ range N, (c t).im = 0 := by have := congrArg Complex.im hc; rwa [Complex.im_sum] at this
  have hcross : ∑ t ∈ range N, (c t).re * (c t).im = 0 := by
    have := congrArg Complex.im hc2
    rw [Complex.im_sum, Complex.zero_im] at this
    have e : ∑ t ∈ range N, ((c t) ^ 2).im = 2 * ∑ t ∈ range N, (c t).re * (c t).im := by
      rw [mul_sum]; exact sum_congr rfl fun t _ => by rw [sq, Complex.mul_im]; ring
    rw [e] at this; linarith
  have hdiff : ∑ t ∈ range N, (c t).re ^ 2 = ∑ t ∈ range N, (c t).im ^ 2 := by
    have := congrArg Complex.re hc2
    rw [Complex.re_sum, Complex.zero_re] at this
    have e : ∑ t ∈ range N, ((c t) ^ 2).re = ∑ t ∈ range N, (c t).re ^ 2 - ∑ t ∈ range N, (c t).im ^ 2 := by
      rw [← sum_sub_distrib]; exact sum_congr rfl fun t _ => by rw [sq, Complex.mul_re]; ring
    rw [e] at this; linarith
  have hsum : ∑ t ∈ range N, (c t).re ^ 2 + ∑ t ∈ range N, (c t).im ^ 2 = E := by
    rw [← hE, ← sum_add_distrib]
    refine sum_congr rfl fun t _ => ?_
    rw [← Complex.normSq_eq_norm_sq, Complex.normSq_apply, sq, sq]
  have hseg : ∀ s : Fin S, White P N (fun t => X (s * hop + t)) m v := fun s =>
    white_shift T N (s * hop) X m v hw (hS s s.2)
  have hind : iIndepFun (fun (s : Fin S) ω (j : Fin 2) => part N hop c X s j ω) P := by
    refine hg.iIndepFun_of_covariance_eval (X := fun (s : Fin S) (j : Fin 2) => part N hop c X s j) ?_
    intro s s' hss j j'
    unfold part
    rw [lin_cov N _ _ _ _ (fun _ _ => 0) (hseg s).memLp (hseg s').memLp]
    · simp
    · intro a ha b hb
      have h1 := hS s s.2
      have h2 := hS s' s'.2
      rw [hw.cov _ (by omega) _ (by omega), if_neg]
      have hne : (s : ℕ) ≠ s' := fun h => hss (Fin.ext h)
      rcases Nat.lt_or_gt_of_ne hne with hlt | hlt
      · have : (s + 1 : ℕ) * hop ≤ s' * hop := Nat.mul_le_mul_right _ hlt
        rw [Nat.add_mul, one_mul] at this
        omega
      · have : (s' + 1 : ℕ) * hop ≤ s * hop := Nat.mul_le_mul_right _ hlt
        rw [Nat.add_mul, one_mul] at this
        omega
  refine ⟨?_, fun s => ?_⟩
  · exact hind.comp (fun _ (z : Fin 2 → ℝ) => z 0 ^ 2 + z 1 ^ 2) (fun _ => by fun_prop)
  · have hgs := (hg.eval s)
    have hgj : ∀ j, HasGaussianLaw (part N hop c X s j) P := fun j => hgs.eval j
    have hpair : HasGaussianLaw (fun ω => (part N hop c X s 0 ω, part N hop c X s 1 ω)) P := hgs.prodMk 0 1
    have hUV : IndepFun (part N hop c X s 0) (part N hop c X s 1) P := by
      refine hpair.indepFun_of_covariance_eq_zero ?_
      unfold part
      rw [lin_cov_white N _ _ _ m v (hseg s)]
      simp [hcross]
    have hlaw : ∀ j, P.map (part N hop c X s j) = gaussianReal 0 (v * (E / 2).toNNReal) := by
      intro j
      rw [(hgj j).map_eq_gaussianReal, ← covariance_self (hgj j).aemeasurable]
      have hmean : ∫ ω, part N hop c X s j ω ∂P = 0 := by
        unfold part
        rw [lin_mean N _ _ m v (hseg s)]
        fin_cases j
        · simp [hre]
        · simp [him]
      have hvar : cov[part N hop c X s j, part N hop c X s j; P] = v * (E / 2) := by
        unfold part
        rw [lin_cov_white N _ _ _ m v (hseg s)]
        fin_cases j
        · simp only [Fin.zero_eta, if_true, ← sq]
          have : ∑ t ∈ range N, (c t).re ^ 2 = E / 2 := by linarith
          rw [this]
        · simp only [Fin.mk_one, Fin.isValue, one_ne_zero, if_false, ← sq]
          have : ∑ t ∈ range N, (c t).im ^ 2 = E / 2 := by linarith
          rw [this]
      rw [hmean, hvar, Real.toNNReal_mul v.coe_nonneg, Real.toNNReal_coe]
    have hm : ∀ j, AEMeasurable (part N hop c X s j) P := fun j => (hgj j).aemeasurable
    refine ⟨((hm 0).pow_const 2).add ((hm 1).pow_const 2), ?_⟩
    rw [Verif.OrderStat.sq_add_sq_exp P _ _ (v * (E / 2).toNNReal) (by
      have : (E / 2).toNNReal ≠ 0 := by rw [Ne, Real.toNNReal_eq_zero]; linarith
      exact mul_ne_zero hv this) (hm 0) (hm 1) (hlaw 0) (hlaw 1) hUV]
    congr 2
    push_cast
    rw [Real.coe_toNNReal _ (by linarith)]
    ring

end Verif.Periodogram
