import Verif.Spec.Spa
import Mathlib.Analysis.SpecialFunctions.Pow.Deriv
import Mathlib.Analysis.SpecialFunctions.Log.Deriv
import Mathlib.Analysis.SpecialFunctions.Log.NegMulLog
import Mathlib.Analysis.Asymptotics.Lemmas
/-!
# Series lemmas for the stationary-phase comparison (C79)
-/
set_option linter.unusedSimpArgs false
set_option linter.unusedVariables false
namespace Verif.Spa
open SpaSpec Filter Topology Asymptotics

/-! ## The velocity -/

theorem velocity_pos (M f : ℝ) (hM : 0 < M) (hf : 0 < f) : 0 < velocity M f :=
  Real.rpow_pos_of_pos (mul_pos (mul_pos Real.pi_pos hM) hf) _

theorem velocity_cube (M f : ℝ) (hM : 0 < M) (hf : 0 < f) : velocity M f ^ 3 = Real.pi * M * f := by
  unfold velocity
  rw [← Real.rpow_natCast, ← Real.rpow_mul (by have := Real.pi_pos; positivity)]
  norm_num

theorem velocity_deriv (M f : ℝ) (hM : 0 < M) (hf : 0 < f) : HasDerivAt (velocity M) (Real.pi * M / 3 / velocity M f ^ 2) f := by
  have hp : 0 < Real.pi * M * f := mul_pos (mul_pos Real.pi_pos hM) hf
  have h1 : HasDerivAt (fun x : ℝ => Real.pi * M * x) (Real.pi * M) f := by
    simpa using (hasDerivAt_id' f).const_mul (Real.pi * M)
  have h2 := h1.rpow_const (p := (1 : ℝ) / 3) (Or.inl hp.ne')
  refine h2.congr_deriv ?_
  have e : (Real.pi * M * f) ^ ((1 : ℝ) / 3 - 1) = 1 / velocity M f ^ 2 := by
    unfold velocity
    rw [← Real.rpow_natCast, ← Real.rpow_mul hp.le, eq_div_iff (Real.rpow_pos_of_pos hp _).ne', ← Real.rpow_add hp]
    norm_num
  rw [e]
  ring

theorem velocity_zpow_deriv (M f : ℝ) (hM : 0 < M) (hf : 0 < f) (p : ℤ) :
    HasDerivAt (fun x => velocity M x ^ p) (Real.pi * M / 3 * (p * velocity M f ^ (p - 3))) f := by
  have hv := velocity_pos M f hM hf
  refine ((hasDerivAt_zpow p (velocity M f) (Or.inl hv.ne')).comp f (velocity_deriv M f hM hf)).congr_deriv ?_
  rw [show p - 3 = (p - 1) + (-2) by ring, zpow_add₀ hv.ne']
  rw [show velocity M f ^ (-2 : ℤ) = 1 / velocity M f ^ 2 by rw [zpow_neg, one_div]; norm_cast]
  ring

theorem velocity_log_deriv (M f : ℝ) (hM : 0 < M) (hf : 0 < f) :
    HasDerivAt (fun x => Real.log (velocity M x)) (Real.pi * M / 3 * velocity M f ^ (-3 : ℤ)) f := by
  have hv := velocity_pos M f hM hf
  refine ((velocity_deriv M f hM hf).log hv.ne').congr_deriv ?_
  rw [zpow_neg]
  norm_cast
  field_simp

/-- The velocity goes to zero with the frequency. -/
theorem velocity_tendsto (M : ℝ) (hM : 0 < M) : Tendsto (velocity M) (𝓝[>] 0) (𝓝[>] 0) := by
  refine tendsto_nhdsWithin_iff.mpr ⟨?_, ?_⟩
  · have hc : ContinuousAt (velocity M) 0 := by
      unfold velocity
      exact (continuousAt_const.mul continuousAt_id).rpow_const (Or.inr (by norm_num))
    have h0 : velocity M 0 = 0 := by unfold velocity; rw [mul_zero, Real.zero_rpow (by norm_num)]
    have := hc.tendsto
    rw [h0] at this
    exact this.mono_left nhdsWithin_le_nhds
  · filter_upwards [self_mem_nhdsWithin] with f hf
    exact velocity_pos M f hM hf

/-- `v` and `v log v` go to zero together. -/
theorem pair_tendsto : Tendsto (fun v : ℝ => (v, v * Real.log v)) (𝓝[>] 0) (𝓝 (0, 0)) := by
  rw [nhds_prod_eq]
  refine Tendsto.prodMk (tendsto_id.mono_right nhdsWithin_le_nhds) ?_
  have := Real.continuous_mul_log.tendsto 0
  simp only [zero_mul] at this
  exact this.mono_left nhdsWithin_le_nhds

/-! ## A post-Newtonian phase and its second derivative -/

/-- A phase series in powers of the velocity, with the two logarithmic terms. -/
noncomputable def series (b : ℤ → ℝ) (l0 l1 v : ℝ) : ℝ :=
  b (-5) * v ^ (-5 : ℤ) + b (-3) * v ^ (-3 : ℤ) + b (-2) * v ^ (-2 : ℤ) + b (-1) * v ^ (-1 : ℤ) + b 0 + b 1 * v ^ (1 : ℤ) + b 2 * v ^ (2 : ℤ) + b 3 * v ^ (3 : ℤ)
    + b 4 * v ^ (4 : ℤ) + b 5 * v ^ (5 : ℤ) + b 6 * v ^ (6 : ℤ) + l0 * Real.log v + l1 * (v ^ (1 : ℤ) * Real.log v)

theorem series_deriv (b : ℤ → ℝ) (l0 l1 M f : ℝ) (hM : 0 < M) (hf : 0 < f) :
    HasDerivAt (fun x => series b l0 l1 (velocity M x)) (Real.pi * M / 3 *
      (-5 * b (-5) * velocity M f ^ (-8 : ℤ) - 3 * b (-3) * velocity M f ^ (-6 : ℤ) - 2 * b (-2) * velocity M f ^ (-5 : ℤ) - b (-1) * velocity M f ^ (-4 : ℤ)
        + (b 1 + l1) * velocity M f ^ (-2 : ℤ) + 2 * b 2 * velocity M f ^ (-1 : ℤ) + 3 * b 3 + 4 * b 4 * velocity M f ^ (1 : ℤ) + 5 * b 5 * velocity M f ^ (2 : ℤ)
        + 6 * b 6 * velocity M f ^ (3 : ℤ) + l0 * velocity M f ^ (-3 : ℤ) + l1 * (velocity M f ^ (-2 : ℤ) * Real.log (velocity M f)))) f := by
  have hv := velocity_pos M f hM hf
  have d := fun p => velocity_zpow_deriv M f hM hf p
  have dl := velocity_log_deriv M f hM hf
  unfold series
  have := ((((((((((((((d (-5)).const_mul (b (-5))).add ((d (-3)).const_mul (b (-3)))).add ((d (-2)).const_mul (b (-2)))).add ((d (-1)).const_mul (b (-1)))).add_const (b 0)).add
    ((d 1).const_mul (b 1))).add ((d 2).const_mul (b 2))).add ((d 3).const_mul (b 3))).add ((d 4).const_mul (b 4))).add ((d 5).const_mul (b 5))).add ((d 6).const_mul (b 6))).add
    (dl.const_mul l0)).add (((d 1).mul dl).const_mul l1))
  refine this.congr_deriv ?_
  norm_num
  generalize Real.log (velocity M f) = L
  generalize velocity M f = v at *
  field_simp
  ring

theorem series_deriv2 (b : ℤ → ℝ) (l0 l1 M f : ℝ) (hM : 0 < M) (hf : 0 < f) :
    HasDerivAt (fun f => Real.pi * M / 3 *
      (-5 * b (-5) * velocity M f ^ (-8 : ℤ) - 3 * b (-3) * velocity M f ^ (-6 : ℤ) - 2 * b (-2) * velocity M f ^ (-5 : ℤ) - b (-1) * velocity M f ^ (-4 : ℤ)
        + (b 1 + l1) * velocity M f ^ (-2 : ℤ) + 2 * b 2 * velocity M f ^ (-1 : ℤ) + 3 * b 3 + 4 * b 4 * velocity M f ^ (1 : ℤ) + 5 * b 5 * velocity M f ^ (2 : ℤ)
        + 6 * b 6 * velocity M f ^ (3 : ℤ) + l0 * velocity M f ^ (-3 : ℤ) + l1 * (velocity M f ^ (-2 : ℤ) * Real.log (velocity M f))))
      ((Real.pi * M / 3) ^ 2 / velocity M f ^ 11 * (40 * b (-5) + 18 * b (-3) * velocity M f ^ 2 + 10 * b (-2) * velocity M f ^ 3 + 4 * b (-1) * velocity M f ^ 4
        - 3 * l0 * velocity M f ^ 5 - (2 * b 1 + l1 + 2 * l1 * Real.log (velocity M f)) * velocity M f ^ 6 - 2 * b 2 * velocity M f ^ 7 + 4 * b 4 * velocity M f ^ 9
        + 10 * b 5 * velocity M f ^ 10 + 18 * b 6 * velocity M f ^ 11)) f := by
  have hv := velocity_pos M f hM hf
  have d := fun p => velocity_zpow_deriv M f hM hf p
  have dl := velocity_log_deriv M f hM hf
  have := (((((((((((((d (-8)).const_mul (-5 * b (-5))).sub ((d (-6)).const_mul (3 * b (-3)))).sub ((d (-5)).const_mul (2 * b (-2)))).sub ((d (-4)).const_mul (b (-1)))).add
    ((d (-2)).const_mul (b 1 + l1))).add ((d (-1)).const_mul (2 * b 2))).add_const (3 * b 3)).add ((d 1).const_mul (4 * b 4))).add ((d 2).const_mul (5 * b 5))).add
    ((d 3).const_mul (6 * b 6))).add ((d (-3)).const_mul l0)).add (((d (-2)).mul dl).const_mul l1)).const_mul (Real.pi * M / 3)
  refine this.congr_deriv ?_
  generalize Real.log (velocity M f) = L
  generalize velocity M f = v at *
  norm_num
  field_simp
  ring

/-! ## Comparing a squared amplitude with a squared mode times a density -/


/-- A series through sixth order in `v` without linear term; `u` stands for `v log v`. -/
noncomputable def trunc (a2 a3 a4 a5 a6 al r v u : ℝ) : ℝ := 1 + a2 * v ^ 2 + a3 * v ^ 3 + a4 * v ^ 4 + a5 * v ^ 5 + a6 * v ^ 6 + al * u * v ^ 5 + r * v ^ 7

/-- What a product of two such series leaves at seventh order. -/
noncomputable def mulRem (g2 g3 g4 g5 g6 gl rg c2 c3 c4 c5 c6 cl rc v u : ℝ) : ℝ :=
  (rc + c5 * g2 + cl * g2 * u + c4 * g3 + c3 * g4 + c2 * g5 + c2 * gl * u + rg)
    + v ^ 1 * (c6 * g2 + c5 * g3 + cl * g3 * u + c4 * g4 + c3 * g5 + c2 * g6 + c3 * gl * u)
    + v ^ 2 * (g2 * rc + c6 * g3 + c5 * g4 + cl * g4 * u + c4 * g5 + c3 * g6 + c4 * gl * u + c2 * rg)
    + v ^ 3 * (g3 * rc + c6 * g4 + c5 * g5 + cl * g5 * u + c4 * g6 + c5 * gl * u + cl * gl * u ^ 2 + c3 * rg)
    + v ^ 4 * (g4 * rc + c6 * g5 + c5 * g6 + cl * g6 * u + c6 * gl * u + c4 * rg)
    + v ^ 5 * (g5 * rc + c6 * g6 + gl * rc * u + c5 * rg + cl * rg * u)
    + v ^ 6 * (g6 * rc + c6 * rg)
    + v ^ 7 * (rc * rg)

theorem trunc_mul (g2 g3 g4 g5 g6 gl rg c2 c3 c4 c5 c6 cl rc v u : ℝ) :
    trunc g2 g3 g4 g5 g6 gl rg v u * trunc c2 c3 c4 c5 c6 cl rc v u =
      trunc (g2 + c2) (g3 + c3) (g4 + g2 * c2 + c4) (g5 + g2 * c3 + g3 * c2 + c5) (g6 + g2 * c4 + g3 * c3 + g4 * c2 + c6) (gl + cl)
        (mulRem g2 g3 g4 g5 g6 gl rg c2 c3 c4 c5 c6 cl rc v u) v u := by
  unfold trunc mulRem
  ring

theorem mulRem_continuous (g2 g3 g4 g5 g6 gl c2 c3 c4 c5 c6 cl : ℝ) (rg rc : ℝ × ℝ → ℝ) (hg : Continuous rg) (hc : Continuous rc) :
    Continuous fun p : ℝ × ℝ => mulRem g2 g3 g4 g5 g6 gl (rg p) c2 c3 c4 c5 c6 cl (rc p) p.1 p.2 := by
  unfold mulRem
  fun_prop

theorem trunc_continuous (a2 a3 a4 a5 a6 al : ℝ) (r : ℝ × ℝ → ℝ) (hr : Continuous r) :
    Continuous fun p : ℝ × ℝ => trunc a2 a3 a4 a5 a6 al (r p) p.1 p.2 := by
  unfold trunc
  fun_prop

/-- Two series agreeing through fifth order, and at sixth order up to `k`: their quotient is `1 + k v⁶` up to seventh order. -/
theorem quotient (a2 a3 a4 a5 a6 al b6 k : ℝ) (ra rb : ℝ × ℝ → ℝ) (ha : Continuous ra) (hb : Continuous rb) (h6 : a6 = b6 + k) (N D : ℝ → ℝ)
    (hN : ∀ᶠ v in 𝓝[>] (0 : ℝ), N v = trunc a2 a3 a4 a5 a6 al (ra (v, v * Real.log v)) v (v * Real.log v))
    (hD : ∀ᶠ v in 𝓝[>] (0 : ℝ), D v = trunc a2 a3 a4 a5 b6 al (rb (v, v * Real.log v)) v (v * Real.log v)) :
    (fun v => N v / D v - 1 - k * v ^ 6) =O[𝓝[>] 0] fun v => v ^ 7 := by
  have hD1 : Tendsto D (𝓝[>] 0) (𝓝 1) := by
    have h := ((trunc_continuous a2 a3 a4 a5 b6 al rb hb).tendsto (0, 0)).comp pair_tendsto
    simp only [trunc, mul_zero, add_zero, ne_eq, OfNat.ofNat_ne_zero, not_false_eq_true, zero_pow] at h
    refine h.congr' ?_
    filter_upwards [hD] with v hv
    rw [hv]; rfl
  have hG : Tendsto (fun v : ℝ => (ra (v, v * Real.log v) - rb (v, v * Real.log v) - k * (a2 * v + a3 * v ^ 2 + a4 * v ^ 3 + a5 * v ^ 4 + b6 * v ^ 5 + al * (v * Real.log v) * v ^ 4
      + rb (v, v * Real.log v) * v ^ 6)) / D v) (𝓝[>] 0) (𝓝 ((ra (0, 0) - rb (0, 0)) / 1)) := by
    refine Tendsto.div ?_ hD1 one_ne_zero
    have hc : Continuous fun p : ℝ × ℝ => ra p - rb p - k * (a2 * p.1 + a3 * p.1 ^ 2 + a4 * p.1 ^ 3 + a5 * p.1 ^ 4 + b6 * p.1 ^ 5 + al * p.2 * p.1 ^ 4 + rb p * p.1 ^ 6) := by fun_prop
    have := (hc.tendsto (0, 0)).comp pair_tendsto
    simpa [Function.comp_def] using this
  have hO := (hG.isBigO_one ℝ).mul (isBigO_refl (fun v : ℝ => v ^ 7) (𝓝[>] 0))
  refine (hO.congr' ?_ (by filter_upwards with v; simp)).trans (isBigO_refl _ _)
  filter_upwards [hN, hD, hD1.eventually_ne one_ne_zero] with v h1 h2 h3
  rw [h1]
  field_simp
  rw [h2]
  unfold trunc
  rw [h6]
  ring

/-! ## The second derivative of a phase, the mode, and the Newtonian amplitude -/

/-- The second derivative of a phase that is such a series plus a phase and a time shift. -/
theorem phase_deriv2 (b : ℤ → ℝ) (l0 l1 M α β f0 : ℝ) (hM : 0 < M) (h0 : 0 < f0) (ψ : ℝ → ℝ)
    (hψ : ∀ f, 0 < f → f < f0 → ψ f = series b l0 l1 (velocity M f) + α + β * f) (f : ℝ) (hf : 0 < f) (hf0 : f < f0) :
    deriv (deriv ψ) f = (Real.pi * M / 3) ^ 2 / velocity M f ^ 11 * (40 * b (-5) + 18 * b (-3) * velocity M f ^ 2 + 10 * b (-2) * velocity M f ^ 3
      + 4 * b (-1) * velocity M f ^ 4 - 3 * l0 * velocity M f ^ 5 - (2 * b 1 + l1 + 2 * l1 * Real.log (velocity M f)) * velocity M f ^ 6 - 2 * b 2 * velocity M f ^ 7
      + 4 * b 4 * velocity M f ^ 9 + 10 * b 5 * velocity M f ^ 10 + 18 * b 6 * velocity M f ^ 11) := by
  have near : ∀ x, 0 < x → x < f0 → ∀ᶠ y in 𝓝 x, 0 < y ∧ y < f0 := fun x h1 h2 => (isOpen_Ioo (a := (0 : ℝ)) (b := f0)).mem_nhds ⟨h1, h2⟩
  have d1 : ∀ x, 0 < x → x < f0 → deriv ψ x = Real.pi * M / 3 *
      (-5 * b (-5) * velocity M x ^ (-8 : ℤ) - 3 * b (-3) * velocity M x ^ (-6 : ℤ) - 2 * b (-2) * velocity M x ^ (-5 : ℤ) - b (-1) * velocity M x ^ (-4 : ℤ)
        + (b 1 + l1) * velocity M x ^ (-2 : ℤ) + 2 * b 2 * velocity M x ^ (-1 : ℤ) + 3 * b 3 + 4 * b 4 * velocity M x ^ (1 : ℤ) + 5 * b 5 * velocity M x ^ (2 : ℤ)
        + 6 * b 6 * velocity M x ^ (3 : ℤ) + l0 * velocity M x ^ (-3 : ℤ) + l1 * (velocity M x ^ (-2 : ℤ) * Real.log (velocity M x))) + β := by
    intro x hx hx0
    have h := ((series_deriv b l0 l1 M x hM hx).add_const α).add ((hasDerivAt_id' x).const_mul β)
    rw [mul_one] at h
    refine (h.congr_of_eventuallyEq ?_).deriv
    filter_upwards [near x hx hx0] with y hy
    exact hψ y hy.1 hy.2
  have h := (series_deriv2 b l0 l1 M f hM hf).add_const β
  refine (h.congr_of_eventuallyEq ?_).deriv
  filter_upwards [near f hf hf0] with y hy
  exact d1 y hy.1 hy.2

/-- The squared modulus of the mode as a series. -/
theorem mode_norm (η δ s a : ℝ) :
    ∃ r : ℝ × ℝ → ℝ, Continuous r ∧ ∀ v, 0 < v → ‖mode22 η δ s a v‖ ^ 2 =
      let h2 := -107 / 42 + 55 / 42 * η
      let h3 := 2 * Real.pi - 4 / 3 * (δ * a + (1 - η) * s)
      let h4 := -2173 / 1512 - 1069 / 216 * η + 2047 / 1512 * η ^ 2 + 2 * η * (s ^ 2 - a ^ 2)
      let h5 := -107 / 21 * Real.pi + 34 / 21 * Real.pi * η
      let h6 := 27027409 / 646800 - 856 / 105 * PNSpec.gammaE + 2 / 3 * Real.pi ^ 2 - 856 / 105 * Real.log 4 + (-278185 / 33264 + 41 / 96 * Real.pi ^ 2) * η
        - 20261 / 2772 * η ^ 2 + 114635 / 99792 * η ^ 3
      trunc (h2 + h2) (h3 + h3) (h4 + h2 * h2 + h4) (h5 + h2 * h3 + h3 * h2 + h5) (h6 + h2 * h4 + h3 * h3 + h4 * h2 + h6) (-856 / 105 + -856 / 105) (r (v, v * Real.log v)) v
        (v * Real.log v) := by
  refine ⟨fun p => mulRem (-107 / 42 + 55 / 42 * η) (2 * Real.pi - 4 / 3 * (δ * a + (1 - η) * s))
    (-2173 / 1512 - 1069 / 216 * η + 2047 / 1512 * η ^ 2 + 2 * η * (s ^ 2 - a ^ 2)) (-107 / 21 * Real.pi + 34 / 21 * Real.pi * η)
    (27027409 / 646800 - 856 / 105 * PNSpec.gammaE + 2 / 3 * Real.pi ^ 2 - 856 / 105 * Real.log 4 + (-278185 / 33264 + 41 / 96 * Real.pi ^ 2) * η
        - 20261 / 2772 * η ^ 2 + 114635 / 99792 * η ^ 3) (-856 / 105) 0
    (-107 / 42 + 55 / 42 * η) (2 * Real.pi - 4 / 3 * (δ * a + (1 - η) * s))
    (-2173 / 1512 - 1069 / 216 * η + 2047 / 1512 * η ^ 2 + 2 * η * (s ^ 2 - a ^ 2)) (-107 / 21 * Real.pi + 34 / 21 * Real.pi * η)
    (27027409 / 646800 - 856 / 105 * PNSpec.gammaE + 2 / 3 * Real.pi ^ 2 - 856 / 105 * Real.log 4 + (-278185 / 33264 + 41 / 96 * Real.pi ^ 2) * η
        - 20261 / 2772 * η ^ 2 + 114635 / 99792 * η ^ 3) (-856 / 105) 0 p.1 p.2 + p.1 ^ 3 * (-24 * η + 428 / 105 * Real.pi * p.1) ^ 2, ?_, fun v hv => ?_⟩
  · exact (mulRem_continuous _ _ _ _ _ _ _ _ _ _ _ _ (fun _ => 0) (fun _ => 0) continuous_const continuous_const).add (by fun_prop)
  · dsimp only
    have hl : Real.log (16 * v ^ 2) = 2 * Real.log 4 + 2 * Real.log v := by
      rw [show (16 : ℝ) * v ^ 2 = (4 * v) ^ 2 by ring, Real.log_pow, Real.log_mul (by norm_num) hv.ne']
      push_cast; ring
    have hre : (mode22 η δ s a v).re = trunc (-107 / 42 + 55 / 42 * η) (2 * Real.pi - 4 / 3 * (δ * a + (1 - η) * s))
        (-2173 / 1512 - 1069 / 216 * η + 2047 / 1512 * η ^ 2 + 2 * η * (s ^ 2 - a ^ 2)) (-107 / 21 * Real.pi + 34 / 21 * Real.pi * η)
        (27027409 / 646800 - 856 / 105 * PNSpec.gammaE + 2 / 3 * Real.pi ^ 2 - 856 / 105 * Real.log 4 + (-278185 / 33264 + 41 / 96 * Real.pi ^ 2) * η
          - 20261 / 2772 * η ^ 2 + 114635 / 99792 * η ^ 3) (-856 / 105) 0 v (v * Real.log v) := by
      unfold mode22 trunc
      rw [hl]
      simp only [Complex.add_re, Complex.sub_re, Complex.mul_re, Complex.mul_im, Complex.ofReal_re, Complex.ofReal_im, Complex.one_re, Complex.I_re, Complex.I_im, Complex.sub_im, Complex.add_im,
        ← Complex.ofReal_pow, ← Complex.ofReal_ofNat]
      ring
    have him : (mode22 η δ s a v).im = -24 * η * v ^ 5 + 428 / 105 * Real.pi * v ^ 6 := by
      unfold mode22
      simp only [Complex.add_re, Complex.sub_re, Complex.mul_re, Complex.mul_im, Complex.ofReal_re, Complex.ofReal_im, Complex.one_re, Complex.one_im, Complex.I_re, Complex.I_im, Complex.sub_im,
        Complex.add_im, ← Complex.ofReal_pow, ← Complex.ofReal_ofNat]
      ring
    rw [Complex.sq_norm, Complex.normSq_apply, hre, him, trunc_mul]
    unfold trunc
    ring

/-- The Newtonian amplitude in terms of the velocity. -/
theorem newton_power (mc M η D f : ℝ) (hm : 0 < mc) (hM : 0 < M) (hη : (mc / M) ^ ((5 : ℝ) / 3) = η) (hD : 0 < D) (hf : 0 < f) :
    PNSpec.amplitude mc D f ^ 2 = (4 * η * M * velocity M f ^ 2 / D / 2) ^ 2 * ((Real.pi * M / 3) ^ 2 / velocity M f ^ 11 * (40 * (3 / (128 * η)))) / (2 * Real.pi) := by
  have hpi := Real.pi_pos
  have hv := velocity_pos M f hM hf
  have hη0 : 0 < η := by rw [← hη]; exact Real.rpow_pos_of_pos (div_pos hm hM) _
  have v7 : velocity M f ^ 7 = Real.pi ^ ((7 : ℝ) / 3) * M ^ ((7 : ℝ) / 3) * f ^ ((7 : ℝ) / 3) := by
    unfold velocity
    rw [← Real.rpow_natCast, ← Real.rpow_mul (by positivity), Real.mul_rpow (by positivity) hf.le, Real.mul_rpow hpi.le hM.le]
    norm_num
  have s1 : Real.sqrt (5 / 24) ^ 2 = 5 / 24 := Real.sq_sqrt (by norm_num)
  have s2 : (Real.pi ^ (-(2 / 3) : ℝ)) ^ 2 * Real.pi ^ ((7 : ℝ) / 3) = Real.pi := by
    rw [← Real.rpow_natCast, ← Real.rpow_mul hpi.le, ← Real.rpow_add hpi]; norm_num
  have s3 : (f ^ (-(7 / 6) : ℝ)) ^ 2 * f ^ ((7 : ℝ) / 3) = 1 := by
    rw [← Real.rpow_natCast, ← Real.rpow_mul hf.le, ← Real.rpow_add hf]; norm_num
  have s4 : (mc ^ (5 / 6 : ℝ)) ^ 2 * M ^ ((7 : ℝ) / 3) = η * M ^ 4 := by
    have t1 : (mc ^ (5 / 6 : ℝ)) ^ 2 = mc ^ ((5 : ℝ) / 3) := by
      rw [← Real.rpow_natCast, ← Real.rpow_mul hm.le]; norm_num
    have t2 : M ^ ((7 : ℝ) / 3) * M ^ ((5 : ℝ) / 3) = M ^ 4 := by
      rw [← Real.rpow_add hM, ← Real.rpow_natCast M 4]; norm_num
    have t3 : 0 < M ^ ((5 : ℝ) / 3) := Real.rpow_pos_of_pos hM _
    rw [← hη, Real.div_rpow hm.le hM.le, t1, ← t2]
    field_simp
  have key : PNSpec.amplitude mc D f ^ 2 * velocity M f ^ 7 = 5 / 24 * Real.pi * η * M ^ 4 / D ^ 2 := by
    rw [v7]
    unfold PNSpec.amplitude
    rw [div_pow, mul_pow, mul_pow, mul_pow, s1]
    calc _ = 5 / 24 * ((Real.pi ^ (-(2 / 3) : ℝ)) ^ 2 * Real.pi ^ ((7 : ℝ) / 3)) * ((mc ^ (5 / 6 : ℝ)) ^ 2 * M ^ ((7 : ℝ) / 3)) * ((f ^ (-(7 / 6) : ℝ)) ^ 2 * f ^ ((7 : ℝ) / 3)) / D ^ 2 := by ring
      _ = _ := by rw [s2, s3, s4]; ring
  have e : PNSpec.amplitude mc D f ^ 2 = 5 / 24 * Real.pi * η * M ^ 4 / D ^ 2 / velocity M f ^ 7 := by
    rw [eq_div_iff (by positivity)]; exact key
  rw [e]
  generalize velocity M f = v at *
  field_simp
  norm_num

/-- The remainder of the phase's second derivative. -/
noncomputable def phaseRem (η : ℝ) (b : ℤ → ℝ) (p : ℝ × ℝ) : ℝ := (-2 * b 2 + 4 * b 4 * p.1 ^ 2 + 10 * b 5 * p.1 ^ 3 + 18 * b 6 * p.1 ^ 4) / (40 * (3 / (128 * η)))

theorem phaseRem_continuous (η : ℝ) (b : ℤ → ℝ) : Continuous (phaseRem η b) := by unfold phaseRem; fun_prop

/-- The squared modulus over the stationary-phase power: the common Newtonian factor drops out. -/
theorem spa_eq (mc M η D : ℝ) (hm : 0 < mc) (hM : 0 < M) (hη : (mc / M) ^ ((5 : ℝ) / 3) = η) (hD : 0 < D)
    (b : ℤ → ℝ) (l0 l1 α β f0 : ℝ) (h0 : 0 < f0) (N A T ψ modeSq : ℝ → ℝ)
    (hN : ∀ f, 0 < f → f < f0 → N f ^ 2 = PNSpec.amplitude mc D f ^ 2 * T f ^ 2)
    (hA : ∀ f, 0 < f → A f ^ 2 = (4 * η * M * velocity M f ^ 2 / D) ^ 2 * modeSq (velocity M f))
    (hψ : ∀ f, 0 < f → f < f0 → ψ f = series b l0 l1 (velocity M f) + α + β * f)
    (b5 : b (-5) = 3 / (128 * η))
    (c2 c3 c4 c5 c6 cl : ℝ) (b3 : 18 * b (-3) = 3 / (128 * η) * (40 * c2)) (b2 : 10 * b (-2) = 3 / (128 * η) * (40 * c3)) (b1 : 4 * b (-1) = 3 / (128 * η) * (40 * c4))
    (e0 : -3 * l0 = 3 / (128 * η) * (40 * c5)) (bb1 : -(2 * b 1 + l1) = 3 / (128 * η) * (40 * c6)) (e1 : -2 * l1 = 3 / (128 * η) * (40 * cl))
    (f : ℝ) (hf : 0 < f) (hf0 : f < f0) :
    N f ^ 2 / power A ψ f = T f ^ 2 / (modeSq (velocity M f) *
      trunc c2 c3 c4 c5 c6 cl (phaseRem η b (velocity M f, velocity M f * Real.log (velocity M f))) (velocity M f) (velocity M f * Real.log (velocity M f))) := by
  have hη0 : 0 < η := by rw [← hη]; exact Real.rpow_pos_of_pos (div_pos hm hM) _
  have hpi := Real.pi_pos
  rw [hN f hf hf0]
  unfold power
  rw [phase_deriv2 b l0 l1 M α β f0 hM h0 ψ hψ f hf hf0, div_pow, hA f hf, newton_power mc M η D f hm hM hη hD hf]
  have hv := velocity_pos M f hM hf
  have hC : 40 * b (-5) + 18 * b (-3) * velocity M f ^ 2 + 10 * b (-2) * velocity M f ^ 3 + 4 * b (-1) * velocity M f ^ 4
      - 3 * l0 * velocity M f ^ 5 - (2 * b 1 + l1 + 2 * l1 * Real.log (velocity M f)) * velocity M f ^ 6 - 2 * b 2 * velocity M f ^ 7
      + 4 * b 4 * velocity M f ^ 9 + 10 * b 5 * velocity M f ^ 10 + 18 * b 6 * velocity M f ^ 11 =
      40 * (3 / (128 * η)) * trunc c2 c3 c4 c5 c6 cl (phaseRem η b (velocity M f, velocity M f * Real.log (velocity M f))) (velocity M f) (velocity M f * Real.log (velocity M f)) := by
    have hr : 40 * (3 / (128 * η)) * phaseRem η b (velocity M f, velocity M f * Real.log (velocity M f)) =
        -2 * b 2 + 4 * b 4 * velocity M f ^ 2 + 10 * b 5 * velocity M f ^ 3 + 18 * b 6 * velocity M f ^ 4 := by
      unfold phaseRem; field_simp
    unfold trunc
    generalize phaseRem η b (velocity M f, velocity M f * Real.log (velocity M f)) = R at *
    generalize Real.log (velocity M f) = L at *
    generalize velocity M f = v at *
    generalize 3 / (128 * η) = K at *
    linear_combination 40 * b5 + v ^ 2 * b3 + v ^ 3 * b2 + v ^ 4 * b1 + v ^ 5 * e0 + v ^ 6 * bb1 + v ^ 6 * L * e1 - v ^ 7 * hr
  rw [hC]
  generalize T f = T at *
  generalize trunc c2 c3 c4 c5 c6 cl (phaseRem η b (velocity M f, velocity M f * Real.log (velocity M f))) (velocity M f) (velocity M f * Real.log (velocity M f)) = C
  generalize modeSq (velocity M f) = m
  generalize velocity M f = v at *
  have hK : 0 < (4 * η * M * v ^ 2 / D / 2) ^ 2 * ((Real.pi * M / 3) ^ 2 / v ^ 11 * (40 * (3 / (128 * η)))) / (2 * Real.pi) := by positivity
  have e : (4 * η * M * v ^ 2 / D) ^ 2 * m / 2 ^ 2 * ((Real.pi * M / 3) ^ 2 / v ^ 11 * (40 * (3 / (128 * η)) * C)) / (2 * Real.pi) =
      (4 * η * M * v ^ 2 / D / 2) ^ 2 * ((Real.pi * M / 3) ^ 2 / v ^ 11 * (40 * (3 / (128 * η)))) / (2 * Real.pi) * (m * C) := by ring
  rw [e, mul_div_mul_left _ _ hK.ne']

/-- A strain whose modulus is the Newtonian amplitude times a series, whose phase is a series, compared with the stationary-phase power of a mode given as a series. -/
theorem spa_core (mc M η D : ℝ) (hm : 0 < mc) (hM : 0 < M) (hη : (mc / M) ^ ((5 : ℝ) / 3) = η) (hD : 0 < D)
    (a2 a3 a4 a5 a6 : ℝ) (ra : ℝ × ℝ → ℝ) (hra : Continuous ra) (g2 g3 g4 g5 g6 gl : ℝ) (rg : ℝ × ℝ → ℝ) (hrg : Continuous rg)
    (b : ℤ → ℝ) (l0 l1 α β f0 k : ℝ) (h0 : 0 < f0) (N A ψ modeSq : ℝ → ℝ)
    (hN : ∀ f, 0 < f → f < f0 → N f ^ 2 = PNSpec.amplitude mc D f ^ 2 *
      trunc a2 a3 a4 a5 a6 0 (ra (velocity M f, velocity M f * Real.log (velocity M f))) (velocity M f) (velocity M f * Real.log (velocity M f)) ^ 2)
    (hmode : ∀ v, 0 < v → modeSq v = trunc g2 g3 g4 g5 g6 gl (rg (v, v * Real.log v)) v (v * Real.log v))
    (hA : ∀ f, 0 < f → A f ^ 2 = (4 * η * M * velocity M f ^ 2 / D) ^ 2 * modeSq (velocity M f))
    (hψ : ∀ f, 0 < f → f < f0 → ψ f = series b l0 l1 (velocity M f) + α + β * f)
    (b5 : b (-5) = 3 / (128 * η))
    (c2 c3 c4 c5 c6 cl : ℝ) (b3 : 18 * b (-3) = 3 / (128 * η) * (40 * c2)) (b2 : 10 * b (-2) = 3 / (128 * η) * (40 * c3)) (b1 : 4 * b (-1) = 3 / (128 * η) * (40 * c4))
    (e0 : -3 * l0 = 3 / (128 * η) * (40 * c5)) (bb1 : -(2 * b 1 + l1) = 3 / (128 * η) * (40 * c6)) (e1 : -2 * l1 = 3 / (128 * η) * (40 * cl))
    (m2 : a2 + a2 = g2 + c2) (m3 : a3 + a3 = g3 + c3) (m4 : a4 + a2 * a2 + a4 = g4 + g2 * c2 + c4)
    (m5 : a5 + a2 * a3 + a3 * a2 + a5 = g5 + g2 * c3 + g3 * c2 + c5)
    (m6 : a6 + a2 * a4 + a3 * a3 + a4 * a2 + a6 = g6 + g2 * c4 + g3 * c3 + g4 * c2 + c6 + k) (ml : gl + cl = 0) :
    (fun f => N f ^ 2 / power A ψ f - 1 - k * velocity M f ^ 6) =O[𝓝[>] 0] fun f => velocity M f ^ 7 := by
  have hη0 : 0 < η := by rw [← hη]; exact Real.rpow_pos_of_pos (div_pos hm hM) _
  have hpi := Real.pi_pos
  let rc : ℝ × ℝ → ℝ := phaseRem η b
  have hrc : Continuous rc := phaseRem_continuous η b
  let rn : ℝ × ℝ → ℝ := fun p => mulRem a2 a3 a4 a5 a6 0 (ra p) a2 a3 a4 a5 a6 0 (ra p) p.1 p.2
  let rd : ℝ × ℝ → ℝ := fun p => mulRem g2 g3 g4 g5 g6 gl (rg p) c2 c3 c4 c5 c6 cl (rc p) p.1 p.2
  have hq := quotient (a2 + a2) (a3 + a3) (a4 + a2 * a2 + a4) (a5 + a2 * a3 + a3 * a2 + a5) (a6 + a2 * a4 + a3 * a3 + a4 * a2 + a6) 0
    (g6 + g2 * c4 + g3 * c3 + g4 * c2 + c6) k rn rd (mulRem_continuous _ _ _ _ _ _ _ _ _ _ _ _ ra ra hra hra) (mulRem_continuous _ _ _ _ _ _ _ _ _ _ _ _ rg rc hrg hrc) m6
    (fun v => trunc a2 a3 a4 a5 a6 0 (ra (v, v * Real.log v)) v (v * Real.log v) ^ 2)
    (fun v => modeSq v * trunc c2 c3 c4 c5 c6 cl (rc (v, v * Real.log v)) v (v * Real.log v))
    (by
      filter_upwards with v
      rw [sq, trunc_mul, add_zero])
    (by
      filter_upwards [self_mem_nhdsWithin] with v hv
      rw [hmode v hv, trunc_mul, ← m2, ← m3, ← m4, ← m5, ml])
  refine (hq.comp_tendsto (velocity_tendsto M hM)).congr' ?_ EventuallyEq.rfl
  have hnear : ∀ᶠ f in 𝓝[>] (0 : ℝ), 0 < f ∧ f < f0 := by
    filter_upwards [Ioo_mem_nhdsGT h0] with f hf using hf
  filter_upwards [hnear] with f ⟨hf, hf0⟩
  simp only [Function.comp]
  congr 2
  exact (spa_eq mc M η D hm hM hη hD b l0 l1 α β f0 h0 N A _ ψ modeSq hN hA hψ b5 c2 c3 c4 c5 c6 cl b3 b2 b1 e0 bb1 e1 f hf hf0).symm

/-- The same comparison at leading order, for a strain with the Newtonian amplitude. -/
theorem spa_leading (mc M η D : ℝ) (hm : 0 < mc) (hM : 0 < M) (hη : (mc / M) ^ ((5 : ℝ) / 3) = η) (hD : 0 < D)
    (g2 g3 g4 g5 g6 gl : ℝ) (rg : ℝ × ℝ → ℝ) (hrg : Continuous rg) (b : ℤ → ℝ) (l0 l1 α β f0 : ℝ) (h0 : 0 < f0) (N A ψ modeSq : ℝ → ℝ)
    (hN : ∀ f, 0 < f → f < f0 → N f ^ 2 = PNSpec.amplitude mc D f ^ 2)
    (hmode : ∀ v, 0 < v → modeSq v = trunc g2 g3 g4 g5 g6 gl (rg (v, v * Real.log v)) v (v * Real.log v))
    (hA : ∀ f, 0 < f → A f ^ 2 = (4 * η * M * velocity M f ^ 2 / D) ^ 2 * modeSq (velocity M f))
    (hψ : ∀ f, 0 < f → f < f0 → ψ f = series b l0 l1 (velocity M f) + α + β * f) (b5 : b (-5) = 3 / (128 * η)) :
    (fun f => N f ^ 2 / power A ψ f - 1) =O[𝓝[>] 0] fun f => velocity M f ^ 2 := by
  have hη0 : 0 < η := by rw [← hη]; exact Real.rpow_pos_of_pos (div_pos hm hM) _
  have hK : 3 / (128 * η) ≠ 0 := by positivity
  obtain ⟨c2, hc2⟩ : ∃ c, 18 * b (-3) = 3 / (128 * η) * (40 * c) := ⟨18 * b (-3) / (3 / (128 * η)) / 40, by field_simp⟩
  obtain ⟨c3, hc3⟩ : ∃ c, 10 * b (-2) = 3 / (128 * η) * (40 * c) := ⟨10 * b (-2) / (3 / (128 * η)) / 40, by field_simp⟩
  obtain ⟨c4, hc4⟩ : ∃ c, 4 * b (-1) = 3 / (128 * η) * (40 * c) := ⟨4 * b (-1) / (3 / (128 * η)) / 40, by field_simp⟩
  obtain ⟨c5, hc5⟩ : ∃ c, -3 * l0 = 3 / (128 * η) * (40 * c) := ⟨-3 * l0 / (3 / (128 * η)) / 40, by field_simp⟩
  obtain ⟨c6, hc6⟩ : ∃ c, -(2 * b 1 + l1) = 3 / (128 * η) * (40 * c) := ⟨-(2 * b 1 + l1) / (3 / (128 * η)) / 40, by field_simp⟩
  obtain ⟨cl, hcl⟩ : ∃ c, -2 * l1 = 3 / (128 * η) * (40 * c) := ⟨-2 * l1 / (3 / (128 * η)) / 40, by field_simp⟩
  have hE := spa_eq mc M η D hm hM hη hD b l0 l1 α β f0 h0 N A (fun _ => 1) ψ modeSq (fun f h1 h2 => by rw [hN f h1 h2]; ring) hA hψ b5 c2 c3 c4 c5 c6 cl hc2 hc3 hc4 hc5 hc6 hcl
  let Dn : ℝ × ℝ → ℝ := fun p => trunc g2 g3 g4 g5 g6 gl (rg p) p.1 p.2 * trunc c2 c3 c4 c5 c6 cl (phaseRem η b p) p.1 p.2
  have hDn : Continuous Dn := (trunc_continuous _ _ _ _ _ _ rg hrg).mul (trunc_continuous _ _ _ _ _ _ _ (phaseRem_continuous η b))
  have hD1 : Tendsto (fun v : ℝ => Dn (v, v * Real.log v)) (𝓝[>] 0) (𝓝 1) := by
    have := (hDn.tendsto (0, 0)).comp pair_tendsto
    simpa [Dn, trunc, Function.comp_def] using this
  let q : ℝ × ℝ → ℝ := fun p => (g2 + c2) + (g3 + c3) * p.1 + (g4 + g2 * c2 + c4) * p.1 ^ 2 + (g5 + g2 * c3 + g3 * c2 + c5) * p.1 ^ 3 + (g6 + g2 * c4 + g3 * c3 + g4 * c2 + c6) * p.1 ^ 4
    + (gl + cl) * p.2 * p.1 ^ 3 + mulRem g2 g3 g4 g5 g6 gl (rg p) c2 c3 c4 c5 c6 cl (phaseRem η b p) p.1 p.2 * p.1 ^ 5
  have hq : Continuous q := by
    have := mulRem_continuous g2 g3 g4 g5 g6 gl c2 c3 c4 c5 c6 cl rg _ hrg (phaseRem_continuous η b)
    simp only [q]; fun_prop
  have hG : Tendsto (fun v : ℝ => -q (v, v * Real.log v) / Dn (v, v * Real.log v)) (𝓝[>] 0) (𝓝 (-q (0, 0) / 1)) :=
    Tendsto.div ((hq.neg.tendsto (0, 0)).comp pair_tendsto) hD1 one_ne_zero
  have hO := (hG.isBigO_one ℝ).mul (isBigO_refl (fun v : ℝ => v ^ 2) (𝓝[>] 0))
  have hO2 : (fun v : ℝ => 1 / Dn (v, v * Real.log v) - 1) =O[𝓝[>] 0] fun v => v ^ 2 := by
    refine hO.congr' ?_ (by filter_upwards with v; simp)
    filter_upwards [hD1.eventually_ne one_ne_zero] with v h3
    have : Dn (v, v * Real.log v) = 1 + v ^ 2 * q (v, v * Real.log v) := by
      simp only [Dn, q]
      rw [trunc_mul]
      unfold trunc
      ring
    field_simp
    rw [this]
    ring
  refine (hO2.comp_tendsto (velocity_tendsto M hM)).congr' ?_ EventuallyEq.rfl
  filter_upwards [Ioo_mem_nhdsGT h0] with f ⟨hf, hf0⟩
  simp only [Function.comp]
  rw [hE f hf hf0, hmode _ (velocity_pos M f hM hf), one_pow]

end Verif.Spa
