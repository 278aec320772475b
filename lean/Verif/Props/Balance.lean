import Verif.Spec.Balance
import Verif.Props.SpaTaylorF2
/-!
# C103: the TaylorF2 phase solves the energy balance
-/
set_option linter.unusedSimpArgs false
set_option linter.unusedVariables false
namespace Verif.Spa
open SpaSpec BalanceSpec PNSpec Filter Topology Asymptotics

/-- Two series agreeing through fifth order: their quotient is `1 + k6 v⁶ + k v⁷` to leading order. -/
theorem quotient7 (a2 a3 a4 a5 a6 al k6 k : ℝ) (ra rb : ℝ × ℝ → ℝ) (ha : Continuous ra) (hb : Continuous rb) (hk : ra (0, 0) - rb (0, 0) = k) (N W : ℝ → ℝ)
    (hN : ∀ᶠ v in 𝓝[>] (0 : ℝ), N v = trunc a2 a3 a4 a5 (a6 + k6) al (ra (v, v * Real.log v)) v (v * Real.log v))
    (hD : ∀ᶠ v in 𝓝[>] (0 : ℝ), W v = trunc a2 a3 a4 a5 a6 al (rb (v, v * Real.log v)) v (v * Real.log v)) :
    (fun v => N v / W v - 1 - k6 * v ^ 6 - k * v ^ 7) =o[𝓝[>] 0] fun v => v ^ 7 := by
  have hD1 : Tendsto W (𝓝[>] 0) (𝓝 1) := by
    have h := ((trunc_continuous a2 a3 a4 a5 a6 al rb hb).tendsto (0, 0)).comp pair_tendsto
    simp only [trunc, mul_zero, add_zero, ne_eq, OfNat.ofNat_ne_zero, not_false_eq_true, zero_pow] at h
    refine h.congr' ?_
    filter_upwards [hD] with v hv
    rw [hv]; rfl
  have hG : Tendsto (fun v : ℝ => (ra (v, v * Real.log v) - rb (v, v * Real.log v) - k6 * (a2 * v + a3 * v ^ 2 + a4 * v ^ 3 + a5 * v ^ 4 + a6 * v ^ 5 + al * (v * Real.log v) * v ^ 4
      + rb (v, v * Real.log v) * v ^ 6)) / W v - k) (𝓝[>] 0) (𝓝 0) := by
    have hc : Continuous fun p : ℝ × ℝ => ra p - rb p - k6 * (a2 * p.1 + a3 * p.1 ^ 2 + a4 * p.1 ^ 3 + a5 * p.1 ^ 4 + a6 * p.1 ^ 5 + al * p.2 * p.1 ^ 4 + rb p * p.1 ^ 6) := by fun_prop
    have h1 := (hc.tendsto (0, 0)).comp pair_tendsto
    have h2 := (h1.div hD1 one_ne_zero).sub_const k
    simp only [mul_zero, add_zero, ne_eq, OfNat.ofNat_ne_zero, not_false_eq_true, zero_pow, sub_zero, div_one, hk, sub_self] at h2
    exact h2
  have hO := ((isLittleO_one_iff ℝ).2 hG).mul_isBigO (isBigO_refl (fun v : ℝ => v ^ 7) (𝓝[>] 0))
  refine hO.congr' ?_ (by filter_upwards with v; simp)
  filter_upwards [hN, hD, hD1.eventually_ne one_ne_zero] with v h1 h2 h3
  rw [h1]
  field_simp
  rw [h2]
  unfold trunc
  ring

/-- The energy as a series in powers of the velocity; its derivative in the frequency. -/
theorem energy_deriv (η δ S D M f : ℝ) (hM : 0 < M) (hf : 0 < f) :
    deriv (fun x => energy η δ S D (velocity M x)) f = -(η * (Real.pi * M / 3) / velocity M f) * trunc (2 * (-3 / 4 - η / 12)) (5 / 2 * (14 / 3 * S + 2 * δ * D))
      (3 * (-27 / 8 + 19 / 8 * η - η ^ 2 / 24 - 4 * S ^ 2 - 4 * δ * S * D + (4 * η - 1) * D ^ 2)) (7 / 2 * ((11 - 61 / 9 * η) * S + δ * (3 - 10 / 3 * η) * D))
      (4 * (-675 / 64 + (34445 / 576 - 205 / 96 * Real.pi ^ 2) * η - 155 / 96 * η ^ 2 - 35 / 5184 * η ^ 3
        + (-25 / 9 + 10 / 3 * η) * S ^ 2 + δ * (10 / 3 + 10 / 3 * η) * S * D + (5 / 2 - 15 / 2 * η - 10 / 3 * η ^ 2) * D ^ 2)) 0
      (9 / 2 * ((135 / 4 - 367 / 4 * η + 29 / 12 * η ^ 2) * S + δ * (27 / 4 - 39 * η + 5 / 4 * η ^ 2) * D)) (velocity M f) (velocity M f * Real.log (velocity M f)) := by
  have hv := velocity_pos M f hM hf
  unfold energy
  generalize -3 / 4 - η / 12 = e2
  generalize 14 / 3 * S + 2 * δ * D = e3
  generalize -27 / 8 + 19 / 8 * η - η ^ 2 / 24 - 4 * S ^ 2 - 4 * δ * S * D + (4 * η - 1) * D ^ 2 = e4
  generalize (11 - 61 / 9 * η) * S + δ * (3 - 10 / 3 * η) * D = e5
  generalize -675 / 64 + (34445 / 576 - 205 / 96 * Real.pi ^ 2) * η - 155 / 96 * η ^ 2 - 35 / 5184 * η ^ 3
        + (-25 / 9 + 10 / 3 * η) * S ^ 2 + δ * (10 / 3 + 10 / 3 * η) * S * D + (5 / 2 - 15 / 2 * η - 10 / 3 * η ^ 2) * D ^ 2 = e6
  generalize (135 / 4 - 367 / 4 * η + 29 / 12 * η ^ 2) * S + δ * (27 / 4 - 39 * η + 5 / 4 * η ^ 2) * D = e7
  have hp : HasDerivAt (fun w : ℝ => -η / 2 * (w ^ 2 + e2 * w ^ 4 + e3 * w ^ 5 + e4 * w ^ 6 + e5 * w ^ 7 + e6 * w ^ 8 + e7 * w ^ 9))
      (-η / 2 * (2 * velocity M f + 4 * e2 * velocity M f ^ 3 + 5 * e3 * velocity M f ^ 4 + 6 * e4 * velocity M f ^ 5 + 7 * e5 * velocity M f ^ 6 + 8 * e6 * velocity M f ^ 7
        + 9 * e7 * velocity M f ^ 8)) (velocity M f) := by
    have d := fun n : ℕ => hasDerivAt_pow n (velocity M f)
    refine (((((((d 2).add ((d 4).const_mul e2)).add ((d 5).const_mul e3)).add ((d 6).const_mul e4)).add ((d 7).const_mul e5)).add ((d 8).const_mul e6)).add
      ((d 9).const_mul e7)).const_mul (-η / 2) |>.congr_deriv ?_
    norm_num
    left
    ring
  have e : (fun x => -η / 2 * velocity M x ^ 2 * (1 + e2 * velocity M x ^ 2 + e3 * velocity M x ^ 3 + e4 * velocity M x ^ 4 + e5 * velocity M x ^ 5 + e6 * velocity M x ^ 6 + e7 * velocity M x ^ 7)) =
      (fun w : ℝ => -η / 2 * (w ^ 2 + e2 * w ^ 4 + e3 * w ^ 5 + e4 * w ^ 6 + e5 * w ^ 7 + e6 * w ^ 8 + e7 * w ^ 9)) ∘ velocity M := by
    funext x; simp only [Function.comp]; ring
  rw [e, (hp.comp f (velocity_deriv M f hM hf)).deriv]
  unfold trunc
  generalize Real.log (velocity M f) = L
  generalize velocity M f = v at *
  field_simp
  ring

/-- The flux as a series. -/
theorem flux_series (η δ S D v : ℝ) (hv : 0 < v) : flux η δ S D v = 32 / 5 * η ^ 2 * v ^ 10 * trunc (-1247 / 336 - 35 / 12 * η) (4 * Real.pi - 4 * S - 5 / 4 * δ * D)
      (-44711 / 9072 + 9271 / 504 * η + 65 / 18 * η ^ 2 + 8 * S ^ 2 + 8 * δ * S * D + (33 / 16 - 8 * η) * D ^ 2)
      (Real.pi * (-8191 / 672 - 583 / 24 * η) + (-9 / 2 + 272 / 9 * η) * S + δ * (-13 / 16 + 43 / 4 * η) * D)
      (6643739519 / 69854400 + 16 / 3 * Real.pi ^ 2 - 1712 / 105 * gammaE - 1712 / 105 * Real.log 4 + (-134543 / 7776 + 41 / 48 * Real.pi ^ 2) * η - 94403 / 3024 * η ^ 2
        - 775 / 324 * η ^ 3 + Real.pi * (-16 * S - 31 / 6 * δ * D)
        + (-3839 / 252 - 43 * η) * S ^ 2 + δ * (-1375 / 56 - 43 * η) * S * D + (-227 / 28 + 3481 / 168 * η + 43 * η ^ 2) * D ^ 2) (-1712 / 105)
      (Real.pi * (-16285 / 504 + 214745 / 1728 * η + 193385 / 3024 * η ^ 2) + (476645 / 6804 + 6172 / 189 * η - 2810 / 27 * η ^ 2) * S
        + δ * (9535 / 336 + 1849 / 126 * η - 1501 / 36 * η ^ 2) * D) v (v * Real.log v) := by
  have hl : Real.log (16 * v ^ 2) = 2 * Real.log 4 + 2 * Real.log v := by
    rw [show (16 : ℝ) * v ^ 2 = (4 * v) ^ 2 by ring, Real.log_pow, Real.log_mul (by norm_num) hv.ne']
    push_cast; ring
  unfold flux trunc
  rw [hl]
  ring

/-- A phase whose second derivative is a series, against an energy and a flux given as series. -/
theorem balance_core (M η : ℝ) (hM : 0 < M) (hη : 0 < η) (b : ℤ → ℝ) (l0 l1 α β f0 : ℝ) (h0 : 0 < f0) (ψ dE F : ℝ → ℝ)
    (hψ : ∀ f, 0 < f → f < f0 → ψ f = series b l0 l1 (velocity M f) + α + β * f) (b5 : b (-5) = 3 / (128 * η))
    (e2 e3 e4 e5 e6 e7 : ℝ) (hE : ∀ f, 0 < f → dE f = -(η * (Real.pi * M / 3) / velocity M f) * trunc e2 e3 e4 e5 e6 0 e7 (velocity M f) (velocity M f * Real.log (velocity M f)))
    (g2 g3 g4 g5 g6 gl g7 : ℝ) (hF : ∀ v, 0 < v → F v = 32 / 5 * η ^ 2 * v ^ 10 * trunc g2 g3 g4 g5 g6 gl g7 v (v * Real.log v))
    (c2 c3 c4 c5 c6 cl c7 k6 : ℝ) (b3 : 18 * b (-3) = 3 / (128 * η) * (40 * c2)) (b2 : 10 * b (-2) = 3 / (128 * η) * (40 * c3)) (b1 : 4 * b (-1) = 3 / (128 * η) * (40 * c4))
    (e0 : -3 * l0 = 3 / (128 * η) * (40 * c5)) (bb1 : -(2 * b 1 + l1) = 3 / (128 * η) * (40 * c6)) (e1 : -2 * l1 = 3 / (128 * η) * (40 * cl)) (bb2 : -2 * b 2 = 3 / (128 * η) * (40 * c7))
    (m2 : g2 + c2 = e2) (m3 : g3 + c3 = e3) (m4 : g4 + g2 * c2 + c4 = e4) (m5 : g5 + g2 * c3 + g3 * c2 + c5 = e5) (m6 : g6 + g2 * c4 + g3 * c3 + g4 * c2 + c6 = e6 + k6) (ml : gl + cl = 0) (k : ℝ)
    (hk : c7 + c5 * g2 + c4 * g3 + c3 * g4 + c2 * g5 + g7 - e7 = k) :
    (fun f => deriv (deriv ψ) f / (2 * Real.pi * (M * -dE f / F (velocity M f))) - 1 - k6 * velocity M f ^ 6 - k * velocity M f ^ 7) =o[𝓝[>] 0] fun f => velocity M f ^ 7 := by
  have hpi := Real.pi_pos
  have hrc := phaseRem_continuous η b
  have hq := quotient7 e2 e3 e4 e5 e6 0 k6 k (fun p => mulRem g2 g3 g4 g5 g6 gl g7 c2 c3 c4 c5 c6 cl (phaseRem η b p) p.1 p.2) (fun _ => e7)
    (mulRem_continuous _ _ _ _ _ _ _ _ _ _ _ _ (fun _ => g7) _ continuous_const hrc) continuous_const (by
      have : phaseRem η b (0, 0) = c7 := by
        unfold phaseRem
        simp only [ne_eq, OfNat.ofNat_ne_zero, not_false_eq_true, zero_pow, mul_zero, add_zero]
        rw [bb2]
        field_simp
      simp only [mulRem, this]
      rw [← hk]
      ring)
    (fun v => trunc g2 g3 g4 g5 g6 gl g7 v (v * Real.log v) * trunc c2 c3 c4 c5 c6 cl (phaseRem η b (v, v * Real.log v)) v (v * Real.log v))
    (fun v => trunc e2 e3 e4 e5 e6 0 e7 v (v * Real.log v))
    (by filter_upwards with v; rw [trunc_mul, m2, m3, m4, m5, m6, ml]) (by filter_upwards with v; rfl)
  refine (hq.comp_tendsto (velocity_tendsto M hM)).congr' ?_ EventuallyEq.rfl
  have hF1 : ∀ᶠ f in 𝓝[>] (0 : ℝ), trunc g2 g3 g4 g5 g6 gl g7 (velocity M f) (velocity M f * Real.log (velocity M f)) ≠ 0 := by
    have h := (((trunc_continuous g2 g3 g4 g5 g6 gl (fun _ => g7) continuous_const).tendsto (0, 0)).comp pair_tendsto).comp (velocity_tendsto M hM)
    have h1 : trunc g2 g3 g4 g5 g6 gl g7 0 0 = 1 := by simp [trunc]
    rw [h1] at h
    exact h.eventually_ne one_ne_zero
  filter_upwards [Ioo_mem_nhdsGT h0, hF1] with f hf hF1
  simp only [Function.comp]
  congr 3
  have hv := velocity_pos M f hM hf.1
  rw [phase_deriv2 b l0 l1 M α β f0 hM h0 ψ hψ f hf.1 hf.2, hE f hf.1, hF _ hv]
  have hC : 40 * b (-5) + 18 * b (-3) * velocity M f ^ 2 + 10 * b (-2) * velocity M f ^ 3 + 4 * b (-1) * velocity M f ^ 4
      - 3 * l0 * velocity M f ^ 5 - (2 * b 1 + l1 + 2 * l1 * Real.log (velocity M f)) * velocity M f ^ 6 - 2 * b 2 * velocity M f ^ 7
      + 4 * b 4 * velocity M f ^ 9 + 10 * b 5 * velocity M f ^ 10 + 18 * b 6 * velocity M f ^ 11 =
      40 * (3 / (128 * η)) * trunc c2 c3 c4 c5 c6 cl (phaseRem η b (velocity M f, velocity M f * Real.log (velocity M f))) (velocity M f) (velocity M f * Real.log (velocity M f)) := by
    have hr : 40 * (3 / (128 * η)) * phaseRem η b (velocity M f, velocity M f * Real.log (velocity M f)) =
        -2 * b 2 + 4 * b 4 * velocity M f ^ 2 + 10 * b 5 * velocity M f ^ 3 + 18 * b 6 * velocity M f ^ 4 := by
      unfold phaseRem; field_simp
    unfold trunc
    generalize phaseRem η b (velocity M f, velocity M f * Real.log (velocity M f)) = R at *
    generalize Real.log (velocity M f) = L at *
    generalize velocity M f = v at *
    generalize 3 / (128 * η) = K at *
    linear_combination 40 * b5 + v ^ 2 * b3 + v ^ 3 * b2 + v ^ 4 * b1 + v ^ 5 * e0 + v ^ 6 * bb1 + v ^ 6 * L * e1 - v ^ 7 * hr
  rw [hC]
  generalize trunc c2 c3 c4 c5 c6 cl (phaseRem η b (velocity M f, velocity M f * Real.log (velocity M f))) (velocity M f) (velocity M f * Real.log (velocity M f)) = C
  generalize trunc g2 g3 g4 g5 g6 gl g7 (velocity M f) (velocity M f * Real.log (velocity M f)) = G at *
  generalize trunc e2 e3 e4 e5 e6 0 e7 (velocity M f) (velocity M f * Real.log (velocity M f)) = W
  generalize velocity M f = v at *
  by_cases hW : W = 0
  · rw [hW]; simp
  field_simp
  ring

/-- The coefficients of the second derivative of the phase, of the flux and of the energy, for mass fractions `X`, `1 - X` and spins `c1`, `c2`. -/
noncomputable def cD (X c1 c2 : ℝ) : ℝ := (1 - X) * c2 - X * c1
noncomputable def cS (X c1 c2 : ℝ) : ℝ := X ^ 2 * c1 + (1 - X) ^ 2 * c2
noncomputable def kk (X c1 c2 : ℝ) : ℝ :=
  let η := X * (1 - X); let δ := 2 * X - 1; let S := cS X c1 c2; let D := cD X c1 c2; let s := chiS c1 c2; let a := chiA c1 c2
  (-1 / 20) * psi7 η δ s a + -9 / 40 * psi5 η δ s a * (-1247 / 336 - 35 / 12 * η) + psi4 η δ s a / 10 * (4 * Real.pi - 4 * S - 5 / 4 * δ * D)
    + psi3 η δ s a / 4 * (-44711 / 9072 + 9271 / 504 * η + 65 / 18 * η ^ 2 + 8 * S ^ 2 + 8 * δ * S * D + (33 / 16 - 8 * η) * D ^ 2)
    + 9 / 20 * psi2 η * (Real.pi * (-8191 / 672 - 583 / 24 * η) + (-9 / 2 + 272 / 9 * η) * S + δ * (-13 / 16 + 43 / 4 * η) * D)
    + (Real.pi * (-16285 / 504 + 214745 / 1728 * η + 193385 / 3024 * η ^ 2) + (476645 / 6804 + 6172 / 189 * η - 2810 / 27 * η ^ 2) * S
      + δ * (9535 / 336 + 1849 / 126 * η - 1501 / 36 * η ^ 2) * D)
    - 9 / 2 * ((135 / 4 - 367 / 4 * η + 29 / 12 * η ^ 2) * S + δ * (27 / 4 - 39 * η + 5 / 4 * η ^ 2) * D)

/-- What is left at 3.5PN order is quadratic and cubic in the spins. -/
theorem kk_spins (X c1 c2 : ℝ) : ∃ A B : ℝ, ∀ t, kk X (t * c1) (t * c2) = A * t ^ 2 + B * t ^ 3 := by
  refine ⟨(kk X c1 c2 + kk X (-c1) (-c2)) / 2, (kk X c1 c2 - kk X (-c1) (-c2)) / 2, fun t => ?_⟩
  unfold kk cS cD psi2 psi3 psi4 psi5 psi7 chiS chiA
  dsimp only
  ring

section
variable (X c1 c2 : ℝ)

theorem order2 : -1247 / 336 - 35 / 12 * (X * (1 - X)) + 9 / 20 * psi2 (X * (1 - X)) = 2 * (-3 / 4 - X * (1 - X) / 12) := by unfold psi2; ring

theorem order3 : 4 * Real.pi - 4 * cS X c1 c2 - 5 / 4 * (2 * X - 1) * cD X c1 c2 + psi3 (X * (1 - X)) (2 * X - 1) (chiS c1 c2) (chiA c1 c2) / 4
    = 5 / 2 * (14 / 3 * cS X c1 c2 + 2 * (2 * X - 1) * cD X c1 c2) := by
  unfold psi3 cS cD chiS chiA; ring

theorem order4 : -44711 / 9072 + 9271 / 504 * (X * (1 - X)) + 65 / 18 * (X * (1 - X)) ^ 2 + 8 * cS X c1 c2 ^ 2 + 8 * (2 * X - 1) * cS X c1 c2 * cD X c1 c2 + (33 / 16 - 8 * (X * (1 - X))) * cD X c1 c2 ^ 2
      + (-1247 / 336 - 35 / 12 * (X * (1 - X))) * (9 / 20 * psi2 (X * (1 - X))) + psi4 (X * (1 - X)) (2 * X - 1) (chiS c1 c2) (chiA c1 c2) / 10
    = 3 * (-27 / 8 + 19 / 8 * (X * (1 - X)) - (X * (1 - X)) ^ 2 / 24 - 4 * cS X c1 c2 ^ 2 - 4 * (2 * X - 1) * cS X c1 c2 * cD X c1 c2 + (4 * (X * (1 - X)) - 1) * cD X c1 c2 ^ 2) := by
  unfold psi2 psi4 cS cD chiS chiA; ring

theorem order5 : Real.pi * (-8191 / 672 - 583 / 24 * (X * (1 - X))) + (-9 / 2 + 272 / 9 * (X * (1 - X))) * cS X c1 c2 + (2 * X - 1) * (-13 / 16 + 43 / 4 * (X * (1 - X))) * cD X c1 c2
      + (-1247 / 336 - 35 / 12 * (X * (1 - X))) * (psi3 (X * (1 - X)) (2 * X - 1) (chiS c1 c2) (chiA c1 c2) / 4)
      + (4 * Real.pi - 4 * cS X c1 c2 - 5 / 4 * (2 * X - 1) * cD X c1 c2) * (9 / 20 * psi2 (X * (1 - X))) + -9 / 40 * psi5 (X * (1 - X)) (2 * X - 1) (chiS c1 c2) (chiA c1 c2)
    = 7 / 2 * ((11 - 61 / 9 * (X * (1 - X))) * cS X c1 c2 + (2 * X - 1) * (3 - 10 / 3 * (X * (1 - X))) * cD X c1 c2) := by
  unfold psi2 psi3 psi5 cS cD chiS chiA; ring

theorem order6 : 6643739519 / 69854400 + 16 / 3 * Real.pi ^ 2 - 1712 / 105 * gammaE - 1712 / 105 * Real.log 4 + (-134543 / 7776 + 41 / 48 * Real.pi ^ 2) * (X * (1 - X)) - 94403 / 3024 * (X * (1 - X)) ^ 2
        - 775 / 324 * (X * (1 - X)) ^ 3 + Real.pi * (-16 * cS X c1 c2 - 31 / 6 * (2 * X - 1) * cD X c1 c2)
        + (-3839 / 252 - 43 * (X * (1 - X))) * cS X c1 c2 ^ 2 + (2 * X - 1) * (-1375 / 56 - 43 * (X * (1 - X))) * cS X c1 c2 * cD X c1 c2
        + (-227 / 28 + 3481 / 168 * (X * (1 - X)) + 43 * (X * (1 - X)) ^ 2) * cD X c1 c2 ^ 2
      + (-1247 / 336 - 35 / 12 * (X * (1 - X))) * (psi4 (X * (1 - X)) (2 * X - 1) (chiS c1 c2) (chiA c1 c2) / 10)
      + (4 * Real.pi - 4 * cS X c1 c2 - 5 / 4 * (2 * X - 1) * cD X c1 c2) * (psi3 (X * (1 - X)) (2 * X - 1) (chiS c1 c2) (chiA c1 c2) / 4)
      + (-44711 / 9072 + 9271 / 504 * (X * (1 - X)) + 65 / 18 * (X * (1 - X)) ^ 2 + 8 * cS X c1 c2 ^ 2 + 8 * (2 * X - 1) * cS X c1 c2 * cD X c1 c2 + (33 / 16 - 8 * (X * (1 - X))) * cD X c1 c2 ^ 2)
        * (9 / 20 * psi2 (X * (1 - X)))
      + -(2 * psi6 (X * (1 - X)) (2 * X - 1) (chiS c1 c2) (chiA c1 c2) 1 - 6848 / 21) / 40
    = 4 * (-675 / 64 + (34445 / 576 - 205 / 96 * Real.pi ^ 2) * (X * (1 - X)) - 155 / 96 * (X * (1 - X)) ^ 2 - 35 / 5184 * (X * (1 - X)) ^ 3
        + (-25 / 9 + 10 / 3 * (X * (1 - X))) * cS X c1 c2 ^ 2 + (2 * X - 1) * (10 / 3 + 10 / 3 * (X * (1 - X))) * cS X c1 c2 * cD X c1 c2
        + (5 / 2 - 15 / 2 * (X * (1 - X)) - 10 / 3 * (X * (1 - X)) ^ 2) * cD X c1 c2 ^ 2) := by
  unfold psi2 psi3 psi4 psi6 cS cD chiS chiA; rw [mul_one]; ring
end

end Verif.Spa
