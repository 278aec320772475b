import Verif.Props.SpaSeries
import Verif.Props.PhenomD
/-!
# IMRPhenomD at low frequency is the stationary-phase transform of the post-Newtonian chirp (C79)
-/
set_option linter.unusedSimpArgs false
set_option linter.unusedVariables false
namespace Verif.PhenomD
open CbcUtils TaylorF2 Spa SpaSpec Filter Topology Asymptotics

/-! ## The amplitude factor as a series -/

theorem velocity_eq (M f : ℝ) : Bin.v (M * f) = velocity M f := by unfold Bin.v velocity; rw [mul_assoc]

/-- Coefficients of the inspiral amplitude in powers of the velocity. -/
noncomputable def ampA (η S χ1 χ2 : ℝ) : ℕ → ℝ
  | 2 => (-969 + 1804 * η) / 672
  | 3 => (χ1 * (81 * (1 + S) - 44 * η) + χ2 * (81 - 81 * S - 44 * η)) / 48
  | 4 => (-27312085 - 10287648 * χ2 ^ 2 - 10287648 * χ1 ^ 2 * (1 + S) + 10287648 * χ2 ^ 2 * S + 24 * (-1975055 + 857304 * χ1 ^ 2 - 994896 * χ1 * χ2 + 857304 * χ2 ^ 2) * η
      + 35371056 * η ^ 2) / 8128512
  | 5 => (χ2 * (-285197 * (-1 + S) + 4 * (-91902 + 1579 * S) * η - 35632 * η ^ 2) + χ1 * (285197 * (1 + S) - 4 * (91902 + 1579 * S) * η - 35632 * η ^ 2)
      + 42840 * (-1 + 4 * η) * Real.pi) / 32256
  | 6 => -((-336) * (-3248849057 + 2943675504 * χ1 ^ 2 - 3339284256 * χ1 * χ2 + 2943675504 * χ2 ^ 2) * η ^ 2 - 324322727232 * η ^ 3
      - 7 * (-177520268561 + 107414046432 * χ2 ^ 2 + 107414046432 * χ1 ^ 2 * (1 + S) - 107414046432 * χ2 ^ 2 * S + 11087290368 * (χ1 + χ2 + χ1 * S - χ2 * S) * Real.pi)
      + 12 * η * (-545384828789 - 176491177632 * χ1 * χ2 + 202603761360 * χ2 ^ 2 + 77616 * χ1 ^ 2 * (2610335 + 995766 * S) - 77287373856 * χ2 ^ 2 * S
        + 5841690624 * (χ1 + χ2) * Real.pi + 21384760320 * Real.pi ^ 2)) / 60085960704
  | _ => 0

theorem insAmp_series (c : Ctx) (h1 : c.chi12 = c.chi1 * c.chi1) (h2 : c.chi22 = c.chi2 * c.chi2) :
    ∃ r : ℝ × ℝ → ℝ, Continuous r ∧ ∀ mf, 0 < mf → ∀ u, c.insAmp mf = trunc (ampA c.eta c.seta c.chi1 c.chi2 2) (ampA c.eta c.seta c.chi1 c.chi2 3)
      (ampA c.eta c.seta c.chi1 c.chi2 4) (ampA c.eta c.seta c.chi1 c.chi2 5) (ampA c.eta c.seta c.chi1 c.chi2 6) 0 (r (Bin.v mf, u)) (Bin.v mf) u := by
  set κ : ℝ := Real.pi ^ ((1 : ℝ) / 3) with hκ
  have hpi := Real.pi_pos
  have κ0 : 0 < κ := Real.rpow_pos_of_pos hpi _
  have κ3 : κ ^ 3 = Real.pi := by
    rw [hκ, ← Real.rpow_natCast, ← Real.rpow_mul hpi.le]; norm_num
  have κ2 : Real.pi ^ ((2.0 / 3.0 : ℝ)) = κ ^ 2 := by
    rw [hκ, ← Real.rpow_natCast, ← Real.rpow_mul hpi.le]; norm_num
  have κ4 : Real.pi ^ ((4.0 / 3.0 : ℝ)) = κ ^ 4 := by
    rw [hκ, ← Real.rpow_natCast, ← Real.rpow_mul hpi.le]; norm_num
  have κ5 : Real.pi ^ ((5.0 / 3.0 : ℝ)) = κ ^ 5 := by
    rw [hκ, ← Real.rpow_natCast, ← Real.rpow_mul hpi.le]; norm_num
  refine ⟨fun p => rho1 c.eta c.eta2 c.xi / κ ^ 7 + rho2 c.eta c.eta2 c.xi / κ ^ 8 * p.1 + rho3 c.eta c.eta2 c.xi / κ ^ 9 * p.1 ^ 2, by fun_prop, fun mf hmf u => ?_⟩
  have hr : mf ^ ((1 : ℝ) / 3) = Bin.v mf / κ := by
    rw [hκ]; unfold Bin.v
    rw [Real.mul_rpow hpi.le hmf.le]; field_simp
  have hm : mf = Bin.v mf ^ 3 / κ ^ 3 := by
    rw [Bin.v_cube mf hmf, κ3]; field_simp
  unfold Ctx.insAmp
  dsimp only
  rw [hr]
  generalize Bin.v mf = v at *
  rw [hm]
  unfold pre23 pre1 pre43 pre53 pre2 trunc ampA
  rw [κ2, κ4, κ5, h1, h2]
  unfold Ctx.eta2
  generalize rho1 c.eta (c.eta * c.eta) c.xi = ρ1
  generalize rho2 c.eta (c.eta * c.eta) c.xi = ρ2
  generalize rho3 c.eta (c.eta * c.eta) c.xi = ρ3
  generalize c.eta = η
  generalize c.seta = S
  generalize c.chi1 = χ1
  generalize c.chi2 = χ2
  clear_value κ
  simp only [← κ3]
  field_simp
  ring


/-! ## The inspiral phase as a series -/

/-- The 3PN coefficient at `v = 1` without the terms quadratic in the spins. -/
noncomputable def phase6 (η δ s a : ℝ) : ℝ :=
  11583231236531 / 4694215680 - 640 / 3 * Real.pi ^ 2 - 6848 / 21 * PNSpec.gammaE - 6848 / 21 * Real.log 4
    + (-15737765635 / 3048192 + 2255 / 12 * Real.pi ^ 2) * η + 76055 / 1728 * η ^ 2 - 127825 / 1296 * η ^ 3 + Real.pi * (2270 / 3 * δ * a + (2270 / 3 - 520 * η) * s)

theorem insPhase_series (c : Ctx) (h1 : 0 < c.m1) (h2 : 0 < c.m2) (he : c.eta = PNSpec.eta c.m1 c.m2) (η δ s a : ℝ) (e1 : η = PNSpec.eta c.m1 c.m2)
    (e2 : δ = PNSpec.delta c.m1 c.m2) (e3 : s = PNSpec.chiS c.chi1 c.chi2) (e4 : a = PNSpec.chiA c.chi1 c.chi2) :
    ∃ b : ℤ → ℝ, (∀ mf, 0 < mf → c.insPhase mf = series b (3 / (128 * η) * (3 * PNSpec.psi5 η δ s a)) (3 / (128 * η) * (-6848 / 21)) (Bin.v mf)) ∧
      b (-5) = 3 / (128 * η) ∧ b (-3) = 3 / (128 * η) * PNSpec.psi2 η ∧ b (-2) = 3 / (128 * η) * PNSpec.psi3 η δ s a ∧ b (-1) = 3 / (128 * η) * PNSpec.psi4 η δ s a ∧
      b 1 = 3 / (128 * η) * phase6 η δ s a ∧ b 2 = 3 / (128 * η) * PNSpec.psi7 η δ s a := by
  set κ : ℝ := Real.pi ^ ((1 : ℝ) / 3) with hκ
  have hpi := Real.pi_pos
  have κ0 : 0 < κ := Real.rpow_pos_of_pos hpi _
  have κ3 : κ ^ 3 = Real.pi := by
    rw [hκ, ← Real.rpow_natCast, ← Real.rpow_mul hpi.le]; norm_num
  refine ⟨fun p => if p = -5 then 3 / (128 * η) else if p = -3 then 3 / (128 * η) * PNSpec.psi2 η else if p = -2 then 3 / (128 * η) * PNSpec.psi3 η δ s a else
    if p = -1 then 3 / (128 * η) * PNSpec.psi4 η δ s a else if p = 0 then 3 / (128 * η) * PNSpec.psi5 η δ s a else if p = 1 then 3 / (128 * η) * phase6 η δ s a else
    if p = 2 then 3 / (128 * η) * PNSpec.psi7 η δ s a else if p = 3 then sigma1 c.eta c.eta2 c.xi / c.eta / κ ^ 3 else if p = 4 then 0.75 * sigma2 c.eta c.eta2 c.xi / c.eta / κ ^ 4 else
    if p = 5 then 0.6 * sigma3 c.eta c.eta2 c.xi / c.eta / κ ^ 5 else if p = 6 then 0.5 * sigma4 c.eta c.eta2 c.xi / c.eta / κ ^ 6 else 0, fun mf hmf => ?_, ?_⟩
  · have hv := Bin.v_pos mf hmf
    have hr : mf ^ ((1 : ℝ) / 3) = Bin.v mf / κ := by
      rw [hκ]; unfold Bin.v
      rw [Real.mul_rpow hpi.le hmf.le]; field_simp
    have hm : mf = Bin.v mf ^ 3 / κ ^ 3 := by
      rw [Bin.v_cube mf hmf, κ3]; field_simp
    have r4 : mf ^ ((4 : ℝ) / 3) = (Bin.v mf / κ) ^ 4 := by
      rw [← hr, ← Real.rpow_natCast, ← Real.rpow_mul hmf.le]; norm_num
    have r5 : mf ^ ((5 : ℝ) / 3) = (Bin.v mf / κ) ^ 5 := by
      rw [← hr, ← Real.rpow_natCast, ← Real.rpow_mul hmf.le]; norm_num
    have r6 : mf ^ (2 : ℝ) = (Bin.v mf / κ) ^ 6 := by
      rw [← hr, ← Real.rpow_natCast, ← Real.rpow_mul hmf.le]; norm_num
    unfold Ctx.insPhase
    rw [c.ss3_removes mf hmf h1 h2 he, r4, r5, r6]
    dsimp only
    unfold PNSpec.phase
    dsimp only
    rw [← e1, ← e2, ← e3, ← e4]
    have hη : c.eta ≠ 0 := by
      rw [he]; unfold PNSpec.eta; positivity
    have hη' : η ≠ 0 := by rw [e1, ← he]; exact hη
    generalize Bin.v mf = v at *
    rw [hm]
    have hl : Real.log (4 * v) = Real.log 4 + Real.log v := Real.log_mul (by norm_num) hv.ne'
    unfold series PNSpec.psi6 phase6
    rw [hl]
    generalize Real.log v = L
    generalize Real.log 4 = L4
    generalize sigma1 c.eta c.eta2 c.xi = s1
    generalize sigma2 c.eta c.eta2 c.xi = s2
    generalize sigma3 c.eta c.eta2 c.xi = s3
    generalize sigma4 c.eta c.eta2 c.xi = s4
    generalize PNSpec.psi2 η = p2
    generalize PNSpec.psi3 η δ s a = p3
    generalize PNSpec.psi4 η δ s a = p4
    generalize PNSpec.psi5 η δ s a = p5
    generalize PNSpec.psi7 η δ s a = p7
    generalize c.eta = ce at *
    clear_value κ
    norm_num
    field_simp
    ring
  · norm_num

/-! ## The comparison -/

/-- The 3PN terms quadratic in the spins that IMRPhenomD's amplitude does not share with the stationary-phase series. -/
noncomputable def spinSq (η δ s a : ℝ) : ℝ :=
  (534515 / 8064 - 9199 / 63 * η + 2987 / 72 * η ^ 2) * s ^ 2 + (534515 / 4032 - 25195 / 144 * η) * δ * s * a + (534515 / 8064 - 592877 / 2016 * η + 110 * η ^ 2) * a ^ 2

/-- The coefficients match order by order; `δ² = 1 - 4η`. -/
theorem match_orders (η δ s a : ℝ) (hδ : δ ^ 2 = 1 - 4 * η) :
    let a2 := ampA η δ (s + a) (s - a) 2
    let a3 := ampA η δ (s + a) (s - a) 3
    let a4 := ampA η δ (s + a) (s - a) 4
    let a5 := ampA η δ (s + a) (s - a) 5
    let a6 := ampA η δ (s + a) (s - a) 6
    let h2 := -107 / 42 + 55 / 42 * η
    let h3 := 2 * Real.pi - 4 / 3 * (δ * a + (1 - η) * s)
    let h4 := -2173 / 1512 - 1069 / 216 * η + 2047 / 1512 * η ^ 2 + 2 * η * (s ^ 2 - a ^ 2)
    let h5 := -107 / 21 * Real.pi + 34 / 21 * Real.pi * η
    let h6 := 27027409 / 646800 - 856 / 105 * PNSpec.gammaE + 2 / 3 * Real.pi ^ 2 - 856 / 105 * Real.log 4 + (-278185 / 33264 + 41 / 96 * Real.pi ^ 2) * η
        - 20261 / 2772 * η ^ 2 + 114635 / 99792 * η ^ 3
    let g2 := h2 + h2
    let g3 := h3 + h3
    let g4 := h4 + h2 * h2 + h4
    let g5 := h5 + h2 * h3 + h3 * h2 + h5
    let g6 := h6 + h2 * h4 + h3 * h3 + h4 * h2 + h6
    let c2 := 18 / 40 * PNSpec.psi2 η
    let c3 := 10 / 40 * PNSpec.psi3 η δ s a
    let c4 := 4 / 40 * PNSpec.psi4 η δ s a
    let c5 := -9 / 40 * PNSpec.psi5 η δ s a
    let c6 := -(2 * phase6 η δ s a + -6848 / 21) / 40
    a2 + a2 = g2 + c2 ∧ a3 + a3 = g3 + c3 ∧ a4 + a2 * a2 + a4 = g4 + g2 * c2 + c4 ∧ a5 + a2 * a3 + a3 * a2 + a5 = g5 + g2 * c3 + g3 * c2 + c5 ∧
      a6 + a2 * a4 + a3 * a3 + a4 * a2 + a6 = g6 + g2 * c4 + g3 * c3 + g4 * c2 + c6 + spinSq η δ s a := by
  intros a2 a3 a4 a5 a6 h2 h3 h4 h5 h6 g2 g3 g4 g5 g6 c2 c3 c4 c5 c6
  simp only [a2, a3, a4, a5, a6, g2, g3, g4, g5, g6, h2, h3, h4, h5, h6, c2, c3, c4, c5, c6, ampA, PNSpec.psi2, PNSpec.psi3, PNSpec.psi4, PNSpec.psi5, phase6, spinSq]
  generalize Real.log 4 = L4
  generalize PNSpec.gammaE = γ
  generalize Real.pi = p
  refine ⟨by ring, by ring, ?_, ?_, ?_⟩
  · ring
  · ring
  · linear_combination 6667 / 192 * a ^ 2 * hδ

section main
variable (mc q chi1 chi2 d phic fRef : ℝ)

/-- The phase of the strain: `h̃ = |h̃| exp(-iψ)` wherever the amplitude factor is positive. -/
noncomputable def strainPhase (f : ℝ) : ℝ :=
  (ctxOf mc q chi1 chi2).phase (totalMass mc q * mtsun * f) - (ctxOf mc q chi1 chi2).phase (totalMass mc q * mtsun * fRef) - 2 * phic
    - totalMass mc q * mtsun * (f - fRef) * (ctxOf mc q chi1 chi2).mrdDphase (ctxOf mc q chi1 chi2).peak

/-- The mass difference seen by the fits is that of the binary when the first body is the heavier. -/
theorem seta_delta (hm : 0 < mc) (hq : 0 < q) (h1 : q ≤ 1) : setaOf (etaOf mc q) = PNSpec.delta (mass1 mc q) (mass2 mc q) ∧
    PNSpec.delta (mass1 mc q) (mass2 mc q) ^ 2 = 1 - 4 * PNSpec.eta (mass1 mc q) (mass2 mc q) := by
  obtain ⟨p1, p2, _, _, p5⟩ := masses_pos mc q hm hq
  constructor
  · rw [setaOf_eq mc q hm hq, abs_of_nonneg (by linarith)]
    have : mass2 mc q = mass1 mc q * q := rfl
    unfold PNSpec.delta
    rw [this]
    have : 0 < 1 + q := by linarith
    field_simp
  · unfold PNSpec.delta PNSpec.eta
    field_simp
    ring

theorem spa_ratio (h : Physical mc q chi1 chi2) (h1 : q ≤ 1) (hd : 0 < d) :
    (fun f => ‖htilde mc q (ctxOf mc q chi1 chi2) f d phic fRef‖ ^ 2 /
        power (SpaSpec.amplitude (mass1 mc q * mtsun) (mass2 mc q * mtsun) chi1 chi2 (d * mpcSec)) (strainPhase mc q chi1 chi2 phic fRef) f
      - 1 - spinSq (PNSpec.eta (mass1 mc q) (mass2 mc q)) (PNSpec.delta (mass1 mc q) (mass2 mc q)) (PNSpec.chiS chi1 chi2) (PNSpec.chiA chi1 chi2)
        * velocity (totalMass mc q * mtsun) f ^ 6) =O[𝓝[>] 0] fun f => velocity (totalMass mc q * mtsun) f ^ 7 := by
  obtain ⟨hm, hq, _⟩ := id h
  have hc := good mc q chi1 chi2 h
  obtain ⟨j1, j2, j3, j4⟩ := hc.joins
  obtain ⟨p1, p2, p3, p4, p5⟩ := masses_pos mc q hm hq
  obtain ⟨hS, hδ⟩ := seta_delta mc q hm hq h1
  have hmt : 0 < mtsun := mtsun_pos
  have hT : 0 < totalMass mc q := by linarith
  have hD : 0 < d * mpcSec := by unfold mpcSec cLight; positivity
  have heta := eta_PN mc q hm hq
  have hη0 := (etaOf_range mc q hm hq).1
  have hM : 0 < totalMass mc q * mtsun := by positivity
  obtain ⟨ra, hra, hamp⟩ := insAmp_series (ctxOf mc q chi1 chi2) rfl rfl
  obtain ⟨b, hb, b5, b3, b2, b1, bb1, _⟩ := insPhase_series (ctxOf mc q chi1 chi2) hc.m1 hc.m2 heta (PNSpec.eta (mass1 mc q) (mass2 mc q)) (PNSpec.delta (mass1 mc q) (mass2 mc q))
    (PNSpec.chiS chi1 chi2) (PNSpec.chiA chi1 chi2) rfl rfl rfl rfl
  obtain ⟨rm, hrm, hmode⟩ := mode_norm (PNSpec.eta (mass1 mc q) (mass2 mc q)) (PNSpec.delta (mass1 mc q) (mass2 mc q)) (PNSpec.chiS chi1 chi2) (PNSpec.chiA chi1 chi2)
  have hmo := match_orders (PNSpec.eta (mass1 mc q) (mass2 mc q)) (PNSpec.delta (mass1 mc q) (mass2 mc q)) (PNSpec.chiS chi1 chi2) (PNSpec.chiA chi1 chi2) hδ
  rw [show PNSpec.chiS chi1 chi2 + PNSpec.chiA chi1 chi2 = chi1 by unfold PNSpec.chiS PNSpec.chiA; ring,
    show PNSpec.chiS chi1 chi2 - PNSpec.chiA chi1 chi2 = chi2 by unfold PNSpec.chiS PNSpec.chiA; ring] at hmo
  obtain ⟨m2, m3, m4, m5, m6⟩ := hmo
  have sEta : PNSpec.eta (mass1 mc q * mtsun) (mass2 mc q * mtsun) = PNSpec.eta (mass1 mc q) (mass2 mc q) := by unfold PNSpec.eta; field_simp
  have sDel : PNSpec.delta (mass1 mc q * mtsun) (mass2 mc q * mtsun) = PNSpec.delta (mass1 mc q) (mass2 mc q) := by unfold PNSpec.delta; field_simp
  have sM : mass1 mc q * mtsun + mass2 mc q * mtsun = totalMass mc q * mtsun := by rw [← p3]; ring
  have hη : (mc * mtsun / (totalMass mc q * mtsun)) ^ ((5 : ℝ) / 3) = PNSpec.eta (mass1 mc q) (mass2 mc q) := by
    rw [mul_div_mul_right _ _ hmt.ne', ← heta]; rfl
  have hF : (0 : ℝ) < 0.014 / (totalMass mc q * mtsun) := by positivity
  have hlow : ∀ f, 0 < f → f < 0.014 / (totalMass mc q * mtsun) → 0 < totalMass mc q * mtsun * f ∧ totalMass mc q * mtsun * f ≤ 0.014 := by
    intro f hf hf0
    rw [lt_div_iff₀ hM] at hf0
    exact ⟨by positivity, by linarith⟩
  refine spa_core (mc * mtsun) (totalMass mc q * mtsun) (PNSpec.eta (mass1 mc q) (mass2 mc q)) (d * mpcSec) (by positivity) hM hη hD _ _ _ _ _ ra hra _ _ _ _ _ _ rm hrm b
    (3 / (128 * PNSpec.eta (mass1 mc q) (mass2 mc q)) * (3 * PNSpec.psi5 (PNSpec.eta (mass1 mc q) (mass2 mc q)) (PNSpec.delta (mass1 mc q) (mass2 mc q)) (PNSpec.chiS chi1 chi2) (PNSpec.chiA chi1 chi2)))
    (3 / (128 * PNSpec.eta (mass1 mc q) (mass2 mc q)) * (-6848 / 21))
    (-(ctxOf mc q chi1 chi2).phase (totalMass mc q * mtsun * fRef) - 2 * phic + totalMass mc q * mtsun * fRef * (ctxOf mc q chi1 chi2).mrdDphase (ctxOf mc q chi1 chi2).peak)
    (-(totalMass mc q * mtsun * (ctxOf mc q chi1 chi2).mrdDphase (ctxOf mc q chi1 chi2).peak)) (0.014 / (totalMass mc q * mtsun)) _ hF
    (fun f => ‖htilde mc q (ctxOf mc q chi1 chi2) f d phic fRef‖) _ _
    (fun v => ‖mode22 (PNSpec.eta (mass1 mc q) (mass2 mc q)) (PNSpec.delta (mass1 mc q) (mass2 mc q)) (PNSpec.chiS chi1 chi2) (PNSpec.chiA chi1 chi2) v‖ ^ 2)
    ?_ hmode ?_ ?_ b5 (18 / 40 * PNSpec.psi2 (PNSpec.eta (mass1 mc q) (mass2 mc q)))
    (10 / 40 * PNSpec.psi3 (PNSpec.eta (mass1 mc q) (mass2 mc q)) (PNSpec.delta (mass1 mc q) (mass2 mc q)) (PNSpec.chiS chi1 chi2) (PNSpec.chiA chi1 chi2))
    (4 / 40 * PNSpec.psi4 (PNSpec.eta (mass1 mc q) (mass2 mc q)) (PNSpec.delta (mass1 mc q) (mass2 mc q)) (PNSpec.chiS chi1 chi2) (PNSpec.chiA chi1 chi2))
    (-9 / 40 * PNSpec.psi5 (PNSpec.eta (mass1 mc q) (mass2 mc q)) (PNSpec.delta (mass1 mc q) (mass2 mc q)) (PNSpec.chiS chi1 chi2) (PNSpec.chiA chi1 chi2))
    (-(2 * phase6 (PNSpec.eta (mass1 mc q) (mass2 mc q)) (PNSpec.delta (mass1 mc q) (mass2 mc q)) (PNSpec.chiS chi1 chi2) (PNSpec.chiA chi1 chi2) + -6848 / 21) / 40)
    (856 / 105 + 856 / 105)
    (by rw [b3]; ring) (by rw [b2]; ring) (by rw [b1]; ring) (by ring) (by rw [bb1]; ring) (by ring) m2 m3 m4 m5 m6 (by norm_num)
  · intro f hf hf0
    obtain ⟨q1, q2⟩ := hlow f hf hf0
    have hA := hamp _ q1 (velocity (totalMass mc q * mtsun) f * Real.log (velocity (totalMass mc q * mtsun) f))
    rw [velocity_eq] at hA
    have e1 : (ctxOf mc q chi1 chi2).eta = PNSpec.eta (mass1 mc q) (mass2 mc q) := heta
    have e2 : (ctxOf mc q chi1 chi2).seta = PNSpec.delta (mass1 mc q) (mass2 mc q) := hS
    rw [e1, e2, show (ctxOf mc q chi1 chi2).chi1 = chi1 from rfl, show (ctxOf mc q chi1 chi2).chi2 = chi2 from rfl] at hA
    rw [htilde_norm mc q chi1 chi2 f d phic fRef h hf hd, mul_pow, sq_abs, Ctx.amp_eq _ j1, if_pos (by unfold Ctx.ampJoin; exact q2), hA]
  · intro f hf
    unfold SpaSpec.amplitude
    rw [sEta, sDel, sM]
    ring
  · intro f hf hf0
    obtain ⟨q1, q2⟩ := hlow f hf hf0
    unfold strainPhase
    rw [Ctx.phase_eq _ j2 (totalMass mc q * mtsun * f), if_pos (by unfold Ctx.phiJoin; linarith), hb _ q1, velocity_eq]
    ring

/-- At low frequency the strain is its modulus times the phase factor of `strainPhase`. -/
theorem strain_phase_eq (hphys : Physical mc q chi1 chi2) (hd : 0 < d) :
    ∀ᶠ f in 𝓝[>] (0 : ℝ), htilde mc q (ctxOf mc q chi1 chi2) f d phic fRef =
      (‖htilde mc q (ctxOf mc q chi1 chi2) f d phic fRef‖ : ℂ) * Complex.exp (-Complex.I * (strainPhase mc q chi1 chi2 phic fRef f : ℂ)) := by
  have hmt : 0 < mtsun := mtsun_pos
  obtain ⟨hm, hq, _⟩ := id hphys
  obtain ⟨p1, p2, p3, p4, p5⟩ := masses_pos mc q hm hq
  have hT : 0 < totalMass mc q := by linarith
  have hc := good mc q chi1 chi2 hphys
  obtain ⟨j1, j2, j3, j4⟩ := hc.joins
  obtain ⟨ra, hra, hamp⟩ := insAmp_series (ctxOf mc q chi1 chi2) rfl rfl
  have hM : 0 < totalMass mc q * mtsun := by positivity
  have hpos : ∀ᶠ v in 𝓝[>] (0 : ℝ), 0 < trunc (ampA (ctxOf mc q chi1 chi2).eta (ctxOf mc q chi1 chi2).seta (ctxOf mc q chi1 chi2).chi1 (ctxOf mc q chi1 chi2).chi2 2)
      (ampA (ctxOf mc q chi1 chi2).eta (ctxOf mc q chi1 chi2).seta (ctxOf mc q chi1 chi2).chi1 (ctxOf mc q chi1 chi2).chi2 3)
      (ampA (ctxOf mc q chi1 chi2).eta (ctxOf mc q chi1 chi2).seta (ctxOf mc q chi1 chi2).chi1 (ctxOf mc q chi1 chi2).chi2 4)
      (ampA (ctxOf mc q chi1 chi2).eta (ctxOf mc q chi1 chi2).seta (ctxOf mc q chi1 chi2).chi1 (ctxOf mc q chi1 chi2).chi2 5)
      (ampA (ctxOf mc q chi1 chi2).eta (ctxOf mc q chi1 chi2).seta (ctxOf mc q chi1 chi2).chi1 (ctxOf mc q chi1 chi2).chi2 6) 0 (ra (v, v * Real.log v)) v (v * Real.log v) := by
    have ht := ((trunc_continuous (ampA (ctxOf mc q chi1 chi2).eta (ctxOf mc q chi1 chi2).seta (ctxOf mc q chi1 chi2).chi1 (ctxOf mc q chi1 chi2).chi2 2)
      (ampA (ctxOf mc q chi1 chi2).eta (ctxOf mc q chi1 chi2).seta (ctxOf mc q chi1 chi2).chi1 (ctxOf mc q chi1 chi2).chi2 3)
      (ampA (ctxOf mc q chi1 chi2).eta (ctxOf mc q chi1 chi2).seta (ctxOf mc q chi1 chi2).chi1 (ctxOf mc q chi1 chi2).chi2 4)
      (ampA (ctxOf mc q chi1 chi2).eta (ctxOf mc q chi1 chi2).seta (ctxOf mc q chi1 chi2).chi1 (ctxOf mc q chi1 chi2).chi2 5)
      (ampA (ctxOf mc q chi1 chi2).eta (ctxOf mc q chi1 chi2).seta (ctxOf mc q chi1 chi2).chi1 (ctxOf mc q chi1 chi2).chi2 6) 0 ra hra).tendsto (0, 0)).comp pair_tendsto
    have h1 : (0 : ℝ) < 1 := one_pos
    refine (ht.eventually (lt_mem_nhds ?_)).mono fun v hv => hv
    simp [trunc]
  have hlt : ∀ᶠ f in 𝓝[>] (0 : ℝ), 0 < f ∧ f < 0.014 / (totalMass mc q * mtsun) := by
    filter_upwards [Ioo_mem_nhdsGT (show (0 : ℝ) < 0.014 / (totalMass mc q * mtsun) by positivity)] with f hf using hf
  filter_upwards [hlt, (velocity_tendsto _ hM).eventually hpos] with f ⟨hf, hf0⟩ hv
  rw [lt_div_iff₀ hM] at hf0
  have q1 : 0 < totalMass mc q * mtsun * f := by positivity
  have hA := hamp _ q1 (velocity (totalMass mc q * mtsun) f * Real.log (velocity (totalMass mc q * mtsun) f))
  rw [velocity_eq] at hA
  have hap : 0 < (ctxOf mc q chi1 chi2).amp (totalMass mc q * mtsun * f) := by
    rw [Ctx.amp_eq _ j1, if_pos (by unfold Ctx.ampJoin; linarith), hA]
    exact hv
  rw [htilde_norm mc q chi1 chi2 f d phic fRef hphys hf hd, abs_of_pos hap, htilde_eq mc q chi1 chi2 f d phic fRef hphys hf hd]
  rfl

/-- **C79.**  The modulus and the phase of the IMRPhenomD strain of any physical binary whose first body is the heavier fit together: at low frequency the squared modulus is what the stationary-phase approximation makes of the 3PN dominant mode and of the strain's own phase, with a relative error of seventh order in the velocity, except for one 3PN term that is quadratic in the spins and depends only on the masses and spins. -/
theorem strain_is_stationary_phase (hm : 0 < mc) (hq : 0 < q) (h1 : q ≤ 1) :
    ∃ kss ksa kaa : ℝ, ∀ chi1 chi2 d phic fRef, (-1 ≤ chi1 ∧ chi1 ≤ 1) → (-1 ≤ chi2 ∧ chi2 ≤ 1) → 0 < d → 0 < fRef →
      ∃ ψ : ℝ → ℝ, (∀ f, 0 < f → DifferentiableAt ℝ ψ f) ∧
        (∀ᶠ f in 𝓝[>] (0 : ℝ), htilde mc q (ctxOf mc q chi1 chi2) f d phic fRef =
          (‖htilde mc q (ctxOf mc q chi1 chi2) f d phic fRef‖ : ℂ) * Complex.exp (-Complex.I * (ψ f : ℂ))) ∧
        (fun f => ‖htilde mc q (ctxOf mc q chi1 chi2) f d phic fRef‖ ^ 2 /
            power (SpaSpec.amplitude (mass1 mc q * mtsun) (mass2 mc q * mtsun) chi1 chi2 (d * mpcSec)) ψ f
          - 1 - (kss * PNSpec.chiS chi1 chi2 ^ 2 + ksa * PNSpec.chiS chi1 chi2 * PNSpec.chiA chi1 chi2 + kaa * PNSpec.chiA chi1 chi2 ^ 2)
            * velocity ((mass1 mc q + mass2 mc q) * mtsun) f ^ 6) =O[𝓝[>] 0] fun f => velocity ((mass1 mc q + mass2 mc q) * mtsun) f ^ 7 := by
  obtain ⟨p1, p2, p3, p4, p5⟩ := masses_pos mc q hm hq
  have hmt : 0 < mtsun := mtsun_pos
  have hT : 0 < totalMass mc q := by linarith
  rw [p3]
  refine ⟨_, _, _, fun chi1 chi2 d phic fRef hx1 hx2 hd hr => ⟨strainPhase mc q chi1 chi2 phic fRef, ?_, ?_, spa_ratio mc q chi1 chi2 d phic fRef ⟨hm, hq, hx1, hx2⟩ h1 hd⟩⟩
  · intro f hf
    have hc := (phase_C1 mc q chi1 chi2 ⟨hm, hq, hx1, hx2⟩).1 (totalMass mc q * mtsun * f) (by positivity)
    unfold strainPhase
    have : DifferentiableAt ℝ (fun f => (ctxOf mc q chi1 chi2).phase (totalMass mc q * mtsun * f)) f :=
      hc.differentiableAt.comp f ((differentiableAt_id).const_mul _)
    fun_prop
  · exact strain_phase_eq mc q chi1 chi2 d phic fRef ⟨hm, hq, hx1, hx2⟩ hd

/-- **C79.**  Without spins the relative error is of seventh order. -/
theorem nonspinning_stationary_phase (hm : 0 < mc) (hq : 0 < q) (h1 : q ≤ 1) (hd : 0 < d) :
    (fun f => ‖htilde mc q (ctxOf mc q 0 0) f d phic fRef‖ ^ 2 /
        power (SpaSpec.amplitude (mass1 mc q * mtsun) (mass2 mc q * mtsun) 0 0 (d * mpcSec)) (strainPhase mc q 0 0 phic fRef) f - 1)
      =O[𝓝[>] 0] fun f => velocity (totalMass mc q * mtsun) f ^ 7 := by
  have := spa_ratio mc q 0 0 d phic fRef ⟨hm, hq, by norm_num, by norm_num⟩ h1 hd
  simpa [spinSq, PNSpec.chiS, PNSpec.chiA] using this

end main

example : (0 : ℝ) < 30 ∧ (0 : ℝ) < 0.8 ∧ (0.8 : ℝ) ≤ 1 ∧ ((-1 : ℝ) ≤ 0.9 ∧ (0.9 : ℝ) ≤ 1) ∧ (0 : ℝ) < 100 ∧ (0 : ℝ) < 20 := by norm_num
example : ampA 0.25 0 0.5 0.5 3 ≠ 0 := by norm_num [ampA]

end Verif.PhenomD
