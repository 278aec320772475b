import Verif.Props.CbcTime
import Verif.Props.Balance
import Mathlib.MeasureTheory.Integral.IntervalIntegral.FundThmCalculus
/-!
# C104: the chirp-time bound against the energy balance
-/
set_option linter.unusedSimpArgs false
set_option linter.unusedVariables false
namespace Verif.CbcUtils
open CbcSpec PNSpec Spa SpaSpec BalanceSpec Filter Topology

/-- The derivative of the chirp time bound. -/
theorem chirpTime_deriv (f m1 m2 c1 c2 : ℝ) (h1 : 0 < m1) (h2 : 0 < m2) (hf : 0 < f) :
    HasDerivAt (fun x => chirpTimeBound x m1 m2 c1 c2) (-(5 * Real.pi * seconds (m1 + m2) ^ 2 / (96 * eta m1 m2)) / velocity (seconds (m1 + m2)) f ^ 11
      * (1 + 9 / 20 * psi2 (eta m1 m2) * velocity (seconds (m1 + m2)) f ^ 2 + 113 / 12 * max |c1| |c2| * velocity (seconds (m1 + m2)) f ^ 3
        + 1 / 2 * t2Timing4 (eta m1 m2) * velocity (seconds (m1 + m2)) f ^ 4)) f := by
  have hM := seconds_pos (m1 + m2) (by linarith)
  have hη : 0 < eta m1 m2 := by unfold eta; positivity
  have d := fun p => velocity_zpow_deriv (seconds (m1 + m2)) f hM hf p
  have hv := velocity_pos _ f hM hf
  have key := ((((d (-8)).add ((d (-6)).const_mul (3 / 5 * psi2 (eta m1 m2)))).add ((d (-5)).const_mul (226 / 15 * max |c1| |c2|))).add
    ((d (-4)).const_mul (t2Timing4 (eta m1 m2)))).const_mul (5 / 256 * seconds (m1 + m2) / eta m1 m2)
  refine (key.congr_of_eventuallyEq ?_).congr_deriv ?_
  · filter_upwards [lt_mem_nhds hf] with x hx
    have hvx := velocity_pos _ x hM hx
    rw [chirpTime_eq x m1 m2 c1 c2 h1 h2 hx, newtonianTime_eq x m1 m2 h1 h2 hx, t2Timing2_eq]
    show 5 / 256 * seconds (m1 + m2) / eta m1 m2 * (velocity (seconds (m1 + m2)) x ^ 8)⁻¹ * (1 + 3 / 5 * psi2 (eta m1 m2) * velocity (seconds (m1 + m2)) x ^ 2
      + 226 / 15 * max |c1| |c2| * velocity (seconds (m1 + m2)) x ^ 3 + t2Timing4 (eta m1 m2) * velocity (seconds (m1 + m2)) x ^ 4) = _
    simp only [Pi.add_apply]
    generalize velocity (seconds (m1 + m2)) x = v at *
    simp only [zpow_neg, ← zpow_natCast]
    field_simp
    norm_cast
    field_simp
  · generalize velocity (seconds (m1 + m2)) f = v at *
    simp only [zpow_neg, ← zpow_natCast]
    norm_num
    field_simp
    norm_cast
    field_simp
    rw [show ((Int.negSucc 39 : ℤ) : ℝ) = -40 by norm_num [Int.negSucc_eq]]
    ring

/-- The time per frequency as a quotient of two series, near zero frequency. -/
theorem timePerFrequency_series (m1 m2 c1 c2 : ℝ) (h1 : 0 < m1) (h2 : 0 < m2) :
    ∃ g4 g5 g6 gl g7 e4 e5 e6 e7 : ℝ, ∀ f, 0 < f → timePerFrequency (seconds m1) (seconds m2) c1 c2 f =
      5 * Real.pi * seconds (m1 + m2) ^ 2 / (96 * eta m1 m2) / velocity (seconds (m1 + m2)) f ^ 11 *
        (trunc (-1247 / 336 - 35 / 12 * eta m1 m2 + 9 / 20 * psi2 (eta m1 m2))
            (4 * Real.pi - 4 * cS (m1 / (m1 + m2)) c1 c2 - 5 / 4 * delta m1 m2 * cD (m1 / (m1 + m2)) c1 c2 + psi3 (eta m1 m2) (delta m1 m2) (chiS c1 c2) (chiA c1 c2) / 4) e4 e5 e6 0 e7
            (velocity (seconds (m1 + m2)) f) (velocity (seconds (m1 + m2)) f * Real.log (velocity (seconds (m1 + m2)) f)) /
          trunc (-1247 / 336 - 35 / 12 * eta m1 m2) (4 * Real.pi - 4 * cS (m1 / (m1 + m2)) c1 c2 - 5 / 4 * delta m1 m2 * cD (m1 / (m1 + m2)) c1 c2) g4 g5 g6 gl g7
            (velocity (seconds (m1 + m2)) f) (velocity (seconds (m1 + m2)) f * Real.log (velocity (seconds (m1 + m2)) f))) := by
  have hc : 0 < 6.67430e-11 / (299792458 : ℝ) ^ 3 := by norm_num
  have hs : ∀ m, seconds m = m * (6.67430e-11 / 299792458 ^ 3) := fun m => by unfold seconds; ring
  have hM := seconds_pos (m1 + m2) (by linarith)
  have hη : 0 < eta m1 m2 := by unfold eta; positivity
  have xM : seconds m1 + seconds m2 = seconds (m1 + m2) := by unfold seconds; ring
  have xe' : eta (seconds m1) (seconds m2) = eta m1 m2 := by rw [hs, hs]; unfold eta; field_simp
  have xd' : delta (seconds m1) (seconds m2) = delta m1 m2 := by rw [hs, hs]; unfold delta; field_simp
  have xs : spinS (seconds m1) (seconds m2) c1 c2 = cS (m1 / (m1 + m2)) c1 c2 := by rw [hs, hs]; unfold spinS cS; field_simp; ring
  have xD : spinD (seconds m1) (seconds m2) c1 c2 = cD (m1 / (m1 + m2)) c1 c2 := by rw [hs, hs]; unfold spinD cD; field_simp; ring
  have xe : eta m1 m2 = m1 / (m1 + m2) * (1 - m1 / (m1 + m2)) := by unfold eta; field_simp; ring
  have xd : delta m1 m2 = 2 * (m1 / (m1 + m2)) - 1 := by unfold delta; field_simp; ring
  generalize hS : cS (m1 / (m1 + m2)) c1 c2 = S at *
  generalize hDD : cD (m1 / (m1 + m2)) c1 c2 = D at *
  obtain ⟨e4, e5, e6, e7, hE⟩ : ∃ e4 e5 e6 e7 : ℝ, ∀ f, 0 < f → deriv (fun x => energy (eta m1 m2) (delta m1 m2) S D (velocity (seconds (m1 + m2)) x)) f =
      -(eta m1 m2 * (Real.pi * seconds (m1 + m2) / 3) / velocity (seconds (m1 + m2)) f) * trunc (2 * (-3 / 4 - eta m1 m2 / 12)) (5 / 2 * (14 / 3 * S + 2 * delta m1 m2 * D)) e4 e5 e6 0 e7
        (velocity (seconds (m1 + m2)) f) (velocity (seconds (m1 + m2)) f * Real.log (velocity (seconds (m1 + m2)) f)) :=
    ⟨_, _, _, _, fun f hf => energy_deriv _ _ _ _ _ f hM hf⟩
  obtain ⟨g4, g5, g6, gl, g7, hF⟩ : ∃ g4 g5 g6 gl g7 : ℝ, ∀ v, 0 < v → flux (eta m1 m2) (delta m1 m2) S D v =
      32 / 5 * eta m1 m2 ^ 2 * v ^ 10 * trunc (-1247 / 336 - 35 / 12 * eta m1 m2) (4 * Real.pi - 4 * S - 5 / 4 * delta m1 m2 * D) g4 g5 g6 gl g7 v (v * Real.log v) :=
    ⟨_, _, _, _, _, fun v hv => flux_series _ _ _ _ v hv⟩
  refine ⟨g4, g5, g6, gl, g7, e4, e5, e6, e7, fun f hf => ?_⟩
  unfold timePerFrequency
  rw [xM, xe', xd', xs, xD, hE f hf, hF _ (velocity_pos _ f hM hf)]
  have o2 := order2 (m1 / (m1 + m2))
  have o3 := order3 (m1 / (m1 + m2)) c1 c2
  rw [← xe] at o2 o3
  rw [← xd, hS, hDD] at o3
  rw [o2, o3]
  have hv := velocity_pos _ f hM hf
  generalize trunc _ _ _ _ _ _ _ _ _ = W
  generalize trunc _ _ _ _ _ _ _ _ _ = G
  generalize velocity (seconds (m1 + m2)) f = v at *
  by_cases hG : G = 0
  · rw [hG]; simp
  field_simp
  ring

/-- At low frequency the bound falls faster with the frequency than the binary spends time on it. -/
theorem chirpTime_rate (m1 m2 c1 c2 : ℝ) (h1 : 0 < m1) (h2 : 0 < m2) :
    ∃ f0 : ℝ, 0 < f0 ∧ (∀ f, 0 < f → f < f0 → ContinuousAt (timePerFrequency (seconds m1) (seconds m2) c1 c2) f ∧
      0 < timePerFrequency (seconds m1) (seconds m2) c1 c2 f ∧
      timePerFrequency (seconds m1) (seconds m2) c1 c2 f < -deriv (fun x => chirpTimeBound x m1 m2 c1 c2) f) := by
  have hM := seconds_pos (m1 + m2) (by linarith)
  have hη : 0 < eta m1 m2 := by unfold eta; positivity
  have hpi := Real.pi_pos
  obtain ⟨g4, g5, g6, gl, g7, e4, e5, e6, e7, hT⟩ := timePerFrequency_series m1 m2 c1 c2 h1 h2
  have p3 := psi3_spin m1 m2 c1 c2 h1 h2
  generalize psi3 (eta m1 m2) (delta m1 m2) (chiS c1 c2) (chiA c1 c2) = q3 at *
  generalize 4 * Real.pi - 4 * cS (m1 / (m1 + m2)) c1 c2 - 5 / 4 * delta m1 m2 * cD (m1 / (m1 + m2)) c1 c2 = g3 at *
  generalize hg2 : -1247 / 336 - 35 / 12 * eta m1 m2 = g2 at *
  generalize hq2 : psi2 (eta m1 m2) = q2 at *
  have hD := fun f hf => (chirpTime_deriv f m1 m2 c1 c2 h1 h2 hf).deriv
  rw [hq2] at hD
  generalize max |c1| |c2| = χ at *
  generalize t2Timing4 (eta m1 m2) = t4 at *
  -- the two series and the sign of their difference
  have cG := (trunc_continuous g2 g3 g4 g5 g6 gl (fun _ => g7) continuous_const)
  have cW := (trunc_continuous (g2 + 9 / 20 * q2) (g3 + q3 / 4) e4 e5 e6 0 (fun _ => e7) continuous_const)
  have eG : ∀ᶠ v in 𝓝[>] (0 : ℝ), 0 < trunc g2 g3 g4 g5 g6 gl g7 v (v * Real.log v) := by
    have h := (cG.tendsto (0, 0)).comp pair_tendsto
    refine h.eventually (lt_mem_nhds ?_)
    simp [trunc]
  have eW : ∀ᶠ v in 𝓝[>] (0 : ℝ), 0 < trunc (g2 + 9 / 20 * q2) (g3 + q3 / 4) e4 e5 e6 0 e7 v (v * Real.log v) := by
    have h := (cW.tendsto (0, 0)).comp pair_tendsto
    refine h.eventually (lt_mem_nhds ?_)
    simp [trunc]
  have eC : ∀ᶠ v in 𝓝[>] (0 : ℝ), trunc (g2 + 9 / 20 * q2) (g3 + q3 / 4) e4 e5 e6 0 e7 v (v * Real.log v) <
      trunc g2 g3 g4 g5 g6 gl g7 v (v * Real.log v) * (1 + 9 / 20 * q2 * v ^ 2 + 113 / 12 * χ * v ^ 3 + 1 / 2 * t4 * v ^ 4) := by
    have hc : Continuous fun p : ℝ × ℝ => (113 / 12 * χ - q3 / 4) + p.1 * (g4 + g2 * (9 / 20 * q2) + 1 / 2 * t4 - e4) + p.1 ^ 2 * (g5 + g3 * (9 / 20 * q2) + g2 * (113 / 12 * χ) - e5 + gl * p.2)
        + p.1 ^ 3 * (g6 + g4 * (9 / 20 * q2) + g3 * (113 / 12 * χ) + g2 * (1 / 2 * t4) - e6) + p.1 ^ 4 * (g7 - e7 + (g5 + gl * p.2) * (9 / 20 * q2) + g4 * (113 / 12 * χ) + g3 * (1 / 2 * t4))
        + p.1 ^ 5 * (g6 * (9 / 20 * q2) + (g5 + gl * p.2) * (113 / 12 * χ) + g4 * (1 / 2 * t4)) + p.1 ^ 6 * (g7 * (9 / 20 * q2) + g6 * (113 / 12 * χ) + (g5 + gl * p.2) * (1 / 2 * t4))
        + p.1 ^ 7 * (g7 * (113 / 12 * χ) + g6 * (1 / 2 * t4)) + p.1 ^ 8 * (g7 * (1 / 2 * t4)) := by fun_prop
    have h := (hc.tendsto (0, 0)).comp pair_tendsto
    filter_upwards [h.eventually (lt_mem_nhds (show (0 : ℝ) < _ by
      simp only [ne_eq, OfNat.ofNat_ne_zero, not_false_eq_true, zero_pow, zero_mul, add_zero]
      linarith)), self_mem_nhdsWithin] with v hv hv0
    simp only [Function.comp] at hv
    have hv0 : 0 < v := hv0
    have := mul_pos (pow_pos hv0 3) hv
    unfold trunc
    nlinarith [this]
  have ev := (velocity_tendsto (seconds (m1 + m2)) hM).eventually (eG.and (eW.and eC))
  obtain ⟨f0, hf0, hI⟩ := mem_nhdsGT_iff_exists_Ioo_subset.1 ev
  refine ⟨f0, hf0, fun f hf hff => ?_⟩
  obtain ⟨hG, hW, hC⟩ := hI ⟨hf, hff⟩
  have hv := velocity_pos _ f hM hf
  refine ⟨?_, ?_, ?_⟩
  · obtain ⟨Wf, hWf, cWf⟩ : ∃ Wf : ℝ × ℝ → ℝ, (∀ v u, trunc (g2 + 9 / 20 * q2) (g3 + q3 / 4) e4 e5 e6 0 e7 v u = Wf (v, u)) ∧ Continuous Wf := ⟨_, fun _ _ => rfl, cW⟩
    obtain ⟨Gf, hGf, cGf⟩ : ∃ Gf : ℝ × ℝ → ℝ, (∀ v u, trunc g2 g3 g4 g5 g6 gl g7 v u = Gf (v, u)) ∧ Continuous Gf := ⟨_, fun _ _ => rfl, cG⟩
    simp only [hWf, hGf] at hT hG
    have hvc : ContinuousAt (velocity (seconds (m1 + m2))) f := (velocity_deriv _ f hM hf).continuousAt
    generalize velocity (seconds (m1 + m2)) = w at *
    have hlc : ContinuousAt (fun x => Real.log (w x)) f := hvc.log hv.ne'
    have hp : ContinuousAt (fun x => (w x, w x * Real.log (w x))) f := hvc.prodMk (hvc.mul hlc)
    have k1 : ContinuousAt (fun x => Wf (w x, w x * Real.log (w x))) f := ContinuousAt.comp (g := Wf) cWf.continuousAt hp
    have k2 : ContinuousAt (fun x => Gf (w x, w x * Real.log (w x))) f := ContinuousAt.comp (g := Gf) cGf.continuousAt hp
    have k3 : ContinuousAt (fun x => w x ^ 11) f := hvc.pow 11
    have hcont := (ContinuousAt.div (continuousAt_const (y := 5 * Real.pi * seconds (m1 + m2) ^ 2 / (96 * eta m1 m2))) k3 (by positivity)).mul (k1.div k2 hG.ne')
    refine hcont.congr ?_
    filter_upwards [lt_mem_nhds hf] with x hx
    exact (hT x hx).symm
  · rw [hT f hf]
    have := div_pos hW hG
    positivity
  · rw [hT f hf, hD f hf]
    rw [neg_div, neg_mul, neg_neg]
    apply mul_lt_mul_of_pos_left _ (by positivity)
    rw [div_lt_iff₀ hG]
    linarith [hC]

/-- **C104.**  The chirp time bound is a bound on what the energy balance gives, with every post-Newtonian term of the energy and the flux through 3.5PN and for any aligned spins: for all frequencies `f < f1` below some `f0`, the time the binary takes to sweep from `f` to `f1` is less than what the bound falls by, and so less than the bound itself. -/
theorem chirpTime_bounds_balance (m1 m2 c1 c2 : ℝ) (h1 : 0 < m1) (h2 : 0 < m2) :
    ∃ f0 : ℝ, 0 < f0 ∧ ∀ f f1, 0 < f → f < f1 → f1 < f0 →
      0 < (∫ x in f..f1, timePerFrequency (seconds m1) (seconds m2) c1 c2 x) ∧
      (∫ x in f..f1, timePerFrequency (seconds m1) (seconds m2) c1 c2 x) < chirpTimeBound f m1 m2 c1 c2 - chirpTimeBound f1 m1 m2 c1 c2 ∧
      (∫ x in f..f1, timePerFrequency (seconds m1) (seconds m2) c1 c2 x) < chirpTimeBound f m1 m2 c1 c2 := by
  obtain ⟨f0, hf0, h⟩ := chirpTime_rate m1 m2 c1 c2 h1 h2
  refine ⟨f0, hf0, fun f f1 hf hlt hf1 => ?_⟩
  have hin : ∀ x ∈ Set.Icc f f1, 0 < x ∧ x < f0 := fun x hx => ⟨hf.trans_le hx.1, hx.2.trans_lt hf1⟩
  have cT : ContinuousOn (timePerFrequency (seconds m1) (seconds m2) c1 c2) (Set.Icc f f1) := fun x hx => (h x (hin x hx).1 (hin x hx).2).1.continuousWithinAt
  have hu : Set.uIcc f f1 = Set.Icc f f1 := Set.uIcc_of_le hlt.le
  have cD : ContinuousOn (deriv fun x => chirpTimeBound x m1 m2 c1 c2) (Set.Icc f f1) := by
    have hM := seconds_pos (m1 + m2) (by linarith)
    intro x hx
    obtain ⟨hx0, -⟩ := hin x hx
    have hv := velocity_pos _ x hM hx0
    have hvc : ContinuousAt (velocity (seconds (m1 + m2))) x := (velocity_deriv _ x hM hx0).continuousAt
    refine (ContinuousAt.congr (f := fun y => -(5 * Real.pi * seconds (m1 + m2) ^ 2 / (96 * eta m1 m2)) / velocity (seconds (m1 + m2)) y ^ 11
      * (1 + 9 / 20 * psi2 (eta m1 m2) * velocity (seconds (m1 + m2)) y ^ 2 + 113 / 12 * max |c1| |c2| * velocity (seconds (m1 + m2)) y ^ 3
        + 1 / 2 * t2Timing4 (eta m1 m2) * velocity (seconds (m1 + m2)) y ^ 4)) ?_ ?_).continuousWithinAt
    · have : velocity (seconds (m1 + m2)) x ^ 11 ≠ 0 := by positivity
      fun_prop (disch := assumption)
    · filter_upwards [lt_mem_nhds hx0] with y hy
      exact (chirpTime_deriv y m1 m2 c1 c2 h1 h2 hy).deriv.symm
  have hint : (∫ x in f..f1, -deriv (fun x => chirpTimeBound x m1 m2 c1 c2) x) = chirpTimeBound f m1 m2 c1 c2 - chirpTimeBound f1 m1 m2 c1 c2 := by
    rw [intervalIntegral.integral_neg, intervalIntegral.integral_deriv_eq_sub]
    · ring
    · intro x hx
      rw [hu] at hx
      exact (chirpTime_deriv x m1 m2 c1 c2 h1 h2 (hin x hx).1).differentiableAt
    · exact (hu ▸ cD).intervalIntegrable
  have a : 0 < ∫ x in f..f1, timePerFrequency (seconds m1) (seconds m2) c1 c2 x :=
    intervalIntegral.intervalIntegral_pos_of_pos_on (hu ▸ cT).intervalIntegrable (fun x hx => (h x (hf.trans hx.1) (hx.2.trans hf1)).2.1) hlt
  have b : (∫ x in f..f1, timePerFrequency (seconds m1) (seconds m2) c1 c2 x) < chirpTimeBound f m1 m2 c1 c2 - chirpTimeBound f1 m1 m2 c1 c2 := by
    rw [← hint]
    refine intervalIntegral.integral_lt_integral_of_continuousOn_of_le_of_exists_lt hlt cT cD.neg (fun x hx => ?_) ⟨f, Set.left_mem_Icc.2 hlt.le, ?_⟩
    · exact (h x (hf.trans hx.1) (hx.2.trans_lt hf1)).2.2.le
    · exact (h f hf (hlt.trans hf1)).2.2
  exact ⟨a, b, b.trans_le (by linarith [(chirpTime_bound f1 m1 m2 c1 c2 h1 h2 (hf.trans hlt)).1])⟩

example : (0 : ℝ) < 30 * msun ∧ (0 : ℝ) < 25 * msun := ⟨by have := msun_pos; positivity, by have := msun_pos; positivity⟩

end Verif.CbcUtils
