import Verif.Props.BalanceTaylorF2
import Verif.Props.SpaPhenomD
/-!
# C103: the IMRPhenomD phase and the energy balance
-/
set_option linter.unusedSimpArgs false
set_option linter.unusedVariables false
namespace Verif.PhenomD
open CbcUtils TaylorF2 Spa SpaSpec BalanceSpec Filter Topology Asymptotics

section
variable (mc q chi1 chi2 d phic fRef : ℝ)

/-- The 3PN terms quadratic in the spins. -/
noncomputable def spinSpin (η δ s a : ℝ) : ℝ :=
  (75515 / 144 - 8225 / 18 * η) * δ * a * s + (75515 / 288 - 263245 / 252 * η - 480 * η ^ 2) * a ^ 2 + (75515 / 288 - 232415 / 504 * η + 1255 / 9 * η ^ 2) * s ^ 2

theorem balance_ratio (h : Physical mc q chi1 chi2) :
    (fun f => deriv (deriv (strainPhase mc q chi1 chi2 phic fRef)) f / (2 * Real.pi * timePerFrequency (mass1 mc q * mtsun) (mass2 mc q * mtsun) chi1 chi2 f) - 1
        - spinSpin (PNSpec.eta (mass1 mc q) (mass2 mc q)) (PNSpec.delta (mass1 mc q) (mass2 mc q)) (PNSpec.chiS chi1 chi2) (PNSpec.chiA chi1 chi2) / 20
          * velocity (totalMass mc q * mtsun) f ^ 6
        - kk (mass1 mc q * mtsun / (totalMass mc q * mtsun)) chi1 chi2 * velocity (totalMass mc q * mtsun) f ^ 7)
      =o[𝓝[>] 0] fun f => velocity (totalMass mc q * mtsun) f ^ 7 := by
  obtain ⟨hm, hq, _⟩ := id h
  have hc := good mc q chi1 chi2 h
  obtain ⟨j1, j2, j3, j4⟩ := hc.joins
  obtain ⟨p1, p2, p3, p4, p5⟩ := masses_pos mc q hm hq
  have hmt : 0 < mtsun := mtsun_pos
  have hT : 0 < totalMass mc q := by linarith
  have heta := eta_PN mc q hm hq
  have hM : 0 < totalMass mc q * mtsun := by positivity
  obtain ⟨b, hb, b5, b3, b2, b1, bb1, bb2⟩ := insPhase_series (ctxOf mc q chi1 chi2) hc.m1 hc.m2 heta (PNSpec.eta (mass1 mc q) (mass2 mc q)) (PNSpec.delta (mass1 mc q) (mass2 mc q))
    (PNSpec.chiS chi1 chi2) (PNSpec.chiA chi1 chi2) rfl rfl rfl rfl
  have sEta : PNSpec.eta (mass1 mc q * mtsun) (mass2 mc q * mtsun) = PNSpec.eta (mass1 mc q) (mass2 mc q) := by unfold PNSpec.eta; field_simp
  have sDel : PNSpec.delta (mass1 mc q * mtsun) (mass2 mc q * mtsun) = PNSpec.delta (mass1 mc q) (mass2 mc q) := by unfold PNSpec.delta; field_simp
  have sM : mass1 mc q * mtsun + mass2 mc q * mtsun = totalMass mc q * mtsun := by rw [← p3]; ring
  have hF : (0 : ℝ) < 0.014 / (totalMass mc q * mtsun) := by positivity
  have hlow : ∀ f, 0 < f → f < 0.014 / (totalMass mc q * mtsun) → 0 < totalMass mc q * mtsun * f ∧ totalMass mc q * mtsun * f ≤ 0.014 := by
    intro f hf hf0
    rw [lt_div_iff₀ hM] at hf0
    exact ⟨by positivity, by linarith⟩
  have key := series_balance (mass1 mc q * mtsun) (mass2 mc q * mtsun) chi1 chi2
    (spinSpin (PNSpec.eta (mass1 mc q) (mass2 mc q)) (PNSpec.delta (mass1 mc q) (mass2 mc q)) (PNSpec.chiS chi1 chi2) (PNSpec.chiA chi1 chi2))
    (-(ctxOf mc q chi1 chi2).phase (totalMass mc q * mtsun * fRef) - 2 * phic + totalMass mc q * mtsun * fRef * (ctxOf mc q chi1 chi2).mrdDphase (ctxOf mc q chi1 chi2).peak)
    (-(totalMass mc q * mtsun * (ctxOf mc q chi1 chi2).mrdDphase (ctxOf mc q chi1 chi2).peak)) (0.014 / (totalMass mc q * mtsun)) (by positivity) (by positivity) hF
    (strainPhase mc q chi1 chi2 phic fRef) b _ _ (fun f hf hf0 => by
      obtain ⟨q1, q2⟩ := hlow f hf hf0
      unfold strainPhase
      rw [Ctx.phase_eq _ j2 (totalMass mc q * mtsun * f), if_pos (by unfold Ctx.phiJoin; linarith), hb _ q1, velocity_eq, sM]
      ring)
    (by rw [sEta, b5]) (by rw [sEta, b3]) (by rw [sEta, sDel, b2]) (by rw [sEta, sDel, b1])
    (by rw [sEta, sDel, bb1]; unfold phase6 PNSpec.psi6 spinSpin; rw [mul_one]; ring) (by rw [sEta, sDel, bb2]) (by rw [sEta, sDel]) (by rw [sEta])
  rw [sM] at key
  exact key

/-- **C103.**  The phase of the IMRPhenomD strain of any physical binary at low frequency is the one the energy budget dictates, through two and a half post-Newtonian orders for any aligned spins, and through three and a half in what is not quadratic or higher in the spins: the relative difference of `ψ''` and `2π dt/df` starts at `v⁶` with a term quadratic in the spins (`t` scales both). -/
theorem phase_solves_balance (hm : 0 < mc) (hq : 0 < q) (hx1 : -1 ≤ chi1 ∧ chi1 ≤ 1) (hx2 : -1 ≤ chi2 ∧ chi2 ≤ 1) (hd : 0 < d) :
    ∃ A B C : ℝ, ∀ t : ℝ, 0 ≤ t → t ≤ 1 → ∃ ψ : ℝ → ℝ, (∀ f, 0 < f → DifferentiableAt ℝ ψ f) ∧
      (∀ᶠ f in 𝓝[>] (0 : ℝ), htilde mc q (ctxOf mc q (t * chi1) (t * chi2)) f d phic fRef =
        (‖htilde mc q (ctxOf mc q (t * chi1) (t * chi2)) f d phic fRef‖ : ℂ) * Complex.exp (-Complex.I * (ψ f : ℂ))) ∧
      (fun f => deriv (deriv ψ) f / (2 * Real.pi * timePerFrequency (mass1 mc q * mtsun) (mass2 mc q * mtsun) (t * chi1) (t * chi2) f) - 1
          - A * t ^ 2 * velocity (totalMass mc q * mtsun) f ^ 6 - (B * t ^ 2 + C * t ^ 3) * velocity (totalMass mc q * mtsun) f ^ 7)
        =o[𝓝[>] 0] fun f => velocity (totalMass mc q * mtsun) f ^ 7 := by
  obtain ⟨B, C, hBC⟩ := kk_spins (mass1 mc q * mtsun / (totalMass mc q * mtsun)) chi1 chi2
  refine ⟨spinSpin (PNSpec.eta (mass1 mc q) (mass2 mc q)) (PNSpec.delta (mass1 mc q) (mass2 mc q)) (PNSpec.chiS chi1 chi2) (PNSpec.chiA chi1 chi2) / 20, B, C, fun t t0 t1 => ?_⟩
  have hmt : 0 < mtsun := mtsun_pos
  obtain ⟨p1, p2, p3, p4, p5⟩ := masses_pos mc q hm hq
  have hT : 0 < totalMass mc q := by linarith
  have hs : ∀ x : ℝ, -1 ≤ x ∧ x ≤ 1 → -1 ≤ t * x ∧ t * x ≤ 1 := fun x hx => by
    rw [← abs_le] at hx ⊢
    rw [abs_mul, abs_of_nonneg t0]
    exact mul_le_one₀ t1 (abs_nonneg _) hx
  have hphys : Physical mc q (t * chi1) (t * chi2) := ⟨hm, hq, hs _ hx1, hs _ hx2⟩
  refine ⟨strainPhase mc q (t * chi1) (t * chi2) phic fRef, ?_, strain_phase_eq mc q _ _ d phic fRef hphys hd, ?_⟩
  · intro f hf
    have hc := (phase_C1 mc q (t * chi1) (t * chi2) hphys).1 (totalMass mc q * mtsun * f) (by positivity)
    unfold strainPhase
    have : DifferentiableAt ℝ (fun f => (ctxOf mc q (t * chi1) (t * chi2)).phase (totalMass mc q * mtsun * f)) f :=
      hc.differentiableAt.comp f ((differentiableAt_id).const_mul _)
    fun_prop
  · have h := balance_ratio mc q (t * chi1) (t * chi2) phic fRef hphys
    rw [hBC] at h
    refine h.congr_left fun f => ?_
    congr 3
    unfold spinSpin PNSpec.chiS PNSpec.chiA
    ring

example : (0 : ℝ) < 30 ∧ (0 : ℝ) < 0.8 ∧ ((-1 : ℝ) ≤ 0.9 ∧ (0.9 : ℝ) ≤ 1) ∧ ((-1 : ℝ) ≤ -0.4 ∧ (-0.4 : ℝ) ≤ 1) ∧ (0 : ℝ) < 100 := by norm_num

end

end Verif.PhenomD
