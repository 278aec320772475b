import Verif.Props.BalancePhenomP
/-!
# C105: which body is called the first
-/
set_option linter.unusedSimpArgs false
set_option linter.unusedVariables false
namespace Verif.PhenomD
open CbcUtils TaylorF2 Filter Topology

/-- The same quantities with the two masses exchanged. -/
def swapM (c : Ctx) : Ctx := { c with m1 := c.m2, m2 := c.m1 }

section
variable (mc q chi1 chi2 d phic fRef : ℝ)

/-- Inverting the mass ratio exchanges the masses. -/
theorem masses_inv (hm : 0 < mc) (hq : 0 < q) : totalMass mc q⁻¹ = totalMass mc q ∧ mass1 mc q⁻¹ = mass2 mc q ∧ mass2 mc q⁻¹ = mass1 mc q ∧ etaOf mc q⁻¹ = etaOf mc q := by
  have h1 : 0 < 1 + q := by linarith
  have hA : 0 < (1 + q) ^ (1.2 : ℝ) := Real.rpow_pos_of_pos h1 _
  have hB : 0 < q ^ (0.6 : ℝ) := Real.rpow_pos_of_pos hq _
  have e1 : 1 + q⁻¹ = (1 + q) / q := by field_simp; ring
  have e2 : q ^ (1.2 : ℝ) = q ^ (0.6 : ℝ) * q ^ (0.6 : ℝ) := by rw [← Real.rpow_add hq]; norm_num
  have t : totalMass mc q⁻¹ = totalMass mc q := by
    unfold totalMass
    rw [e1, Real.div_rpow h1.le hq.le, Real.inv_rpow hq.le, e2]
    field_simp
  have m1 : mass1 mc q⁻¹ = mass2 mc q := by
    unfold mass2 mass1
    rw [t, e1]
    field_simp
  refine ⟨t, m1, ?_, ?_⟩
  · unfold mass2
    rw [m1]
    unfold mass2
    field_simp
  · unfold etaOf
    rw [t]

/-- Inverting the mass ratio and keeping the spins exchanges the masses and nothing else. -/
theorem ctx_inv (hm : 0 < mc) (hq : 0 < q) : ctxOf mc q⁻¹ chi1 chi2 = swapM (ctxOf mc q chi1 chi2) := by
  obtain ⟨t, m1, m2, e⟩ := masses_inv mc q hm hq
  unfold ctxOf rdOf mkCtx swapM
  dsimp only
  rw [e, m1, m2]

theorem swapM_amp (c : Ctx) : (swapM c).amp = c.amp := rfl

/-- With equal spins the phase of the exchanged masses is the same. -/
theorem swapM_insPhase (c : Ctx) (h1 : 0 < c.m1) (h2 : 0 < c.m2) (he : c.eta = PNSpec.eta c.m1 c.m2) (hs : c.chi1 = c.chi2) (mf : ℝ) (h : 0 < mf) :
    (swapM c).insPhase mf = c.insPhase mf := by
  have k := c.ss3_removes mf h h1 h2 he
  have eη : PNSpec.eta c.m2 c.m1 = PNSpec.eta c.m1 c.m2 := by unfold PNSpec.eta; rw [mul_comm, add_comm]
  have k' := (swapM c).ss3_removes mf h h2 h1 (by rw [show (swapM c).m1 = c.m2 from rfl, show (swapM c).m2 = c.m1 from rfl, eη]; exact he)
  have a0 : PNSpec.chiA c.chi1 c.chi2 = 0 := by unfold PNSpec.chiA; rw [hs]; ring
  have p0 : PNSpec.phase c.m2 c.m1 c.chi1 c.chi2 (Bin.v mf) = PNSpec.phase c.m1 c.m2 c.chi1 c.chi2 (Bin.v mf) := by
    have hb : c.bin.Valid := ⟨h1, h2⟩
    have hb' : c.bin.swap.Valid := ⟨h2, h1⟩
    have z := Bin.phasing_swap hb mf h
    rw [Bin.phasing_eq hb mf h, Bin.phasing_eq hb' mf h] at z
    have z' : PNSpec.phase c.m2 c.m1 c.chi2 c.chi1 (Bin.v mf) - Real.pi / 4 = PNSpec.phase c.m1 c.m2 c.chi1 c.chi2 (Bin.v mf) - Real.pi / 4 := by
      first
      | exact z
      | (have : PNSpec.phase c.m2 c.m1 c.chi2 c.chi1 (Bin.v mf) = PNSpec.phase c.m1 c.m2 c.chi1 c.chi2 (Bin.v mf) := z
         rw [this])
    rw [← hs] at z' ⊢
    linarith
  simp only [show (swapM c).m1 = c.m2 from rfl, show (swapM c).m2 = c.m1 from rfl, show (swapM c).chi1 = c.chi1 from rfl, show (swapM c).chi2 = c.chi2 from rfl, eη, a0, p0, mul_zero, zero_mul] at k k'
  have key : (swapM c).bin.phasing mf - (swapM c).ss3 mf = c.bin.phasing mf - c.ss3 mf := by
    rw [k, k']
  unfold Ctx.insPhase
  rw [key]
  rfl

theorem swapM_phase (c : Ctx) (h1 : 0 < c.m1) (h2 : 0 < c.m2) (he : c.eta = PNSpec.eta c.m1 c.m2) (hs : c.chi1 = c.chi2) (j : Ctx.phiJoin < c.rdJoin) (mf : ℝ) (h : 0 < mf) :
    (swapM c).phase mf = c.phase mf := by
  have hP := swapM_insPhase c h1 h2 he hs
  have hJ : (0 : ℝ) < Ctx.phiJoin := by unfold Ctx.phiJoin; norm_num
  have hD : (swapM c).insDphase Ctx.phiJoin = c.insDphase Ctx.phiJoin := by
    refine HasDerivAt.unique ((swapM c).insPhase_deriv _ hJ h2 h1) ((c.insPhase_deriv _ hJ h1 h2).congr_of_eventuallyEq ?_)
    filter_upwards [lt_mem_nhds hJ] with x hx using hP x hx
  have c2 : (swapM c).c2Int = c.c2Int := by unfold Ctx.c2Int; rw [hD]; rfl
  have c1 : (swapM c).c1Int = c.c1Int := by unfold Ctx.c1Int; rw [hP _ hJ, c2]; rfl
  have d2 : (swapM c).c2Mrd = c.c2Mrd := by unfold Ctx.c2Mrd; rw [c2]; rfl
  have d1 : (swapM c).c1Mrd = c.c1Mrd := by unfold Ctx.c1Mrd; rw [c1, c2, d2]; rfl
  rw [Ctx.phase_eq _ j, Ctx.phase_eq (swapM c) j, hP mf h, c1, c2, d1, d2]
  rfl

/-- **C105.**  With equal spins the whole IMRPhenomD strain is the same whichever body is called the first.  (Missing: different spins, where the claim is false, `exchange_fails`.) -/
theorem exchange_equal_spins_partial (chi : ℝ) (h : Physical mc q chi chi) (f : ℝ) (hf : 0 < f) (hd : 0 < d) (hr : 0 < fRef) :
    htilde mc q⁻¹ (ctxOf mc q⁻¹ chi chi) f d phic fRef = htilde mc q (ctxOf mc q chi chi) f d phic fRef := by
  obtain ⟨hm, hq, hx, _⟩ := id h
  have h' : Physical mc q⁻¹ chi chi := ⟨hm, inv_pos.2 hq, hx, hx⟩
  obtain ⟨t, m1, m2, e⟩ := masses_inv mc q hm hq
  have hc := good mc q chi chi h
  obtain ⟨j1, j2, _⟩ := hc.joins
  obtain ⟨_, _, p3, _⟩ := masses_pos mc q hm hq
  have hM : 0 < totalMass mc q * mtsun := by
    rw [← p3]
    exact mul_pos (add_pos hc.m1 hc.m2) mtsun_pos
  have hp := swapM_phase (ctxOf mc q chi chi) hc.m1 hc.m2 (eta_PN mc q hm hq) rfl j2
  rw [htilde_eq mc q⁻¹ chi chi f d phic fRef h' hf hd, htilde_eq mc q chi chi f d phic fRef h hf hd, t, ctx_inv mc q chi chi hm hq, swapM_amp, hp _ (mul_pos hM hf),
    hp _ (mul_pos hM hr)]
  rfl

/-- **C105.**  The amplitude takes the first spin for that of the heavier body whatever the mass ratio: inverting the mass ratio alone does not change the modulus. -/
theorem exchange_modulus (h : Physical mc q chi1 chi2) (f : ℝ) (hf : 0 < f) (hd : 0 < d) :
    ‖htilde mc q⁻¹ (ctxOf mc q⁻¹ chi1 chi2) f d phic fRef‖ = ‖htilde mc q (ctxOf mc q chi1 chi2) f d phic fRef‖ := by
  obtain ⟨hm, hq, hx⟩ := id h
  rw [htilde_norm mc q⁻¹ chi1 chi2 f d phic fRef ⟨hm, inv_pos.2 hq, hx⟩ hf hd, htilde_norm mc q chi1 chi2 f d phic fRef h hf hd, (masses_inv mc q hm hq).1,
    ctx_inv mc q chi1 chi2 hm hq, swapM_amp]

/-- Two amplitudes of the same masses with the spins exchanged differ at low frequency. -/
theorem spins_differ (c c' : Ctx) (he : c'.eta = c.eta) (hs : c'.seta = c.seta) (e1 : c'.chi1 = c.chi2) (e2 : c'.chi2 = c.chi1) (h : c.chi1 ≠ c.chi2) (h0 : c.seta ≠ 0) :
    ∀ᶠ mf in 𝓝[>] (0 : ℝ), c'.insAmp mf ≠ c.insAmp mf := by
  set g : ℝ → ℝ := fun r => (pre1 c'.eta c'.eta2 c'.seta c'.chi1 c'.chi2 - pre1 c.eta c.eta2 c.seta c.chi1 c.chi2)
    + r * (pre43 c'.eta c'.eta2 c'.seta c'.chi1 c'.chi2 c'.chi12 c'.chi22 - pre43 c.eta c.eta2 c.seta c.chi1 c.chi2 c.chi12 c.chi22)
    + r ^ 2 * (pre53 c'.eta c'.eta2 c'.seta c'.chi1 c'.chi2 - pre53 c.eta c.eta2 c.seta c.chi1 c.chi2)
    + r ^ 3 * (pre2 c'.eta c'.eta2 c'.seta c'.chi1 c'.chi2 c'.chi12 c'.chi22 - pre2 c.eta c.eta2 c.seta c.chi1 c.chi2 c.chi12 c.chi22)
    + r ^ 4 * (rho1 c'.eta c'.eta2 c'.xi - rho1 c.eta c.eta2 c.xi) + r ^ 5 * (rho2 c'.eta c'.eta2 c'.xi - rho2 c.eta c.eta2 c.xi)
    + r ^ 6 * (rho3 c'.eta c'.eta2 c'.xi - rho3 c.eta c.eta2 c.xi) with hg
  have hpi := Real.pi_pos
  have hg0 : g 0 ≠ 0 := by
    have : g 0 = (c.chi2 - c.chi1) * c.seta * (162 * Real.pi / 48) := by
      rw [hg]
      unfold pre1
      dsimp only
      rw [he, hs, e1, e2]
      ring
    rw [this]
    exact mul_ne_zero (mul_ne_zero (sub_ne_zero.2 (Ne.symm h)) h0) (by positivity)
  have hc : ContinuousAt (fun x : ℝ => g (x ^ ((1 : ℝ) / 3))) 0 := by
    have hr : ContinuousAt (fun x : ℝ => x ^ ((1 : ℝ) / 3)) 0 := Real.continuousAt_rpow_const _ _ (.inr (by norm_num))
    have hgc : Continuous g := by rw [hg]; fun_prop
    exact hgc.continuousAt.comp hr
  have ht := hc.tendsto
  rw [Real.zero_rpow (by norm_num)] at ht
  filter_upwards [(ht.mono_left nhdsWithin_le_nhds).eventually (isOpen_ne.mem_nhds hg0), self_mem_nhdsWithin] with mf hne hpos
  rw [Set.mem_Ioi] at hpos
  rw [← sub_ne_zero]
  have hp : 0 < mf ^ ((1 : ℝ) / 3) := Real.rpow_pos_of_pos hpos _
  have h3 : mf = (mf ^ ((1 : ℝ) / 3)) ^ 3 := by rw [← Real.rpow_natCast, ← Real.rpow_mul hpos.le]; norm_num
  have e : c'.insAmp mf - c.insAmp mf = (mf ^ ((1 : ℝ) / 3)) ^ 3 * g (mf ^ ((1 : ℝ) / 3)) := by
    have p23 : pre23 c'.eta c'.eta2 c'.seta c'.chi1 c'.chi2 = pre23 c.eta c.eta2 c.seta c.chi1 c.chi2 := by unfold pre23; rw [he]
    rw [hg]
    unfold Ctx.insAmp
    dsimp only
    rw [p23]
    generalize mf ^ ((1 : ℝ) / 3) = r at *
    rw [h3]
    ring
  rw [e]
  exact mul_ne_zero (by positivity) hne

/-- **C105, negation.**  For unequal masses and different spins, calling the other body the first (inverse mass ratio, spins exchanged) changes the IMRPhenomD strain: even the moduli differ at every
low enough frequency. -/
theorem exchange_fails (h : Physical mc q chi1 chi2) (hq1 : q ≠ 1) (hx : chi1 ≠ chi2) (hd : 0 < d) :
    ∀ᶠ f in 𝓝[>] (0 : ℝ), ‖htilde mc q⁻¹ (ctxOf mc q⁻¹ chi2 chi1) f d phic fRef‖ ≠ ‖htilde mc q (ctxOf mc q chi1 chi2) f d phic fRef‖ := by
  obtain ⟨hm, hq, x1, x2⟩ := id h
  have h' : Physical mc q chi2 chi1 := ⟨hm, hq, x2, x1⟩
  have hc := good mc q chi1 chi2 h
  have hc' := good mc q chi2 chi1 h'
  obtain ⟨_, _, p3, _⟩ := masses_pos mc q hm hq
  have hM : 0 < totalMass mc q * mtsun := by
    rw [← p3]
    exact mul_pos (add_pos hc.m1 hc.m2) mtsun_pos
  have hseta : (ctxOf mc q chi1 chi2).seta ≠ 0 := by
    show setaOf (etaOf mc q) ≠ 0
    rw [setaOf_eq mc q hm hq]
    exact (div_pos (abs_pos.2 (sub_ne_zero.2 (Ne.symm hq1))) (by linarith)).ne'
  have hs : Tendsto (fun f : ℝ => totalMass mc q * mtsun * f) (𝓝[>] 0) (𝓝[>] 0) := by
    refine tendsto_nhdsWithin_iff.2 ⟨?_, ?_⟩
    · have : Continuous fun f : ℝ => totalMass mc q * mtsun * f := by fun_prop
      have := this.tendsto 0
      rw [mul_zero] at this
      exact this.mono_left nhdsWithin_le_nhds
    · filter_upwards [self_mem_nhdsWithin] with f hf using mul_pos hM (Set.mem_Ioi.1 hf)
  have k := hs.eventually (spins_differ (ctxOf mc q chi1 chi2) (ctxOf mc q chi2 chi1) rfl rfl rfl rfl hx hseta)
  have k1 := ((PhenomP.insAmp_tendsto (ctxOf mc q chi1 chi2)).comp hs).eventually (lt_mem_nhds one_pos)
  have k2 := ((PhenomP.insAmp_tendsto (ctxOf mc q chi2 chi1)).comp hs).eventually (lt_mem_nhds one_pos)
  filter_upwards [k, k1, k2, Ioo_mem_nhdsGT (show (0 : ℝ) < 0.014 / (totalMass mc q * mtsun) by positivity)] with f hne q1 q2 hf
  have hf2 := hf.2
  rw [lt_div_iff₀ hM] at hf2
  have low : totalMass mc q * mtsun * f ≤ Ctx.ampJoin := by unfold Ctx.ampJoin; linarith
  have hA := amplitude_pos mc d f hm hd hf.1
  rw [Function.comp_apply] at q1 q2
  rw [exchange_modulus mc q chi2 chi1 d phic fRef h' f hf.1 hd, htilde_norm mc q chi2 chi1 f d phic fRef h' hf.1 hd, htilde_norm mc q chi1 chi2 f d phic fRef h hf.1 hd,
    Ctx.amp_eq _ hc.joins.1, Ctx.amp_eq _ hc'.joins.1, if_pos low, if_pos low, abs_of_pos q1, abs_of_pos q2]
  exact fun e => hne (mul_left_cancel₀ hA.ne' e)

example : Physical 20 0.5 0.3 0.3 ∧ (0.5 : ℝ) ≠ 1 ∧ (0.3 : ℝ) ≠ -0.4 ∧ Physical 20 0.5 0.3 (-0.4) := by unfold Physical; norm_num

end

end Verif.PhenomD
