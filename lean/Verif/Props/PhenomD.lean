import Verif.Props.PhenomDDomain
/-!
# Properties of `IMRPhenomD` (C59)
-/
set_option linter.unusedSimpArgs false
set_option linter.unusedVariables false
namespace Verif.PhenomD
open TaylorF2 CbcUtils

/-! ## Smoothness for every physical binary -/

section
variable {c : Ctx} (hc : Good c)
include hc

theorem Good.joins : Ctx.ampJoin < c.peak ∧ Ctx.phiJoin < c.rdJoin ∧ c.fDM ≠ 0 ∧ c.fDM * c.gamma3 ≠ 0 := by
  have h1 := hc.peak
  have h2 := hc.rd
  have h3 := hc.fDM
  have h4 := hc.g3.1
  have hd : c.fDM ≠ 0 := by linarith
  refine ⟨?_, ?_, hd, mul_ne_zero hd (by linarith)⟩
  · unfold Ctx.ampJoin; linarith
  · unfold Ctx.phiJoin Ctx.rdJoin; linarith

/-- The slope of the ringdown amplitude has the sign of minus `γ2 (y² + g²) + 2 g y`, with `y` the offset from the ringdown frequency and `g` the width. -/
theorem Good.mrdDamp_sign (x : ℝ) :
    ∃ k : ℝ, 0 < k ∧ c.mrdDamp x = -k * (c.gamma2 * ((x - c.fRD) ^ 2 + (c.fDM * c.gamma3) ^ 2) + 2 * (c.fDM * c.gamma3) * (x - c.fRD)) := by
  have hg : 0 < c.fDM * c.gamma3 := mul_pos (by linarith [hc.fDM]) (by linarith [hc.g3.1])
  have h1 : 0 < c.gamma1 := by linarith [hc.g1]
  have hL : 0 < (x - c.fRD) ^ 2 + (c.fDM * c.gamma3) ^ 2 := add_pos_of_nonneg_of_pos (sq_nonneg _) (by positivity)
  have hE := Real.exp_pos ((x - c.fRD) * c.gamma2 / (c.fDM * c.gamma3))
  refine ⟨c.gamma1 / (((x - c.fRD) ^ 2 + (c.fDM * c.gamma3) ^ 2) * (Real.exp ((x - c.fRD) * c.gamma2 / (c.fDM * c.gamma3)) * ((x - c.fRD) ^ 2 + (c.fDM * c.gamma3) ^ 2))), by positivity, ?_⟩
  unfold Ctx.mrdDamp
  rw [show (x - c.fRD) * (x - c.fRD) + c.fDM * c.gamma3 * (c.fDM * c.gamma3) = (x - c.fRD) ^ 2 + (c.fDM * c.gamma3) ^ 2 by ring,
    show (x - c.fRD) ^ 2 + c.fDM * c.gamma3 * (c.fDM * c.gamma3) = (x - c.fRD) ^ 2 + (c.fDM * c.gamma3) ^ 2 by ring,
    show (x - c.fRD) * -2 * c.fDM * c.gamma1 * c.gamma3 = (x - c.fRD) * -2 * c.gamma1 * (c.fDM * c.gamma3) by ring]
  generalize Real.exp ((x - c.fRD) * c.gamma2 / (c.fDM * c.gamma3)) = E at *
  generalize c.fDM * c.gamma3 = g at *
  generalize x - c.fRD = y at *
  generalize hLd : y ^ 2 + g ^ 2 = L at *
  field_simp
  ring

/-- **C59.**  When `γ2 ≤ 1` the frequency used as the peak is a stationary point of the ringdown amplitude. -/
theorem Good.peak_stationary (h : c.gamma2 ≤ 1) : c.mrdDamp c.peak = 0 := by
  obtain ⟨k, _, hk⟩ := hc.mrdDamp_sign c.peak
  have h2 : 0 < c.gamma2 := by linarith [hc.g2.1]
  rw [hk, hc.peak_eq, max_eq_left (by nlinarith)]
  have hs := Real.sq_sqrt (show 0 ≤ 1 - c.gamma2 ^ 2 by nlinarith)
  generalize Real.sqrt (1 - c.gamma2 ^ 2) = s at *
  have e : c.fRD + c.fDM * (-1 + s) * c.gamma3 / c.gamma2 - c.fRD = c.fDM * c.gamma3 * (-1 + s) / c.gamma2 := by ring
  rw [e]
  generalize c.fDM * c.gamma3 = g
  apply mul_eq_zero_of_right
  field_simp
  linear_combination g ^ 2 * hs

/-- **C59.**  Beyond the peak the amplitude never grows. -/
theorem Good.slope_after_peak (x : ℝ) (hx : c.peak ≤ x) : c.mrdDamp x ≤ 0 := by
  obtain ⟨k, hk0, hk⟩ := hc.mrdDamp_sign x
  have h2 : 0 < c.gamma2 := by linarith [hc.g2.1]
  have hg : 0 < c.fDM * c.gamma3 := mul_pos (by linarith [hc.fDM]) (by linarith [hc.g3.1])
  rw [hk]
  suffices h : 0 ≤ c.gamma2 * ((x - c.fRD) ^ 2 + (c.fDM * c.gamma3) ^ 2) + 2 * (c.fDM * c.gamma3) * (x - c.fRD) by nlinarith
  rw [hc.peak_eq] at hx
  have hs0 := Real.sqrt_nonneg (max (1 - c.gamma2 ^ 2) 0)
  have hs := Real.sq_sqrt (show 0 ≤ max (1 - c.gamma2 ^ 2) 0 from le_max_right _ _)
  have hs2 : 1 - c.gamma2 ^ 2 ≤ Real.sqrt (max (1 - c.gamma2 ^ 2) 0) ^ 2 := by rw [hs]; exact le_max_left _ _
  generalize Real.sqrt (max (1 - c.gamma2 ^ 2) 0) = s at *
  have hy : c.fDM * c.gamma3 * (-1 + s) ≤ c.gamma2 * (x - c.fRD) := by
    have e : c.fDM * (-1 + s) * c.gamma3 / c.gamma2 = c.fDM * c.gamma3 * (-1 + s) / c.gamma2 := by ring
    rw [e] at hx
    have : c.fDM * c.gamma3 * (-1 + s) / c.gamma2 ≤ x - c.fRD := by linarith
    rw [div_le_iff₀ h2] at this
    linarith
  generalize c.fDM * c.gamma3 = g at *
  generalize x - c.fRD = y at *
  generalize c.gamma2 = γ at *
  -- `γ` times the form is `(γ y + g)² - g² + γ² g²`
  have : 0 ≤ γ * (γ * (y ^ 2 + g ^ 2) + 2 * g * y) := by
    have e : γ * (γ * (y ^ 2 + g ^ 2) + 2 * g * y) = (γ * y + g) ^ 2 - (1 - γ ^ 2) * g ^ 2 := by ring
    rw [e]
    have a : g * s ≤ γ * y + g := by linarith
    have b : 0 ≤ g * s := mul_nonneg hg.le hs0
    nlinarith [mul_le_mul_of_nonneg_right hs2 (sq_nonneg g)]
  by_contra hn
  push Not at hn
  nlinarith

/-- **C59.**  Beyond the peak the waveform's amplitude factor is non-increasing and positive. -/
theorem Good.amp_after_peak : AntitoneOn c.amp (Set.Ici c.peak) ∧ ∀ x, c.peak ≤ x → 0 < c.amp x := by
  obtain ⟨j1, j2, j3, j4⟩ := hc.joins
  have hp : 0 < c.peak := by linarith [hc.peak]
  obtain ⟨_, _, k3, k4, _⟩ := c.intAmp_joins j1
  have e : ∀ x, c.peak ≤ x → c.amp x = c.mrdAmp x ∧ c.dAmp x = c.mrdDamp x := by
    intro x hx
    rw [c.amp_eq j1, c.dAmp_eq j1, if_neg (by linarith : ¬ x ≤ Ctx.ampJoin), if_neg (by linarith : ¬ x ≤ Ctx.ampJoin)]
    by_cases h : x ≤ c.peak
    · have : x = c.peak := le_antisymm h hx
      subst this
      rw [if_pos le_rfl, if_pos le_rfl, k3, k4]
      exact ⟨rfl, rfl⟩
    · rw [if_neg h, if_neg h]; exact ⟨rfl, rfl⟩
  constructor
  · have hd : ∀ x, c.peak ≤ x → HasDerivAt c.mrdAmp (c.mrdDamp x) x := fun x _ => c.mrdAmp_deriv x j4
    have := antitoneOn_of_deriv_nonpos (convex_Ici c.peak) (f := c.mrdAmp)
      (fun x hx => (hd x hx).continuousAt.continuousWithinAt)
      (fun x hx => (hd x (interior_subset hx)).differentiableAt.differentiableWithinAt)
      (fun x hx => by
        rw [(hd x (interior_subset hx)).deriv]
        exact hc.slope_after_peak x (interior_subset hx))
    intro x hx y hy hxy
    rw [(e x hx).1, (e y hy).1]
    exact this hx hy hxy
  · intro x hx
    rw [(e x hx).1]
    have h1 : 0 < c.gamma1 := by linarith [hc.g1]
    have h3 : 0 < c.gamma3 := by linarith [hc.g3.1]
    have h4 : 0 < c.fDM := by linarith [hc.fDM]
    unfold Ctx.mrdAmp
    have : 0 < (x - c.fRD) ^ 2 + c.fDM * c.gamma3 * (c.fDM * c.gamma3) := add_pos_of_nonneg_of_pos (sq_nonneg _) (by positivity)
    have := Real.exp_pos ((x - c.fRD) * c.gamma2 / (c.fDM * c.gamma3))
    positivity

end

/-- **C59.**  For every physical binary the amplitude factor is continuously differentiable at positive frequencies and its derivative is the second value returned. -/
theorem amp_C1 (mc q chi1 chi2 : ℝ) (h : Physical mc q chi1 chi2) :
    (∀ mf, 0 < mf → HasDerivAt (ctxOf mc q chi1 chi2).amp ((ctxOf mc q chi1 chi2).dAmp mf) mf) ∧ ContinuousOn (ctxOf mc q chi1 chi2).dAmp (Set.Ioi 0) := by
  have hc := good mc q chi1 chi2 h
  obtain ⟨j1, j2, j3, j4⟩ := hc.joins
  exact ⟨fun mf hmf => Ctx.amp_deriv _ j1 j4 mf hmf, Ctx.dAmp_continuous _ j1 j4⟩

/-- **C59.**  For every physical binary the phase is continuously differentiable at positive frequencies. -/
theorem phase_C1 (mc q chi1 chi2 : ℝ) (h : Physical mc q chi1 chi2) :
    (∀ mf, 0 < mf → HasDerivAt (ctxOf mc q chi1 chi2).phase ((ctxOf mc q chi1 chi2).phaseSlope mf) mf) ∧ ContinuousOn (ctxOf mc q chi1 chi2).phaseSlope (Set.Ioi 0) := by
  have hc := good mc q chi1 chi2 h
  obtain ⟨j1, j2, j3, j4⟩ := hc.joins
  exact ⟨fun mf hmf => Ctx.phase_deriv _ j2 j3 hc.m1 hc.m2 mf hmf, Ctx.phaseSlope_continuous _ j2 j3⟩

/-- **C59.**  Where the pieces meet: the amplitude at `Mf = 0.014` and the peak, the phase at `Mf = 0.018` and half the ringdown frequency. -/
theorem regions (mc q chi1 chi2 : ℝ) (h : Physical mc q chi1 chi2) :
    (∀ mf, (ctxOf mc q chi1 chi2).amp mf = if mf ≤ 0.014 then (ctxOf mc q chi1 chi2).insAmp mf else if mf ≤ (ctxOf mc q chi1 chi2).peak then (ctxOf mc q chi1 chi2).intAmp mf
      else (ctxOf mc q chi1 chi2).mrdAmp mf) ∧
    (∀ mf, (ctxOf mc q chi1 chi2).dPhase mf = if mf ≤ 0.018 then (ctxOf mc q chi1 chi2).insDphase mf
      else if mf ≤ (ctxOf mc q chi1 chi2).fRD / 2 then (ctxOf mc q chi1 chi2).intDphase mf else (ctxOf mc q chi1 chi2).mrdDphase mf) ∧
    (∃ a b a' b', ∀ mf, (ctxOf mc q chi1 chi2).phase mf = if mf ≤ 0.018 then (ctxOf mc q chi1 chi2).insPhase mf
      else if mf ≤ (ctxOf mc q chi1 chi2).fRD / 2 then (ctxOf mc q chi1 chi2).intPhase mf / (ctxOf mc q chi1 chi2).eta + a + mf * b
      else (ctxOf mc q chi1 chi2).mrdPhase mf / (ctxOf mc q chi1 chi2).eta + a' + mf * b') := by
  have hc := good mc q chi1 chi2 h
  obtain ⟨j1, j2, -, -⟩ := hc.joins
  have e : (ctxOf mc q chi1 chi2).rdJoin = (ctxOf mc q chi1 chi2).fRD / 2 := by unfold Ctx.rdJoin; ring
  refine ⟨Ctx.amp_eq _ j1, fun mf => ?_, ?_⟩
  · rw [Ctx.dPhase_eq _ j2 mf, e]; rfl
  · refine ⟨(ctxOf mc q chi1 chi2).c1Int, (ctxOf mc q chi1 chi2).c2Int, (ctxOf mc q chi1 chi2).c1Mrd, (ctxOf mc q chi1 chi2).c2Mrd, fun mf => ?_⟩
    rw [Ctx.phase_eq _ j2 mf, e]; rfl

/-! ## The strain -/

theorem newtonAmp_eq (mc q f d : ℝ) (hm : 0 < mc) (hq : 0 < q) (hf : 0 < f) (hd : 0 < d) :
    newtonAmp (totalMass mc q * mtsun * f) (mass1 mc q) (mass2 mc q) (etaOf mc q) d = -PNSpec.amplitude (mc * mtsun) (d * mpcSec) f := by
  obtain ⟨p1, p2, p3, p4, _⟩ := masses_pos mc q hm hq
  have hmt : 0 < mtsun := mtsun_pos
  have hb : (Bin.mk (mass1 mc q) (mass2 mc q) 0 0).Valid := ⟨p1, p2⟩
  have := Bin.amplitude_eq hb f d hf hd
  have e1 : (Bin.mk (mass1 mc q) (mass2 mc q) 0 0).mSec = totalMass mc q * mtsun := by rw [← p3]; unfold Bin.mSec; ring
  have e2 : (Bin.mk (mass1 mc q) (mass2 mc q) 0 0).etaSec = etaOf mc q := by
    rw [eta_PN mc q hm hq]
    unfold Bin.etaSec Bin.mSec PNSpec.eta
    dsimp only
    field_simp
  rw [e1, p4] at this
  rw [← this]
  unfold newtonAmp Bin.amplitude
  dsimp only
  rw [e2]

/-- **C59.**  The strain of a physical binary: the Newtonian stationary-phase amplitude times the amplitude factor, with the phase measured from the reference frequency, shifted by twice the coalescence phase and by a time. -/
theorem htilde_eq (mc q chi1 chi2 f d phic fRef : ℝ) (h : Physical mc q chi1 chi2) (hf : 0 < f) (hd : 0 < d) :
    htilde mc q (ctxOf mc q chi1 chi2) f d phic fRef =
      (PNSpec.amplitude (mc * mtsun) (d * mpcSec) f * (ctxOf mc q chi1 chi2).amp (totalMass mc q * mtsun * f) : ℝ) *
        Complex.exp (-Complex.I * (((ctxOf mc q chi1 chi2).phase (totalMass mc q * mtsun * f) - (ctxOf mc q chi1 chi2).phase (totalMass mc q * mtsun * fRef) - 2 * phic
          - totalMass mc q * mtsun * (f - fRef) * (ctxOf mc q chi1 chi2).mrdDphase (ctxOf mc q chi1 chi2).peak : ℝ) : ℂ)) := by
  unfold htilde
  dsimp only
  rw [show (ctxOf mc q chi1 chi2).m1 = mass1 mc q from rfl, show (ctxOf mc q chi1 chi2).m2 = mass2 mc q from rfl,
    show (ctxOf mc q chi1 chi2).eta = etaOf mc q from rfl, newtonAmp_eq mc q f d h.1 h.2.1 hf hd]
  push_cast
  rw [neg_neg]
  congr 2
  ring

theorem norm_phase (y : ℝ) : ‖Complex.exp (-Complex.I * (y : ℂ))‖ = 1 := by
  rw [show -Complex.I * (y : ℂ) = ((-y : ℝ) : ℂ) * Complex.I by push_cast; ring]
  exact Complex.norm_exp_ofReal_mul_I _

theorem amplitude_pos (mc d f : ℝ) (hm : 0 < mc) (hd : 0 < d) (hf : 0 < f) : 0 < PNSpec.amplitude (mc * mtsun) (d * mpcSec) f := by
  have hmt : 0 < mtsun := mtsun_pos
  have hD : 0 < d * mpcSec := by unfold mpcSec cLight; positivity
  have hpi := Real.pi_pos
  unfold PNSpec.amplitude
  generalize d * mpcSec = D at *
  positivity

/-- **C59.**  Its modulus. -/
theorem htilde_norm (mc q chi1 chi2 f d phic fRef : ℝ) (h : Physical mc q chi1 chi2) (hf : 0 < f) (hd : 0 < d) :
    ‖htilde mc q (ctxOf mc q chi1 chi2) f d phic fRef‖ = PNSpec.amplitude (mc * mtsun) (d * mpcSec) f * |(ctxOf mc q chi1 chi2).amp (totalMass mc q * mtsun * f)| := by
  rw [htilde_eq mc q chi1 chi2 f d phic fRef h hf hd, norm_mul, norm_phase, mul_one, Complex.norm_real, norm_mul,
    Real.norm_of_nonneg (amplitude_pos mc d f h.1 hd hf).le, Real.norm_eq_abs]

/-- **C59.**  At the reference frequency only the coalescence phase remains. -/
theorem htilde_ref (mc q chi1 chi2 d phic fRef : ℝ) (h : Physical mc q chi1 chi2) (hd : 0 < d) (hr : 0 < fRef) :
    htilde mc q (ctxOf mc q chi1 chi2) fRef d phic fRef =
      (PNSpec.amplitude (mc * mtsun) (d * mpcSec) fRef * (ctxOf mc q chi1 chi2).amp (totalMass mc q * mtsun * fRef) : ℝ) * Complex.exp (Complex.I * (2 * phic : ℝ)) := by
  rw [htilde_eq mc q chi1 chi2 fRef d phic fRef h hr hd]
  congr 2
  push_cast
  ring

/-- **C59.**  Strain falls off as the inverse distance. -/
theorem htilde_distance (mc q chi1 chi2 f d k phic fRef : ℝ) (h : Physical mc q chi1 chi2) (hf : 0 < f) (hd : 0 < d) (hk : 0 < k) :
    htilde mc q (ctxOf mc q chi1 chi2) f (k * d) phic fRef = htilde mc q (ctxOf mc q chi1 chi2) f d phic fRef / k := by
  rw [htilde_eq mc q chi1 chi2 f (k * d) phic fRef h hf (by positivity), htilde_eq mc q chi1 chi2 f d phic fRef h hf hd]
  have : PNSpec.amplitude (mc * mtsun) (k * d * mpcSec) f = PNSpec.amplitude (mc * mtsun) (d * mpcSec) f / k := by
    unfold PNSpec.amplitude
    rw [div_div]; congr 1; ring
  rw [this]
  push_cast
  ring

/-! ## The module -/

/-- **C59.**  Tensors of different batch sizes are rejected. -/
theorem forward_reject (f : List ℝ) (p : Params) (fRef : ℝ) (h : ∀ n, ¬ p.Same n) : forward f p fRef = .error .value := by
  unfold forward raiseIf
  rw [if_pos]
  · rfl
  · rintro ⟨a, b, c, d, e, g⟩
    exact h p.chirpMass.length ⟨rfl, by omega, by omega, by omega, by omega, by omega, by omega⟩

/-- **C59.**  A batch in which one final spin leaves the tables is rejected as a whole. -/
theorem forward_spin_reject (f : List ℝ) (p : Params) (fRef : ℝ) (n : ℕ) (h : p.Same n)
    (hs : ∃ i, i < n ∧ 1 < |finalSpin (etaOf (p.chirpMass.getD i 0) (p.massRatio.getD i 0)) (p.chi1.getD i 0) (p.chi2.getD i 0)|) :
    forward f p fRef = .error .runtime := by
  obtain ⟨a, b, c, d, e, g, k⟩ := h
  obtain ⟨i, hi, hx⟩ := hs
  unfold forward raiseIf
  rw [if_neg (by rw [not_not]; omega), res_bind_ok]
  dsimp only
  rw [interpFinspin_reject]
  · rfl
  · refine ⟨_, List.mem_map.2 ⟨i, List.mem_range.2 (by omega), rfl⟩, ?_⟩
    rcases lt_abs.1 hx with hx | hx
    · exact Or.inr hx
    · left; linarith

/-- **C59.**  A batch of physical binaries is never rejected: the result has one row per waveform and one column per frequency, the polarizations being the strain times `(1 + cos² ι)/2` and `-i cos ι`. -/
theorem forward_ok (f : List ℝ) (p : Params) (fRef : ℝ) (n : ℕ) (h : p.Same n)
    (hp : ∀ i, i < n → Physical (p.chirpMass.getD i 0) (p.massRatio.getD i 0) (p.chi1.getD i 0) (p.chi2.getD i 0)) :
    ∃ hc hp, forward f p fRef = .ok (hc, hp) ∧ hc.length = n ∧ hp.length = n ∧
      ∀ i : ℕ, i < n → ∃ rc rp, hc[i]? = some rc ∧ hp[i]? = some rp ∧ rc.length = f.length ∧ rp.length = f.length ∧
        ∀ (j : ℕ) (x : ℝ), f[j]? = some x →
          let s := htilde (p.chirpMass.getD i 0) (p.massRatio.getD i 0) (ctxOf (p.chirpMass.getD i 0) (p.massRatio.getD i 0) (p.chi1.getD i 0) (p.chi2.getD i 0)) x
            (p.distance.getD i 0) (p.phic.getD i 0) fRef
          rp[j]? = some (s * ((1 + Real.cos (p.inclination.getD i 0) ^ 2) / 2 : ℝ)) ∧ rc[j]? = some (-Complex.I * (s * (Real.cos (p.inclination.getD i 0) : ℝ))) := by
  obtain ⟨a, b, c, d, e, g, k⟩ := h
  unfold forward raiseIf
  rw [if_neg (by rw [not_not]; omega), res_bind_ok]
  dsimp only
  rw [interpFinspin_ok _ (by
    intro x hx
    obtain ⟨i, hi, rfl⟩ := List.mem_map.1 hx
    exact finalSpin_range _ _ _ _ (hp i (by rw [List.mem_range] at hi; omega))), res_bind_ok]
  refine ⟨_, _, rfl, by simp [a], by simp [a], ?_⟩
  intro i hi
  have hrd : (List.map (fun x => (interp qnmRing x, interp qnmDamp x))
      (List.map (fun i => finalSpin (etaOf (p.chirpMass.getD i 0) (p.massRatio.getD i 0)) (p.chi1.getD i 0) (p.chi2.getD i 0)) (List.range p.chirpMass.length))).getD i (0, 0)
      = rdOf (p.chirpMass.getD i 0) (p.massRatio.getD i 0) (p.chi1.getD i 0) (p.chi2.getD i 0) := by
    rw [List.getD_eq_getElem _ _ (by simp; omega)]
    simp [rdOf]
  refine ⟨_, _, by rw [List.getElem?_map, List.getElem?_range (by omega)]; rfl, by rw [List.getElem?_map, List.getElem?_range (by omega)]; rfl, by simp, by simp, ?_⟩
  intro j x hx
  dsimp only
  rw [List.getElem?_map, List.getElem?_map, hx, hrd]
  refine ⟨?_, rfl⟩
  simp only [Option.map_some, Option.some.injEq]
  unfold ctxOf
  congr 2
  norm_num
  ring

/-! ## The hypotheses can be met, and the limits -/

/-- A batch of two physical binaries. -/
theorem exPhysical : ∀ i, i < 2 → Physical (exParams.chirpMass.getD i 0) (exParams.massRatio.getD i 0) (exParams.chi1.getD i 0) (exParams.chi2.getD i 0) := by
  intro i hi
  obtain rfl | rfl : i = 0 ∨ i = 1 := by omega
  all_goals
    unfold Physical exParams
    norm_num

example : exParams.Same 2 := ⟨rfl, rfl, rfl, rfl, rfl, rfl, rfl⟩
example : Physical 30 0.8 0.9 (-0.5) := by unfold Physical; norm_num
example : Good (ctxOf 30 0.8 0.9 (-0.5)) := good _ _ _ _ (by unfold Physical; norm_num)
example : Dom 0.2 (-1.5) := by unfold Dom; norm_num
example : quartic 1 2 3 5 7 4 0.5 (-1) 2 = 7 := (collocation 1 2 3 5 7 4 0.5 (-1) (by norm_num) (by norm_num) (by norm_num)).2.1

/-- Spins beyond one can leave the tables: two equal masses with spins of 2. -/
theorem overspun : 1 < |finalSpin (etaOf 1 1) 2 2| := by
  have e : etaOf 1 1 = 1 / 4 := by rw [etaOf_eq 1 1 (by norm_num) (by norm_num)]; norm_num
  rw [e]
  refine lt_of_lt_of_le ?_ (le_abs_self _)
  have hs : setaOf (1 / 4) = 0 := by unfold setaOf; norm_num
  unfold finalSpin massSpin finalSpinOf
  rw [hs]
  norm_num

example (f : List ℝ) : forward f ⟨[1], [1], [2], [2], [100], [0], [0]⟩ 20 = .error .runtime :=
  forward_spin_reject f _ 20 1 ⟨rfl, rfl, rfl, rfl, rfl, rfl, rfl⟩ ⟨0, by norm_num, overspun⟩

end Verif.PhenomD
