import Verif.Props.PhenomPForward
/-!
# C68, C71: absolute amplitude, and the comparison with IMRPhenomD
-/
namespace Verif.PhenomP
open CbcUtils TaylorF2 PhenomD PhenomPSpec ConvSpec
open Conversion hiding mtsun

/-- The amplitude scale of the precessing model is the Newtonian stationary-phase amplitude of the chirp mass. -/
theorem amp0_eq (a b f d : ℝ) (ha : 0 < a) (hb : 0 < b) (hf : 0 < f) (hd : 0 < d) :
    y22 / 2 * (amp0 ((a + b) * mtsun * f) (a * b / ((a + b) * (a + b))) * ((a + b) * mtsun) ^ (2 : ℝ) / (d * mpcSec)) =
      PNSpec.amplitude (chirpMass b a * mtsun) (d * mpcSec) f := by
  have hpi := Real.pi_pos
  have hmt : 0 < mtsun := mtsun_pos
  have hD : 0 < d * mpcSec := by unfold mpcSec cLight; positivity
  have hM : 0 < (a + b) * mtsun := by positivity
  have hmc : 0 < ConvSpec.chirpMass b a := by unfold ConvSpec.chirpMass; positivity
  have hmc5 : ConvSpec.chirpMass b a ^ 5 = (b * a) ^ 3 / (b + a) := by
    unfold ConvSpec.chirpMass
    rw [div_pow, ← Real.rpow_natCast, ← Real.rpow_natCast, ← Real.rpow_mul (by positivity), ← Real.rpow_mul (by positivity)]
    norm_num
  unfold PNSpec.amplitude
  generalize d * mpcSec = D at *
  rw [← mul_div_assoc]
  congr 1
  have hy := y22_pos
  have hy2 : y22 ^ 2 = 5 / (4 * Real.pi) := by unfold y22; rw [Real.sq_sqrt (by positivity)]
  have hA : 0 < amp0 ((a + b) * mtsun * f) (a * b / ((a + b) * (a + b))) := by unfold amp0; positivity
  apply (pow_left_inj₀ (by positivity) (by positivity) (show (6 : ℕ) ≠ 0 by norm_num)).1
  have hA6 : amp0 ((a + b) * mtsun * f) (a * b / ((a + b) * (a + b))) ^ 6 = (2 / 3 * (a * b / ((a + b) * (a + b)))) ^ 3 / ((a + b) * mtsun * f) ^ 7 / Real.pi := by
    unfold amp0
    rw [mul_pow, mul_pow, ← Real.rpow_natCast, ← Real.rpow_natCast, ← Real.rpow_natCast, ← Real.rpow_mul (by positivity), ← Real.rpow_mul (by positivity), ← Real.rpow_mul (by positivity)]
    norm_num
    field_simp
    rw [Real.rpow_neg_one, inv_mul_cancel₀ hpi.ne']
  have r1 : (Real.sqrt (5 / 24)) ^ 6 = (5 / 24) ^ 3 := by
    rw [show (6 : ℕ) = 2 * 3 by norm_num, pow_mul, Real.sq_sqrt (by norm_num)]
  have r2 : (Real.pi ^ (-(2 / 3) : ℝ)) ^ 6 = 1 / Real.pi ^ 4 := by
    rw [← Real.rpow_natCast, ← Real.rpow_mul hpi.le]; norm_num
  have r3 : ((ConvSpec.chirpMass b a * mtsun) ^ (5 / 6 : ℝ)) ^ 6 = (ConvSpec.chirpMass b a * mtsun) ^ 5 := by
    rw [← Real.rpow_natCast, ← Real.rpow_mul (by positivity)]; norm_num
  have r4 : (f ^ (-(7 / 6) : ℝ)) ^ 6 = 1 / f ^ 7 := by
    rw [← Real.rpow_natCast, ← Real.rpow_mul hf.le]; norm_num
  have e2 : ((a + b) * mtsun) ^ (2 : ℝ) = ((a + b) * mtsun) ^ 2 := by norm_cast
  rw [e2, mul_pow (y22 / 2), mul_pow (amp0 _ _), mul_pow _ (f ^ _), mul_pow _ ((chirpMass b a * mtsun) ^ _), mul_pow (Real.sqrt _), r1, r2, r3, r4, hA6, mul_pow (chirpMass b a), hmc5, div_pow,
    show y22 ^ 6 = (y22 ^ 2) ^ 3 by ring, hy2, show b + a = a + b by ring]
  field_simp
  norm_num

theorem core_eq (p : Par) (phi f : ℝ) (rd : ℝ × ℝ) (h : Ordered p) (hf : 0 < f) (hd : 0 < p.distance) :
    ((y22 / 2 : ℝ) : ℂ) * hPhenom (ctxOfP p rd) (total p) phi p.distance f =
      (PNSpec.amplitude (p.chirpMass * mtsun) (p.distance * mpcSec) f * (ctxOfP p rd).amp (total p * mtsun * f) : ℝ) *
        Complex.exp (-Complex.I * (((ctxOfP p rd).phase (total p * mtsun * f) - (phi + Real.pi / 4) : ℝ) : ℂ)) := by
  obtain ⟨a, b, _, _⟩ := masses_ordered p h
  have hmc : chirpMass (heavy p) (light p) = p.chirpMass := (masses_pos _ _ h.mc h.q).2.2.2.1
  have k := amp0_eq (light p) (heavy p) f p.distance a b hf hd
  rw [hmc] at k
  rw [← k]
  unfold hPhenom
  dsimp only
  have he : (ctxOfP p rd).eta = light p * heavy p / ((light p + heavy p) * (light p + heavy p)) := rfl
  rw [he]
  rw [← mul_assoc, ← Complex.ofReal_mul]
  congr 2
  unfold total
  ring

/-- **C68.**  The absolute scale: `y22 / 2` times the aligned-spin core is the Newtonian stationary-phase amplitude times the amplitude factor, times a phase. -/
theorem hAt_eq (p : Par) (fRef f : ℝ) (rd : ℝ × ℝ) (h : Ordered p) (hf : 0 < f) (hd : 0 < p.distance) :
    ((y22 / 2 : ℝ) : ℂ) * hAt p fRef rd f = (PNSpec.amplitude (p.chirpMass * mtsun) (p.distance * mpcSec) f * (ctxOfP p rd).amp (total p * mtsun * f) : ℝ) *
      Complex.exp (-Complex.I * (((ctxOfP p rd).phase (total p * mtsun * f) - (2 * (geom p fRef).phiAligned + Real.pi / 4) : ℝ) : ℂ)) :=
  core_eq p _ f rd h hf hd

/-- **C68.**  Its modulus. -/
theorem hAt_norm (p : Par) (fRef f : ℝ) (rd : ℝ × ℝ) (h : Ordered p) (hf : 0 < f) (hd : 0 < p.distance) :
    ‖((y22 / 2 : ℝ) : ℂ) * hAt p fRef rd f‖ = PNSpec.amplitude (p.chirpMass * mtsun) (p.distance * mpcSec) f * |(ctxOfP p rd).amp (total p * mtsun * f)| := by
  rw [hAt_eq p fRef f rd h hf hd, norm_mul, norm_phase, mul_one, Complex.norm_real, norm_mul,
    Real.norm_of_nonneg (amplitude_pos p.chirpMass p.distance f h.mc hd hf).le, Real.norm_eq_abs]

/-! ## Aligned spins against IMRPhenomD -/

/-- The same quantities with the squared spins exchanged. -/
def swapSq (c : Ctx) : Ctx := { c with chi12 := c.chi22, chi22 := c.chi12 }

/-- Without in-plane spin the final spin is that of IMRPhenomD. -/
theorem spinP_aligned (p : Par) (h : Aligned p) : spinP p = finalSpin (etaP p) p.s1.z p.s2.z := by
  unfold spinP finalSpinInplane
  have hc : chipOf (light p) (heavy p) p.s2 p.s1 = 0 := aligned_chip p h 0
  have he : heavy p * light p / ((heavy p + light p) * (heavy p + light p)) = etaP p := by unfold etaP total; rw [mul_comm (heavy p), add_comm (heavy p)]
  dsimp only
  rw [hc, he, zero_mul, zero_mul, zero_mul, zero_add, Real.sqrt_mul_self_eq_abs]
  split_ifs with hn
  · rw [abs_of_neg hn]; ring
  · rw [abs_of_nonneg (not_lt.1 hn)]; ring

/-- **C71.**  Without in-plane spin the aligned-spin core is that of IMRPhenomD with the two squared spins exchanged. -/
theorem ctxP_aligned (p : Par) (h : Aligned p) (ho : Ordered p) : ctxOfP p (rdOfP p) = swapSq (ctxOf p.chirpMass p.massRatio p.s1.z p.s2.z) := by
  obtain ⟨a, b, _, _⟩ := masses_ordered p ho
  obtain ⟨e0, e1⟩ := etaP_range p ho
  have hse : Real.sqrt (1 - 4 * etaP p) = setaOf (etaP p) := by unfold setaOf; rw [max_eq_left (by linarith)]
  have hM : total p * mtsun ≠ 0 := mul_ne_zero (by unfold total; linarith) mtsun_pos.ne'
  have hfr : total p * mtsun * (rdOfP p).1 = interp qnmRing (spinP p) / (1 - eradP p) := mul_div_cancel₀ _ hM
  have hfd : total p * mtsun * (rdOfP p).2 = interp qnmDamp (spinP p) / (1 - eradP p) := mul_div_cancel₀ _ hM
  unfold ctxOfP ctxP
  dsimp only
  rw [hfr, hfd, spinP_aligned p h, hse]
  unfold eradP
  rw [etaP_eq p ho]
  rfl

/-- Exchanging the squared spins matters only for unequal masses. -/
theorem swapSq_amp (c : Ctx) (h : c.chi12 = c.chi22 ∨ c.seta = 0) : (swapSq c).amp = c.amp := by
  rcases h with h | h
  · have : swapSq c = c := by
      unfold swapSq
      cases c
      dsimp only at h
      subst h
      rfl
    rw [this]
  · have h43 : ∀ a b x y e e2 : ℝ, pre43 e e2 0 x y a b = pre43 e e2 0 x y b a := by intros; unfold pre43; ring
    have h2 : ∀ a b x y e e2 : ℝ, pre2 e e2 0 x y a b = pre2 e e2 0 x y b a := by intros; unfold pre2; ring
    have hi : (swapSq c).insAmp = c.insAmp := by
      funext mf
      unfold Ctx.insAmp swapSq
      dsimp only [Ctx.eta2]
      rw [h, h43 c.chi22, h2 c.chi22]
    have hd : (swapSq c).insDamp = c.insDamp := by
      funext mf
      unfold Ctx.insDamp swapSq
      dsimp only [Ctx.eta2]
      rw [h, h43 c.chi22, h2 c.chi22]
    have hm : (swapSq c).mrdAmp = c.mrdAmp := rfl
    have hmd : (swapSq c).mrdDamp = c.mrdDamp := rfl
    have hint : (swapSq c).intAmp = c.intAmp := by
      have hw : ∀ d, (swapSq c).withDelta d = c.withDelta d := by
        intro d
        unfold Ctx.withDelta
        rw [hi, hd, hm, hmd]
        rfl
      funext mf
      unfold Ctx.intAmp
      rw [hw, hw, hw, hw, hw]
    funext mf
    unfold Ctx.amp
    rw [hi, hm, hint]
    rfl

theorem swapSq_phase (c : Ctx) : (swapSq c).phase = c.phase := rfl

theorem physical_of (p : Par) (h : PhysicalP p) : Physical p.chirpMass p.massRatio p.s1.z p.s2.z :=
  ⟨h.ord.mc, h.ord.q, (unit_z _ h.u1).1, (unit_z _ h.u2).1⟩

theorem total_eq (p : Par) (h : Ordered p) : total p = totalMass p.chirpMass p.massRatio := by
  have := (masses_pos _ _ h.mc h.q).2.2.1
  rw [← this]
  unfold total light heavy
  rw [(mass_eq _ _ h.mc h.q).1, (mass_eq _ _ h.mc h.q).2]
  ring

/-- The strain of the aligned-spin core with its time shifts. -/
noncomputable def coreA (p : Par) (f : ℝ) : ℂ := -((y22 / 2 : ℝ) * (hPhenom (ctxOfP p (rdOfP p)) (total p) 0 p.distance f * shift p (rdOfP p) f))

/-- The IMRPhenomD strain of the same binary: masses, distance and spin components along the orbital angular momentum. -/
noncomputable def strainD (p : Par) (fRef f : ℝ) : ℂ :=
  htilde p.chirpMass p.massRatio (ctxOf p.chirpMass p.massRatio p.s1.z p.s2.z) f p.distance p.phic fRef

theorem coreA_eq (p : Par) (f : ℝ) (h : PhysicalP p) (ha : Aligned p) (hf : 0 < f) (hd : 0 < p.distance) :
    coreA p f = (PNSpec.amplitude (p.chirpMass * mtsun) (p.distance * mpcSec) f *
        (swapSq (ctxOf p.chirpMass p.massRatio p.s1.z p.s2.z)).amp (totalMass p.chirpMass p.massRatio * mtsun * f) : ℝ) *
      (-Complex.exp (-Complex.I * (((ctxOf p.chirpMass p.massRatio p.s1.z p.s2.z).phase (totalMass p.chirpMass p.massRatio * mtsun * f) - Real.pi / 4 : ℝ) : ℂ)) * shift p (rdOfP p) f) := by
  unfold coreA
  rw [← mul_assoc, core_eq p 0 f _ h.ord hf hd, ctxP_aligned p ha h.ord, swapSq_phase, total_eq p h.ord, zero_add]
  ring

/-- **C71.**  The modulus of the aligned-spin core. -/
theorem coreA_norm (p : Par) (f : ℝ) (h : PhysicalP p) (ha : Aligned p) (hf : 0 < f) (hd : 0 < p.distance) :
    ‖coreA p f‖ = PNSpec.amplitude (p.chirpMass * mtsun) (p.distance * mpcSec) f *
      |(swapSq (ctxOf p.chirpMass p.massRatio p.s1.z p.s2.z)).amp (totalMass p.chirpMass p.massRatio * mtsun * f)| := by
  have hs : ‖shift p (rdOfP p) f‖ = 1 := by unfold shift; rw [norm_mul, norm_phase, norm_phase, mul_one]
  rw [coreA_eq p f h ha hf hd, norm_mul, norm_mul, norm_neg, norm_phase, hs, mul_one, mul_one, Complex.norm_real, norm_mul,
    Real.norm_of_nonneg (amplitude_pos p.chirpMass p.distance f h.ord.mc hd hf).le, Real.norm_eq_abs]

/-- **C71 (partial).**  When the two squared spins agree, or the masses do, the waveform of aligned spins is that of IMRPhenomD up to a constant phase and a time shift.
Missing: unequal masses with different squared spins, where it is false (`aligned_D_fails`). -/
theorem aligned_D_partial (p : Par) (fRef fRefD : ℝ) (h : PhysicalP p) (ha : Aligned p) (hz : 0 < (totalJ (light p) (heavy p) fRef p.s2 p.s1).z)
    (hi : 0 < Real.sin p.inclination) (hd : 0 < p.distance) (he : p.s1.z * p.s1.z = p.s2.z * p.s2.z ∨ p.massRatio = 1) :
    ∃ a b : ℝ, ∀ f, 0 < f → polarizations p (elemOf p fRef (rdOfP p)) f =
      (quadCross (Complex.exp (Complex.I * ((a + b * f : ℝ) : ℂ)) * strainD p fRefD f) (Real.cos p.inclination),
        quadPlus (Complex.exp (Complex.I * ((a + b * f : ℝ) : ℂ)) * strainD p fRefD f) (Real.cos p.inclination)) := by
  have hamp : (swapSq (ctxOf p.chirpMass p.massRatio p.s1.z p.s2.z)).amp = (ctxOf p.chirpMass p.massRatio p.s1.z p.s2.z).amp := by
    apply swapSq_amp
    rcases he with he | he
    · exact .inl he
    · right
      show setaOf (etaOf p.chirpMass p.massRatio) = 0
      rw [etaOf_eq _ _ h.ord.mc h.ord.q, he]
      unfold setaOf
      norm_num
  set c := ctxOf p.chirpMass p.massRatio p.s1.z p.s2.z with hc
  set M := totalMass p.chirpMass p.massRatio * mtsun with hM
  set D := diffRD (ctxOfP p (rdOfP p)) (total p * mtsun) (rdOfP p).1 with hD
  refine ⟨Real.pi + Real.pi / 4 - c.phase (M * fRefD) - 2 * p.phic + M * fRefD * c.mrdDphase c.peak,
    -D - total p * mtsun * p.tc - M * c.mrdDphase c.peak, fun f hf => ?_⟩
  rw [aligned_quadrupole p fRef f (rdOfP p) ha hz hi]
  have key : coreA p f = Complex.exp (Complex.I * ((Real.pi + Real.pi / 4 - c.phase (M * fRefD) - 2 * p.phic + M * fRefD * c.mrdDphase c.peak
      + (-D - total p * mtsun * p.tc - M * c.mrdDphase c.peak) * f : ℝ) : ℂ)) * strainD p fRefD f := by
    unfold strainD
    rw [coreA_eq p f h ha hf hd, htilde_eq _ _ _ _ f p.distance p.phic fRefD (physical_of p h) hf hd, ← hc, ← hM, hamp]
    refine (show ∀ A B E X : ℂ, B = E * X → A * B = E * (A * X) by intro A B E X h; rw [h]; ring) _ _ _ _ ?_
    unfold shift
    rw [← hD, ← Complex.exp_add, ← Complex.exp_add, neg_mul, ← Complex.exp_add, ← neg_one_mul, ← Complex.exp_pi_mul_I, ← Complex.exp_add]
    congr 1
    push_cast
    ring
  unfold coreA at key
  rw [key]

/-! ## The claim fails for unequal masses and different spin magnitudes -/

open Filter Topology in
theorem insAmp_small (c : Ctx) : ∀ᶠ mf in 𝓝[>] (0 : ℝ), 0 < c.insAmp mf := by
  have hc : ContinuousAt c.insAmp 0 := by
    have hr : ContinuousAt (fun x : ℝ => x ^ ((1 : ℝ) / 3)) 0 := Real.continuousAt_rpow_const _ _ (.inr (by norm_num))
    unfold Ctx.insAmp
    dsimp only
    fun_prop
  have h1 : c.insAmp 0 = 1 := by
    unfold Ctx.insAmp
    dsimp only
    rw [Real.zero_rpow (by norm_num)]
    ring
  have h := hc.tendsto
  rw [h1] at h
  exact (h.mono_left nhdsWithin_le_nhds).eventually (lt_mem_nhds (by norm_num))

open Filter Topology in
/-- At low frequency exchanging the squared spins of unequal masses changes the amplitude. -/
theorem swap_differs (c : Ctx) (h1 : c.chi12 ≠ c.chi22) (h2 : c.seta ≠ 0) : ∀ᶠ mf in 𝓝[>] (0 : ℝ), (swapSq c).insAmp mf ≠ c.insAmp mf := by
  set a := pre43 c.eta c.eta2 c.seta c.chi1 c.chi2 c.chi22 c.chi12 - pre43 c.eta c.eta2 c.seta c.chi1 c.chi2 c.chi12 c.chi22 with ha
  set b := pre2 c.eta c.eta2 c.seta c.chi1 c.chi2 c.chi22 c.chi12 - pre2 c.eta c.eta2 c.seta c.chi1 c.chi2 c.chi12 c.chi22 with hb
  have hpi := Real.pi_pos
  have ha0 : a ≠ 0 := by
    have : a = (c.chi12 - c.chi22) * c.seta * (2 * 10287648 * Real.pi ^ ((4.0 / 3.0) : ℝ) / 8.128512e6) := by rw [ha]; unfold pre43; ring
    rw [this]
    exact mul_ne_zero (mul_ne_zero (sub_ne_zero.2 h1) h2) (by positivity)
  have hr : ContinuousAt (fun x : ℝ => a + b * (x ^ ((1 : ℝ) / 3) * x ^ ((1 : ℝ) / 3))) 0 := by
    have hr : ContinuousAt (fun x : ℝ => x ^ ((1 : ℝ) / 3)) 0 := Real.continuousAt_rpow_const _ _ (.inr (by norm_num))
    fun_prop
  have h := hr.tendsto
  rw [Real.zero_rpow (by norm_num), mul_zero, mul_zero, add_zero] at h
  filter_upwards [(h.mono_left nhdsWithin_le_nhds).eventually (isOpen_ne.mem_nhds ha0), self_mem_nhdsWithin] with mf hne hpos
  rw [Set.mem_Ioi] at hpos
  rw [← sub_ne_zero]
  have hp : 0 < mf ^ ((1 : ℝ) / 3) := Real.rpow_pos_of_pos hpos _
  have h3 : (mf ^ ((1 : ℝ) / 3)) ^ 3 = mf := by rw [← Real.rpow_natCast, ← Real.rpow_mul hpos.le]; norm_num
  have e : (swapSq c).insAmp mf - c.insAmp mf = (mf ^ ((1 : ℝ) / 3)) ^ 4 * (a + b * (mf ^ ((1 : ℝ) / 3) * mf ^ ((1 : ℝ) / 3))) := by
    have h6 : mf * mf = (mf ^ ((1 : ℝ) / 3)) ^ 6 := by rw [show (6 : ℕ) = 3 * 2 by norm_num, pow_mul, h3, sq]
    rw [ha, hb]
    unfold Ctx.insAmp swapSq
    dsimp only [Ctx.eta2]
    rw [h6]
    ring
  rw [e]
  exact mul_ne_zero (by positivity) hne

/-- **C71, negation.**  For every aligned physical binary with unequal masses and different squared spins there is a frequency at which even the moduli differ: the two squared spins reach the
amplitude exchanged (phenom_p.py:151-167), while the spins themselves do not. -/
theorem aligned_D_fails (p : Par) (fRef fRefD : ℝ) (h : PhysicalP p) (ha : Aligned p) (hz : 0 < (totalJ (light p) (heavy p) fRef p.s2 p.s1).z)
    (hi : 0 < Real.sin p.inclination) (hd : 0 < p.distance) (hs : p.s1.z * p.s1.z ≠ p.s2.z * p.s2.z) (hq : p.massRatio ≠ 1) :
    ∃ f, 0 < f ∧ ‖(polarizations p (elemOf p fRef (rdOfP p)) f).2‖ ≠ ‖quadPlus (strainD p fRefD f) (Real.cos p.inclination)‖ := by
  have hphys := physical_of p h
  have hgood := good _ _ _ _ hphys
  have hgoodS : (swapSq (ctxOf p.chirpMass p.massRatio p.s1.z p.s2.z)).peak = (ctxOf p.chirpMass p.massRatio p.s1.z p.s2.z).peak := rfl
  have hM : 0 < totalMass p.chirpMass p.massRatio * mtsun := by
    obtain ⟨a, b, _⟩ := masses_ordered p h.ord
    rw [← total_eq p h.ord]
    exact mul_pos (by unfold total; linarith) mtsun_pos
  have hseta : (ctxOf p.chirpMass p.massRatio p.s1.z p.s2.z).seta ≠ 0 := by
    show setaOf (etaOf p.chirpMass p.massRatio) ≠ 0
    have h0 := h.ord.q
    have : 0 < 1 - 4 * etaOf p.chirpMass p.massRatio := by
      rw [etaOf_eq _ _ h.ord.mc h.ord.q, show 1 - 4 * (p.massRatio / (1 + p.massRatio) ^ 2) = (1 - p.massRatio) ^ 2 / (1 + p.massRatio) ^ 2 by field_simp; ring]
      have : 1 - p.massRatio ≠ 0 := by intro hh; exact hq (by linarith)
      positivity
    unfold setaOf
    rw [max_eq_left this.le]
    exact (Real.sqrt_pos.2 this).ne'
  set c := ctxOf p.chirpMass p.massRatio p.s1.z p.s2.z with hc
  obtain ⟨mf, ⟨⟨⟨h1, h2⟩, h3⟩, h4⟩, h5⟩ := ((((insAmp_small c).and (insAmp_small (swapSq c))).and (swap_differs c hs hseta)).and
    (Filter.Tendsto.eventually (Filter.tendsto_id.mono_right nhdsWithin_le_nhds) (gt_mem_nhds (show (0 : ℝ) < Ctx.ampJoin by unfold Ctx.ampJoin; norm_num)))).and self_mem_nhdsWithin |>.exists
  change mf < _ at h4
  have hf : 0 < mf / (totalMass p.chirpMass p.massRatio * mtsun) := div_pos h5 hM
  refine ⟨mf / (totalMass p.chirpMass p.massRatio * mtsun), hf, ?_⟩
  have key := coreA_norm p _ h ha hf hd
  have keyD := htilde_norm _ _ _ _ (mf / (totalMass p.chirpMass p.massRatio * mtsun)) p.distance p.phic fRefD hphys hf hd
  rw [← hc, mul_div_cancel₀ _ hM.ne'] at key keyD
  have e1 : (swapSq c).amp mf = (swapSq c).insAmp mf := by
    rw [Ctx.amp_eq _ (by rw [hgoodS]; exact hgood.joins.1), if_pos h4.le]
  have e2 : c.amp mf = c.insAmp mf := by rw [Ctx.amp_eq _ hgood.joins.1, if_pos h4.le]
  rw [e1, abs_of_pos h2] at key
  rw [e2, abs_of_pos h1] at keyD
  rw [aligned_quadrupole p fRef _ (rdOfP p) ha hz hi]
  show ‖quadPlus (coreA p _) _‖ ≠ _
  unfold quadPlus strainD
  rw [norm_mul, norm_mul, key, ← hc, keyD]
  intro hh
  have hn : ‖(((1 + Real.cos p.inclination ^ 2) / 2 : ℝ) : ℂ)‖ ≠ 0 := by
    rw [norm_ne_zero_iff, Complex.ofReal_ne_zero]
    positivity
  exact h3 (mul_left_cancel₀ (amplitude_pos p.chirpMass p.distance _ h.ord.mc hd hf).ne' (mul_right_cancel₀ hn hh))

/-! ## Concrete cases -/

/-- An aligned binary of 20 and 10 solar masses with spins 0.5 and `z` along the orbital angular momentum. -/
noncomputable def exAligned (z : ℝ) : Par := ⟨chirpMass 20 10, massRatio 20 10, ⟨0, 0, 0.5⟩, ⟨0, 0, z⟩, 400, 0.3, 0.7, 0⟩

theorem exAligned_physical (z : ℝ) (h : 0 ≤ z) (h1 : z ≤ 1) : PhysicalP (exAligned z) :=
  ⟨⟨exPar_ordered.mc, exPar_ordered.q, exPar_ordered.le⟩, by unfold UnitSpin dot Vec.toR3 exAligned; norm_num,
    by unfold UnitSpin dot Vec.toR3 exAligned; dsimp only; nlinarith⟩

theorem exAligned_aligned (z : ℝ) : Aligned (exAligned z) := ⟨rfl, rfl, rfl, rfl⟩

/-- Spins that do not oppose the orbit leave the total angular momentum along it. -/
theorem totalJ_up (m1 m2 fRef : ℝ) (s1 s2 : Vec) (h1 : 0 < m1) (h2 : 0 < m2) (hf : 0 < fRef) (z1 : 0 ≤ s1.z) (z2 : 0 ≤ s2.z) : 0 < (totalJ m1 m2 fRef s1 s2).z := by
  unfold totalJ
  dsimp only
  have hpi := Real.pi_pos
  have hmt : 0 < mtsun := mtsun_pos
  have hv : 0 < (Real.pi * ((m1 + m2) * mtsun) * fRef) ^ ((1 : ℝ) / 3) := by positivity
  have he : m1 * m2 / ((m1 + m2) * (m1 + m2)) ≤ 1 / 4 := by rw [div_le_div_iff₀ (by positivity) (by norm_num)]; nlinarith [sq_nonneg (m1 - m2)]
  have hl := l2PNR_pos _ _ hv (show 0 < m1 * m2 / ((m1 + m2) * (m1 + m2)) by positivity) he
  positivity

theorem exAligned_up (z : ℝ) (h : 0 ≤ z) : 0 < (totalJ (light (exAligned z)) (heavy (exAligned z)) 20 (exAligned z).s2 (exAligned z).s1).z := by
  have e : heavy (exAligned z) = 20 ∧ light (exAligned z) = 10 := exPar_masses
  rw [e.1, e.2]
  exact totalJ_up 10 20 20 _ _ (by norm_num) (by norm_num) (by norm_num) h (by unfold exAligned; norm_num)

theorem sin_ex : 0 < Real.sin 0.7 := Real.sin_pos_of_pos_of_lt_pi (by norm_num) (by nlinarith [Real.one_le_pi_div_two])

/-- Non-vacuity of `aligned_D_partial`: equal spins. -/
example : ∃ a b : ℝ, ∀ f, 0 < f → polarizations (exAligned 0.5) (elemOf (exAligned 0.5) 20 (rdOfP (exAligned 0.5))) f =
    (quadCross (Complex.exp (Complex.I * ((a + b * f : ℝ) : ℂ)) * strainD (exAligned 0.5) 20 f) (Real.cos 0.7),
      quadPlus (Complex.exp (Complex.I * ((a + b * f : ℝ) : ℂ)) * strainD (exAligned 0.5) 20 f) (Real.cos 0.7)) :=
  aligned_D_partial (exAligned 0.5) 20 20 (exAligned_physical _ (by norm_num) (by norm_num)) (exAligned_aligned _) (exAligned_up _ (by norm_num)) sin_ex
    (by show (0 : ℝ) < 400; norm_num) (.inl rfl)

/-- A witness of `aligned_D_fails`: spins 0.5 and 0.2. -/
example : ∃ f, 0 < f ∧ ‖(polarizations (exAligned 0.2) (elemOf (exAligned 0.2) 20 (rdOfP (exAligned 0.2))) f).2‖ ≠ ‖quadPlus (strainD (exAligned 0.2) 20 f) (Real.cos 0.7)‖ :=
  aligned_D_fails (exAligned 0.2) 20 20 (exAligned_physical _ (by norm_num) (by norm_num)) (exAligned_aligned _) (exAligned_up _ (by norm_num)) sin_ex
    (by show (0 : ℝ) < 400; norm_num) (by show (0.5 : ℝ) * 0.5 ≠ 0.2 * 0.2; norm_num) (by show ConvSpec.massRatio 20 10 ≠ 1; unfold ConvSpec.massRatio; norm_num)

/-- A batch that must be rejected: two equal masses with spins of size 2. -/
noncomputable def exOver : Par := ⟨1, 1, ⟨0, 0, 2⟩, ⟨0, 0, 2⟩, 400, 0.3, 0.7, 0⟩

theorem exOver_spin : 1 < spinP exOver := by
  have ho : Ordered exOver := ⟨by unfold exOver; norm_num, by unfold exOver; norm_num, by unfold exOver; norm_num⟩
  rw [spinP_aligned exOver ⟨rfl, rfl, rfl, rfl⟩, etaP_eq exOver ho]
  show 1 < finalSpin (etaOf 1 1) 2 2
  rcases lt_abs.1 overspun with h | h
  · exact h
  · exfalso
    have e : etaOf 1 1 = 1 / 4 := by rw [etaOf_eq 1 1 (by norm_num) (by norm_num)]; norm_num
    have hs : setaOf (1 / 4) = 0 := by unfold setaOf; norm_num
    rw [e] at h
    unfold finalSpin massSpin finalSpinOf at h
    rw [hs] at h
    norm_num at h

/-- Non-vacuity of `forward_reject`: one such binary makes the whole batch fail. -/
example : forward [20, 30] [exPar, exOver] 20 = .error .index :=
  forward_reject [20, 30] [exPar, exOver] 20
    (by intro p hp; simp only [List.mem_cons, List.not_mem_nil, or_false] at hp; rcases hp with rfl | rfl; exacts [.inl exPar_physical, .inr exOver_spin])
    exOver (by simp) exOver_spin

end Verif.PhenomP
