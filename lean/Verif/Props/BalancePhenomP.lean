import Verif.Props.BalancePhenomD
import Verif.Props.PhenomPvsD
/-!
# C103: the IMRPhenomPv2 phase in the co-precessing frame and the energy balance
-/
set_option linter.unusedSimpArgs false
set_option linter.unusedVariables false
namespace Verif.PhenomP
open CbcUtils TaylorF2 PhenomD PhenomPSpec Spa SpaSpec BalanceSpec Filter Topology Asymptotics
open Conversion hiding mtsun

/-- The phase of the co-precessing waveform with its time shifts. -/
noncomputable def corePhase (p : Par) (fRef f : ℝ) : ℝ :=
  (ctxOfP p (rdOfP p)).phase (total p * mtsun * f) - (2 * (geom p fRef).phiAligned + Real.pi / 4)
    + f * diffRD (ctxOfP p (rdOfP p)) (total p * mtsun) (rdOfP p).1 + f * (total p * mtsun) * p.tc

/-- The total mass of a binary with ordered masses is positive. -/
theorem totalS_pos (p : Par) (h : Ordered p) : 0 < total p * mtsun := by
  obtain ⟨a, b, _⟩ := masses_ordered p h
  exact mul_pos (by unfold total; linarith) mtsun_pos

theorem insAmp_tendsto (c : Ctx) : Tendsto c.insAmp (𝓝[>] 0) (𝓝 1) := by
  have h : ContinuousAt c.insAmp 0 := by
    unfold Ctx.insAmp
    dsimp only
    have hr : Continuous fun x : ℝ => x ^ ((1 : ℝ) / 3) := Real.continuous_rpow_const (by norm_num)
    fun_prop
  have h0 : c.insAmp 0 = 1 := by
    unfold Ctx.insAmp
    dsimp only
    rw [Real.zero_rpow (by norm_num)]
    ring
  exact (h0 ▸ h.tendsto).mono_left nhdsWithin_le_nhds

/-- At low frequency the amplitude factor is positive. -/
theorem amp_pos_low (p : Par) (h : PhysicalP p) : ∀ᶠ f in 𝓝[>] (0 : ℝ), 0 < f ∧ 0 < (ctxOfP p (rdOfP p)).amp (total p * mtsun * f) := by
  have hM := totalS_pos p h.ord
  obtain ⟨j1, _⟩ := (goodP p h).joins
  have hs : Tendsto (fun f : ℝ => total p * mtsun * f) (𝓝[>] 0) (𝓝[>] 0) := by
    refine tendsto_nhdsWithin_iff.2 ⟨?_, ?_⟩
    · have : Continuous fun f : ℝ => total p * mtsun * f := by fun_prop
      have := this.tendsto 0
      rw [mul_zero] at this
      exact this.mono_left nhdsWithin_le_nhds
    · filter_upwards [self_mem_nhdsWithin] with f hf using mul_pos hM (Set.mem_Ioi.1 hf)
  have hp := ((insAmp_tendsto (ctxOfP p (rdOfP p))).comp hs).eventually (lt_mem_nhds one_pos)
  filter_upwards [hp, Ioo_mem_nhdsGT (show (0 : ℝ) < 0.014 / (total p * mtsun) by positivity)] with f h1 hf
  refine ⟨hf.1, ?_⟩
  have hf2 := hf.2
  rw [lt_div_iff₀ hM] at hf2
  rw [Ctx.amp_eq _ j1, if_pos (by unfold Ctx.ampJoin; linarith)]
  exact h1

/-- At low frequency the co-precessing waveform with its time shifts is its modulus times the phase factor of `corePhase`. -/
theorem core_phase_eq (p : Par) (fRef : ℝ) (h : PhysicalP p) (hd : 0 < p.distance) :
    ∀ᶠ f in 𝓝[>] (0 : ℝ), hAt p fRef (rdOfP p) f * shift p (rdOfP p) f * (y22 : ℂ) =
      (2 * (PNSpec.amplitude (p.chirpMass * mtsun) (p.distance * mpcSec) f * (ctxOfP p (rdOfP p)).amp (total p * mtsun * f)) : ℝ)
        * Complex.exp (-Complex.I * (corePhase p fRef f : ℂ)) := by
  filter_upwards [amp_pos_low p h] with f hf
  have k := hAt_eq p fRef f (rdOfP p) h.ord hf.1 hd
  have e : hAt p fRef (rdOfP p) f * shift p (rdOfP p) f * (y22 : ℂ) = 2 * (((y22 / 2 : ℝ) : ℂ) * hAt p fRef (rdOfP p) f) * shift p (rdOfP p) f := by
    push_cast; ring
  rw [e, k]
  unfold shift corePhase
  rw [Complex.ofReal_mul 2, mul_assoc (2 : ℂ), mul_assoc _ (Complex.exp _) (_ * _), ← Complex.exp_add, ← Complex.exp_add, ← mul_assoc]
  congr 2
  push_cast
  ring

theorem balance_ratio (p : Par) (fRef : ℝ) (h : PhysicalP p) :
    (fun f => deriv (deriv (corePhase p fRef)) f / (2 * Real.pi * timePerFrequency (heavy p * mtsun) (light p * mtsun) p.s1.z p.s2.z f) - 1
        - spinSpin (PNSpec.eta (heavy p) (light p)) (PNSpec.delta (heavy p) (light p)) (PNSpec.chiS p.s1.z p.s2.z) (PNSpec.chiA p.s1.z p.s2.z) / 20
          * velocity (total p * mtsun) f ^ 6
        - kk (heavy p * mtsun / (total p * mtsun)) p.s1.z p.s2.z * velocity (total p * mtsun) f ^ 7)
      =o[𝓝[>] 0] fun f => velocity (total p * mtsun) f ^ 7 := by
  have hc := goodP p h
  obtain ⟨j1, j2, j3, j4⟩ := hc.joins
  obtain ⟨p1, p2, _⟩ := masses_ordered p h.ord
  have hmt : 0 < mtsun := mtsun_pos
  have hM : 0 < total p * mtsun := totalS_pos p h.ord
  have heta : (ctxOfP p (rdOfP p)).eta = PNSpec.eta (heavy p) (light p) := by
    show etaP p = _
    unfold etaP total PNSpec.eta
    ring
  obtain ⟨b, hb, b5, b3, b2, b1, bb1, bb2⟩ := insPhase_series (ctxOfP p (rdOfP p)) hc.m1 hc.m2 heta (PNSpec.eta (heavy p) (light p)) (PNSpec.delta (heavy p) (light p))
    (PNSpec.chiS p.s1.z p.s2.z) (PNSpec.chiA p.s1.z p.s2.z) rfl rfl rfl rfl
  have sEta : PNSpec.eta (heavy p * mtsun) (light p * mtsun) = PNSpec.eta (heavy p) (light p) := by unfold PNSpec.eta; field_simp
  have sDel : PNSpec.delta (heavy p * mtsun) (light p * mtsun) = PNSpec.delta (heavy p) (light p) := by unfold PNSpec.delta; field_simp
  have sM : heavy p * mtsun + light p * mtsun = total p * mtsun := by unfold total; ring
  have key := series_balance (heavy p * mtsun) (light p * mtsun) p.s1.z p.s2.z
    (spinSpin (PNSpec.eta (heavy p) (light p)) (PNSpec.delta (heavy p) (light p)) (PNSpec.chiS p.s1.z p.s2.z) (PNSpec.chiA p.s1.z p.s2.z))
    (-(2 * (geom p fRef).phiAligned + Real.pi / 4)) (diffRD (ctxOfP p (rdOfP p)) (total p * mtsun) (rdOfP p).1 + total p * mtsun * p.tc)
    (0.014 / (total p * mtsun)) (by positivity) (by positivity) (by positivity)
    (corePhase p fRef) b _ _ (fun f hf hf0 => by
      rw [lt_div_iff₀ hM] at hf0
      have q1 : 0 < total p * mtsun * f := by positivity
      unfold corePhase
      rw [Ctx.phase_eq _ j2 (total p * mtsun * f), if_pos (by unfold Ctx.phiJoin; linarith), hb _ q1, velocity_eq, sM]
      ring)
    (by rw [sEta, b5]) (by rw [sEta, b3]) (by rw [sEta, sDel, b2]) (by rw [sEta, sDel, b1])
    (by rw [sEta, sDel, bb1]; unfold phase6 PNSpec.psi6 spinSpin; rw [mul_one]; ring) (by rw [sEta, sDel, bb2]) (by rw [sEta, sDel]) (by rw [sEta])
  rw [sM] at key
  exact key

/-- The same binary with both spin vectors scaled by `t`. -/
def scaleSpins (p : Par) (t : ℝ) : Par := { p with s1 := ⟨t * p.s1.x, t * p.s1.y, t * p.s1.z⟩, s2 := ⟨t * p.s2.x, t * p.s2.y, t * p.s2.z⟩ }

/-- **C103.**  The polarizations of IMRPhenomPv2 at low frequency are those of a precessing quadrupole whose phase in the co-precessing frame is the one the energy budget of the spin components along the
orbital axis dictates: through two and a half post-Newtonian orders for any spins, and through three and a half in what is not quadratic or higher in the spins.  The left-hand sides are
the two circular polarizations that `forward` returns; the angles are the Euler angles of C75 and C102. -/
theorem phase_solves_balance (p : Par) (fRef : ℝ) (hp : PhysicalP p) (hd : 0 < p.distance) :
    ∃ A B C : ℝ, ∀ t : ℝ, 0 ≤ t → t ≤ 1 → ∃ e : Elem, elem (scaleSpins p t) fRef = .ok e ∧ ∃ (ψ a : ℝ → ℝ), (∀ f, 0 < f → DifferentiableAt ℝ ψ f) ∧
      (∀ᶠ f in 𝓝[>] (0 : ℝ), 0 < a f ∧
        ∃ α β ε : ℝ, α = alphaAt (scaleSpins p t) fRef f ∧ β = betaAt (scaleSpins p t) fRef f ∧ ε = epsAt (scaleSpins p t) fRef f ∧
        (polarizations (scaleSpins p t) e f).2 + Complex.I * (polarizations (scaleSpins p t) e f).1 =
          Complex.exp (-2 * Complex.I * (e.conv.zeta + ε : ℝ)) * (a f * Complex.exp (-Complex.I * (ψ f : ℂ))) *
            (Complex.exp (Complex.I * (α / 2 : ℝ)) * Real.cos (β / 2) * Real.cos (e.conv.thetaJN / 2)
              + Complex.exp (-(Complex.I * (α / 2 : ℝ))) * Real.sin (β / 2) * Real.sin (e.conv.thetaJN / 2)) ^ 4 ∧
        (polarizations (scaleSpins p t) e f).2 - Complex.I * (polarizations (scaleSpins p t) e f).1 =
          Complex.exp (2 * Complex.I * (e.conv.zeta - ε : ℝ)) * (a f * Complex.exp (-Complex.I * (ψ f : ℂ))) *
            (Complex.exp (Complex.I * (α / 2 : ℝ)) * Real.cos (β / 2) * Real.sin (e.conv.thetaJN / 2)
              - Complex.exp (-(Complex.I * (α / 2 : ℝ))) * Real.sin (β / 2) * Real.cos (e.conv.thetaJN / 2)) ^ 4) ∧
      (fun f => deriv (deriv ψ) f / (2 * Real.pi * timePerFrequency (mass1 p.chirpMass p.massRatio * mtsun) (mass2 p.chirpMass p.massRatio * mtsun) (t * p.s1.z) (t * p.s2.z) f) - 1
          - A * t ^ 2 * velocity (totalMass p.chirpMass p.massRatio * mtsun) f ^ 6
          - (B * t ^ 2 + C * t ^ 3) * velocity (totalMass p.chirpMass p.massRatio * mtsun) f ^ 7)
        =o[𝓝[>] 0] fun f => velocity (totalMass p.chirpMass p.massRatio * mtsun) f ^ 7 := by
  obtain ⟨B, C, hBC⟩ := kk_spins (heavy p * mtsun / (total p * mtsun)) p.s1.z p.s2.z
  refine ⟨spinSpin (PNSpec.eta (heavy p) (light p)) (PNSpec.delta (heavy p) (light p)) (PNSpec.chiS p.s1.z p.s2.z) (PNSpec.chiA p.s1.z p.s2.z) / 20, B, C, fun t t0 t1 => ?_⟩
  have hu : ∀ s : Vec, UnitSpin s.toR3 → UnitSpin (Vec.toR3 ⟨t * s.x, t * s.y, t * s.z⟩) := by
    intro s hs
    unfold UnitSpin ConvSpec.dot Vec.toR3 at hs ⊢
    dsimp only at hs ⊢
    have h2 : t * t ≤ 1 := by nlinarith
    have h3 : 0 ≤ t * t := mul_self_nonneg t
    nlinarith [mul_self_nonneg s.x, mul_self_nonneg s.y, mul_self_nonneg s.z]
  have hp' : PhysicalP (scaleSpins p t) := ⟨⟨hp.ord.mc, hp.ord.q, hp.ord.le⟩, hu _ hp.u1, hu _ hp.u2⟩
  have hrd := ringdown_physical _ hp'
  refine ⟨_, elem_ok _ fRef _ hrd, corePhase (scaleSpins p t) fRef,
    fun f => 2 * (PNSpec.amplitude (p.chirpMass * mtsun) (p.distance * mpcSec) f * (ctxOfP (scaleSpins p t) (rdOfP (scaleSpins p t))).amp (total p * mtsun * f)), ?_, ?_, ?_⟩
  · intro f hf
    have hc := goodP _ hp'
    obtain ⟨j1, j2, j3, j4⟩ := hc.joins
    have hq := Ctx.phase_deriv _ j2 j3 hc.m1 hc.m2 (total (scaleSpins p t) * mtsun * f) (mul_pos (totalS_pos _ hp'.ord) hf)
    have : DifferentiableAt ℝ (fun f => (ctxOfP (scaleSpins p t) (rdOfP (scaleSpins p t))).phase (total (scaleSpins p t) * mtsun * f)) f :=
      hq.differentiableAt.comp f ((differentiableAt_id).const_mul _)
    unfold corePhase
    fun_prop
  · filter_upwards [amp_pos_low _ hp', core_phase_eq (scaleSpins p t) fRef hp' hd] with f hf hk
    have ha := amplitude_pos p.chirpMass p.distance f hp.ord.mc hd hf.1
    refine ⟨mul_pos two_pos (mul_pos ha hf.2), _, _, _, rfl, rfl, rfl, ?_⟩
    obtain ⟨c1, c2⟩ := polarizations_circular (scaleSpins p t) fRef f (rdOfP (scaleSpins p t))
    have ez : (elemOf (scaleSpins p t) fRef (rdOfP (scaleSpins p t))).conv = geom (scaleSpins p t) fRef := rfl
    rw [c1, c2, ez]
    generalize alphaAt (scaleSpins p t) fRef f = α
    generalize betaAt (scaleSpins p t) fRef f = β
    generalize epsAt (scaleSpins p t) fRef f = ε
    generalize geom (scaleSpins p t) fRef = G at *
    have hk' := hk
    have eT : total (scaleSpins p t) = total p := rfl
    have e1 : (scaleSpins p t).chirpMass = p.chirpMass := rfl
    have e2 : (scaleSpins p t).distance = p.distance := rfl
    rw [eT, e1, e2] at hk
    rw [← hk]
    constructor
    · rw [show Complex.exp (-2 * Complex.I * (G.zeta + ε : ℝ)) = Complex.exp (-2 * Complex.I * (G.zeta : ℂ)) * Complex.exp (-2 * Complex.I * (ε : ℂ)) by
        rw [← Complex.exp_add]; exact congrArg Complex.exp (by push_cast; ring)]
      ring
    · rw [show Complex.exp (2 * Complex.I * (G.zeta - ε : ℝ)) = Complex.exp (2 * Complex.I * (G.zeta : ℂ)) * Complex.exp (-2 * Complex.I * (ε : ℂ)) by
        rw [← Complex.exp_add]; exact congrArg Complex.exp (by push_cast; ring)]
      ring
  · have h := balance_ratio (scaleSpins p t) fRef hp'
    have eT : total (scaleSpins p t) = totalMass p.chirpMass p.massRatio := total_eq _ hp'.ord
    have eh : heavy (scaleSpins p t) = mass1 p.chirpMass p.massRatio := rfl
    have el : light (scaleSpins p t) = mass2 p.chirpMass p.massRatio := rfl
    have eT0 : total p = totalMass p.chirpMass p.massRatio := total_eq _ hp.ord
    have eh0 : heavy p = mass1 p.chirpMass p.massRatio := rfl
    have el0 : light p = mass2 p.chirpMass p.massRatio := rfl
    rw [eT0, eh0] at hBC
    rw [eT, eh, el] at h
    rw [eh0, el0]
    have s1 : (scaleSpins p t).s1.z = t * p.s1.z := rfl
    have s2 : (scaleSpins p t).s2.z = t * p.s2.z := rfl
    have hss : ∀ η δ : ℝ, spinSpin η δ (PNSpec.chiS (t * p.s1.z) (t * p.s2.z)) (PNSpec.chiA (t * p.s1.z) (t * p.s2.z)) =
        t ^ 2 * spinSpin η δ (PNSpec.chiS p.s1.z p.s2.z) (PNSpec.chiA p.s1.z p.s2.z) := by
      intro η δ
      unfold spinSpin PNSpec.chiS PNSpec.chiA
      ring
    rw [s1, s2, hBC, hss] at h
    refine h.congr_left fun f => ?_
    rw [mul_div_assoc, mul_comm (t ^ 2)]

example : PhysicalP exPar ∧ 0 < exPar.distance := ⟨exPar_physical, by norm_num [exPar]⟩

end Verif.PhenomP
