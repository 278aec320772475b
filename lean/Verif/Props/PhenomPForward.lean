import Verif.Props.PhenomPRing
import Verif.Props.Geometry
/-!
# C68, C72, C73: the module on a batch, ringdown, time shifts
-/
namespace Verif.PhenomP
open CbcUtils TaylorF2 PhenomD PhenomPSpec ConvSpec
open Conversion hiding mtsun

/-- A physical binary: positive masses, the first body the heavier, spins no longer than one. -/
structure PhysicalP (p : Par) : Prop where
  ord : Ordered p
  u1 : UnitSpin p.s1.toR3
  u2 : UnitSpin p.s2.toR3

/-- The final spin of one batch element. -/
noncomputable def spinP (p : Par) : ℝ := finalSpinInplane (heavy p) (light p) p.s1.z p.s2.z (chipOf (light p) (heavy p) p.s2 p.s1)

/-- The radiated energy. -/
noncomputable def eradP (p : Par) : ℝ := erad (etaP p) p.s1.z p.s2.z

/-- The ringdown pair of one batch element in Hz. -/
noncomputable def rdOfP (p : Par) : ℝ × ℝ :=
  (interp qnmRing (spinP p) / (1 - eradP p) / (total p * mtsun), interp qnmDamp (spinP p) / (1 - eradP p) / (total p * mtsun))

theorem spinP_range (p : Par) (h : PhysicalP p) : |spinP p| < 1 := by
  obtain ⟨a, b, c, _⟩ := masses_ordered p h.ord
  exact finalSpinInplane_range (light p) (heavy p) a c p.s1 p.s2 h.u1 h.u2

theorem ringdown_gen (p : Par) (hm : total p ≠ 0) (h1 : -1 < spinP p) (h2 : spinP p ≤ 1) : rdP p = .ok (rdOfP p) := by
  have hmt : mtsun ≠ 0 := mtsun_pos.ne'
  unfold rdP ringdown
  change (lookup qnmRing (spinP p) >>= fun r => lookup qnmDamp (spinP p) >>= fun d => _) = _
  rw [lookup_ok _ _ h1 h2, lookup_ok _ _ h1 h2]
  simp only [res_bind_ok]
  have e1 : heavy p * mtsun + light p * mtsun = total p * mtsun := by unfold total; ring
  have e2 : heavy p * mtsun * (light p * mtsun) / (heavy p * mtsun + light p * mtsun) ^ 2 = etaP p := by
    rw [e1]; unfold etaP; field_simp
  rw [e2, e1]
  rfl

/-- **C72.**  For every physical binary the ringdown frequencies are the table values, linearly interpolated at a final spin below one, divided by the remaining mass. -/
theorem ringdown_physical (p : Par) (h : PhysicalP p) : rdP p = .ok (rdOfP p) := by
  obtain ⟨a, b, c, _⟩ := masses_ordered p h.ord
  have := abs_lt.1 (spinP_range p h)
  exact ringdown_gen p (by unfold total; linarith) this.1 this.2.le

theorem ringdown_reject (p : Par) (h : 1 < spinP p) : rdP p = .error .index := by
  unfold rdP ringdown
  change (lookup qnmRing (spinP p) >>= fun r => lookup qnmDamp (spinP p) >>= fun d => _) = _
  rw [lookup_above _ _ h]
  rfl

/-! ## The batch -/

/-- **C68.**  A batch of physical binaries is never rejected; the result has one row per binary and one column per frequency, cross polarization first, each entry depending only on its own binary and frequency. -/
theorem forward_ok (fs : List ℝ) (ps : List Par) (fRef : ℝ) (h : ∀ p ∈ ps, PhysicalP p) :
    forward fs ps fRef = .ok (ps.map fun p => fs.map fun f => (polarizations p (elemOf p fRef (rdOfP p)) f).1,
      ps.map fun p => fs.map fun f => (polarizations p (elemOf p fRef (rdOfP p)) f).2) := by
  unfold forward
  rw [mapM_ok (fun p => (elem p fRef).map fun e => (p, e)) (fun p => (p, elemOf p fRef (rdOfP p))) ps (by
    intro p hp
    rw [elem_ok p fRef (rdOfP p) (ringdown_physical p (h p hp))]
    rfl)]
  simp only [res_bind_ok, List.map_map]
  rfl

/-- **C72.**  A batch with one final spin above one is rejected as a whole. -/
theorem forward_reject (fs : List ℝ) (ps : List Par) (fRef : ℝ) (h : ∀ p ∈ ps, PhysicalP p ∨ 1 < spinP p) (p : Par) (hp : p ∈ ps) (hs : 1 < spinP p) :
    forward fs ps fRef = .error .index := by
  unfold forward
  rw [Geometry.mapM_error (fun p => (elem p fRef).map fun e => (p, e)) .index ps (by
    intro x hx
    rcases h x hx with h | h
    · left
      exact ⟨_, by rw [elem_ok x fRef (rdOfP x) (ringdown_physical x h)]; rfl⟩
    · right
      rw [elem_err x fRef .index (ringdown_reject x h)]; rfl) p hp (by rw [elem_err p fRef .index (ringdown_reject p hs)]; rfl)]
  rfl

/-- Non-vacuity: the precessing 20 + 10 binary is physical. -/
theorem exPar_physical : PhysicalP exPar :=
  ⟨exPar_ordered, by unfold UnitSpin dot Vec.toR3 exPar; norm_num, by unfold UnitSpin dot Vec.toR3 exPar; norm_num⟩

example : ∃ r, forward [20, 30] [exPar, exPar] 20 = .ok r := ⟨_, forward_ok _ _ _ (by intro p hp; simp at hp; rw [hp]; exact exPar_physical)⟩

/-! ## The aligned-spin core -/

theorem etaP_range (p : Par) (h : Ordered p) : 0 < etaP p ∧ etaP p ≤ 1 / 4 := by
  obtain ⟨a, b, c, _⟩ := masses_ordered p h
  have : etaP p = light p / (light p + heavy p) * (heavy p / (light p + heavy p)) := by unfold etaP total; field_simp
  obtain ⟨e0, e1, _⟩ := fractions (light p) (heavy p) a c _ this
  exact ⟨e0, e1⟩

theorem etaP_eq (p : Par) (h : Ordered p) : etaP p = etaOf p.chirpMass p.massRatio := by
  rw [eta_PN _ _ h.mc h.q]
  unfold etaP total light heavy PNSpec.eta
  rw [(mass_eq _ _ h.mc h.q).1, (mass_eq _ _ h.mc h.q).2]
  ring

/-- **C72.**  The amplitude and phase coefficients of a physical precessing binary are in the range that makes the aligned-spin core well formed. -/
theorem goodP (p : Par) (h : PhysicalP p) : Good (ctxOfP p (rdOfP p)) := by
  obtain ⟨a, b, c, _⟩ := masses_ordered p h.ord
  obtain ⟨e0, e1⟩ := etaP_range p h.ord
  obtain ⟨⟨a1, a2⟩, _⟩ := unit_z _ h.u1
  obtain ⟨⟨b1, b2⟩, _⟩ := unit_z _ h.u2
  change -1 ≤ p.s1.z at a1
  change p.s1.z ≤ 1 at a2
  change -1 ≤ p.s2.z at b1
  change p.s2.z ≤ 1 at b2
  have hs := abs_lt.1 (spinP_range p h)
  obtain ⟨u1, u2, u3⟩ := spin_mean _ e0 e1 p.s1.z p.s2.z a1 a2 b1 b2
  obtain ⟨r, d⟩ := ring_bounds _ hs.1.le hs.2.le
  have hE := erad_bounds (etaP p) _ e0.le e1 u1 u2
  have hse : Real.sqrt (1 - 4 * etaP p) = setaOf (etaP p) := by unfold setaOf; rw [max_eq_left (by linarith)]
  have hc := abs_le.1 (chiPN_abs _ e0 e1 p.s1.z p.s2.z a1 a2 b1 b2)
  rw [← hse] at hc
  have hdom : Dom (etaP p) (-1 + chiPN (Real.sqrt (1 - 4 * etaP p)) (etaP p) p.s1.z p.s2.z) := ⟨e0.le, e1, by linarith [hc.1], by linarith [hc.2]⟩
  have g1 := gamma1_lower _ _ hdom
  have g2 := gamma2_lower _ _ hdom
  have g2' := gamma2_upper _ _ hdom
  have g3 := gamma3_lower _ _ hdom
  have g3' := gamma3_upper _ _ hdom
  have hE' : 0 < 1 - eradP p ∧ 1 - eradP p ≤ 1 := by
    unfold eradP erad; constructor <;> linarith [hE.1, hE.2]
  have key : ∀ x lo : ℝ, 0 ≤ lo → lo ≤ x → lo ≤ x / (1 - eradP p) := by
    intro x lo hlo hx
    rw [le_div_iff₀ hE'.1]
    nlinarith
  have hM : total p * mtsun ≠ 0 := mul_ne_zero (by unfold total; linarith) mtsun_pos.ne'
  have hfr : (ctxOfP p (rdOfP p)).fRD = interp qnmRing (spinP p) / (1 - eradP p) := mul_div_cancel₀ _ hM
  have hfd : (ctxOfP p (rdOfP p)).fDM = interp qnmDamp (spinP p) / (1 - eradP p) := mul_div_cancel₀ _ hM
  have hrd := key _ _ (by norm_num) r.1
  have hdm := key _ _ (by norm_num) d.1
  have hdiff := key (interp qnmRing (spinP p) - interp qnmDamp (spinP p) * 1.5) 0.025 (by norm_num) (by linarith [r.1, d.2])
  rw [sub_div, mul_div_right_comm] at hdiff
  rw [← hfr] at hrd hdiff
  rw [← hfd] at hdm hdiff
  have hg2 : (ctxOfP p (rdOfP p)).gamma2 = gamma2 (etaP p) (etaP p * etaP p) (-1 + chiPN (Real.sqrt (1 - 4 * etaP p)) (etaP p) p.s1.z p.s2.z) := rfl
  have hg3 : (ctxOfP p (rdOfP p)).gamma3 = gamma3 (etaP p) (etaP p * etaP p) (-1 + chiPN (Real.sqrt (1 - 4 * etaP p)) (etaP p) p.s1.z p.s2.z) := rfl
  rw [← hg2] at g2 g2'
  rw [← hg3] at g3 g3'
  have hpk : (ctxOfP p (rdOfP p)).peak = |(ctxOfP p (rdOfP p)).fRD + (ctxOfP p (rdOfP p)).fDM * (-1 + Real.sqrt (max (1 - (ctxOfP p (rdOfP p)).gamma2 ^ 2) 0)) * (ctxOfP p (rdOfP p)).gamma3 / (ctxOfP p (rdOfP p)).gamma2| := rfl
  have hf := fmax_lower (ctxOfP p (rdOfP p)).fRD (ctxOfP p (rdOfP p)).fDM (ctxOfP p (rdOfP p)).gamma2 (ctxOfP p (rdOfP p)).gamma3 (by linarith) (by linarith) (by linarith)
  have hlow : (0.025 : ℝ) ≤ (ctxOfP p (rdOfP p)).fRD - (ctxOfP p (rdOfP p)).fDM * (ctxOfP p (rdOfP p)).gamma3 := by nlinarith
  have hnn := hlow.trans hf.1
  refine ⟨b, a, ⟨e0, e1⟩, hdom, g1, ⟨g2, g2'⟩, ⟨g3, g3'⟩, hdm, hrd, ?_, ?_, ?_⟩
  · rw [hpk]; exact abs_of_nonneg (by linarith)
  · rw [hpk]; exact hnn.trans (le_abs_self _)
  · rw [hpk, abs_of_nonneg (by linarith)]; exact hf.2

end Verif.PhenomP
