import Verif.Props.PhenomDGlue
import Verif.Props.PhenomDBounds
import Verif.Props.PhenomDTable
/-!
# IMRPhenomD on physical binaries (C59)

For positive masses and spins of magnitude at most one the final spin is always in the tables, the joins are ordered and nothing is divided by zero, so the smoothness results apply to every waveform the module returns.
-/
set_option linter.unusedSimpArgs false
set_option linter.unusedVariables false
set_option linter.unusedSectionVars false
namespace Verif.PhenomD
open TaylorF2 CbcUtils

/-- Positive chirp mass and mass ratio, spins between -1 and 1. -/
def Physical (mc q chi1 chi2 : ℝ) : Prop := 0 < mc ∧ 0 < q ∧ (-1 ≤ chi1 ∧ chi1 ≤ 1) ∧ (-1 ≤ chi2 ∧ chi2 ≤ 1)

section masses
variable (mc q : ℝ) (hm : 0 < mc) (hq : 0 < q)
include hm hq

theorem mass_eq : mass1 mc q = (Conversion.toComponents mc q).1 ∧ mass2 mc q = (Conversion.toComponents mc q).2 := ⟨rfl, rfl⟩

/-- **C59.**  The symmetric mass ratio is `q / (1 + q)²`. -/
theorem etaOf_eq : etaOf mc q = q / (1 + q) ^ 2 := by
  have h1 : 0 < 1 + q := by linarith
  have hA : 0 < (1 + q) ^ (1.2 : ℝ) := Real.rpow_pos_of_pos h1 _
  have hB : 0 < q ^ (0.6 : ℝ) := Real.rpow_pos_of_pos hq _
  have e : mc / totalMass mc q = q ^ (0.6 : ℝ) / (1 + q) ^ (1.2 : ℝ) := by unfold totalMass; field_simp
  unfold etaOf
  rw [e, Real.div_rpow hB.le hA.le, ← Real.rpow_mul hq.le, ← Real.rpow_mul h1.le]
  norm_num

theorem etaOf_range : 0 < etaOf mc q ∧ etaOf mc q ≤ 1 / 4 := by
  rw [etaOf_eq mc q hm hq]
  have h1 : 0 < 1 + q := by linarith
  refine ⟨by positivity, ?_⟩
  rw [div_le_iff₀ (by positivity)]
  nlinarith [sq_nonneg (1 - q)]

theorem eta_PN : etaOf mc q = PNSpec.eta (mass1 mc q) (mass2 mc q) := by
  rw [etaOf_eq mc q hm hq]
  have h1 : 0 < 1 + q := by linarith
  have hA : 0 < (1 + q) ^ (1.2 : ℝ) := Real.rpow_pos_of_pos h1 _
  have hB : 0 < q ^ (0.6 : ℝ) := Real.rpow_pos_of_pos hq _
  have hT : 0 < totalMass mc q := by unfold totalMass; positivity
  have hm1 : 0 < mass1 mc q := by unfold mass1; positivity
  unfold PNSpec.eta mass2
  field_simp

theorem masses_pos : 0 < mass1 mc q ∧ 0 < mass2 mc q ∧ mass1 mc q + mass2 mc q = totalMass mc q ∧ ConvSpec.chirpMass (mass1 mc q) (mass2 mc q) = mc ∧
    mass2 mc q / mass1 mc q = q := by
  obtain ⟨h1, h2, h3, h4, _⟩ := Conversion.toComponents_spec mc q hm hq
  refine ⟨h1, h2, ?_, h4, h3⟩
  have h5 : 0 < 1 + q := by linarith
  unfold mass2 mass1
  field_simp

theorem setaOf_eq : setaOf (etaOf mc q) = |1 - q| / (1 + q) := by
  have h1 : 0 < 1 + q := by linarith
  have e : 1 - 4 * (q / (1 + q) ^ 2) = ((1 - q) / (1 + q)) ^ 2 := by field_simp; ring
  unfold setaOf
  rw [etaOf_eq mc q hm hq, e, max_eq_left (sq_nonneg _), Real.sqrt_sq_eq_abs, abs_div, abs_of_pos h1]

end masses

section fits
variable (eta : ℝ) (h0 : 0 < eta) (h1 : eta ≤ 1 / 4)
include h0 h1

theorem setaOf_sq : setaOf eta ^ 2 = 1 - 4 * eta ∧ 0 ≤ setaOf eta ∧ setaOf eta ≤ 1 := by
  unfold setaOf
  rw [max_eq_left (by linarith)]
  refine ⟨Real.sq_sqrt (by linarith), Real.sqrt_nonneg _, ?_⟩
  rw [Real.sqrt_le_left (by norm_num)]
  linarith

theorem massNorm_eq : massNorm eta = 1 - 2 * eta := by
  have := (setaOf_sq eta h0 h1).1
  unfold massNorm
  linear_combination (0.5 : ℝ) * this

/-- The normalised spin is a weighted mean of the two spins. -/
theorem spin_mean (c1 c2 : ℝ) (h2 : -1 ≤ c1) (h3 : c1 ≤ 1) (h4 : -1 ≤ c2) (h5 : c2 ≤ 1) :
    -1 ≤ massSpin eta c1 c2 / massNorm eta ∧ massSpin eta c1 c2 / massNorm eta ≤ 1 ∧
      massSpin eta c1 c2 = (1 - 2 * eta) * (massSpin eta c1 c2 / massNorm eta) := by
  have hn := massNorm_eq eta h0 h1
  have hp : 0 < massNorm eta := by rw [hn]; linarith
  have a1 : 0 ≤ 0.5 * (1 + setaOf eta) * (0.5 * (1 + setaOf eta)) := mul_self_nonneg _
  have a2 : 0 ≤ 0.5 * (1 - setaOf eta) * (0.5 * (1 - setaOf eta)) := mul_self_nonneg _
  refine ⟨?_, ?_, ?_⟩
  · rw [le_div_iff₀ hp]
    unfold massSpin massNorm
    generalize 0.5 * (1 + setaOf eta) * (0.5 * (1 + setaOf eta)) = x at *
    generalize 0.5 * (1 - setaOf eta) * (0.5 * (1 - setaOf eta)) = y at *
    nlinarith
  · rw [div_le_iff₀ hp]
    unfold massSpin massNorm
    generalize 0.5 * (1 + setaOf eta) * (0.5 * (1 + setaOf eta)) = x at *
    generalize 0.5 * (1 - setaOf eta) * (0.5 * (1 - setaOf eta)) = y at *
    nlinarith
  · rw [← hn]; field_simp

/-- **C59.**  The reduced spin of a physical binary is at most `1 - 76 η / 113` in magnitude. -/
theorem chiPN_abs (c1 c2 : ℝ) (h2 : -1 ≤ c1) (h3 : c1 ≤ 1) (h4 : -1 ≤ c2) (h5 : c2 ≤ 1) : |chiPN (setaOf eta) eta c1 c2| ≤ 1 - 76 * eta / 113 := by
  obtain ⟨s2, s0, s1⟩ := setaOf_sq eta h0 h1
  have hk : setaOf eta ≤ 1 - 76 * eta / 113 := by
    apply le_of_sq_le_sq _ (by linarith)
    rw [s2]; nlinarith
  rw [abs_le]
  unfold chiPN
  generalize setaOf eta = s at *
  constructor <;> nlinarith

end fits

/-- **C59.**  The reduced spin, for a mass ratio at most one: effective spin minus `38 η/113` of the spin sum. -/
theorem chiPN_reduced (mc q c1 c2 : ℝ) (hm : 0 < mc) (hq : 0 < q) (h : q ≤ 1) :
    chiPN (setaOf (etaOf mc q)) (etaOf mc q) c1 c2 = PhenomDSpec.reducedSpin (mass1 mc q) (mass2 mc q) c1 c2 := by
  obtain ⟨p1, p2, _⟩ := masses_pos mc q hm hq
  have h1 : 0 < 1 + q := by linarith
  have e : mass1 mc q * mass2 mc q / (mass1 mc q + mass2 mc q) ^ 2 = q / (1 + q) ^ 2 := by unfold mass2; field_simp
  have e2 : (mass1 mc q * c1 + mass2 mc q * c2) / (mass1 mc q + mass2 mc q) = (c1 + q * c2) / (1 + q) := by unfold mass2; field_simp
  unfold PhenomDSpec.reducedSpin chiPN
  rw [e, e2, setaOf_eq mc q hm hq, etaOf_eq mc q hm hq, abs_of_nonneg (by linarith)]
  field_simp
  ring

/-- **C59.**  For a mass ratio above one the same formula is evaluated with the spins exchanged: it takes `chi1` for the spin of the heavier body, although the mass assigned to the first body is then the lighter. -/
theorem chiPN_exchanged (mc q c1 c2 : ℝ) (hm : 0 < mc) (hq : 0 < q) (h : 1 ≤ q) :
    chiPN (setaOf (etaOf mc q)) (etaOf mc q) c1 c2 = PhenomDSpec.reducedSpin (mass1 mc q) (mass2 mc q) c2 c1 := by
  obtain ⟨p1, p2, _⟩ := masses_pos mc q hm hq
  have h1 : 0 < 1 + q := by linarith
  have e : mass1 mc q * mass2 mc q / (mass1 mc q + mass2 mc q) ^ 2 = q / (1 + q) ^ 2 := by unfold mass2; field_simp
  have e2 : (mass1 mc q * c2 + mass2 mc q * c1) / (mass1 mc q + mass2 mc q) = (c2 + q * c1) / (1 + q) := by unfold mass2; field_simp
  unfold PhenomDSpec.reducedSpin chiPN
  rw [e, e2, setaOf_eq mc q hm hq, etaOf_eq mc q hm hq, abs_of_nonpos (by linarith)]
  field_simp
  ring

/-- The reduced spin with the spins of the two bodies exchanged is another number, so above mass ratio one the reduced spin is not the binary's. -/
theorem chiPN_above_one_wrong : chiPN (setaOf (etaOf 1 3)) (etaOf 1 3) 1 0 ≠ PhenomDSpec.reducedSpin (mass1 1 3) (mass2 1 3) 1 0 := by
  rw [chiPN_exchanged 1 3 1 0 (by norm_num) (by norm_num) (by norm_num)]
  obtain ⟨p1, p2, _⟩ := masses_pos 1 3 (by norm_num) (by norm_num)
  have e2 : mass2 1 3 = mass1 1 3 * 3 := rfl
  unfold PhenomDSpec.reducedSpin
  intro h
  have h2 : (mass1 1 3 * 0 + mass2 1 3 * 1) / (mass1 1 3 + mass2 1 3) = (mass1 1 3 * 1 + mass2 1 3 * 0) / (mass1 1 3 + mass2 1 3) := by
    linarith
  rw [e2] at h2
  field_simp at h2
  norm_num at h2

/-! ## The peak -/

theorem fmax_lower (fRD fDM g2 g3 : ℝ) (h2 : 0 < g2) (hD : 0 ≤ fDM) (h3 : 0 ≤ g3) :
    fRD - fDM * g3 ≤ fRD + fDM * (-1 + Real.sqrt (max (1 - g2 ^ 2) 0)) * g3 / g2 ∧
      fRD + fDM * (-1 + Real.sqrt (max (1 - g2 ^ 2) 0)) * g3 / g2 ≤ fRD := by
  have hs : 1 - g2 ≤ Real.sqrt (max (1 - g2 ^ 2) 0) := by
    rcases le_total 1 g2 with h | h
    · exact le_trans (by linarith) (Real.sqrt_nonneg _)
    · apply Real.le_sqrt_of_sq_le
      rw [max_eq_left (by nlinarith)]
      nlinarith
  have hs1 : Real.sqrt (max (1 - g2 ^ 2) 0) ≤ 1 := by
    rw [Real.sqrt_le_left (by norm_num)]
    exact max_le (by nlinarith) (by norm_num)
  have hp : 0 ≤ fDM * g3 := mul_nonneg hD h3
  generalize Real.sqrt (max (1 - g2 ^ 2) 0) = s at *
  have e : fDM * (-1 + s) * g3 / g2 = fDM * g3 * ((-1 + s) / g2) := by ring
  rw [e]
  have a1 : -1 ≤ (-1 + s) / g2 := by rw [le_div_iff₀ h2]; linarith
  have a2 : (-1 + s) / g2 ≤ 0 := div_nonpos_of_nonpos_of_nonneg (by linarith) h2.le
  constructor <;> nlinarith

/-- What the physical domain guarantees. -/
structure Good (c : Ctx) : Prop where
  m1 : 0 < c.m1
  m2 : 0 < c.m2
  eta : 0 < c.eta ∧ c.eta ≤ 1 / 4
  dom : Dom c.eta c.xi
  g1 : 0.002 ≤ c.gamma1
  g2 : 0.2 ≤ c.gamma2 ∧ c.gamma2 ≤ 1.2
  g3 : 1.2 ≤ c.gamma3 ∧ c.gamma3 ≤ 1.5
  fDM : 0.0002908 ≤ c.fDM
  rd : 0.0464014 ≤ c.fRD
  peak_eq : c.peak = c.fRD + c.fDM * (-1 + Real.sqrt (max (1 - c.gamma2 ^ 2) 0)) * c.gamma3 / c.gamma2
  peak : 0.025 ≤ c.peak
  peak_le : c.peak ≤ c.fRD

variable (mc q chi1 chi2 : ℝ)

/-- The ringdown pair of a physical binary. -/
noncomputable def rdOf : ℝ × ℝ :=
  (interp qnmRing (finalSpin (etaOf mc q) chi1 chi2), interp qnmDamp (finalSpin (etaOf mc q) chi1 chi2))

/-- The quantities of a physical binary. -/
noncomputable def ctxOf : Ctx := mkCtx mc q chi1 chi2 (rdOf mc q chi1 chi2)

/-- **C59.**  The final spin of a physical binary is in the grid of the tables. -/
theorem finalSpin_range (h : Physical mc q chi1 chi2) : -1 ≤ finalSpin (etaOf mc q) chi1 chi2 ∧ finalSpin (etaOf mc q) chi1 chi2 ≤ 1 := by
  obtain ⟨hm, hq, ⟨a1, a2⟩, ⟨b1, b2⟩⟩ := h
  obtain ⟨e0, e1⟩ := etaOf_range mc q hm hq
  obtain ⟨u1, u2, u3⟩ := spin_mean _ e0 e1 chi1 chi2 a1 a2 b1 b2
  unfold finalSpin
  rw [u3]
  exact ⟨finalSpin_lower _ _ e0 e1 u1 u2, finalSpin_upper _ _ e0 e1 u1 u2⟩

/-- **C59.**  Every physical binary gives positive amplitudes coefficients, damping and ordered joins. -/
theorem good (h : Physical mc q chi1 chi2) : Good (ctxOf mc q chi1 chi2) := by
  have hs := finalSpin_range mc q chi1 chi2 h
  obtain ⟨hm, hq, ⟨a1, a2⟩, ⟨b1, b2⟩⟩ := h
  obtain ⟨e0, e1⟩ := etaOf_range mc q hm hq
  obtain ⟨u1, u2, u3⟩ := spin_mean _ e0 e1 chi1 chi2 a1 a2 b1 b2
  obtain ⟨p1, p2, _⟩ := masses_pos mc q hm hq
  obtain ⟨r, d⟩ := ring_bounds _ hs.1 hs.2
  have hE := erad_bounds (etaOf mc q) _ e0.le e1 u1 u2
  have hc := abs_le.1 (chiPN_abs _ e0 e1 chi1 chi2 a1 a2 b1 b2)
  have hdom : Dom (etaOf mc q) (-1 + chiPN (setaOf (etaOf mc q)) (etaOf mc q) chi1 chi2) := ⟨e0.le, e1, by linarith [hc.1], by linarith [hc.2]⟩
  have g1 := gamma1_lower _ _ hdom
  have g2 := gamma2_lower _ _ hdom
  have g2' := gamma2_upper _ _ hdom
  have g3 := gamma3_lower _ _ hdom
  have g3' := gamma3_upper _ _ hdom
  have hE' : 0 < 1 - erad (etaOf mc q) chi1 chi2 ∧ 1 - erad (etaOf mc q) chi1 chi2 ≤ 1 := by
    unfold erad; constructor <;> linarith [hE.1, hE.2]
  have key : ∀ x lo : ℝ, 0 ≤ lo → lo ≤ x → lo ≤ x / (1 - erad (etaOf mc q) chi1 chi2) := by
    intro x lo hlo hx
    rw [le_div_iff₀ hE'.1]
    nlinarith
  have hrd := key _ _ (by norm_num) r.1
  have hdm := key _ _ (by norm_num) d.1
  have hdiff := key (interp qnmRing (finalSpin (etaOf mc q) chi1 chi2) - interp qnmDamp (finalSpin (etaOf mc q) chi1 chi2) * 1.5) 0.025 (by norm_num) (by linarith [r.1, d.2])
  have hf := fmax_lower (interp qnmRing (finalSpin (etaOf mc q) chi1 chi2) / (1 - erad (etaOf mc q) chi1 chi2))
    (interp qnmDamp (finalSpin (etaOf mc q) chi1 chi2) / (1 - erad (etaOf mc q) chi1 chi2))
    (gamma2 (etaOf mc q) (etaOf mc q * etaOf mc q) (-1 + chiPN (setaOf (etaOf mc q)) (etaOf mc q) chi1 chi2))
    (gamma3 (etaOf mc q) (etaOf mc q * etaOf mc q) (-1 + chiPN (setaOf (etaOf mc q)) (etaOf mc q) chi1 chi2)) (by linarith) (by linarith) (by linarith)
  have hlow : (0.025 : ℝ) ≤ interp qnmRing (finalSpin (etaOf mc q) chi1 chi2) / (1 - erad (etaOf mc q) chi1 chi2)
      - interp qnmDamp (finalSpin (etaOf mc q) chi1 chi2) / (1 - erad (etaOf mc q) chi1 chi2)
        * gamma3 (etaOf mc q) (etaOf mc q * etaOf mc q) (-1 + chiPN (setaOf (etaOf mc q)) (etaOf mc q) chi1 chi2) := by
    refine hdiff.trans ?_
    rw [sub_div, mul_div_right_comm]
    nlinarith
  refine ⟨p1, p2, ⟨e0, e1⟩, hdom, g1, ⟨g2, g2'⟩, ⟨g3, g3'⟩, hdm, hrd, ?_, ?_, ?_⟩
  · exact abs_of_nonneg (le_trans (by norm_num) (hlow.trans hf.1))
  · exact (hlow.trans hf.1).trans (le_abs_self _)
  · exact (abs_of_nonneg (le_trans (by norm_num) (hlow.trans hf.1))).le.trans hf.2

end Verif.PhenomD
