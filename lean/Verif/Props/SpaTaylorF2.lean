import Verif.Props.SpaSeries
import Verif.Props.TaylorF2
/-!
# TaylorF2 is the stationary-phase transform of the chirp at leading order in the amplitude (C79)
-/
set_option linter.unusedSimpArgs false
set_option linter.unusedVariables false
namespace Verif.TaylorF2
open CbcUtils Spa SpaSpec Filter Topology Asymptotics

/-- The chirp mass and the symmetric mass ratio. -/
theorem chirp_eta (m1 m2 t : ℝ) (h1 : 0 < m1) (h2 : 0 < m2) (ht : 0 < t) :
    (ConvSpec.chirpMass m1 m2 * t / ((m1 + m2) * t)) ^ ((5 : ℝ) / 3) = PNSpec.eta m1 m2 := by
  have hM : 0 < m1 + m2 := by positivity
  rw [mul_div_mul_right _ _ ht.ne']
  unfold ConvSpec.chirpMass PNSpec.eta
  have hp : 0 < m1 * m2 := by positivity
  have e : (m1 * m2) ^ ((3 : ℝ) / 5) / (m1 + m2) ^ ((1 : ℝ) / 5) / (m1 + m2) = (m1 * m2) ^ ((3 : ℝ) / 5) / (m1 + m2) ^ ((6 : ℝ) / 5) := by
    rw [div_div]
    congr 1
    nth_rewrite 2 [← Real.rpow_one (m1 + m2)]
    rw [← Real.rpow_add hM]
    norm_num
  rw [e, Real.div_rpow (by positivity) (by positivity), ← Real.rpow_mul hp.le, ← Real.rpow_mul hM.le]
  norm_num

theorem phase_series (m1 m2 c1 c2 : ℝ) (h1 : 0 < m1) (h2 : 0 < m2) :
    ∃ (b : ℤ → ℝ) (l0 l1 : ℝ), (∀ w, 0 < w → PNSpec.phase m1 m2 c1 c2 w = series b l0 l1 w) ∧ b (-5) = 3 / (128 * PNSpec.eta m1 m2) := by
  have hη : 0 < PNSpec.eta m1 m2 := by unfold PNSpec.eta; positivity
  refine ⟨fun p => if p = -5 then 3 / (128 * PNSpec.eta m1 m2) else if p = -3 then 3 / (128 * PNSpec.eta m1 m2) * PNSpec.psi2 (PNSpec.eta m1 m2) else
    if p = -2 then 3 / (128 * PNSpec.eta m1 m2) * PNSpec.psi3 (PNSpec.eta m1 m2) (PNSpec.delta m1 m2) (PNSpec.chiS c1 c2) (PNSpec.chiA c1 c2) else
    if p = -1 then 3 / (128 * PNSpec.eta m1 m2) * PNSpec.psi4 (PNSpec.eta m1 m2) (PNSpec.delta m1 m2) (PNSpec.chiS c1 c2) (PNSpec.chiA c1 c2) else
    if p = 0 then 3 / (128 * PNSpec.eta m1 m2) * PNSpec.psi5 (PNSpec.eta m1 m2) (PNSpec.delta m1 m2) (PNSpec.chiS c1 c2) (PNSpec.chiA c1 c2) else
    if p = 1 then 3 / (128 * PNSpec.eta m1 m2) * PNSpec.psi6 (PNSpec.eta m1 m2) (PNSpec.delta m1 m2) (PNSpec.chiS c1 c2) (PNSpec.chiA c1 c2) 1 else
    if p = 2 then 3 / (128 * PNSpec.eta m1 m2) * PNSpec.psi7 (PNSpec.eta m1 m2) (PNSpec.delta m1 m2) (PNSpec.chiS c1 c2) (PNSpec.chiA c1 c2) else 0,
    3 / (128 * PNSpec.eta m1 m2) * (3 * PNSpec.psi5 (PNSpec.eta m1 m2) (PNSpec.delta m1 m2) (PNSpec.chiS c1 c2) (PNSpec.chiA c1 c2)),
    3 / (128 * PNSpec.eta m1 m2) * (-6848 / 21), fun w hw => ?_, by norm_num⟩
  unfold PNSpec.phase series
  dsimp only
  have hl : PNSpec.psi6 (PNSpec.eta m1 m2) (PNSpec.delta m1 m2) (PNSpec.chiS c1 c2) (PNSpec.chiA c1 c2) w =
      PNSpec.psi6 (PNSpec.eta m1 m2) (PNSpec.delta m1 m2) (PNSpec.chiS c1 c2) (PNSpec.chiA c1 c2) 1 - 6848 / 21 * Real.log w := by
    unfold PNSpec.psi6
    rw [Real.log_mul (by norm_num) hw.ne', mul_one]
    ring
  rw [hl]
  generalize PNSpec.psi6 (PNSpec.eta m1 m2) (PNSpec.delta m1 m2) (PNSpec.chiS c1 c2) (PNSpec.chiA c1 c2) 1 = p6
  generalize PNSpec.psi2 (PNSpec.eta m1 m2) = p2
  generalize PNSpec.psi3 (PNSpec.eta m1 m2) (PNSpec.delta m1 m2) (PNSpec.chiS c1 c2) (PNSpec.chiA c1 c2) = p3
  generalize PNSpec.psi4 (PNSpec.eta m1 m2) (PNSpec.delta m1 m2) (PNSpec.chiS c1 c2) (PNSpec.chiA c1 c2) = p4
  generalize PNSpec.psi5 (PNSpec.eta m1 m2) (PNSpec.delta m1 m2) (PNSpec.chiS c1 c2) (PNSpec.chiA c1 c2) = p5
  generalize PNSpec.psi7 (PNSpec.eta m1 m2) (PNSpec.delta m1 m2) (PNSpec.chiS c1 c2) (PNSpec.chiA c1 c2) = p7
  generalize PNSpec.eta m1 m2 = η at *
  generalize Real.log w = L
  norm_num
  field_simp
  ring

/-- **C79.**  The modulus and the phase of the TaylorF2 strain fit together: at low frequency the squared modulus is what the stationary-phase approximation makes of the quadrupole formula and of the strain's own phase, with a relative error of second order in the velocity (the amplitude is the Newtonian one). -/
theorem strain_is_stationary_phase (b : Bin) (hb : b.Valid) (d phic fRef : ℝ) (hd : 0 < d) (hr : 0 < fRef) :
    ∃ ψ : ℝ → ℝ, (∀ f, 0 < f → DifferentiableAt ℝ ψ f) ∧
      (∀ f, 0 < f → b.htilde f d phic fRef = (‖b.htilde f d phic fRef‖ : ℂ) * Complex.exp (-Complex.I * (ψ f : ℂ))) ∧
      (fun f => ‖b.htilde f d phic fRef‖ ^ 2 / power (SpaSpec.amplitude (b.m1 * mtsun) (b.m2 * mtsun) b.chi1 b.chi2 (d * mpcSec)) ψ f - 1)
        =O[𝓝[>] 0] fun f => velocity ((b.m1 + b.m2) * mtsun) f ^ 2 := by
  obtain ⟨h1, h2⟩ := id hb
  have hmt : 0 < mtsun := mtsun_pos
  have hD : 0 < d * mpcSec := by unfold mpcSec cLight; positivity
  have hM : 0 < (b.m1 + b.m2) * mtsun := by positivity
  have hms : b.mSec = (b.m1 + b.m2) * mtsun := by unfold Bin.mSec; ring
  have hmc : 0 < ConvSpec.chirpMass b.m1 b.m2 := by unfold ConvSpec.chirpMass; positivity
  have hη : 0 < PNSpec.eta b.m1 b.m2 := by unfold PNSpec.eta; positivity
  have hv : ∀ f, Bin.v ((b.m1 + b.m2) * mtsun * f) = velocity ((b.m1 + b.m2) * mtsun) f := fun f => by
    unfold Bin.v velocity; rw [mul_assoc Real.pi]
  obtain ⟨c, l0, l1, hc, c5⟩ := phase_series b.m1 b.m2 b.chi1 b.chi2 h1 h2
  obtain ⟨rm, hrm, hmode⟩ := mode_norm (PNSpec.eta b.m1 b.m2) (PNSpec.delta b.m1 b.m2) (PNSpec.chiS b.chi1 b.chi2) (PNSpec.chiA b.chi1 b.chi2)
  refine ⟨fun f => b.phasing ((b.m1 + b.m2) * mtsun * f) - b.phasing ((b.m1 + b.m2) * mtsun * fRef) - 2 * phic - Real.pi / 4 + Real.pi, ?_, ?_, ?_⟩
  · intro f hf
    have hdv := Bin.phasing_deriv hb ((b.m1 + b.m2) * mtsun * f) (by positivity)
    have : DifferentiableAt ℝ (fun f => b.phasing ((b.m1 + b.m2) * mtsun * f)) f := hdv.differentiableAt.comp f ((differentiableAt_id).const_mul _)
    fun_prop
  · intro f hf
    dsimp only
    rw [Bin.htilde_norm hb f d phic fRef hf hd hr, Bin.htilde_eq hb f d phic fRef hf hd hr, hms, Bin.phasing_eq hb _ (by positivity), Bin.phasing_eq hb _ (by positivity)]
    have e : ∀ y : ℝ, Complex.exp (-Complex.I * ((y + Real.pi : ℝ) : ℂ)) = -Complex.exp (-Complex.I * (y : ℂ)) := by
      intro y
      push_cast
      rw [mul_add, Complex.exp_add, show -Complex.I * (Real.pi : ℂ) = -(Real.pi * Complex.I) by ring, Complex.exp_neg, Complex.exp_pi_mul_I]
      norm_num
    rw [e]
    ring
  · refine spa_leading (ConvSpec.chirpMass b.m1 b.m2 * mtsun) ((b.m1 + b.m2) * mtsun) (PNSpec.eta b.m1 b.m2) (d * mpcSec) (by positivity) hM
      (chirp_eta b.m1 b.m2 mtsun h1 h2 hmt) hD _ _ _ _ _ _ rm hrm c l0 l1
      (-b.phasing ((b.m1 + b.m2) * mtsun * fRef) - 2 * phic - Real.pi / 4 + Real.pi) 0 1 one_pos _ _ _
      (fun v => ‖mode22 (PNSpec.eta b.m1 b.m2) (PNSpec.delta b.m1 b.m2) (PNSpec.chiS b.chi1 b.chi2) (PNSpec.chiA b.chi1 b.chi2) v‖ ^ 2) ?_ hmode ?_ ?_ c5
    · intro f hf _
      rw [Bin.htilde_norm hb f d phic fRef hf hd hr]
    · intro f hf
      have sEta : PNSpec.eta (b.m1 * mtsun) (b.m2 * mtsun) = PNSpec.eta b.m1 b.m2 := by unfold PNSpec.eta; field_simp
      have sDel : PNSpec.delta (b.m1 * mtsun) (b.m2 * mtsun) = PNSpec.delta b.m1 b.m2 := by unfold PNSpec.delta; field_simp
      unfold SpaSpec.amplitude
      rw [sEta, sDel, ← add_mul]
      ring
    · intro f hf _
      rw [Bin.phasing_eq hb _ (by positivity : 0 < (b.m1 + b.m2) * mtsun * f), hv, hc _ (velocity_pos _ f hM hf)]
      ring

example : (Bin.mk 36 29 0.5 (-0.3)).Valid := ⟨by norm_num, by norm_num⟩

end Verif.TaylorF2
