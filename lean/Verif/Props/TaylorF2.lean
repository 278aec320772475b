import Verif.Model.TaylorF2
import Verif.Spec.TaylorF2
import Verif.Props.Conversion
import Verif.Props.CbcUtils
import Verif.Lemmas.Tensor
import Mathlib.Analysis.SpecialFunctions.Pow.Deriv
import Mathlib.Analysis.SpecialFunctions.Log.Deriv
/-!
# Properties of `TaylorF2` (C58)
-/
set_option linter.unusedSimpArgs false
set_option linter.unusedVariables false
namespace Verif.TaylorF2
open CbcUtils

namespace Bin

/-- Positive masses. -/
def Valid (b : Bin) : Prop := 0 < b.m1 ∧ 0 < b.m2

/-- The same binary with the bodies exchanged. -/
def swap (b : Bin) : Bin := ⟨b.m2, b.m1, b.chi2, b.chi1⟩

section
variable {b : Bin} (hb : b.Valid)
include hb

theorem fractions : b.x2 = 1 - b.x1 ∧ b.eta = b.x1 * (1 - b.x1) ∧ PNSpec.eta b.m1 b.m2 = b.eta ∧ PNSpec.delta b.m1 b.m2 = 2 * b.x1 - 1 := by
  have hs : b.m1 + b.m2 ≠ 0 := by have := hb.1; have := hb.2; positivity
  unfold x1 x2 eta PNSpec.eta PNSpec.delta
  refine ⟨?_, ?_, ?_, ?_⟩ <;> field_simp <;> ring

theorem eta_pos : 0 < b.eta := by
  have := hb.1; have := hb.2
  unfold eta; positivity

theorem pfa2_eq : b.pfa2 = PNSpec.psi2 (PNSpec.eta b.m1 b.m2) := by
  obtain ⟨h2, he, hη, hδ⟩ := fractions hb
  rw [hη]; unfold pfa2 PNSpec.psi2; ring

theorem pfa3_eq : b.pfa3 = PNSpec.psi3 (PNSpec.eta b.m1 b.m2) (PNSpec.delta b.m1 b.m2) (PNSpec.chiS b.chi1 b.chi2) (PNSpec.chiA b.chi1 b.chi2) := by
  obtain ⟨h2, he, hη, hδ⟩ := fractions hb
  rw [hη, hδ]; unfold pfa3 PNSpec.psi3 PNSpec.chiS PNSpec.chiA; rw [he, h2]; ring

theorem pfa4_eq : b.pfa4 = PNSpec.psi4 (PNSpec.eta b.m1 b.m2) (PNSpec.delta b.m1 b.m2) (PNSpec.chiS b.chi1 b.chi2) (PNSpec.chiA b.chi1 b.chi2) := by
  obtain ⟨h2, he, hη, hδ⟩ := fractions hb
  rw [hη, hδ]; unfold pfa4 PNSpec.psi4 PNSpec.chiS PNSpec.chiA; rw [he, h2]; ring

theorem pfa5_eq : b.pfa5 = PNSpec.psi5 (PNSpec.eta b.m1 b.m2) (PNSpec.delta b.m1 b.m2) (PNSpec.chiS b.chi1 b.chi2) (PNSpec.chiA b.chi1 b.chi2) ∧
    b.pfa5log = 3 * b.pfa5 := by
  obtain ⟨h2, he, hη, hδ⟩ := fractions hb
  constructor
  · rw [hη, hδ]; unfold pfa5 so5 PNSpec.psi5 PNSpec.chiS PNSpec.chiA; rw [he, h2]; ring
  · unfold pfa5 pfa5log; ring

theorem pfa6_eq (w : ℝ) (hw : 0 < w) :
    b.pfa6 + Real.log w * pfa6log = PNSpec.psi6 (PNSpec.eta b.m1 b.m2) (PNSpec.delta b.m1 b.m2) (PNSpec.chiS b.chi1 b.chi2) (PNSpec.chiA b.chi1 b.chi2) w := by
  obtain ⟨h2, he, hη, hδ⟩ := fractions hb
  rw [hη, hδ]; unfold pfa6 pfa6log ss6 PNSpec.psi6 PNSpec.chiS PNSpec.chiA eulerGamma PNSpec.gammaE
  rw [he, h2, Real.log_mul (by norm_num) hw.ne']; ring

theorem pfa7_eq : b.pfa7 = PNSpec.psi7 (PNSpec.eta b.m1 b.m2) (PNSpec.delta b.m1 b.m2) (PNSpec.chiS b.chi1 b.chi2) (PNSpec.chiA b.chi1 b.chi2) := by
  obtain ⟨h2, he, hη, hδ⟩ := fractions hb
  rw [hη, hδ]; unfold pfa7 so7 PNSpec.psi7 PNSpec.chiS PNSpec.chiA; rw [he, h2]; ring

omit hb in
theorem v_pos (mf : ℝ) (h : 0 < mf) : 0 < v mf := Real.rpow_pos_of_pos (mul_pos Real.pi_pos h) _

omit hb in
theorem v_cube (mf : ℝ) (h : 0 < mf) : v mf ^ 3 = Real.pi * mf := by
  unfold v
  rw [← Real.rpow_natCast, ← Real.rpow_mul (mul_pos Real.pi_pos h).le]; norm_num

/-- **C58.**  The phase is the post-Newtonian stationary phase of the literature through 3.5PN, with spin-orbit and spin-spin terms. -/
theorem phasing_eq (mf : ℝ) (h : 0 < mf) : b.phasing mf = PNSpec.phase b.m1 b.m2 b.chi1 b.chi2 (v mf) := by
  have hv := v_pos mf h
  have hη := eta_pos hb
  unfold phasing PNSpec.phase
  dsimp only
  rw [← pfa2_eq hb, ← pfa3_eq hb, ← pfa4_eq hb, ← (pfa5_eq hb).1, ← pfa6_eq hb (v mf) hv, ← pfa7_eq hb, (pfa5_eq hb).2, (fractions hb).2.2.1]
  unfold pfaN
  generalize v mf = w at *
  generalize Real.log w = l
  field_simp
  ring

/-- **C58.**  The second value returned by the phase routine is the derivative of the phase with respect to `Mf`. -/
theorem phasing_deriv (mf : ℝ) (h : 0 < mf) : HasDerivAt b.phasing (b.dPhasing mf) mf := by
  have hv := v_pos mf h
  have hpi := Real.pi_pos
  have hη := (eta_pos hb).ne'
  have hx : 0 < Real.pi * mf := mul_pos hpi h
  -- the velocity
  have dv : HasDerivAt v (Real.pi / (3 * v mf ^ 2)) mf := by
    have h1 : HasDerivAt (fun x : ℝ => Real.pi * x) (Real.pi * 1) mf := (hasDerivAt_id mf).const_mul _
    have h2 := h1.rpow_const (p := (1 : ℝ) / 3) (Or.inl hx.ne')
    have e : Real.pi * 1 * (1 / 3) * (Real.pi * mf) ^ ((1 : ℝ) / 3 - 1) = Real.pi / (3 * v mf ^ 2) := by
      have : (Real.pi * mf) ^ ((1 : ℝ) / 3 - 1) = (v mf ^ 2)⁻¹ := by
        unfold v
        rw [← Real.rpow_natCast, ← Real.rpow_mul hx.le, ← Real.rpow_neg hx.le]; norm_num
      rw [this]; field_simp
    rw [e] at h2
    exact h2
  -- a function of the velocity
  have dg : HasDerivAt (fun w : ℝ => (w ^ 7 * b.pfa7 + (w ^ 6 * b.pfa6 + w ^ 6 * Real.log w * pfa6log) + (w ^ 5 * b.pfa5 + w ^ 5 * Real.log w * b.pfa5log)
      + w ^ 4 * b.pfa4 + w ^ 3 * b.pfa3 + w ^ 2 * b.pfa2 + 1) / w ^ 5 * b.pfaN)
      ((2 * v mf ^ 7 * b.pfa7 + v mf ^ 6 * (b.pfa6 + pfa6log) + v mf ^ 6 * Real.log (v mf) * pfa6log + v mf ^ 5 * b.pfa5log
    + -1 * v mf ^ 4 * b.pfa4 + -2 * v mf ^ 3 * b.pfa3 + -3 * v mf ^ 2 * b.pfa2 - 5) / v mf ^ 6 * b.pfaN) (v mf) := by
    have p : ∀ n : ℕ, HasDerivAt (fun w : ℝ => w ^ n) (n * v mf ^ (n - 1)) (v mf) := fun n => hasDerivAt_pow n _
    have l : HasDerivAt Real.log (v mf)⁻¹ (v mf) := Real.hasDerivAt_log hv.ne'
    have num := (((((((p 7).mul_const b.pfa7).add (((p 6).mul_const b.pfa6).add (((p 6).mul l).mul_const pfa6log))).add
      (((p 5).mul_const b.pfa5).add (((p 5).mul l).mul_const b.pfa5log))).add ((p 4).mul_const b.pfa4)).add ((p 3).mul_const b.pfa3)).add
      ((p 2).mul_const b.pfa2)).add_const 1
    have q := (num.div (p 5) (by positivity)).mul_const b.pfaN
    refine q.congr_deriv ?_
    simp only [Pi.add_apply, Pi.mul_apply]
    generalize v mf = w at *
    generalize Real.log w = lw
    field_simp
    push_cast
    ring
  have := dg.comp mf dv
  refine this.congr_deriv ?_
  unfold dPhasing
  generalize v mf = w at *
  field_simp

/-- **C58.**  The phase does not depend on which body is called the first. -/
theorem phasing_swap (mf : ℝ) (h : 0 < mf) : b.swap.phasing mf = b.phasing mf := by
  have hs : b.swap.Valid := ⟨hb.2, hb.1⟩
  rw [phasing_eq hb mf h, phasing_eq hs mf h]
  unfold PNSpec.phase swap PNSpec.eta PNSpec.delta PNSpec.chiS PNSpec.chiA
  dsimp only
  have e1 : b.m2 * b.m1 / (b.m2 + b.m1) ^ 2 = b.m1 * b.m2 / (b.m1 + b.m2) ^ 2 := by rw [mul_comm, add_comm]
  have e2 : (b.m2 - b.m1) / (b.m2 + b.m1) = -((b.m1 - b.m2) / (b.m1 + b.m2)) := by rw [add_comm b.m2]; ring
  have e3 : (b.chi2 + b.chi1) / 2 = (b.chi1 + b.chi2) / 2 := by ring
  have e4 : (b.chi2 - b.chi1) / 2 = -((b.chi1 - b.chi2) / 2) := by ring
  rw [e1, e2, e3, e4]
  unfold PNSpec.psi3 PNSpec.psi4 PNSpec.psi5 PNSpec.psi6 PNSpec.psi7
  ring

/-- **C58.**  The amplitude is minus the Newtonian stationary-phase amplitude for the chirp mass and distance, in seconds. -/
theorem amplitude_eq (f d : ℝ) (hf : 0 < f) (hd : 0 < d) :
    b.amplitude (b.mSec * f) d = -PNSpec.amplitude (ConvSpec.chirpMass b.m1 b.m2 * mtsun) (d * mpcSec) f := by
  obtain ⟨h1, h2⟩ := hb
  have hpi := Real.pi_pos
  have hmt : 0 < mtsun := mtsun_pos
  have hD : 0 < d * mpcSec := by unfold mpcSec cLight; positivity
  have hM : 0 < b.mSec := by unfold mSec; positivity
  have hη : 0 < b.etaSec := by unfold etaSec; positivity
  have hmf : 0 < b.mSec * f := by positivity
  have hv := v_pos _ hmf
  have hv3 := v_cube _ hmf
  have hmc : 0 < ConvSpec.chirpMass b.m1 b.m2 := by unfold ConvSpec.chirpMass; positivity
  have hmc5 : ConvSpec.chirpMass b.m1 b.m2 ^ 5 = (b.m1 * b.m2) ^ 3 / (b.m1 + b.m2) := by
    unfold ConvSpec.chirpMass
    rw [div_pow, ← Real.rpow_natCast, ← Real.rpow_natCast, ← Real.rpow_mul (by positivity), ← Real.rpow_mul (by positivity)]
    norm_num
  unfold amplitude PNSpec.amplitude
  dsimp only
  generalize hDd : d * mpcSec = D at *
  have hq : -(v (b.mSec * f) * (2 * (-b.etaSec / 2))) / (v (b.mSec * f) ^ 10 * (32 * b.etaSec * b.etaSec / 5)) = 5 / (32 * b.etaSec) / v (b.mSec * f) ^ 9 := by
    generalize v (b.mSec * f) = w at *
    field_simp
  rw [hq]
  have key : Real.sqrt (5 / (32 * b.etaSec) / v (b.mSec * f) ^ 9) * v (b.mSec * f) * (4 * (b.m1 * mtsun) * (b.m2 * mtsun) * (Real.pi / 12) ^ (0.5 : ℝ)) =
      Real.sqrt (5 / 24) * Real.pi ^ (-(2 / 3) : ℝ) * (ConvSpec.chirpMass b.m1 b.m2 * mtsun) ^ (5 / 6 : ℝ) * f ^ (-(7 / 6) : ℝ) := by
    apply (pow_left_inj₀ (by positivity) (by positivity) (show (6 : ℕ) ≠ 0 by norm_num)).1
    have s6 : ∀ y : ℝ, 0 ≤ y → Real.sqrt y ^ 6 = y ^ 3 := by
      intro y hy
      rw [show (6 : ℕ) = 2 * 3 by norm_num, pow_mul, Real.sq_sqrt hy]
    have p1 : ((Real.pi / 12) ^ (0.5 : ℝ)) ^ 6 = (Real.pi / 12) ^ 3 := by
      rw [← Real.rpow_natCast, ← Real.rpow_mul (by positivity), ← Real.rpow_natCast]; norm_num
    have p2 : (Real.pi ^ (-(2 / 3) : ℝ)) ^ 6 = (Real.pi ^ 4)⁻¹ := by
      rw [← Real.rpow_natCast, ← Real.rpow_mul (by positivity), ← Real.rpow_natCast, ← Real.rpow_neg (by positivity)]; norm_num
    have p3 : ((ConvSpec.chirpMass b.m1 b.m2 * mtsun) ^ (5 / 6 : ℝ)) ^ 6 = (ConvSpec.chirpMass b.m1 b.m2 * mtsun) ^ 5 := by
      rw [← Real.rpow_natCast, ← Real.rpow_mul (by positivity), ← Real.rpow_natCast]; norm_num
    have p4 : (f ^ (-(7 / 6) : ℝ)) ^ 6 = (f ^ 7)⁻¹ := by
      rw [← Real.rpow_natCast, ← Real.rpow_mul (by positivity), ← Real.rpow_natCast, ← Real.rpow_neg (by positivity)]; norm_num
    simp only [mul_pow]
    rw [s6 _ (by positivity), s6 _ (by positivity), p1, p2, p4, p3, mul_pow, hmc5]
    have e9 : (5 / (32 * b.etaSec) / v (b.mSec * f) ^ 9) ^ 3 * v (b.mSec * f) ^ 6 = (5 / (32 * b.etaSec)) ^ 3 / (v (b.mSec * f) ^ 3) ^ 7 := by
      generalize v (b.mSec * f) = w at *
      field_simp
    rw [e9, hv3]
    unfold etaSec mSec
    field_simp
    ring
  have : Real.sqrt (5 / (32 * b.etaSec) / v (b.mSec * f) ^ 9) * v (b.mSec * f) * (-4 * (b.m1 * mtsun) * (b.m2 * mtsun) * (Real.pi / 12) ^ (0.5 : ℝ) / D) =
      -((Real.sqrt (5 / (32 * b.etaSec) / v (b.mSec * f) ^ 9) * v (b.mSec * f) * (4 * (b.m1 * mtsun) * (b.m2 * mtsun) * (Real.pi / 12) ^ (0.5 : ℝ))) / D) := by ring
  rw [this, key]

/-- **C58.**  The strain: minus the Newtonian amplitude, with the stationary phase measured from the reference frequency and shifted by twice the coalescence phase. -/
theorem htilde_eq (f d phic fRef : ℝ) (hf : 0 < f) (hd : 0 < d) (hr : 0 < fRef) :
    b.htilde f d phic fRef = -(PNSpec.amplitude (ConvSpec.chirpMass b.m1 b.m2 * mtsun) (d * mpcSec) f : ℂ) *
      Complex.exp (-Complex.I * ((PNSpec.phase b.m1 b.m2 b.chi1 b.chi2 (v (b.mSec * f)) - PNSpec.phase b.m1 b.m2 b.chi1 b.chi2 (v (b.mSec * fRef)) - 2 * phic - Real.pi / 4 : ℝ) : ℂ)) := by
  have hM : 0 < b.mSec := by
    obtain ⟨h1, h2⟩ := hb
    have hmt : 0 < mtsun := mtsun_pos
    unfold mSec; positivity
  unfold htilde
  dsimp only
  rw [amplitude_eq hb f d hf hd, phasing_eq hb _ (mul_pos hM hf), phasing_eq hb _ (mul_pos hM hr)]
  push_cast
  congr 3
  ring

/-- **C58.**  At the reference frequency only the coalescence phase and the stationary-phase offset remain. -/
theorem htilde_ref (d phic fRef : ℝ) (hd : 0 < d) (hr : 0 < fRef) :
    b.htilde fRef d phic fRef = -(PNSpec.amplitude (ConvSpec.chirpMass b.m1 b.m2 * mtsun) (d * mpcSec) fRef : ℂ) * Complex.exp (Complex.I * ((2 * phic + Real.pi / 4 : ℝ) : ℂ)) := by
  rw [htilde_eq hb fRef d phic fRef hr hd hr]
  congr 2
  push_cast
  ring

/-- **C58.**  The modulus of the strain is the Newtonian amplitude: it depends on the masses only through the chirp mass, and not on the spins or phases. -/
theorem htilde_norm (f d phic fRef : ℝ) (hf : 0 < f) (hd : 0 < d) (hr : 0 < fRef) :
    ‖b.htilde f d phic fRef‖ = PNSpec.amplitude (ConvSpec.chirpMass b.m1 b.m2 * mtsun) (d * mpcSec) f := by
  have hpos : 0 ≤ PNSpec.amplitude (ConvSpec.chirpMass b.m1 b.m2 * mtsun) (d * mpcSec) f := by
    obtain ⟨h1, h2⟩ := hb
    have hmt : 0 < mtsun := mtsun_pos
    have hD : 0 < d * mpcSec := by unfold mpcSec cLight; positivity
    have hpi := Real.pi_pos
    have hmc : 0 < ConvSpec.chirpMass b.m1 b.m2 := by unfold ConvSpec.chirpMass; positivity
    unfold PNSpec.amplitude
    generalize d * mpcSec = D at *
    positivity
  rw [htilde_eq hb f d phic fRef hf hd hr, norm_mul, norm_neg, Complex.norm_real, Real.norm_of_nonneg hpos]
  have : ∀ y : ℝ, ‖Complex.exp (-Complex.I * (y : ℂ))‖ = 1 := by
    intro y
    rw [show -Complex.I * (y : ℂ) = ((-y : ℝ) : ℂ) * Complex.I by push_cast; ring]
    exact Complex.norm_exp_ofReal_mul_I _
  rw [this, mul_one]

/-- **C58.**  The strain does not depend on which body is called the first. -/
theorem htilde_swap (f d phic fRef : ℝ) (hf : 0 < f) (hd : 0 < d) (hr : 0 < fRef) : b.swap.htilde f d phic fRef = b.htilde f d phic fRef := by
  have hs : b.swap.Valid := ⟨hb.2, hb.1⟩
  have hM : 0 < b.mSec := by
    obtain ⟨h1, h2⟩ := hb
    have hmt : 0 < mtsun := mtsun_pos
    unfold mSec; positivity
  have hM2 : b.swap.mSec = b.mSec := by unfold mSec swap; ring
  have hc : ConvSpec.chirpMass b.swap.m1 b.swap.m2 = ConvSpec.chirpMass b.m1 b.m2 := by
    unfold ConvSpec.chirpMass swap; dsimp only; rw [mul_comm b.m2, add_comm b.m2]
  have hph : ∀ x, 0 < x → PNSpec.phase b.swap.m1 b.swap.m2 b.swap.chi1 b.swap.chi2 (v x) = PNSpec.phase b.m1 b.m2 b.chi1 b.chi2 (v x) := by
    intro x hx
    rw [← phasing_eq hb x hx, ← phasing_eq hs x hx, phasing_swap hb x hx]
  rw [htilde_eq hb f d phic fRef hf hd hr, htilde_eq hs f d phic fRef hf hd hr, hM2, hc, hph _ (mul_pos hM hf), hph _ (mul_pos hM hr)]

/-- **C58.**  Strain falls off as the inverse distance. -/
theorem htilde_distance (f d c phic fRef : ℝ) (hf : 0 < f) (hd : 0 < d) (hc : 0 < c) (hr : 0 < fRef) :
    b.htilde f (c * d) phic fRef = b.htilde f d phic fRef / c := by
  rw [htilde_eq hb f (c * d) phic fRef hf (by positivity) hr, htilde_eq hb f d phic fRef hf hd hr]
  have : PNSpec.amplitude (ConvSpec.chirpMass b.m1 b.m2 * mtsun) (c * d * mpcSec) f = PNSpec.amplitude (ConvSpec.chirpMass b.m1 b.m2 * mtsun) (d * mpcSec) f / c := by
    unfold PNSpec.amplitude
    rw [div_div]; congr 1; ring
  rw [this]
  push_cast
  ring

end

end Bin

/-! ## The module -/

/-- One entry per waveform in every tensor. -/
def Params.Same (p : Params) (n : ℕ) : Prop :=
  p.chirpMass.length = n ∧ p.massRatio.length = n ∧ p.chi1.length = n ∧ p.chi2.length = n ∧ p.distance.length = n ∧ p.phic.length = n ∧ p.inclination.length = n

/-- **C58.**  Tensors of different batch sizes are rejected. -/
theorem forward_reject (f : List ℝ) (p : Params) (fRef : ℝ) (h : ∀ n, ¬ p.Same n) : forward f p fRef = .error .value := by
  unfold forward raiseIf
  rw [if_pos]
  · rfl
  · rintro ⟨a, b, c, d, e, g⟩
    exact h p.chirpMass.length ⟨rfl, by omega, by omega, by omega, by omega, by omega, by omega⟩

/-- **C58.**  Otherwise the result has one row per waveform and one column per frequency; the polarizations are the strain of the binary with the given chirp mass and mass ratio (the second over the first mass) times `(1 + cos² ι)/2` and `-i cos ι`. -/
theorem forward_ok (f : List ℝ) (p : Params) (fRef : ℝ) (n : ℕ) (h : p.Same n) :
    ∃ hc hp, forward f p fRef = .ok (hc, hp) ∧ hc.length = n ∧ hp.length = n ∧
      ∀ i : ℕ, i < n → ∃ rc rp, hc[i]? = some rc ∧ hp[i]? = some rp ∧ rc.length = f.length ∧ rp.length = f.length ∧
        ∀ (j : ℕ) (x : ℝ), f[j]? = some x → rp[j]? = some ((p.bin i).htilde x (p.distance.getD i 0) (p.phic.getD i 0) fRef * ((1 + Real.cos (p.inclination.getD i 0) ^ 2) / 2 : ℝ)) ∧
          rc[j]? = some (-Complex.I * ((p.bin i).htilde x (p.distance.getD i 0) (p.phic.getD i 0) fRef * (Real.cos (p.inclination.getD i 0) : ℝ))) := by
  obtain ⟨a, b, c, d, e, g, k⟩ := h
  unfold forward raiseIf
  rw [if_neg (by rw [not_not]; omega), res_bind_ok]
  refine ⟨_, _, rfl, by simp [a], by simp [a], ?_⟩
  intro i hi
  refine ⟨_, _, by rw [List.getElem?_map, List.getElem?_range (by omega)]; rfl, by rw [List.getElem?_map, List.getElem?_range (by omega)]; rfl, by simp, by simp, ?_⟩
  intro j x hx
  rw [List.getElem?_map, List.getElem?_map, hx]
  refine ⟨?_, rfl⟩
  simp only [Option.map_some, Option.some.injEq]
  congr 2
  norm_num
  ring

/-- **C58.**  The masses used have the given chirp mass and mass ratio. -/
theorem bin_masses (p : Params) (i : ℕ) (hm : 0 < p.chirpMass.getD i 0) (hq : 0 < p.massRatio.getD i 0) :
    (p.bin i).Valid ∧ ConvSpec.chirpMass (p.bin i).m1 (p.bin i).m2 = p.chirpMass.getD i 0 ∧ (p.bin i).m2 / (p.bin i).m1 = p.massRatio.getD i 0 := by
  obtain ⟨h1, h2, h3, h4, _⟩ := Conversion.toComponents_spec _ _ hm hq
  exact ⟨⟨h1, h2⟩, h4, h3⟩

/-- **C58.**  Exchanging the bodies, that is inverting the mass ratio and exchanging the spins, gives the same strain. -/
theorem ratio_swap (mc q c1 c2 f d phic fRef : ℝ) (hm : 0 < mc) (hq : 0 < q) (hf : 0 < f) (hd : 0 < d) (hr : 0 < fRef) :
    (Bin.mk (Conversion.toComponents mc q⁻¹).1 (Conversion.toComponents mc q⁻¹).2 c2 c1).htilde f d phic fRef =
      (Bin.mk (Conversion.toComponents mc q).1 (Conversion.toComponents mc q).2 c1 c2).htilde f d phic fRef := by
  obtain ⟨h1, h2, h3, h4, _⟩ := Conversion.toComponents_spec _ _ hm hq
  set m1 := (Conversion.toComponents mc q).1
  set m2 := (Conversion.toComponents mc q).2
  have hc : ConvSpec.chirpMass m2 m1 = mc := by rw [← h4]; unfold ConvSpec.chirpMass; rw [mul_comm, add_comm]
  have hr' : ConvSpec.massRatio m2 m1 = q⁻¹ := by rw [← h3]; unfold ConvSpec.massRatio; rw [inv_div]
  have := Conversion.toComponents_recovers m2 m1 h2 h1
  rw [hc, hr'] at this
  rw [this]
  exact Bin.htilde_swap (b := ⟨m1, m2, c1, c2⟩) ⟨h1, h2⟩ f d phic fRef hf hd hr

/-! ## The hypotheses can be met -/

/-- A neutron-star black-hole binary. -/
noncomputable def exBin : Bin := ⟨10, 1.4, 0.5, -0.1⟩
/-- A batch of two. -/
noncomputable def exParams : Params := ⟨[10, 1.2], [0.5, 1], [0.3, 0], [-0.2, 0.1], [100, 40], [0, 1], [0, 0.7]⟩

example : exBin.Valid := by unfold exBin Bin.Valid; norm_num
example : 0 < exBin.mSec * 20 := by have : 0 < mtsun := mtsun_pos; unfold exBin Bin.mSec; positivity
example : exParams.Same 2 := ⟨rfl, rfl, rfl, rfl, rfl, rfl, rfl⟩
example : forward [20] { exParams with phic := [0] } 20 = .error .value :=
  forward_reject _ _ _ (by rintro n ⟨a, _, _, _, _, b, _⟩; rw [← a] at b; exact absurd b (by decide))
example : 0 < exParams.chirpMass.getD 1 0 ∧ 0 < exParams.massRatio.getD 1 0 := by
  constructor <;> norm_num [exParams]

end Verif.TaylorF2
