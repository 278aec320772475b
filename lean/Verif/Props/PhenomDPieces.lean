import Verif.Model.PhenomD
import Verif.Props.TaylorF2
import Mathlib.Analysis.SpecialFunctions.ExpDeriv
import Mathlib.Analysis.SpecialFunctions.Pow.Deriv
import Mathlib.Analysis.SpecialFunctions.Trigonometric.ArctanDeriv
/-!
# IMRPhenomD: each derivative output is the derivative of its piece (C59)
-/
namespace Verif.PhenomD
open TaylorF2

theorem cbrt_cube (x : ℝ) (h : 0 < x) : (x ^ ((1 : ℝ) / 3)) ^ 3 = x := by
  rw [← Real.rpow_natCast, ← Real.rpow_mul h.le]; norm_num

theorem cbrt_deriv (x : ℝ) (h : 0 < x) : HasDerivAt (fun y : ℝ => y ^ ((1 : ℝ) / 3)) (1 / (3 * (x ^ ((1 : ℝ) / 3)) ^ 2)) x := by
  refine (Real.hasDerivAt_rpow_const (Or.inl h.ne')).congr_deriv ?_
  have h2 : x ^ ((1 : ℝ) / 3 - 1) * (x ^ ((1 : ℝ) / 3)) ^ 2 = 1 := by
    rw [← Real.rpow_natCast (x ^ _), ← Real.rpow_mul h.le, ← Real.rpow_add h]; norm_num
  have h3 : 0 < x ^ ((1 : ℝ) / 3) := Real.rpow_pos_of_pos h _
  field_simp
  linarith

namespace Ctx
variable (c : Ctx)

/-- **C59.**  The second output of the inspiral amplitude is its derivative. -/
theorem insAmp_deriv (mf : ℝ) (h : 0 < mf) : HasDerivAt c.insAmp (c.insDamp mf) mf := by
  have hr := cbrt_deriv mf h
  have hr3 := cbrt_cube mf h
  have hp : 0 < mf ^ ((1 : ℝ) / 3) := Real.rpow_pos_of_pos h _
  unfold insAmp insDamp
  dsimp only
  generalize pre23 c.eta c.eta2 c.seta c.chi1 c.chi2 = a1
  generalize pre43 c.eta c.eta2 c.seta c.chi1 c.chi2 c.chi12 c.chi22 = a2
  generalize pre53 c.eta c.eta2 c.seta c.chi1 c.chi2 = a3
  generalize pre1 c.eta c.eta2 c.seta c.chi1 c.chi2 = a4
  generalize pre2 c.eta c.eta2 c.seta c.chi1 c.chi2 c.chi12 c.chi22 = a5
  generalize rho1 c.eta c.eta2 c.xi = a6
  generalize rho2 c.eta c.eta2 c.xi = a7
  generalize rho3 c.eta c.eta2 c.xi = a8
  have hi := hasDerivAt_id' mf
  have r2 := hr.mul hr
  have r4 := r2.mul r2
  have r5 := r4.mul hr
  have r7 := r5.mul r2
  have r8 := r7.mul hr
  have m2 := hi.mul hi
  have m3 := m2.mul hi
  refine ((((((((((r2.mul_const a1).add (r4.mul_const a2)).add (r5.mul_const a3)).add (r7.mul_const a6)).add (r8.mul_const a7)).add
    (hi.mul_const a4)).add (m2.mul_const a5)).add (m3.mul_const a8)).const_add 1).congr_deriv ?_)
  simp only [Pi.mul_apply]
  generalize mf ^ ((1 : ℝ) / 3) = r at *
  field_simp
  ring

/-- **C59.**  The second output of the merger-ringdown amplitude is its derivative. -/
theorem mrdAmp_deriv (mf : ℝ) (h : c.fDM * c.gamma3 ≠ 0) : HasDerivAt c.mrdAmp (c.mrdDamp mf) mf := by
  have hL : ∀ y : ℝ, 0 < (y - c.fRD) ^ 2 + c.fDM * c.gamma3 * (c.fDM * c.gamma3) := fun y =>
    add_pos_of_nonneg_of_pos (sq_nonneg _) (mul_self_pos.2 h)
  have hx := (hasDerivAt_id' mf).sub_const c.fRD
  have he := ((hx.mul_const c.gamma2).div_const (c.fDM * c.gamma3)).exp
  have hl := (hx.pow 2).add_const (c.fDM * c.gamma3 * (c.fDM * c.gamma3))
  have hE := he.mul hl
  have hne : Real.exp ((mf - c.fRD) * c.gamma2 / (c.fDM * c.gamma3)) * ((mf - c.fRD) ^ 2 + c.fDM * c.gamma3 * (c.fDM * c.gamma3)) ≠ 0 :=
    mul_ne_zero (Real.exp_pos _).ne' (hL mf).ne'
  have hd := ((((hasDerivAt_const mf (1 : ℝ)).div hE hne).mul_const c.gamma1).mul_const c.gamma3).mul_const c.fDM
  refine hd.congr_deriv ?_
  unfold mrdDamp
  have h0 := (Real.exp_pos ((mf - c.fRD) * c.gamma2 / (c.fDM * c.gamma3))).ne'
  have h1 := (hL mf).ne'
  simp only [Pi.mul_apply, Pi.pow_apply]
  rw [show (mf - c.fRD) * (mf - c.fRD) = (mf - c.fRD) ^ 2 by ring]
  generalize Real.exp ((mf - c.fRD) * c.gamma2 / (c.fDM * c.gamma3)) = E at *
  have h2 : c.fDM ≠ 0 := left_ne_zero_of_mul h
  have h3 : c.gamma3 ≠ 0 := right_ne_zero_of_mul h
  generalize mf - c.fRD = x at *
  generalize c.fDM = a at *
  generalize c.gamma3 = b at *
  generalize c.gamma2 = g2 at *
  generalize c.gamma1 = g1 at *
  have h4 : x ^ 2 + a * b * (a * b) = x ^ 2 + a ^ 2 * b ^ 2 := by ring
  rw [h4] at *
  field_simp
  ring

/-- **C59.**  The second output of the intermediate amplitude is its derivative. -/
theorem intAmp_deriv (mf : ℝ) : HasDerivAt c.intAmp (c.intDamp mf) mf := by
  unfold intAmp intDamp
  generalize c.withDelta delta0 = d0
  generalize c.withDelta delta1 = d1
  generalize c.withDelta delta2 = d2
  generalize c.withDelta delta3 = d3
  generalize c.withDelta delta4 = d4
  have hi := hasDerivAt_id' mf
  have h2 := hi.pow 2
  refine ((((hi.mul_const d1).const_add d0).add (h2.mul (((hi.mul_const d3).const_add d2).add (h2.mul_const d4)))).congr_deriv ?_)
  simp
  ring

/-- **C59.**  `subtract3PNSS`: its second output is the derivative of its first. -/
theorem ss3_deriv (mf : ℝ) (h : 0 < mf) : HasDerivAt c.ss3 (c.dSs3 mf) mf := by
  have hv := Bin.v_pos mf h
  have hd : HasDerivAt Bin.v (Real.pi / (3 * Bin.v mf ^ 2)) mf := by
    have := ((hasDerivAt_id' mf).const_mul Real.pi)
    have h2 := (cbrt_deriv (Real.pi * mf) (mul_pos Real.pi_pos h)).comp mf this
    refine h2.congr_deriv ?_
    unfold Bin.v
    ring
  unfold ss3 dSs3
  generalize pnSS3 (c.m1 / (c.m1 + c.m2)) (c.m2 / (c.m1 + c.m2)) c.eta c.chi1 c.chi2 = p
  generalize 3 / (128 * c.eta) = k
  have := ((((hd.pow 6).mul_const p).div (hd.pow 5) (pow_ne_zero 5 hv.ne')).mul_const k)
  refine this.congr_deriv ?_
  simp only [Pi.pow_apply]
  generalize Bin.v mf = v at *
  field_simp
  ring

/-- **C59.**  The second output of the inspiral phase is its derivative. -/
theorem insPhase_deriv (mf : ℝ) (h : 0 < mf) (h1 : 0 < c.m1) (h2 : 0 < c.m2) : HasDerivAt c.insPhase (c.insDphase mf) mf := by
  have hb : c.bin.Valid := ⟨h1, h2⟩
  have hp := Bin.phasing_deriv hb mf h
  have hs := c.ss3_deriv mf h
  have hi := hasDerivAt_id' mf
  have p1 : HasDerivAt (fun y : ℝ => y ^ ((4 : ℝ) / 3)) (4 / 3 * mf ^ ((1 : ℝ) / 3)) mf :=
    (Real.hasDerivAt_rpow_const (Or.inl h.ne')).congr_deriv (by norm_num)
  have p2 : HasDerivAt (fun y : ℝ => y ^ ((5 : ℝ) / 3)) (5 / 3 * mf ^ ((2 : ℝ) / 3)) mf :=
    (Real.hasDerivAt_rpow_const (Or.inl h.ne')).congr_deriv (by norm_num)
  have p3 : HasDerivAt (fun y : ℝ => y ^ (2 : ℝ)) (2 * mf) mf :=
    (Real.hasDerivAt_rpow_const (Or.inl h.ne')).congr_deriv (by norm_num)
  have := (((((hp.sub hs).add ((hi.mul_const (sigma1 c.eta c.eta2 c.xi)).div_const c.eta)).add
    (((p1.mul_const 0.75).mul_const (sigma2 c.eta c.eta2 c.xi)).div_const c.eta)).add
    (((p2.mul_const 0.6).mul_const (sigma3 c.eta c.eta2 c.xi)).div_const c.eta)).add
    (((p3.mul_const 0.5).mul_const (sigma4 c.eta c.eta2 c.xi)).div_const c.eta))
  refine this.congr_deriv ?_
  unfold insDphase
  ring

/-- **C59.**  The second output of the intermediate phase is the derivative of its first, divided by `eta`. -/
theorem intPhase_deriv (mf : ℝ) (h : 0 < mf) : HasDerivAt (fun y => c.intPhase y / c.eta) (c.intDphase mf) mf := by
  have p1 : HasDerivAt (fun y : ℝ => y ^ (-3 : ℝ)) (-3 * mf ^ (-4 : ℝ)) mf :=
    (Real.hasDerivAt_rpow_const (Or.inl h.ne')).congr_deriv (by norm_num)
  have := ((((hasDerivAt_id' mf).mul_const (beta1 c.eta c.eta2 c.xi)).add ((Real.hasDerivAt_log h.ne').mul_const (beta2 c.eta c.eta2 c.xi))).sub
    ((p1.div_const 3).mul_const (beta3 c.eta c.eta2 c.xi))).div_const c.eta
  refine this.congr_deriv ?_
  unfold intDphase
  rw [Real.rpow_neg_one]
  ring

/-- **C59.**  The second output of the merger-ringdown phase is the derivative of its first, divided by `eta`. -/
theorem mrdPhase_deriv (mf : ℝ) (h : 0 < mf) (hd : c.fDM ≠ 0) : HasDerivAt (fun y => c.mrdPhase y / c.eta) (c.mrdDphase mf) mf := by
  have hi := hasDerivAt_id' mf
  have p1 : HasDerivAt (fun y : ℝ => y ^ ((3 : ℝ) / 4)) (3 / 4 * mf ^ (-(1 : ℝ) / 4)) mf :=
    (Real.hasDerivAt_rpow_const (Or.inl h.ne')).congr_deriv (by norm_num)
  have pa := (((hi.sub_const (alpha5 c.eta c.eta2 c.xi * c.fRD)).div_const c.fDM)).arctan
  have := (((((hi.mul_const (alpha1 c.eta c.eta2 c.xi)).sub (((hasDerivAt_const mf (1 : ℝ)).div hi h.ne').mul_const (alpha2 c.eta c.eta2 c.xi))).add
    ((p1.mul_const (alpha3 c.eta c.eta2 c.xi)).const_mul (4 / 3))).add (pa.mul_const (alpha4 c.eta c.eta2 c.xi))).div_const c.eta)
  refine this.congr_deriv ?_
  unfold mrdDphase
  have e2 : mf ^ (-2 : ℝ) = 1 / mf ^ 2 := by
    rw [Real.rpow_neg h.le, one_div]; norm_num
  rw [e2]
  have hsq : 0 < (mf - alpha5 c.eta c.eta2 c.xi * c.fRD) ^ 2 + c.fDM ^ 2 := by positivity
  have e3 : 1 / (1 + ((mf - alpha5 c.eta c.eta2 c.xi * c.fRD) / c.fDM) ^ 2) * (1 / c.fDM) =
      c.fDM / ((mf - alpha5 c.eta c.eta2 c.xi * c.fRD) ^ 2 + c.fDM ^ 2) := by
    have : 1 + ((mf - alpha5 c.eta c.eta2 c.xi * c.fRD) / c.fDM) ^ 2 = ((mf - alpha5 c.eta c.eta2 c.xi * c.fRD) ^ 2 + c.fDM ^ 2) / c.fDM ^ 2 := by
      field_simp; ring
    rw [this]
    field_simp
  rw [e3]
  ring

end Ctx
end Verif.PhenomD
