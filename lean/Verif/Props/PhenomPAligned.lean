import Verif.Props.PhenomPOrbit
/-!
# C71: aligned spins
-/
namespace Verif.PhenomP
open CbcUtils TaylorF2 PhenomD PhenomPSpec ConvSpec
open Conversion hiding mtsun

/-- Without in-plane spin the first and the third Euler angle have the same coefficients. -/
theorem sums_eq (q chil omega : ℝ) : alphaSum q chil 0 omega = epsSum q chil 0 omega := by
  unfold alphaSum epsSum
  have h1 : alphaC1 q chil 0 = epsC1 q chil 0 := rfl
  have h2 : alphaC2 q chil 0 = epsC2 q chil 0 := rfl
  have h3 : alphaC3 q chil 0 = epsC3 q chil 0 := by unfold alphaC3 epsC3; dsimp only; simp only [mul_zero, zero_mul, zero_div, sub_zero]
  have h4 : alphaC4 q chil 0 = epsC4 q chil 0 := by unfold alphaC4 epsC4; dsimp only; simp only [mul_zero, zero_mul, zero_div, sub_zero]
  have h5 : alphaC5 q chil 0 = epsC5 q chil 0 := by unfold alphaC5 epsC5; dsimp only; simp only [mul_zero, zero_mul, zero_div, sub_zero, add_zero]
  rw [h1, h2, h3, h4, h5]

/-- Both spins along the orbital angular momentum. -/
structure Aligned (p : Par) : Prop where
  x1 : p.s1.x = 0
  y1 : p.s1.y = 0
  x2 : p.s2.x = 0
  y2 : p.s2.y = 0

theorem aligned_chip (p : Par) (h : Aligned p) (fRef : ℝ) : (geom p fRef).chip = 0 := by
  show chipOf (light p) (heavy p) p.s2 p.s1 = 0
  unfold chipOf
  rw [h.x1, h.y1, h.x2, h.y2]
  norm_num

theorem rotateZ_zero (v : Vec) : rotateZ 0 v = v := by unfold rotateZ; ext <;> simp
theorem rotateY_zero (v : Vec) : rotateY 0 v = v := by unfold rotateY; ext <;> simp

/-- The geometry of aligned spins. -/
theorem aligned_geom (m1 m2 fRef phic incl : ℝ) (s1 s2 : Vec) (h1 : s1.x = 0 ∧ s1.y = 0) (h2 : s2.x = 0 ∧ s2.y = 0) (hz : 0 < (totalJ m1 m2 fRef s1 s2).z) :
    let r := convertSpins m1 m2 fRef phic incl s1 s2
    let ka := -atan2 (Real.sin incl * Real.cos phic) (Real.sin incl * Real.sin phic)
    r.alpha0 = 0 ∧ r.phiAligned = 0 ∧ r.thetaJN = Real.arccos (Real.cos incl) ∧
      r.zeta = atan2 ((-Real.cos incl * Real.sin phic * Real.cos ka - -Real.cos incl * Real.cos phic * Real.sin ka) * Real.cos incl
          - Real.sin incl * (Real.sin incl * Real.sin phic * Real.cos ka - Real.sin incl * Real.cos phic * Real.sin ka))
        (-(-Real.cos incl * Real.sin phic * Real.sin ka + -Real.cos incl * Real.cos phic * Real.cos ka)) := by
  have jx : (totalJ m1 m2 fRef s1 s2).x = 0 := by unfold totalJ; dsimp only; rw [h1.1, h2.1]; ring
  have jy : (totalJ m1 m2 fRef s1 s2).y = 0 := by unfold totalJ; dsimp only; rw [h1.2, h2.2]; ring
  intro r ka
  have a0 : atan2 0 0 = 0 := by
    unfold atan2
    have : (⟨0, 0⟩ : ℂ) = 0 := rfl
    rw [this, Complex.arg_zero]
  have hs : Real.sqrt (0 * 0 + 0 * 0 + (totalJ m1 m2 fRef s1 s2).z * (totalJ m1 m2 fRef s1 s2).z) = (totalJ m1 m2 fRef s1 s2).z := by
    rw [show 0 * 0 + 0 * 0 + (totalJ m1 m2 fRef s1 s2).z * (totalJ m1 m2 fRef s1 s2).z = (totalJ m1 m2 fRef s1 s2).z ^ 2 by ring, Real.sqrt_sq hz.le]
  have hr : r = convertSpins m1 m2 fRef phic incl s1 s2 := rfl
  unfold convertSpins at hr
  dsimp only at hr
  rw [jx, jy, hs, a0, div_self hz.ne', Real.arccos_one, neg_zero, Real.cos_pi_div_two_sub, Real.sin_pi_div_two_sub] at hr
  simp only [rotateZ_zero, rotateY_zero] at hr
  rw [hr]
  dsimp only
  rw [rotateZ_z]
  refine ⟨a0, rfl, rfl, ?_⟩
  show atan2 _ _ = _
  unfold rotateZ
  dsimp only
  congr 1 <;> ring

/-- Seen at an inclination strictly between zero and π, the polarization angle of aligned spins is `-π/2` whatever the coalescence phase. -/
theorem aligned_zeta (m1 m2 fRef phic incl : ℝ) (s1 s2 : Vec) (h1 : s1.x = 0 ∧ s1.y = 0) (h2 : s2.x = 0 ∧ s2.y = 0) (hz : 0 < (totalJ m1 m2 fRef s1 s2).z)
    (hi : 0 < Real.sin incl) : (convertSpins m1 m2 fRef phic incl s1 s2).zeta = -(Real.pi / 2) := by
  rw [(aligned_geom m1 m2 fRef phic incl s1 s2 h1 h2 hz).2.2.2]
  have hsc := Real.sin_sq_add_cos_sq phic
  have hii := Real.sin_sq_add_cos_sq incl
  have k := rotateZ_atan2 ⟨Real.sin incl * Real.sin phic, Real.sin incl * Real.cos phic, 0⟩
  dsimp only at k
  have kx := congrArg Vec.x k
  have ky := congrArg Vec.y k
  unfold rotateZ at kx ky
  dsimp only at kx ky
  have hs : Real.sqrt ((Real.sin incl * Real.sin phic) ^ 2 + (Real.sin incl * Real.cos phic) ^ 2) = Real.sin incl := by
    rw [show (Real.sin incl * Real.sin phic) ^ 2 + (Real.sin incl * Real.cos phic) ^ 2 = Real.sin incl ^ 2 by linear_combination Real.sin incl ^ 2 * hsc, Real.sqrt_sq hi.le]
  rw [hs] at kx
  generalize -atan2 (Real.sin incl * Real.cos phic) (Real.sin incl * Real.sin phic) = ka at *
  have k1 : Real.sin phic * Real.cos ka - Real.cos phic * Real.sin ka = 1 := by
    have : Real.sin incl * (Real.sin phic * Real.cos ka - Real.cos phic * Real.sin ka) = Real.sin incl * 1 := by rw [mul_one]; linarith [kx]
    exact mul_left_cancel₀ hi.ne' this
  have k2 : Real.sin phic * Real.sin ka + Real.cos phic * Real.cos ka = 0 := by
    have : Real.sin incl * (Real.sin phic * Real.sin ka + Real.cos phic * Real.cos ka) = Real.sin incl * 0 := by rw [mul_zero]; linarith [ky]
    exact mul_left_cancel₀ hi.ne' this
  have e1 : (-Real.cos incl * Real.sin phic * Real.cos ka - -Real.cos incl * Real.cos phic * Real.sin ka) * Real.cos incl
          - Real.sin incl * (Real.sin incl * Real.sin phic * Real.cos ka - Real.sin incl * Real.cos phic * Real.sin ka) = -1 := by
    linear_combination (-Real.cos incl ^ 2 - Real.sin incl ^ 2) * k1 - hii
  have e2 : -(-Real.cos incl * Real.sin phic * Real.sin ka + -Real.cos incl * Real.cos phic * Real.cos ka) = 0 := by
    linear_combination Real.cos incl * k2
  rw [e1, e2]
  unfold atan2
  have : (⟨0, -1⟩ : ℂ) = -Complex.I := by apply Complex.ext <;> simp
  rw [this, Complex.arg_neg_I]

/-- Seen exactly face-on, it is minus the coalescence phase (up to a turn). -/
theorem face_on_zeta (m1 m2 fRef phic : ℝ) (s1 s2 : Vec) (h1 : s1.x = 0 ∧ s1.y = 0) (h2 : s2.x = 0 ∧ s2.y = 0) (hz : 0 < (totalJ m1 m2 fRef s1 s2).z) :
    Real.cos (convertSpins m1 m2 fRef phic 0 s1 s2).zeta = Real.cos phic ∧ Real.sin (convertSpins m1 m2 fRef phic 0 s1 s2).zeta = -Real.sin phic := by
  rw [(aligned_geom m1 m2 fRef phic 0 s1 s2 h1 h2 hz).2.2.2]
  have a0 : atan2 0 0 = 0 := by
    unfold atan2
    have : (⟨0, 0⟩ : ℂ) = 0 := rfl
    rw [this, Complex.arg_zero]
  rw [Real.sin_zero, Real.cos_zero, zero_mul, zero_mul, a0, neg_zero, Real.cos_zero, Real.sin_zero]
  have k := atan2_unit (-Real.sin phic) (Real.cos phic) (by linarith [Real.sin_sq_add_cos_sq phic])
  have e1 : (-1 * Real.sin phic * 1 - -1 * Real.cos phic * 0) * 1 - 0 * (0 * 1 - 0 * 0) = -Real.sin phic := by ring
  have e2 : -(-1 * Real.sin phic * 0 + -1 * Real.cos phic * 1) = Real.cos phic := by ring
  rw [e1, e2]
  exact k

/-- The two circular polarizations of an aligned binary. -/
theorem aligned_circular (p : Par) (fRef f : ℝ) (rd : ℝ × ℝ) (h : Aligned p) (hz : 0 < (totalJ (light p) (heavy p) fRef p.s2 p.s1).z) :
    let r := polarizations p (elemOf p fRef rd) f
    let g := hAt p fRef rd f * shift p rd f * (y22 : ℂ)
    r.2 - Complex.I * r.1 = Complex.exp (2 * Complex.I * ((geom p fRef).zeta : ℂ)) * g * (((1 - Real.cos p.inclination) / 2) ^ 2 : ℝ) ∧
      r.2 + Complex.I * r.1 = Complex.exp (-2 * Complex.I * ((geom p fRef).zeta : ℂ)) * g * (((1 + Real.cos p.inclination) / 2) ^ 2 : ℝ) := by
  intro r g
  have hg := aligned_geom (light p) (heavy p) fRef p.phic p.inclination p.s2 p.s1 ⟨h.x2, h.y2⟩ ⟨h.x1, h.y1⟩ hz
  have hchip := aligned_chip p h fRef
  have hbeta : betaAt p fRef f = 0 := by
    unfold betaAt tanAt
    rw [hchip, zero_mul, zero_div, abs_zero, Real.arctan_zero]
  have hae : alphaAt p fRef f = epsAt p fRef f := by
    unfold alphaAt epsAt
    rw [hchip, sums_eq, sums_eq, show (geom p fRef).alpha0 = 0 from hg.1, sub_zero]
  have hth : (geom p fRef).thetaJN = Real.arccos (Real.cos p.inclination) := hg.2.2.1
  have hcos : Real.cos (geom p fRef).thetaJN = Real.cos p.inclination := by
    rw [hth, Real.cos_arccos (Real.neg_one_le_cos _) (Real.cos_le_one _)]
  have k := polarizations_circular p fRef f rd
  dsimp only at k
  rw [hbeta, hae, zero_div, Real.cos_zero, Real.sin_zero] at k
  have hc4 : ((Real.cos ((geom p fRef).thetaJN / 2) : ℝ) : ℂ) ^ 4 = (((1 + Real.cos p.inclination) / 2) ^ 2 : ℝ) := by
    have : Real.cos ((geom p fRef).thetaJN / 2) ^ 2 = (1 + Real.cos p.inclination) / 2 := by
      rw [Real.cos_sq, mul_div_cancel₀ _ (two_ne_zero), hcos]; ring
    rw [← this, ← Complex.ofReal_pow, ← pow_mul]
  have hs4 : ((Real.sin ((geom p fRef).thetaJN / 2) : ℝ) : ℂ) ^ 4 = (((1 - Real.cos p.inclination) / 2) ^ 2 : ℝ) := by
    have : Real.sin ((geom p fRef).thetaJN / 2) ^ 2 = (1 - Real.cos p.inclination) / 2 := by
      rw [Real.sin_sq, Real.cos_sq, mul_div_cancel₀ _ (two_ne_zero), hcos]; ring
    rw [← this, ← Complex.ofReal_pow, ← pow_mul]
  have hz4 : Complex.exp (-2 * Complex.I * (epsAt p fRef f : ℂ)) * Complex.exp (Complex.I * (epsAt p fRef f / 2 : ℝ)) ^ 4 = 1 := by
    rw [← Complex.exp_nat_mul, ← Complex.exp_add]
    rw [show -2 * Complex.I * (epsAt p fRef f : ℂ) + ((4 : ℕ) : ℂ) * (Complex.I * ((epsAt p fRef f / 2 : ℝ) : ℂ)) = 0 by push_cast; ring, Complex.exp_zero]
  refine ⟨k.1.trans ?_, k.2.trans ?_⟩
  · rw [← hs4]
    simp only [Complex.ofReal_one, Complex.ofReal_zero, mul_one, mul_zero, zero_mul, sub_zero]
    linear_combination (Complex.exp (2 * Complex.I * ((geom p fRef).zeta : ℂ)) * hAt p fRef rd f * shift p rd f * (y22 : ℂ) * ((Real.sin ((geom p fRef).thetaJN / 2) : ℝ) : ℂ) ^ 4) * hz4
  · rw [← hc4]
    simp only [Complex.ofReal_one, Complex.ofReal_zero, mul_one, mul_zero, zero_mul, add_zero]
    linear_combination (Complex.exp (-2 * Complex.I * ((geom p fRef).zeta : ℂ)) * hAt p fRef rd f * shift p rd f * (y22 : ℂ) * ((Real.cos ((geom p fRef).thetaJN / 2) : ℝ) : ℂ) ^ 4) * hz4

/-- **C71.**  With both spins along the orbital angular momentum and an inclination strictly between zero and π, the polarizations are those of the non-precessing quadrupole pattern at that inclination: `h₊ = A (1 + cos² ι) / 2`,
`hₓ = -i A cos ι`. -/
theorem aligned_quadrupole (p : Par) (fRef f : ℝ) (rd : ℝ × ℝ) (h : Aligned p) (hz : 0 < (totalJ (light p) (heavy p) fRef p.s2 p.s1).z) (hi : 0 < Real.sin p.inclination) :
    let A : ℂ := -((y22 / 2 : ℝ) * (hPhenom (ctxOfP p rd) (total p) 0 p.distance f * shift p rd f))
    polarizations p (elemOf p fRef rd) f = (quadCross A (Real.cos p.inclination), quadPlus A (Real.cos p.inclination)) := by
  intro A
  have hzeta : (geom p fRef).zeta = -(Real.pi / 2) := aligned_zeta (light p) (heavy p) fRef p.phic p.inclination p.s2 p.s1 ⟨h.x2, h.y2⟩ ⟨h.x1, h.y1⟩ hz hi
  have hphi : (geom p fRef).phiAligned = 0 := (aligned_geom (light p) (heavy p) fRef p.phic p.inclination p.s2 p.s1 ⟨h.x2, h.y2⟩ ⟨h.x1, h.y1⟩ hz).2.1
  have hh : hAt p fRef rd f = hPhenom (ctxOfP p rd) (total p) 0 p.distance f := by unfold hAt; rw [hphi, mul_zero]
  obtain ⟨k1, k2⟩ := aligned_circular p fRef f rd h hz
  have e1 : Complex.exp (2 * Complex.I * ((geom p fRef).zeta : ℂ)) = -1 := by
    rw [hzeta, show 2 * Complex.I * ((-(Real.pi / 2) : ℝ) : ℂ) = -(Real.pi * Complex.I) by push_cast; ring, Complex.exp_neg, Complex.exp_pi_mul_I]; norm_num
  have e2 : Complex.exp (-2 * Complex.I * ((geom p fRef).zeta : ℂ)) = -1 := by
    rw [hzeta, show -2 * Complex.I * ((-(Real.pi / 2) : ℝ) : ℂ) = Real.pi * Complex.I by push_cast; ring, Complex.exp_pi_mul_I]
  rw [e1, hh] at k1
  rw [e2, hh] at k2
  have hA : A = -((y22 / 2 : ℝ) * (hPhenom (ctxOfP p rd) (total p) 0 p.distance f * shift p rd f)) := rfl
  generalize polarizations p (elemOf p fRef rd) f = r at *
  generalize hPhenom (ctxOfP p rd) (total p) 0 p.distance f * shift p rd f = u at *
  generalize Real.cos p.inclination = x at *
  unfold quadCross quadPlus
  rw [hA]
  push_cast at k1 k2 ⊢
  have hI : Complex.I * Complex.I = -1 := Complex.I_mul_I
  refine Prod.ext ?_ ?_ <;> dsimp only
  · linear_combination (-Complex.I / 2) * k2 + (Complex.I / 2) * k1 + r.1 * hI
  · linear_combination (1 / 2) * k2 + (1 / 2) * k1

/-- **C71, finding.**  In that case the coalescence phase has no effect on the waveform. -/
theorem aligned_phic_ignored (p : Par) (phi fRef f : ℝ) (rd : ℝ × ℝ) (h : Aligned p) (hz : 0 < (totalJ (light p) (heavy p) fRef p.s2 p.s1).z) (hi : 0 < Real.sin p.inclination) :
    polarizations { p with phic := phi } (elemOf { p with phic := phi } fRef rd) f = polarizations p (elemOf p fRef rd) f :=
  (aligned_quadrupole { p with phic := phi } fRef f rd ⟨h.x1, h.y1, h.x2, h.y2⟩ hz hi).trans (aligned_quadrupole p fRef f rd h hz hi).symm

/-- **C71, finding.**  Seen exactly face-on the coalescence phase turns the waveform by twice its value. -/
theorem face_on (p : Par) (fRef f : ℝ) (rd : ℝ × ℝ) (h : Aligned p) (hz : 0 < (totalJ (light p) (heavy p) fRef p.s2 p.s1).z) (hi : p.inclination = 0) :
    let A : ℂ := Complex.exp (2 * Complex.I * (p.phic : ℂ)) * ((y22 / 2 : ℝ) * (hPhenom (ctxOfP p rd) (total p) 0 p.distance f * shift p rd f))
    polarizations p (elemOf p fRef rd) f = (quadCross A 1, quadPlus A 1) := by
  intro A
  have hphi : (geom p fRef).phiAligned = 0 := (aligned_geom (light p) (heavy p) fRef p.phic p.inclination p.s2 p.s1 ⟨h.x2, h.y2⟩ ⟨h.x1, h.y1⟩ hz).2.1
  have hh : hAt p fRef rd f = hPhenom (ctxOfP p rd) (total p) 0 p.distance f := by unfold hAt; rw [hphi, mul_zero]
  obtain ⟨k1, k2⟩ := aligned_circular p fRef f rd h hz
  have hzeta := face_on_zeta (light p) (heavy p) fRef p.phic p.s2 p.s1 ⟨h.x2, h.y2⟩ ⟨h.x1, h.y1⟩ hz
  have hgz : (convertSpins (light p) (heavy p) fRef p.phic 0 p.s2 p.s1).zeta = (geom p fRef).zeta := by rw [← hi]; rfl
  rw [hgz] at hzeta
  have e2 : Complex.exp (-2 * Complex.I * ((geom p fRef).zeta : ℂ)) = Complex.exp (2 * Complex.I * (p.phic : ℂ)) := by
    have w : ∀ x : ℝ, Complex.exp (2 * Complex.I * (x : ℂ)) = ((Real.cos x : ℝ) + (Real.sin x : ℝ) * Complex.I) ^ 2 := by
      intro x
      rw [Complex.ofReal_cos, Complex.ofReal_sin, ← Complex.exp_mul_I, ← Complex.exp_nat_mul]; congr 1; push_cast; ring
    rw [show -2 * Complex.I * ((geom p fRef).zeta : ℂ) = 2 * Complex.I * ((-(geom p fRef).zeta : ℝ) : ℂ) by push_cast; ring, w, w, Real.cos_neg, Real.sin_neg, hzeta.1, hzeta.2, neg_neg]
  rw [hi, Real.cos_zero, hh] at k1
  rw [e2, hi, Real.cos_zero, hh] at k2
  have hA : A = Complex.exp (2 * Complex.I * (p.phic : ℂ)) * ((y22 / 2 : ℝ) * (hPhenom (ctxOfP p rd) (total p) 0 p.distance f * shift p rd f)) := rfl
  generalize polarizations p (elemOf p fRef rd) f = r at *
  generalize hPhenom (ctxOfP p rd) (total p) 0 p.distance f * shift p rd f = u at *
  generalize Complex.exp (2 * Complex.I * (p.phic : ℂ)) = w at *
  unfold quadCross quadPlus
  rw [hA]
  push_cast at k1 k2 ⊢
  have hI : Complex.I * Complex.I = -1 := Complex.I_mul_I
  refine Prod.ext ?_ ?_ <;> dsimp only
  · linear_combination (-Complex.I / 2) * k2 + (Complex.I / 2) * k1 + r.1 * hI
  · linear_combination (1 / 2) * k2 + (1 / 2) * k1

end Verif.PhenomP
