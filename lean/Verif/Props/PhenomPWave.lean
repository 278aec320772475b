import Verif.Props.PhenomPTwist
/-!
# C68: the polarizations of IMRPhenomPv2 at each frequency
-/
namespace Verif.PhenomP
open CbcUtils TaylorF2 PhenomD PhenomPSpec
open Conversion hiding mtsun

/-- The masses after the exchange: lighter first when `mass_ratio ≤ 1`. -/
noncomputable def light (p : Par) : ℝ := (toComponents p.chirpMass p.massRatio).2
noncomputable def heavy (p : Par) : ℝ := (toComponents p.chirpMass p.massRatio).1

/-- The total mass in solar masses. -/
noncomputable def total (p : Par) : ℝ := light p + heavy p

/-- The geometry of one batch element. -/
noncomputable def geom (p : Par) (fRef : ℝ) : Conv := convertSpins (light p) (heavy p) fRef p.phic p.inclination p.s2 p.s1

/-- The ringdown pair of one batch element. -/
noncomputable def rdP (p : Par) : Res (ℝ × ℝ) := ringdown (heavy p) (light p) p.s1.z p.s2.z (chipOf (light p) (heavy p) p.s2 p.s1)

noncomputable def qP (p : Par) : ℝ := heavy p / light p
noncomputable def chilP (p : Par) : ℝ := (1 + qP p) / qP p * ((light p * p.s2.z + heavy p * p.s1.z) / total p)
noncomputable def etaP (p : Par) : ℝ := light p * heavy p / (total p * total p)

/-- The PhenomD quantities of one batch element: the heavier body first, but the squared spins in the order lighter, heavier. -/
noncomputable def ctxOfP (p : Par) (rd : ℝ × ℝ) : Ctx :=
  ctxP (heavy p) (light p) (etaP p) (Real.sqrt (1 - 4 * etaP p)) p.s1.z p.s2.z (p.s2.z * p.s2.z) (p.s1.z * p.s1.z) (total p)
    (-1 + chiPN (Real.sqrt (1 - 4 * etaP p)) (etaP p) p.s1.z p.s2.z) rd

/-- The result of `elem`. -/
noncomputable def elemOf (p : Par) (fRef : ℝ) (rd : ℝ × ℝ) : Elem :=
  ⟨geom p fRef, light p, heavy p, qP p, chilP p, etaP p, ctxOfP p rd,
    alphaSum (qP p) (chilP p) (geom p fRef).chip (Real.pi * (total p * mtsun) * fRef) - (geom p fRef).alpha0,
    epsSum (qP p) (chilP p) (geom p fRef).chip (Real.pi * (total p * mtsun) * fRef), modeList (geom p fRef).thetaJN,
    diffRD (ctxOfP p rd) (total p * mtsun) rd.1⟩

theorem elem_ok (p : Par) (fRef : ℝ) (rd : ℝ × ℝ) (h : rdP p = .ok rd) : elem p fRef = .ok (elemOf p fRef rd) := by
  unfold elem
  dsimp only
  rw [modes_ok]
  simp only [res_bind_ok]
  have h' : ringdown (toComponents p.chirpMass p.massRatio).1 (toComponents p.chirpMass p.massRatio).2
    (convertSpins (toComponents p.chirpMass p.massRatio).2 (toComponents p.chirpMass p.massRatio).1 fRef p.phic p.inclination p.s2 p.s1).chi2l
    (convertSpins (toComponents p.chirpMass p.massRatio).2 (toComponents p.chirpMass p.massRatio).1 fRef p.phic p.inclination p.s2 p.s1).chi1l
    (convertSpins (toComponents p.chirpMass p.massRatio).2 (toComponents p.chirpMass p.massRatio).1 fRef p.phic p.inclination p.s2 p.s1).chip = .ok rd := h
  rw [h']
  rfl

theorem elem_err (p : Par) (fRef : ℝ) (x : Err) (h : rdP p = .error x) : elem p fRef = .error x := by
  unfold elem
  dsimp only
  rw [modes_ok]
  simp only [res_bind_ok]
  have h' : ringdown (toComponents p.chirpMass p.massRatio).1 (toComponents p.chirpMass p.massRatio).2
    (convertSpins (toComponents p.chirpMass p.massRatio).2 (toComponents p.chirpMass p.massRatio).1 fRef p.phic p.inclination p.s2 p.s1).chi2l
    (convertSpins (toComponents p.chirpMass p.massRatio).2 (toComponents p.chirpMass p.massRatio).1 fRef p.phic p.inclination p.s2 p.s1).chi1l
    (convertSpins (toComponents p.chirpMass p.massRatio).2 (toComponents p.chirpMass p.massRatio).1 fRef p.phic p.inclination p.s2 p.s1).chip = .error x := h
  rw [h']
  rfl

/-! ## The quantities at one frequency -/

/-- The azimuth of the orbital angular momentum about the total one at frequency `f`. -/
noncomputable def alphaAt (p : Par) (fRef f : ℝ) : ℝ :=
  alphaSum (qP p) (chilP p) (geom p fRef).chip (Real.pi * (f * mtsun * total p))
    - (alphaSum (qP p) (chilP p) (geom p fRef).chip (Real.pi * (total p * mtsun) * fRef) - (geom p fRef).alpha0)

/-- The third Euler angle at frequency `f`. -/
noncomputable def epsAt (p : Par) (fRef f : ℝ) : ℝ :=
  epsSum (qP p) (chilP p) (geom p fRef).chip (Real.pi * (f * mtsun * total p))
    - epsSum (qP p) (chilP p) (geom p fRef).chip (Real.pi * (total p * mtsun) * fRef)

/-- The mass ratio at least one recovered from `eta` (phenom_p.py:215). -/
noncomputable def qq (eta : ℝ) : ℝ := (1 + Real.sqrt (1 - 4 * eta) - 2 * eta) / (2 * eta)

/-- The tangent of the opening angle, up to sign, at frequency `f`. -/
noncomputable def tanAt (p : Par) (fRef f : ℝ) : ℝ :=
  (geom p fRef).chip * (qq (etaP p) / (1 + qq (etaP p)) * (qq (etaP p) / (1 + qq (etaP p)))) /
    (l2PNR ((Real.pi * (f * mtsun * total p)) ^ ((1 : ℝ) / 3)) (etaP p)
      + (p.s2.z * (1 / (1 + qq (etaP p))) * (1 / (1 + qq (etaP p))) + p.s1.z * (qq (etaP p) / (1 + qq (etaP p))) * (qq (etaP p) / (1 + qq (etaP p)))))

/-- The opening angle at frequency `f`. -/
noncomputable def betaAt (p : Par) (fRef f : ℝ) : ℝ := Real.arctan |tanAt p fRef f|

/-- The aligned-spin amplitude at frequency `f`. -/
noncomputable def hAt (p : Par) (fRef : ℝ) (rd : ℝ × ℝ) (f : ℝ) : ℂ := hPhenom (ctxOfP p rd) (total p) (2 * (geom p fRef).phiAligned) p.distance f

/-- The time shift factor. -/
noncomputable def shift (p : Par) (rd : ℝ × ℝ) (f : ℝ) : ℂ :=
  Complex.exp (-Complex.I * ((f * diffRD (ctxOfP p rd) (total p * mtsun) rd.1 : ℝ) : ℂ)) * Complex.exp (-Complex.I * ((f * (total p * mtsun) * p.tc : ℝ) : ℂ))

theorem corr_eq (f d : ℝ) : (Real.cos (2 * Real.pi * f * (d / (2 * Real.pi))) : ℂ) - Complex.I * (Real.sin (2 * Real.pi * f * (d / (2 * Real.pi))) : ℂ) =
    Complex.exp (-Complex.I * ((f * d : ℝ) : ℂ)) := by
  have e : 2 * Real.pi * f * (d / (2 * Real.pi)) = f * d := by field_simp
  rw [e, show -Complex.I * ((f * d : ℝ) : ℂ) = ((-(f * d) : ℝ) : ℂ) * Complex.I by push_cast; ring, Complex.exp_mul_I, ← Complex.ofReal_cos, ← Complex.ofReal_sin, Real.cos_neg, Real.sin_neg]
  push_cast; ring

theorem polarizations_gen (p : Par) (e : Elem) (f al ep : ℝ) (b : ℝ × ℝ)
    (h : angles f e.eta e.conv.chi1l e.conv.chi2l e.conv.chip (e.m1 + e.m2) e.q e.chil e.alphaOff e.epsOff = (al, ep, b)) (t : ℂ × ℂ) (ht : twist e.y al b = t) (g : ℂ)
    (hg : g = Complex.exp (-2 * Complex.I * (ep : ℂ)) * hPhenom e.ctx (e.m1 + e.m2) (2 * e.conv.phiAligned) p.distance f / 2 *
      (Complex.exp (-Complex.I * ((f * e.diffRD : ℝ) : ℂ)) * Complex.exp (-Complex.I * ((f * ((e.m1 + e.m2) * mtsun) * p.tc : ℝ) : ℂ))))
    (c s : ℂ) (hc : c = (Real.cos (2 * e.conv.zeta) : ℝ)) (hs : s = (Real.sin (2 * e.conv.zeta) : ℝ)) :
    polarizations p e f = (c * (g * (Complex.I * (t.1 - t.2))) - s * (g * (t.1 + t.2)), c * (g * (t.1 + t.2)) + s * (g * (Complex.I * (t.1 - t.2)))) := by
  unfold polarizations twistUp
  dsimp only
  rw [corr_eq, h]
  dsimp only
  have e2 : -Complex.I * (f : ℂ) * ((e.m1 + e.m2) * mtsun : ℝ) * (p.tc : ℂ) = -Complex.I * ((f * ((e.m1 + e.m2) * mtsun) * p.tc : ℝ) : ℂ) := by
    push_cast; ring
  rw [e2, ht, ← hc, ← hs, hg]
  refine Prod.ext ?_ ?_ <;> dsimp only <;> ring

/-- Both polarizations in terms of the two twisted sums. -/
theorem polarizations_eq (p : Par) (fRef f : ℝ) (rd : ℝ × ℝ) (t : ℂ × ℂ)
    (ht : twist (modeList (geom p fRef).thetaJN) (alphaAt p fRef f) (Real.cos (betaAt p fRef f / 2), Real.sin (betaAt p fRef f / 2)) = t)
    (g : ℂ) (hg : g = Complex.exp (-2 * Complex.I * (epsAt p fRef f : ℂ)) * hAt p fRef rd f / 2 * shift p rd f)
    (c s : ℂ) (hc : c = (Real.cos (2 * (geom p fRef).zeta) : ℝ)) (hs : s = (Real.sin (2 * (geom p fRef).zeta) : ℝ)) :
    polarizations p (elemOf p fRef rd) f =
      (c * (g * (Complex.I * (t.1 - t.2))) - s * (g * (t.1 + t.2)), c * (g * (t.1 + t.2)) + s * (g * (Complex.I * (t.1 - t.2)))) := by
  refine polarizations_gen p (elemOf p fRef rd) f (alphaAt p fRef f) (epsAt p fRef f) (Real.cos (betaAt p fRef f / 2), Real.sin (betaAt p fRef f / 2)) ?_ t ht g hg c s hc hs
  exact Prod.ext rfl (Prod.ext rfl (wigner_ok _ _ _ _))

theorem shift_norm (p : Par) (rd : ℝ × ℝ) (f : ℝ) : ‖shift p rd f‖ = 1 := by
  have key : ∀ x : ℝ, ‖Complex.exp (-Complex.I * (x : ℂ))‖ = 1 := by
    intro x; rw [show -Complex.I * (x : ℂ) = ((-x : ℝ) : ℂ) * Complex.I by push_cast; ring, Complex.norm_exp_ofReal_mul_I]
  unfold shift
  rw [norm_mul, key, key, one_mul]

theorem rotate_intensity (c s : ℝ) (h : s ^ 2 + c ^ 2 = 1) (u v : ℂ) : intensity ((c : ℂ) * u - (s : ℂ) * v) ((c : ℂ) * v + (s : ℂ) * u) = ‖u‖ ^ 2 + ‖v‖ ^ 2 := by
  unfold intensity
  rw [← Complex.normSq_eq_norm_sq, ← Complex.normSq_eq_norm_sq, ← Complex.normSq_eq_norm_sq, ← Complex.normSq_eq_norm_sq, Complex.normSq_apply, Complex.normSq_apply, Complex.normSq_apply, Complex.normSq_apply]
  simp
  linear_combination (u.re * u.re + u.im * u.im + v.re * v.re + v.im * v.im) * h

/-- **C68.**  At every frequency the radiated intensity is that of an aligned-spin binary of amplitude `y22 / 2 * hPhenom` seen at the angle between the line of sight (polar angle `θ_JN` from the total angular momentum) and the
instantaneous orbital angular momentum (polar angle `β(f)`, azimuth `α(f)` counted from the line of sight); the polarization angle, the third Euler angle and the time shifts do not enter. -/
theorem polarizations_intensity (p : Par) (fRef f : ℝ) (rd : ℝ × ℝ) :
    let r := polarizations p (elemOf p fRef rd) f
    let A : ℂ := (y22 / 2 : ℝ) * hAt p fRef rd f
    let x := ConvSpec.dot (dir (geom p fRef).thetaJN 0) (dir (betaAt p fRef f) (alphaAt p fRef f))
    intensity r.1 r.2 = intensity (quadCross A x) (quadPlus A x) := by
  intro r A x
  have hr : r = _ := polarizations_eq p fRef f rd _ rfl _ rfl _ _ rfl rfl
  rw [hr]
  dsimp only
  rw [rotate_intensity _ _ (Real.sin_sq_add_cos_sq _)]
  obtain ⟨n1, n2⟩ := twist_norm (geom p fRef).thetaJN (alphaAt p fRef f) (betaAt p fRef f)
  change _ = y22 * ((1 - x) / 2) ^ 2 at n1
  change _ = y22 * ((1 + x) / 2) ^ 2 at n2
  generalize twist (modeList (geom p fRef).thetaJN) (alphaAt p fRef f) (Real.cos (betaAt p fRef f / 2), Real.sin (betaAt p fRef f / 2)) = t at *
  have he : ‖Complex.exp (-2 * Complex.I * (epsAt p fRef f : ℂ))‖ = 1 := by
    rw [show -2 * Complex.I * (epsAt p fRef f : ℂ) = ((-2 * epsAt p fRef f : ℝ) : ℂ) * Complex.I by push_cast; ring, Complex.norm_exp_ofReal_mul_I]
  have hg : ‖Complex.exp (-2 * Complex.I * (epsAt p fRef f : ℂ)) * hAt p fRef rd f / 2 * shift p rd f‖ = ‖hAt p fRef rd f‖ / 2 := by
    rw [norm_mul, shift_norm, norm_div, norm_mul, he]; simp
  generalize Complex.exp (-2 * Complex.I * (epsAt p fRef f : ℂ)) * hAt p fRef rd f / 2 * shift p rd f = g at *
  rw [norm_mul g, norm_mul g, hg, norm_mul, Complex.norm_I, one_mul, mul_pow, mul_pow, ← mul_add]
  have par' : ‖t.1 - t.2‖ ^ 2 + ‖t.1 + t.2‖ ^ 2 = 2 * (‖t.1‖ ^ 2 + ‖t.2‖ ^ 2) := by
    rw [← Complex.normSq_eq_norm_sq, ← Complex.normSq_eq_norm_sq, ← Complex.normSq_eq_norm_sq, ← Complex.normSq_eq_norm_sq, Complex.normSq_add, Complex.normSq_sub]; ring
  rw [par', n1, n2]
  unfold intensity quadCross quadPlus
  have hA : ‖A‖ = y22 / 2 * ‖hAt p fRef rd f‖ := by
    show ‖((y22 / 2 : ℝ) : ℂ) * hAt p fRef rd f‖ = _
    rw [norm_mul, Complex.norm_real, Real.norm_eq_abs, abs_of_pos (by have := y22_pos; positivity)]
  clear_value A
  rw [norm_mul, norm_neg, Complex.norm_I, one_mul, norm_mul A, norm_mul A, hA, Complex.norm_real, Complex.norm_real, Real.norm_eq_abs, Real.norm_eq_abs, mul_pow (y22 / 2 * ‖hAt p fRef rd f‖), mul_pow (y22 / 2 * ‖hAt p fRef rd f‖), sq_abs, sq_abs]
  ring

/-- **C68.**  The two circular polarizations: each is a fourth power of the projection of the line of sight on the twisted frame, turned by twice the polarization angle. -/
theorem polarizations_circular (p : Par) (fRef f : ℝ) (rd : ℝ × ℝ) :
    let r := polarizations p (elemOf p fRef rd) f
    let z := Complex.exp (Complex.I * (alphaAt p fRef f / 2 : ℝ))
    let w := Complex.exp (-(Complex.I * (alphaAt p fRef f / 2 : ℝ)))
    let C : ℂ := (Real.cos (betaAt p fRef f / 2) : ℝ)
    let S : ℂ := (Real.sin (betaAt p fRef f / 2) : ℝ)
    let c : ℂ := (Real.cos ((geom p fRef).thetaJN / 2) : ℝ)
    let s : ℂ := (Real.sin ((geom p fRef).thetaJN / 2) : ℝ)
    let g := Complex.exp (-2 * Complex.I * (epsAt p fRef f : ℂ)) * hAt p fRef rd f * shift p rd f * (y22 : ℂ)
    r.2 - Complex.I * r.1 = Complex.exp (2 * Complex.I * ((geom p fRef).zeta : ℂ)) * g * (z * C * s - w * S * c) ^ 4 ∧
      r.2 + Complex.I * r.1 = Complex.exp (-2 * Complex.I * ((geom p fRef).zeta : ℂ)) * g * (z * C * c + w * S * s) ^ 4 := by
  intro r z w C S c s g
  have hr : r = _ := polarizations_eq p fRef f rd _ (twist_ok _ _ _ _) _ rfl _ _ rfl rfl
  rw [hr]
  dsimp only
  have e1 : Complex.exp (2 * Complex.I * ((geom p fRef).zeta : ℂ)) = (Real.cos (2 * (geom p fRef).zeta) : ℝ) + (Real.sin (2 * (geom p fRef).zeta) : ℝ) * Complex.I := by
    rw [show 2 * Complex.I * ((geom p fRef).zeta : ℂ) = ((2 * (geom p fRef).zeta : ℝ) : ℂ) * Complex.I by push_cast; ring, Complex.exp_mul_I, ← Complex.ofReal_cos, ← Complex.ofReal_sin]
  have e2 : Complex.exp (-2 * Complex.I * ((geom p fRef).zeta : ℂ)) = (Real.cos (2 * (geom p fRef).zeta) : ℝ) - (Real.sin (2 * (geom p fRef).zeta) : ℝ) * Complex.I := by
    rw [show -2 * Complex.I * ((geom p fRef).zeta : ℂ) = ((-(2 * (geom p fRef).zeta) : ℝ) : ℂ) * Complex.I by push_cast; ring, Complex.exp_mul_I, ← Complex.ofReal_cos, ← Complex.ofReal_sin, Real.cos_neg, Real.sin_neg]
    push_cast; ring
  rw [e1, e2]
  have hI : Complex.I ^ 2 = -1 := Complex.I_sq
  have key : ∀ e h u cz sz K a b : ℂ,
      (cz * (e * h / 2 * u * (K * a + K * b)) + sz * (e * h / 2 * u * (Complex.I * (K * a - K * b)))) -
        Complex.I * (cz * (e * h / 2 * u * (Complex.I * (K * a - K * b))) - sz * (e * h / 2 * u * (K * a + K * b))) = (cz + sz * Complex.I) * (e * h * u * K) * a ∧
      (cz * (e * h / 2 * u * (K * a + K * b)) + sz * (e * h / 2 * u * (Complex.I * (K * a - K * b)))) +
        Complex.I * (cz * (e * h / 2 * u * (Complex.I * (K * a - K * b))) - sz * (e * h / 2 * u * (K * a + K * b))) = (cz - sz * Complex.I) * (e * h * u * K) * b := by
    intro e h u cz sz K a b
    constructor
    · linear_combination (-(cz * e * h * u * K * (a - b) / 2)) * hI
    · linear_combination (cz * e * h * u * K * (a - b) / 2) * hI
  exact key _ _ _ _ _ _ _ _

end Verif.PhenomP
