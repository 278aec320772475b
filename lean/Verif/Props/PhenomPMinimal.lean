import Verif.Props.PhenomPTime
import Mathlib.Analysis.Asymptotics.Lemmas
/-!
# C75: the three Euler angles and the minimal-rotation condition
-/
namespace Verif.PhenomP
open CbcUtils TaylorF2 PhenomD PhenomPSpec ConvSpec
open Conversion hiding mtsun

/-- The leading coefficient of the precession angle, and the rounding error of the literal that stands for it. -/
noncomputable def k1 (q : ℝ) : ℝ := 35 / 192 + 5 * (1 / (1 + q) - q / (1 + q)) / (64 * (q / (1 + q)))
noncomputable def k1Err : ℝ := 35 / 192 - 0.18229166666666666

theorem k1Err_small : 0 < k1Err ∧ k1Err < 1e-17 := by unfold k1Err; norm_num

theorem alphaC1_eq (q chil chip : ℝ) : alphaC1 q chil chip = k1Err - k1 q := by unfold alphaC1 k1 k1Err abbr; dsimp only; ring

section
variable (q chil chip : ℝ) (hq : 0 < q)
include hq

theorem epsC3_eq : epsC3 q chil chip = alphaC3 q chil chip + 3 / 2 * k1 q * (chip * (q / (1 + q)) ^ 2 / (q / (1 + q) ^ 2)) ^ 2 := by
  have h1 : 0 < 1 + q := by linarith
  unfold epsC3 alphaC3 k1 abbr
  dsimp only
  field_simp
  ring

theorem epsC4_eq : epsC4 q chil chip = alphaC4 q chil chip + alphaC2 q chil chip * (chip * (q / (1 + q)) ^ 2 / (q / (1 + q) ^ 2)) ^ 2 / 3
    + k1 q * (chip * (q / (1 + q)) ^ 2 / (q / (1 + q) ^ 2)) ^ 2 * (chil * (q / (1 + q)) ^ 2 / (q / (1 + q) ^ 2)) := by
  have h1 : 0 < 1 + q := by linarith
  unfold epsC4 alphaC4 alphaC2 k1 abbr
  dsimp only
  field_simp
  ring
end

/-! ## Slopes -/

theorem angleSum_deriv (c1 c2 c3 c4 c5 v : ℝ) (hv : 0 < v) :
    HasDerivAt (angleSum c1 c2 c3 c4 c5) ((-c1 - 2 / 3 * c2 * v - c3 / 3 * v ^ 2 + c4 * v ^ 3 + c5 / 3 * v ^ 4) / v ^ 6) (v ^ 3) := by
  have hw : 0 < v ^ 3 := by positivity
  have hr : (v ^ 3) ^ ((1 : ℝ) / 3) = v := by rw [← Real.rpow_natCast, ← Real.rpow_mul hv.le]; norm_num
  have hd : HasDerivAt (fun w : ℝ => w ^ ((1 : ℝ) / 3)) (1 / (3 * v ^ 2)) (v ^ 3) := by
    refine (Real.hasDerivAt_rpow_const (p := (1 : ℝ) / 3) (.inl hw.ne')).congr_deriv ?_
    rw [Real.rpow_sub hw, hr, Real.rpow_one]
    field_simp
  have hn : ((fun w : ℝ => w ^ ((1 : ℝ) / 3)) (v ^ 3)) ≠ 0 := by dsimp only; rw [hr]; exact hv.ne'
  have e1 := (hasDerivAt_const (v ^ 3) c1).div (hasDerivAt_id' (v ^ 3)) hw.ne'
  have e2 := (hasDerivAt_const (v ^ 3) c2).div (hd.mul hd) (mul_ne_zero hn hn)
  have e3 := (hasDerivAt_const (v ^ 3) c3).div hd hn
  have e4 := (Real.hasDerivAt_log hw.ne').const_mul c4
  have e5 := hd.const_mul c5
  refine HasDerivAt.congr_deriv (HasDerivAt.add (HasDerivAt.add (HasDerivAt.add (HasDerivAt.add e1 e2) e3) e4) e5) ?_
  simp only [Pi.mul_apply]
  rw [hr]
  field_simp
  ring

/-! ## The opening angle -/

open Filter Topology Asymptotics

/-- The cosine of an angle of tangent `t` is `1 - t²/2` up to `3 t⁴ / 8`. -/
theorem cos_arctan_bound (t : ℝ) : |Real.cos (Real.arctan |t|) - (1 - t ^ 2 / 2)| ≤ 3 / 8 * t ^ 4 := by
  rw [Real.cos_arctan, sq_abs]
  have hw : Real.sqrt (1 + t ^ 2) ^ 2 = 1 + t ^ 2 := Real.sq_sqrt (by positivity)
  have h1 : 1 ≤ Real.sqrt (1 + t ^ 2) := Real.one_le_sqrt.2 (by nlinarith [sq_nonneg t])
  generalize Real.sqrt (1 + t ^ 2) = w at *
  have ht : t ^ 2 = w ^ 2 - 1 := by linarith
  rw [show t ^ 4 = (t ^ 2) ^ 2 by ring, ht]
  have e : 1 / w - (1 - (w ^ 2 - 1) / 2) = (w - 1) ^ 2 * (w + 2) / (2 * w) := by field_simp; ring
  rw [e, abs_of_nonneg (by positivity), div_le_iff₀ (by positivity)]
  nlinarith [sq_nonneg (w - 1), mul_nonneg (sq_nonneg (w - 1)) (sub_nonneg.2 h1), mul_nonneg (sq_nonneg (w - 1)) (mul_nonneg (sub_nonneg.2 h1) (sub_nonneg.2 h1)),
    mul_nonneg (sq_nonneg (w - 1)) (mul_nonneg (sub_nonneg.2 h1) (mul_nonneg (sub_nonneg.2 h1) (sub_nonneg.2 h1)))]

/-- The square of the tangent of the opening angle at low velocity. -/
theorem tan_sq_expansion (s y a b : ℝ) :
    (fun v : ℝ => (s * v / (1 + y * v + a * v ^ 2 + b * v ^ 4)) ^ 2 - (s ^ 2 * v ^ 2 - 2 * s ^ 2 * y * v ^ 3)) =O[𝓝[>] 0] fun v => v ^ 4 := by
  have hc : ContinuousAt (fun v : ℝ => s ^ 2 * ((3 * y ^ 2 + 2 * y ^ 3 * v - (2 * (1 + y * v) * (a + b * v ^ 2) + v ^ 2 * (a + b * v ^ 2) ^ 2) * (1 - 2 * y * v)) / (1 + y * v + a * v ^ 2 + b * v ^ 4) ^ 2)) 0 := by
    refine ContinuousAt.mul continuousAt_const (ContinuousAt.div (by fun_prop) (by fun_prop) (by norm_num))
  have hg : ∀ᶠ v in 𝓝[>] (0 : ℝ), 1 + y * v + a * v ^ 2 + b * v ^ 4 ≠ 0 := by
    have : ContinuousAt (fun v : ℝ => 1 + y * v + a * v ^ 2 + b * v ^ 4) 0 := by fun_prop
    have h := this.tendsto
    norm_num at h
    exact (h.mono_left nhdsWithin_le_nhds).eventually (isOpen_ne.mem_nhds one_ne_zero)
  have hO := (hc.tendsto.mono_left (nhdsWithin_le_nhds (s := Set.Ioi 0))).isBigO_one ℝ
  have := hO.mul (isBigO_refl (fun v : ℝ => v ^ 4) (𝓝[>] 0))
  simp only [one_mul] at this
  refine this.congr' ?_ .rfl
  filter_upwards [hg] with v hv
  rw [div_pow]
  have h2 := pow_ne_zero 2 hv
  rw [mul_div_assoc', div_mul_eq_mul_div, eq_sub_iff_add_eq, eq_div_iff h2, add_mul, div_mul_cancel₀ _ h2]
  ring

/-- The expansion, for plain numbers. -/
theorem expansion (c1 c2 c3 c4 c5 e3 e4 e5 k d s y x A B : ℝ) (cb : ℝ → ℝ) (h1 : c1 = d - k) (h3 : e3 = c3 + 3 / 2 * k * s ^ 2) (h4 : e4 = c4 + c2 * s ^ 2 / 3 + k * s ^ 2 * x)
    (hcb : ∀ᶠ v in 𝓝[>] (0 : ℝ), cb v = Real.cos (Real.arctan |s * v / (1 + y * v + A * v ^ 2 + B * v ^ 4)|)) :
    (fun v : ℝ => ((-c1 - 2 / 3 * c2 * v - e3 / 3 * v ^ 2 + e4 * v ^ 3 + e5 / 3 * v ^ 4) - cb v * (-c1 - 2 / 3 * c2 * v - c3 / 3 * v ^ 2 + c4 * v ^ 3 + c5 / 3 * v ^ 4))
      - (-d * s ^ 2 / 2 * v ^ 2 + (d * s ^ 2 * y + k * s ^ 2 * (x - y)) * v ^ 3)) =O[𝓝[>] 0] fun v => v ^ 4 := by
  set T : ℝ → ℝ := fun v => s * v / (1 + y * v + A * v ^ 2 + B * v ^ 4) with hT
  have hTO : (fun v => T v) =O[𝓝[>] 0] fun v : ℝ => v := by
    have hc : ContinuousAt (fun v : ℝ => s / (1 + y * v + A * v ^ 2 + B * v ^ 4)) 0 := ContinuousAt.div (by fun_prop) (by fun_prop) (by norm_num)
    have hO := ((hc.tendsto.mono_left (nhdsWithin_le_nhds (s := Set.Ioi 0))).isBigO_one ℝ).mul (isBigO_refl (fun v : ℝ => v) (𝓝[>] 0))
    simp only [one_mul] at hO
    exact hO.congr_left fun v => by rw [hT]; ring
  have hR1 : (fun v => cb v - (1 - T v ^ 2 / 2)) =O[𝓝[>] 0] fun v : ℝ => v ^ 4 := by
    refine IsBigO.trans ?_ (hTO.pow 4)
    refine IsBigO.of_bound (3 / 8) ?_
    filter_upwards [hcb] with v hv
    rw [hv, Real.norm_eq_abs, Real.norm_eq_abs, abs_of_nonneg (show 0 ≤ T v ^ 4 by positivity)]
    exact cos_arctan_bound (T v)
  have hR : (fun v => cb v - (1 - s ^ 2 / 2 * v ^ 2 + s ^ 2 * y * v ^ 3)) =O[𝓝[>] 0] fun v : ℝ => v ^ 4 := by
    have := hR1.sub ((tan_sq_expansion s y A B).const_mul_left (1 / 2))
    refine this.congr_left fun v => ?_
    show cb v - (1 - T v ^ 2 / 2) - 1 / 2 * (T v ^ 2 - (s ^ 2 * v ^ 2 - 2 * s ^ 2 * y * v ^ 3)) = _
    ring
  have hA : (fun v : ℝ => -c1 - 2 / 3 * c2 * v - c3 / 3 * v ^ 2 + c4 * v ^ 3 + c5 / 3 * v ^ 4) =O[𝓝[>] 0] fun _ => (1 : ℝ) := by
    have hc : ContinuousAt (fun v : ℝ => -c1 - 2 / 3 * c2 * v - c3 / 3 * v ^ 2 + c4 * v ^ 3 + c5 / 3 * v ^ 4) 0 := by fun_prop
    exact (hc.tendsto.mono_left (nhdsWithin_le_nhds (s := Set.Ioi 0))).isBigO_one ℝ
  have hP : (fun v : ℝ => v ^ 4 * ((e5 - c5) / 3 + s ^ 2 / 2 * (-c3 / 3 + c4 * v + c5 / 3 * v ^ 2) - s ^ 2 * y * (-2 / 3 * c2 - c3 / 3 * v + c4 * v ^ 2 + c5 / 3 * v ^ 3))) =O[𝓝[>] 0] fun v : ℝ => v ^ 4 := by
    have hc : ContinuousAt (fun v : ℝ => (e5 - c5) / 3 + s ^ 2 / 2 * (-c3 / 3 + c4 * v + c5 / 3 * v ^ 2) - s ^ 2 * y * (-2 / 3 * c2 - c3 / 3 * v + c4 * v ^ 2 + c5 / 3 * v ^ 3)) 0 := by fun_prop
    have hO := (isBigO_refl (fun v : ℝ => v ^ 4) (𝓝[>] 0)).mul ((hc.tendsto.mono_left (nhdsWithin_le_nhds (s := Set.Ioi 0))).isBigO_one ℝ)
    simpa only [mul_one] using hO
  have hRA := hR.mul hA
  simp only [mul_one] at hRA
  refine (hP.sub hRA).congr_left fun v => ?_
  subst h1 h3 h4
  ring

theorem l2PNR_v (v eta : ℝ) (hv : 0 < v) : l2PNR v eta = eta / v * (1 + (1.5 + eta / 6) * v ^ 2 + (3.375 - 19 * eta / 8 - eta ^ 2 / 24) * v ^ 4) := by
  unfold l2PNR
  dsimp only
  have : (v ^ 2) ^ (0.5 : ℝ) = v := by rw [← Real.rpow_natCast, ← Real.rpow_mul hv.le]; norm_num
  rw [this]
  ring

/-- **C75.**  The minimal-rotation condition `dε/df = cos β · dα/df` as an expansion in the orbital velocity `v = (π M f)^{1/3}`: relative to the leading slope `1/v⁶` the two sides agree through
`v³` up to the rounding of one literal and the term `k₁ s² (x - y) v³`, in which `y` is the spin along the orbit that tilts it and `x` the one the angles were expanded with. -/
theorem minimal_rotation (p : Par) (h : Ordered p) (fRef : ℝ) :
    let M := Real.pi * (total p * mtsun)
    let a := light p / total p
    let b := heavy p / total p
    let s := (geom p fRef).chip * b ^ 2 / etaP p
    let y := (p.s2.z * a ^ 2 + p.s1.z * b ^ 2) / etaP p
    let x := (a * p.s2.z + b * p.s1.z) * b / etaP p
    (fun v : ℝ => v ^ 6 / M * (deriv (epsAt p fRef) (v ^ 3 / M) - Real.cos (betaAt p fRef (v ^ 3 / M)) * deriv (alphaAt p fRef) (v ^ 3 / M))
      - (-k1Err * s ^ 2 / 2 * v ^ 2 + (k1Err * s ^ 2 * y + k1 (qP p) * s ^ 2 * (x - y)) * v ^ 3)) =O[𝓝[>] 0] fun v => v ^ 4 := by
  intro M a b s y x
  obtain ⟨m1, m2, m3, m4⟩ := masses_ordered p h
  have hMt : 0 < total p := by unfold total; linarith
  have hM : 0 < M := mul_pos Real.pi_pos (mul_pos hMt mtsun_pos)
  obtain ⟨f1, f2, f3⟩ := qq_fractions (light p) (heavy p) m1 m3
  have hq : 0 < qP p := div_pos m2 m1
  have hb : qP p / (1 + qP p) = b := by
    show heavy p / light p / (1 + heavy p / light p) = heavy p / (light p + heavy p)
    field_simp
  have heta : etaP p = qP p / (1 + qP p) ^ 2 := by
    show light p * heavy p / ((light p + heavy p) * (light p + heavy p)) = heavy p / light p / (1 + heavy p / light p) ^ 2
    field_simp
  have he0 : 0 < etaP p := (etaP_range p h).1
  have hchil : chilP p * b ^ 2 / etaP p = x := by
    show (1 + qP p) / qP p * ((light p * p.s2.z + heavy p * p.s1.z) / total p) * b ^ 2 / etaP p = (light p / total p * p.s2.z + heavy p / total p * p.s1.z) * b / etaP p
    have : (1 + qP p) / qP p * b = 1 := by rw [← hb]; field_simp
    have e2 : (1 + qP p) / qP p * ((light p * p.s2.z + heavy p * p.s1.z) / total p) * b ^ 2 = ((1 + qP p) / qP p * b) * ((light p * p.s2.z + heavy p * p.s1.z) / total p) * b := by ring
    rw [e2, this]
    ring
  have k3 := epsC3_eq (qP p) (chilP p) (geom p fRef).chip hq
  have k4 := epsC4_eq (qP p) (chilP p) (geom p fRef).chip hq
  rw [hb, ← heta] at k3 k4
  rw [hchil] at k4
  have hroot : ∀ v : ℝ, 0 < v → (Real.pi * (v ^ 3 / M * mtsun * total p)) = v ^ 3 := by
    intro v hv
    have : Real.pi * (v ^ 3 / M * mtsun * total p) = v ^ 3 / M * M := by show _ = v ^ 3 / M * (Real.pi * (total p * mtsun)); ring
    rw [this, div_mul_cancel₀ _ hM.ne']
  have hr3 : ∀ v : ℝ, 0 < v → (v ^ 3) ^ ((1 : ℝ) / 3) = v := by intro v hv; rw [← Real.rpow_natCast, ← Real.rpow_mul hv.le]; norm_num
  have key := expansion (alphaC1 (qP p) (chilP p) (geom p fRef).chip) (alphaC2 (qP p) (chilP p) (geom p fRef).chip) (alphaC3 (qP p) (chilP p) (geom p fRef).chip)
    (alphaC4 (qP p) (chilP p) (geom p fRef).chip) (alphaC5 (qP p) (chilP p) (geom p fRef).chip) (epsC3 (qP p) (chilP p) (geom p fRef).chip)
    (epsC4 (qP p) (chilP p) (geom p fRef).chip) (epsC5 (qP p) (chilP p) (geom p fRef).chip) (k1 (qP p)) k1Err s y x (1.5 + etaP p / 6) (3.375 - 19 * etaP p / 8 - etaP p ^ 2 / 24)
    (fun v => Real.cos (betaAt p fRef (v ^ 3 / M))) (alphaC1_eq _ _ _) k3 k4 (by
      filter_upwards [self_mem_nhdsWithin] with v hv
      change 0 < v at hv
      unfold betaAt tanAt
      rw [hroot v hv, hr3 v hv, l2PNR_v v _ hv]
      have e1 : qq (etaP p) / (1 + qq (etaP p)) = b := f3
      have e2 : 1 / (1 + qq (etaP p)) = a := f2
      rw [e1, e2]
      congr 3
      have e3 : etaP p / v * (1 + (1.5 + etaP p / 6) * v ^ 2 + (3.375 - 19 * etaP p / 8 - etaP p ^ 2 / 24) * v ^ 4) + (p.s2.z * a * a + p.s1.z * b * b) =
          etaP p / v * (1 + y * v + (1.5 + etaP p / 6) * v ^ 2 + (3.375 - 19 * etaP p / 8 - etaP p ^ 2 / 24) * v ^ 4) := by
        show _ = etaP p / v * (1 + (p.s2.z * a ^ 2 + p.s1.z * b ^ 2) / etaP p * v + _ + _)
        field_simp
        ring
      rw [e3, ← div_div]
      congr 1
      show _ = (geom p fRef).chip * b ^ 2 / etaP p * v
      field_simp)
  refine key.congr' ?_ .rfl
  filter_upwards [self_mem_nhdsWithin] with v hv
  change 0 < v at hv
  have hlin : HasDerivAt (fun f : ℝ => Real.pi * (f * mtsun * total p)) M (v ^ 3 / M) := by
    refine ((((hasDerivAt_id' (v ^ 3 / M)).mul_const mtsun).mul_const (total p)).const_mul Real.pi).congr_deriv ?_
    show _ = Real.pi * (total p * mtsun)
    ring
  have dA : deriv (alphaAt p fRef) (v ^ 3 / M) = _ :=
    (HasDerivAt.sub_const _ (HasDerivAt.comp (v ^ 3 / M) (h₂ := alphaSum (qP p) (chilP p) (geom p fRef).chip) (by rw [hroot v hv]; exact angleSum_deriv _ _ _ _ _ v hv) hlin)).deriv
  have dE : deriv (epsAt p fRef) (v ^ 3 / M) = _ :=
    (HasDerivAt.sub_const _ (HasDerivAt.comp (v ^ 3 / M) (h₂ := epsSum (qP p) (chilP p) (geom p fRef).chip) (by rw [hroot v hv]; exact angleSum_deriv _ _ _ _ _ v hv) hlin)).deriv
  rw [dA, dE]
  have hc1 : epsC1 (qP p) (chilP p) (geom p fRef).chip = alphaC1 (qP p) (chilP p) (geom p fRef).chip := rfl
  have hc2 : epsC2 (qP p) (chilP p) (geom p fRef).chip = alphaC2 (qP p) (chilP p) (geom p fRef).chip := rfl
  rw [hc1, hc2]
  congr 1
  field_simp

/-- **C75.**  When the lighter body has no spin along the orbit, or the masses are equal, the agreement is through `v³` up to that rounding error alone. -/
theorem minimal_rotation_single (p : Par) (h : Ordered p) (fRef : ℝ) (hs : p.s2.z = 0 ∨ light p = heavy p) :
    let M := Real.pi * (total p * mtsun)
    ∃ r2 r3 : ℝ, |r2| ≤ 1e-17 * ((geom p fRef).chip * (heavy p / total p) ^ 2 / etaP p) ^ 2 ∧
      |r3| ≤ 1e-17 * ((geom p fRef).chip * (heavy p / total p) ^ 2 / etaP p) ^ 2 * |(p.s2.z * (light p / total p) ^ 2 + p.s1.z * (heavy p / total p) ^ 2) / etaP p| ∧
      (fun v : ℝ => v ^ 6 / M * (deriv (epsAt p fRef) (v ^ 3 / M) - Real.cos (betaAt p fRef (v ^ 3 / M)) * deriv (alphaAt p fRef) (v ^ 3 / M))
        - (r2 * v ^ 2 + r3 * v ^ 3)) =O[𝓝[>] 0] fun v => v ^ 4 := by
  intro M
  have key := minimal_rotation p h fRef
  dsimp only at key
  obtain ⟨e0, e1⟩ := k1Err_small
  have hxy : (light p / total p * p.s2.z + heavy p / total p * p.s1.z) * (heavy p / total p) / etaP p - (p.s2.z * (light p / total p) ^ 2 + p.s1.z * (heavy p / total p) ^ 2) / etaP p = 0 := by
    rcases hs with hs | hs
    · rw [hs]; ring
    · rw [hs]; ring
  rw [hxy, mul_zero, add_zero] at key
  refine ⟨_, _, ?_, ?_, key⟩
  · rw [abs_div, abs_mul, abs_neg, abs_of_pos e0, abs_of_nonneg (sq_nonneg _), abs_of_pos (show (0 : ℝ) < 2 by norm_num)]
    nlinarith [sq_nonneg ((geom p fRef).chip * (heavy p / total p) ^ 2 / etaP p), mul_nonneg (sub_nonneg.2 e1.le) (sq_nonneg ((geom p fRef).chip * (heavy p / total p) ^ 2 / etaP p))]
  · rw [abs_mul, abs_mul, abs_of_pos e0, abs_of_nonneg (sq_nonneg _)]
    gcongr

/-- Non-vacuity: a tilted heavier body and a lighter one without spin. -/
example (fRef : ℝ) : let p : Par := { exPar with s2 := ⟨0, 0, 0⟩ }
    ∃ r2 r3 : ℝ, |r2| ≤ 1e-17 * ((geom p fRef).chip * (heavy p / total p) ^ 2 / etaP p) ^ 2 ∧
      |r3| ≤ 1e-17 * ((geom p fRef).chip * (heavy p / total p) ^ 2 / etaP p) ^ 2 * |(p.s2.z * (light p / total p) ^ 2 + p.s1.z * (heavy p / total p) ^ 2) / etaP p| ∧
      (fun v : ℝ => v ^ 6 / (Real.pi * (total p * mtsun)) * (deriv (epsAt p fRef) (v ^ 3 / (Real.pi * (total p * mtsun)))
        - Real.cos (betaAt p fRef (v ^ 3 / (Real.pi * (total p * mtsun)))) * deriv (alphaAt p fRef) (v ^ 3 / (Real.pi * (total p * mtsun))))
        - (r2 * v ^ 2 + r3 * v ^ 3)) =O[𝓝[>] 0] fun v => v ^ 4 :=
  minimal_rotation_single { exPar with s2 := ⟨0, 0, 0⟩ } ⟨exPar_ordered.mc, exPar_ordered.q, exPar_ordered.le⟩ fRef (.inl rfl)

/-- In the precessing example the in-plane spin does not vanish, so the statement is about a moving frame. -/
example (fRef : ℝ) : 0 < (geom exPar fRef).chip := by
  show 0 < chipOf (light exPar) (heavy exPar) exPar.s2 exPar.s1
  rw [exPar_masses.1, exPar_masses.2]
  unfold chipOf exPar
  dsimp only
  refine div_pos (lt_max_of_lt_right ?_) (by norm_num)
  norm_num

end Verif.PhenomP
