import Verif.Props.PhenomDPieces
/-!
# IMRPhenomD: the intermediate polynomial and the joins (C59)
-/
set_option linter.unusedSimpArgs false
namespace Verif.PhenomD
open TaylorF2

section quartic
variable (f1 f2 f3 v1 v2 v3 d1 d2 : ℝ)

/-- The quartic with the coefficients of `delta_values`. -/
noncomputable def quartic (x : ℝ) : ℝ :=
  delta0 f1 f2 f3 v1 v2 v3 d1 d2 + delta1 f1 f2 f3 v1 v2 v3 d1 d2 * x + delta2 f1 f2 f3 v1 v2 v3 d1 d2 * x ^ 2
    + delta3 f1 f2 f3 v1 v2 v3 d1 d2 * x ^ 3 + delta4 f1 f2 f3 v1 v2 v3 d1 d2 * x ^ 4

/-- Its derivative. -/
noncomputable def quarticD (x : ℝ) : ℝ :=
  delta1 f1 f2 f3 v1 v2 v3 d1 d2 + 2 * delta2 f1 f2 f3 v1 v2 v3 d1 d2 * x
    + 3 * delta3 f1 f2 f3 v1 v2 v3 d1 d2 * x ^ 2 + 4 * delta4 f1 f2 f3 v1 v2 v3 d1 d2 * x ^ 3

variable (h12 : f1 ≠ f2) (h13 : f1 ≠ f3) (h23 : f2 ≠ f3)
include h12 h13 h23

theorem den_ne : (f1 - f2) ^ 2 * (f1 - f3) ^ 3 * (f3 - f2) ^ 2 ≠ 0 := by
  have a := sub_ne_zero.2 h12
  have b := sub_ne_zero.2 h13
  have d := sub_ne_zero.2 h23.symm
  positivity

/-- **C59.**  The five coefficients solve the collocation problem: the quartic takes the three values at the three frequencies and has the two slopes at the ends. -/
theorem collocation : quartic f1 f2 f3 v1 v2 v3 d1 d2 f1 = v1 ∧ quartic f1 f2 f3 v1 v2 v3 d1 d2 f2 = v2 ∧ quartic f1 f2 f3 v1 v2 v3 d1 d2 f3 = v3 ∧
    quarticD f1 f2 f3 v1 v2 v3 d1 d2 f1 = d1 ∧ quarticD f1 f2 f3 v1 v2 v3 d1 d2 f3 = d2 := by
  have hD := den_ne f1 f2 f3 h12 h13 h23
  unfold quartic quarticD delta0 delta1 delta2 delta3 delta4
  dsimp only
  simp only [show -f2 + f3 = f3 - f2 by ring, ← neg_div, div_mul_eq_mul_div, ← mul_div_assoc, ← add_div]
  refine ⟨?_, ?_, ?_, ?_, ?_⟩ <;> (rw [div_eq_iff hD]; ring)

end quartic

/-- The five conditions determine a polynomial of degree four: any other one satisfying them agrees with it everywhere. -/
theorem collocation_unique (f1 f2 f3 : ℝ) (h12 : f1 ≠ f2) (h13 : f1 ≠ f3) (h23 : f2 ≠ f3) (a0 a1 a2 a3 a4 b0 b1 b2 b3 b4 : ℝ)
    (e1 : a0 + a1 * f1 + a2 * f1 ^ 2 + a3 * f1 ^ 3 + a4 * f1 ^ 4 = b0 + b1 * f1 + b2 * f1 ^ 2 + b3 * f1 ^ 3 + b4 * f1 ^ 4)
    (e2 : a0 + a1 * f2 + a2 * f2 ^ 2 + a3 * f2 ^ 3 + a4 * f2 ^ 4 = b0 + b1 * f2 + b2 * f2 ^ 2 + b3 * f2 ^ 3 + b4 * f2 ^ 4)
    (e3 : a0 + a1 * f3 + a2 * f3 ^ 2 + a3 * f3 ^ 3 + a4 * f3 ^ 4 = b0 + b1 * f3 + b2 * f3 ^ 2 + b3 * f3 ^ 3 + b4 * f3 ^ 4)
    (g1 : a1 + 2 * a2 * f1 + 3 * a3 * f1 ^ 2 + 4 * a4 * f1 ^ 3 = b1 + 2 * b2 * f1 + 3 * b3 * f1 ^ 2 + 4 * b4 * f1 ^ 3)
    (g3 : a1 + 2 * a2 * f3 + 3 * a3 * f3 ^ 2 + 4 * a4 * f3 ^ 3 = b1 + 2 * b2 * f3 + 3 * b3 * f3 ^ 2 + 4 * b4 * f3 ^ 3) (x : ℝ) :
    a0 + a1 * x + a2 * x ^ 2 + a3 * x ^ 3 + a4 * x ^ 4 = b0 + b1 * x + b2 * x ^ 2 + b3 * x ^ 3 + b4 * x ^ 4 := by
  have hD := den_ne f1 f2 f3 h12 h13 h23
  have key : quartic f1 f2 f3 (a0 + a1 * f1 + a2 * f1 ^ 2 + a3 * f1 ^ 3 + a4 * f1 ^ 4) (a0 + a1 * f2 + a2 * f2 ^ 2 + a3 * f2 ^ 3 + a4 * f2 ^ 4)
      (a0 + a1 * f3 + a2 * f3 ^ 2 + a3 * f3 ^ 3 + a4 * f3 ^ 4) (a1 + 2 * a2 * f1 + 3 * a3 * f1 ^ 2 + 4 * a4 * f1 ^ 3)
      (a1 + 2 * a2 * f3 + 3 * a3 * f3 ^ 2 + 4 * a4 * f3 ^ 3) x = a0 + a1 * x + a2 * x ^ 2 + a3 * x ^ 3 + a4 * x ^ 4 := by
    unfold quartic delta0 delta1 delta2 delta3 delta4
    dsimp only
    simp only [show -f2 + f3 = f3 - f2 by ring, ← neg_div, div_mul_eq_mul_div, ← mul_div_assoc, ← add_div]
    rw [div_eq_iff hD]; ring
  have key2 : quartic f1 f2 f3 (b0 + b1 * f1 + b2 * f1 ^ 2 + b3 * f1 ^ 3 + b4 * f1 ^ 4) (b0 + b1 * f2 + b2 * f2 ^ 2 + b3 * f2 ^ 3 + b4 * f2 ^ 4)
      (b0 + b1 * f3 + b2 * f3 ^ 2 + b3 * f3 ^ 3 + b4 * f3 ^ 4) (b1 + 2 * b2 * f1 + 3 * b3 * f1 ^ 2 + 4 * b4 * f1 ^ 3)
      (b1 + 2 * b2 * f3 + 3 * b3 * f3 ^ 2 + 4 * b4 * f3 ^ 3) x = b0 + b1 * x + b2 * x ^ 2 + b3 * x ^ 3 + b4 * x ^ 4 := by
    unfold quartic delta0 delta1 delta2 delta3 delta4
    dsimp only
    simp only [show -f2 + f3 = f3 - f2 by ring, ← neg_div, div_mul_eq_mul_div, ← mul_div_assoc, ← add_div]
    rw [div_eq_iff hD]; ring
  rw [← key, ← key2, e1, e2, e3, g1, g3]

/-- Two functions whose values and slopes agree at `a` glue to a differentiable function. -/
theorem glue (g h g' h' : ℝ → ℝ) (a : ℝ) (hg : ∀ x, 0 < x → x ≤ a → HasDerivAt g (g' x) x) (hh : ∀ x, 0 < x → a ≤ x → HasDerivAt h (h' x) x)
    (e : g a = h a) (e' : g' a = h' a) (x : ℝ) (hx : 0 < x) :
    HasDerivAt (fun y => if y ≤ a then g y else h y) (if x ≤ a then g' x else h' x) x := by
  rcases lt_trichotomy x a with hlt | heq | hgt
  · rw [if_pos hlt.le]
    refine (hg x hx hlt.le).congr_of_eventuallyEq ?_
    filter_upwards [Iio_mem_nhds hlt] with y hy
    rw [if_pos (le_of_lt hy)]
  · subst heq
    rw [if_pos le_rfl]
    have hl : HasDerivWithinAt (fun y => if y ≤ x then g y else h y) (g' x) (Set.Iic x) x :=
      (hg x hx le_rfl).hasDerivWithinAt.congr (fun y hy => if_pos hy) (if_pos le_rfl)
    have hr : HasDerivWithinAt (fun y => if y ≤ x then g y else h y) (g' x) (Set.Ici x) x := by
      have := (hh x hx le_rfl).hasDerivWithinAt (s := Set.Ici x)
      rw [← e'] at this
      refine this.congr (fun y hy => ?_) ?_
      · by_cases hyx : y ≤ x
        · have : y = x := le_antisymm hyx hy
          subst this
          rw [if_pos le_rfl, e]
        · exact if_neg hyx
      · rw [if_pos le_rfl, e]
    have := hl.union hr
    rw [Set.Iic_union_Ici] at this
    exact this.hasDerivAt Filter.univ_mem
  · rw [if_neg (not_le.2 hgt)]
    refine (hh x hx hgt.le).congr_of_eventuallyEq ?_
    filter_upwards [Ioi_mem_nhds hgt] with y hy
    rw [if_neg (not_le.2 hy)]

/-- Masks over two ordered joins select one of three pieces. -/
theorem masks (a b x u v w : ℝ) (hab : a ≤ b) :
    mask (x ≤ a) * u + mask (x > a) * v * mask (x ≤ b) + mask (x > b) * w = if x ≤ a then u else if x ≤ b then v else w := by
  unfold mask
  by_cases h1 : x ≤ a
  · have h2 : ¬ x > a := not_lt.2 h1
    have h3 : ¬ x > b := not_lt.2 (h1.trans hab)
    simp [h1, h2, h3]
  · have h2 : x > a := not_le.1 h1
    by_cases h3 : x ≤ b
    · have h4 : ¬ x > b := not_lt.2 h3
      simp [h1, h2, h3, h4]
    · have h4 : x > b := not_le.1 h3
      simp [h1, h2, h3, h4]

namespace Ctx
variable (c : Ctx)

theorem intAmp_eq (mf : ℝ) : c.intAmp mf = quartic ampJoin c.ampMid c.peak (c.insAmp ampJoin) (ampIntCol c.eta c.eta2 c.xi) (c.mrdAmp c.peak)
    (c.insDamp ampJoin) (c.mrdDamp c.peak) mf := by
  unfold intAmp withDelta quartic; ring

theorem intDamp_eq (mf : ℝ) : c.intDamp mf = quarticD ampJoin c.ampMid c.peak (c.insAmp ampJoin) (ampIntCol c.eta c.eta2 c.xi) (c.mrdAmp c.peak)
    (c.insDamp ampJoin) (c.mrdDamp c.peak) mf := by
  unfold intDamp withDelta quarticD; ring

/-- **C59.**  The intermediate amplitude meets the inspiral amplitude at `Mf = 0.014` and the merger-ringdown amplitude at the peak, in value and slope, and takes the collocation value midway. -/
theorem intAmp_joins (h : ampJoin < c.peak) :
    c.intAmp ampJoin = c.insAmp ampJoin ∧ c.intDamp ampJoin = c.insDamp ampJoin ∧ c.intAmp c.peak = c.mrdAmp c.peak ∧ c.intDamp c.peak = c.mrdDamp c.peak ∧
      c.intAmp ((ampJoin + c.peak) / 2) = ampIntCol c.eta c.eta2 c.xi := by
  have hm : c.ampMid = (ampJoin + c.peak) / 2 := by unfold ampMid; ring
  obtain ⟨q1, q2, q3, q4, q5⟩ := collocation ampJoin c.ampMid c.peak (c.insAmp ampJoin) (ampIntCol c.eta c.eta2 c.xi) (c.mrdAmp c.peak)
    (c.insDamp ampJoin) (c.mrdDamp c.peak) (by rw [hm]; linarith) h.ne (by rw [hm]; linarith)
  refine ⟨by rw [intAmp_eq, q1], by rw [intDamp_eq, q4], by rw [intAmp_eq, q3], by rw [intDamp_eq, q5], ?_⟩
  rw [← hm, intAmp_eq, q2]

/-- **C59.**  The pieces of the amplitude, by frequency. -/
theorem amp_eq (h : ampJoin < c.peak) (mf : ℝ) : c.amp mf = if mf ≤ ampJoin then c.insAmp mf else if mf ≤ c.peak then c.intAmp mf else c.mrdAmp mf :=
  masks _ _ _ _ _ _ h.le

theorem dAmp_eq (h : ampJoin < c.peak) (mf : ℝ) : c.dAmp mf = if mf ≤ ampJoin then c.insDamp mf else if mf ≤ c.peak then c.intDamp mf else c.mrdDamp mf :=
  masks _ _ _ _ _ _ h.le

/-- **C59.**  The amplitude of the whole waveform is differentiable at every positive frequency and its derivative is the second value returned. -/
theorem amp_deriv (h : ampJoin < c.peak) (hd : c.fDM * c.gamma3 ≠ 0) (mf : ℝ) (hmf : 0 < mf) : HasDerivAt c.amp (c.dAmp mf) mf := by
  obtain ⟨j1, j2, j3, j4, _⟩ := c.intAmp_joins h
  have e : c.amp = fun mf => if mf ≤ ampJoin then c.insAmp mf else if mf ≤ c.peak then c.intAmp mf else c.mrdAmp mf := funext (c.amp_eq h)
  rw [e, c.dAmp_eq h]
  refine glue _ _ _ (fun x => if x ≤ c.peak then c.intDamp x else c.mrdDamp x) _ (fun x hx _ => c.insAmp_deriv x hx) (fun x hx _ => ?_) ?_ ?_ mf hmf
  · exact glue _ _ _ _ _ (fun y _ _ => c.intAmp_deriv y) (fun y _ _ => c.mrdAmp_deriv y hd) j3 j4 x hx
  · rw [if_pos h.le, j1]
  · rw [if_pos h.le, j2]

/-- **C59.**  The slope is continuous too. -/
theorem dAmp_continuous (h : ampJoin < c.peak) (hd : c.fDM * c.gamma3 ≠ 0) : ContinuousOn c.dAmp (Set.Ioi 0) := by
  obtain ⟨j1, j2, j3, j4, _⟩ := c.intAmp_joins h
  have e : c.dAmp = fun mf => if mf ≤ ampJoin then c.insDamp mf else if mf ≤ c.peak then c.intDamp mf else c.mrdDamp mf := funext (c.dAmp_eq h)
  rw [e]
  have hL : ∀ y : ℝ, 0 < (y - c.fRD) * (y - c.fRD) + c.fDM * c.gamma3 * (c.fDM * c.gamma3) := fun y =>
    add_pos_of_nonneg_of_pos (mul_self_nonneg _) (mul_self_pos.2 hd)
  have hL2 : ∀ y : ℝ, 0 < (y - c.fRD) ^ 2 + c.fDM * c.gamma3 * (c.fDM * c.gamma3) := fun y =>
    add_pos_of_nonneg_of_pos (sq_nonneg _) (mul_self_pos.2 hd)
  have cm : Continuous c.mrdDamp := by
    unfold mrdDamp
    refine Continuous.div (Continuous.sub (Continuous.div (by fun_prop) (by fun_prop) fun y => (hL y).ne') continuous_const) (by fun_prop) fun y => ?_
    exact mul_ne_zero (Real.exp_pos _).ne' (hL2 y).ne'
  have ci : Continuous c.intDamp := by unfold intDamp; fun_prop
  have cs : ContinuousOn c.insDamp (Set.Ioi 0) := by
    unfold insDamp
    dsimp only
    have hr : ContinuousOn (fun y : ℝ => y ^ ((1 : ℝ) / 3)) (Set.Ioi 0) := fun y hy => (cbrt_deriv y hy).continuousAt.continuousWithinAt
    have hne : ∀ y ∈ Set.Ioi (0 : ℝ), y ^ ((1 : ℝ) / 3) ≠ 0 := fun y hy => (Real.rpow_pos_of_pos hy _).ne'
    have h1 := (continuousOn_const (c := (2 / 3 : ℝ))).div hr hne
    fun_prop
  have cim : Continuous fun mf => if mf ≤ c.peak then c.intDamp mf else c.mrdDamp mf :=
    Continuous.if_le ci cm continuous_id continuous_const (fun x hx => by rw [show x = c.peak from hx, j4])
  refine ContinuousOn.if ?_ ?_ ?_
  · rintro a ⟨_, ha⟩
    have : a = ampJoin := by
      have := frontier_Iic_subset ampJoin (by simpa [Set.Iic] using ha)
      simpa using this
    subst this
    rw [if_pos h.le, j2]
  · exact cs.mono Set.inter_subset_left
  · exact cim.continuousOn

/-- The derivative of the assembled phase: the pieces' derivatives with the constants that align them. -/
noncomputable def phaseSlope (mf : ℝ) : ℝ :=
  if mf ≤ phiJoin then c.insDphase mf else if mf ≤ c.rdJoin then c.intDphase mf + c.c2Int else c.mrdDphase mf + c.c2Mrd

/-- **C59.**  The pieces of the phase, by frequency. -/
theorem phase_eq (h : phiJoin < c.rdJoin) (mf : ℝ) :
    c.phase mf = if mf ≤ phiJoin then c.insPhase mf else if mf ≤ c.rdJoin then c.intPhase mf / c.eta + c.c1Int + mf * c.c2Int
      else c.mrdPhase mf / c.eta + c.c1Mrd + mf * c.c2Mrd :=
  masks _ _ _ _ _ _ h.le

theorem dPhase_eq (h : phiJoin < c.rdJoin) (mf : ℝ) :
    c.dPhase mf = if mf ≤ phiJoin then c.insDphase mf else if mf ≤ c.rdJoin then c.intDphase mf else c.mrdDphase mf :=
  masks _ _ _ _ _ _ h.le

/-- **C59.**  The assembled phase is differentiable at every positive frequency, with slope `phaseSlope`: values and slopes agree at both joins. -/
theorem phase_deriv (h : phiJoin < c.rdJoin) (hd : c.fDM ≠ 0) (h1 : 0 < c.m1) (h2 : 0 < c.m2) (mf : ℝ) (hmf : 0 < mf) :
    HasDerivAt c.phase (c.phaseSlope mf) mf := by
  have e : c.phase = fun mf => if mf ≤ phiJoin then c.insPhase mf else if mf ≤ c.rdJoin then c.intPhase mf / c.eta + c.c1Int + mf * c.c2Int
      else c.mrdPhase mf / c.eta + c.c1Mrd + mf * c.c2Mrd := funext (c.phase_eq h)
  rw [e]
  unfold phaseSlope
  refine glue _ _ _ (fun x => if x ≤ c.rdJoin then c.intDphase x + c.c2Int else c.mrdDphase x + c.c2Mrd) _
    (fun x hx _ => c.insPhase_deriv x hx h1 h2) (fun x hx _ => ?_) ?_ ?_ mf hmf
  · refine glue _ _ (fun x => c.intDphase x + c.c2Int) (fun x => c.mrdDphase x + c.c2Mrd) _ (fun y hy _ => ?_) (fun y hy _ => ?_) ?_ ?_ x hx
    · exact (((c.intPhase_deriv y hy).add_const _).add ((hasDerivAt_id' y).mul_const c.c2Int)).congr_deriv (by ring)
    · exact (((c.mrdPhase_deriv y hy hd).add_const _).add ((hasDerivAt_id' y).mul_const c.c2Mrd)).congr_deriv (by ring)
    · unfold c1Mrd; ring
    · unfold c2Mrd; ring
  · rw [if_pos h.le]; unfold c1Int; ring
  · rw [if_pos h.le]; unfold c2Int; ring

/-- **C59.**  The slope of the assembled phase is continuous. -/
theorem phaseSlope_continuous (h : phiJoin < c.rdJoin) (hd : c.fDM ≠ 0) : ContinuousOn c.phaseSlope (Set.Ioi 0) := by
  have hp : ∀ p : ℝ, ContinuousOn (fun y : ℝ => y ^ p) (Set.Ioi 0) := fun p =>
    continuousOn_id.rpow_const fun y hy => Or.inl (ne_of_gt hy)
  have cv : ContinuousOn Bin.v (Set.Ioi 0) := by
    unfold Bin.v
    exact (continuousOn_const.mul continuousOn_id).rpow_const fun y hy => Or.inl (mul_pos Real.pi_pos hy).ne'
  have hv : ∀ y ∈ Set.Ioi (0 : ℝ), Bin.v y ≠ 0 := fun y hy => (Bin.v_pos y hy).ne'
  have clv : ContinuousOn (fun y => Real.log (Bin.v y)) (Set.Ioi 0) := cv.log hv
  have cs : ContinuousOn c.insDphase (Set.Ioi 0) := by
    have ht : ContinuousOn c.bin.dPhasing (Set.Ioi 0) := by
      unfold Bin.dPhasing
      refine ContinuousOn.mul (ContinuousOn.mul (ContinuousOn.div ?_ ?_ fun y hy => ?_) continuousOn_const) continuousOn_const
      · fun_prop
      · fun_prop
      · have := hv y hy
        positivity
    have h3 : ContinuousOn c.dSs3 (Set.Ioi 0) := by
      unfold dSs3
      refine ContinuousOn.mul (ContinuousOn.div ?_ ?_ fun y hy => ?_) continuousOn_const
      · fun_prop
      · fun_prop
      · have := hv y hy
        positivity
    unfold insDphase
    have := hp (1 / 3)
    have := hp (2 / 3)
    fun_prop
  have ci : ContinuousOn c.intDphase (Set.Ioi 0) := by
    unfold intDphase
    have := hp (-4)
    have := hp (-1)
    fun_prop
  have cm : ContinuousOn c.mrdDphase (Set.Ioi 0) := by
    unfold mrdDphase
    have := hp (-1 / 4)
    have := hp (-2)
    have hq : ContinuousOn (fun y => alpha4 c.eta c.eta2 c.xi * c.fDM / ((y - alpha5 c.eta c.eta2 c.xi * c.fRD) ^ 2 + c.fDM ^ 2)) (Set.Ioi 0) := by
      refine ContinuousOn.div (by fun_prop) (by fun_prop) fun y _ => ?_
      positivity
    fun_prop
  unfold phaseSlope
  refine ContinuousOn.if ?_ ?_ ?_
  · rintro a ⟨_, ha⟩
    have : a = phiJoin := by
      have := frontier_Iic_subset phiJoin (by simpa [Set.Iic] using ha)
      simpa using this
    subst this
    rw [if_pos h.le]; unfold c2Int; ring
  · exact cs.mono Set.inter_subset_left
  · refine ContinuousOn.mono ?_ Set.inter_subset_left
    refine ContinuousOn.if ?_ ?_ ?_
    · rintro a ⟨_, ha⟩
      have : a = c.rdJoin := by
        have := frontier_Iic_subset c.rdJoin (by simpa [Set.Iic] using ha)
        simpa using this
      subst this
      unfold c2Mrd; ring
    · exact (ci.add continuousOn_const).mono Set.inter_subset_left
    · exact (cm.add continuousOn_const).mono Set.inter_subset_left

/-- **C59.**  What the phase routine returns beside the phase is its slope below `Mf = 0.018`, and differs from the slope by an alignment constant above. -/
theorem dPhase_slope (h : phiJoin < c.rdJoin) (mf : ℝ) :
    c.phaseSlope mf = c.dPhase mf + if mf ≤ phiJoin then 0 else if mf ≤ c.rdJoin then c.c2Int else c.c2Mrd := by
  rw [c.dPhase_eq h]
  unfold phaseSlope
  split_ifs <;> ring

/-- **C59.**  The post-Newtonian part of the inspiral phase is the TaylorF2 phase without the 3PN terms quadratic in the spins. -/
theorem ss3_removes (mf : ℝ) (h : 0 < mf) (h1 : 0 < c.m1) (h2 : 0 < c.m2) (he : c.eta = PNSpec.eta c.m1 c.m2) :
    c.bin.phasing mf - c.ss3 mf =
      let η := PNSpec.eta c.m1 c.m2
      let δ := PNSpec.delta c.m1 c.m2
      let s := PNSpec.chiS c.chi1 c.chi2
      let a := PNSpec.chiA c.chi1 c.chi2
      PNSpec.phase c.m1 c.m2 c.chi1 c.chi2 (Bin.v mf) - 3 / (128 * η) * Bin.v mf *
        ((75515 / 144 - 8225 / 18 * η) * δ * a * s + (75515 / 288 - 263245 / 252 * η - 480 * η ^ 2) * a ^ 2
          + (75515 / 288 - 232415 / 504 * η + 1255 / 9 * η ^ 2) * s ^ 2) := by
  have hb : c.bin.Valid := ⟨h1, h2⟩
  have hv := Bin.v_pos mf h
  rw [Bin.phasing_eq hb mf h]
  dsimp only
  obtain ⟨f1, f2, f3, f4⟩ := Bin.fractions hb
  have hη : PNSpec.eta c.m1 c.m2 = c.bin.x1 * (1 - c.bin.x1) := f3.trans f2
  have hδ : PNSpec.delta c.m1 c.m2 = 2 * c.bin.x1 - 1 := f4
  unfold ss3 pnSS3 PNSpec.chiS PNSpec.chiA
  rw [he, show c.m1 / (c.m1 + c.m2) = c.bin.x1 from rfl, show c.m2 / (c.m1 + c.m2) = c.bin.x2 from rfl, f1, hη, hδ]
  change PNSpec.phase c.m1 c.m2 c.chi1 c.chi2 _ - _ = _
  generalize PNSpec.phase c.m1 c.m2 c.chi1 c.chi2 (Bin.v mf) = P
  generalize 3 / (128 * (c.bin.x1 * (1 - c.bin.x1))) = k
  generalize c.bin.x1 = x
  generalize Bin.v mf = v at *
  have : ∀ p : ℝ, v ^ 6 * p / v ^ 5 * k = v * k * p := fun p => by field_simp
  rw [this]
  ring

end Ctx
end Verif.PhenomD
