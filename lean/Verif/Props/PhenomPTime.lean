import Verif.Props.PhenomPvsD
import Mathlib.Analysis.Calculus.MeanValue
/-!
# C73: the time of coalescence

The strain of the aligned-spin core is `|h| exp(-i Ψ(f))` with `Ψ(f) = phase(M f) + f · diffRD + f M tc + const`.
-/
namespace Verif.PhenomP
open CbcUtils TaylorF2 PhenomD PhenomPSpec ConvSpec
open Conversion hiding mtsun

/-- A mean of two mean slopes is a slope in between. -/
theorem mean_slopes (g g' : ℝ → ℝ) (a b c d : ℝ) (hab : a < b) (hbc : b < c) (hcd : c < d) (hg : ∀ x ∈ Set.Icc a d, HasDerivAt g (g' x) x) (hc : ContinuousOn g' (Set.Icc a d)) :
    ∃ x ∈ Set.Icc a d, g' x = ((g c - g a) / (c - a) + (g d - g b) / (d - b)) / 2 := by
  have sub : ∀ u v, a ≤ u → v ≤ d → Set.Icc u v ⊆ Set.Icc a d := fun u v h1 h2 x hx => ⟨h1.trans hx.1, hx.2.trans h2⟩
  obtain ⟨x, hx, ex⟩ := exists_hasDerivAt_eq_slope g g' (hab.trans hbc)
    (fun y hy => (hg y (sub a c le_rfl hcd.le hy)).continuousAt.continuousWithinAt) (fun y hy => hg y (sub a c le_rfl hcd.le (Set.Ioo_subset_Icc_self hy)))
  obtain ⟨y, hy, ey⟩ := exists_hasDerivAt_eq_slope g g' (hbc.trans hcd)
    (fun y hy => (hg y (sub b d hab.le le_rfl hy)).continuousAt.continuousWithinAt) (fun y hy => hg y (sub b d hab.le le_rfl (Set.Ioo_subset_Icc_self hy)))
  have hx' : x ∈ Set.Icc a d := sub a c le_rfl hcd.le (Set.Ioo_subset_Icc_self hx)
  have hy' : y ∈ Set.Icc a d := sub b d hab.le le_rfl (Set.Ioo_subset_Icc_self hy)
  rw [← ex, ← ey]
  have hu : Set.uIcc x y ⊆ Set.Icc a d := Set.uIcc_subset_Icc hx' hy'
  have key := intermediate_value_uIcc (hc.mono hu)
  have hm : (g' x + g' y) / 2 ∈ Set.uIcc (g' x) (g' y) := by
    rw [Set.mem_uIcc]
    rcases le_total (g' x) (g' y) with h | h
    · left; constructor <;> linarith
    · right; constructor <;> linarith
  obtain ⟨z, hz, ez⟩ := key hm
  exact ⟨z, hu hz, ez⟩

/-- **C73.**  The time shift applied to the waveform makes its phase stationary at a frequency within 0.07% of the ringdown frequency. -/
theorem phase_stationary (p : Par) (h : PhysicalP p) :
    let c := ctxOfP p (rdOfP p)
    let ms := total p * mtsun
    let fRD := (rdOfP p).1
    0 < fRD ∧ ∃ x, |x / fRD - 1| ≤ 0.0007 ∧ HasDerivAt (fun f => c.phase (ms * f) + f * diffRD c ms fRD) 0 x := by
  intro c ms fRD
  have hc : Good c := goodP p h
  obtain ⟨j1, j2, j3, j4⟩ := hc.joins
  have hms : 0 < ms := by
    obtain ⟨a, b, _⟩ := masses_ordered p h.ord
    exact mul_pos (by unfold total; linarith) mtsun_pos
  have hcf : c.fRD = ms * fRD := rfl
  have hfR : 0 < fRD := by
    have h1 : 0 < c.fRD := by
      have := hc.rd
      unfold Ctx.phiJoin Ctx.rdJoin at j2
      nlinarith
    rw [hcf] at h1
    exact (mul_pos_iff_of_pos_left hms).1 h1
  refine ⟨hfR, ?_⟩
  have hd : ∀ x, 0 < x → HasDerivAt (fun f => c.phase (ms * f)) (c.phaseSlope (ms * x) * ms) x := by
    intro x hx
    have k := Ctx.phase_deriv c j2 j3 hc.m1 hc.m2 (ms * x) (mul_pos hms hx)
    exact (HasDerivAt.comp x k ((hasDerivAt_id' x).const_mul ms)).congr_deriv (by rw [mul_one])
  have hcont : ContinuousOn (fun x => c.phaseSlope (ms * x) * ms) (Set.Ioi 0) :=
    ((Ctx.phaseSlope_continuous c j2 j3).comp (by fun_prop) (fun x hx => mul_pos hms hx)).mul continuousOn_const
  have hg0 : 0 < rdGrid fRD 498 := by unfold rdGrid; exact mul_pos hfR (by norm_num)
  have step : ∀ i : ℕ, rdGrid fRD i < rdGrid fRD (i + 1) := by
    intro i
    unfold rdGrid
    apply mul_lt_mul_of_pos_left _ hfR
    push_cast
    norm_num
  have hsub : Set.Icc (rdGrid fRD 498) (rdGrid fRD 501) ⊆ Set.Ioi 0 := fun x hx => hg0.trans_le hx.1
  obtain ⟨x, hx, ex⟩ := mean_slopes (fun f => c.phase (ms * f)) (fun x => c.phaseSlope (ms * x) * ms) (rdGrid fRD 498) (rdGrid fRD 499) (rdGrid fRD 500) (rdGrid fRD 501)
    (step _) (step _) (step _) (fun x hx => hd x (hsub hx)) (hcont.mono hsub)
  refine ⟨x, ?_, ?_⟩
  · have e1 : fRD * (1 - 0.0007) ≤ rdGrid fRD 498 := by unfold rdGrid; apply mul_le_mul_of_nonneg_left _ hfR.le; norm_num
    have e2 : rdGrid fRD 501 ≤ fRD * (1 + 0.0007) := by unfold rdGrid; apply mul_le_mul_of_nonneg_left _ hfR.le; norm_num
    have e3 : 1 - 0.0007 ≤ x / fRD := by rw [le_div_iff₀ hfR]; linarith [hx.1]
    have e4 : x / fRD ≤ 1 + 0.0007 := by rw [div_le_iff₀ hfR]; linarith [hx.2]
    rw [abs_le]
    constructor <;> linarith
  · have hdiff : diffRD c ms fRD = -(c.phaseSlope (ms * x) * ms) := by
      rw [ex]
      unfold diffRD rdSlope
      dsimp only
      have g1 : rdGrid fRD 500 - rdGrid fRD 498 = 2 * ((1.2 * fRD - 0.8 * fRD) / (1000 - 1)) := by unfold rdGrid; push_cast; ring
      have g2 : rdGrid fRD 501 - rdGrid fRD 499 = 2 * ((1.2 * fRD - 0.8 * fRD) / (1000 - 1)) := by unfold rdGrid; push_cast; ring
      rw [g1, g2]
      ring
    refine HasDerivAt.congr_deriv (HasDerivAt.add (hd x (hsub hx)) ((hasDerivAt_id' x).mul_const (diffRD c ms fRD))) ?_
    rw [hdiff]
    ring

theorem tc_gen (p : Par) (t f : ℝ) (e : Elem) :
    let k := Complex.exp (-Complex.I * ((f * ((e.m1 + e.m2) * mtsun) * t : ℝ) : ℂ))
    polarizations { p with tc := t } e f = (k * (polarizations { p with tc := 0 } e f).1, k * (polarizations { p with tc := 0 } e f).2) := by
  intro k
  have hk : Complex.exp (-Complex.I * (f : ℂ) * (((e.m1 + e.m2) * mtsun : ℝ) : ℂ) * (t : ℂ)) = k := by
    show _ = Complex.exp _
    congr 1
    push_cast
    ring
  have hz : Complex.exp (-Complex.I * (f : ℂ) * (((e.m1 + e.m2) * mtsun : ℝ) : ℂ) * ((0 : ℝ) : ℂ)) = 1 := by
    rw [Complex.ofReal_zero, mul_zero, Complex.exp_zero]
  unfold polarizations
  dsimp only
  rw [hk, hz]
  refine Prod.ext ?_ ?_
  all_goals
    dsimp only
    ring

/-- **C73.**  The dependence on the coalescence time: a factor `exp(-i f M tc)`, `M` the total mass in seconds. -/
theorem tc_law (p : Par) (t fRef f : ℝ) (rd : ℝ × ℝ) :
    let k := Complex.exp (-Complex.I * ((f * (total p * mtsun) * t : ℝ) : ℂ))
    let r := polarizations { p with tc := 0 } (elemOf { p with tc := 0 } fRef rd) f
    polarizations { p with tc := t } (elemOf { p with tc := t } fRef rd) f = (k * r.1, k * r.2) := tc_gen p t f (elemOf p fRef rd)

/-- **C73, finding.**  `tc` is not a delay in seconds, which would be the factor `exp(-2πi f tc)`: for every binary whose total mass is not `2π` seconds and every non-zero `tc` some
frequency tells the two apart. -/
theorem tc_not_seconds (p : Par) (t : ℝ) (ht : t ≠ 0) (hm : total p * mtsun ≠ 2 * Real.pi) :
    ∃ f, 0 < f ∧ Complex.exp (-Complex.I * ((f * (total p * mtsun) * t : ℝ) : ℂ)) ≠ Complex.exp (-Complex.I * ((2 * Real.pi * f * t : ℝ) : ℂ)) := by
  have hpi := Real.pi_pos
  set u := (2 * Real.pi - total p * mtsun) * t with hu
  have hu0 : u ≠ 0 := mul_ne_zero (sub_ne_zero.2 (Ne.symm hm)) ht
  refine ⟨Real.pi / |u|, by positivity, ?_⟩
  intro h
  have k : Complex.exp (Complex.I * ((Real.pi / |u| * u : ℝ) : ℂ)) = 1 := by
    have e : Complex.I * ((Real.pi / |u| * u : ℝ) : ℂ) = -Complex.I * ((Real.pi / |u| * (total p * mtsun) * t : ℝ) : ℂ) - -Complex.I * ((2 * Real.pi * (Real.pi / |u|) * t : ℝ) : ℂ) := by
      rw [hu]; push_cast; ring
    rw [e, Complex.exp_sub, h, div_self (Complex.exp_ne_zero _)]
  have hr := congrArg Complex.re k
  rw [mul_comm, Complex.exp_ofReal_mul_I_re, Complex.one_re] at hr
  rcases lt_or_gt_of_ne hu0 with hneg | hpos
  · rw [abs_of_neg hneg, show Real.pi / -u * u = -Real.pi by field_simp, Real.cos_neg, Real.cos_pi] at hr
    norm_num at hr
  · rw [abs_of_pos hpos, div_mul_cancel₀ _ hu0, Real.cos_pi] at hr
    norm_num at hr

/-- **C73, finding.**  What is applied is a delay of `M tc / (2π)` seconds. -/
theorem tc_seconds (p : Par) (t f : ℝ) :
    Complex.exp (-Complex.I * ((f * (total p * mtsun) * t : ℝ) : ℂ)) = Complex.exp (-Complex.I * ((2 * Real.pi * f * (total p * mtsun * t / (2 * Real.pi)) : ℝ) : ℂ)) := by
  have hpi := Real.pi_pos
  congr 3
  field_simp

/-- **C68.**  The strain falls off as the inverse luminosity distance. -/
theorem distance_law (p : Par) (d k fRef f : ℝ) (rd : ℝ × ℝ) :
    let r := polarizations { p with distance := d } (elemOf { p with distance := d } fRef rd) f
    polarizations { p with distance := k * d } (elemOf { p with distance := k * d } fRef rd) f = (r.1 / (k : ℂ), r.2 / (k : ℂ)) := by
  intro r
  have hh : ∀ (c : Ctx) (m phi : ℝ), hPhenom c m phi (k * d) f = hPhenom c m phi d f / (k : ℂ) := by
    intro c m phi
    unfold hPhenom
    dsimp only
    rw [mul_assoc k d, show ∀ x y : ℝ, x / (k * y) = x / y / k from fun x y => by rw [div_div, mul_comm], Complex.ofReal_div _ k]
    ring
  show polarizations { p with distance := k * d } (elemOf p fRef rd) f = ((polarizations { p with distance := d } (elemOf p fRef rd) f).1 / (k : ℂ),
    (polarizations { p with distance := d } (elemOf p fRef rd) f).2 / (k : ℂ))
  unfold polarizations twistUp
  dsimp only
  rw [hh]
  generalize hPhenom _ _ _ _ _ = H
  generalize Complex.exp (-2 * Complex.I * _) = E
  generalize twist _ _ _ = T
  refine Prod.ext ?_ ?_
  all_goals
    dsimp only
    ring

/-! ## Concrete cases -/

example : let c := ctxOfP exPar (rdOfP exPar)
    0 < (rdOfP exPar).1 ∧ ∃ x, |x / (rdOfP exPar).1 - 1| ≤ 0.0007 ∧
      HasDerivAt (fun f => c.phase (total exPar * mtsun * f) + f * diffRD c (total exPar * mtsun) (rdOfP exPar).1) 0 x := phase_stationary exPar exPar_physical

/-- One second for 30 solar masses is a delay of less than 40 microseconds. -/
example : total exPar * mtsun * 1 / (2 * Real.pi) < 4e-5 := by
  have hm : total exPar = 30 := by unfold total; rw [exPar_masses.1, exPar_masses.2]; norm_num
  have hpi := Real.one_le_pi_div_two
  rw [hm, div_lt_iff₀ (by positivity)]
  show 30 * Conversion.mtsun * 1 < _
  unfold Conversion.mtsun
  norm_num at hpi ⊢
  linarith

end Verif.PhenomP
