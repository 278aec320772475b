import Verif.Props.PhenomPForward
import Verif.Props.PhenomPAligned
import Mathlib.Analysis.SpecialFunctions.Trigonometric.Angle
/-!
# Turning the spins and the observer about the orbital axis (C88)
-/
set_option linter.unusedSimpArgs false
namespace Verif.PhenomP
open CbcUtils TaylorF2 PhenomD PhenomPSpec
open Conversion hiding mtsun

/-- The same binary with both spins turned by `d` about the orbital angular momentum, seen by an observer turned by the same angle: the line of sight has the azimuth
`π/2 - phic`. -/
noncomputable def turned (p : Par) (d : ℝ) : Par := { p with s1 := rotateZ d p.s1, s2 := rotateZ d p.s2, phic := p.phic - d }

/-- The azimuth of a turned vector, up to whole turns. -/
theorem atan2_turn (d x y : ℝ) (h : x ≠ 0 ∨ y ≠ 0) :
    Real.cos (atan2 (x * Real.sin d + y * Real.cos d) (x * Real.cos d - y * Real.sin d)) = Real.cos (atan2 y x + d) ∧
      Real.sin (atan2 (x * Real.sin d + y * Real.cos d) (x * Real.cos d - y * Real.sin d)) = Real.sin (atan2 y x + d) := by
  have hz : (⟨x, y⟩ : ℂ) ≠ 0 := by
    intro hc
    rcases h with h | h
    · exact h (congrArg Complex.re hc)
    · exact h (congrArg Complex.im hc)
  have hm : (⟨x * Real.cos d - y * Real.sin d, x * Real.sin d + y * Real.cos d⟩ : ℂ) = ⟨x, y⟩ * Complex.exp (d * Complex.I) := by
    apply Complex.ext
    · rw [Complex.mul_re, Complex.exp_ofReal_mul_I_re, Complex.exp_ofReal_mul_I_im]
    · rw [Complex.mul_im, Complex.exp_ofReal_mul_I_re, Complex.exp_ofReal_mul_I_im]
  have hn : ‖(⟨x * Real.cos d - y * Real.sin d, x * Real.sin d + y * Real.cos d⟩ : ℂ)‖ = ‖(⟨x, y⟩ : ℂ)‖ := by
    rw [hm, norm_mul, Complex.norm_exp_ofReal_mul_I, mul_one]
  have hz' : (⟨x * Real.cos d - y * Real.sin d, x * Real.sin d + y * Real.cos d⟩ : ℂ) ≠ 0 := by
    rw [← norm_ne_zero_iff, hn, norm_ne_zero_iff]; exact hz
  have hr : ‖(⟨x, y⟩ : ℂ)‖ ≠ 0 := norm_ne_zero_iff.2 hz
  unfold atan2
  rw [Real.cos_add, Real.sin_add, Complex.cos_arg hz', Complex.cos_arg hz, Complex.sin_arg, Complex.sin_arg, hn]
  constructor
  · field_simp
  · field_simp
    ring

theorem turn_back (a d : ℝ) (a' : ℝ) (hc : Real.cos a' = Real.cos (a + d)) (hs : Real.sin a' = Real.sin (a + d)) (v : Vec) :
    rotateZ (-a') (rotateZ d v) = rotateZ (-a) v := by
  have e := Real.cos_sq_add_sin_sq d
  rw [Real.cos_add] at hc
  rw [Real.sin_add] at hs
  unfold rotateZ
  simp only [Real.cos_neg, Real.sin_neg, hc, hs, Vec.mk.injEq, and_true]
  constructor
  · linear_combination (v.x * Real.cos a + v.y * Real.sin a) * e
  · linear_combination (-v.x * Real.sin a + v.y * Real.cos a) * e

theorem totalJ_turn (m1 m2 fRef d : ℝ) (s1 s2 : Vec) : totalJ m1 m2 fRef (rotateZ d s1) (rotateZ d s2) = rotateZ d (totalJ m1 m2 fRef s1 s2) := by
  unfold totalJ rotateZ
  simp only [Vec.mk.injEq, and_true]
  constructor <;> ring

theorem chip_turn (m1 m2 d : ℝ) (s1 s2 : Vec) : chipOf m1 m2 (rotateZ d s1) (rotateZ d s2) = chipOf m1 m2 s1 s2 := by
  have e := Real.cos_sq_add_sin_sq d
  have h : ∀ v : Vec, (rotateZ d v).x ^ 2 + (rotateZ d v).y ^ 2 = v.x ^ 2 + v.y ^ 2 := by
    intro v; unfold rotateZ; dsimp only; linear_combination (v.x ^ 2 + v.y ^ 2) * e
  unfold chipOf
  simp only [h]

/-- The geometry of the turned binary: only the orbital phase differs. -/
theorem convert_turn (m1 m2 fRef phic incl d : ℝ) (s1 s2 : Vec) (h : (totalJ m1 m2 fRef s1 s2).x ≠ 0 ∨ (totalJ m1 m2 fRef s1 s2).y ≠ 0) :
    ∃ k : ℤ, convertSpins m1 m2 fRef (phic - d) incl (rotateZ d s1) (rotateZ d s2) =
      { convertSpins m1 m2 fRef phic incl s1 s2 with phiAligned := (convertSpins m1 m2 fRef phic incl s1 s2).phiAligned - d - 2 * Real.pi * k } := by
  obtain ⟨hc, hs⟩ := atan2_turn d _ _ h
  have e := Real.cos_sq_add_sin_sq d
  unfold convertSpins
  dsimp only
  rw [totalJ_turn, chip_turn]
  generalize totalJ m1 m2 fRef s1 s2 = j at *
  have hz : (rotateZ d j).z = j.z := rfl
  have hn : (rotateZ d j).x * (rotateZ d j).x + (rotateZ d j).y * (rotateZ d j).y + j.z * j.z = j.x * j.x + j.y * j.y + j.z * j.z := by
    unfold rotateZ; dsimp only; linear_combination (j.x ^ 2 + j.y ^ 2) * e
  rw [hz, hn]
  have hx : (rotateZ d j).x = j.x * Real.cos d - j.y * Real.sin d := rfl
  have hy : (rotateZ d j).y = j.x * Real.sin d + j.y * Real.cos d := rfl
  rw [hx, hy]
  generalize atan2 (j.x * Real.sin d + j.y * Real.cos d) (j.x * Real.cos d - j.y * Real.sin d) = a' at *
  generalize atan2 j.y j.x = a at *
  obtain ⟨k, hk⟩ := Real.Angle.angle_eq_iff_two_pi_dvd_sub.1 (Real.Angle.cos_sin_inj hc hs)
  refine ⟨k, ?_⟩
  have t1 : (⟨Real.sin incl * Real.cos (Real.pi / 2 - (phic - d)), Real.sin incl * Real.sin (Real.pi / 2 - (phic - d)), Real.cos incl⟩ : Vec) =
      rotateZ d ⟨Real.sin incl * Real.cos (Real.pi / 2 - phic), Real.sin incl * Real.sin (Real.pi / 2 - phic), Real.cos incl⟩ := by
    unfold rotateZ
    rw [Real.cos_pi_div_two_sub, Real.sin_pi_div_two_sub, Real.cos_pi_div_two_sub, Real.sin_pi_div_two_sub, Real.sin_sub, Real.cos_sub]
    simp only [Vec.mk.injEq, and_true]
    constructor <;> ring
  have t2 : (⟨-Real.cos incl * Real.sin (phic - d), -Real.cos incl * Real.cos (phic - d), Real.sin incl⟩ : Vec) =
      rotateZ d ⟨-Real.cos incl * Real.sin phic, -Real.cos incl * Real.cos phic, Real.sin incl⟩ := by
    unfold rotateZ
    rw [Real.sin_sub, Real.cos_sub]
    simp only [Vec.mk.injEq, and_true]
    constructor <;> ring
  have t3 : rotateZ (-a') ⟨0, 0, 1⟩ = rotateZ (-a) ⟨0, 0, 1⟩ := by unfold rotateZ; simp
  rw [t1, t2, t3]
  simp only [turn_back a d a' hc hs]
  congr 1
  linarith

theorem light_turned (p : Par) (d : ℝ) : light (turned p d) = light p ∧ heavy (turned p d) = heavy p ∧ total (turned p d) = total p := ⟨rfl, rfl, rfl⟩

theorem rd_turned (p : Par) (d : ℝ) : rdP (turned p d) = rdP p := by
  unfold rdP
  have : chipOf (light (turned p d)) (heavy (turned p d)) (turned p d).s2 (turned p d).s1 = chipOf (light p) (heavy p) p.s2 p.s1 := chip_turn _ _ _ _ _
  rw [this]
  rfl

/-- The total angular momentum of a binary at the reference frequency, in the source frame. -/
noncomputable def jOf (p : Par) (fRef : ℝ) : Vec := totalJ (light p) (heavy p) fRef p.s2 p.s1

/-- **C88.**  If the total angular momentum has a component in the orbital plane, turning both spins and the observer by `d` about the orbital axis multiplies both
polarizations at every frequency by `exp(-2 i d)`: the only trace is the orbital phase, which the turn leaves behind. -/
theorem polarizations_turned (p : Par) (d fRef f : ℝ) (rd : ℝ × ℝ) (h : (jOf p fRef).x ≠ 0 ∨ (jOf p fRef).y ≠ 0) :
    polarizations (turned p d) (elemOf (turned p d) fRef rd) f =
      (Complex.exp (-2 * Complex.I * (d : ℂ)) * (polarizations p (elemOf p fRef rd) f).1, Complex.exp (-2 * Complex.I * (d : ℂ)) * (polarizations p (elemOf p fRef rd) f).2) := by
  obtain ⟨k, hk⟩ := convert_turn (light p) (heavy p) fRef p.phic p.inclination d p.s2 p.s1 h
  have hg : geom (turned p d) fRef = { geom p fRef with phiAligned := (geom p fRef).phiAligned - d - 2 * Real.pi * k } := hk
  have hh : hAt (turned p d) fRef rd f = Complex.exp (-2 * Complex.I * (d : ℂ)) * hAt p fRef rd f := by
    unfold hAt
    rw [hg]
    unfold hPhenom
    dsimp only
    have hctx : ctxOfP (turned p d) rd = ctxOfP p rd := rfl
    have ht : total (turned p d) = total p := rfl
    have hd : (turned p d).distance = p.distance := rfl
    rw [hctx, ht, hd]
    have e1 : Complex.exp (-Complex.I * (((ctxOfP p rd).phase (total p * mtsun * f) - (2 * ((geom p fRef).phiAligned - d - 2 * Real.pi * k) + Real.pi / 4) : ℝ) : ℂ)) =
        Complex.exp (-2 * Complex.I * (d : ℂ)) * Complex.exp (-Complex.I * (((ctxOfP p rd).phase (total p * mtsun * f) - (2 * (geom p fRef).phiAligned + Real.pi / 4) : ℝ) : ℂ)) := by
      rw [← Complex.exp_add]
      refine Complex.exp_eq_exp_iff_exists_int.2 ⟨-2 * k, ?_⟩
      push_cast
      ring
    rw [e1]
    ring
  have ha : alphaAt (turned p d) fRef f = alphaAt p fRef f := by
    unfold alphaAt; rw [hg]; rfl
  have he : epsAt (turned p d) fRef f = epsAt p fRef f := by
    unfold epsAt; rw [hg]; rfl
  have hb : betaAt (turned p d) fRef f = betaAt p fRef f := by
    unfold betaAt tanAt; rw [hg]; rfl
  have hs : shift (turned p d) rd f = shift p rd f := rfl
  rw [polarizations_eq (turned p d) fRef f rd _ rfl _ rfl _ _ rfl rfl, polarizations_eq p fRef f rd _ rfl _ rfl _ _ rfl rfl, ha, he, hb, hs, hh, hg]
  dsimp only
  refine Prod.ext ?_ ?_ <;> dsimp only <;> ring

/-- **C88 (the whole batch).**  For a batch of physical binaries with angular momenta off the orbital axis, turning every spin and observer multiplies the whole result
by `exp(-2 i d)`. -/
theorem forward_turned (fs : List ℝ) (ps : List Par) (d fRef : ℝ) (h : ∀ p ∈ ps, PhysicalP p) (hj : ∀ p ∈ ps, (jOf p fRef).x ≠ 0 ∨ (jOf p fRef).y ≠ 0) :
    ∃ c s, forward fs ps fRef = .ok (c, s) ∧ forward fs (ps.map fun p => turned p d) fRef =
      .ok (c.map fun r => r.map fun z => Complex.exp (-2 * Complex.I * (d : ℂ)) * z, s.map fun r => r.map fun z => Complex.exp (-2 * Complex.I * (d : ℂ)) * z) := by
  refine ⟨_, _, forward_ok fs ps fRef h, ?_⟩
  unfold forward
  rw [List.mapM_map]
  rw [mapM_ok ((fun q => (elem q fRef).map fun e => (q, e)) ∘ fun p => turned p d) (fun p => (turned p d, elemOf (turned p d) fRef (rdOfP p))) ps (by
    intro p hp
    have : rdP (turned p d) = .ok (rdOfP p) := by rw [rd_turned, ringdown_physical p (h p hp)]
    rw [Function.comp_apply, elem_ok (turned p d) fRef (rdOfP p) this]
    rfl)]
  simp only [res_bind_ok, List.map_map]
  refine congrArg Except.ok (Prod.ext ?_ ?_)
  · refine List.map_congr_left fun p hp => ?_
    simp only [Function.comp_apply, List.map_map]
    refine List.map_congr_left fun f _ => ?_
    rw [polarizations_turned p d fRef f _ (hj p hp)]
    rfl
  · refine List.map_congr_left fun p hp => ?_
    simp only [Function.comp_apply, List.map_map]
    refine List.map_congr_left fun f _ => ?_
    rw [polarizations_turned p d fRef f _ (hj p hp)]
    rfl

/-! ## The hypotheses can be met -/

example (d : ℝ) : ∃ c s, forward [20, 30.5] [exPar] 20 = .ok (c, s) ∧ forward [20, 30.5] [turned exPar d] 20 =
    .ok (c.map fun r => r.map fun z => Complex.exp (-2 * Complex.I * (d : ℂ)) * z, s.map fun r => r.map fun z => Complex.exp (-2 * Complex.I * (d : ℂ)) * z) := by
  refine forward_turned [20, 30.5] [exPar] d 20 (by intro p hp; simp at hp; rw [hp]; exact exPar_physical) ?_
  intro p hp
  simp at hp
  subst hp
  left
  unfold jOf totalJ
  rw [exPar_masses.1, exPar_masses.2]
  norm_num [exPar]

end Verif.PhenomP
