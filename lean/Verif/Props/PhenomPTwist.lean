import Verif.Model.PhenomP
import Verif.Spec.PhenomP
import Verif.Props.Conversion
import Verif.Lemmas.Tensor
/-!
# C68: the twisted-up modes of IMRPhenomPv2
-/
namespace Verif.PhenomP
open CbcUtils TaylorF2 PhenomD PhenomPSpec
open Conversion hiding mtsun

/-! ## The five modes -/

theorem sqrt_scale (a : ℝ) (k : ℝ) (hk : 0 ≤ k) (h : a = k ^ 2 * (5 / (4 * Real.pi))) : Real.sqrt a = k * y22 := by
  rw [h, Real.sqrt_mul (sq_nonneg k), Real.sqrt_sq hk]; rfl

/-- The five modes for azimuth zero. -/
noncomputable def modeList (t : ℝ) : List ℂ :=
  let s : ℂ := (Real.sin (t / 2) : ℝ)
  let c : ℂ := (Real.cos (t / 2) : ℝ)
  let K : ℂ := (y22 : ℝ)
  [K * s ^ 4, 2 * K * s ^ 3 * c, (Real.sqrt 6 : ℝ) * K * s ^ 2 * c ^ 2, 2 * K * s * c ^ 3, K * c ^ 4]

theorem half (t : ℝ) : Real.cos t = 2 * Real.cos (t / 2) ^ 2 - 1 ∧ Real.sin t = 2 * Real.sin (t / 2) * Real.cos (t / 2) ∧ Real.sin (t / 2) ^ 2 = 1 - Real.cos (t / 2) ^ 2 := by
  refine ⟨?_, ?_, ?_⟩
  · rw [← Real.cos_two_mul]; congr 1; ring
  · rw [← Real.sin_two_mul]; congr 1; ring
  · linarith [Real.sin_sq_add_cos_sq (t / 2)]

theorem k64 : Real.sqrt (5 / (64 * Real.pi)) = 1 / 4 * y22 := sqrt_scale _ _ (by norm_num) (by ring)
theorem k16 : Real.sqrt (5 / (16 * Real.pi)) = 1 / 2 * y22 := sqrt_scale _ _ (by norm_num) (by ring)
theorem k32 : Real.sqrt (15 / (32 * Real.pi)) = Real.sqrt 6 / 4 * y22 :=
  sqrt_scale _ _ (by positivity) (by rw [div_pow, Real.sq_sqrt (by norm_num)]; ring)

/-- The modes in half angles. -/
theorem modes_ok (t : ℝ) : modes t = .ok (modeList t) := by
  obtain ⟨hc, hs, h1⟩ := half t
  have e : ∀ m : ℤ, ((⟨Real.cos ((m : ℝ) * 0), Real.sin ((m : ℝ) * 0)⟩ : ℂ)) = 1 := by
    intro m; rw [mul_zero, Real.cos_zero, Real.sin_zero]; rfl
  have hm : ∀ (m : ℤ) (r : ℝ) (z : ℂ), (if m = -2 then .ok (Real.sqrt (5 / (64 * Real.pi)) * (1 - Real.cos t) * (1 - Real.cos t))
    else if m = -1 then .ok (Real.sqrt (5 / (16 * Real.pi)) * Real.sin t * (1 - Real.cos t))
    else if m = 0 then .ok (Real.sqrt (15 / (32 * Real.pi)) * Real.sin t * Real.sin t)
    else if m = 1 then .ok (Real.sqrt (5 / (16 * Real.pi)) * Real.sin t * (1 + Real.cos t))
    else if m = 2 then .ok (Real.sqrt (5 / (64 * Real.pi)) * (1 + Real.cos t) * (1 + Real.cos t))
    else .error .value : Res ℝ) = .ok r → (r : ℂ) = z → spinY t 0 m = .ok z := by
    intro m r z h hz
    unfold spinY
    rw [h]
    simp only [res_bind_ok]
    rw [e, hz, mul_one]; rfl
  have a0 := hm (-2) _ (((y22 : ℝ) : ℂ) * (Real.sin (t / 2) : ℝ) ^ 4) (if_pos rfl) (by
    rw [k64, hc, show (1 - (2 * Real.cos (t / 2) ^ 2 - 1)) = 2 * Real.sin (t / 2) ^ 2 by rw [h1]; ring]; push_cast; ring)
  have a1 := hm (-1) _ (2 * ((y22 : ℝ) : ℂ) * (Real.sin (t / 2) : ℝ) ^ 3 * (Real.cos (t / 2) : ℝ)) ((if_neg (by decide)).trans (if_pos rfl)) (by
    rw [k16, hs, hc, show (1 - (2 * Real.cos (t / 2) ^ 2 - 1)) = 2 * Real.sin (t / 2) ^ 2 by rw [h1]; ring]; push_cast; ring)
  have a2 := hm 0 _ ((Real.sqrt 6 : ℝ) * ((y22 : ℝ) : ℂ) * (Real.sin (t / 2) : ℝ) ^ 2 * (Real.cos (t / 2) : ℝ) ^ 2) ((if_neg (by decide)).trans ((if_neg (by decide)).trans (if_pos rfl))) (by
    rw [k32, hs]; push_cast; ring)
  have a3 := hm 1 _ (2 * ((y22 : ℝ) : ℂ) * (Real.sin (t / 2) : ℝ) * (Real.cos (t / 2) : ℝ) ^ 3) ((if_neg (by decide)).trans ((if_neg (by decide)).trans ((if_neg (by decide)).trans (if_pos rfl)))) (by
    rw [k16, hs, hc]; push_cast; ring)
  have a4 := hm 2 _ (((y22 : ℝ) : ℂ) * (Real.cos (t / 2) : ℝ) ^ 4) ((if_neg (by decide)).trans ((if_neg (by decide)).trans ((if_neg (by decide)).trans ((if_neg (by decide)).trans (if_pos rfl))))) (by
    rw [k64, hc]; push_cast; ring)
  unfold modes
  simp only [List.mapM_cons, List.mapM_nil, a0, a1, a2, a3, a4, res_bind_ok]
  rfl

/-- **C68.**  Modes beyond the quadrupole are refused. -/
theorem spinY_rejects (t p : ℝ) (m : ℤ) (h : 2 < |m|) : spinY t p m = .error .value := by
  unfold spinY
  rw [if_neg, if_neg, if_neg, if_neg, if_neg]
  · rfl
  all_goals rintro rfl; norm_num at h

example : spinY 1 0 3 = .error .value := spinY_rejects 1 0 3 (by norm_num)

/-- **C68.**  The modes are orthonormal harmonics: their squares sum to `5 / (4 π)` in every direction. -/
theorem modes_sum (t : ℝ) : ∃ y, modes t = .ok y ∧ y.length = 5 ∧ (y.map fun z => ‖z‖ ^ 2).sum = 5 / (4 * Real.pi) := by
  refine ⟨_, modes_ok t, rfl, ?_⟩
  obtain ⟨_, _, h1⟩ := half t
  have hy : y22 ^ 2 = 5 / (4 * Real.pi) := Real.sq_sqrt (by positivity)
  have h6 : Real.sqrt 6 ^ 2 = 6 := Real.sq_sqrt (by norm_num)
  unfold modeList
  simp only [List.map_cons, List.map_nil, List.sum_cons, List.sum_nil, norm_mul, norm_pow, Complex.norm_real, Real.norm_eq_abs, mul_pow, ← pow_mul, Complex.norm_ofNat]
  have sq : ∀ x : ℝ, |x| ^ 2 = x ^ 2 := sq_abs
  have s4 : ∀ x : ℝ, |x| ^ (2 * 2) = (x ^ 2) ^ 2 := by intro x; rw [pow_mul, sq]
  have s6 : ∀ x : ℝ, |x| ^ (3 * 2) = (x ^ 2) ^ 3 := by intro x; rw [mul_comm, pow_mul, sq]
  have s8 : ∀ x : ℝ, |x| ^ (4 * 2) = (x ^ 2) ^ 4 := by intro x; rw [mul_comm, pow_mul, sq]
  simp only [sq, s4, s6, s8, hy, h6, h1]
  ring

/-! ## The twist as a fourth power -/

theorem twist_ok (t a C S : ℝ) : twist (modeList t) a (C, S) =
    ((y22 : ℂ) * (Complex.exp (Complex.I * (a / 2 : ℝ)) * C * (Real.sin (t / 2) : ℝ) - Complex.exp (-(Complex.I * (a / 2 : ℝ))) * S * (Real.cos (t / 2) : ℝ)) ^ 4,
      (y22 : ℂ) * (Complex.exp (Complex.I * (a / 2 : ℝ)) * C * (Real.cos (t / 2) : ℝ) + Complex.exp (-(Complex.I * (a / 2 : ℝ))) * S * (Real.sin (t / 2) : ℝ)) ^ 4) := by
  have e1 : Complex.exp (Complex.I * (a : ℂ)) = Complex.exp (Complex.I * (a / 2 : ℝ)) ^ 2 := by
    rw [← Complex.exp_nat_mul]; congr 1; push_cast; ring
  have e2 : Complex.exp (-(Complex.I * (a / 2 : ℝ))) = (Complex.exp (Complex.I * (a / 2 : ℝ)))⁻¹ := Complex.exp_neg _
  have hz : Complex.exp (Complex.I * (a / 2 : ℝ)) ≠ 0 := Complex.exp_ne_zero _
  have h6 : ((Real.sqrt 6 : ℝ) : ℂ) ^ 2 = 6 := by rw [← Complex.ofReal_pow, Real.sq_sqrt (by norm_num)]; norm_num
  unfold twist modeList
  dsimp only
  simp only [List.getD_cons_zero, List.getD_cons_succ]
  simp only [e1, e2, star_mul', star_pow, Complex.star_def, Complex.conj_ofReal, map_ofNat]
  generalize Complex.exp (Complex.I * (a / 2 : ℝ)) = z at *
  generalize ((Real.sin (t / 2) : ℝ) : ℂ) = s
  generalize ((Real.cos (t / 2) : ℝ) : ℂ) = c
  generalize ((y22 : ℝ) : ℂ) = K
  generalize ((Real.sqrt 6 : ℝ) : ℂ) = r at *
  generalize (C : ℂ) = C
  generalize (S : ℂ) = S
  have hr : ∀ x : ℂ, r * x * r = 6 * x := by intro x; rw [← h6]; ring
  refine Prod.ext ?_ ?_ <;> dsimp only
  · field_simp
    linear_combination (z ^ 4 * S ^ 2 * C ^ 2 * s ^ 2 * c ^ 2 * K) * h6
  · field_simp
    linear_combination (z ^ 4 * S ^ 2 * C ^ 2 * s ^ 2 * c ^ 2 * K) * h6

theorem norm_minus (a u v : ℝ) : ‖Complex.exp (Complex.I * (a / 2 : ℝ)) * (u : ℂ) - Complex.exp (-(Complex.I * (a / 2 : ℝ))) * (v : ℂ)‖ ^ 2 =
    u ^ 2 + v ^ 2 - 2 * u * v * Real.cos a := by
  obtain ⟨hc, _, h1⟩ := half a
  rw [← Complex.normSq_eq_norm_sq, mul_comm Complex.I, ← neg_mul, ← Complex.ofReal_neg, Complex.exp_mul_I, Complex.exp_mul_I, ← Complex.ofReal_cos, ← Complex.ofReal_sin,
    ← Complex.ofReal_cos, ← Complex.ofReal_sin, Real.cos_neg, Real.sin_neg, Complex.normSq_apply, hc]
  generalize Real.cos (a / 2) = c at *
  generalize Real.sin (a / 2) = s at *
  simp
  linear_combination (u + v) ^ 2 * h1

theorem norm_plus (a u v : ℝ) : ‖Complex.exp (Complex.I * (a / 2 : ℝ)) * (u : ℂ) + Complex.exp (-(Complex.I * (a / 2 : ℝ))) * (v : ℂ)‖ ^ 2 =
    u ^ 2 + v ^ 2 + 2 * u * v * Real.cos a := by
  have h := norm_minus a u (-v)
  rw [Complex.ofReal_neg, mul_neg, sub_neg_eq_add] at h
  rw [h]; ring

theorem y22_pos : 0 < y22 := Real.sqrt_pos.2 (by positivity)

/-- The moduli of the two sums are those of the modes seen along the instantaneous orbital angular momentum. -/
theorem twist_norm (t a b : ℝ) :
    ‖(twist (modeList t) a (Real.cos (b / 2), Real.sin (b / 2))).1‖ = y22 * ((1 - ConvSpec.dot (dir t 0) (dir b a)) / 2) ^ 2 ∧
      ‖(twist (modeList t) a (Real.cos (b / 2), Real.sin (b / 2))).2‖ = y22 * ((1 + ConvSpec.dot (dir t 0) (dir b a)) / 2) ^ 2 := by
  obtain ⟨c1, s1, h1⟩ := half t
  obtain ⟨c2, s2, h2⟩ := half b
  rw [twist_ok]
  have key : ∀ z : ℂ, ‖(y22 : ℂ) * z ^ 4‖ = y22 * (‖z‖ ^ 2) ^ 2 := by
    intro z; rw [norm_mul, Complex.norm_real, Real.norm_eq_abs, abs_of_pos y22_pos, norm_pow, ← pow_mul]
  constructor
  · rw [key, mul_assoc, mul_assoc (Complex.exp (-_)), ← Complex.ofReal_mul, ← Complex.ofReal_mul, norm_minus]
    congr 2
    unfold ConvSpec.dot dir
    dsimp only
    rw [Real.cos_zero, Real.sin_zero, c1, s1, c2, s2]
    linear_combination Real.cos (b / 2) ^ 2 * h1 + Real.cos (t / 2) ^ 2 * h2
  · rw [key, mul_assoc, mul_assoc (Complex.exp (-_)), ← Complex.ofReal_mul, ← Complex.ofReal_mul, norm_plus]
    congr 2
    unfold ConvSpec.dot dir
    dsimp only
    rw [Real.cos_zero, Real.sin_zero, c1, s1, c2, s2]
    linear_combination Real.sin (b / 2) ^ 2 * h1 + (1 - Real.cos (t / 2) ^ 2) * h2

/-! ## The opening angle -/

/-- **C68.**  The opening angle is the one between the orbital and the total angular momentum: its tangent is the in-plane spin over the component along the orbit (up to sign). -/
theorem wigner_ok (v sl eta sp : ℝ) : wigner v sl eta sp =
    (Real.cos (Real.arctan |sp / (l2PNR v eta + sl)| / 2), Real.sin (Real.arctan |sp / (l2PNR v eta + sl)| / 2)) := by
  unfold wigner
  dsimp only
  generalize sp / (l2PNR v eta + sl) = s
  have hr : ∀ x : ℝ, x ^ (0.5 : ℝ) = Real.sqrt x := by intro x; rw [Real.sqrt_eq_rpow]; norm_num
  have hc : 1 / (1 + s ^ 2) ^ (0.5 : ℝ) = Real.cos (Real.arctan |s|) := by rw [hr, Real.cos_arctan, sq_abs]
  have h0 : 0 ≤ Real.arctan |s| := Real.arctan_nonneg.2 (abs_nonneg s)
  have h1 := Real.arctan_lt_pi_div_two |s|
  have hp := Real.pi_pos
  rw [hc, hr, hr, Real.cos_half (by linarith) (by linarith), Real.sin_half_eq_sqrt h0 (by linarith)]

end Verif.PhenomP
