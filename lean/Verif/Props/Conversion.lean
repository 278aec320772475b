import Verif.Model.Conversion
import Verif.Spec.Conversion
import Verif.Lemmas.Tensor
import Mathlib.Tactic.Linarith
import Mathlib.Tactic.LinearCombination
import Mathlib.Tactic.Positivity
import Mathlib.Tactic.FieldSimp
import Mathlib.Tactic.NormNum
/-!
# Properties of the parameter conversions (C54, C55)
-/
set_option linter.unusedSimpArgs false
set_option linter.unusedVariables false
namespace Verif.Conversion
open ConvSpec

/-! ## Masses -/

/-- **C54.**  For positive chirp mass and mass ratio the component masses are positive, their ratio is the given one, and their chirp mass is the given one; with a ratio of at most one the first mass is the larger. -/
theorem toComponents_spec (mc q : ℝ) (hm : 0 < mc) (hq : 0 < q) :
    0 < (toComponents mc q).1 ∧ 0 < (toComponents mc q).2 ∧ massRatio (toComponents mc q).1 (toComponents mc q).2 = q ∧
    chirpMass (toComponents mc q).1 (toComponents mc q).2 = mc ∧ (q ≤ 1 → (toComponents mc q).2 ≤ (toComponents mc q).1) := by
  have h1 : 0 < 1 + q := by linarith
  have hA : 0 < (1 + q) ^ (1.2 : ℝ) := Real.rpow_pos_of_pos h1 _
  have hB : 0 < q ^ (0.6 : ℝ) := Real.rpow_pos_of_pos hq _
  have hm1 : 0 < (toComponents mc q).1 := by unfold toComponents; positivity
  have hm2 : (toComponents mc q).2 = (toComponents mc q).1 * q := rfl
  refine ⟨hm1, by rw [hm2]; positivity, ?_, ?_, ?_⟩
  · unfold massRatio; rw [hm2, mul_div_cancel_left₀ _ hm1.ne']
  · have e1 : (toComponents mc q).1 = mc * (1 + q) ^ (1.2 : ℝ) / q ^ (0.6 : ℝ) / (1 + q) := rfl
    unfold chirpMass
    rw [hm2]
    set m := (toComponents mc q).1 with hmdef
    have e2 : m * (m * q) = m ^ (2 : ℝ) * q := by rw [Real.rpow_two]; ring
    have e3 : m + m * q = m * (1 + q) := by ring
    rw [e2, e3, Real.mul_rpow (by positivity) hq.le, Real.mul_rpow hm1.le h1.le, ← Real.rpow_mul hm1.le]
    have e4 : m ^ ((2 : ℝ) * (3 / 5)) = m * m ^ ((1 : ℝ) / 5) := by
      rw [show (2 : ℝ) * (3 / 5) = 1 + 1 / 5 by norm_num, Real.rpow_add hm1, Real.rpow_one]
    rw [e4]
    have hmp : 0 < m ^ ((1 : ℝ) / 5) := Real.rpow_pos_of_pos hm1 _
    have hqp : 0 < (1 + q) ^ ((1 : ℝ) / 5) := Real.rpow_pos_of_pos h1 _
    have e5 : (1 + q) ^ (1.2 : ℝ) = (1 + q) * (1 + q) ^ ((1 : ℝ) / 5) := by
      rw [show (1.2 : ℝ) = 1 + 1 / 5 by norm_num, Real.rpow_add h1, Real.rpow_one]
    have e6 : q ^ ((3 : ℝ) / 5) = q ^ (0.6 : ℝ) := by norm_num
    rw [e6]
    have : m * m ^ ((1 : ℝ) / 5) * q ^ (0.6 : ℝ) / (m ^ ((1 : ℝ) / 5) * (1 + q) ^ ((1 : ℝ) / 5)) = m * q ^ (0.6 : ℝ) / (1 + q) ^ ((1 : ℝ) / 5) := by
      field_simp
    rw [this, e1, e5]
    field_simp
  · intro h
    rw [hm2]
    nlinarith

/-- **C54, the other direction.**  Component masses are recovered from their chirp mass and mass ratio. -/
theorem toComponents_recovers (m1 m2 : ℝ) (h1 : 0 < m1) (h2 : 0 < m2) : toComponents (chirpMass m1 m2) (massRatio m1 m2) = (m1, m2) := by
  have hs : 0 < m1 + m2 := by linarith
  have hq : 0 < m2 / m1 := div_pos h2 h1
  have e0 : 1 + m2 / m1 = (m1 + m2) / m1 := by field_simp
  have key : (toComponents (chirpMass m1 m2) (massRatio m1 m2)).1 = m1 := by
    unfold toComponents chirpMass massRatio
    dsimp only
    rw [e0]
    have e5 : ((m1 + m2) / m1) ^ (1.2 : ℝ) = ((m1 + m2) / m1) * ((m1 + m2) ^ ((1 : ℝ) / 5) / m1 ^ ((1 : ℝ) / 5)) := by
      rw [← Real.div_rpow hs.le h1.le, show (1.2 : ℝ) = 1 + 1 / 5 by norm_num, Real.rpow_add (by positivity), Real.rpow_one]
    have e6 : (m2 / m1) ^ (0.6 : ℝ) = m2 ^ ((3 : ℝ) / 5) / m1 ^ ((3 : ℝ) / 5) := by
      rw [← Real.div_rpow h2.le h1.le]; norm_num
    have e7 : m1 ^ ((3 : ℝ) / 5) * m1 ^ ((3 : ℝ) / 5) = m1 * m1 ^ ((1 : ℝ) / 5) := by
      rw [← Real.rpow_add h1, show (3 : ℝ) / 5 + 3 / 5 = 1 + 1 / 5 by norm_num, Real.rpow_add h1, Real.rpow_one]
    rw [e5, e6, Real.mul_rpow h1.le h2.le]
    have p1 : 0 < m1 ^ ((3 : ℝ) / 5) := Real.rpow_pos_of_pos h1 _
    have p2 : 0 < m2 ^ ((3 : ℝ) / 5) := Real.rpow_pos_of_pos h2 _
    have p3 : 0 < m1 ^ ((1 : ℝ) / 5) := Real.rpow_pos_of_pos h1 _
    have p4 : 0 < (m1 + m2) ^ ((1 : ℝ) / 5) := Real.rpow_pos_of_pos hs _
    rw [div_eq_iff (by positivity), div_eq_iff (by positivity)]
    field_simp
    linear_combination e7
  apply Prod.ext
  · exact key
  · change (toComponents (chirpMass m1 m2) (massRatio m1 m2)).1 * massRatio m1 m2 = m2
    rw [key]; unfold massRatio; field_simp

/-- Non-vacuity: a binary neutron star. -/
example : chirpMass (toComponents 1.2 0.8).1 (toComponents 1.2 0.8).2 = 1.2 := (toComponents_spec 1.2 0.8 (by norm_num) (by norm_num)).2.2.2.1

/-! ## Rotations -/

def Vec.toR3 (v : Vec) : R3 := (v.x, v.y, v.z)
def vdot (u v : Vec) : ℝ := u.x * v.x + u.y * v.y + u.z * v.z
def vdet (u v w : Vec) : ℝ := u.x * (v.y * w.z - v.z * w.y) - u.y * (v.x * w.z - v.z * w.x) + u.z * (v.x * w.y - v.y * w.x)

/-- A map that keeps scalar products and oriented volumes, and is linear. -/
structure IsRot (f : Vec → Vec) : Prop where
  dot : ∀ u v, vdot (f u) (f v) = vdot u v
  det : ∀ u v w, vdet (f u) (f v) (f w) = vdet u v w
  lin : ∀ (p q r : ℝ) (u v w : Vec), f ⟨p * u.x + q * v.x + r * w.x, p * u.y + q * v.y + r * w.y, p * u.z + q * v.z + r * w.z⟩ =
    ⟨p * (f u).x + q * (f v).x + r * (f w).x, p * (f u).y + q * (f v).y + r * (f w).y, p * (f u).z + q * (f v).z + r * (f w).z⟩

theorem rotateZ_rot (a : ℝ) : IsRot (rotateZ a) := by
  have h := Real.sin_sq_add_cos_sq a
  refine ⟨?_, ?_, ?_⟩
  · intro u v; unfold vdot rotateZ; dsimp only; linear_combination (u.x * v.x + u.y * v.y) * h
  · intro u v w; unfold vdet rotateZ; dsimp only
    linear_combination (u.x * (v.y * w.z - v.z * w.y) - u.y * (v.x * w.z - v.z * w.x) + u.z * (v.x * w.y - v.y * w.x)) * h
  · intro p q r u v w; unfold rotateZ; ext <;> dsimp only <;> ring

theorem rotateY_rot (a : ℝ) : IsRot (rotateY a) := by
  have h := Real.sin_sq_add_cos_sq a
  refine ⟨?_, ?_, ?_⟩
  · intro u v; unfold vdot rotateY; dsimp only; linear_combination (u.x * v.x + u.z * v.z) * h
  · intro u v w; unfold vdet rotateY; dsimp only
    linear_combination (u.x * (v.y * w.z - v.z * w.y) - u.y * (v.x * w.z - v.z * w.x) + u.z * (v.x * w.y - v.y * w.x)) * h
  · intro p q r u v w; unfold rotateY; ext <;> dsimp only <;> ring

theorem IsRot.comp {f g : Vec → Vec} (hf : IsRot f) (hg : IsRot g) : IsRot (fun v => f (g v)) :=
  ⟨fun u v => by rw [hf.dot, hg.dot], fun u v w => by rw [hf.det, hg.det], fun p q r u v w => by rw [hg.lin, hf.lin]⟩

/-- **C55.**  Both rotations keep lengths. -/
theorem rotations_preserve_norm (a : ℝ) (v : Vec) : vdot (rotateZ a v) (rotateZ a v) = vdot v v ∧ vdot (rotateY a v) (rotateY a v) = vdot v v :=
  ⟨(rotateZ_rot a).dot v v, (rotateY_rot a).dot v v⟩

/-- Turning a vector back by its azimuth puts it into the x-z half plane. -/
theorem rotateZ_atan2 (v : Vec) : rotateZ (-atan2 v.y v.x) v = ⟨Real.sqrt (v.x ^ 2 + v.y ^ 2), 0, v.z⟩ := by
  have hn : ‖(⟨v.x, v.y⟩ : ℂ)‖ = Real.sqrt (v.x ^ 2 + v.y ^ 2) := by
    rw [Complex.norm_def, Complex.normSq_mk]; congr 1; ring
  have hc := Complex.norm_mul_cos_arg (⟨v.x, v.y⟩ : ℂ)
  have hs := Complex.norm_mul_sin_arg (⟨v.x, v.y⟩ : ℂ)
  rw [hn] at hc hs
  dsimp only at hc hs
  have h := Real.sin_sq_add_cos_sq (atan2 v.y v.x)
  unfold rotateZ
  rw [Real.cos_neg, Real.sin_neg]
  unfold atan2 at *
  set r := Real.sqrt (v.x ^ 2 + v.y ^ 2)
  set c := Real.cos (Complex.arg ⟨v.x, v.y⟩)
  set s := Real.sin (Complex.arg ⟨v.x, v.y⟩)
  ext <;> dsimp only
  · rw [← hc, ← hs]; linear_combination r * h
  · rw [← hc, ← hs]; ring

/-- Turning a unit vector of the x-z half plane back by its polar angle puts it on the z axis. -/
theorem rotateY_arccos (r z : ℝ) (hr : 0 ≤ r) (h : r ^ 2 + z ^ 2 = 1) : rotateY (-Real.arccos z) ⟨r, 0, z⟩ = ⟨0, 0, 1⟩ := by
  have hz : -1 ≤ z ∧ z ≤ 1 := abs_le.1 (by rw [← sq_le_one_iff_abs_le_one]; nlinarith)
  have hs : Real.sqrt (1 - z ^ 2) = r := by rw [show 1 - z ^ 2 = r ^ 2 by linarith, Real.sqrt_sq hr]
  unfold rotateY
  rw [Real.cos_neg, Real.sin_neg, Real.cos_arccos hz.1 hz.2, Real.sin_arccos, hs]
  ext <;> dsimp only <;> nlinarith

/-- A unit vector is turned onto the z axis. -/
theorem turn_to_z (v : Vec) (h : vdot v v = 1) : rotateY (-Real.arccos v.z) (rotateZ (-atan2 v.y v.x) v) = ⟨0, 0, 1⟩ := by
  rw [rotateZ_atan2]
  apply rotateY_arccos _ _ (Real.sqrt_nonneg _)
  rw [Real.sq_sqrt (by positivity)]
  unfold vdot at h
  linarith

theorem rotateZ_z (a : ℝ) : rotateZ a ⟨0, 0, 1⟩ = ⟨0, 0, 1⟩ := by
  unfold rotateZ; ext <;> dsimp only <;> ring

theorem vdot_z (v : Vec) : vdot v ⟨0, 0, 1⟩ = v.z := by unfold vdot; dsimp only; ring

theorem rotateZ_rotateZ (a b : ℝ) (v : Vec) : rotateZ a (rotateZ b v) = rotateZ (a + b) v := by
  unfold rotateZ
  rw [Real.cos_add, Real.sin_add]
  ext <;> dsimp only <;> ring

theorem unitSpin_norm (t p : ℝ) : vdot (unitSpin t p) (unitSpin t p) = 1 := by
  unfold vdot unitSpin
  have h1 := Real.sin_sq_add_cos_sq t
  have h2 := Real.sin_sq_add_cos_sq p
  dsimp only
  linear_combination h1 + Real.sin t ^ 2 * h2

/-- The code's orbital angular momentum is the specified one. -/
theorem lMag_eq (m1 m2 f : ℝ) (h : m1 + m2 ≠ 0) : lMag m1 m2 f = orbital m1 m2 ((m1 + m2) * mtsun * f) := by
  unfold lMag orbital inspiralLN inspiralL2PN
  dsimp only
  rw [show (m1 + m2) * mtsun * Real.pi * f = Real.pi * ((m1 + m2) * mtsun * f) by ring]
  set v := (Real.pi * ((m1 + m2) * mtsun * f)) ^ ((1 : ℝ) / 3)
  rw [show m1 * m2 / (m1 + m2) / (m1 + m2) = m1 * m2 / (m1 + m2) ^ 2 by rw [div_div, sq]]
  rw [mul_div_cancel₀ _ (pow_ne_zero 2 h)]
  rw [show (1.5 : ℝ) = 3 / 2 by norm_num]
  ring

/-- **C55 (rejection).** -/
theorem spins_reject (thetaJn phiJl tilt1 tilt2 phi12 a1 a2 m1 m2 f phiRef : ℝ) (h : f ≤ 0) :
    bilbySpinsToLalsim thetaJn phiJl tilt1 tilt2 phi12 a1 a2 m1 m2 f phiRef = .error .value := by
  unfold bilbySpinsToLalsim raiseIf
  rw [if_pos h]; rfl

/-- **C55.**  For positive masses and reference frequency and a total angular momentum that does not vanish, the returned inclination and spins describe the binary given by the angles. -/
theorem spins_describe (thetaJn phiJl tilt1 tilt2 phi12 a1 a2 m1 m2 f phiRef : ℝ) (hf : 0 < f) (hm : m1 + m2 ≠ 0)
    (hJ : startJ tilt1 tilt2 phi12 a1 a2 m1 m2 f phiRef ≠ ⟨0, 0, 0⟩) :
    ∃ r, bilbySpinsToLalsim thetaJn phiJl tilt1 tilt2 phi12 a1 a2 m1 m2 f phiRef = .ok r ∧
      Describes (orbital m1 m2 ((m1 + m2) * mtsun * f)) thetaJn phiJl tilt1 tilt2 phi12 a1 a2 m1 m2 phiRef r.incl r.s1.toR3 r.s2.toR3 := by
  unfold bilbySpinsToLalsim raiseIf
  rw [if_neg (not_le.2 hf)]
  refine ⟨_, rfl, ?_⟩
  rw [← lMag_eq m1 m2 f hm]
  set l := lMag m1 m2 f with hl
  set J := startJ tilt1 tilt2 phi12 a1 a2 m1 m2 f phiRef with hJdef
  set N := Real.sqrt (J.x * J.x + J.y * J.y + J.z * J.z) with hN
  have hNpos : 0 < N := by
    apply Real.sqrt_pos.2
    by_contra hc
    apply hJ
    have h1 := mul_self_nonneg J.x
    have h2 := mul_self_nonneg J.y
    have h3 := mul_self_nonneg J.z
    ext
    · exact mul_self_eq_zero.1 (by linarith)
    · exact mul_self_eq_zero.1 (by linarith)
    · exact mul_self_eq_zero.1 (by linarith)
  have hNsq : N ^ 2 = vdot J J := Real.sq_sqrt (add_nonneg (add_nonneg (mul_self_nonneg _) (mul_self_nonneg _)) (mul_self_nonneg _))
  set jh : Vec := ⟨J.x / N, J.y / N, J.z / N⟩ with hjh
  have hjn : vdot jh jh = 1 := by
    unfold vdot
    simp only [hjh]
    unfold vdot at hNsq
    field_simp
    linarith
  set th := Real.arccos (J.z / N) with hth
  set ph := atan2 (J.y / N) (J.x / N) with hph
  -- the first three rotations
  set A : Vec → Vec := fun v => rotateZ (phiJl - Real.pi) (rotateY (-th) (rotateZ (-ph) v)) with hA
  have rA : IsRot A := (rotateZ_rot _).comp ((rotateY_rot _).comp (rotateZ_rot _))
  have hAj : A jh = ⟨0, 0, 1⟩ := by
    rw [hA]; dsimp only
    rw [hth, hph, turn_to_z jh hjn, rotateZ_z]
  set L : Vec := rotateZ (phiJl - Real.pi) (rotateY (-th) ⟨0, 0, 1⟩) with hL
  have hAz : A ⟨0, 0, 1⟩ = L := by rw [hA]; dsimp only; rw [rotateZ_z]
  have hLn : vdot L L = 1 := by rw [← hAz, rA.dot]; unfold vdot; norm_num
  have hLz : L.z = jh.z := by rw [← vdot_z L, ← hAj, ← hAz, rA.dot]; unfold vdot; dsimp only; ring
  have hthR : Real.cos th = J.z / N := by
    have : (J.z / N) ^ 2 ≤ 1 := by
      unfold vdot at hjn; simp only [hjh] at hjn; nlinarith [sq_nonneg (J.x / N), sq_nonneg (J.y / N)]
    have := abs_le.1 (sq_le_one_iff_abs_le_one _ |>.1 this)
    exact Real.cos_arccos this.1 this.2
  have hths : 0 ≤ Real.sin th := Real.sin_nonneg_of_nonneg_of_le_pi (Real.arccos_nonneg _) (Real.arccos_le_pi _)
  have hLx : L.x = Real.sin th * Real.cos phiJl := by
    rw [hL]; unfold rotateZ rotateY; dsimp only
    rw [Real.cos_sub_pi, Real.sin_neg]; ring
  have hLy : L.y = Real.sin th * Real.sin phiJl := by
    rw [hL]; unfold rotateZ rotateY; dsimp only
    rw [Real.sin_sub_pi, Real.sin_neg]; ring
  set n : Vec := ⟨0, Real.sin thetaJn, Real.cos thetaJn⟩ with hn
  have hnn : vdot n n = 1 := by
    unfold vdot; simp only [hn]; linear_combination Real.sin_sq_add_cos_sq thetaJn
  -- the next two, and the last
  set B : Vec → Vec := fun v => rotateY (-Real.arccos L.z) (rotateZ (-atan2 L.y L.x) v) with hB
  have rB : IsRot B := (rotateY_rot _).comp (rotateZ_rot _)
  have hBL : B L = ⟨0, 0, 1⟩ := turn_to_z L hLn
  set n2 : Vec := B n with hn2
  have hn2n : vdot n2 n2 = 1 := by rw [hn2, rB.dot, hnn]
  set C : Vec → Vec := fun v => rotateZ (Real.pi / 2 - atan2 n2.y n2.x - phiRef) v with hC
  have rC : IsRot C := rotateZ_rot _
  set T : Vec → Vec := fun v => C (B (A v)) with hT
  have rT : IsRot T := rC.comp (rB.comp rA)
  have hTz : T ⟨0, 0, 1⟩ = ⟨0, 0, 1⟩ := by
    rw [hT]; dsimp only; rw [hAz, hBL, hC]; exact rotateZ_z _
  set incl := Real.arccos (n.x * L.x + n.y * L.y + n.z * L.z) with hincl
  have hnL : n2.z = n.x * L.x + n.y * L.y + n.z * L.z := by
    rw [← vdot_z n2, ← hBL, hn2, rB.dot]; rfl
  have hn2z : n2.z ^ 2 ≤ 1 := by
    unfold vdot at hn2n; nlinarith [mul_self_nonneg n2.x, mul_self_nonneg n2.y]
  have hcos : Real.cos incl = n2.z := by
    rw [hincl, ← hnL]
    have := abs_le.1 (sq_le_one_iff_abs_le_one _ |>.1 hn2z)
    exact Real.cos_arccos this.1 this.2
  have hsin : Real.sin incl = Real.sqrt (n2.x ^ 2 + n2.y ^ 2) := by
    rw [hincl, ← hnL, Real.sin_arccos]
    congr 1
    unfold vdot at hn2n
    linarith
  have hCn : (C n2).toR3 = sight incl phiRef := by
    have e : C n2 = rotateZ (Real.pi / 2 - phiRef) (rotateZ (-atan2 n2.y n2.x) n2) := by
      rw [hC, rotateZ_rotateZ]; ring_nf
    rw [e, rotateZ_atan2]
    unfold rotateZ Vec.toR3 sight
    rw [hsin, hcos]
    dsimp only
    rw [zero_mul, zero_mul, sub_zero, add_zero]
  set u1 := unitSpin tilt1 phiRef with hu1
  set u2 := unitSpin tilt2 (phi12 + phiRef) with hu2
  change Describes l thetaJn phiJl tilt1 tilt2 phi12 a1 a2 m1 m2 phiRef incl ((T u1).x * a1, (T u1).y * a1, (T u1).z * a1) ((T u2).x * a2, (T u2).y * a2, (T u2).z * a2)
  have hz1 : (T u1).z = Real.cos tilt1 := by rw [← vdot_z (T u1), ← hTz, rT.dot, vdot_z]; rfl
  have hz2 : (T u2).z = Real.cos tilt2 := by rw [← vdot_z (T u2), ← hTz, rT.dot, vdot_z]; rfl
  have h11 : vdot (T u1) (T u1) = 1 := by rw [rT.dot]; exact unitSpin_norm _ _
  have h22 : vdot (T u2) (T u2) = 1 := by rw [rT.dot]; exact unitSpin_norm _ _
  have h12 : vdot (T u1) (T u2) = vdot u1 u2 := rT.dot _ _
  have hdet : vdet (T u1) (T u2) ⟨0, 0, 1⟩ = vdet u1 u2 ⟨0, 0, 1⟩ := by
    conv_lhs => rw [← hTz]
    exact rT.det _ _ _
  -- the total angular momentum of the output
  have hTJ : total l m1 m2 ((T u1).x * a1, (T u1).y * a1, (T u1).z * a1) ((T u2).x * a2, (T u2).y * a2, (T u2).z * a2) = (T J).toR3 := by
    have e : J = ⟨l * (⟨0, 0, 1⟩ : Vec).x + m1 ^ 2 * a1 * u1.x + m2 ^ 2 * a2 * u2.x, l * (⟨0, 0, 1⟩ : Vec).y + m1 ^ 2 * a1 * u1.y + m2 ^ 2 * a2 * u2.y,
        l * (⟨0, 0, 1⟩ : Vec).z + m1 ^ 2 * a1 * u1.z + m2 ^ 2 * a2 * u2.z⟩ := by
      rw [hJdef]; unfold startJ; ext <;> dsimp only <;> ring
    rw [e, rT.lin, hTz]
    unfold total Vec.toR3
    dsimp only
    refine Prod.ext ?_ (Prod.ext ?_ ?_) <;> dsimp only <;> ring
  have hJN : J = ⟨N * jh.x + 0 * jh.x + 0 * jh.x, N * jh.y + 0 * jh.y + 0 * jh.y, N * jh.z + 0 * jh.z + 0 * jh.z⟩ := by
    ext <;> simp only [hjh] <;> field_simp <;> ring
  have dTJ : ∀ w, vdot (T J) w = N * vdot (T jh) w := by
    intro w
    rw [hJN, rT.lin]
    unfold vdot; dsimp only; ring
  have hTj : T jh = C (B ⟨0, 0, 1⟩) := by rw [hT]; dsimp only; rw [hAj]
  have hnormJ : ConvSpec.norm (T J).toR3 = N := by
    unfold ConvSpec.norm
    have : dot (T J).toR3 (T J).toR3 = N ^ 2 := by
      rw [hNsq]; exact rT.dot J J
    rw [this, Real.sqrt_sq hNpos.le]
  have hcr : ConvSpec.norm (cross (T J).toR3 lhat) = N * Real.sin th := by
    unfold ConvSpec.norm
    have h1 : dot (cross (T J).toR3 lhat) (cross (T J).toR3 lhat) = vdot (T J) (T J) - (T J).z ^ 2 := by
      unfold dot cross lhat Vec.toR3 vdot; dsimp only; ring
    have h2 : (T J).z = N * Real.cos th := by
      rw [← vdot_z (T J), ← hTz, rT.dot, vdot_z, hthR]; field_simp
    have h3 : dot (cross (T J).toR3 lhat) (cross (T J).toR3 lhat) = (N * Real.sin th) ^ 2 := by
      rw [h1, h2, rT.dot, ← hNsq]
      linear_combination -N ^ 2 * Real.sin_sq_add_cos_sq th
    rw [h3, Real.sqrt_sq (by positivity)]
  have hTJz : (T J).z = N * Real.cos th := by
    rw [← vdot_z (T J), ← hTz, rT.dot, vdot_z, hthR]; field_simp
  constructor
  · unfold dot; unfold vdot at h11; dsimp only; linear_combination a1 ^ 2 * h11
  · unfold dot; unfold vdot at h22; dsimp only; linear_combination a2 ^ 2 * h22
  · unfold dot lhat; dsimp only; rw [hz1]; ring
  · unfold dot lhat; dsimp only; rw [hz2]; ring
  · dsimp only
    unfold vdot at h12
    rw [hz1, hz2] at h12
    have : u1.x * u2.x + u1.y * u2.y = Real.sin tilt1 * Real.sin tilt2 * Real.cos phi12 := by
      have e : Real.cos phi12 = Real.cos ((phi12 + phiRef) - phiRef) := by congr 1; ring
      rw [e, Real.cos_sub, hu1, hu2]; unfold unitSpin; dsimp only; ring
    have ez : u1.z * u2.z = Real.cos tilt1 * Real.cos tilt2 := rfl
    linear_combination a1 * a2 * h12 + a1 * a2 * this + a1 * a2 * ez
  · dsimp only
    unfold vdet at hdet
    dsimp only at hdet
    have : u1.x * u2.y - u1.y * u2.x = Real.sin tilt1 * Real.sin tilt2 * Real.sin phi12 := by
      have e : Real.sin phi12 = Real.sin ((phi12 + phiRef) - phiRef) := by congr 1; ring
      rw [e, Real.sin_sub, hu1, hu2]; unfold unitSpin; dsimp only; ring
    linear_combination a1 * a2 * hdet + a1 * a2 * this
  · exact Real.arccos_nonneg _
  · exact Real.arccos_le_pi _
  · rw [hTJ, hnormJ, ← hCn]
    change vdot (T J) (C n2) = _
    rw [dTJ, hTj, rC.dot, hn2, rB.dot]
    unfold vdot; dsimp only; ring
  · rw [hTJ, hcr, ← hCn]
    have e1 : dot (cross (T J).toR3 lhat) (C n2).toR3 = vdet (T J) ⟨0, 0, 1⟩ (C n2) := by
      unfold dot cross lhat Vec.toR3 vdet; dsimp only; ring
    have e2 : vdet (T J) ⟨0, 0, 1⟩ (C n2) = N * vdet (T jh) ⟨0, 0, 1⟩ (C n2) := by
      rw [hJN, rT.lin]; unfold vdet; dsimp only; ring
    have e3 : vdet (T jh) ⟨0, 0, 1⟩ (C n2) = vdet ⟨0, 0, 1⟩ L n := by
      have : (⟨0, 0, 1⟩ : Vec) = C (B L) := by rw [hBL, hC]; exact (rotateZ_z _).symm
      rw [hTj]
      conv_lhs => rw [show vdet (C (B ⟨0, 0, 1⟩)) ⟨0, 0, 1⟩ (C n2) = vdet (C (B ⟨0, 0, 1⟩)) (C (B L)) (C n2) by rw [← this]]
      rw [rC.det, hn2, rB.det]
    rw [e1, e2, e3]
    unfold vdet
    dsimp only
    rw [hLx]; ring
  · rw [hTJ, hnormJ, hcr, hcos, hnL, hLx, hLy, hLz]
    have : dot (T J).toR3 lhat = N * Real.cos th := by
      rw [← hTJz]; unfold dot lhat Vec.toR3; dsimp only; ring
    rw [this, hthR]
    ring

/-- The total angular momentum cannot vanish if the spins do not outweigh the orbital angular momentum. -/
theorem startJ_ne_zero (tilt1 tilt2 phi12 a1 a2 m1 m2 f phiRef : ℝ) (h : m1 ^ 2 * |a1| + m2 ^ 2 * |a2| < lMag m1 m2 f) :
    startJ tilt1 tilt2 phi12 a1 a2 m1 m2 f phiRef ≠ ⟨0, 0, 0⟩ := by
  intro hc
  have hz := congrArg Vec.z hc
  unfold startJ unitSpin at hz
  dsimp only at hz
  have e : ∀ m a t : ℝ, -(m ^ 2 * |a|) ≤ m * m * a * Real.cos t := by
    intro m a t
    have h1 : |a * Real.cos t| ≤ |a| := by
      rw [abs_mul]; exact mul_le_of_le_one_right (abs_nonneg _) (Real.abs_cos_le_one t)
    have h2 := (abs_le.1 h1).1
    nlinarith [sq_nonneg m]
  have h1 := e m1 a1 tilt1
  have h2 := e m2 a2 tilt2
  linarith

/-- Non-vacuity: two solar masses with spins 0.5 and 0.3 at 20 Hz. -/
example : startJ 0.7 1 0.3 0.5 0.3 1 1 20 0.1 ≠ ⟨0, 0, 0⟩ := by
  apply startJ_ne_zero
  have hl : lMag 1 1 20 = orbital 1 1 ((1 + 1) * mtsun * 20) := lMag_eq 1 1 20 (by norm_num)
  rw [hl]
  unfold orbital
  dsimp only
  have hpi := Real.pi_pos
  have hpi4 := Real.pi_le_four
  have hm : 0 < mtsun := by unfold mtsun; norm_num
  have hb0 : 0 < Real.pi * ((1 + 1) * mtsun * 20) := by positivity
  have hb1 : Real.pi * ((1 + 1) * mtsun * 20) < 1 := by
    have : mtsun < 1 / 1000 := by unfold mtsun; norm_num
    nlinarith
  set v := (Real.pi * ((1 + 1) * mtsun * 20)) ^ ((1 : ℝ) / 3) with hv
  have hv0 : 0 < v := Real.rpow_pos_of_pos hb0 _
  have hv1 : v < 1 := Real.rpow_lt_one hb0.le hb1 (by norm_num)
  have h1 : 1 < 1 * 1 / v := by rw [one_mul, lt_div_iff₀ hv0]; linarith
  have h2 : 0 < v ^ 2 * (3 / 2 + 1 * 1 / (1 + 1) ^ 2 / 6) := by positivity
  have h3 : |(0.5 : ℝ)| = 0.5 := abs_of_pos (by norm_num)
  have h4 : |(0.3 : ℝ)| = 0.3 := abs_of_pos (by norm_num)
  rw [h3, h4]
  nlinarith

end Verif.Conversion
