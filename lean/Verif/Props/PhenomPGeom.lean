import Verif.Props.PhenomPWave
import Verif.Props.Conversion
/-!
# C69: the geometry computed by `convert_spins`
-/
namespace Verif.PhenomP
open CbcUtils TaylorF2 PhenomD PhenomPSpec ConvSpec
open Conversion hiding mtsun

/-- The three rotations of `convert_spins`. -/
noncomputable def turn (phi th ka : ℝ) (v : Vec) : Vec := rotateZ ka (rotateY (-th) (rotateZ (-phi) v))

theorem turn_rot (phi th ka : ℝ) : IsRot (turn phi th ka) := (rotateZ_rot ka).comp ((rotateY_rot (-th)).comp (rotateZ_rot (-phi)))

/-- The rotated components are components in a right-handed orthonormal frame. -/
theorem turn_frame (phi th ka : ℝ) : ∃ e1 e2 e3, Frame e1 e2 e3 ∧ ∀ v, v.toR3 = comb (turn phi th ka v).toR3 e1 e2 e3 := by
  let inv : Vec → Vec := fun v => rotateZ phi (rotateY th (rotateZ (-ka) v))
  refine ⟨(inv ⟨1, 0, 0⟩).toR3, (inv ⟨0, 1, 0⟩).toR3, (inv ⟨0, 0, 1⟩).toR3, ?_, ?_⟩
  · have h1 := Real.sin_sq_add_cos_sq phi
    have h2 := Real.sin_sq_add_cos_sq th
    have h3 := Real.sin_sq_add_cos_sq ka
    have hr : IsRot inv := (rotateZ_rot phi).comp ((rotateY_rot th).comp (rotateZ_rot (-ka)))
    have d := fun u v => hr.dot u v
    refine ⟨?_, ?_, ?_, ?_⟩
    · exact (d ⟨1, 0, 0⟩ ⟨1, 0, 0⟩).trans (by unfold vdot; norm_num)
    · exact (d ⟨0, 1, 0⟩ ⟨0, 1, 0⟩).trans (by unfold vdot; norm_num)
    · exact (d ⟨1, 0, 0⟩ ⟨0, 1, 0⟩).trans (by unfold vdot; norm_num)
    · simp only [inv, rotateZ, rotateY, Vec.toR3, cross, Real.cos_neg, Real.sin_neg]
      refine Prod.ext ?_ (Prod.ext ?_ ?_) <;> dsimp only
      · linear_combination (Real.sin th * Real.cos phi) * h3
      · linear_combination (Real.sin th * Real.sin phi) * h3
      · linear_combination (Real.cos th) * ((Real.sin ka ^ 2 + Real.cos ka ^ 2) * h1 + h3)
  · intro v
    have h1 := Real.sin_sq_add_cos_sq phi
    have h2 := Real.sin_sq_add_cos_sq th
    have h3 := Real.sin_sq_add_cos_sq ka
    have hr : IsRot inv := (rotateZ_rot phi).comp ((rotateY_rot th).comp (rotateZ_rot (-ka)))
    have hl := hr.lin (turn phi th ka v).x (turn phi th ka v).y (turn phi th ka v).z ⟨1, 0, 0⟩ ⟨0, 1, 0⟩ ⟨0, 0, 1⟩
    have back : inv (turn phi th ka v) = v := by
      have z : ∀ a w, rotateZ a (rotateZ (-a) w) = w := by
        intro a w; rw [rotateZ_rotateZ, add_neg_cancel]; unfold rotateZ; ext <;> simp
      have z' : ∀ a w, rotateZ (-a) (rotateZ a w) = w := by
        intro a w; rw [rotateZ_rotateZ, neg_add_cancel]; unfold rotateZ; ext <;> simp
      have y : ∀ a w, rotateY a (rotateY (-a) w) = w := by
        intro a w
        have h := Real.sin_sq_add_cos_sq a
        unfold rotateY; rw [Real.cos_neg, Real.sin_neg]
        ext <;> dsimp only
        · linear_combination w.x * h
        · linear_combination w.z * h
      simp only [inv, turn]
      rw [z', y, z]
    have e : (⟨(turn phi th ka v).x * 1 + (turn phi th ka v).y * 0 + (turn phi th ka v).z * 0, (turn phi th ka v).x * 0 + (turn phi th ka v).y * 1 + (turn phi th ka v).z * 0,
        (turn phi th ka v).x * 0 + (turn phi th ka v).y * 0 + (turn phi th ka v).z * 1⟩ : Vec) = turn phi th ka v := by ext <;> dsimp only <;> ring
    dsimp only at hl
    rw [e, back] at hl
    conv_lhs => rw [hl]
    rfl

/-- Turning by the angles of a vector puts it on the z axis. -/
theorem turn_to_axis (j : Vec) (n : ℝ) (hn : n = Real.sqrt (j.x * j.x + j.y * j.y + j.z * j.z)) (h : 0 < n) (ka : ℝ) :
    turn (atan2 j.y j.x) (Real.arccos (j.z / n)) ka j = ⟨0, 0, n⟩ := by
  unfold turn
  rw [rotateZ_atan2]
  have hsq : n ^ 2 = j.x * j.x + j.y * j.y + j.z * j.z := by rw [hn, Real.sq_sqrt (by nlinarith [sq_nonneg j.x, sq_nonneg j.y, sq_nonneg j.z])]
  have k := rotateY_arccos (Real.sqrt (j.x ^ 2 + j.y ^ 2) / n) (j.z / n) (by positivity) (by
    rw [div_pow, div_pow, Real.sq_sqrt (by positivity)]
    field_simp; linarith)
  have kx := congrArg Vec.x k
  have kz := congrArg Vec.z k
  simp only [rotateY] at kx kz
  unfold rotateY rotateZ
  have gx : Real.sqrt (j.x ^ 2 + j.y ^ 2) * Real.cos (-Real.arccos (j.z / n)) + j.z * Real.sin (-Real.arccos (j.z / n)) = 0 := by
    have : Real.sqrt (j.x ^ 2 + j.y ^ 2) * Real.cos (-Real.arccos (j.z / n)) + j.z * Real.sin (-Real.arccos (j.z / n)) =
      n * (Real.sqrt (j.x ^ 2 + j.y ^ 2) / n * Real.cos (-Real.arccos (j.z / n)) + j.z / n * Real.sin (-Real.arccos (j.z / n))) := by field_simp
    rw [this, kx, mul_zero]
  have gz : -Real.sqrt (j.x ^ 2 + j.y ^ 2) * Real.sin (-Real.arccos (j.z / n)) + j.z * Real.cos (-Real.arccos (j.z / n)) = n := by
    have : -Real.sqrt (j.x ^ 2 + j.y ^ 2) * Real.sin (-Real.arccos (j.z / n)) + j.z * Real.cos (-Real.arccos (j.z / n)) =
      n * (-(Real.sqrt (j.x ^ 2 + j.y ^ 2) / n) * Real.sin (-Real.arccos (j.z / n)) + j.z / n * Real.cos (-Real.arccos (j.z / n))) := by field_simp
    rw [this, kz, mul_one]
  ext <;> dsimp only
  · rw [gx]; ring
  · rw [gx]; ring
  · rw [gz]

/-- A unit vector from its azimuth and height. -/
theorem polar (v : Vec) (h : vdot v v = 1) (t : ℝ) (h0 : 0 ≤ t) (hpi : t ≤ Real.pi) (ht : v.z = Real.cos t) : v.toR3 = dir t (atan2 v.y v.x) := by
  have hn : ‖(⟨v.x, v.y⟩ : ℂ)‖ = Real.sin t := by
    rw [Complex.norm_def, Complex.normSq_mk]
    have : v.x * v.x + v.y * v.y = Real.sin t ^ 2 := by
      have := Real.sin_sq_add_cos_sq t
      unfold vdot at h; rw [ht] at h; linarith
    rw [this, Real.sqrt_sq (Real.sin_nonneg_of_nonneg_of_le_pi h0 hpi)]
  have hc := Complex.norm_mul_cos_arg (⟨v.x, v.y⟩ : ℂ)
  have hs := Complex.norm_mul_sin_arg (⟨v.x, v.y⟩ : ℂ)
  rw [hn] at hc hs
  unfold Vec.toR3 dir atan2
  exact Prod.ext hc.symm (Prod.ext hs.symm ht)

/-- Cosine and sine of `atan2` of a unit vector of the plane. -/
theorem atan2_unit (y x : ℝ) (h : x ^ 2 + y ^ 2 = 1) : Real.cos (atan2 y x) = x ∧ Real.sin (atan2 y x) = y := by
  have hn : ‖(⟨x, y⟩ : ℂ)‖ = 1 := by
    rw [Complex.norm_def, Complex.normSq_mk, show x * x + y * y = 1 by linarith, Real.sqrt_one]
  have hc := Complex.norm_mul_cos_arg (⟨x, y⟩ : ℂ)
  have hs := Complex.norm_mul_sin_arg (⟨x, y⟩ : ℂ)
  rw [hn, one_mul] at hc hs
  exact ⟨hc, hs⟩

theorem vdot_turn_z (phi th ka : ℝ) (v j : Vec) (n : ℝ) (h : turn phi th ka j = ⟨0, 0, n⟩) : n * (turn phi th ka v).z = vdot v j := by
  have := (turn_rot phi th ka).dot v j
  rw [h] at this
  rw [← this]; unfold vdot; dsimp only; ring

/-- The generic statement: `j` the total angular momentum, `l` the orbital direction, `n` the line of sight, `x` the wave axis. -/
theorem angles_describe (j l n x : Vec) (J0 : ℝ) (hJ : J0 = Real.sqrt (j.x * j.x + j.y * j.y + j.z * j.z)) (hpos : 0 < J0)
    (hl : vdot l l = 1) (hn : vdot n n = 1) (hx : vdot x x = 1) (hxn : vdot x n = 0)
    (phi th ka : ℝ) (hphi : phi = atan2 j.y j.x) (hth : th = Real.arccos (j.z / J0))
    (hka : ka = -atan2 (rotateY (-th) (rotateZ (-phi) n)).y (rotateY (-th) (rotateZ (-phi) n)).x)
    (thetaJN alpha0 zeta : ℝ) (h1 : thetaJN = Real.arccos (turn phi th ka n).z) (h2 : alpha0 = atan2 (turn phi th ka l).y (turn phi th ka l).x)
    (h3 : zeta = atan2 ((turn phi th ka x).x * (turn phi th ka n).z + (turn phi th ka x).y * 0 + (turn phi th ka x).z * -(turn phi th ka n).x)
      ((turn phi th ka x).x * 0 + (turn phi th ka x).y * -1 + (turn phi th ka x).z * 0))
    (thetaL : ℝ) (h4 : thetaL = Real.arccos (vdot l j / J0)) :
    ∃ e1 e2 e3, Frame e1 e2 e3 ∧ j.toR3 = comb (0, 0, J0) e1 e2 e3 ∧ n.toR3 = comb (dir thetaJN 0) e1 e2 e3 ∧
      l.toR3 = comb (dir thetaL alpha0) e1 e2 e3 ∧
      x.toR3 = comb (Real.cos zeta • (0, -1, 0) + Real.sin zeta • cross (dir thetaJN 0) (0, -1, 0)) e1 e2 e3 := by
  obtain ⟨e1, e2, e3, hf, he⟩ := turn_frame phi th ka
  have rot := turn_rot phi th ka
  have tj : turn phi th ka j = ⟨0, 0, J0⟩ := by rw [hphi, hth]; exact turn_to_axis j J0 hJ hpos ka
  have unitz : ∀ v : Vec, vdot v v = 1 → -1 ≤ v.z ∧ v.z ≤ 1 := by
    intro v hv
    unfold vdot at hv
    exact abs_le.1 (by rw [← sq_le_one_iff_abs_le_one]; nlinarith [sq_nonneg v.x, sq_nonneg v.y])
  -- the line of sight
  have tn1 : vdot (turn phi th ka n) (turn phi th ka n) = 1 := by rw [rot.dot, hn]
  have tny : (turn phi th ka n).y = 0 ∧ 0 ≤ (turn phi th ka n).x := by
    have k := rotateZ_atan2 (rotateY (-th) (rotateZ (-phi) n))
    rw [← hka] at k
    have : turn phi th ka n = _ := k
    rw [this]
    exact ⟨rfl, Real.sqrt_nonneg _⟩
  have tn : (turn phi th ka n).toR3 = dir thetaJN 0 := by
    have hz := unitz _ tn1
    have hc : Real.cos thetaJN = (turn phi th ka n).z := by rw [h1, Real.cos_arccos hz.1 hz.2]
    have hs : Real.sin thetaJN = (turn phi th ka n).x := by
      rw [h1, Real.sin_arccos]
      have : 1 - (turn phi th ka n).z ^ 2 = (turn phi th ka n).x ^ 2 := by
        unfold vdot at tn1; rw [tny.1] at tn1; linarith
      rw [this, Real.sqrt_sq tny.2]
    unfold Vec.toR3 dir
    rw [hc, hs, Real.cos_zero, Real.sin_zero, mul_one, mul_zero, tny.1]
  refine ⟨e1, e2, e3, hf, ?_, ?_, ?_, ?_⟩
  · rw [he j, tj]; rfl
  · rw [he n, tn]
  · rw [he l]
    congr 1
    rw [h2]
    have tl1 : vdot (turn phi th ka l) (turn phi th ka l) = 1 := by rw [rot.dot, hl]
    have hz := unitz _ tl1
    have hzz : (turn phi th ka l).z = vdot l j / J0 := by
      rw [eq_div_iff hpos.ne', mul_comm]; exact vdot_turn_z phi th ka l j J0 tj
    apply polar _ tl1 _ (by rw [h4]; exact Real.arccos_nonneg _) (by rw [h4]; exact Real.arccos_le_pi _)
    rw [h4, ← hzz, Real.cos_arccos hz.1 hz.2]
  · rw [he x]
    congr 1
    have tx1 : vdot (turn phi th ka x) (turn phi th ka x) = 1 := by rw [rot.dot, hx]
    have txn : vdot (turn phi th ka x) (turn phi th ka n) = 0 := by rw [rot.dot, hxn]
    generalize turn phi th ka x = X at *
    generalize turn phi th ka n = N at *
    unfold vdot at tx1 txn tn1
    obtain ⟨ny, nx⟩ := tny
    rw [ny] at tn1 txn
    have k := atan2_unit (X.x * N.z + X.y * 0 + X.z * -N.x) (X.x * 0 + X.y * -1 + X.z * 0) (by
      have : (X.x * N.x + X.y * 0 + X.z * N.z) ^ 2 = 0 := by rw [txn]; ring
      have h2 : (X.x ^ 2 + X.z ^ 2) * (N.x * N.x + 0 * 0 + N.z * N.z) = X.x ^ 2 + X.z ^ 2 := by rw [tn1]; ring
      nlinarith)
    rw [h3, k.1, k.2, ← tn]
    unfold cross Vec.toR3
    refine Prod.ext ?_ (Prod.ext ?_ ?_) <;> simp
    · linear_combination N.x * txn - X.x * tn1
    · linear_combination N.z * txn - X.z * tn1

/-- The orbital angular momentum used at the reference frequency, in solar masses squared. -/
noncomputable def orbitalRef (m1 m2 fRef : ℝ) : ℝ :=
  (m1 + m2) * (m1 + m2) * l2PNR ((Real.pi * ((m1 + m2) * mtsun) * fRef) ^ ((1 : ℝ) / 3)) (m1 * m2 / ((m1 + m2) * (m1 + m2)))

theorem totalJ_eq (m1 m2 fRef : ℝ) (s1 s2 : Vec) : (totalJ m1 m2 fRef s1 s2).toR3 = ConvSpec.total (orbitalRef m1 m2 fRef) m1 m2 s1.toR3 s2.toR3 := by
  unfold totalJ ConvSpec.total orbitalRef Vec.toR3
  dsimp only
  rw [sq, sq]

/-- **C69.**  `convert_spins` describes the binary: there is a right-handed frame whose third axis is the total angular momentum and whose first two axes span, with the third, the half plane of the line of sight, in which the line of
sight has polar angle `thetaJN`, the orbital angular momentum has azimuth `alpha0` (and the polar angle of the total one seen from it), and the wave axis of the source is turned by `zeta` from the axis `P = -e2`. -/
theorem convert_describes (m1 m2 fRef phic incl : ℝ) (s1 s2 : Vec) (J : R3) (hJ : J = ConvSpec.total (orbitalRef m1 m2 fRef) m1 m2 s1.toR3 s2.toR3) (hpos : 0 < ConvSpec.norm J) :
    let r := convertSpins m1 m2 fRef phic incl s1 s2
    ∃ e1 e2 e3, Frame e1 e2 e3 ∧ J = comb (0, 0, ConvSpec.norm J) e1 e2 e3 ∧ sight incl phic = comb (dir r.thetaJN 0) e1 e2 e3 ∧
      lhat = comb (dir (Real.arccos (dot lhat J / ConvSpec.norm J)) r.alpha0) e1 e2 e3 ∧
      waveX incl phic = comb (Real.cos r.zeta • (0, -1, 0) + Real.sin r.zeta • cross (dir r.thetaJN 0) (0, -1, 0)) e1 e2 e3 := by
  intro r
  rw [← totalJ_eq] at hJ
  subst hJ
  have hi := Real.sin_sq_add_cos_sq incl
  have hp := Real.sin_sq_add_cos_sq phic
  have hn : ConvSpec.norm (totalJ m1 m2 fRef s1 s2).toR3 = Real.sqrt ((totalJ m1 m2 fRef s1 s2).x * (totalJ m1 m2 fRef s1 s2).x
    + (totalJ m1 m2 fRef s1 s2).y * (totalJ m1 m2 fRef s1 s2).y + (totalJ m1 m2 fRef s1 s2).z * (totalJ m1 m2 fRef s1 s2).z) := rfl
  have hd : Real.arccos (dot lhat (totalJ m1 m2 fRef s1 s2).toR3 / ConvSpec.norm (totalJ m1 m2 fRef s1 s2).toR3) =
    Real.arccos (vdot ⟨0, 0, 1⟩ (totalJ m1 m2 fRef s1 s2) / ConvSpec.norm (totalJ m1 m2 fRef s1 s2).toR3) := rfl
  have hxx : waveX incl phic = (⟨-Real.cos incl * Real.sin phic, -Real.cos incl * Real.cos phic, Real.sin incl⟩ : Vec).toR3 := rfl
  have hss : sight incl phic = (⟨Real.sin incl * Real.cos (Real.pi / 2 - phic), Real.sin incl * Real.sin (Real.pi / 2 - phic), Real.cos incl⟩ : Vec).toR3 := rfl
  rw [hxx, hss]
  refine angles_describe (totalJ m1 m2 fRef s1 s2) ⟨0, 0, 1⟩ _ _ _ hn hpos ?_ ?_ ?_ ?_ _ _ _ rfl rfl rfl _ _ _ rfl rfl rfl _ hd
  · unfold vdot; norm_num
  · unfold vdot; dsimp only; rw [Real.cos_pi_div_two_sub, Real.sin_pi_div_two_sub]; linear_combination hi + Real.sin incl ^ 2 * hp
  · unfold vdot; dsimp only; linear_combination hi + Real.cos incl ^ 2 * hp
  · unfold vdot; dsimp only; rw [Real.cos_pi_div_two_sub, Real.sin_pi_div_two_sub]; linear_combination (-Real.sin incl * Real.cos incl) * hp

theorem dot_comb (a b e1 e2 e3 : R3) (h : Frame e1 e2 e3) : dot (comb a e1 e2 e3) (comb b e1 e2 e3) = dot a b := by
  obtain ⟨h1, h2, h3, h4⟩ := h
  subst h4
  have n3 : dot (cross e1 e2) (cross e1 e2) = 1 := by
    have : dot (cross e1 e2) (cross e1 e2) = dot e1 e1 * dot e2 e2 - dot e1 e2 ^ 2 := by unfold dot cross; dsimp only; ring
    rw [this, h1, h2, h3]; ring
  have z1 : dot e1 (cross e1 e2) = 0 := by unfold dot cross; dsimp only; ring
  have z2 : dot e2 (cross e1 e2) = 0 := by unfold dot cross; dsimp only; ring
  have : dot (comb a e1 e2 (cross e1 e2)) (comb b e1 e2 (cross e1 e2)) = a.1 * b.1 * dot e1 e1 + a.2.1 * b.2.1 * dot e2 e2 + a.2.2 * b.2.2 * dot (cross e1 e2) (cross e1 e2)
      + (a.1 * b.2.1 + a.2.1 * b.1) * dot e1 e2 + (a.1 * b.2.2 + a.2.2 * b.1) * dot e1 (cross e1 e2) + (a.2.1 * b.2.2 + a.2.2 * b.2.1) * dot e2 (cross e1 e2) := by
    generalize cross e1 e2 = e3; unfold dot comb; dsimp only; ring
  rw [this, h1, h2, h3, n3, z1, z2]
  unfold dot; ring

/-- **C69.**  The angle `thetaJN` is the angle between the line of sight and the total angular momentum. -/
theorem convert_thetaJN (m1 m2 fRef phic incl : ℝ) (s1 s2 : Vec) (J : R3) (hJ : J = ConvSpec.total (orbitalRef m1 m2 fRef) m1 m2 s1.toR3 s2.toR3) (hpos : 0 < ConvSpec.norm J) :
    dot J (sight incl phic) = ConvSpec.norm J * Real.cos (convertSpins m1 m2 fRef phic incl s1 s2).thetaJN := by
  obtain ⟨e1, e2, e3, hf, h1, h2, _⟩ := convert_describes m1 m2 fRef phic incl s1 s2 J hJ hpos
  have : dot J (sight incl phic) = dot (comb (0, 0, ConvSpec.norm J) e1 e2 e3) (comb (dir (convertSpins m1 m2 fRef phic incl s1 s2).thetaJN 0) e1 e2 e3) := by
    rw [← h1, ← h2]
  rw [this, dot_comb _ _ _ _ _ hf]
  unfold dot dir
  dsimp only
  ring

/-- **C69.**  The inclination is recovered from the computed angles. -/
theorem convert_inclination (m1 m2 fRef phic incl : ℝ) (s1 s2 : Vec) (J : R3) (hJ : J = ConvSpec.total (orbitalRef m1 m2 fRef) m1 m2 s1.toR3 s2.toR3) (hpos : 0 < ConvSpec.norm J) :
    let r := convertSpins m1 m2 fRef phic incl s1 s2
    Real.cos incl = dot (dir r.thetaJN 0) (dir (Real.arccos (dot lhat J / ConvSpec.norm J)) r.alpha0) := by
  intro r
  obtain ⟨e1, e2, e3, hf, _, h2, h3, _⟩ := convert_describes m1 m2 fRef phic incl s1 s2 J hJ hpos
  rw [← dot_comb _ _ e1 e2 e3 hf, ← h2, ← h3]
  unfold dot sight lhat
  dsimp only
  ring

/-! ## The precession spin -/

/-- The size of the in-plane part of a spin. -/
noncomputable def inPlane (s : R3) : ℝ := Real.sqrt (s.1 ^ 2 + s.2.1 ^ 2)

/-- **C69.**  The precession spin: the heavier body being second, the larger of its in-plane spin and the in-plane spin of the lighter one scaled by `q (4 q + 3) / (4 + 3 q)`, `q = m1 / m2`. -/
theorem chip_eq (m1 m2 : ℝ) (h1 : 0 < m1) (h2 : 0 < m2) (s1 s2 : Vec) :
    chipOf m1 m2 s1 s2 = max (m1 / m2 * ((4 * (m1 / m2) + 3) / (4 + 3 * (m1 / m2))) * inPlane s1.toR3) (inPlane s2.toR3) := by
  unfold chipOf inPlane Vec.toR3
  dsimp only
  rw [← max_div_div_right (by positivity)]
  congr 1
  · field_simp; ring
  · have : (2 + 3 * m1 / (2 * m2)) * (m2 * m2) ≠ 0 := by positivity
    rw [div_eq_iff this]; ring

theorem inPlane_nonneg (s : R3) : 0 ≤ inPlane s := Real.sqrt_nonneg _

theorem inPlane_le (s : R3) (h : UnitSpin s) : inPlane s ≤ 1 := by
  unfold inPlane UnitSpin dot at *
  apply Real.sqrt_le_one.2
  nlinarith [sq_nonneg s.2.2]

theorem chip_ratio (x : ℝ) (h0 : 0 < x) (h1 : x ≤ 1) : 0 < x * ((4 * x + 3) / (4 + 3 * x)) ∧ x * ((4 * x + 3) / (4 + 3 * x)) ≤ 1 := by
  refine ⟨by positivity, ?_⟩
  rw [← mul_div_assoc, div_le_one (by positivity)]
  nlinarith

/-- **C69.**  It lies between zero and one for spins no longer than one. -/
theorem chip_range (m1 m2 : ℝ) (h1 : 0 < m1) (h2 : m1 ≤ m2) (s1 s2 : Vec) (u1 : UnitSpin s1.toR3) (u2 : UnitSpin s2.toR3) : 0 ≤ chipOf m1 m2 s1 s2 ∧ chipOf m1 m2 s1 s2 ≤ 1 := by
  have hp : 0 < m2 := by linarith
  obtain ⟨r0, r1⟩ := chip_ratio (m1 / m2) (by positivity) ((div_le_one hp).2 h2)
  rw [chip_eq m1 m2 h1 hp]
  have := inPlane_le _ u1
  have := inPlane_nonneg s1.toR3
  exact ⟨le_max_of_le_right (inPlane_nonneg _), max_le (by nlinarith) (inPlane_le _ u2)⟩

theorem inPlane_zero (s : Vec) : inPlane s.toR3 = 0 ↔ s.x = 0 ∧ s.y = 0 := by
  unfold inPlane Vec.toR3
  dsimp only
  rw [Real.sqrt_eq_zero (by positivity)]
  constructor
  · intro h; constructor <;> nlinarith [sq_nonneg s.x, sq_nonneg s.y]
  · rintro ⟨a, b⟩; rw [a, b]; norm_num

/-- **C69.**  It vanishes exactly for aligned spins. -/
theorem chip_zero_iff (m1 m2 : ℝ) (h1 : 0 < m1) (h2 : 0 < m2) (s1 s2 : Vec) : chipOf m1 m2 s1 s2 = 0 ↔ (s1.x = 0 ∧ s1.y = 0) ∧ (s2.x = 0 ∧ s2.y = 0) := by
  rw [chip_eq m1 m2 h1 h2, ← inPlane_zero, ← inPlane_zero]
  have k : 0 < m1 / m2 * ((4 * (m1 / m2) + 3) / (4 + 3 * (m1 / m2))) := by positivity
  have a := inPlane_nonneg s1.toR3
  have b := inPlane_nonneg s2.toR3
  constructor
  · intro h
    have l1 := le_max_left (m1 / m2 * ((4 * (m1 / m2) + 3) / (4 + 3 * (m1 / m2))) * inPlane s1.toR3) (inPlane s2.toR3)
    have l2 := le_max_right (m1 / m2 * ((4 * (m1 / m2) + 3) / (4 + 3 * (m1 / m2))) * inPlane s1.toR3) (inPlane s2.toR3)
    rw [h] at l1 l2
    refine ⟨?_, le_antisymm l2 b⟩
    by_contra hc
    have : 0 < inPlane s1.toR3 := lt_of_le_of_ne a (Ne.symm hc)
    have := mul_pos k this
    linarith
  · rintro ⟨h, h'⟩; rw [h, h']; simp

/-- **C69.**  If only the heavier body has in-plane spin, it is that in-plane spin. -/
theorem chip_heavy (m1 m2 : ℝ) (h1 : 0 < m1) (h2 : 0 < m2) (s1 s2 : Vec) (h : s1.x = 0 ∧ s1.y = 0) : chipOf m1 m2 s1 s2 = inPlane s2.toR3 := by
  rw [chip_eq m1 m2 h1 h2, (inPlane_zero s1).2 h, mul_zero]
  exact max_eq_right (inPlane_nonneg _)

end Verif.PhenomP
