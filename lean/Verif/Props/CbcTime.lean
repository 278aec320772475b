import Verif.Props.CbcUtils
import Verif.Spec.CbcTime
import Mathlib.Analysis.SpecialFunctions.Pow.Deriv
/-!
# C57: the chirp-time bound bounds the second post-Newtonian chirp time
-/
namespace Verif.CbcUtils
open CbcSpec PNSpec

/-- The coefficients are those of the time conjugate to the TaylorF2 phase. -/
theorem t2Timing2_eq (η : ℝ) : t2Timing2 η = 3 / 5 * psi2 η := by unfold t2Timing2 psi2; ring
theorem t2Timing4_eq (η δ : ℝ) : t2Timing4 η = 1 / 5 * psi4 η δ 0 0 := by unfold t2Timing4 psi4; ring

/-- The stationary-phase time in closed form. -/
theorem time2PN_eq (f m1 m2 c1 c2 : ℝ) (h1 : 0 < m1) (h2 : 0 < m2) (hf : 0 < f) :
    let η := eta m1 m2
    let δ := delta m1 m2
    let s := chiS c1 c2
    let a := chiA c1 c2
    let v := vel (seconds (m1 + m2)) f
    time2PN f m1 m2 c1 c2 = newtonianTime f m1 m2 * (1 + 3 / 5 * psi2 η * v ^ 2 + 2 / 5 * psi3 η δ s a * v ^ 3 + 1 / 5 * psi4 η δ s a * v ^ 4) := by
  intro η δ s a v
  have hM := seconds_pos (m1 + m2) (by linarith)
  have hpi := Real.pi_pos
  have hv : 0 < v := vel_pos _ f hM hf
  have hv3 : v ^ 3 = Real.pi * seconds (m1 + m2) * f := vel_cube _ f hM hf
  have hη : 0 < η := by show 0 < m1 * m2 / (m1 + m2) ^ 2; positivity
  set M := seconds (m1 + m2) with hMdef
  have hf' : f = v ^ 3 / (Real.pi * M) := by rw [hv3]; field_simp
  have hdv : HasDerivAt (fun x : ℝ => (Real.pi * M * x) ^ ((1 : ℝ) / 3)) (v / (3 * f)) f := by
    have hx : Real.pi * M * f ≠ 0 := by positivity
    have k := (Real.hasDerivAt_rpow_const (p := (1 : ℝ) / 3) (.inl hx)).comp f ((hasDerivAt_id' f).const_mul (Real.pi * M))
    refine k.congr_deriv ?_
    rw [Real.rpow_sub (by positivity), Real.rpow_one]
    show 1 / 3 * (v / (Real.pi * M * f)) * _ = _
    field_simp
  have hph : HasDerivAt (phase2PN m1 m2 c1 c2) (3 / (128 * η) * (-5 / v ^ 6 - 3 * psi2 η / v ^ 4 - 2 * psi3 η δ s a / v ^ 3 - psi4 η δ s a / v ^ 2)) v := by
    have e : phase2PN m1 m2 c1 c2 = fun v : ℝ => 3 / (128 * η * v ^ 5) * (1 + psi2 η * v ^ 2 + psi3 η δ s a * v ^ 3 + psi4 η δ s a * v ^ 4) := rfl
    rw [e]
    generalize psi2 η = p2, psi3 η δ s a = p3, psi4 η δ s a = p4
    have a1 := (hasDerivAt_const v (3 : ℝ)).div ((hasDerivAt_pow 5 v).const_mul (128 * η)) (by positivity)
    have a2 := (((hasDerivAt_const v (1 : ℝ)).add ((hasDerivAt_pow 2 v).const_mul p2)).add ((hasDerivAt_pow 3 v).const_mul p3)).add ((hasDerivAt_pow 4 v).const_mul p4)
    refine (a1.mul a2).congr_deriv ?_
    simp only [Pi.div_apply, Pi.add_apply]
    norm_num
    field_simp
    ring
  have hd := HasDerivAt.comp f (h₂ := phase2PN m1 m2 c1 c2) hph hdv
  unfold time2PN
  have hd' : deriv (fun x => phase2PN m1 m2 c1 c2 ((Real.pi * M * x) ^ ((1 : ℝ) / 3))) f = _ := hd.deriv
  rw [hd', newtonianTime_eq f m1 m2 h1 h2 hf]
  show _ = 5 / 256 * M / η * (v ^ 8)⁻¹ * _
  generalize psi2 η = p2, psi3 η δ s a = p3, psi4 η δ s a = p4
  rw [hf']
  field_simp
  ring

/-- **C57.**  Without spins the bound is the second post-Newtonian chirp time with the (negative) tail term left out. -/
theorem chirpTime_nonspinning (f m1 m2 : ℝ) (h1 : 0 < m1) (h2 : 0 < m2) (hf : 0 < f) :
    chirpTimeBound f m1 m2 0 0 = time2PN f m1 m2 0 0 + newtonianTime f m1 m2 * (32 * Real.pi / 5 * vel (seconds (m1 + m2)) f ^ 3) := by
  rw [time2PN_eq f m1 m2 0 0 h1 h2 hf, chirpTime_eq f m1 m2 0 0 h1 h2 hf, t2Timing2_eq, t2Timing4_eq _ (delta m1 m2)]
  show newtonianTime f m1 m2 * (1 + 3 / 5 * psi2 (eta m1 m2) * _ + _ + 1 / 5 * psi4 (eta m1 m2) _ _ _ * _) = _
  have hs : chiS 0 0 = 0 := by unfold chiS; norm_num
  have ha : chiA 0 0 = 0 := by unfold chiA; norm_num
  rw [hs, ha, abs_zero, max_self]
  unfold psi3
  ring

/-- The spin-spin part of the 2PN term is never positive. -/
theorem psi4_spin (m1 m2 c1 c2 : ℝ) (h1 : 0 < m1) (h2 : 0 < m2) :
    psi4 (eta m1 m2) (delta m1 m2) (chiS c1 c2) (chiA c1 c2) ≤ psi4 (eta m1 m2) (delta m1 m2) 0 0 := by
  have hM : 0 < m1 + m2 := by linarith
  have e : psi4 (eta m1 m2) (delta m1 m2) (chiS c1 c2) (chiA c1 c2) - psi4 (eta m1 m2) (delta m1 m2) 0 0 =
      -(405 / 8 * (m1 * c1) ^ 2 + 405 / 8 * (m2 * c2) ^ 2 + 395 / 4 * (m1 * c1) * (m2 * c2)) / (m1 + m2) ^ 2 := by
    unfold psi4 eta delta chiS chiA
    field_simp
    ring
  have hq : 0 ≤ 405 / 8 * (m1 * c1) ^ 2 + 405 / 8 * (m2 * c2) ^ 2 + 395 / 4 * (m1 * c1) * (m2 * c2) := by
    nlinarith [sq_nonneg (m1 * c1 + m2 * c2), sq_nonneg (m1 * c1), sq_nonneg (m2 * c2)]
  have : -(405 / 8 * (m1 * c1) ^ 2 + 405 / 8 * (m2 * c2) ^ 2 + 395 / 4 * (m1 * c1) * (m2 * c2)) / (m1 + m2) ^ 2 ≤ 0 := div_nonpos_of_nonpos_of_nonneg (by linarith) (by positivity)
  linarith

/-- The spin-orbit term is at most that of the larger spin magnitude on both bodies of a test-mass binary, less the tail. -/
theorem psi3_spin (m1 m2 c1 c2 : ℝ) (h1 : 0 < m1) (h2 : 0 < m2) :
    psi3 (eta m1 m2) (delta m1 m2) (chiS c1 c2) (chiA c1 c2) ≤ -16 * Real.pi + 113 / 3 * max |c1| |c2| := by
  have hM : 0 < m1 + m2 := by linarith
  set X := max |c1| |c2| with hX
  have hX0 : 0 ≤ X := le_trans (abs_nonneg _) (le_max_left _ _)
  have b1 : c1 ≤ X := (le_abs_self _).trans (le_max_left _ _)
  have b2 : c2 ≤ X := (le_abs_self _).trans (le_max_right _ _)
  have e : psi3 (eta m1 m2) (delta m1 m2) (chiS c1 c2) (chiA c1 c2) =
      -16 * Real.pi + 113 / 3 * X - ((m1 * (113 / 3 * (m1 + m2) - 38 / 3 * m2)) * (X - c1) + (m2 * (113 / 3 * (m1 + m2) - 38 / 3 * m1)) * (X - c2) + 76 / 3 * (m1 * m2) * X) / (m1 + m2) ^ 2 := by
    unfold psi3 eta delta chiS chiA
    field_simp
    ring
  rw [e]
  have d1 : 0 ≤ X - c1 := by linarith
  have d2 : 0 ≤ X - c2 := by linarith
  have e1 : 0 ≤ 113 / 3 * (m1 + m2) - 38 / 3 * m2 := by linarith
  have e2 : 0 ≤ 113 / 3 * (m1 + m2) - 38 / 3 * m1 := by linarith
  have : 0 ≤ ((m1 * (113 / 3 * (m1 + m2) - 38 / 3 * m2)) * (X - c1) + (m2 * (113 / 3 * (m1 + m2) - 38 / 3 * m1)) * (X - c2) + 76 / 3 * (m1 * m2) * X) / (m1 + m2) ^ 2 := by positivity
  linarith

/-- **C57.**  The bound is an upper bound: for all masses and aligned spins it exceeds the second post-Newtonian time to coalescence, whatever the frequency. -/
theorem chirpTime_bounds_2PN (f m1 m2 c1 c2 : ℝ) (h1 : 0 < m1) (h2 : 0 < m2) (hf : 0 < f) : time2PN f m1 m2 c1 c2 < chirpTimeBound f m1 m2 c1 c2 := by
  rw [time2PN_eq f m1 m2 c1 c2 h1 h2 hf, chirpTime_eq f m1 m2 c1 c2 h1 h2 hf, t2Timing2_eq, t2Timing4_eq _ (delta m1 m2)]
  have hv : 0 < vel (seconds (m1 + m2)) f := vel_pos _ f (seconds_pos (m1 + m2) (by linarith)) hf
  apply mul_lt_mul_of_pos_left _ (newtonianTime_pos f m1 m2 h1 h2 hf)
  show 1 + 3 / 5 * psi2 (eta m1 m2) * _ + _ + _ < 1 + 3 / 5 * psi2 (eta m1 m2) * _ + _ + 1 / 5 * psi4 (eta m1 m2) _ _ _ * _
  have p3 := psi3_spin m1 m2 c1 c2 h1 h2
  have p4 := psi4_spin m1 m2 c1 c2 h1 h2
  have hpi := Real.pi_pos
  generalize vel (seconds (m1 + m2)) f = v at *
  have q3 : 2 / 5 * psi3 (eta m1 m2) (delta m1 m2) (chiS c1 c2) (chiA c1 c2) * v ^ 3 < 226 / 15 * max |c1| |c2| * v ^ 3 := by
    apply mul_lt_mul_of_pos_right _ (by positivity)
    linarith
  have q4 : 1 / 5 * psi4 (eta m1 m2) (delta m1 m2) (chiS c1 c2) (chiA c1 c2) * v ^ 4 ≤ 1 / 5 * psi4 (eta m1 m2) (delta m1 m2) 0 0 * v ^ 4 := by
    apply mul_le_mul_of_nonneg_right _ (by positivity)
    linarith
  linarith

/-- **C57.**  After the ringdown time the fundamental quadrupole mode of the final black hole has decayed by eleven e-folds. -/
theorem ringdownTime_efolds (M s : ℝ) (hM : 0 < M) (h0 : 0 ≤ s) (h1 : s < 1) :
    let m := M * mtsun / msun
    Real.exp (-(modeOmega m s / (2 * modeQ s)) * ringdownTimeBound M s) = Real.exp (-11) := by
  intro m
  have hm : 0 < m := div_pos (mul_pos hM mtsun_pos) msun_pos
  have ho := ringdown_omega_pos s h0 h1
  have hq : 0 < (1 - s) ^ (-0.4990 : ℝ) := Real.rpow_pos_of_pos (by linarith) _
  have hQ : 0 < modeQ s := by unfold modeQ; positivity
  have hO : 0 < modeOmega m s := by unfold modeOmega; exact div_pos (by linarith) hm
  have e : ringdownTimeBound M s = 11 * (2 * modeQ s / modeOmega m s) := by
    unfold ringdownTimeBound modeQ modeOmega
    dsimp only
    rw [show (1.5251 : ℝ) + -1.1568 * (1 - s) ^ (0.1292 : ℝ) = 1.5251 - 1.1568 * (1 - s) ^ (0.1292 : ℝ) by ring]
    norm_num
    rfl
  rw [e]
  congr 1
  field_simp

/-- Non-vacuity: 30 and 20 solar masses, 20 Hz, opposite spins. -/
example : time2PN 20 (30 * msun) (20 * msun) 0.9 (-0.4) < chirpTimeBound 20 (30 * msun) (20 * msun) 0.9 (-0.4) :=
  chirpTime_bounds_2PN _ _ _ _ _ (by have := msun_pos; positivity) (by have := msun_pos; positivity) (by norm_num)

example : Real.exp (-(modeOmega (50 * msun * mtsun / msun) 0.7 / (2 * modeQ 0.7)) * ringdownTimeBound (50 * msun) 0.7) = Real.exp (-11) :=
  ringdownTime_efolds _ _ (by have := msun_pos; positivity) (by norm_num) (by norm_num)

end Verif.CbcUtils
