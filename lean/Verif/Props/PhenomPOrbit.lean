import Verif.Props.PhenomPGeom
import Verif.Props.PhenomD
import Mathlib.Analysis.Calculus.Deriv.Inv
import Mathlib.Analysis.Calculus.Deriv.Add
import Mathlib.Analysis.Calculus.Deriv.Mul
import Mathlib.Analysis.Calculus.Deriv.Pow
/-!
# C69, C70, C74: the orbital angular momentum and the reference frequency
-/
namespace Verif.PhenomP
open CbcUtils TaylorF2 PhenomD PhenomPSpec ConvSpec
open Conversion hiding mtsun

/-! ## C74: the orbital angular momentum -/

/-- The specified angular momentum obeys the first law `dE = Ω dL` with the second-order binding energy, `Ω = v³` in units of the total mass. -/
theorem orbital2PN_first_law (v eta : ℝ) (hv : 0 < v) :
    ∃ l, HasDerivAt (fun v => orbital2PN v eta) l v ∧ HasDerivAt (fun v => energy2PN v eta) (v ^ 3 * l) v := by
  have hp : ∀ n : ℕ, HasDerivAt (fun v : ℝ => v ^ n) (n * v ^ (n - 1)) v := fun n => hasDerivAt_pow n v
  have h1 : HasDerivAt (fun v => orbital2PN v eta)
      (eta * (-(v ^ 2)⁻¹) * (1 + (3 / 2 + eta / 6) * v ^ 2 + (27 / 8 - 19 / 8 * eta + eta ^ 2 / 24) * v ^ 4)
        + eta / v * ((3 / 2 + eta / 6) * ((2 : ℕ) * v ^ (2 - 1)) + (27 / 8 - 19 / 8 * eta + eta ^ 2 / 24) * ((4 : ℕ) * v ^ (4 - 1)))) v := by
    have a : HasDerivAt (fun v : ℝ => eta / v) (eta * (-(v ^ 2)⁻¹)) v := by
      simpa [div_eq_mul_inv] using (hasDerivAt_inv hv.ne').const_mul eta
    have b := HasDerivAt.add (((hp 2).const_mul (3 / 2 + eta / 6)).const_add 1) ((hp 4).const_mul (27 / 8 - 19 / 8 * eta + eta ^ 2 / 24))
    exact (a.mul b).congr_deriv (by simp only [Pi.add_apply])
  refine ⟨_, h1, ?_⟩
  have b := HasDerivAt.sub (((hp 2).const_mul ((9 + eta) / 12)).const_sub 1) ((hp 4).const_mul ((81 - 57 * eta + eta ^ 2) / 24))
  have a := ((hp 2).const_mul (-eta)).div_const 2
  refine (a.mul b).congr_deriv ?_
  simp only [Pi.sub_apply]
  field_simp
  norm_num
  ring

theorem l2PNR_gap (v eta : ℝ) (hv : 0 < v) : l2PNR v eta = orbital2PN v eta - eta ^ 3 * v ^ 3 / 12 := by
  unfold l2PNR orbital2PN
  dsimp only
  rw [show (0.5 : ℝ) = 1 / 2 by norm_num, ← Real.sqrt_eq_rpow, Real.sqrt_sq hv.le]
  field_simp
  ring

/-- **C74 (partial).**  The orbital angular momentum of the precession model agrees with the second-order one except for the sign of the term in `eta³`: it is smaller by `eta³ v³ / 12`, which is at most one part in 192 of `v⁴` of the
leading term. -/
theorem orbital_partial (v eta : ℝ) (hv : 0 < v) (h0 : 0 < eta) (h1 : eta ≤ 1 / 4) :
    l2PNR v eta = orbital2PN v eta - eta ^ 3 * v ^ 3 / 12 ∧ eta ^ 3 * v ^ 3 / 12 ≤ eta / v * (v ^ 4 / 192) := by
  refine ⟨l2PNR_gap v eta hv, ?_⟩
  rw [div_mul_eq_mul_div, le_div_iff₀ hv]
  have : 0 < eta * v ^ 4 := by positivity
  have h2 : eta ^ 2 ≤ 1 / 16 := by nlinarith
  nlinarith

/-- The full claim of C74 is false of the code. -/
theorem orbital_claim_false (v eta : ℝ) (hv : 0 < v) (h0 : 0 < eta) : l2PNR v eta ≠ orbital2PN v eta := by
  rw [l2PNR_gap v eta hv]
  have : 0 < eta ^ 3 * v ^ 3 := by positivity
  intro h; linarith

/-- It is positive for every physical mass ratio. -/
theorem l2PNR_pos (v eta : ℝ) (hv : 0 < v) (h0 : 0 < eta) (h1 : eta ≤ 1 / 4) : 0 < l2PNR v eta := by
  rw [l2PNR_gap v eta hv]
  unfold orbital2PN
  have e : eta / v * (1 + (3 / 2 + eta / 6) * v ^ 2 + (27 / 8 - 19 / 8 * eta + eta ^ 2 / 24) * v ^ 4) - eta ^ 3 * v ^ 3 / 12 =
      eta / v * (1 + (3 / 2 + eta / 6) * v ^ 2 + (27 / 8 - 19 / 8 * eta - eta ^ 2 / 24) * v ^ 4) := by field_simp; ring
  rw [e]
  have : 0 < 27 / 8 - 19 / 8 * eta - eta ^ 2 / 24 := by nlinarith
  positivity

example : orbital2PN 0.3 0.2 ≠ l2PNR 0.3 0.2 := (orbital_claim_false 0.3 0.2 (by norm_num) (by norm_num)).symm

/-! ## C69: examples -/

/-- The total angular momentum does not vanish if the spins do not outweigh the orbital angular momentum. -/
theorem total_pos (m1 m2 l : ℝ) (s1 s2 : R3) (u1 : UnitSpin s1) (u2 : UnitSpin s2) (h : m1 ^ 2 + m2 ^ 2 < l) : 0 < (ConvSpec.total l m1 m2 s1 s2).2.2 ∧ 0 < ConvSpec.norm (ConvSpec.total l m1 m2 s1 s2) := by
  have k : ∀ s : R3, UnitSpin s → -1 ≤ s.2.2 := by
    intro s u
    unfold UnitSpin dot at u
    exact (abs_le.1 (by rw [← sq_le_one_iff_abs_le_one]; nlinarith [sq_nonneg s.1, sq_nonneg s.2.1])).1
  have a := k s1 u1
  have b := k s2 u2
  have hz : 0 < (ConvSpec.total l m1 m2 s1 s2).2.2 := by
    unfold ConvSpec.total
    dsimp only
    nlinarith [sq_nonneg m1, sq_nonneg m2]
  refine ⟨hz, ?_⟩
  unfold ConvSpec.norm dot
  apply Real.sqrt_pos.2
  have := mul_pos hz hz
  nlinarith [mul_self_nonneg (ConvSpec.total l m1 m2 s1 s2).1, mul_self_nonneg (ConvSpec.total l m1 m2 s1 s2).2.1]

theorem mtsun_small : mtsun < 0.000005 ∧ 0 < mtsun := by unfold CbcUtils.mtsun Conversion.mtsun; norm_num

/-- The orbital angular momentum of a 10 + 20 solar mass binary at 20 Hz is above all spins. -/
theorem orbitalRef_example : (10 : ℝ) ^ 2 + 20 ^ 2 < orbitalRef 10 20 20 := by
  have hpi := Real.pi_pos
  have hpi4 := Real.pi_le_four
  obtain ⟨hm, hm0⟩ := mtsun_small
  have hb0 : 0 < Real.pi * ((10 + 20) * mtsun) * 20 := by positivity
  have hb1 : Real.pi * ((10 + 20) * mtsun) * 20 ≤ (1 / 4) ^ 3 := by nlinarith
  have hv0 : 0 < (Real.pi * ((10 + 20) * mtsun) * 20) ^ ((1 : ℝ) / 3) := Real.rpow_pos_of_pos hb0 _
  have hv1 : (Real.pi * ((10 + 20) * mtsun) * 20) ^ ((1 : ℝ) / 3) ≤ 1 / 4 := by
    have := Real.rpow_le_rpow hb0.le hb1 (show (0 : ℝ) ≤ 1 / 3 by norm_num)
    refine this.trans (le_of_eq ?_)
    rw [← Real.rpow_natCast, ← Real.rpow_mul (by norm_num)]
    norm_num
  unfold orbitalRef
  rw [l2PNR_gap _ _ hv0]
  generalize (Real.pi * ((10 + 20) * mtsun) * 20) ^ ((1 : ℝ) / 3) = v at *
  unfold orbital2PN
  norm_num
  have h4 : 4 ≤ v⁻¹ := by rw [le_inv_comm₀ (by norm_num) hv0]; linarith
  have hv3 : v ^ 3 ≤ 1 / 64 := by
    have := pow_le_pow_left₀ hv0.le hv1 3
    norm_num at this; linarith
  have k : 0 ≤ 2 / 9 / v * (83 / 54 * v ^ 2 + 5539 / 1944 * v ^ 4) := by positivity
  have e : 2 / 9 / v * (1 + 83 / 54 * v ^ 2 + 5539 / 1944 * v ^ 4) = 2 / 9 * v⁻¹ + 2 / 9 / v * (83 / 54 * v ^ 2 + 5539 / 1944 * v ^ 4) := by ring
  rw [e]
  linarith

/-- Non-vacuity of the geometry: a 10 + 20 solar mass binary with misaligned spins, seen from an inclined direction. -/
example : ∃ e1 e2 e3, Frame e1 e2 e3 ∧
    sight 0.7 0.3 = comb (dir (convertSpins 10 20 20 0.3 0.7 ⟨0.3, -0.4, 0.2⟩ ⟨0.6, 0, 0.5⟩).thetaJN 0) e1 e2 e3 := by
  obtain ⟨e1, e2, e3, h, _, h2, _⟩ := convert_describes 10 20 20 0.3 0.7 ⟨0.3, -0.4, 0.2⟩ ⟨0.6, 0, 0.5⟩ _ rfl
    (total_pos 10 20 _ _ _ (by unfold UnitSpin dot Vec.toR3; norm_num) (by unfold UnitSpin dot Vec.toR3; norm_num) orbitalRef_example).2
  exact ⟨e1, e2, e3, h, h2⟩

example : chipOf 10 20 ⟨0, 0, 0.2⟩ ⟨0.6, 0, 0.5⟩ = inPlane (0.6, 0, 0.5) := chip_heavy 10 20 (by norm_num) (by norm_num) _ _ ⟨rfl, rfl⟩

/-! ## C70: the reference frequency -/

/-- **C70.**  At the reference frequency the first Euler angle is the azimuth of the orbital angular momentum and the third vanishes. -/
theorem euler_at_ref (p : Par) (fRef : ℝ) : alphaAt p fRef fRef = (geom p fRef).alpha0 ∧ epsAt p fRef fRef = 0 := by
  have e : Real.pi * (fRef * mtsun * total p) = Real.pi * (total p * mtsun) * fRef := by ring
  unfold alphaAt epsAt
  rw [e]
  exact ⟨by ring, by ring⟩

/-- A binary with positive masses, the first body the heavier. -/
structure Ordered (p : Par) : Prop where
  mc : 0 < p.chirpMass
  q : 0 < p.massRatio
  le : p.massRatio ≤ 1

theorem masses_ordered (p : Par) (h : Ordered p) : 0 < light p ∧ 0 < heavy p ∧ light p ≤ heavy p ∧ light p = heavy p * p.massRatio := by
  obtain ⟨p1, p2, _⟩ := masses_pos p.chirpMass p.massRatio h.mc h.q
  have e : light p = heavy p * p.massRatio := rfl
  refine ⟨p2, p1, ?_, e⟩
  have hp : 0 < heavy p := p1
  rw [e]
  nlinarith [h.le]

/-- The mass fractions recovered from the symmetric mass ratio. -/
theorem qq_fractions (a b : ℝ) (ha : 0 < a) (hab : a ≤ b) : qq (a * b / ((a + b) * (a + b))) = b / a ∧
    1 / (1 + qq (a * b / ((a + b) * (a + b)))) = a / (a + b) ∧ qq (a * b / ((a + b) * (a + b))) / (1 + qq (a * b / ((a + b) * (a + b)))) = b / (a + b) := by
  have hb : 0 < b := by linarith
  have hs : Real.sqrt (1 - 4 * (a * b / ((a + b) * (a + b)))) = (b - a) / (a + b) := by
    rw [show 1 - 4 * (a * b / ((a + b) * (a + b))) = ((b - a) / (a + b)) ^ 2 by field_simp; ring]
    exact Real.sqrt_sq (by apply div_nonneg <;> linarith)
  have hq : qq (a * b / ((a + b) * (a + b))) = b / a := by
    unfold qq
    rw [hs]
    field_simp
    ring
  refine ⟨hq, ?_, ?_⟩ <;> rw [hq] <;> field_simp

/-- In the frame of a vector with positive third component, the polar angle of the z axis is the arctangent of its slope. -/
theorem arccos_arctan (x z : ℝ) (hz : 0 < z) : Real.arccos (z / Real.sqrt (x ^ 2 + z ^ 2)) = Real.arctan |x / z| := by
  have hp : 0 < Real.sqrt (x ^ 2 + z ^ 2) := Real.sqrt_pos.2 (by positivity)
  have h0 : 0 ≤ Real.arctan |x / z| := Real.arctan_nonneg.2 (abs_nonneg _)
  have h1 := Real.arctan_lt_pi_div_two |x / z|
  rw [← Real.arccos_cos h0 (by linarith [Real.pi_pos])]
  congr 1
  rw [Real.cos_arctan, sq_abs, div_pow, show 1 + x ^ 2 / z ^ 2 = (x ^ 2 + z ^ 2) / z ^ 2 by field_simp; ring, Real.sqrt_div (by positivity), Real.sqrt_sq hz.le, one_div_div]

/-- **C70.**  If only the heavier body has spin in the orbital plane, the opening angle at the reference frequency is the angle between the orbital and the total angular momentum. -/
theorem beta_at_ref (p : Par) (fRef : ℝ) (h : Ordered p) (hs : p.s2.x = 0 ∧ p.s2.y = 0) (J : R3)
    (hJ : J = ConvSpec.total (orbitalRef (light p) (heavy p) fRef) (light p) (heavy p) p.s2.toR3 p.s1.toR3) (hz : 0 < J.2.2) :
    betaAt p fRef fRef = Real.arccos (dot lhat J / ConvSpec.norm J) := by
  obtain ⟨a0, b0, ab, _⟩ := masses_ordered p h
  have hq := qq_fractions (light p) (heavy p) a0 ab
  have hchip : (geom p fRef).chip = inPlane p.s1.toR3 := chip_heavy (light p) (heavy p) a0 b0 p.s2 p.s1 hs
  have e : Real.pi * (fRef * mtsun * total p) = Real.pi * ((light p + heavy p) * mtsun) * fRef := by unfold total; ring
  have hin : ConvSpec.norm J = Real.sqrt ((heavy p ^ 2 * inPlane p.s1.toR3) ^ 2 + J.2.2 ^ 2) := by
    unfold ConvSpec.norm
    congr 1
    have : inPlane p.s1.toR3 ^ 2 = p.s1.x ^ 2 + p.s1.y ^ 2 := by unfold inPlane Vec.toR3; rw [Real.sq_sqrt (by positivity)]
    rw [mul_pow, this]
    subst hJ
    unfold dot ConvSpec.total Vec.toR3
    dsimp only
    rw [hs.1, hs.2]
    ring
  have hd : dot lhat J = J.2.2 := by unfold dot lhat; dsimp only; ring
  rw [hin, hd, arccos_arctan _ _ hz]
  unfold betaAt
  congr 2
  unfold tanAt
  have heta : etaP p = light p * heavy p / ((light p + heavy p) * (light p + heavy p)) := rfl
  rw [hchip, e, heta, hq.2.1, hq.2.2]
  subst hJ
  unfold ConvSpec.total orbitalRef Vec.toR3 at hz ⊢
  dsimp only at hz ⊢
  generalize l2PNR ((Real.pi * ((light p + heavy p) * mtsun) * fRef) ^ ((1 : ℝ) / 3)) (light p * heavy p / ((light p + heavy p) * (light p + heavy p))) = L at *
  have hM : light p + heavy p ≠ 0 := by linarith
  rw [show heavy p / (light p + heavy p) * (heavy p / (light p + heavy p)) = heavy p ^ 2 / (light p + heavy p) ^ 2 by field_simp]
  rw [show L + (p.s2.z * (light p / (light p + heavy p)) * (light p / (light p + heavy p)) + p.s1.z * (heavy p / (light p + heavy p)) * (heavy p / (light p + heavy p))) =
    ((light p + heavy p) * (light p + heavy p) * L + light p ^ 2 * p.s2.z + heavy p ^ 2 * p.s1.z) / (light p + heavy p) ^ 2 by field_simp; ring]
  generalize (light p + heavy p) * (light p + heavy p) * L + light p ^ 2 * p.s2.z + heavy p ^ 2 * p.s1.z = K at *
  field_simp

/-- **C70.**  In that case the radiated intensity at the reference frequency is that of the aligned-spin binary seen at the requested inclination. -/
theorem intensity_at_ref (p : Par) (fRef : ℝ) (rd : ℝ × ℝ) (h : Ordered p) (hs : p.s2.x = 0 ∧ p.s2.y = 0) (J : R3)
    (hJ : J = ConvSpec.total (orbitalRef (light p) (heavy p) fRef) (light p) (heavy p) p.s2.toR3 p.s1.toR3) (hz : 0 < J.2.2) :
    let r := polarizations p (elemOf p fRef rd) fRef
    let A : ℂ := (y22 / 2 : ℝ) * hAt p fRef rd fRef
    intensity r.1 r.2 = intensity (quadCross A (Real.cos p.inclination)) (quadPlus A (Real.cos p.inclination)) := by
  intro r A
  have hn : 0 < ConvSpec.norm J := by
    unfold ConvSpec.norm dot
    apply Real.sqrt_pos.2
    have := mul_pos hz hz
    nlinarith [mul_self_nonneg J.1, mul_self_nonneg J.2.1]
  have k := polarizations_intensity p fRef fRef rd
  dsimp only at k
  rw [beta_at_ref p fRef h hs J hJ hz, (euler_at_ref p fRef).1] at k
  have c := convert_inclination (light p) (heavy p) fRef p.phic p.inclination p.s2 p.s1 J hJ hn
  dsimp only at c
  rw [c]
  exact k

/-- A precessing binary of 20 and 10 solar masses, the heavier body tilted. -/
noncomputable def exPar : Par := ⟨chirpMass 20 10, massRatio 20 10, ⟨0.6, 0, 0.5⟩, ⟨0, 0, 0.2⟩, 400, 0.3, 0.7, 0⟩

theorem exPar_masses : heavy exPar = 20 ∧ light exPar = 10 := by
  have := toComponents_recovers 20 10 (by norm_num) (by norm_num)
  exact ⟨congrArg Prod.fst this, congrArg Prod.snd this⟩

theorem exPar_ordered : Ordered exPar := by
  refine ⟨?_, ?_, ?_⟩
  · show 0 < ConvSpec.chirpMass 20 10
    unfold ConvSpec.chirpMass
    positivity
  · show 0 < ConvSpec.massRatio 20 10
    unfold ConvSpec.massRatio; norm_num
  · show ConvSpec.massRatio 20 10 ≤ 1
    unfold ConvSpec.massRatio; norm_num

/-- Non-vacuity of C70. -/
example (rd : ℝ × ℝ) :
    let r := polarizations exPar (elemOf exPar 20 rd) 20
    let A : ℂ := (y22 / 2 : ℝ) * hAt exPar 20 rd 20
    intensity r.1 r.2 = intensity (quadCross A (Real.cos 0.7)) (quadPlus A (Real.cos 0.7)) := by
  refine intensity_at_ref exPar 20 rd exPar_ordered ⟨rfl, rfl⟩ _ rfl ?_
  rw [exPar_masses.1, exPar_masses.2]
  exact (total_pos 10 20 _ _ _ (by unfold UnitSpin dot Vec.toR3 exPar; norm_num) (by unfold UnitSpin dot Vec.toR3 exPar; norm_num) orbitalRef_example).1

end Verif.PhenomP
