import Verif.Props.PhenomPBounds
import Verif.Props.PhenomPAligned
/-!
# C72: the ringdown frequencies of IMRPhenomPv2
-/
namespace Verif.PhenomP
open CbcUtils TaylorF2 PhenomD PhenomPSpec ConvSpec
open Conversion hiding mtsun

/-! ## The lookup -/

theorem bucketize_last (x : ℝ) (h : 1 < x) : bucketize x = 1003 := by
  unfold bucketize
  rw [tabA_length]
  have : (List.range 1003).filter (fun j => decide (qnmA j < x)) = (List.range 1003).filter (fun j => decide (j < 1003)) := by
    apply List.filter_congr
    intro j hj
    have hj : j < 1003 := List.mem_range.1 hj
    apply decide_eq_decide.2
    refine ⟨fun _ => hj, fun _ => ?_⟩
    have := qnmA_le j 1002 (by omega) (by omega)
    rw [qnmA_last] at this
    linarith
  rw [this, filter_lt_length]
  omega

/-- **C72.**  Above -1 and up to 1 the lookup interpolates linearly. -/
theorem lookup_ok (t : ℕ → ℝ) (x : ℝ) (h1 : -1 < x) (h2 : x ≤ 1) : lookup t x = .ok (interp t x) := by
  obtain ⟨i, hi, a, b⟩ : ∃ i, i + 1 < 1003 ∧ qnmA i < x ∧ x ≤ qnmA (i + 1) := by
    by_contra hc
    push Not at hc
    have : ∀ n, n < 1003 → qnmA n < x := by
      intro n
      induction n with
      | zero => intro _; rw [qnmA_first]; exact h1
      | succ n ih => intro hn; exact hc n hn (ih (by omega))
    have h3 := this 1002 (by norm_num)
    rw [qnmA_last] at h3
    linarith
  have hb := bucketize_between i hi x a b
  have hlt := qnmA_lt i (i + 1) (by omega) hi
  have hne : qnmA (i + 1) - qnmA i ≠ 0 := by linarith
  have hr : rightIdx x = i + 1 := by unfold rightIdx; rw [hb, tabA_length]; omega
  unfold lookup interp raiseIf
  dsimp only
  rw [hr, hb, tabA_length, if_neg (by push_cast; omega)]
  simp only [res_bind_ok]
  rw [if_neg (by push_cast; omega)]
  have hk : (((i + 1 : ℕ) : ℤ) - 1).toNat = i := by omega
  rw [hk, Nat.add_sub_cancel]
  refine congrArg Except.ok ?_
  ring

/-- **C72.**  Above 1 the lookup raises. -/
theorem lookup_above (t : ℕ → ℝ) (x : ℝ) (h : 1 < x) : lookup t x = .error .index := by
  unfold lookup raiseIf
  dsimp only
  rw [bucketize_last x h, tabA_length, if_pos (by right; norm_num)]
  rfl

/-- **C72, finding.**  At and below -1 there is no error: the last segment, which belongs to spins near +1, is extended. -/
theorem lookup_below (t : ℕ → ℝ) (x : ℝ) (h : x ≤ -1) : lookup t x = .ok (t 1002 + (t 1002 - t 1001) / (1 - qnmA 1001) * (x - 1)) := by
  have hlt := qnmA_lt 1001 1002 (by omega) (by norm_num)
  rw [qnmA_last] at hlt
  unfold lookup raiseIf
  dsimp only
  rw [bucketize_first x h, tabA_length, if_neg (by norm_num)]
  simp only [res_bind_ok]
  rw [if_pos (by norm_num)]
  have hk : (((0 : ℕ) : ℤ) - 1 + ((1003 - 1 : ℕ) : ℤ)).toNat = 1001 := by decide
  rw [hk, qnmA_last]
  refine congrArg Except.ok ?_
  have : 1 - qnmA 1001 ≠ 0 := by linarith
  field_simp
  ring

/-! ## The final spin -/

theorem heavy_case (ms mb z1 z2 b1 eta s G : ℝ) (hm : ms + mb = 1) (h0 : 0 < ms) (h1 : ms ≤ mb) (he : eta = ms * mb) (hs : s = mb ^ 2 * z1 + ms ^ 2 * z2)
    (hb : b1 ^ 2 + z1 ^ 2 ≤ 1) (h2 : -1 ≤ z2) (h2' : z2 ≤ 1) (hM : 0.01 ≤ 4 - 4 * eta - 2 * s * G - eta * G ^ 2 - 16 * eta ^ 3) :
    (b1 * mb ^ 2) ^ 2 + (s + eta * G) ^ 2 < 1 := by
  have hz : -1 ≤ z1 ∧ z1 ≤ 1 := abs_le.1 (by rw [← sq_le_one_iff_abs_le_one]; nlinarith [sq_nonneg b1])
  have hpos : 0 < eta := by rw [he]; nlinarith
  have hsq : mb ^ 2 + ms ^ 2 = 1 - 2 * eta := by rw [he]; nlinarith
  have hsabs : |s| ≤ 1 - 2 * eta := by
    rw [abs_le, hs, ← hsq]
    constructor <;> nlinarith [sq_nonneg mb, sq_nonneg ms]
  have hms : ms ^ 2 ≤ 4 * eta ^ 2 := by
    have : ms ≤ 2 * eta := by rw [he]; nlinarith
    nlinarith
  have k1 : s ^ 2 - 2 * |s| * ms ^ 2 ≤ (mb ^ 2 * z1) ^ 2 := by
    have e : mb ^ 2 * z1 = s - ms ^ 2 * z2 := by rw [hs]; ring
    rw [e]
    have hh : s * z2 ≤ |s| := by
      have := abs_mul s z2
      have hz2 : |z2| ≤ 1 := abs_le.2 ⟨h2, h2'⟩
      calc s * z2 ≤ |s * z2| := le_abs_self _
        _ = |s| * |z2| := this
        _ ≤ |s| * 1 := mul_le_mul_of_nonneg_left hz2 (abs_nonneg _)
        _ = |s| := mul_one _
    have : s * z2 * ms ^ 2 ≤ |s| * ms ^ 2 := mul_le_mul_of_nonneg_right hh (sq_nonneg _)
    nlinarith [sq_nonneg (ms ^ 2 * z2)]
  have k2 : (b1 * mb ^ 2) ^ 2 ≤ mb ^ 4 - (mb ^ 2 * z1) ^ 2 := by
    have : 0 ≤ mb ^ 4 := by positivity
    nlinarith
  have k3 : mb ^ 4 = (1 - 2 * eta) ^ 2 - 2 * (1 - 2 * eta) * ms ^ 2 + (ms ^ 2) ^ 2 := by
    have : mb ^ 2 = 1 - 2 * eta - ms ^ 2 := by linarith
    calc mb ^ 4 = (mb ^ 2) ^ 2 := by ring
      _ = _ := by rw [this]; ring
  have k4 : (ms ^ 2) ^ 2 ≤ 16 * eta ^ 4 := by
    have := mul_le_mul hms hms (sq_nonneg ms) (by positivity)
    nlinarith
  have k5 : ms ^ 2 * (|s| - (1 - 2 * eta)) ≤ 0 := mul_nonpos_of_nonneg_of_nonpos (sq_nonneg _) (by linarith)
  have k6 : 0 < eta * (4 - 4 * eta - 2 * s * G - eta * G ^ 2 - 16 * eta ^ 3) := mul_pos hpos (by linarith)
  nlinarith

theorem light_case (eta F S : ℝ) (h0 : 0 < eta) (h1 : eta ≤ 1 / 4) (hS0 : 0 ≤ S) (hS : S ≤ eta) (hu : 0 ≤ 1 - 0.7 * eta ^ 2 - F) (hl : 0 ≤ 1 - 0.7 * eta ^ 2 + F) :
    S ^ 2 + F ^ 2 < 1 := by
  have hF : F ^ 2 ≤ (1 - 0.7 * eta ^ 2) ^ 2 := sq_le_sq' (by linarith) (by linarith)
  have hS2 : S ^ 2 ≤ eta ^ 2 := pow_le_pow_left₀ hS0 hS 2
  have : 0 < eta ^ 2 := by positivity
  have h4 : eta ^ 2 ≤ 1 / 16 := by nlinarith
  nlinarith

/-- The mass fractions behind `eta`. -/
theorem fractions (a b : ℝ) (ha : 0 < a) (hab : a ≤ b) (eta : ℝ) (he : eta = a / (a + b) * (b / (a + b))) :
    0 < eta ∧ eta ≤ 1 / 4 ∧ setaOf eta = b / (a + b) - a / (a + b) ∧ ∀ z1 z2, massSpin eta z1 z2 = (b / (a + b)) ^ 2 * z1 + (a / (a + b)) ^ 2 * z2 := by
  have hb : 0 < b := by linarith
  have hx : a / (a + b) + b / (a + b) = 1 := by field_simp
  have hx0 : 0 < a / (a + b) := by positivity
  have hxy : a / (a + b) ≤ b / (a + b) := by gcongr
  generalize a / (a + b) = x at *
  generalize b / (a + b) = y at *
  have hy : y = 1 - x := by linarith
  subst hy
  have e : 1 - 4 * eta = (1 - x - x) ^ 2 := by rw [he]; ring
  have hs : setaOf eta = 1 - x - x := by
    unfold setaOf
    rw [max_eq_left (by rw [e]; positivity), e, Real.sqrt_sq (by linarith)]
  refine ⟨by rw [he]; nlinarith, by rw [he]; nlinarith [sq_nonneg (1 - x - x)], hs, fun z1 z2 => ?_⟩
  unfold massSpin
  rw [hs]
  ring

theorem unit_z (s : R3) (h : UnitSpin s) : (-1 ≤ s.2.2 ∧ s.2.2 ≤ 1) ∧ inPlane s ^ 2 + s.2.2 ^ 2 ≤ 1 := by
  unfold UnitSpin dot at h
  refine ⟨abs_le.1 (by rw [← sq_le_one_iff_abs_le_one]; nlinarith [sq_nonneg s.1, sq_nonneg s.2.1]), ?_⟩
  unfold inPlane
  rw [Real.sq_sqrt (by positivity)]
  linarith

/-- **C72.**  The final spin of two bodies with spins no longer than one is shorter than one. -/
theorem finalSpinInplane_range (a b : ℝ) (ha : 0 < a) (hab : a ≤ b) (s1 s2 : Vec) (u1 : UnitSpin s1.toR3) (u2 : UnitSpin s2.toR3) :
    |finalSpinInplane b a s1.z s2.z (chipOf a b s2 s1)| < 1 := by
  have hb : 0 < b := by linarith
  obtain ⟨⟨z1, z1'⟩, hz1⟩ := unit_z _ u1
  obtain ⟨⟨z2, z2'⟩, hz2⟩ := unit_z _ u2
  change -1 ≤ s1.z at z1
  change s1.z ≤ 1 at z1'
  change -1 ≤ s2.z at z2
  change s2.z ≤ 1 at z2'
  change inPlane s1.toR3 ^ 2 + s1.z ^ 2 ≤ 1 at hz1
  have heta : b * a / ((b + a) * (b + a)) = a / (a + b) * (b / (a + b)) := by rw [add_comm b a]; field_simp
  obtain ⟨e0, e1, hseta, hmass⟩ := fractions a b ha hab _ heta
  obtain ⟨m1, m2, m3⟩ := spin_mean _ e0 e1 s1.z s2.z z1 z1' z2 z2'
  have hle : ∀ f S : ℝ, S ^ 2 + f ^ 2 < 1 → |(if f < 0 then -1 else 1) * Real.sqrt (S * S + f * f)| < 1 := by
    intro f S h
    have hs : |(if f < 0 then (-1 : ℝ) else 1)| = 1 := by split_ifs <;> norm_num
    rw [abs_mul, hs, one_mul, abs_of_nonneg (Real.sqrt_nonneg _), Real.sqrt_lt' one_pos]
    linarith
  unfold finalSpinInplane
  dsimp only
  apply hle
  rw [chip_eq a b ha hb s2 s1]
  have hq : b / (b + a) = b / (a + b) := by rw [add_comm]
  rw [hq]
  have hmm : a / (a + b) + b / (a + b) = 1 := by field_simp
  have hm0 : 0 < a / (a + b) := by positivity
  have hml : a / (a + b) ≤ b / (a + b) := by gcongr
  rcases max_choice (a / b * ((4 * (a / b) + 3) / (4 + 3 * (a / b))) * inPlane s2.toR3) (inPlane s1.toR3) with hc | hc
  · rw [hc]
    apply light_case _ _ _ e0 e1
    · have := inPlane_nonneg s2.toR3; positivity
    · have hi := inPlane_le _ u2
      have hi0 := inPlane_nonneg s2.toR3
      have hr : (4 * (a / b) + 3) / (4 + 3 * (a / b)) ≤ 1 := by
        have : a / b ≤ 1 := (div_le_one hb).2 hab
        rw [div_le_one (by positivity)]; linarith
      have hr0 : 0 ≤ (4 * (a / b) + 3) / (4 + 3 * (a / b)) := by positivity
      have e : a / b * ((4 * (a / b) + 3) / (4 + 3 * (a / b))) * inPlane s2.toR3 * (b / (a + b)) * (b / (a + b)) =
        (4 * (a / b) + 3) / (4 + 3 * (a / b)) * inPlane s2.toR3 * (a / (a + b) * (b / (a + b))) := by
        generalize (4 * (a / b) + 3) / (4 + 3 * (a / b)) = r
        field_simp
      rw [e, heta]
      have : (4 * (a / b) + 3) / (4 + 3 * (a / b)) * inPlane s2.toR3 ≤ 1 := by
        calc _ ≤ 1 * inPlane s2.toR3 := mul_le_mul_of_nonneg_right hr hi0
          _ ≤ 1 := by linarith
      have hp : 0 ≤ a / (a + b) * (b / (a + b)) := by positivity
      nlinarith
    · unfold finalSpin; rw [m3]; exact finalSpin_upper2 _ _ e0 e1 m1 m2
    · unfold finalSpin; rw [m3]; exact finalSpin_lower2 _ _ e0 e1 m1 m2
  · rw [hc]
    unfold finalSpin
    rw [finalSpinOf_eq _ _ e0.ne']
    have hs := hmass s1.z s2.z
    have hsl : -1 ≤ massSpin (b * a / ((b + a) * (b + a))) s1.z s2.z ∧ massSpin (b * a / ((b + a) * (b + a))) s1.z s2.z ≤ 1 := by
      rw [m3]; constructor <;> nlinarith
    have hM := margin_pos _ _ e0.le e1 hsl.1 hsl.2
    unfold margin at hM
    have := heavy_case (a / (a + b)) (b / (a + b)) s1.z s2.z (inPlane s1.toR3) _ _ _ hmm hm0 hml heta hs hz1 z2 z2' hM
    calc _ = (inPlane s1.toR3 * (b / (a + b)) ^ 2) ^ 2 + (massSpin (b * a / ((b + a) * (b + a))) s1.z s2.z + b * a / ((b + a) * (b + a)) * spinG (b * a / ((b + a) * (b + a))) (massSpin (b * a / ((b + a) * (b + a))) s1.z s2.z)) ^ 2 := by ring
      _ < 1 := this

end Verif.PhenomP
