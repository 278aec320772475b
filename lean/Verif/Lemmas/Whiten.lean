import Verif.Model.Whiten
import Verif.Spec.Whiten
import Verif.Lemmas.SpectralFast
import Mathlib.Algebra.BigOperators.Field
set_option linter.unusedSimpArgs false
namespace Verif.Whiten
open Finset Verif.Fourier Verif.Spectral

theorem pyInt_nonneg (r : ℝ) (h : 0 ≤ r) : pyInt r = (⌊r⌋₊ : Int) := by
  unfold pyInt
  rw [if_pos h]
  exact (Int.natCast_floor_eq_floor h).symm

theorem bound_floor (F : ℕ) (r : ℝ) (h : 0 ≤ r) : pySliceBound F (pyInt r) = min ⌊r⌋₊ F := by
  rw [pyInt_nonneg r h]
  unfold pySliceBound
  rw [if_neg (by omega)]; simp

theorem invAsd_eq (F : ℕ) (hF : 2 ≤ F) (sr : ℝ) (hsr : 0 < sr) (hp lp : Option ℝ) (hhp : ∀ h, hp = some h → 0 ≤ h)
    (hlp : ∀ h, lp = some h → 0 ≤ h) (psd : ℕ → ℝ) (k : ℕ) (hk : k < F) :
    invAsd F sr hp lp psd k = Spec.Whiten.amplitude F (sr / ((F - 1) * 2 : ℕ)) hp lp psd k := by
  have hN : (0:ℝ) < ((F - 1) * 2 : ℕ) := by
    have : 0 < (F - 1) * 2 := by omega
    exact_mod_cast this
  have hdf : 0 < sr / ((F - 1) * 2 : ℕ) := div_pos hsr hN
  unfold invAsd Spec.Whiten.amplitude
  dsimp only
  generalize sr / (((F - 1) * 2 : ℕ) : ℝ) = df at hdf
  have key : ∀ r : ℝ, 0 ≤ r → (k < pySliceBound F (pyInt (r / df)) ↔ ((k : ℝ) + 1) * df ≤ r) := by
    intro r hr
    rw [bound_floor F _ (div_nonneg hr hdf.le)]
    constructor
    · intro h
      have h1 : k + 1 ≤ ⌊r / df⌋₊ := by omega
      have h2 := (Nat.le_floor_iff (div_nonneg hr hdf.le)).1 h1
      rw [le_div_iff₀ hdf] at h2
      push_cast at h2; exact h2
    · intro h
      have h1 : k + 1 ≤ ⌊r / df⌋₊ := by
        apply Nat.le_floor
        rw [le_div_iff₀ hdf]; push_cast; exact h
      omega
  unfold Spec.Whiten.Removed
  by_cases hodd : F % 2 = 1 ∧ k = F - 1
  · rw [if_pos hodd, if_pos (.inr (.inr hodd))]
  · rw [if_neg hodd]
    cases lp with
    | none =>
      cases hp with
      | none => rw [if_neg (by simp [hodd])]
      | some h =>
        dsimp only
        have := key h (hhp h rfl)
        by_cases h1 : ((k : ℝ) + 1) * df ≤ h
        · rw [if_pos (this.2 h1), if_pos (.inl ⟨h, rfl, h1⟩)]
        · rw [if_neg (fun hh => h1 (this.1 hh)), if_neg]
          simp only [Option.some.injEq, exists_eq_left', h1, reduceCtorEq, false_and, exists_false, hodd,
            or_false, not_false_eq_true, or_self]
    | some l =>
      dsimp only
      have hl := key l (hlp l rfl)
      by_cases h2 : l < ((k : ℝ) + 1) * df
      · rw [if_pos (by by_contra hc; exact absurd (hl.1 (by omega)) (not_le.2 h2)), if_pos (.inr (.inl ⟨l, rfl, h2⟩))]
      · rw [if_neg (by have := hl.2 (not_lt.1 h2); omega)]
        cases hp with
        | none =>
          rw [if_neg]
          simp only [Option.some.injEq, exists_eq_left', h2, reduceCtorEq, false_and, exists_false, hodd,
            or_false, not_false_eq_true, or_self]
        | some h =>
          dsimp only
          have := key h (hhp h rfl)
          by_cases h1 : ((k : ℝ) + 1) * df ≤ h
          · rw [if_pos (this.2 h1), if_pos (.inl ⟨h, rfl, h1⟩)]
          · rw [if_neg (fun hh => h1 (this.1 hh)), if_neg]
            simp only [Option.some.injEq, exists_eq_left', h1, h2, reduceCtorEq, false_and, exists_false, hodd,
              or_false, not_false_eq_true, or_self]

theorem taper_eq (N pad W : ℕ) (h : 2 * pad ≤ N) (w q : ℕ → ℝ) (t : ℕ) (ht : t < N) :
    taper N pad W w q t =
      Spec.Whiten.taperWeight N pad w (fun t => w (W - pad + t)) t * q t := by
  unfold taper Spec.Whiten.taperWeight
  dsimp only
  by_cases h1 : t < pad
  · rw [if_pos h1, if_neg (by omega), if_neg (by omega), if_pos h1]; ring
  · rw [if_neg h1, if_neg h1]
    by_cases h2 : N - pad ≤ t
    · rw [if_pos h2, if_neg (by omega), if_pos h2]; ring
    · rw [if_neg h2, if_pos (by omega), if_neg h2]; ring

theorem herm_congr (N : ℕ) (X Y : ℕ → ℂ) (h : ∀ k < N / 2 + 1, X k = Y k) (k : ℕ) (hk : k < N) :
    herm N X k = herm N Y k := by
  unfold herm
  split_ifs with h1
  · exact h k (by omega)
  · rw [h (N - k) (by omega)]

theorem irfftF_congr (N : ℕ) (X Y : ℕ → ℂ) (h : ∀ k < N / 2 + 1, X k = Y k) (t : ℕ) :
    irfftF N X t = irfftF N Y t := by
  unfold irfftF
  rw [Finset.sum_congr rfl fun k hk => by rw [herm_congr N X Y h k (by simpa using hk)]]

theorem irfftF_add (N : ℕ) (X Y : ℕ → ℂ) (t : ℕ) :
    irfftF N (fun k => X k + Y k) t = irfftF N X t + irfftF N Y t := by
  unfold irfftF
  rw [← Complex.add_re, ← Finset.sum_add_distrib]
  congr 1
  refine Finset.sum_congr rfl fun k _ => ?_
  unfold herm
  split_ifs
  · ring
  · rw [map_add]; ring

theorem irfftF_smul (N : ℕ) (a : ℝ) (X : ℕ → ℂ) (t : ℕ) :
    irfftF N (fun k => (a : ℂ) * X k) t = a * irfftF N X t := by
  unfold irfftF
  rw [← Complex.re_ofReal_mul, Finset.mul_sum]
  congr 1
  refine Finset.sum_congr rfl fun k _ => ?_
  unfold herm
  split_ifs
  · ring
  · rw [map_mul, Complex.conj_ofReal]; ring

/-- `psd**-0.5` of `1/a/2`. -/
theorem invSqrt_eq (maxF a : ℝ) (ha : 0 ≤ a) :
    invSqrt maxF (1 / ENNReal.ofReal (a ^ 2) / 2) = Real.sqrt 2 * a := by
  unfold invSqrt
  rcases ha.eq_or_lt with h | h
  · subst h
    have : (1 / ENNReal.ofReal ((0:ℝ) ^ 2) / 2) ^ (-(1/2) : ℝ) = 0 := by
      simp only [ne_eq, OfNat.ofNat_ne_zero, not_false_eq_true, zero_pow, ENNReal.ofReal_zero]
      rw [ENNReal.div_zero (by simp), ENNReal.top_div_of_ne_top (by simp), ENNReal.top_rpow_of_neg (by norm_num)]
    rw [this]; simp
  · have h2 : (0:ℝ) < a ^ 2 := by positivity
    have e : 1 / ENNReal.ofReal (a ^ 2) / 2 = ENNReal.ofReal (1 / a ^ 2 / 2) := by
      rw [ENNReal.ofReal_div_of_pos (by norm_num), ENNReal.ofReal_div_of_pos h2]; simp
    rw [e, ENNReal.ofReal_rpow_of_pos (by positivity)]
    simp only [ENNReal.ofReal_ne_top, if_false]
    rw [ENNReal.toReal_ofReal (by positivity)]
    rw [Real.rpow_neg (by positivity), ← Real.sqrt_eq_rpow, ← Real.sqrt_inv]
    rw [show (1 / a ^ 2 / 2)⁻¹ = 2 * a ^ 2 by field_simp, Real.sqrt_mul (by norm_num), Real.sqrt_sq ha]

end Verif.Whiten
