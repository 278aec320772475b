import Verif.Spec.Cosmology
import Verif.Props.Volume
import Mathlib.MeasureTheory.Integral.IntervalIntegral.FundThmCalculus
import Mathlib.MeasureTheory.Function.LocallyIntegrable
/-!
# C101: UniformComovingVolume follows the flat Lambda-CDM cosmology and is uniform in comoving volume
-/
set_option linter.unusedVariables false
namespace Verif.Distributions
open DistSpec CosmoSpec MeasureTheory Finset

theorem hubble_mono (h0 om : ℝ) (hh : 0 < h0) (ho : 0 ≤ om) (z w : ℝ) (hz : 0 ≤ z) (h : z ≤ w) : hubble h0 om z ≤ hubble h0 om w := by
  unfold hubble
  refine mul_le_mul_of_nonneg_left (Real.sqrt_le_sqrt ?_) hh.le
  have : (1 + z) ^ 3 ≤ (1 + w) ^ 3 := pow_le_pow_left₀ (by linarith) (by linarith) 3
  nlinarith

theorem hubble_step (h0 om : ℝ) (hh : 0 < h0) (ho : 0 ≤ om) (ho' : om ≤ 1) (z d : ℝ) (hz : 0 ≤ z) (hd : 0 ≤ d) : hubble h0 om (z + d) ≤ (1 + d) ^ 2 * hubble h0 om z := by
  unfold hubble
  have e : (1 + d) ^ 2 * (h0 * Real.sqrt (om * (1 + z) ^ 3 + (1 - om))) = h0 * Real.sqrt ((1 + d) ^ 4 * (om * (1 + z) ^ 3 + (1 - om))) := by
    rw [show (1 + d) ^ 4 = ((1 + d) ^ 2) ^ 2 by ring, Real.sqrt_mul (by positivity), Real.sqrt_sq (by positivity)]; ring
  rw [e]
  refine mul_le_mul_of_nonneg_left (Real.sqrt_le_sqrt ?_) hh.le
  have h1 : (1 + (z + d)) ^ 3 ≤ ((1 + d) * (1 + z)) ^ 3 := pow_le_pow_left₀ (by linarith) (by nlinarith) 3
  have h2 : (1 : ℝ) ≤ (1 + d) ^ 4 := one_le_pow₀ (by linarith)
  have h3 : (1 + d) ^ 3 ≤ (1 + d) ^ 4 := pow_le_pow_right₀ (by linarith) (by norm_num)
  have h4 : 0 ≤ (1 + z) ^ 3 := by positivity
  have h5 : (1 + (z + d)) ^ 3 ≤ (1 + d) ^ 4 * (1 + z) ^ 3 := h1.trans (by rw [mul_pow]; exact mul_le_mul_of_nonneg_right h3 h4)
  nlinarith [mul_le_mul_of_nonneg_left h5 ho, mul_le_mul_of_nonneg_left h2 (sub_nonneg.2 ho')]

/-! ## The distance tables -/

section
variable {h0 om zmax : ℝ} {n : ℕ} (hh : 0 < h0) (ho : 0 ≤ om) (ho' : om ≤ 1) (hz : 0 < zmax) (hn : 2 ≤ n)

/-- The spacing of the redshift grid. -/
noncomputable def step (zmax : ℝ) (n : ℕ) : ℝ := zmax / ((n : ℝ) - 1)

theorem step_pos (hz : 0 < zmax) (hn : 2 ≤ n) : 0 < step zmax n := by
  have : (2 : ℝ) ≤ n := by exact_mod_cast hn
  exact div_pos hz (by linarith)

theorem zAt_succ (i : ℕ) : zAt zmax n (i + 1) = zAt zmax n i + step zmax n := by unfold zAt step; push_cast; ring

/-- The inverse expansion rate at grid point `i`. -/
noncomputable def invH (h0 om zmax : ℝ) (n i : ℕ) : ℝ := 1 / hubble h0 om (zAt zmax n i)

include hh ho ho' hz hn in
theorem invH_pos (i : ℕ) : 0 < invH h0 om zmax n i := one_div_pos.2 (hubble_pos h0 om _ hh ho ho' (zAt_nonneg zmax n i hz hn))

include hh ho ho' hz hn in
theorem invH_anti (i : ℕ) : invH h0 om zmax n (i + 1) ≤ invH h0 om zmax n i := by
  have hs := step_pos hz hn
  refine one_div_le_one_div_of_le (hubble_pos h0 om _ hh ho ho' (zAt_nonneg zmax n i hz hn)) ?_
  exact hubble_mono h0 om hh ho _ _ (zAt_nonneg zmax n i hz hn) (by rw [zAt_succ]; linarith)

include hh ho ho' hz hn in
theorem invH_step (i : ℕ) : invH h0 om zmax n i ≤ (1 + step zmax n) ^ 2 * invH h0 om zmax n (i + 1) := by
  have hs := step_pos hz hn
  have h := hubble_step h0 om hh ho ho' (zAt zmax n i) (step zmax n) (zAt_nonneg zmax n i hz hn) hs.le
  rw [← zAt_succ] at h
  have p1 := hubble_pos h0 om _ hh ho ho' (zAt_nonneg zmax n i hz hn)
  have p2 := hubble_pos h0 om _ hh ho ho' (zAt_nonneg zmax n (i + 1) hz hn)
  unfold invH
  rw [mul_one_div, div_le_div_iff₀ p1 p2, one_mul]
  exact h

theorem dc_succ (t : DistanceType) (i : ℕ) : (nodeAt t h0 om zmax n (i + 1)).dc = (nodeAt t h0 om zmax n i).dc +
    299792.458 * ((invH h0 om zmax n i + invH h0 om zmax n (i + 1)) / 2 * step zmax n) := by
  unfold nodeAt
  dsimp only
  rw [cumTrap_succ, zAt_succ]
  unfold invH speedOfLight
  rw [zAt_succ]
  ring

include hh ho ho' hz hn in
/-- One cell of the trapezoid rule for a decreasing integrand. -/
theorem cell_integral (i : ℕ) : |299792.458 * ((invH h0 om zmax n i + invH h0 om zmax n (i + 1)) / 2 * step zmax n) -
      ∫ u in (zAt zmax n i)..(zAt zmax n (i + 1)), 299792.458 / expansion h0 om u| ≤
    299792.458 * ((invH h0 om zmax n i - invH h0 om zmax n (i + 1)) / 2 * step zmax n) ∧
    IntervalIntegrable (fun u => 299792.458 / expansion h0 om u) volume (zAt zmax n i) (zAt zmax n (i + 1)) := by
  have hs := step_pos hz hn
  have hi := zAt_nonneg zmax n i hz hn
  have hle : zAt zmax n i ≤ zAt zmax n (i + 1) := by rw [zAt_succ]; linarith
  have hanti : AntitoneOn (fun u => 299792.458 / expansion h0 om u) (Set.uIcc (zAt zmax n i) (zAt zmax n (i + 1))) := by
    rw [Set.uIcc_of_le hle]
    intro x hx y hy hxy
    exact div_le_div_of_nonneg_left (by norm_num) (hubble_pos h0 om x hh ho ho' (hi.trans hx.1)) (hubble_mono h0 om hh ho x y (hi.trans hx.1) hxy)
  have hint := hanti.intervalIntegrable (μ := volume)
  refine ⟨?_, hint⟩
  rw [Set.uIcc_of_le hle] at hanti
  have hup := intervalIntegral.integral_mono_on hle hint (intervalIntegrable_const (c := 299792.458 / expansion h0 om (zAt zmax n i)))
    (fun x hx => hanti ⟨le_refl _, hle⟩ hx hx.1)
  have hlo := intervalIntegral.integral_mono_on hle (intervalIntegrable_const (c := 299792.458 / expansion h0 om (zAt zmax n (i + 1)))) hint
    (fun x hx => hanti hx ⟨hle, le_refl _⟩ hx.2)
  rw [intervalIntegral.integral_const, smul_eq_mul, show zAt zmax n (i + 1) - zAt zmax n i = step zmax n by rw [zAt_succ]; ring] at hup hlo
  have e1 : 299792.458 / expansion h0 om (zAt zmax n i) = 299792.458 * invH h0 om zmax n i := by unfold invH; rw [mul_one_div]; rfl
  have e2 : 299792.458 / expansion h0 om (zAt zmax n (i + 1)) = 299792.458 * invH h0 om zmax n (i + 1) := by unfold invH; rw [mul_one_div]; rfl
  rw [e1] at hup
  rw [e2] at hlo
  rw [abs_le]
  constructor <;> nlinarith

include hh ho ho' hz hn in
/-- The tabulated comoving distance of grid redshift `z` differs from `c ∫ dz / H` by at most half a cell of the first-order error, `c dz / 2 (1 / H(0) - 1 / H(z))`. -/
theorem comoving_table (t : DistanceType) (i : ℕ) :
    |(nodeAt t h0 om zmax n i).dc - comoving h0 om (nodeAt t h0 om zmax n i).z| ≤
      299792.458 * (step zmax n / 2 * (1 / expansion h0 om 0 - 1 / expansion h0 om (nodeAt t h0 om zmax n i).z)) := by
  have key : ∀ i, |(nodeAt t h0 om zmax n i).dc - ∫ u in (0 : ℝ)..(zAt zmax n i), 299792.458 / expansion h0 om u| ≤
      299792.458 * (step zmax n / 2 * (1 / expansion h0 om 0 - invH h0 om zmax n i)) ∧
      IntervalIntegrable (fun u => 299792.458 / expansion h0 om u) volume 0 (zAt zmax n i) := by
    intro i
    induction i with
    | zero =>
      have e0 : zAt zmax n 0 = 0 := by unfold zAt; simp
      have : (nodeAt t h0 om zmax n 0).dc = 0 := by unfold nodeAt; dsimp only; rw [cumTrap_zero, zero_div]
      have e1 : invH h0 om zmax n 0 = 1 / expansion h0 om 0 := by unfold invH; rw [e0]; rfl
      rw [this, e0, intervalIntegral.integral_same, e1]
      refine ⟨by simp, ?_⟩
      exact IntervalIntegrable.refl
    | succ i ih =>
      obtain ⟨ih, hint⟩ := ih
      obtain ⟨hc, hint'⟩ := cell_integral hh ho ho' hz hn i
      refine ⟨?_, hint.trans hint'⟩
      rw [dc_succ, ← intervalIntegral.integral_add_adjacent_intervals hint hint']
      rw [abs_le] at *
      constructor <;> nlinarith [ih.1, ih.2, hc.1, hc.2]
  exact (key i).1

include hh ho ho' hz hn in
/-- The distance grid is the redshift itself, the comoving distance, or `1 + z` times it, up to the error of the table. -/
theorem distance_table (i : ℕ) :
    (nodeAt .redshift h0 om zmax n i).dist = (nodeAt .redshift h0 om zmax n i).z ∧
    |(nodeAt .comoving h0 om zmax n i).dist - comoving h0 om (nodeAt .comoving h0 om zmax n i).z| ≤
      299792.458 * (step zmax n / 2 * (1 / expansion h0 om 0 - 1 / expansion h0 om (nodeAt .comoving h0 om zmax n i).z)) ∧
    |(nodeAt .luminosity h0 om zmax n i).dist - (1 + (nodeAt .luminosity h0 om zmax n i).z) * comoving h0 om (nodeAt .luminosity h0 om zmax n i).z| ≤
      (1 + (nodeAt .luminosity h0 om zmax n i).z) *
        (299792.458 * (step zmax n / 2 * (1 / expansion h0 om 0 - 1 / expansion h0 om (nodeAt .luminosity h0 om zmax n i).z))) := by
  refine ⟨rfl, comoving_table hh ho ho' hz hn .comoving i, ?_⟩
  have h := comoving_table hh ho ho' hz hn .luminosity i
  have e : (nodeAt .luminosity h0 om zmax n i).dist = (1 + (nodeAt .luminosity h0 om zmax n i).z) * (nodeAt .luminosity h0 om zmax n i).dc := by
    unfold nodeAt; dsimp only; ring
  have hz' : 0 ≤ (nodeAt .luminosity h0 om zmax n i).z := zAt_nonneg zmax n i hz hn
  rw [e, ← mul_sub, abs_mul, abs_of_nonneg (by linarith)]
  exact mul_le_mul_of_nonneg_left h (by linarith)

/-! ## Uniformity in comoving volume -/

/-- Steps of the distance grid. -/
noncomputable def dstep (t : DistanceType) (h0 om zmax : ℝ) (n i : ℕ) : ℝ := (nodeAt t h0 om zmax n (i + 1)).dist - (nodeAt t h0 om zmax n i).dist
/-- Steps of the comoving distance. -/
noncomputable def cstep (t : DistanceType) (h0 om zmax : ℝ) (n i : ℕ) : ℝ := (nodeAt t h0 om zmax n (i + 1)).dc - (nodeAt t h0 om zmax n i).dc

theorem cstep_eq (t : DistanceType) (i : ℕ) : cstep t h0 om zmax n i = 299792.458 * ((invH h0 om zmax n i + invH h0 om zmax n (i + 1)) / 2 * step zmax n) := by
  unfold cstep; rw [dc_succ]; ring

include hh ho ho' hz hn in
theorem cstep_ratio (t : DistanceType) (i : ℕ) : 0 < cstep t h0 om zmax n i ∧ cstep t h0 om zmax n (i + 1) ≤ cstep t h0 om zmax n i ∧
    cstep t h0 om zmax n i ≤ (1 + step zmax n) ^ 2 * cstep t h0 om zmax n (i + 1) := by
  have hs := step_pos hz hn
  have a0 := invH_pos hh ho ho' hz hn i
  have a1 := invH_pos hh ho ho' hz hn (i + 1)
  have b0 := invH_anti hh ho ho' hz hn i
  have b1 := invH_anti hh ho ho' hz hn (i + 1)
  have c0 := invH_step hh ho ho' hz hn i
  have c1 := invH_step hh ho ho' hz hn (i + 1)
  rw [cstep_eq, cstep_eq]
  refine ⟨by positivity, ?_, ?_⟩
  · refine mul_le_mul_of_nonneg_left (mul_le_mul_of_nonneg_right ?_ hs.le) (by norm_num)
    linarith
  · have : (invH h0 om zmax n i + invH h0 om zmax n (i + 1)) / 2 ≤ (1 + step zmax n) ^ 2 * ((invH h0 om zmax n (i + 1) + invH h0 om zmax n (i + 1 + 1)) / 2) := by linarith
    have := mul_le_mul_of_nonneg_right this hs.le
    linarith

include hh ho ho' hz hn in
theorem dstep_ratio (t : DistanceType) (i : ℕ) : 0 < dstep t h0 om zmax n i ∧ dstep t h0 om zmax n (i + 1) ≤ (1 + step zmax n) ^ 2 * dstep t h0 om zmax n i ∧
    dstep t h0 om zmax n i ≤ (1 + step zmax n) ^ 2 * dstep t h0 om zmax n (i + 1) := by
  have hs := step_pos hz hn
  have hK : 1 ≤ (1 + step zmax n) ^ 2 := one_le_pow₀ (by linarith)
  cases t with
  | redshift =>
    have e : ∀ i, dstep .redshift h0 om zmax n i = step zmax n := by
      intro i; unfold dstep nodeAt; dsimp only; rw [zAt_succ]; ring
    rw [e, e]
    exact ⟨hs, by nlinarith, by nlinarith⟩
  | comoving =>
    have e : ∀ i, dstep .comoving h0 om zmax n i = cstep .comoving h0 om zmax n i := fun i => rfl
    rw [e, e]
    obtain ⟨a, b, c⟩ := cstep_ratio hh ho ho' hz hn .comoving i
    exact ⟨a, by nlinarith, c⟩
  | luminosity =>
    have e : ∀ i, dstep .luminosity h0 om zmax n i = cstep .luminosity h0 om zmax n i * (1 + zAt zmax n (i + 1)) + (nodeAt .luminosity h0 om zmax n i).dc * step zmax n := by
      intro i
      have hd : ∀ i, (nodeAt .luminosity h0 om zmax n i).dist = (nodeAt .luminosity h0 om zmax n i).dc * (1 + zAt zmax n i) := fun i => rfl
      unfold dstep cstep
      rw [hd, hd, zAt_succ]
      ring
    have hdc : ∀ i, 0 ≤ (nodeAt .luminosity h0 om zmax n i).dc := by
      intro i
      induction i with
      | zero => rw [dc_zero hh ho ho' hz hn]
      | succ i ih =>
        have := (cstep_ratio hh ho ho' hz hn .luminosity i).1
        unfold cstep at this
        linarith
    obtain ⟨a, b, c⟩ := cstep_ratio hh ho ho' hz hn .luminosity i
    have z1 := zAt_nonneg zmax n (i + 1) hz hn
    have d0 := hdc i
    have ed : (nodeAt .luminosity h0 om zmax n (i + 1)).dc = (nodeAt .luminosity h0 om zmax n i).dc + cstep .luminosity h0 om zmax n i := by unfold cstep; ring
    rw [e, e, ed, zAt_succ (i + 1)]
    set E := cstep .luminosity h0 om zmax n i
    set E' := cstep .luminosity h0 om zmax n (i + 1)
    set s := step zmax n
    set Z := zAt zmax n (i + 1)
    set D := (nodeAt .luminosity h0 om zmax n i).dc
    have hE' : 0 < E' := (cstep_ratio hh ho ho' hz hn .luminosity (i + 1)).1
    refine ⟨by positivity, ?_, ?_⟩
    · have : E' * (1 + (Z + s)) ≤ E * (1 + (Z + s)) := mul_le_mul_of_nonneg_right b (by linarith)
      nlinarith [mul_nonneg hs.le (mul_nonneg a.le z1), mul_nonneg hs.le (mul_nonneg d0 hs.le), mul_nonneg (mul_nonneg hs.le hs.le) (mul_nonneg a.le z1), mul_nonneg (mul_nonneg hs.le hs.le) (mul_nonneg d0 hs.le),
        mul_nonneg (mul_nonneg hs.le hs.le) a.le]
    · have h1 : E * (1 + Z) ≤ (1 + s) ^ 2 * E' * (1 + Z) := mul_le_mul_of_nonneg_right c (by linarith)
      have h2 : D * s ≤ (1 + s) ^ 2 * ((D + E) * s) := by
        have : 0 ≤ (D + E) * s := by positivity
        nlinarith [mul_nonneg a.le hs.le]
      have h3 : 0 ≤ (1 + s) ^ 2 * E' * s := by positivity
      nlinarith
end

/-- The trapezoid rule for `x ^ 2` over one cell. -/
theorem trap_sq (x y h : ℝ) (hx : 0 ≤ x) (hy : x ≤ y) (hh : y - x ≤ h) :
    (y ^ 3 - x ^ 3) / 3 ≤ (x ^ 2 + y ^ 2) / 2 * (y - x) ∧ (x ^ 2 + y ^ 2) / 2 * (y - x) ≤ (y ^ 3 - x ^ 3) / 3 + h ^ 2 * (y - x) / 6 := by
  have e : (x ^ 2 + y ^ 2) / 2 * (y - x) - (y ^ 3 - x ^ 3) / 3 = (y - x) ^ 2 * (y - x) / 6 := by ring
  have h0 : 0 ≤ y - x := by linarith
  have h1 : 0 ≤ (y - x) ^ 2 * (y - x) := by positivity
  have h2 : (y - x) ^ 2 ≤ h ^ 2 := pow_le_pow_left₀ h0 hh 2
  have h3 := mul_le_mul_of_nonneg_right h2 h0
  constructor <;> linarith

/-- The contribution of one end of a cell. -/
theorem half_cell (x f g δ r rl rh e s K A : ℝ) (hK : 1 ≤ K) (hA : 0 < A) (hg : 0 < g) (hδ : 0 < δ) (hs : 0 < s) (hf : 0 < f) (he : 0 < e) (hrl : 0 ≤ rl) (h1 : rl ≤ r) (h2 : r ≤ rh)
    (g1 : g * s ≤ K * δ) (g2 : δ ≤ K * (g * s)) (f1 : e ≤ K * (A * (f * s))) (f2 : A * (f * s) ≤ K * e) :
    rl * (x ^ 2 * e) ≤ K ^ 2 * (A * (x ^ 2 * f / g * r * δ)) ∧ A * (x ^ 2 * f / g * r * δ) ≤ K ^ 2 * (rh * (x ^ 2 * e)) := by
  have hr : 0 ≤ r := hrl.trans h1
  have q : A * (x ^ 2 * f / g * r * δ) = r * (x ^ 2 * (A * (f * s) * (δ / (g * s)))) := by field_simp
  have u1 : δ / (g * s) ≤ K := by rw [div_le_iff₀ (by positivity)]; exact g2
  have u2 : 1 ≤ K * (δ / (g * s)) := by rw [← mul_div_assoc, one_le_div (by positivity)]; exact g1
  have u0 : 0 < δ / (g * s) := by positivity
  set q' := δ / (g * s)
  have w0 : 0 < A * (f * s) := by positivity
  set F := A * (f * s)
  rw [q]
  have v1 : e ≤ K ^ 2 * (F * q') := by
    calc e ≤ K * F := f1
      _ = K * F * 1 := by ring
      _ ≤ K * F * (K * q') := mul_le_mul_of_nonneg_left u2 (by positivity)
      _ = _ := by ring
  have v2 : F * q' ≤ K ^ 2 * e := by
    calc F * q' ≤ (K * e) * K := mul_le_mul f2 u1 u0.le (by positivity)
      _ = _ := by ring
  have x0 : 0 ≤ x ^ 2 := by positivity
  constructor
  · calc rl * (x ^ 2 * e) ≤ r * (x ^ 2 * (K ^ 2 * (F * q'))) := mul_le_mul h1 (mul_le_mul_of_nonneg_left v1 x0) (by positivity) hr
      _ = _ := by ring
  · calc r * (x ^ 2 * (F * q')) ≤ rh * (x ^ 2 * (K ^ 2 * e)) := mul_le_mul h2 (mul_le_mul_of_nonneg_left v2 x0) (by positivity) (hr.trans h2)
      _ = _ := by ring

section
variable {rate : ℝ → ℝ} {minimum maximum : ℝ} {t : DistanceType} {h0 om zmax : ℝ} {n : ℕ} {v : Volume} {a : ℕ}
variable (B : Built rate minimum maximum t h0 om zmax n v a) (hh : 0 < h0) (ho : 0 ≤ om) (ho' : om ≤ 1) (hz : 0 < zmax) (hn : 2 ≤ n) (hr : ∀ z, 0 ≤ z → 0 < rate z)

theorem Built.dz_eq (B : Built rate minimum maximum t h0 om zmax n v a) : v.dz = step zmax n := by rw [B.edz]; rfl

include B hh ho ho' hz hn hr in
theorem Built.gradient_near (j : ℕ) (hj : j + 1 < v.n) :
    (gradient v.n v.dist v.dz j * v.dz ≤ (1 + v.dz) ^ 2 * (v.dist (j + 1) - v.dist j) ∧ v.dist (j + 1) - v.dist j ≤ (1 + v.dz) ^ 2 * (gradient v.n v.dist v.dz j * v.dz)) ∧
    (gradient v.n v.dist v.dz (j + 1) * v.dz ≤ (1 + v.dz) ^ 2 * (v.dist (j + 1) - v.dist j) ∧
      v.dist (j + 1) - v.dist j ≤ (1 + v.dz) ^ 2 * (gradient v.n v.dist v.dz (j + 1) * v.dz)) := by
  have hs := step_pos hz hn
  have hd : ∀ k, k + 1 < v.n → v.dist (k + 1) - v.dist k = dstep t h0 om zmax n (a + k) := by
    intro k hk
    rw [B.dist_eq k (by omega), B.dist_eq (k + 1) hk]; rfl
  rw [B.dz_eq]
  have hK : 1 ≤ (1 + step zmax n) ^ 2 := one_le_pow₀ (by linarith)
  constructor
  · obtain ⟨p, _, _⟩ := dstep_ratio hh ho ho' hz hn t (a + j)
    by_cases h : j = 0
    · subst h
      unfold gradient
      rw [if_pos rfl, div_mul_cancel₀ _ hs.ne', hd 0 hj]
      constructor <;> nlinarith
    · obtain ⟨k, rfl⟩ : ∃ k, j = k + 1 := ⟨j - 1, by omega⟩
      obtain ⟨p', u, w⟩ := dstep_ratio hh ho ho' hz hn t (a + k)
      unfold gradient
      rw [if_neg (by omega), if_neg (by omega)]
      have e : (v.dist (k + 1 + 1) - v.dist (k + 1 - 1)) / (2 * step zmax n) * step zmax n = (dstep t h0 om zmax n (a + k) + dstep t h0 om zmax n (a + k + 1)) / 2 := by
        have q1 := hd k (by omega)
        have q2 := hd (k + 1) hj
        rw [← add_assoc] at q2
        rw [← q1, ← q2, Nat.add_sub_cancel]
        field_simp
        ring
      rw [e, hd (k + 1) hj, ← add_assoc]
      rw [← add_assoc] at p
      constructor <;> nlinarith
  · obtain ⟨p, u, w⟩ := dstep_ratio hh ho ho' hz hn t (a + j)
    by_cases h : j + 1 + 1 = v.n
    · unfold gradient
      rw [if_neg (by omega), if_pos h, Nat.add_sub_cancel, div_mul_cancel₀ _ hs.ne', hd j hj]
      constructor <;> nlinarith
    · unfold gradient
      rw [if_neg (by omega), if_neg h]
      have p' := (dstep_ratio hh ho ho' hz hn t (a + j + 1)).1
      have e : (v.dist (j + 1 + 1) - v.dist (j + 1 - 1)) / (2 * step zmax n) * step zmax n = (dstep t h0 om zmax n (a + j) + dstep t h0 om zmax n (a + j + 1)) / 2 := by
        have q1 := hd j (by omega)
        have q2 := hd (j + 1) (by omega)
        rw [← add_assoc] at q2
        rw [← q1, ← q2, Nat.add_sub_cancel]
        field_simp
        ring
      rw [e, hd j hj]
      constructor <;> nlinarith

include B hh ho ho' hz hn hr in
/-- The unnormalised mass of one cell. -/
theorem Built.cell_mass (j : ℕ) (hj : j + 1 < v.n) (rl rh : ℝ) (hrl : 0 ≤ rl) (h1 : rl ≤ rate (v.z j) ∧ rate (v.z j) ≤ rh) (h2 : rl ≤ rate (v.z (j + 1)) ∧ rate (v.z (j + 1)) ≤ rh) :
    rl * ((v.dc j ^ 2 + v.dc (j + 1) ^ 2) / 2 * (v.dc (j + 1) - v.dc j)) ≤
        (1 + v.dz) ^ 4 * (299792.458 * ((v.p j + v.p (j + 1)) / 2 * (v.dist (j + 1) - v.dist j))) ∧
      299792.458 * ((v.p j + v.p (j + 1)) / 2 * (v.dist (j + 1) - v.dist j)) ≤
        (1 + v.dz) ^ 4 * (rh * ((v.dc j ^ 2 + v.dc (j + 1) ^ 2) / 2 * (v.dc (j + 1) - v.dc j))) := by
  have hs := step_pos hz hn
  obtain ⟨⟨a1, a2⟩, b1, b2⟩ := B.gradient_near hh ho ho' hz hn hr j hj
  have g0 := B.gradient_pos hh ho ho' hz hn hr j (by omega)
  have g1 := B.gradient_pos hh ho ho' hz hn hr (j + 1) hj
  have hδ : 0 < v.dist (j + 1) - v.dist j := sub_pos.2 (B.dist_incr hh ho ho' hz hn hr j (j + 1) (by omega) hj)
  have f0 := invH_pos hh ho ho' hz hn (a + j)
  have f1 := invH_pos hh ho ho' hz hn (a + j + 1)
  have m0 := invH_anti hh ho ho' hz hn (a + j)
  have m1 := invH_step hh ho ho' hz hn (a + j)
  obtain ⟨hc, _, _⟩ := cstep_ratio hh ho ho' hz hn t (a + j)
  have ec : v.dc (j + 1) - v.dc j = cstep t h0 om zmax n (a + j) := by rw [B.dc_eq j (by omega), B.dc_eq (j + 1) hj]; rfl
  have p0 : v.p j = v.dc j ^ 2 * invH h0 om zmax n (a + j) / gradient v.n v.dist v.dz j * rate (v.z j) := by
    unfold Volume.p invH; rw [B.eh0, B.eom, B.erate, B.z_eq j (by omega)]; ring
  have p1 : v.p (j + 1) = v.dc (j + 1) ^ 2 * invH h0 om zmax n (a + j + 1) / gradient v.n v.dist v.dz (j + 1) * rate (v.z (j + 1)) := by
    unfold Volume.p invH; rw [B.eh0, B.eom, B.erate, B.z_eq (j + 1) hj]; ring_nf
  rw [B.dz_eq] at *
  have hK : 1 ≤ (1 + step zmax n) ^ 2 := one_le_pow₀ (by linarith)
  have ce := cstep_eq (h0 := h0) (om := om) (zmax := zmax) (n := n) t (a + j)
  have e4 : (1 + step zmax n) ^ 4 = ((1 + step zmax n) ^ 2) ^ 2 := by ring
  rw [e4]
  generalize (1 + step zmax n) ^ 2 = K at *
  have k0 : invH h0 om zmax n (a + j) ≤ K * invH h0 om zmax n (a + j) := le_mul_of_one_le_left f0.le hK
  have k1 : invH h0 om zmax n (a + j + 1) ≤ K * invH h0 om zmax n (a + j + 1) := le_mul_of_one_le_left f1.le hK
  have q0 := half_cell (v.dc j) _ _ _ (rate (v.z j)) rl rh _ (step zmax n) _ 299792.458 hK (by norm_num) g0 hδ hs f0 hc hrl h1.1 h1.2 a1 a2
    (by rw [ce]
        have : (invH h0 om zmax n (a + j) + invH h0 om zmax n (a + j + 1)) / 2 ≤ K * invH h0 om zmax n (a + j) := by linarith
        have := mul_le_mul_of_nonneg_right this hs.le
        linarith)
    (by rw [ce]
        have : invH h0 om zmax n (a + j) ≤ K * ((invH h0 om zmax n (a + j) + invH h0 om zmax n (a + j + 1)) / 2) := by linarith
        have := mul_le_mul_of_nonneg_right this hs.le
        linarith)
  have q1 := half_cell (v.dc (j + 1)) _ _ _ (rate (v.z (j + 1))) rl rh _ (step zmax n) _ 299792.458 hK (by norm_num) g1 hδ hs f1 hc hrl h2.1 h2.2 b1 b2
    (by rw [ce]
        have : (invH h0 om zmax n (a + j) + invH h0 om zmax n (a + j + 1)) / 2 ≤ K * invH h0 om zmax n (a + j + 1) := by linarith
        have := mul_le_mul_of_nonneg_right this hs.le
        linarith)
    (by rw [ce]
        have : invH h0 om zmax n (a + j + 1) ≤ K * ((invH h0 om zmax n (a + j) + invH h0 om zmax n (a + j + 1)) / 2) := by linarith
        have := mul_le_mul_of_nonneg_right this hs.le
        linarith)
  rw [← p0, ← ec] at q0
  rw [← p1, ← ec] at q1
  constructor
  · linarith [q0.1, q1.1]
  · linarith [q0.2, q1.2]

include B hh ho ho' hz hn hr in
/-- The unnormalised mass between two grid points. -/
theorem Built.shell_mass (i m : ℕ) (hm : i + m < v.n) (rl rh : ℝ) (hrl : 0 ≤ rl) (hb : ∀ k, i ≤ k → k ≤ i + m → rl ≤ rate (v.z k) ∧ rate (v.z k) ≤ rh) :
    rl * ((v.dc (i + m) ^ 3 - v.dc i ^ 3) / 3) ≤ (1 + v.dz) ^ 4 * (299792.458 * (cumTrap v.dist v.p (i + m) - cumTrap v.dist v.p i)) ∧
      299792.458 * (cumTrap v.dist v.p (i + m) - cumTrap v.dist v.p i) ≤
        (1 + v.dz) ^ 4 * (rh * ((v.dc (i + m) ^ 3 - v.dc i ^ 3) / 3 + (299792.458 / h0 * v.dz) ^ 2 * (v.dc (i + m) - v.dc i) / 6)) := by
  induction m with
  | zero => simp
  | succ m ih =>
    obtain ⟨l, u⟩ := ih (by omega) (fun k h1 h2 => hb k h1 (by omega))
    have c1 := hb (i + m) (by omega) (by omega)
    have c2 := hb (i + m + 1) (by omega) (by omega)
    obtain ⟨l', u'⟩ := B.cell_mass hh ho ho' hz hn hr (i + m) (by omega) rl rh hrl c1 c2
    have hrh : 0 ≤ rh := hrl.trans (c1.1.trans c1.2)
    rw [← add_assoc, cumTrap_succ]
    have hx : 0 ≤ v.dc (i + m) := by
      rw [B.dc_eq _ (by omega)]; exact dc_nonneg hh ho ho' hz hn t _ (by have := B.fits; omega)
    have ec : v.dc (i + m + 1) - v.dc (i + m) = cstep t h0 om zmax n (a + (i + m)) := by
      rw [B.dc_eq (i + m) (by omega), B.dc_eq (i + m + 1) (by omega)]; rfl
    have hs := step_pos hz hn
    have hcell : v.dc (i + m + 1) - v.dc (i + m) ≤ 299792.458 / h0 * v.dz := by
      rw [ec, cstep_eq, B.dz_eq]
      have top : ∀ k, invH h0 om zmax n k ≤ 1 / h0 := by
        intro k
        refine one_div_le_one_div_of_le hh ?_
        have := hubble_mono h0 om hh ho 0 (zAt zmax n k) (le_refl _) (zAt_nonneg zmax n k hz hn)
        have e0 : hubble h0 om 0 = h0 := by unfold hubble; simp
        rwa [e0] at this
      have h1 := top (a + (i + m))
      have h2 := top (a + (i + m) + 1)
      have : (invH h0 om zmax n (a + (i + m)) + invH h0 om zmax n (a + (i + m) + 1)) / 2 * step zmax n ≤ 1 / h0 * step zmax n := mul_le_mul_of_nonneg_right (by linarith) hs.le
      calc _ ≤ 299792.458 * (1 / h0 * step zmax n) := mul_le_mul_of_nonneg_left this (by norm_num)
        _ = _ := by ring
    have hpos := (cstep_ratio hh ho ho' hz hn t (a + (i + m))).1
    obtain ⟨t1, t2⟩ := trap_sq (v.dc (i + m)) (v.dc (i + m + 1)) _ hx (by linarith) hcell
    have t1' := mul_le_mul_of_nonneg_left t1 hrl
    have hK : (0 : ℝ) ≤ (1 + v.dz) ^ 4 := by rw [B.dz_eq]; positivity
    have t2' := mul_le_mul_of_nonneg_left (mul_le_mul_of_nonneg_left t2 hrh) hK
    constructor <;> nlinarith

include B hh ho ho' hz hn hr in
/-- The probability of a distance between two grid points is the increment of the cumulative table. -/
theorem Built.shell_prob (i j : ℕ) (hij : i ≤ j) (hj : j < v.n) :
    volume {u : ℝ | 0 ≤ u ∧ u < 1 ∧ v.dist i < v.sample u ∧ v.sample u ≤ v.dist j} = ENNReal.ofReal (v.cdf j - v.cdf i) := by
  have h2 := B.two
  have hd := B.dist_incr hh ho ho' hz hn hr
  obtain ⟨c0, c1, hc⟩ := volume_cdf B hh ho ho' hz hn hr
  have i0 : 0 ≤ v.cdf i := by have := hc.le (Nat.zero_le i) (by omega); rwa [c0] at this
  have j1 : v.cdf j ≤ 1 := by have := hc.le (show j ≤ v.n - 1 by omega) (by omega); rwa [c1] at this
  have key : ∀ u, (v.dist i < v.sample u ∧ v.sample u ≤ v.dist j) ↔ (v.cdf i < u ∧ u ≤ v.cdf j) := by
    intro u
    unfold Volume.sample
    rw [interp_le_node_iff v.n v.cdf v.dist hc hd h2 u j hj, ← not_le, interp_le_node_iff v.n v.cdf v.dist hc hd h2 u i (by omega), not_le]
  apply le_antisymm
  · calc _ ≤ volume (Set.Ioc (v.cdf i) (v.cdf j)) := measure_mono (by rintro u ⟨_, _, hu⟩; exact (key u).1 hu)
      _ = _ := Real.volume_Ioc
  · calc _ = volume (Set.Ioo (v.cdf i) (v.cdf j)) := Real.volume_Ioo.symm
      _ ≤ _ := measure_mono (by rintro u ⟨h3, h4⟩; exact ⟨i0.trans h3.le, h4.trans_le j1, (key u).2 ⟨h3, h4.le⟩⟩)

include B hh ho ho' hz hn hr in
/-- C101 for a constructed grid. -/
theorem Built.uniform : ∃ N : ℝ, 0 < N ∧ ∀ i j : ℕ, i ≤ j → j < v.n → ∃ P : ℝ, 0 ≤ P ∧
    volume {u : ℝ | 0 ≤ u ∧ u < 1 ∧ v.dist i < v.sample u ∧ v.sample u ≤ v.dist j} = ENNReal.ofReal P ∧
    ∀ rl rh : ℝ, 0 ≤ rl → (∀ k, i ≤ k → k ≤ j → rl ≤ rate (v.z k) ∧ rate (v.z k) ≤ rh) →
      N * (rl * (ball (v.dc j) - ball (v.dc i))) ≤ (1 + v.dz) ^ 4 * P ∧
      P ≤ (1 + v.dz) ^ 4 * (N * (rh * (ball (v.dc j) - ball (v.dc i) + 2 / 3 * Real.pi * (299792.458 / h0 * v.dz) ^ 2 * (v.dc j - v.dc i)))) := by
  have hN := B.norm_pos hh ho ho' hz hn hr
  obtain ⟨c0, c1, hc⟩ := volume_cdf B hh ho ho' hz hn hr
  have hcdf : ∀ i, v.cdf i = cumTrap v.dist v.p i / cumTrap v.dist v.p (v.n - 1) := by
    intro i
    unfold Volume.cdf cumTrap
    rw [sum_div]
    exact sum_congr rfl fun j _ => by unfold Volume.pdf cumTrap; ring
  have hA : (0 : ℝ) < 299792.458 * (4 * Real.pi) * cumTrap v.dist v.p (v.n - 1) := by positivity
  refine ⟨1 / (299792.458 * (4 * Real.pi) * cumTrap v.dist v.p (v.n - 1)), one_div_pos.2 hA, fun i j hij hj => ?_⟩
  obtain ⟨m, rfl⟩ := Nat.exists_eq_add_of_le hij
  refine ⟨v.cdf (i + m) - v.cdf i, sub_nonneg.2 (hc.le hij hj), B.shell_prob hh ho ho' hz hn hr i (i + m) hij hj, fun rl rh hrl hb => ?_⟩
  obtain ⟨l, u⟩ := B.shell_mass hh ho ho' hz hn hr i m hj rl rh hrl hb
  have hpi : (0 : ℝ) < 4 * Real.pi := by positivity
  have l' := mul_le_mul_of_nonneg_left l hpi.le
  have u' := mul_le_mul_of_nonneg_left u hpi.le
  rw [hcdf, hcdf, ← sub_div]
  unfold ball
  constructor
  · rw [one_div_mul_eq_div, div_le_iff₀ hA]
    have e : (1 + v.dz) ^ 4 * ((cumTrap v.dist v.p (i + m) - cumTrap v.dist v.p i) / cumTrap v.dist v.p (v.n - 1)) * (299792.458 * (4 * Real.pi) * cumTrap v.dist v.p (v.n - 1)) =
        4 * Real.pi * ((1 + v.dz) ^ 4 * (299792.458 * (cumTrap v.dist v.p (i + m) - cumTrap v.dist v.p i))) := by field_simp
    rw [e]
    linarith
  · rw [div_le_iff₀ hN]
    have e : ∀ X : ℝ, (1 + v.dz) ^ 4 * (1 / (299792.458 * (4 * Real.pi) * cumTrap v.dist v.p (v.n - 1)) * X) * cumTrap v.dist v.p (v.n - 1) = (1 + v.dz) ^ 4 * X / (299792.458 * (4 * Real.pi)) := by
      intro X; field_simp
    rw [e, le_div_iff₀ (by positivity)]
    linarith
end

theorem built_of_ok (rate : ℝ → ℝ) (minimum maximum : ℝ) (s : String) (h0 om zmax : ℝ) (n : ℕ) (v : Volume) (hh : 0 < h0) (ho : 0 ≤ om) (ho' : om ≤ 1) (hz : 0 < zmax)
    (hv : Volume.init rate minimum maximum s h0 om zmax n = .ok v) : ∃ t a, parseType s = .ok t ∧ 2 ≤ n ∧ Built rate minimum maximum t h0 om zmax n v a := by
  cases ht : parseType s with
  | error e => unfold Volume.init at hv; rw [ht] at hv; cases hv
  | ok t =>
    by_cases hn : n < 2
    · rw [(volume_init_reject rate minimum maximum s h0 om zmax n).2 t ht hn] at hv; cases hv
    · have h := volume_init rate minimum maximum s t h0 om zmax n ht hh ho ho' hz (by omega)
      by_cases hm : (nodeAt t h0 om zmax n (n - 1)).dist < maximum
      · rw [h.1.2 hm] at hv; cases hv
      · have h2 := h.2 (not_lt.1 hm)
        split_ifs at h2 with hc
        · rw [h2] at hv; cases hv
        · obtain ⟨v', a, e, B⟩ := h2
          rw [e] at hv
          cases hv
          exact ⟨t, a, rfl, by omega, B⟩

/-- **C101.**  In every distribution that can be built, the comoving distance tabulated for redshift `z` differs from `c ∫ dz / H` of the flat universe by at most `c dz / 2 (1 / H(0) - 1 / H(z))`, and the sampled quantity at that grid point
is the redshift, that distance or `1 + z` times it, according to the distance type. -/
theorem volume_distances (rate : ℝ → ℝ) (minimum maximum : ℝ) (s : String) (h0 om zmax : ℝ) (n : ℕ) (v : Volume) (hh : 0 < h0) (ho : 0 ≤ om) (ho' : om ≤ 1) (hz : 0 < zmax)
    (hv : Volume.init rate minimum maximum s h0 om zmax n = .ok v) (i : ℕ) (hi : i < v.n) :
    0 ≤ v.z i ∧ v.z i ≤ zmax ∧
    |v.dc i - comoving h0 om (v.z i)| ≤ 299792.458 * (zmax / (n - 1) / 2 * (1 / expansion h0 om 0 - 1 / expansion h0 om (v.z i))) ∧
    (s = "redshift" → v.dist i = v.z i) ∧ (s = "comoving_distance" → v.dist i = v.dc i) ∧ (s = "luminosity_distance" → v.dist i = (1 + v.z i) * v.dc i) := by
  obtain ⟨t, a, ht, hn, B⟩ := built_of_ok rate minimum maximum s h0 om zmax n v hh ho ho' hz hv
  have hfit := B.fits
  rw [B.z_eq i hi, B.dc_eq i hi, B.dist_eq i hi]
  refine ⟨zAt_nonneg zmax n _ hz hn, ?_, comoving_table hh ho ho' hz hn t (a + i), ?_, ?_, ?_⟩
  · have := (zAt_incr zmax n hz hn).le (show a + i ≤ n - 1 by omega) (by omega)
    rwa [zAt_last zmax n hn] at this
  all_goals
    intro hs
    subst hs
    simp [parseType] at ht
    subst ht
    unfold nodeAt
    dsimp only
  ring

/-- **C101.**  The samples are uniform in comoving volume times the rate, whichever distance is sampled: there is a constant such that the probability of landing between two grid points is that constant times the comoving volume
between them times the rate, within the factor `(1 + dz) ^ 4` and the volume error of one grid cell squared. -/
theorem uniform_in_comoving_volume (rate : ℝ → ℝ) (minimum maximum : ℝ) (s : String) (h0 om zmax : ℝ) (n : ℕ) (v : Volume) (hh : 0 < h0) (ho : 0 ≤ om) (ho' : om ≤ 1) (hz : 0 < zmax)
    (hr : ∀ z, 0 ≤ z → 0 < rate z) (hv : Volume.init rate minimum maximum s h0 om zmax n = .ok v) :
    ∃ N : ℝ, 0 < N ∧ ∀ i j : ℕ, i ≤ j → j < v.n → ∃ P : ℝ, 0 ≤ P ∧
      volume {u : ℝ | 0 ≤ u ∧ u < 1 ∧ v.dist i < v.sample u ∧ v.sample u ≤ v.dist j} = ENNReal.ofReal P ∧
      ∀ rl rh : ℝ, 0 ≤ rl → (∀ k, i ≤ k → k ≤ j → rl ≤ rate (v.z k) ∧ rate (v.z k) ≤ rh) →
        N * (rl * (ball (v.dc j) - ball (v.dc i))) ≤ (1 + zmax / (n - 1)) ^ 4 * P ∧
        P ≤ (1 + zmax / (n - 1)) ^ 4 * (N * (rh * (ball (v.dc j) - ball (v.dc i) + 2 / 3 * Real.pi * (299792.458 / h0 * (zmax / (n - 1))) ^ 2 * (v.dc j - v.dc i)))) := by
  obtain ⟨t, a, ht, hn, B⟩ := built_of_ok rate minimum maximum s h0 om zmax n v hh ho ho' hz hv
  have h := B.uniform hh ho ho' hz hn hr
  rw [B.edz] at h
  exact h

/-- Non-vacuity: `UniformComovingVolume(0, 2)` with six grid points up to redshift 5; the first cell. -/
example : ∃ v N, Volume.init (fun _ => 1) 0 2 "redshift" 67.66 0.30966 5 6 = .ok v ∧ 0 < N ∧
    ∃ P, volume {u : ℝ | 0 ≤ u ∧ u < 1 ∧ v.dist 0 < v.sample u ∧ v.sample u ≤ v.dist 1} = ENNReal.ofReal P ∧ N * (1 * (ball (v.dc 1) - ball (v.dc 0))) ≤ (1 + 5 / (((6 : ℕ) : ℝ) - 1)) ^ 4 * P := by
  have h := (volume_init (fun _ => 1) 0 2 "redshift" .redshift 67.66 0.30966 5 6 (by simp [parseType]) (by norm_num) (by norm_num) (by norm_num) (by norm_num) (by norm_num)).2
    (by simp [nodeAt, zAt]; norm_num)
  rw [if_neg] at h
  · obtain ⟨v, a, h1, h2⟩ := h
    obtain ⟨N, hN, hP⟩ := uniform_in_comoving_volume (fun _ => 1) 0 2 "redshift" 67.66 0.30966 5 6 v (by norm_num) (by norm_num) (by norm_num) (by norm_num) (fun _ _ => one_pos) h1
    obtain ⟨P, _, e, hb⟩ := hP 0 1 (by norm_num) (by have := h2.two; omega)
    exact ⟨v, N, h1, hN, P, e, (hb 1 1 (by norm_num) (fun k _ _ => ⟨le_refl _, le_refl _⟩)).1⟩
  · rw [not_lt]
    have : ({0, 1} : Finset ℕ) ⊆ (range 6).filter fun i => (0 : ℝ) ≤ (nodeAt .redshift 67.66 0.30966 5 6 i).dist ∧ (nodeAt .redshift 67.66 0.30966 5 6 i).dist ≤ 2 := by
      intro i hi
      simp only [mem_insert, mem_singleton] at hi
      rcases hi with rfl | rfl <;> simp [nodeAt, zAt] <;> norm_num
    exact (by simp : ({0, 1} : Finset ℕ).card = 2) ▸ card_le_card this

end Verif.Distributions
