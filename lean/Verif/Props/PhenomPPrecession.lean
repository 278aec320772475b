import Verif.Props.PhenomPMinimal
import Verif.Spec.Precession
import Mathlib.MeasureTheory.Integral.IntervalIntegral.Basic
import Mathlib.Analysis.SpecialFunctions.Integrals.Basic
/-!
# C102: the Euler angles of `IMRPhenomPv2` advance at the post-Newtonian precession rate
-/
namespace Verif.PhenomP
open CbcUtils TaylorF2 PhenomD PhenomPSpec ConvSpec PrecessionSpec
open Conversion hiding mtsun
open Filter Topology Asymptotics

/-! ## The orbit average of a length, expanded -/

section
variable (s l2 l3 p cn cl : ℝ)

/-- The square of the length, at velocity `v` and `c = cos² φ`. -/
noncomputable def jj (v c : ℝ) : ℝ := (1 + s * v + l2 * v ^ 2 + l3 * v ^ 3) ^ 2 + p ^ 2 * v ^ 2 * (c * (1 + cn * v ^ 2) ^ 2 + (1 - c) * (1 + cl * v ^ 2) ^ 2)

/-- The fourth coefficient of the length. -/
noncomputable def a4 (c : ℝ) : ℝ := p ^ 2 / 2 * (s ^ 2 - l2) + p ^ 2 * (c * cn + (1 - c) * cl) - p ^ 4 / 8

/-- The length through `v⁴`. -/
noncomputable def aa (v c : ℝ) : ℝ := 1 + s * v + (l2 + p ^ 2 / 2) * v ^ 2 + (l3 - p ^ 2 * s / 2) * v ^ 3 + a4 s l2 p cn cl c * v ^ 4

theorem jj_aa : ∃ K : ℝ, 0 < K ∧ ∀ v c : ℝ, 0 ≤ v → v ≤ 1 → 0 ≤ c → c ≤ 1 →
    |jj s l2 l3 p cn cl v c - aa s l2 l3 p cn cl v c ^ 2| ≤ K * v ^ 5 ∧ |aa s l2 l3 p cn cl v c - 1| ≤ K * v := by
  have hc : IsCompact (Set.Icc (0 : ℝ) 1 ×ˢ Set.Icc (0 : ℝ) 1) := isCompact_Icc.prod isCompact_Icc
  obtain ⟨K1, h1⟩ := hc.exists_bound_of_continuousOn (f := fun x : ℝ × ℝ =>
    (2 * l2 * l3 - 2 * (s * a4 s l2 p cn cl x.2 + (l2 + p ^ 2 / 2) * (l3 - p ^ 2 * s / 2)))
      + x.1 * (l3 ^ 2 + p ^ 2 * (x.2 * cn ^ 2 + (1 - x.2) * cl ^ 2) - 2 * (l2 + p ^ 2 / 2) * a4 s l2 p cn cl x.2 - (l3 - p ^ 2 * s / 2) ^ 2)
      - 2 * (l3 - p ^ 2 * s / 2) * a4 s l2 p cn cl x.2 * x.1 ^ 2 - a4 s l2 p cn cl x.2 ^ 2 * x.1 ^ 3) (by unfold a4; fun_prop)
  obtain ⟨K2, h2⟩ := hc.exists_bound_of_continuousOn (f := fun x : ℝ × ℝ =>
    s + (l2 + p ^ 2 / 2) * x.1 + (l3 - p ^ 2 * s / 2) * x.1 ^ 2 + a4 s l2 p cn cl x.2 * x.1 ^ 3) (by unfold a4; fun_prop)
  refine ⟨max 1 (max K1 K2), by positivity, fun v c v0 v1 c0 c1 => ⟨?_, ?_⟩⟩
  · have h := h1 (v, c) ⟨⟨v0, v1⟩, c0, c1⟩
    rw [Real.norm_eq_abs] at h
    have e : jj s l2 l3 p cn cl v c - aa s l2 l3 p cn cl v c ^ 2 = ((2 * l2 * l3 - 2 * (s * a4 s l2 p cn cl c + (l2 + p ^ 2 / 2) * (l3 - p ^ 2 * s / 2)))
      + v * (l3 ^ 2 + p ^ 2 * (c * cn ^ 2 + (1 - c) * cl ^ 2) - 2 * (l2 + p ^ 2 / 2) * a4 s l2 p cn cl c - (l3 - p ^ 2 * s / 2) ^ 2)
      - 2 * (l3 - p ^ 2 * s / 2) * a4 s l2 p cn cl c * v ^ 2 - a4 s l2 p cn cl c ^ 2 * v ^ 3) * v ^ 5 := by
      unfold jj aa a4; ring
    rw [e, abs_mul, abs_of_nonneg (show 0 ≤ v ^ 5 by positivity)]
    exact mul_le_mul_of_nonneg_right (h.trans ((le_max_left _ _).trans (le_max_right _ _))) (by positivity)
  · have h := h2 (v, c) ⟨⟨v0, v1⟩, c0, c1⟩
    rw [Real.norm_eq_abs] at h
    have e : aa s l2 l3 p cn cl v c - 1 = (s + (l2 + p ^ 2 / 2) * v + (l3 - p ^ 2 * s / 2) * v ^ 2 + a4 s l2 p cn cl c * v ^ 3) * v := by unfold aa; ring
    rw [e, abs_mul, abs_of_nonneg v0]
    exact mul_le_mul_of_nonneg_right (h.trans ((le_max_right _ _).trans (le_max_right _ _))) v0

theorem sqrt_jj : ∃ K δ : ℝ, 0 < δ ∧ ∀ v c : ℝ, 0 ≤ v → v ≤ δ → 0 ≤ c → c ≤ 1 → |Real.sqrt (jj s l2 l3 p cn cl v c) - aa s l2 l3 p cn cl v c| ≤ K * v ^ 5 := by
  obtain ⟨K, K0, h⟩ := jj_aa s l2 l3 p cn cl
  refine ⟨2 * K, min 1 (1 / (2 * K)), by positivity, fun v c v0 v1 c0 c1 => ?_⟩
  obtain ⟨e1, e2⟩ := h v c v0 (v1.trans (min_le_left _ _)) c0 c1
  have hv : K * v ≤ 1 / 2 := by
    have := v1.trans (min_le_right _ _)
    rw [le_div_iff₀ (by positivity)] at this
    linarith
  have ha : 1 / 2 ≤ aa s l2 l3 p cn cl v c := by have := (abs_le.1 e2).1; linarith
  have hj : 0 ≤ jj s l2 l3 p cn cl v c := by
    unfold jj
    have : 0 ≤ 1 - c := by linarith
    positivity
  have hs := Real.sq_sqrt hj
  have h0 := Real.sqrt_nonneg (jj s l2 l3 p cn cl v c)
  generalize Real.sqrt (jj s l2 l3 p cn cl v c) = w at *
  generalize aa s l2 l3 p cn cl v c = a at *
  rw [← hs, show w ^ 2 - a ^ 2 = (w - a) * (w + a) by ring, abs_mul, abs_of_pos (show 0 < w + a by linarith)] at e1
  nlinarith [abs_nonneg (w - a)]

/-- The averaged length through `v⁴`. -/
noncomputable def aBar (v : ℝ) : ℝ := 1 + s * v + (l2 + p ^ 2 / 2) * v ^ 2 + (l3 - p ^ 2 * s / 2) * v ^ 3 + (p ^ 2 / 2 * (s ^ 2 - l2) + p ^ 2 * (3 / 4 * cn + 1 / 4 * cl) - p ^ 4 / 8) * v ^ 4

theorem avg_aa (v : ℝ) : 1 / (2 * Real.pi) * ∫ φ in (0 : ℝ)..(2 * Real.pi), 2 * Real.cos φ ^ 2 * aa s l2 l3 p cn cl v (Real.cos φ ^ 2) = aBar s l2 l3 p cn cl v := by
  have e2 : ∫ φ in (0 : ℝ)..(2 * Real.pi), Real.cos φ ^ 2 = Real.pi := by
    rw [integral_cos_sq]; simp
  have e4 : ∫ φ in (0 : ℝ)..(2 * Real.pi), Real.cos φ ^ 4 = 3 / 4 * Real.pi := by
    rw [show (4 : ℕ) = 2 + 2 by rfl, integral_cos_pow, e2]; simp; ring
  have e : ∀ φ : ℝ, 2 * Real.cos φ ^ 2 * aa s l2 l3 p cn cl v (Real.cos φ ^ 2) =
      2 * aa s l2 l3 p cn cl v 0 * Real.cos φ ^ 2 + 2 * (p ^ 2 * (cn - cl) * v ^ 4) * Real.cos φ ^ 4 := by
    intro φ; unfold aa a4; ring
  simp only [e]
  rw [intervalIntegral.integral_add (Continuous.intervalIntegrable (by fun_prop) _ _) (Continuous.intervalIntegrable (by fun_prop) _ _),
    intervalIntegral.integral_const_mul, intervalIntegral.integral_const_mul, e2, e4]
  have := Real.pi_pos
  field_simp
  unfold aa a4 aBar
  ring

theorem avg_sqrt : (fun v : ℝ => 1 / (2 * Real.pi) * (∫ φ in (0 : ℝ)..(2 * Real.pi), 2 * Real.cos φ ^ 2 * Real.sqrt (jj s l2 l3 p cn cl v (Real.cos φ ^ 2))) - aBar s l2 l3 p cn cl v)
    =O[𝓝[>] 0] fun v => v ^ 5 := by
  obtain ⟨K, δ, hδ, h⟩ := sqrt_jj s l2 l3 p cn cl
  refine IsBigO.of_bound (2 * K) ?_
  filter_upwards [Ioo_mem_nhdsGT hδ] with v hv
  have hv0 : 0 < v := hv.1
  rw [← avg_aa, ← mul_sub, ← intervalIntegral.integral_sub
    (Continuous.intervalIntegrable (by unfold jj; fun_prop) _ _) (Continuous.intervalIntegrable (by unfold aa a4; fun_prop) _ _)]
  have hb := intervalIntegral.norm_integral_le_of_norm_le_const (a := 0) (b := 2 * Real.pi) (C := 2 * K * v ^ 5)
    (f := fun φ => 2 * Real.cos φ ^ 2 * Real.sqrt (jj s l2 l3 p cn cl v (Real.cos φ ^ 2)) - 2 * Real.cos φ ^ 2 * aa s l2 l3 p cn cl v (Real.cos φ ^ 2)) (by
      intro φ _
      have := h v (Real.cos φ ^ 2) hv0.le hv.2.le (sq_nonneg _) (Real.cos_sq_le_one φ)
      rw [← mul_sub, Real.norm_eq_abs, abs_mul, abs_of_nonneg (show 0 ≤ 2 * Real.cos φ ^ 2 by positivity)]
      have := Real.cos_sq_le_one φ
      nlinarith [abs_nonneg (Real.sqrt (jj s l2 l3 p cn cl v (Real.cos φ ^ 2)) - aa s l2 l3 p cn cl v (Real.cos φ ^ 2)), sq_nonneg (Real.cos φ)])
  have hp := Real.pi_pos
  rw [norm_mul, Real.norm_eq_abs (1 / (2 * Real.pi)), abs_of_pos (by positivity), Real.norm_eq_abs (v ^ 5), abs_of_pos (by positivity), one_div, inv_mul_le_iff₀ (by positivity)]
  refine hb.trans (le_of_eq ?_)
  rw [sub_zero, abs_of_pos (by positivity)]
  ring
end

/-! ## A quotient of series -/

/-- The ratio of a rate to the growth of the velocity, through `v⁴`. -/
theorem ratio_series (o0 o2 o4 a1 a2 a3 a4 V2 V3 V4 l t0 t1 t2 t3 t4 : ℝ) (avg : ℝ → ℝ)
    (ha : (fun v : ℝ => avg v - (1 + a1 * v + a2 * v ^ 2 + a3 * v ^ 3 + a4 * v ^ 4)) =O[𝓝[>] 0] fun v => v ^ 5)
    (h0 : t0 = o0) (h1 : t1 = o0 * a1) (h2 : t2 = o0 * a2 + o2 - t0 * (V2 + l)) (h3 : t3 = o0 * a3 + o2 * a1 - t1 * (V2 + l) - t0 * V3)
    (h4 : t4 = o0 * a4 + o2 * a2 + o4 - t2 * (V2 + l) - t1 * V3 - t0 * (V4 + V2 * l)) :
    (fun v : ℝ => (o0 + o2 * v ^ 2 + o4 * v ^ 4) * avg v / ((1 + V2 * v ^ 2 + V3 * v ^ 3 + V4 * v ^ 4) * (1 + l * v ^ 2)) - (t0 + t1 * v + t2 * v ^ 2 + t3 * v ^ 3 + t4 * v ^ 4))
      =O[𝓝[>] 0] fun v => v ^ 5 := by
  have hcW : ContinuousAt (fun v : ℝ => (1 + V2 * v ^ 2 + V3 * v ^ 3 + V4 * v ^ 4) * (1 + l * v ^ 2)) 0 := by fun_prop
  have hg : ∀ᶠ v in 𝓝[>] (0 : ℝ), (1 + V2 * v ^ 2 + V3 * v ^ 3 + V4 * v ^ 4) * (1 + l * v ^ 2) ≠ 0 := by
    have h := hcW.tendsto
    norm_num at h
    exact (h.mono_left nhdsWithin_le_nhds).eventually (isOpen_ne.mem_nhds one_ne_zero)
  have hN : (fun v : ℝ => (o0 + o2 * v ^ 2 + o4 * v ^ 4) / ((1 + V2 * v ^ 2 + V3 * v ^ 3 + V4 * v ^ 4) * (1 + l * v ^ 2))) =O[𝓝[>] 0] fun _ => (1 : ℝ) := by
    have hc : ContinuousAt (fun v : ℝ => (o0 + o2 * v ^ 2 + o4 * v ^ 4) / ((1 + V2 * v ^ 2 + V3 * v ^ 3 + V4 * v ^ 4) * (1 + l * v ^ 2))) 0 :=
      ContinuousAt.div (by fun_prop) hcW (by norm_num)
    exact (hc.tendsto.mono_left (nhdsWithin_le_nhds (s := Set.Ioi 0))).isBigO_one ℝ
  have hQ : (fun v : ℝ => (((o2 * a3 + o4 * a1) - (t0 * (V3 * l) + t1 * (V4 + V2 * l) + t2 * V3 + t3 * (V2 + l)))
      + ((o2 * a4 + o4 * a2) - (t0 * (V4 * l) + t1 * (V3 * l) + t2 * (V4 + V2 * l) + t3 * V3 + t4 * (V2 + l))) * v
      + (o4 * a3 - (t1 * (V4 * l) + t2 * (V3 * l) + t3 * (V4 + V2 * l) + t4 * V3)) * v ^ 2
      + (o4 * a4 - (t2 * (V4 * l) + t3 * (V3 * l) + t4 * (V4 + V2 * l))) * v ^ 3
      - (t3 * (V4 * l) + t4 * (V3 * l)) * v ^ 4 - t4 * (V4 * l) * v ^ 5) / ((1 + V2 * v ^ 2 + V3 * v ^ 3 + V4 * v ^ 4) * (1 + l * v ^ 2))) =O[𝓝[>] 0] fun _ => (1 : ℝ) := by
    have hc := ContinuousAt.div (f := fun v : ℝ => (((o2 * a3 + o4 * a1) - (t0 * (V3 * l) + t1 * (V4 + V2 * l) + t2 * V3 + t3 * (V2 + l)))
      + ((o2 * a4 + o4 * a2) - (t0 * (V4 * l) + t1 * (V3 * l) + t2 * (V4 + V2 * l) + t3 * V3 + t4 * (V2 + l))) * v
      + (o4 * a3 - (t1 * (V4 * l) + t2 * (V3 * l) + t3 * (V4 + V2 * l) + t4 * V3)) * v ^ 2
      + (o4 * a4 - (t2 * (V4 * l) + t3 * (V3 * l) + t4 * (V4 + V2 * l))) * v ^ 3
      - (t3 * (V4 * l) + t4 * (V3 * l)) * v ^ 4 - t4 * (V4 * l) * v ^ 5)) (a := 0) (by fun_prop) hcW (by norm_num)
    exact (hc.tendsto.mono_left (nhdsWithin_le_nhds (s := Set.Ioi 0))).isBigO_one ℝ
  have e1 := hN.mul ha
  have e2 := hQ.mul (isBigO_refl (fun v : ℝ => v ^ 5) (𝓝[>] 0))
  simp only [one_mul] at e1 e2
  refine (e1.add e2).congr' ?_ .rfl
  filter_upwards [hg] with v hv
  rw [eq_sub_iff_add_eq, eq_div_iff hv, div_mul_eq_mul_div, div_mul_eq_mul_div, add_mul, add_mul, div_mul_cancel₀ _ hv, div_mul_cancel₀ _ hv, h4, h3, h2, h1, h0]
  ring

/-! ## The coefficients -/

/-- The rounding errors of the two other literals. -/
noncomputable def k3Err : ℝ := 5515 / 3072 - 1.7952473958333333
noncomputable def k5Err : ℝ := 4.318908476114694 - 40121485 / 9289728

section
variable (X Y chil chip : ℝ)

noncomputable def po0 : ℝ := 3 / 4 + X * Y / 2 - 3 / 4 * (X - Y)
noncomputable def po2 : ℝ := 9 / 16 + 5 / 4 * (X * Y) - (X * Y) ^ 2 / 24 + (X - Y) * (-9 / 16 + 5 / 8 * (X * Y))
noncomputable def po4 : ℝ := 27 / 32 + 3 / 16 * (X * Y) - 105 / 32 * (X * Y) ^ 2 - (X * Y) ^ 3 / 48 + (X - Y) * (-27 / 32 + 39 / 8 * (X * Y) - 5 / 32 * (X * Y) ^ 2)
noncomputable def pV2 : ℝ := -(743 / 336 + 11 / 4 * (X * Y))
noncomputable def pV3 : ℝ := 4 * Real.pi - chil * (113 / 12 * X ^ 2 + 25 / 4 * (X * Y))
noncomputable def pV4 : ℝ := 34103 / 18144 + 13661 / 2016 * (X * Y) + 59 / 18 * (X * Y) ^ 2
noncomputable def pl2 : ℝ := 3 / 2 + X * Y / 6
noncomputable def pl3 : ℝ := -35 / 6 * (X ^ 2 * chil) + 5 / 2 * ((X - Y) * X * chil)
noncomputable def ps : ℝ := X ^ 2 * chil / (X * Y)
noncomputable def pcl : ℝ := -2 * (X * Y) - Y ^ 2

end

section
variable (q chil chip : ℝ) (hq : 0 < q)
include hq

theorem coef1 : 32 / 5 * (q / (1 + q) * (1 / (1 + q))) * (-3 * (alphaC1 q chil chip - k1Err)) = po0 (q / (1 + q)) (1 / (1 + q)) := by
  have h1 : 0 < 1 + q := by linarith
  unfold alphaC1 po0 k1Err abbr
  dsimp only
  field_simp
  ring

theorem coef2 : 32 / 5 * (q / (1 + q) * (1 / (1 + q))) * (-2 * alphaC2 q chil chip) = po0 (q / (1 + q)) (1 / (1 + q)) * ps (q / (1 + q)) (1 / (1 + q)) chil := by
  have h1 : 0 < 1 + q := by linarith
  unfold alphaC2 po0 ps abbr
  dsimp only
  field_simp
  ring

theorem coef3 : 32 / 5 * (q / (1 + q) * (1 / (1 + q))) * (-(alphaC3 q chil chip - k3Err)) =
    let X := q / (1 + q); let Y := 1 / (1 + q)
    po0 X Y * (pl2 X Y + ps X Y chip ^ 2 / 2) + po2 X Y - po0 X Y * (pV2 X Y + pl2 X Y) := by
  have h1 : 0 < 1 + q := by linarith
  unfold alphaC3 po0 po2 pl2 pV2 ps k3Err abbr
  dsimp only
  field_simp
  ring

theorem coef4 : 32 / 5 * (q / (1 + q) * (1 / (1 + q))) * (3 * alphaC4 q chil chip) =
    let X := q / (1 + q); let Y := 1 / (1 + q)
    po0 X Y * (pl3 X Y chil - ps X Y chip ^ 2 * ps X Y chil / 2) + po2 X Y * ps X Y chil - po0 X Y * ps X Y chil * (pV2 X Y + pl2 X Y) - po0 X Y * pV3 X Y chil := by
  have h1 : 0 < 1 + q := by linarith
  unfold alphaC4 po0 po2 pl2 pl3 pV2 pV3 ps abbr
  dsimp only
  field_simp
  ring

theorem coef5 : 32 / 5 * (q / (1 + q) * (1 / (1 + q))) * (alphaC5 q chil chip - k5Err) =
    let X := q / (1 + q); let Y := 1 / (1 + q)
    po0 X Y * (ps X Y chip ^ 2 / 2 * (ps X Y chil ^ 2 - pl2 X Y) + ps X Y chip ^ 2 * (3 / 4 * (Y ^ 2 / 2) + 1 / 4 * pcl X Y) - ps X Y chip ^ 4 / 8)
      + po2 X Y * (pl2 X Y + ps X Y chip ^ 2 / 2) + po4 X Y
      - (po0 X Y * (pl2 X Y + ps X Y chip ^ 2 / 2) + po2 X Y - po0 X Y * (pV2 X Y + pl2 X Y)) * (pV2 X Y + pl2 X Y) - po0 X Y * ps X Y chil * pV3 X Y chil
      - po0 X Y * (pV4 X Y + pV2 X Y * pl2 X Y) := by
  have h1 : 0 < 1 + q := by linarith
  unfold alphaC5 po0 po2 po4 pl2 pV2 pV3 pV4 ps pcl k5Err abbr
  dsimp only
  field_simp
  ring
end

/-! ## The rates -/

section
variable (X Y chil chip v : ℝ) (hX : 0 < X) (hY : 0 < Y) (hv : 0 < v)
include hX hY hv

theorem Jl_v : Jl X Y chil v = X * Y / v * (1 + ps X Y chil * v + pl2 X Y * v ^ 2 + pl3 X Y chil * v ^ 3) := by
  unfold Jl orbL spin spinDiff ps pl2 pl3
  field_simp
  ring

theorem Jnorm_v (φ : ℝ) : Jnorm X Y chil chip v φ = X * Y / v * Real.sqrt (jj (ps X Y chil) (pl2 X Y) (pl3 X Y chil) (ps X Y chip) (Y ^ 2 / 2) (pcl X Y) v (Real.cos φ ^ 2)) := by
  unfold Jnorm
  rw [Jl_v X Y chil v hX hY hv]
  have e : (X * Y / v * (1 + ps X Y chil * v + pl2 X Y * v ^ 2 + pl3 X Y chil * v ^ 3)) ^ 2 + Jn X Y chip v φ ^ 2 + Jlam X Y chip v φ ^ 2 =
      (X * Y / v) ^ 2 * jj (ps X Y chil) (pl2 X Y) (pl3 X Y chil) (ps X Y chip) (Y ^ 2 / 2) (pcl X Y) v (Real.cos φ ^ 2) := by
    have h1 : Jn X Y chip v φ ^ 2 = (X * Y / v) ^ 2 * (ps X Y chip ^ 2 * v ^ 2 * (Real.cos φ ^ 2 * (1 + Y ^ 2 / 2 * v ^ 2) ^ 2)) := by
      unfold Jn spin spinDiff ps
      field_simp
      ring
    have h2 : Jlam X Y chip v φ ^ 2 = (X * Y / v) ^ 2 * (ps X Y chip ^ 2 * v ^ 2 * ((1 - Real.cos φ ^ 2) * (1 + pcl X Y * v ^ 2) ^ 2)) := by
      unfold Jlam spin spinDiff ps pcl
      rw [← Real.sin_sq]
      field_simp
      ring
    rw [h1, h2]
    unfold jj
    ring
  rw [e, Real.sqrt_mul (sq_nonneg _), Real.sqrt_sq (by positivity)]

theorem rate_v : v ^ 4 * (alphaDot X Y chil chip v / vDot X Y chil v) = 5 / (32 * (X * Y)) * ((po0 X Y + po2 X Y * v ^ 2 + po4 X Y * v ^ 4)
    * (1 / (2 * Real.pi) * ∫ φ in (0 : ℝ)..(2 * Real.pi), 2 * Real.cos φ ^ 2 * Real.sqrt (jj (ps X Y chil) (pl2 X Y) (pl3 X Y chil) (ps X Y chip) (Y ^ 2 / 2) (pcl X Y) v (Real.cos φ ^ 2)))
    / ((1 + pV2 X Y * v ^ 2 + pV3 X Y chil * v ^ 3 + pV4 X Y * v ^ 4) * (1 + pl2 X Y * v ^ 2))) := by
  have e : ∀ φ : ℝ, 2 * Real.cos φ ^ 2 * (spinPrec X Y v * Jnorm X Y chil chip v φ / orbL X Y v) = (v ^ 5 * (po0 X Y + po2 X Y * v ^ 2 + po4 X Y * v ^ 4) / (1 + pl2 X Y * v ^ 2))
      * (2 * Real.cos φ ^ 2 * Real.sqrt (jj (ps X Y chil) (pl2 X Y) (pl3 X Y chil) (ps X Y chip) (Y ^ 2 / 2) (pcl X Y) v (Real.cos φ ^ 2))) := by
    intro φ
    rw [Jnorm_v X Y chil chip v hX hY hv]
    have hl : 0 < 1 + pl2 X Y * v ^ 2 := by unfold pl2; positivity
    have ho : orbL X Y v = X * Y / v * (1 + pl2 X Y * v ^ 2) := rfl
    have hs : spinPrec X Y v = v ^ 5 * (po0 X Y + po2 X Y * v ^ 2 + po4 X Y * v ^ 4) := rfl
    rw [ho, hs]
    field_simp
  unfold alphaDot
  simp only [e]
  rw [intervalIntegral.integral_const_mul]
  have hd : vDot X Y chil v = 32 / 5 * (X * Y) * v ^ 9 * (1 + pV2 X Y * v ^ 2 + pV3 X Y chil * v ^ 3 + pV4 X Y * v ^ 4) := by
    unfold vDot pV2 pV3 pV4
    ring
  rw [hd]
  generalize (∫ φ in (0 : ℝ)..(2 * Real.pi), 2 * Real.cos φ ^ 2 * Real.sqrt (jj (ps X Y chil) (pl2 X Y) (pl3 X Y chil) (ps X Y chip) (Y ^ 2 / 2) (pcl X Y) v (Real.cos φ ^ 2))) = I
  rw [← div_div (_ * (1 / (2 * Real.pi) * I))]
  generalize 1 + pV2 X Y * v ^ 2 + pV3 X Y chil * v ^ 3 + pV4 X Y * v ^ 4 = W
  generalize 1 + pl2 X Y * v ^ 2 = L
  generalize po0 X Y + po2 X Y * v ^ 2 + po4 X Y * v ^ 4 = N
  have hp := Real.pi_pos.ne'
  by_cases hW : W = 0
  · rw [hW]; simp
  by_cases hL : L = 0
  · rw [hL]; simp
  field_simp

theorem eps_rate_v : v ^ 4 * (epsDot X Y chil v / vDot X Y chil v) = 5 / (32 * (X * Y)) * ((po0 X Y + po2 X Y * v ^ 2 + po4 X Y * v ^ 4)
    * (1 + ps X Y chil * v + pl2 X Y * v ^ 2 + pl3 X Y chil * v ^ 3)
    / ((1 + pV2 X Y * v ^ 2 + pV3 X Y chil * v ^ 3 + pV4 X Y * v ^ 4) * (1 + pl2 X Y * v ^ 2))) := by
  have ho : orbL X Y v = X * Y / v * (1 + pl2 X Y * v ^ 2) := rfl
  have hs : spinPrec X Y v = v ^ 5 * (po0 X Y + po2 X Y * v ^ 2 + po4 X Y * v ^ 4) := rfl
  have hd : vDot X Y chil v = 32 / 5 * (X * Y) * v ^ 9 * (1 + pV2 X Y * v ^ 2 + pV3 X Y chil * v ^ 3 + pV4 X Y * v ^ 4) := by
    unfold vDot pV2 pV3 pV4
    ring
  unfold epsDot
  rw [hd, ho, hs, Jl_v X Y chil v hX hY hv, ← div_div (_ * (1 + ps X Y chil * v + _ + _))]
  generalize 1 + pV2 X Y * v ^ 2 + pV3 X Y chil * v ^ 3 + pV4 X Y * v ^ 4 = W
  generalize 1 + pl2 X Y * v ^ 2 = L
  generalize po0 X Y + po2 X Y * v ^ 2 + po4 X Y * v ^ 4 = N
  by_cases hW : W = 0
  · rw [hW]; simp
  by_cases hL : L = 0
  · rw [hL]; simp
  field_simp
end

/-- The precession angle as a series: its slope against the post-Newtonian rate, for a mass ratio `q ≥ 1` and two spin numbers. -/
theorem alpha_series (q chil chip : ℝ) (hq : 0 < q) :
    (fun v : ℝ => (-3 * alphaC1 q chil chip - 2 * alphaC2 q chil chip * v - alphaC3 q chil chip * v ^ 2 + 3 * alphaC4 q chil chip * v ^ 3 + alphaC5 q chil chip * v ^ 4)
      - v ^ 4 * (alphaDot (q / (1 + q)) (1 / (1 + q)) chil chip v / vDot (q / (1 + q)) (1 / (1 + q)) chil v) - (-3 * k1Err - k3Err * v ^ 2 + k5Err * v ^ 4)) =O[𝓝[>] 0] fun v => v ^ 5 := by
  have h1 : 0 < 1 + q := by linarith
  have c1 := coef1 q chil chip hq
  have c2 := coef2 q chil chip hq
  have c3 := coef3 q chil chip hq
  have c4 := coef4 q chil chip hq
  have c5 := coef5 q chil chip hq
  have hX : 0 < q / (1 + q) := by positivity
  have hY : 0 < 1 / (1 + q) := by positivity
  generalize q / (1 + q) = X at *
  generalize 1 / (1 + q) = Y at *
  dsimp only at c3 c4 c5
  have key := ratio_series (po0 X Y) (po2 X Y) (po4 X Y) (ps X Y chil) (pl2 X Y + ps X Y chip ^ 2 / 2) (pl3 X Y chil - ps X Y chip ^ 2 * ps X Y chil / 2)
    (ps X Y chip ^ 2 / 2 * (ps X Y chil ^ 2 - pl2 X Y) + ps X Y chip ^ 2 * (3 / 4 * (Y ^ 2 / 2) + 1 / 4 * pcl X Y) - ps X Y chip ^ 4 / 8) (pV2 X Y) (pV3 X Y chil) (pV4 X Y) (pl2 X Y)
    _ _ _ _ _ _ (avg_sqrt (ps X Y chil) (pl2 X Y) (pl3 X Y chil) (ps X Y chip) (Y ^ 2 / 2) (pcl X Y)) c1 c2 (c3.trans (by rw [c1])) (c4.trans (by rw [c1, c2])) (c5.trans (by rw [c1, c2, c3]))
  refine (key.const_mul_left (-(5 / (32 * (X * Y))))).congr' ?_ .rfl
  filter_upwards [self_mem_nhdsWithin] with v hv
  rw [rate_v X Y chil chip v hX hY hv]
  generalize (po0 X Y + po2 X Y * v ^ 2 + po4 X Y * v ^ 4) * _ / _ = Q
  field_simp
  ring

/-- The same for the third angle. -/
theorem eps_series (q chil chip : ℝ) (hq : 0 < q) :
    (fun v : ℝ => (-3 * epsC1 q chil chip - 2 * epsC2 q chil chip * v - epsC3 q chil chip * v ^ 2 + 3 * epsC4 q chil chip * v ^ 3 + epsC5 q chil chip * v ^ 4)
      - v ^ 4 * (epsDot (q / (1 + q)) (1 / (1 + q)) chil v / vDot (q / (1 + q)) (1 / (1 + q)) chil v) - (-3 * k1Err - k3Err * v ^ 2 + k5Err * v ^ 4)) =O[𝓝[>] 0] fun v => v ^ 5 := by
  have h1 : 0 < 1 + q := by linarith
  have e1 : epsC1 q chil chip = alphaC1 q chil 0 := rfl
  have e2 : epsC2 q chil chip = alphaC2 q chil 0 := rfl
  have e3 : epsC3 q chil chip = alphaC3 q chil 0 := by unfold epsC3 alphaC3; ring
  have e4 : epsC4 q chil chip = alphaC4 q chil 0 := by unfold epsC4 alphaC4; ring
  have e5 : epsC5 q chil chip = alphaC5 q chil 0 := by unfold epsC5 alphaC5; ring
  rw [e1, e2, e3, e4, e5]
  have c1 := coef1 q chil 0 hq
  have c2 := coef2 q chil 0 hq
  have c3 := coef3 q chil 0 hq
  have c4 := coef4 q chil 0 hq
  have c5 := coef5 q chil 0 hq
  have hX : 0 < q / (1 + q) := by positivity
  have hY : 0 < 1 / (1 + q) := by positivity
  generalize q / (1 + q) = X at *
  generalize 1 / (1 + q) = Y at *
  dsimp only at c3 c4 c5
  have p0 : ps X Y 0 = 0 := by unfold ps; simp
  rw [p0] at c3 c4 c5
  have key := ratio_series (po0 X Y) (po2 X Y) (po4 X Y) (ps X Y chil) (pl2 X Y) (pl3 X Y chil) 0 (pV2 X Y) (pV3 X Y chil) (pV4 X Y) (pl2 X Y)
    _ _ _ _ _ (fun v => 1 + ps X Y chil * v + pl2 X Y * v ^ 2 + pl3 X Y chil * v ^ 3) (by simpa using isBigO_zero _ _) c1 c2
    (c3.trans (by rw [c1]; ring)) (c4.trans (by rw [c1, c2]; ring)) (c5.trans (by rw [c1, c2, c3]; ring))
  refine (key.const_mul_left (-(5 / (32 * (X * Y))))).congr' ?_ .rfl
  filter_upwards [self_mem_nhdsWithin] with v hv
  rw [eps_rate_v X Y chil v hX hY hv]
  generalize (po0 X Y + po2 X Y * v ^ 2 + po4 X Y * v ^ 4) * _ / _ = Q
  field_simp
  ring

theorem errs_small : |k1Err| ≤ 1e-17 ∧ |k3Err| ≤ 1e-16 ∧ |k5Err| ≤ 1e-15 := by
  unfold k1Err k3Err k5Err
  refine ⟨?_, ?_, ?_⟩ <;> (rw [abs_le]; constructor <;> norm_num)

/-- The slope of an angle against the orbital velocity. -/
theorem angle_slope (M c1 c2 c3 c4 c5 C v : ℝ) (hM : 0 < M) (hv : 0 < v) (a : ℝ → ℝ) (ha : ∀ f, a f = angleSum c1 c2 c3 c4 c5 (M * f) - C) :
    v ^ 4 * deriv (fun u => a (u ^ 3 / M)) v = -3 * c1 - 2 * c2 * v - c3 * v ^ 2 + 3 * c4 * v ^ 3 + c5 * v ^ 4 := by
  have e : (fun u => a (u ^ 3 / M)) = fun u => angleSum c1 c2 c3 c4 c5 (u ^ 3) - C := by
    funext u; rw [ha, mul_div_cancel₀ _ hM.ne']
  have hd : HasDerivAt (fun u : ℝ => u ^ 3) (3 * v ^ 2) v := by simpa using hasDerivAt_pow 3 v
  have h := ((HasDerivAt.comp v (h₂ := angleSum c1 c2 c3 c4 c5) (h := fun u : ℝ => u ^ 3) (angleSum_deriv c1 c2 c3 c4 c5 v hv) hd).sub_const C).deriv
  rw [e]
  refine (congrArg (v ^ 4 * ·) h).trans ?_
  field_simp

theorem mass_fractions (p : Par) (h : Ordered p) : qP p / (1 + qP p) = heavy p / total p ∧ 1 / (1 + qP p) = light p / total p ∧ 0 < qP p := by
  obtain ⟨m1, m2, _, _⟩ := masses_ordered p h
  refine ⟨?_, ?_, div_pos m2 m1⟩
  · show heavy p / light p / (1 + heavy p / light p) = heavy p / (light p + heavy p)
    field_simp
  · show 1 / (1 + heavy p / light p) = light p / (light p + heavy p)
    field_simp

/-- **C102.**  The first Euler angle of an `IMRPhenomPv2` signal, as a function of the orbital velocity `v = (π M f)^{1/3}`, advances at the post-Newtonian rate `α̇ / v̇` of a binary with the
aligned spin and the effective in-plane spin of the call placed on the heavier body: relative to the leading slope `1/v⁴` the two agree through `v⁴`, up to the rounding of three literals. -/
theorem alpha_pn_rate (p : Par) (h : Ordered p) (fRef : ℝ) :
    let M := Real.pi * (total p * mtsun)
    let X := heavy p / total p
    let Y := light p / total p
    let chil := X⁻¹ * (Y * p.s2.z + X * p.s1.z)
    let chip := (geom p fRef).chip
    ∃ r0 r2 r4 : ℝ, |r0| ≤ 1e-15 ∧ |r2| ≤ 1e-15 ∧ |r4| ≤ 1e-15 ∧
      (fun v : ℝ => v ^ 4 * (deriv (fun u => alphaAt p fRef (u ^ 3 / M)) v - alphaDot X Y chil chip v / vDot X Y chil v) - (r0 + r2 * v ^ 2 + r4 * v ^ 4)) =O[𝓝[>] 0] fun v => v ^ 5 := by
  intro M X Y chil chip
  obtain ⟨m1, m2, _, _⟩ := masses_ordered p h
  obtain ⟨f1, f2, hq⟩ := mass_fractions p h
  have hMt : 0 < total p := by unfold total; linarith
  have hM : 0 < M := mul_pos Real.pi_pos (mul_pos hMt mtsun_pos)
  have hc : chilP p = chil := by
    show (1 + qP p) / qP p * ((light p * p.s2.z + heavy p * p.s1.z) / total p) = (heavy p / total p)⁻¹ * (light p / total p * p.s2.z + heavy p / total p * p.s1.z)
    have e : (1 + qP p) / qP p = (heavy p / total p)⁻¹ := by rw [← f1, inv_div]
    rw [e]
    ring
  have key := alpha_series (qP p) (chilP p) (geom p fRef).chip hq
  rw [f1, f2] at key
  obtain ⟨s1, s3, s5⟩ := errs_small
  refine ⟨-3 * k1Err, -k3Err, k5Err, ?_, ?_, ?_, key.congr' ?_ .rfl⟩
  · rw [abs_mul]; norm_num at s1 ⊢; linarith
  · rw [abs_neg]; norm_num at s3 ⊢; linarith
  · exact s5
  filter_upwards [self_mem_nhdsWithin] with v hv
  rw [mul_sub, angle_slope M _ _ _ _ _ _ v hM hv (alphaAt p fRef) (fun f => by
    unfold alphaAt alphaSum
    rw [show Real.pi * (f * mtsun * total p) = M * f by show _ = Real.pi * (total p * mtsun) * f; ring])]
  rw [hc]
  ring

/-- **C102.**  So does the third Euler angle, at the rate `α̇ cos β` that a frame following the orbital plane with minimal rotation needs. -/
theorem eps_pn_rate (p : Par) (h : Ordered p) (fRef : ℝ) :
    let M := Real.pi * (total p * mtsun)
    let X := heavy p / total p
    let Y := light p / total p
    let chil := X⁻¹ * (Y * p.s2.z + X * p.s1.z)
    ∃ r0 r2 r4 : ℝ, |r0| ≤ 1e-15 ∧ |r2| ≤ 1e-15 ∧ |r4| ≤ 1e-15 ∧
      (fun v : ℝ => v ^ 4 * (deriv (fun u => epsAt p fRef (u ^ 3 / M)) v - epsDot X Y chil v / vDot X Y chil v) - (r0 + r2 * v ^ 2 + r4 * v ^ 4)) =O[𝓝[>] 0] fun v => v ^ 5 := by
  intro M X Y chil
  obtain ⟨m1, m2, _, _⟩ := masses_ordered p h
  obtain ⟨f1, f2, hq⟩ := mass_fractions p h
  have hMt : 0 < total p := by unfold total; linarith
  have hM : 0 < M := mul_pos Real.pi_pos (mul_pos hMt mtsun_pos)
  have hc : chilP p = chil := by
    show (1 + qP p) / qP p * ((light p * p.s2.z + heavy p * p.s1.z) / total p) = (heavy p / total p)⁻¹ * (light p / total p * p.s2.z + heavy p / total p * p.s1.z)
    have e : (1 + qP p) / qP p = (heavy p / total p)⁻¹ := by rw [← f1, inv_div]
    rw [e]
    ring
  have key := eps_series (qP p) (chilP p) (geom p fRef).chip hq
  rw [f1, f2] at key
  obtain ⟨s1, s3, s5⟩ := errs_small
  refine ⟨-3 * k1Err, -k3Err, k5Err, ?_, ?_, ?_, key.congr' ?_ .rfl⟩
  · rw [abs_mul]; norm_num at s1 ⊢; linarith
  · rw [abs_neg]; norm_num at s3 ⊢; linarith
  · exact s5
  filter_upwards [self_mem_nhdsWithin] with v hv
  rw [mul_sub, angle_slope M _ _ _ _ _ _ v hM hv (epsAt p fRef) (fun f => by
    unfold epsAt epsSum
    rw [show Real.pi * (f * mtsun * total p) = M * f by show _ = Real.pi * (total p * mtsun) * f; ring])]
  rw [hc]
  ring

/-- Non-vacuity: the precessing example, whose in-plane spin does not vanish. -/
example (fRef : ℝ) :
    let M := Real.pi * (total exPar * mtsun)
    let X := heavy exPar / total exPar
    let Y := light exPar / total exPar
    let chil := X⁻¹ * (Y * exPar.s2.z + X * exPar.s1.z)
    let chip := (geom exPar fRef).chip
    ∃ r0 r2 r4 : ℝ, |r0| ≤ 1e-15 ∧ |r2| ≤ 1e-15 ∧ |r4| ≤ 1e-15 ∧
      (fun v : ℝ => v ^ 4 * (deriv (fun u => alphaAt exPar fRef (u ^ 3 / M)) v - alphaDot X Y chil chip v / vDot X Y chil v) - (r0 + r2 * v ^ 2 + r4 * v ^ 4)) =O[𝓝[>] 0] fun v => v ^ 5 :=
  alpha_pn_rate exPar exPar_ordered fRef

/-- The leading rate of that statement is not zero: at equal masses the spin precesses at `7/8 v⁵`. -/
example : po0 (1 / 2) (1 / 2) = 7 / 8 := by unfold po0; norm_num

end Verif.PhenomP
