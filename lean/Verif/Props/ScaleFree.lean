import Verif.Model.PhenomP
import Verif.Lemmas.Tensor
/-!
# C106: gravity has no scale
-/
set_option linter.unusedSimpArgs false
set_option linter.unusedVariables false
set_option linter.unnecessarySeqFocus false
namespace Verif

theorem getD_map_mul (l : List ℝ) (k : ℝ) (i : ℕ) : (l.map (k * ·)).getD i 0 = k * l.getD i 0 := by
  rw [List.getD_eq_getElem?_getD, List.getD_eq_getElem?_getD, List.getElem?_map]
  cases l[i]? <;> simp

theorem toComponents_scale (k mc q : ℝ) : Conversion.toComponents (k * mc) q = (k * (Conversion.toComponents mc q).1, k * (Conversion.toComponents mc q).2) := by
  unfold Conversion.toComponents
  refine Prod.ext ?_ ?_ <;> dsimp only <;> ring

namespace TaylorF2
open CbcUtils

/-- Both masses multiplied by `k`. -/
def Bin.scale (b : Bin) (k : ℝ) : Bin := { b with m1 := k * b.m1, m2 := k * b.m2 }

section
variable (b : Bin) (k : ℝ) (hk : 0 < k)
include hk

theorem scale_x1 : (b.scale k).x1 = b.x1 := by
  unfold Bin.x1 Bin.scale
  dsimp only
  rw [← mul_add, mul_div_mul_left _ _ hk.ne']

theorem scale_x2 : (b.scale k).x2 = b.x2 := by
  unfold Bin.x2 Bin.scale
  dsimp only
  rw [← mul_add, mul_div_mul_left _ _ hk.ne']

theorem scale_eta : (b.scale k).eta = b.eta := by
  unfold Bin.eta Bin.scale
  dsimp only
  rw [← mul_add, mul_assoc, mul_div_mul_left _ _ hk.ne', show b.m1 * (k * b.m2) = k * (b.m1 * b.m2) by ring, mul_div_assoc, mul_div_mul_left _ _ hk.ne']

theorem scale_phasing : (b.scale k).phasing = b.phasing := by
  funext mf
  unfold Bin.phasing Bin.pfa7 Bin.pfa6 Bin.pfa5log Bin.pfa5 Bin.pfa4 Bin.pfa3 Bin.pfa2 Bin.pfaN Bin.so7
  rw [scale_eta b k hk, scale_x1 b k hk, scale_x2 b k hk]
  rfl

theorem scale_dPhasing : (b.scale k).dPhasing = b.dPhasing := by
  funext mf
  unfold Bin.dPhasing Bin.pfa7 Bin.pfa6 Bin.pfa5log Bin.pfa4 Bin.pfa3 Bin.pfa2 Bin.pfaN Bin.so7
  rw [scale_eta b k hk, scale_x1 b k hk, scale_x2 b k hk]
  rfl

omit hk in
theorem scale_mSec : (b.scale k).mSec = k * b.mSec := by unfold Bin.mSec Bin.scale; ring

theorem scale_etaSec : (b.scale k).etaSec = b.etaSec := by
  unfold Bin.etaSec
  rw [scale_mSec b k, show (b.scale k).m1 * mtsun * ((b.scale k).m2 * mtsun) = k * (k * (b.m1 * mtsun * (b.m2 * mtsun))) by unfold Bin.scale; dsimp only; ring,
    mul_div_mul_left _ _ hk.ne', mul_div_assoc, mul_div_mul_left _ _ hk.ne']

theorem scale_mf (M f : ℝ) : k * M * (f / k) = M * f := by field_simp

theorem scale_htilde (f d phic fRef : ℝ) : (b.scale k).htilde (f / k) (k * d) phic (fRef / k) = k * b.htilde f d phic fRef := by
  unfold Bin.htilde
  rw [scale_phasing b k hk, scale_mSec b k, scale_mf k hk, scale_mf k hk]
  have ha : (b.scale k).amplitude (b.mSec * f) (k * d) = k * b.amplitude (b.mSec * f) d := by
    unfold Bin.amplitude
    dsimp only
    rw [scale_etaSec b k hk, show -4 * ((b.scale k).m1 * mtsun) * ((b.scale k).m2 * mtsun) * (Real.pi / 12) ^ (0.5 : ℝ) =
      k * (k * (-4 * (b.m1 * mtsun) * (b.m2 * mtsun) * (Real.pi / 12) ^ (0.5 : ℝ))) by unfold Bin.scale; dsimp only; ring, mul_assoc k d, mul_div_mul_left _ _ hk.ne']
    ring
  rw [ha]
  push_cast
  ring

end

/-- **C106.**  `TaylorF2`: multiplying the chirp masses and the distances by any positive number and dividing the frequencies and the reference frequency by it multiplies both polarizations by it. -/
theorem scale_free (k : ℝ) (hk : 0 < k) (f : List ℝ) (p : Params) (fRef : ℝ) :
    forward (f.map (· / k)) { p with chirpMass := p.chirpMass.map (k * ·), distance := p.distance.map (k * ·) } (fRef / k) =
      (forward f p fRef).map fun r => (r.1.map (List.map ((k : ℂ) * ·)), r.2.map (List.map ((k : ℂ) * ·))) := by
  unfold forward raiseIf
  simp only [List.length_map]
  split_ifs
  on_goal 2 => rfl
  · simp only [res_bind_ok]
    refine congrArg Except.ok ?_
    have hb : ∀ i, Params.bin { p with chirpMass := p.chirpMass.map (k * ·), distance := p.distance.map (k * ·) } i = (p.bin i).scale k := by
      intro i
      unfold Params.bin Bin.scale
      dsimp only
      rw [getD_map_mul, toComponents_scale]
    simp only [List.map_map, getD_map_mul, hb, Prod.mk.injEq]
    constructor <;> refine List.map_congr_left fun i _ => ?_ <;> simp only [Function.comp, List.map_map] <;> refine List.map_congr_left fun x _ => ?_ <;>
      simp only [Function.comp, scale_htilde _ k hk] <;> ring

end TaylorF2

namespace PhenomD
open CbcUtils TaylorF2

/-- Both masses multiplied by `k`. -/
def scaleM (c : Ctx) (k : ℝ) : Ctx := { c with m1 := k * c.m1, m2 := k * c.m2 }

section
variable (c : Ctx) (k : ℝ) (hk : 0 < k)
include hk

theorem scaleM_ss3 : (scaleM c k).ss3 = c.ss3 := by
  funext mf
  unfold Ctx.ss3 scaleM
  dsimp only
  rw [← mul_add, mul_div_mul_left _ _ hk.ne', mul_div_mul_left _ _ hk.ne']

theorem scaleM_dSs3 : (scaleM c k).dSs3 = c.dSs3 := by
  funext mf
  unfold Ctx.dSs3 scaleM
  dsimp only
  rw [← mul_add, mul_div_mul_left _ _ hk.ne', mul_div_mul_left _ _ hk.ne']

theorem scaleM_phase : (scaleM c k).phase = c.phase := by
  have hb : (scaleM c k).bin = c.bin.scale k := rfl
  have hP : (scaleM c k).insPhase = c.insPhase := by
    funext mf
    unfold Ctx.insPhase
    rw [hb, scale_phasing _ k hk, scaleM_ss3 c k hk]
    rfl
  have hD : (scaleM c k).insDphase = c.insDphase := by
    funext mf
    unfold Ctx.insDphase
    rw [hb, scale_dPhasing _ k hk, scaleM_dSs3 c k hk]
    rfl
  have c2 : (scaleM c k).c2Int = c.c2Int := by unfold Ctx.c2Int; rw [hD]; rfl
  have c1 : (scaleM c k).c1Int = c.c1Int := by unfold Ctx.c1Int; rw [hP, c2]; rfl
  have d2 : (scaleM c k).c2Mrd = c.c2Mrd := by unfold Ctx.c2Mrd; rw [c2]; rfl
  have d1 : (scaleM c k).c1Mrd = c.c1Mrd := by unfold Ctx.c1Mrd; rw [c1, c2, d2]; rfl
  funext mf
  unfold Ctx.phase
  rw [hP, c1, c2, d1, d2]
  rfl

theorem mkCtx_scale (mc q chi1 chi2 : ℝ) (rd : ℝ × ℝ) : mkCtx (k * mc) q chi1 chi2 rd = scaleM (mkCtx mc q chi1 chi2 rd) k ∧ totalMass (k * mc) q = k * totalMass mc q ∧
    etaOf (k * mc) q = etaOf mc q := by
  have t : totalMass (k * mc) q = k * totalMass mc q := by unfold totalMass; ring
  have m1 : mass1 (k * mc) q = k * mass1 mc q := by unfold mass1; rw [t]; ring
  have m2 : mass2 (k * mc) q = k * mass2 mc q := by unfold mass2; rw [m1]; ring
  have e : etaOf (k * mc) q = etaOf mc q := by unfold etaOf; rw [t, mul_div_mul_left _ _ hk.ne']
  refine ⟨?_, t, e⟩
  unfold mkCtx scaleM
  dsimp only
  rw [e, m1, m2]

theorem newtonAmp_scale (mf m1 m2 eta d : ℝ) : newtonAmp mf (k * m1) (k * m2) eta (k * d) = k * newtonAmp mf m1 m2 eta d := by
  unfold newtonAmp
  dsimp only
  rw [show -4 * (k * m1 * mtsun) * (k * m2 * mtsun) * (Real.pi / 12) ^ (0.5 : ℝ) = k * (k * (-4 * (m1 * mtsun) * (m2 * mtsun) * (Real.pi / 12) ^ (0.5 : ℝ))) by ring,
    mul_assoc k d, mul_div_mul_left _ _ hk.ne']
  ring

theorem htilde_scale (mc q f d phic fRef : ℝ) : htilde (k * mc) q (scaleM c k) (f / k) (k * d) phic (fRef / k) = k * htilde mc q c f d phic fRef := by
  have t : totalMass (k * mc) q = k * totalMass mc q := by unfold totalMass; ring
  unfold htilde
  dsimp only
  rw [scaleM_phase c k hk, t, mul_assoc k (totalMass mc q), scale_mf k hk, scale_mf k hk]
  rw [show (scaleM c k).amp = c.amp from rfl, show (scaleM c k).mrdDphase = c.mrdDphase from rfl, show (scaleM c k).peak = c.peak from rfl, show (scaleM c k).m1 = k * c.m1 from rfl,
    show (scaleM c k).m2 = k * c.m2 from rfl, show (scaleM c k).eta = c.eta from rfl, newtonAmp_scale k hk]
  push_cast
  ring

end

/-- **C106.**  `IMRPhenomD`: the same. -/
theorem scale_free (k : ℝ) (hk : 0 < k) (f : List ℝ) (p : Params) (fRef : ℝ) :
    forward (f.map (· / k)) { p with chirpMass := p.chirpMass.map (k * ·), distance := p.distance.map (k * ·) } (fRef / k) =
      (forward f p fRef).map fun r => (r.1.map (List.map ((k : ℂ) * ·)), r.2.map (List.map ((k : ℂ) * ·))) := by
  unfold forward raiseIf
  simp only [List.length_map]
  split_ifs
  on_goal 2 => rfl
  · simp only [res_bind_ok, getD_map_mul, (mkCtx_scale k hk _ _ 0 0 (0, 0)).2.2]
    cases interpFinspin ((List.range p.chirpMass.length).map fun i => finalSpin (etaOf (p.chirpMass.getD i 0) (p.massRatio.getD i 0)) (p.chi1.getD i 0) (p.chi2.getD i 0)) with
    | error e => rfl
    | ok rd =>
      simp only [res_bind_ok]
      refine congrArg Except.ok ?_
      simp only [List.map_map, Prod.mk.injEq]
      constructor <;> refine List.map_congr_left fun i _ => ?_ <;> simp only [Function.comp, List.map_map] <;> refine List.map_congr_left fun x _ => ?_ <;>
        simp only [Function.comp, (mkCtx_scale k hk _ _ _ _ _).1, htilde_scale _ k hk] <;> ring

end PhenomD

namespace PhenomP
open CbcUtils TaylorF2 PhenomD
open Conversion hiding mtsun

/-- Chirp mass and distance multiplied by `k`; the arrival time, which this model takes in units of the total mass, kept. -/
def Par.scale (p : Par) (k : ℝ) : Par := { p with chirpMass := k * p.chirpMass, distance := k * p.distance }

section
variable (k : ℝ) (hk : 0 < k)
include hk

theorem chipOf_scale (m1 m2 : ℝ) (s1 s2 : Vec) : chipOf (k * m1) (k * m2) s1 s2 = chipOf m1 m2 s1 s2 := by
  unfold chipOf
  dsimp only
  have e1 : ∀ a b : ℝ, 3 * (k * a) / (2 * (k * b)) = 3 * a / (2 * b) := fun a b => by
    rw [show 3 * (k * a) = k * (3 * a) by ring, show 2 * (k * b) = k * (2 * b) by ring, mul_div_mul_left _ _ hk.ne']
  rw [e1, e1]
  have e2 : ∀ A a s : ℝ, A * (k * a * (k * a) * s) = k ^ 2 * (A * (a * a * s)) := fun A a s => by ring
  have e3 : ∀ A a : ℝ, A * (k * a * (k * a)) = k ^ 2 * (A * (a * a)) := fun A a => by ring
  rw [e2, e2, e3, ← mul_max_of_nonneg _ _ (by positivity), mul_div_mul_left _ _ (by positivity)]

theorem totalJ_scale (m1 m2 fRef : ℝ) (s1 s2 : Vec) :
    totalJ (k * m1) (k * m2) (fRef / k) s1 s2 = ⟨k ^ 2 * (totalJ m1 m2 fRef s1 s2).x, k ^ 2 * (totalJ m1 m2 fRef s1 s2).y, k ^ 2 * (totalJ m1 m2 fRef s1 s2).z⟩ := by
  have e1 : Real.pi * ((k * m1 + k * m2) * mtsun) * (fRef / k) = Real.pi * ((m1 + m2) * mtsun) * fRef := by field_simp
  have e2 : k * m1 * (k * m2) / ((k * m1 + k * m2) * (k * m1 + k * m2)) = m1 * m2 / ((m1 + m2) * (m1 + m2)) := by
    rw [← mul_add, show k * m1 * (k * m2) = k ^ 2 * (m1 * m2) by ring, show k * (m1 + m2) * (k * (m1 + m2)) = k ^ 2 * ((m1 + m2) * (m1 + m2)) by ring,
      mul_div_mul_left _ _ (by positivity)]
  unfold totalJ
  dsimp only
  rw [e1, e2]
  ext <;> dsimp only <;> ring

theorem atan2_scale (y x : ℝ) : atan2 (k * y) (k * x) = atan2 y x := by
  unfold atan2
  rw [show (⟨k * x, k * y⟩ : ℂ) = (k : ℂ) * ⟨x, y⟩ by apply Complex.ext <;> simp, Complex.arg_real_mul _ hk]

theorem convertSpins_scale (m1 m2 fRef phic incl : ℝ) (s1 s2 : Vec) : convertSpins (k * m1) (k * m2) (fRef / k) phic incl s1 s2 = convertSpins m1 m2 fRef phic incl s1 s2 := by
  have hk2 : 0 < k ^ 2 := by positivity
  unfold convertSpins
  dsimp only
  rw [totalJ_scale k hk, chipOf_scale k hk]
  dsimp only
  have e : ∀ v : Vec, Real.sqrt (k ^ 2 * v.x * (k ^ 2 * v.x) + k ^ 2 * v.y * (k ^ 2 * v.y) + k ^ 2 * v.z * (k ^ 2 * v.z)) = k ^ 2 * Real.sqrt (v.x * v.x + v.y * v.y + v.z * v.z) := by
    intro v
    rw [show k ^ 2 * v.x * (k ^ 2 * v.x) + k ^ 2 * v.y * (k ^ 2 * v.y) + k ^ 2 * v.z * (k ^ 2 * v.z) = (k ^ 2) ^ 2 * (v.x * v.x + v.y * v.y + v.z * v.z) by ring,
      Real.sqrt_mul (by positivity), Real.sqrt_sq hk2.le]
  rw [e, mul_div_mul_left _ _ hk2.ne', atan2_scale _ hk2]

theorem ringdown_scale (m1 m2 chi1 chi2 chip : ℝ) : ringdown (k * m1) (k * m2) chi1 chi2 chip = (ringdown m1 m2 chi1 chi2 chip).map fun r => (r.1 / k, r.2 / k) := by
  have e1 : finalSpinInplane (k * m1) (k * m2) chi1 chi2 chip = finalSpinInplane m1 m2 chi1 chi2 chip := by
    unfold finalSpinInplane
    dsimp only
    rw [← mul_add, mul_div_mul_left _ _ hk.ne', show k * m1 * (k * m2) = k ^ 2 * (m1 * m2) by ring, show k * (m1 + m2) * (k * (m1 + m2)) = k ^ 2 * ((m1 + m2) * (m1 + m2)) by ring,
      mul_div_mul_left _ _ (by positivity)]
  have e2 : k * m1 * mtsun + k * m2 * mtsun = k * (m1 * mtsun + m2 * mtsun) := by ring
  have e3 : k * m1 * mtsun * (k * m2 * mtsun) / (k * (m1 * mtsun + m2 * mtsun)) ^ 2 = m1 * mtsun * (m2 * mtsun) / (m1 * mtsun + m2 * mtsun) ^ 2 := by
    rw [show k * m1 * mtsun * (k * m2 * mtsun) = k ^ 2 * (m1 * mtsun * (m2 * mtsun)) by ring, mul_pow, mul_div_mul_left _ _ (by positivity)]
  unfold ringdown
  dsimp only
  rw [e1, e2, e3]
  cases lookup qnmRing (finalSpinInplane m1 m2 chi1 chi2 chip) with
  | error e => rfl
  | ok r =>
    cases lookup qnmDamp (finalSpinInplane m1 m2 chi1 chi2 chip) with
    | error e => rfl
    | ok d =>
      simp only [res_bind_ok]
      refine congrArg Except.ok ?_
      refine Prod.ext ?_ ?_ <;> dsimp only <;> rw [div_div _ (m1 * mtsun + m2 * mtsun) k, mul_comm k]

/-- The data of one batch element with the masses multiplied by `k`. -/
def Elem.scale (e : Elem) (k : ℝ) : Elem := { e with m1 := k * e.m1, m2 := k * e.m2, ctx := scaleM e.ctx k, diffRD := k * e.diffRD }

theorem diffRD_scale (c : Ctx) (ms fRD : ℝ) : diffRD (scaleM c k) (k * ms) (fRD / k) = k * diffRD c ms fRD := by
  have hg : ∀ i, k * ms * rdGrid (fRD / k) i = ms * rdGrid fRD i := by
    intro i
    unfold rdGrid
    field_simp
  have hs : ∀ j, rdSlope (scaleM c k) (k * ms) (fRD / k) j = k * rdSlope c ms fRD j := by
    intro j
    unfold rdSlope
    dsimp only
    rw [scaleM_phase c k hk]
    simp only [hg]
    rw [show 2 * ((1.2 * (fRD / k) - 0.8 * (fRD / k)) / (1000 - 1)) = 2 * ((1.2 * fRD - 0.8 * fRD) / (1000 - 1)) / k by ring, div_div_eq_mul_div]
    ring
  unfold diffRD
  rw [hs, hs]
  ring

theorem elem_scale (p : Par) (fRef : ℝ) : elem (p.scale k) (fRef / k) = (elem p fRef).map fun e => e.scale k := by
  unfold elem
  dsimp only
  have hc : (p.scale k).chirpMass = k * p.chirpMass := rfl
  rw [hc, show (p.scale k).massRatio = p.massRatio from rfl, show (p.scale k).s1 = p.s1 from rfl, show (p.scale k).s2 = p.s2 from rfl, show (p.scale k).phic = p.phic from rfl,
    show (p.scale k).inclination = p.inclination from rfl, toComponents_scale]
  dsimp only
  generalize (toComponents p.chirpMass p.massRatio).1 = a
  generalize (toComponents p.chirpMass p.massRatio).2 = b
  rw [convertSpins_scale k hk, ringdown_scale k hk]
  generalize convertSpins b a fRef p.phic p.inclination p.s2 p.s1 = v
  cases modes v.thetaJN with
  | error e => rfl
  | ok y =>
    simp only [res_bind_ok]
    cases ringdown a b v.chi2l v.chi1l v.chip with
    | error e => rfl
    | ok rd =>
      simp only [Except.map, res_bind_ok]
      refine congrArg Except.ok ?_
      have q1 : k * a / (k * b) = a / b := mul_div_mul_left _ _ hk.ne'
      have q2 : (k * b * v.chi1l + k * a * v.chi2l) / (k * b + k * a) = (b * v.chi1l + a * v.chi2l) / (b + a) := by
        rw [← mul_add, show k * b * v.chi1l + k * a * v.chi2l = k * (b * v.chi1l + a * v.chi2l) by ring, mul_div_mul_left _ _ hk.ne']
      have q3 : k * b * (k * a) / ((k * b + k * a) * (k * b + k * a)) = b * a / ((b + a) * (b + a)) := by
        rw [← mul_add, show k * b * (k * a) = k ^ 2 * (b * a) by ring, show k * (b + a) * (k * (b + a)) = k ^ 2 * ((b + a) * (b + a)) by ring, mul_div_mul_left _ _ (by positivity)]
      have q4 : Real.pi * ((k * b + k * a) * mtsun) * (fRef / k) = Real.pi * ((b + a) * mtsun) * fRef := by field_simp
      rw [q1, q2, q3, q4]
      have hx : ∀ eta seta chi1 chi2 chi12 chi22 xi, ctxP (k * a) (k * b) eta seta chi1 chi2 chi12 chi22 (k * b + k * a) xi (rd.1 / k, rd.2 / k) =
          scaleM (ctxP a b eta seta chi1 chi2 chi12 chi22 (b + a) xi rd) k := by
        intros
        unfold ctxP scaleM
        dsimp only
        have r1 : ∀ r : ℝ, (k * b + k * a) * mtsun * (r / k) = (b + a) * mtsun * r := fun r => by field_simp
        rw [r1, r1]
      rw [hx, show (k * b + k * a) * mtsun = k * ((b + a) * mtsun) by ring, diffRD_scale k hk]
      rfl

theorem polarizations_scale (p : Par) (e : Elem) (f : ℝ) :
    polarizations (p.scale k) (e.scale k) (f / k) = (k * (polarizations p e f).1, k * (polarizations p e f).2) := by
  have hm : (e.scale k).m1 + (e.scale k).m2 = k * (e.m1 + e.m2) := by
    show k * e.m1 + k * e.m2 = _
    ring
  have hh : hPhenom (e.scale k).ctx (k * (e.m1 + e.m2)) (2 * e.conv.phiAligned) (k * p.distance) (f / k) = k * hPhenom e.ctx (e.m1 + e.m2) (2 * e.conv.phiAligned) p.distance f := by
    unfold hPhenom
    dsimp only
    rw [show (e.scale k).ctx = scaleM e.ctx k from rfl, scaleM_phase _ k hk, show (scaleM e.ctx k).amp = e.ctx.amp from rfl, show (scaleM e.ctx k).eta = e.ctx.eta from rfl,
      show k * (e.m1 + e.m2) * mtsun = k * ((e.m1 + e.m2) * mtsun) by ring, scale_mf k hk,
      show (k * ((e.m1 + e.m2) * mtsun)) ^ (2 : ℝ) = k * (k * ((e.m1 + e.m2) * mtsun) ^ (2 : ℝ)) by
        rw [Real.rpow_two, Real.rpow_two]; ring]
    generalize amp0 ((e.m1 + e.m2) * mtsun * f) e.ctx.eta = A
    generalize e.ctx.amp ((e.m1 + e.m2) * mtsun * f) = B
    generalize ((e.m1 + e.m2) * mtsun) ^ (2 : ℝ) = C
    rw [mul_assoc k p.distance, show A * B * (k * (k * C)) = k * (k * (A * B * C)) by ring, mul_div_mul_left _ _ hk.ne', mul_div_assoc]
    push_cast
    ring
  have ha : ∀ eta chi1l chi2l chip q chil aOff eOff, angles (f / k) eta chi1l chi2l chip (k * (e.m1 + e.m2)) q chil aOff eOff = angles f eta chi1l chi2l chip (e.m1 + e.m2) q chil aOff eOff := by
    intros
    unfold angles
    dsimp only
    rw [show f / k * mtsun * (k * (e.m1 + e.m2)) = f * mtsun * (e.m1 + e.m2) by field_simp]
  unfold polarizations
  dsimp only
  rw [hm, show (p.scale k).distance = k * p.distance from rfl, show (e.scale k).conv = e.conv from rfl, hh, show (e.scale k).eta = e.eta from rfl, show (e.scale k).q = e.q from rfl,
    show (e.scale k).chil = e.chil from rfl, show (e.scale k).alphaOff = e.alphaOff from rfl, show (e.scale k).epsOff = e.epsOff from rfl, ha, show (e.scale k).y = e.y from rfl,
    show (e.scale k).diffRD = k * e.diffRD from rfl, show (p.scale k).tc = p.tc from rfl]
  have h1 : 2 * Real.pi * (f / k) * (k * e.diffRD / (2 * Real.pi)) = 2 * Real.pi * f * (e.diffRD / (2 * Real.pi)) := by field_simp
  have h2 : -Complex.I * ((f / k : ℝ) : ℂ) * ((k * (e.m1 + e.m2) * mtsun : ℝ) : ℂ) * (p.tc : ℂ) = -Complex.I * (f : ℂ) * (((e.m1 + e.m2) * mtsun : ℝ) : ℂ) * (p.tc : ℂ) := by
    have hkc : (k : ℂ) ≠ 0 := by exact_mod_cast hk.ne'
    push_cast
    field_simp
  rw [h1, h2]
  unfold twistUp
  dsimp only
  refine Prod.ext ?_ ?_ <;> dsimp only <;> ring

end

/-- **C106.**  `IMRPhenomPv2`: the same, with `tc` kept (it is measured in units of the total mass, C73). -/
theorem scale_free (k : ℝ) (hk : 0 < k) (fs : List ℝ) (ps : List Par) (fRef : ℝ) :
    forward (fs.map (· / k)) (ps.map fun p => { p with chirpMass := k * p.chirpMass, distance := k * p.distance }) (fRef / k) =
      (forward fs ps fRef).map fun r => (r.1.map (List.map ((k : ℂ) * ·)), r.2.map (List.map ((k : ℂ) * ·))) := by
  have hm : ∀ l : List Par, ((l.map fun p => Par.scale p k).mapM fun p => (elem p (fRef / k)).map fun e => (p, e)) =
      (l.mapM fun p => (elem p fRef).map fun e => (p, e)).map fun es => es.map fun pe => (pe.1.scale k, pe.2.scale k) := by
    intro l
    induction l with
    | nil => rfl
    | cons p l ih =>
      rw [List.map_cons, List.mapM_cons, List.mapM_cons, ih, elem_scale k hk]
      cases elem p fRef with
      | error e => rfl
      | ok e =>
        cases l.mapM fun p => (elem p fRef).map fun e => (p, e) with
        | error x => rfl
        | ok es => rfl
  have hm' := hm ps
  unfold forward
  change (do
    let es ← (ps.map fun p => Par.scale p k).mapM fun p => (elem p (fRef / k)).map fun e => (p, e)
    _) = _
  rw [hm']
  cases ps.mapM fun p => (elem p fRef).map fun e => (p, e) with
  | error e => rfl
  | ok es =>
    simp only [Except.map, res_bind_ok]
    refine congrArg Except.ok ?_
    simp only [List.map_map, Prod.mk.injEq]
    constructor <;> refine List.map_congr_left fun i _ => ?_ <;> simp only [Function.comp, List.map_map] <;> refine List.map_congr_left fun x _ => ?_ <;>
      simp only [Function.comp, polarizations_scale k hk]

end PhenomP

/-- A redshift of one half. -/
example : (0 : ℝ) < 1 + 0.5 := by norm_num

end Verif
