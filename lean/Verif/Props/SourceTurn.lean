import Verif.Model.PhenomD
import Verif.Lemmas.Tensor
/-!
# C107: turning and mirroring a non-precessing source
-/
set_option linter.unusedSimpArgs false
set_option linter.unusedVariables false
set_option linter.unnecessarySeqFocus false
namespace Verif

theorem getD_map_in (g : ℝ → ℝ) (l : List ℝ) (i : ℕ) (h : i < l.length) : (l.map g).getD i 0 = g (l.getD i 0) := by
  rw [List.getD_eq_getElem?_getD, List.getD_eq_getElem?_getD, List.getElem?_map, List.getElem?_eq_getElem h]
  rfl

/-- The elementwise form of the two polarizations of a non-precessing source seen at inclination `iota`, for the strain `h` of the source seen face-on. -/
theorem pols_ratio (h : ℂ) (c : ℝ) : -Complex.I * (h * (c : ℂ)) * ((0.5 * (1 + c * c) : ℝ) : ℂ) = -Complex.I * (c : ℂ) * (h * ((0.5 * (1 + c * c) : ℝ) : ℂ)) := by ring

theorem pols_norm (h : ℂ) (c : ℝ) : ‖-Complex.I * (h * (c : ℂ))‖ ≤ ‖h * ((0.5 * (1 + c * c) : ℝ) : ℂ)‖ := by
  rw [norm_mul, norm_neg, Complex.norm_I, one_mul, norm_mul, norm_mul, Complex.norm_real, Complex.norm_real, Real.norm_eq_abs, Real.norm_eq_abs]
  refine mul_le_mul_of_nonneg_left ?_ (norm_nonneg _)
  rw [abs_of_nonneg (show (0 : ℝ) ≤ 0.5 * (1 + c * c) by nlinarith [mul_self_nonneg c]), abs_le]
  constructor <;> nlinarith [sq_nonneg (c + 1), sq_nonneg (c - 1)]

namespace TaylorF2
open CbcUtils

theorem htilde_turn (b : Bin) (f d phic fRef δ : ℝ) : b.htilde f d (phic + δ) fRef = Complex.exp (2 * Complex.I * δ) * b.htilde f d phic fRef := by
  unfold Bin.htilde
  dsimp only
  rw [mul_left_comm, ← Complex.exp_add]
  refine congrArg _ (congrArg Complex.exp ?_)
  push_cast
  ring

/-- **C107 (turn).**  `TaylorF2`: turning every source by `δ` about its orbital axis multiplies both polarizations by `exp(2iδ)`. -/
theorem turn_source (δ : ℝ) (f : List ℝ) (p : Params) (fRef : ℝ) :
    forward f { p with phic := p.phic.map (· + δ) } fRef =
      (forward f p fRef).map fun r => (r.1.map (List.map (Complex.exp (2 * Complex.I * δ) * ·)), r.2.map (List.map (Complex.exp (2 * Complex.I * δ) * ·))) := by
  unfold forward raiseIf
  simp only [List.length_map]
  split_ifs with h
  on_goal 2 => rfl
  · simp only [res_bind_ok]
    refine congrArg Except.ok ?_
    simp only [List.map_map, Prod.mk.injEq]
    constructor <;> refine List.map_congr_left fun i hi => ?_ <;> (try simp only [Function.comp, List.map_map]) <;> refine List.map_congr_left fun x _ => ?_ <;>
      rw [getD_map_in _ _ _ (by have := List.mem_range.1 hi; omega)] <;>
      (have e : Params.bin { p with phic := p.phic.map (· + δ) } i = p.bin i := rfl) <;>
      simp only [Function.comp, e, htilde_turn] <;> ring

/-- **C107 (half turn).**  In particular half an orbit changes nothing. -/
theorem half_turn (f : List ℝ) (p : Params) (fRef : ℝ) : forward f { p with phic := p.phic.map (· + Real.pi) } fRef = forward f p fRef := by
  rw [turn_source, show (2 * Complex.I * (Real.pi : ℝ) : ℂ) = 2 * Real.pi * Complex.I by ring, Complex.exp_two_pi_mul_I]
  cases forward f p fRef with
  | error e => rfl
  | ok r => simp [Except.map]

/-- **C107 (mirror).**  Seen from the other side of the orbital plane the plus polarization is the same and the cross polarization changes sign. -/
theorem mirror_source (f : List ℝ) (p : Params) (fRef : ℝ) :
    forward f { p with inclination := p.inclination.map (Real.pi - ·) } fRef = (forward f p fRef).map fun r => (r.1.map (List.map (-·)), r.2) := by
  unfold forward raiseIf
  simp only [List.length_map]
  split_ifs with h
  on_goal 2 => rfl
  · simp only [res_bind_ok]
    refine congrArg Except.ok ?_
    simp only [List.map_map, Prod.mk.injEq]
    constructor <;> refine List.map_congr_left fun i hi => ?_ <;> (try simp only [Function.comp, List.map_map]) <;> refine List.map_congr_left fun x _ => ?_ <;>
      rw [getD_map_in _ _ _ (by have := List.mem_range.1 hi; omega), Real.cos_pi_sub] <;>
      (have e : Params.bin { p with inclination := p.inclination.map (Real.pi - ·) } i = p.bin i := rfl) <;>
      simp only [Function.comp, e] <;> push_cast <;> ring

/-- **C107 (ellipse).**  At every frequency the cross polarization is the plus polarization times `-2i cos ι / (1 + cos² ι)`, so never larger. -/
theorem ellipse (f : List ℝ) (p : Params) (fRef : ℝ) (hc hp : List (List ℂ)) (h : forward f p fRef = .ok (hc, hp)) (i j : ℕ) (a b : ℂ)
    (ha : hc[i]?.bind (·[j]?) = some a) (hb : hp[i]?.bind (·[j]?) = some b) :
    a * (1 + (Real.cos (p.inclination.getD i 0) : ℂ) ^ 2) = -2 * Complex.I * (Real.cos (p.inclination.getD i 0) : ℂ) * b ∧ ‖a‖ ≤ ‖b‖ := by
  unfold forward raiseIf at h
  split_ifs at h
  on_goal 2 => cases h
  simp only [res_bind_ok] at h
  obtain ⟨rfl, rfl⟩ := Prod.mk.inj (Except.ok.inj h)
  by_cases hi : i < p.chirpMass.length
  on_goal 2 => rw [List.getElem?_map, List.getElem?_eq_none (by simpa using hi)] at ha; cases ha
  rw [List.getElem?_map, List.getElem?_range hi] at ha hb
  simp only [Option.map_some, Option.bind_some, List.getElem?_map] at ha hb
  cases hx : f[j]? with
  | none => rw [hx] at ha; cases ha
  | some x =>
    rw [hx] at ha hb
    obtain rfl := Option.some.inj ha
    obtain rfl := Option.some.inj hb
    refine ⟨?_, pols_norm _ _⟩
    push_cast
    ring

end TaylorF2

namespace PhenomD
open CbcUtils TaylorF2

theorem htilde_turn (mc q : ℝ) (c : Ctx) (f d phic fRef δ : ℝ) : htilde mc q c f d (phic + δ) fRef = Complex.exp (2 * Complex.I * δ) * htilde mc q c f d phic fRef := by
  unfold htilde
  dsimp only
  rw [mul_left_comm, ← Complex.exp_add]
  refine congrArg _ (congrArg Complex.exp ?_)
  push_cast
  ring

/-- **C107 (turn).**  `IMRPhenomD`: the same. -/
theorem turn_source (δ : ℝ) (f : List ℝ) (p : Params) (fRef : ℝ) :
    forward f { p with phic := p.phic.map (· + δ) } fRef =
      (forward f p fRef).map fun r => (r.1.map (List.map (Complex.exp (2 * Complex.I * δ) * ·)), r.2.map (List.map (Complex.exp (2 * Complex.I * δ) * ·))) := by
  unfold forward raiseIf
  simp only [List.length_map]
  split_ifs with h
  on_goal 2 => rfl
  · simp only [res_bind_ok]
    cases interpFinspin ((List.range p.chirpMass.length).map fun i => finalSpin (etaOf (p.chirpMass.getD i 0) (p.massRatio.getD i 0)) (p.chi1.getD i 0) (p.chi2.getD i 0)) with
    | error e => rfl
    | ok rd =>
      simp only [res_bind_ok]
      refine congrArg Except.ok ?_
      simp only [List.map_map, Prod.mk.injEq]
      constructor <;> refine List.map_congr_left fun i hi => ?_ <;> (try simp only [Function.comp, List.map_map]) <;> refine List.map_congr_left fun x _ => ?_ <;>
        rw [getD_map_in _ _ _ (by have := List.mem_range.1 hi; omega)] <;>
        simp only [Function.comp, htilde_turn] <;> ring

/-- **C107 (half turn).** -/
theorem half_turn (f : List ℝ) (p : Params) (fRef : ℝ) : forward f { p with phic := p.phic.map (· + Real.pi) } fRef = forward f p fRef := by
  rw [turn_source, show (2 * Complex.I * (Real.pi : ℝ) : ℂ) = 2 * Real.pi * Complex.I by ring, Complex.exp_two_pi_mul_I]
  cases forward f p fRef with
  | error e => rfl
  | ok r => simp [Except.map]

/-- **C107 (mirror).** -/
theorem mirror_source (f : List ℝ) (p : Params) (fRef : ℝ) :
    forward f { p with inclination := p.inclination.map (Real.pi - ·) } fRef = (forward f p fRef).map fun r => (r.1.map (List.map (-·)), r.2) := by
  unfold forward raiseIf
  simp only [List.length_map]
  split_ifs with h
  on_goal 2 => rfl
  · simp only [res_bind_ok]
    cases interpFinspin ((List.range p.chirpMass.length).map fun i => finalSpin (etaOf (p.chirpMass.getD i 0) (p.massRatio.getD i 0)) (p.chi1.getD i 0) (p.chi2.getD i 0)) with
    | error e => rfl
    | ok rd =>
      simp only [res_bind_ok]
      refine congrArg Except.ok ?_
      simp only [List.map_map, Prod.mk.injEq]
      constructor <;> refine List.map_congr_left fun i hi => ?_ <;> (try simp only [Function.comp, List.map_map]) <;> refine List.map_congr_left fun x _ => ?_ <;>
        rw [getD_map_in _ _ _ (by have := List.mem_range.1 hi; omega), Real.cos_pi_sub] <;> (try simp only [Function.comp]) <;> push_cast <;> ring

/-- **C107 (ellipse).** -/
theorem ellipse (f : List ℝ) (p : Params) (fRef : ℝ) (hc hp : List (List ℂ)) (h : forward f p fRef = .ok (hc, hp)) (i j : ℕ) (a b : ℂ)
    (ha : hc[i]?.bind (·[j]?) = some a) (hb : hp[i]?.bind (·[j]?) = some b) :
    a * (1 + (Real.cos (p.inclination.getD i 0) : ℂ) ^ 2) = -2 * Complex.I * (Real.cos (p.inclination.getD i 0) : ℂ) * b ∧ ‖a‖ ≤ ‖b‖ := by
  unfold forward raiseIf at h
  split_ifs at h
  on_goal 2 => cases h
  simp only [res_bind_ok] at h
  cases hr : interpFinspin ((List.range p.chirpMass.length).map fun i => finalSpin (etaOf (p.chirpMass.getD i 0) (p.massRatio.getD i 0)) (p.chi1.getD i 0) (p.chi2.getD i 0)) with
  | error e => rw [hr] at h; cases h
  | ok rd =>
    rw [hr] at h
    simp only [res_bind_ok] at h
    obtain ⟨rfl, rfl⟩ := Prod.mk.inj (Except.ok.inj h)
    by_cases hi : i < p.chirpMass.length
    on_goal 2 => rw [List.getElem?_map, List.getElem?_eq_none (by simpa using hi)] at ha; cases ha
    rw [List.getElem?_map, List.getElem?_range hi] at ha hb
    simp only [Option.map_some, Option.bind_some, List.getElem?_map] at ha hb
    cases hx : f[j]? with
    | none => rw [hx] at ha; cases ha
    | some x =>
      rw [hx] at ha hb
      obtain rfl := Option.some.inj ha
      obtain rfl := Option.some.inj hb
      refine ⟨?_, pols_norm _ _⟩
      push_cast
      ring

end PhenomD

/-- One binary, two frequencies. -/
example : ∃ hc hp, TaylorF2.forward [20, 30] ⟨[30], [0.5], [0], [0], [400], [1], [2]⟩ 20 = .ok (hc, hp) ∧ ∃ a b, hc[0]?.bind (·[1]?) = some a ∧ hp[0]?.bind (·[1]?) = some b := by
  unfold TaylorF2.forward raiseIf
  exact ⟨_, _, rfl, _, _, rfl, rfl⟩

end Verif
