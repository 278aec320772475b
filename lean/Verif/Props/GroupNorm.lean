import Verif.Model.GroupNorm
import Verif.Spec.GroupNorm
import Verif.Lemmas.Tensor
import Mathlib.Algebra.BigOperators.Field
import Mathlib.Algebra.BigOperators.Ring.Finset
import Mathlib.Tactic.FieldSimp
import Mathlib.Tactic.Ring
import Mathlib.Tactic.NormNum
/-!
# Properties of `GroupNorm1D` (C22) and the getters (C23)
-/
set_option linter.unusedSimpArgs false
namespace Verif.GroupNorm
open Finset Spec

theorem meanAt3 (x : Tensor ℝ) (B C L : Nat) (hx : x.shape = [B, C, L]) (b c : Nat) :
    x.meanAt [b, c] = (∑ t ∈ range L, x.get [b, c, t]) / (L : ℝ) := by
  simp [Tensor.meanAt, hx]

/-- What the reshape/expand sequence computes. -/
theorem groupStats_ok (C G per B : Nat) (hC : C = G * per) (hG : 0 < G) (hper : 0 < per)
    (mean sq : Tensor ℝ) (hm : mean.shape = [B, C]) :
    ∃ m s, groupStats C G mean sq = .ok (m, s) ∧ ∀ b < B, ∀ c < C,
      m.get [b, c, 0] = (∑ j ∈ range per, mean.get [b, c / per * per + j]) / (per : ℝ) ∧
      s.get [b, c, 0] = (∑ j ∈ range per, sq.get [b, c / per * per + j]) / (per : ℝ) := by
  have hdiv : C / G = per := by rw [hC, Nat.mul_div_cancel_left _ hG]
  unfold groupStats
  simp only [hm, List.getD_cons_zero, List.getD_cons_succ, hdiv]
  rw [Tensor.reshapeInfer_ok _ [] [2, G, per] B (by simp [numel]; omega)
    (by simp [numel, hC]; ring)]
  simp only [res_bind_ok]
  rw [Tensor.reshapeInfer_ok _ [] [2, C, 1] B (by simp [numel, hC]; exact ⟨hG, hper⟩)
    (by simp [numel, hC, Tensor.meanLastKeep]; ring)]
  simp only [res_bind_ok]
  refine ⟨_, _, rfl, ?_⟩
  intro b hb c hc
  have hGC : 0 < G * per := Nat.mul_pos hG hper
  have hcg : c / per < G := by rw [Nat.div_lt_iff_lt_mul hper]; omega
  have hcm : c % per < per := Nat.mod_lt _ hper
  have key : ∀ v < 2, ∀ j < per,
      (b * (2 * (G * per)) + (v * (G * per) + (c / per * per + j))) / (2 * C) = b ∧
      (b * (2 * (G * per)) + (v * (G * per) + (c / per * per + j))) % (2 * C) / C = v ∧
      (b * (2 * (G * per)) + (v * (G * per) + (c / per * per + j))) % (2 * C) % C = c / per * per + j := by
    intro v hv j hj
    have h1 : c / per * per + j < G * per := idx_lt hcg hj
    have h2 : v * (G * per) + (c / per * per + j) < 2 * (G * per) := idx_lt hv h1
    rw [hC, idx_div _ h2, idx_mod _ h2, idx_div _ h1, idx_mod _ h1]
    exact ⟨rfl, rfl, rfl⟩
  have hc' : c = c / per * per + c % per := by rw [Nat.mul_comm]; exact (Nat.div_add_mod c per).symm
  have hcG : c < G * per := by omega
  have key2 : ∀ v < 2,
      (b * (2 * C) + (v * C + c)) / (2 * (G * per)) = b ∧
      (b * (2 * C) + (v * C + c)) % (2 * (G * per)) / (G * per) = v ∧
      (b * (2 * C) + (v * C + c)) % (2 * (G * per)) % (G * per) / per = c / per := by
    intro v hv
    have h2 : v * (G * per) + c < 2 * (G * per) := idx_lt hv hcG
    rw [hC, idx_div _ h2, idx_mod _ h2, idx_div _ hcG, idx_mod _ hcG]
    exact ⟨rfl, rfl, rfl⟩
  obtain ⟨k1, k2, k3⟩ := key2 0 (by norm_num)
  obtain ⟨l1, l2, l3⟩ := key2 1 (by norm_num)
  constructor
  · simp only [Tensor.meanLastKeep, Tensor.meanAt, ravel, unravel, numel, List.getD_cons_zero,
      List.getD_cons_succ, List.nil_append, List.cons_append, List.getLastD, List.getLast,
      List.tail_cons, List.dropLast, Nat.mul_one, Nat.add_zero, k1, k2, k3]
    congr 1
    refine Finset.sum_congr rfl fun j hj => ?_
    obtain ⟨m1, m2, m3⟩ := key 0 (by norm_num) j (by simpa using hj)
    simp only [Nat.div_one, m1, m2, m3, List.getD_cons_zero, List.getD_cons_succ, if_true]
  · simp only [Tensor.meanLastKeep, Tensor.meanAt, ravel, unravel, numel, List.getD_cons_zero,
      List.getD_cons_succ, List.nil_append, List.cons_append, List.getLastD, List.getLast,
      List.tail_cons, List.dropLast, Nat.mul_one, Nat.add_zero, l1, l2, l3]
    congr 1
    refine Finset.sum_congr rfl fun j hj => ?_
    obtain ⟨m1, m2, m3⟩ := key 1 (by norm_num) j (by simpa using hj)
    simp only [Nat.div_one, m1, m2, m3, List.getD_cons_zero, List.getD_cons_succ, one_ne_zero, if_false]

/-- `E[x²] - E[x]²` is the biased variance. -/
theorem groupVar (per L g : Nat) (hper : 0 < per) (hL : 0 < L) (x : Nat → Nat → ℝ) :
    groupMean per L g (fun c t => (x c t - groupMean per L g x) ^ 2) =
      groupMean per L g (fun c t => x c t ^ 2) - groupMean per L g x ^ 2 := by
  have hN : ((per * L : Nat) : ℝ) ≠ 0 := by
    have := Nat.mul_pos hper hL; positivity
  have hμ : ∑ j ∈ range per, ∑ t ∈ range L, x (g * per + j) t =
      groupMean per L g x * ((per * L : Nat) : ℝ) := by
    unfold groupMean; field_simp
  have hcst : ∀ a : ℝ, ∑ _j ∈ range per, ∑ _t ∈ range L, a = a * ((per * L : Nat) : ℝ) := by
    intro a; simp; ring
  generalize hm : groupMean per L g x = μ at *
  unfold groupMean
  have : ∑ j ∈ range per, ∑ t ∈ range L, (x (g * per + j) t - μ) ^ 2 =
      (∑ j ∈ range per, ∑ t ∈ range L, x (g * per + j) t ^ 2) -
        2 * μ * (∑ j ∈ range per, ∑ t ∈ range L, x (g * per + j) t) +
        ∑ _j ∈ range per, ∑ _t ∈ range L, μ ^ 2 := by
    rw [Finset.mul_sum, ← Finset.sum_sub_distrib, ← Finset.sum_add_distrib]
    refine Finset.sum_congr rfl fun j _ => ?_
    rw [Finset.mul_sum, ← Finset.sum_sub_distrib, ← Finset.sum_add_distrib]
    refine Finset.sum_congr rfl fun t _ => ?_
    ring
  rw [this, hμ, hcst]
  field_simp
  ring

/-- Averaging the channel means of a group gives the group mean. -/
theorem mean_of_means (per L g : Nat) (f : Nat → Nat → ℝ) :
    (∑ j ∈ range per, (∑ t ∈ range L, f (g * per + j) t) / (L : ℝ)) / (per : ℝ) =
      groupMean per L g f := by
  unfold groupMean
  rw [← Finset.sum_div, div_div]
  congr 1
  push_cast; ring

/-- **C22.**  For every input of shape `(B, C, L)` with `C, L ≥ 1`, every admissible number of groups and
all parameters, `GroupNorm1D` returns group normalisation of every batch element. -/
theorem group_norm_correct (numGroups : Option Nat) (C G B L : Nat) (eps : ℝ) (weight bias : Nat → ℝ)
    (x : Tensor ℝ) (hx : x.shape = [B, C, L]) (hC0 : 0 < C) (hL : 0 < L) (hinit : init C numGroups = .ok G) :
    ∃ y, forward C G eps weight bias x = .ok y ∧ y.shape = [B, C, L] ∧
      ∀ b < B, ∀ c < C, ∀ t, y.get [b, c, t] =
        groupNorm (C / G) L eps weight bias (fun c t => x.get [b, c, t]) c t := by
  have hG : 0 < G ∧ C % G = 0 := by
    unfold init at hinit
    simp only at hinit
    split at hinit <;> split at hinit
    · simp at hinit
    · split at hinit
      · simp at hinit
      · obtain rfl := Except.ok.inj hinit
        exact ⟨by omega, by simp⟩
    · simp at hinit
    · obtain rfl := Except.ok.inj hinit
      exact ⟨by omega, by omega⟩
  obtain ⟨hG0, hmod⟩ := hG
  have hCe : C = G * (C / G) := by
    have := Nat.div_add_mod C G; omega
  have hper : 0 < C / G := Nat.div_pos (Nat.le_of_dvd (by omega) (Nat.dvd_of_mod_eq_zero hmod)) hG0
  generalize hp : C / G = per at *
  -- the statistics
  obtain ⟨m, s, hms, hst⟩ : ∃ m s : Tensor ℝ,
      stats C G x = .ok (m, s) ∧
      ∀ b < B, ∀ c < C,
        m.get [b, c, 0] = groupMean per L (c / per) (fun c t => x.get [b, c, t]) ∧
        s.get [b, c, 0] = groupMean per L (c / per) (fun c t => x.get [b, c, t] ^ 2) := by
    by_cases hg : G = C
    · have h1 : per = 1 := by rw [← hp, hg]; exact Nat.div_self (by omega)
      subst h1
      refine ⟨_, _, by unfold stats; rw [if_pos hg], ?_⟩
      intro b hb c hc
      simp only [Tensor.meanLastKeep, List.dropLast, groupMean, Finset.sum_range_one, Nat.mul_one,
        Nat.div_one, Nat.add_zero, Nat.one_mul]
      rw [meanAt3 x B C L hx, meanAt3 (x.map fun v => v ^ 2) B C L (by simp [Tensor.map, hx])]
      exact ⟨rfl, rfl⟩
    · obtain ⟨m, s, hms, h⟩ := groupStats_ok C G per B hCe hG0 hper x.meanLast
        ((x.map fun v => v ^ 2).meanLast) (by simp [Tensor.meanLast, hx])
      refine ⟨m, s, by unfold stats; rw [if_neg hg]; exact hms, ?_⟩
      intro b hb c hc
      obtain ⟨h1, h2⟩ := h b hb c hc
      rw [h1, h2, ← mean_of_means, ← mean_of_means]
      simp only [Tensor.meanLast, meanAt3 x B C L hx,
        meanAt3 (x.map fun v => v ^ 2) B C L (by simp [Tensor.map, hx])]
      exact ⟨trivial, rfl⟩
  refine ⟨_, by unfold forward; simp only [hx, ne_eq, not_true_eq_false, if_false, hms, res_bind_ok]; rfl,
    rfl, ?_⟩
  intro b hb c hc t
  obtain ⟨h1, h2⟩ := hst b hb c hc
  simp only [List.getD_cons_zero, List.getD_cons_succ, h1, h2, groupNorm]
  rw [groupVar per L (c / per) hper hL (fun c t => x.get [b, c, t])]
  ring

/-- Non-vacuity: 4 channels in 2 groups. -/
example : init 4 (some 2) = .ok 2 ∧ ∃ y, forward 4 2 1 (fun _ => 1) (fun _ => 0)
    (⟨[1, 4, 2], fun i => (ravel [1, 4, 2] i : ℝ)⟩ : Tensor ℝ) = .ok y ∧ y.shape = [1, 4, 2] := by
  obtain ⟨y, h, hs, -⟩ := group_norm_correct (some 2) 4 2 1 2 1 (fun _ => 1) (fun _ => 0)
    (⟨[1, 4, 2], fun i => (ravel [1, 4, 2] i : ℝ)⟩ : Tensor ℝ) rfl (by decide) (by decide) (by decide)
  exact ⟨by decide, y, h, hs⟩

/-- **C22 (rejections).**  The constructor accepts exactly: at least one channel, and a number of groups
that is `None`, 0 (both meaning one group per channel) or divides the number of channels (zero channels
are accepted only with an explicit positive number of groups).  Input that
is not 3-dimensional is rejected. -/
theorem group_norm_init_iff (C : Nat) (numGroups : Option Nat) :
    (∃ g, init C numGroups = .ok g) ↔
      0 < C ∧ (numGroups = none ∨ numGroups = some 0 ∨ ∃ g, numGroups = some g ∧ 0 < g ∧ g ∣ C) ∨
      C = 0 ∧ ∃ g, numGroups = some g ∧ 0 < g := by
  cases numGroups with
  | none =>
    by_cases h : C = 0
    · simp [init, h]
    · simp [init, h]; omega
  | some g =>
    by_cases hg : g = 0
    · subst hg
      by_cases h : C = 0
      · simp [init, h]
      · simp [init, h]; omega
    · by_cases h : C = 0
      · subst h; simp [init, hg]; omega
      · by_cases hm : C % g = 0
        · simp [init, hg, hm, h]
          exact ⟨by omega, by omega, Nat.dvd_of_mod_eq_zero hm⟩
        · have hd : ¬ g ∣ C := fun hd => hm (Nat.mod_eq_zero_of_dvd hd)
          simp [init, hg, hm, hd, h]

theorem group_norm_rank (C G : Nat) (eps : ℝ) (weight bias : Nat → ℝ) (x : Tensor ℝ)
    (h : x.ndim ≠ 3) : forward C G eps weight bias x = .error .value := by
  unfold forward
  split
  · rename_i hx; simp [Tensor.ndim, hx] at h
  · rfl

/-- **C23.**  Both getters return, for at least one channel, a layer with `min(num_channels, groups)`
groups (one per channel for `None`), and fail with ValueError exactly when that number does not divide
the number of channels; for `groups = 0` the 1-D getter silently uses one group per channel while the
2-D getter raises ZeroDivisionError. -/
theorem getters_spec (C : Nat) (hC : 0 < C) :
    getter1D none C = .ok C ∧ getter2D none C = .ok C ∧
    (∀ g, 0 < g →
      getter1D (some g) C = (if min C g ∣ C then .ok (min C g) else .error .value) ∧
      getter2D (some g) C = (if min C g ∣ C then .ok (min C g) else .error .value)) ∧
    getter1D (some 0) C = .ok C ∧ getter2D (some 0) C = .error .zeroDivision := by
  have hC0 : ¬ C = 0 := by omega
  refine ⟨by simp [getter1D, init, hC0], by simp [getter2D, hC0], ?_, by simp [getter1D, init, hC0],
    by simp [getter2D]⟩
  intro g hg
  have hm0 : ¬ (min C g = 0) := by omega
  by_cases hd : min C g ∣ C
  · have hm : C % min C g = 0 := Nat.mod_eq_zero_of_dvd hd
    rw [if_pos hd]
    constructor
    · unfold getter1D init
      simp only [Option.map_some, Option.getD_some, hm0, if_false, hm, ne_eq, not_true_eq_false]
    · unfold getter2D
      simp only [hm0, if_false, hm, ne_eq, not_true_eq_false]
  · have hm : ¬ C % min C g = 0 := fun h => hd (Nat.dvd_of_mod_eq_zero h)
    rw [if_neg hd]
    constructor
    · unfold getter1D init
      simp only [Option.map_some, Option.getD_some, hm0, if_false, hm, ne_eq, not_false_eq_true, if_true]
    · unfold getter2D
      simp only [hm0, if_false, hm, ne_eq, not_false_eq_true, if_true]

example : getter1D (some 16) 8 = .ok 8 ∧ getter1D (some 3) 8 = .error .value ∧
    getter2D (some 4) 8 = .ok 4 := by decide

end Verif.GroupNorm
