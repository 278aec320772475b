import Verif.Model.Pearson
import Verif.Spec.Pearson
import Verif.Lemmas.TensorMore
import Verif.Props.Unfold
import Mathlib.Algebra.Order.BigOperators.Ring.Finset
/-!
# Properties of `ShiftedPearsonCorrelation` (C33)
-/
set_option linter.unusedSimpArgs false
namespace Verif.Pearson
open Finset Verif.Spectral
open Spec.Pearson (cov corr shifted mean)

theorem cov_nonneg (n : ℕ) (f : ℕ → ℝ) : 0 ≤ cov n f f :=
  Finset.sum_nonneg fun _ _ => mul_self_nonneg _

theorem cov_congr (n : ℕ) (f f' g g' : ℕ → ℝ) (hf : ∀ t < n, f t = f' t) (hg : ∀ t < n, g t = g' t) :
    cov n f g = cov n f' g' := by
  have h1 : mean n f = mean n f' := by
    unfold mean; rw [Finset.sum_congr rfl fun t ht => hf t (by simpa using ht)]
  have h2 : mean n g = mean n g' := by
    unfold mean; rw [Finset.sum_congr rfl fun t ht => hg t (by simpa using ht)]
  unfold cov
  rw [h1, h2]
  exact Finset.sum_congr rfl fun t ht => by
    rw [hf t (by simpa using ht), hg t (by simpa using ht)]

theorem fdiv_sqrt (a b c : ℝ) (hb : 0 ≤ b) (hc : 0 ≤ c) :
    fdiv a (Real.sqrt (b * c)) = if b = 0 ∨ c = 0 then none else some (a / (Real.sqrt b * Real.sqrt c)) := by
  unfold fdiv
  have : Real.sqrt (b * c) = 0 ↔ b = 0 ∨ c = 0 := by
    rw [Real.sqrt_eq_zero (mul_nonneg hb hc), mul_eq_zero]
  simp only [this]
  rw [Real.sqrt_mul hb]

theorem shapeChecks_ok_iff (x y : List ℕ) :
    shapeChecks x y = .ok () ↔ x.length ≤ 3 ∧ y <:+ x := by
  unfold shapeChecks
  by_cases h1 : x.length > 3
  · simp only [h1, if_true, reduceCtorEq, false_iff]; omega
  simp only [h1, if_false]
  by_cases h2 : y.length > x.length
  · simp only [h2, if_true, reduceCtorEq, false_iff]
    rintro ⟨-, h⟩
    exact absurd h.length_le (by omega)
  simp only [h2, if_false]
  have h3 : y <:+ x ↔ ∀ d < y.length, y.reverse.getD d 0 = x.reverse.getD d 0 := by
    rw [← List.reverse_prefix, List.prefix_iff_eq_take]
    constructor
    · intro h d hd
      have hd' : d < x.reverse.length := by simp; omega
      rw [h, List.getD_eq_getElem?_getD, List.getD_eq_getElem?_getD, List.getElem?_take]
      simp [hd]
    · intro h
      apply List.ext_getElem?
      intro d
      rw [List.getElem?_take]
      by_cases hd : d < y.length
      · have := h d hd
        simp only [List.length_reverse, hd, if_true]
        rw [List.getD_eq_getElem _ _ (by simpa using hd), List.getD_eq_getElem _ _ (by simp; omega)] at this
        rw [List.getElem?_eq_getElem (by simpa using hd), List.getElem?_eq_getElem (by simp; omega), this]
      · simp only [List.length_reverse, hd, if_false]
        rw [List.getElem?_eq_none_iff]; simp; omega
  by_cases h4 : y <:+ x
  · have : ¬ ((List.range y.length).any
      (fun d => decide (y.reverse.getD d 0 ≠ x.reverse.getD d 0)) = true) := by
      rw [List.any_eq_true]
      rintro ⟨d, hd, hne⟩
      have hne' : y.reverse.getD d 0 ≠ x.reverse.getD d 0 := of_decide_eq_true hne
      exact hne' (h3.1 h4 d (by simpa using hd))
    rw [if_neg this]
    simp [h4]; omega
  · have : (List.range y.length).any
      (fun d => decide (y.reverse.getD d 0 ≠ x.reverse.getD d 0)) = true := by
      rw [h3] at h4
      push Not at h4
      obtain ⟨d, hd, hne⟩ := h4
      rw [List.any_eq_true]
      exact ⟨d, by simpa using hd, by simpa using hne⟩
    rw [if_pos this]
    simp [h4]

theorem shapeChecks_cases (x y : List ℕ) : shapeChecks x y = .ok () ∨ shapeChecks x y = .error .value := by
  unfold shapeChecks
  split_ifs <;> simp

/-- **C33 (value).**  `x` of shape `(*A, *s, T)` (rank at most 3, non-empty), `y` of shape `(*s, T)`:
entry `k` of the output (shape `(2*max_shift+1, *A, *s)`) is the Pearson correlation of `y` with the
zero-padded `x` moved by `k - max_shift` samples; it is nan exactly where that correlation is undefined. -/
theorem pearson_correct (ms T : ℕ) (A s : List ℕ) (x y : Tensor ℝ)
    (hx : x.shape = A ++ (s ++ [T])) (hy : y.shape = s ++ [T]) (hr : (A ++ s).length ≤ 2)
    (hpos : ∀ d ∈ A ++ s, 0 < d) (hT : 0 < T) :
    ∃ out, forward ms x y = .ok out ∧ out.shape = (2 * ms + 1) :: (A ++ s) ∧
      ∀ (k : ℕ) (a i : List ℕ), k < 2 * ms + 1 → InB a A → InB i s →
        out.get (k :: (a ++ i)) =
          corr T (shifted T (fun t => x.get (a ++ i ++ [t])) ((k : ℤ) - ms)) (fun t => y.get (i ++ [t])) := by
  have hx' : x.shape = (A ++ s) ++ [T] := by rw [hx, List.append_assoc]
  have hc : shapeChecks x.shape y.shape = .ok () := by
    rw [shapeChecks_ok_iff]
    refine ⟨?_, ?_⟩
    · rw [hx']; simp at hr ⊢; omega
    · rw [hx, hy]; exact List.suffix_append _ _
  obtain ⟨xp, hp1, hp2, hp3⟩ := padLast_ok x (A ++ s) T ms ms hx'
  obtain ⟨w, rem, hw1, hw2, hw3, -, -⟩ := Slicing.unfold_windows_correct xp (A ++ s) (T + ms + ms) T 1 true hp2 hr
    hpos (by omega) (by omega) (by omega)
  have hnum : (T + ms + ms - T) / 1 + 1 = 2 * ms + 1 := by rw [Nat.div_one]; omega
  rw [hnum] at hw2 hw3
  have hws : w.shape = ((2 * ms + 1) :: A) ++ (s ++ [T]) := by rw [hw2]; simp
  have hws' : w.shape = ((2 * ms + 1) :: (A ++ s)) ++ [T] := by rw [hw2]; simp
  obtain ⟨pr, hpr1, hpr2, hpr3⟩ := zipB_suffix (fun a b : ℝ => a * b) (demean w) (demean y) ((2 * ms + 1) :: A) (s ++ [T])
    hws hy
  have hl : ((demean w).map (· ^ 2)).sumLast.shape = ((2 * ms + 1) :: A) ++ s := by
    simp only [Tensor.sumLast, Tensor.map, demean, hws', List.dropLast_concat]; simp
  have hl2 : ((demean y).map (· ^ 2)).sumLast.shape = s := by simp [Tensor.sumLast, Tensor.map, demean, hy]
  obtain ⟨nm, hn1, hn2, hn3⟩ := zipB_suffix (fun a b : ℝ => a * b) _ _ ((2 * ms + 1) :: A) s hl hl2
  have hcs : pr.sumLast.shape = ((2 * ms + 1) :: A) ++ s := by
    have : pr.shape = ((2 * ms + 1) :: (A ++ s)) ++ [T] := by rw [hpr2]; simp
    simp only [Tensor.sumLast, this, List.dropLast_concat]; simp
  obtain ⟨out, ho1, ho2, ho3⟩ := zipB_same fdiv pr.sumLast (nm.map Real.sqrt) (by rw [hcs]; exact hn2.symm)
  refine ⟨out, ?_, by rw [ho2, hcs]; simp, ?_⟩
  · unfold forward
    rw [hc, Slicing.lastDim_append x (A ++ s) T hx']
    simp only [res_bind_ok, hp1]
    rw [show ((1 : ℕ) : Int) = 1 by rfl] at hw1
    simp only [hw1, res_bind_ok, hpr1, hn1, ho1]
  · intro k a i hk ha hi
    have hka : InB (k :: a) ((2 * ms + 1) :: A) := ⟨hk, ha⟩
    have hin : InB ((k :: a) ++ i) (((2 * ms + 1) :: A) ++ s) := inB_append hka hi
    have e0 : k :: (a ++ i) = (k :: a) ++ i := by simp
    rw [e0, ho3 _ (by rw [hcs]; exact hin)]
    dsimp only [Tensor.map]
    rw [hn3 (k :: a) i hka hi]
    -- values of the windows
    have hwv : ∀ t < T, w.get ((k :: a) ++ i ++ [t]) =
        shifted T (fun t => x.get (a ++ i ++ [t])) ((k : ℤ) - ms) t := by
      intro t ht
      have := hw3 k (a ++ i) t hk (inB_append ha hi) ht
      rw [List.cons_append, List.cons_append, this, hp3]
      unfold shifted
      by_cases h : ms ≤ k * 1 + t ∧ k * 1 + t < ms + T
      · rw [if_pos h, if_pos (by omega)]
        congr 3; omega
      · rw [if_neg h, if_neg (by omega)]
    have hdw : ∀ t, (demean w).get ((k :: a) ++ i ++ [t]) = w.get ((k :: a) ++ i ++ [t]) -
        mean T (fun t => w.get ((k :: a) ++ i ++ [t])) := fun t => demean_get w _ T hws' _ t
    have hdy : ∀ t, (demean y).get (i ++ [t]) = y.get (i ++ [t]) - mean T (fun t => y.get (i ++ [t])) :=
      fun t => demean_get y _ T hy _ t
    have e1 : pr.sumLast.get ((k :: a) ++ i) = cov T (fun t => w.get ((k :: a) ++ i ++ [t]))
        (fun t => y.get (i ++ [t])) := by
      simp only [Tensor.sumLast, hpr2]
      rw [show ((2 * ms + 1) :: A) ++ (s ++ [T]) = (((2 * ms + 1) :: A) ++ s) ++ [T] by simp,
        List.getLastD_concat]
      refine Finset.sum_congr rfl fun t ht => ?_
      have := hpr3 (k :: a) (i ++ [t]) hka (inB_append hi ⟨by simpa using ht, trivial⟩)
      rw [← List.append_assoc] at this
      rw [this, hdw, hdy]
    have e2 : ((demean w).map (· ^ 2)).sumLast.get ((k :: a) ++ i) =
        cov T (fun t => w.get ((k :: a) ++ i ++ [t])) (fun t => w.get ((k :: a) ++ i ++ [t])) := by
      simp only [Tensor.sumLast, Tensor.map]
      rw [show (demean w).shape = w.shape from rfl, hws', List.getLastD_concat]
      refine Finset.sum_congr rfl fun t ht => ?_
      rw [hdw]; ring
    have e3 : ((demean y).map (· ^ 2)).sumLast.get i =
        cov T (fun t => y.get (i ++ [t])) (fun t => y.get (i ++ [t])) := by
      simp only [Tensor.sumLast, Tensor.map]
      rw [show (demean y).shape = y.shape from rfl, hy, List.getLastD_concat]
      refine Finset.sum_congr rfl fun t ht => ?_
      rw [hdy]; ring
    rw [e1, e2, e3, fdiv_sqrt _ _ _ (cov_nonneg _ _) (cov_nonneg _ _)]
    unfold corr
    rw [cov_congr T _ _ _ _ hwv hwv, cov_congr T _ _ _ _ hwv (fun t _ => rfl)]

/-- Non-vacuity: at shift 0 a series correlates perfectly with itself (`x` of shape `(1, 3)`, `y` of
shape `(3,)`, one shift in each direction). -/
example : ∃ out, forward (1 : ℕ) (⟨[1, 3], fun i => (i.getD 1 0 : ℝ)⟩ : Tensor ℝ) ⟨[3], fun i => (i.getD 0 0 : ℝ)⟩ = .ok out ∧
    out.shape = [3, 1] ∧ out.get [1, 0] = some 1 := by
  obtain ⟨out, h1, h2, h3⟩ := pearson_correct 1 3 [1] [] (⟨[1, 3], fun i => (i.getD 1 0 : ℝ)⟩ : Tensor ℝ)
    ⟨[3], fun i => (i.getD 0 0 : ℝ)⟩ rfl rfl (by decide) (by decide) (by decide)
  refine ⟨out, h1, h2, ?_⟩
  have := h3 1 [0] [] (by decide) ⟨by decide, trivial⟩ trivial
  rw [show [1, 0] = 1 :: ([0] ++ []) by rfl, this]
  have hc : ∀ f : ℕ → ℝ, f 0 = 0 → f 1 = 1 → f 2 = 2 → mean 3 f = 1 := by
    intro f h0 h1 h2
    simp [mean, Finset.sum_range_succ, h0, h1, h2]; norm_num
  have hc2 : ∀ f g : ℕ → ℝ, f 0 = 0 → f 1 = 1 → f 2 = 2 → g 0 = 0 → g 1 = 1 → g 2 = 2 → cov 3 f g = 2 := by
    intro f g h0 h1 h2 h3 h4 h5
    simp [cov, Finset.sum_range_succ, hc f h0 h1 h2, hc g h3 h4 h5, h0, h1, h2, h3, h4, h5]; norm_num
  unfold corr
  rw [hc2, hc2, hc2]
  · norm_num
  all_goals norm_num [shifted]
  all_goals rfl

/-- Pearson's coefficient lies in `[-1, 1]` wherever it is defined (Cauchy–Schwarz). -/
theorem corr_bounded (n : ℕ) (f g : ℕ → ℝ) (r : ℝ) (h : corr n f g = some r) : -1 ≤ r ∧ r ≤ 1 := by
  unfold corr at h
  split_ifs at h with h0
  simp only [Option.some.injEq] at h
  push Not at h0
  have hf : 0 < cov n f f := lt_of_le_of_ne (cov_nonneg _ _) (Ne.symm h0.1)
  have hg : 0 < cov n g g := lt_of_le_of_ne (cov_nonneg _ _) (Ne.symm h0.2)
  have hcs : cov n f g ^ 2 ≤ cov n f f * cov n g g := by
    have := Finset.sum_mul_sq_le_sq_mul_sq (range n) (fun t => f t - mean n f) (fun t => g t - mean n g)
    unfold cov
    simpa only [← sq] using this
  have hs : |cov n f g| ≤ Real.sqrt (cov n f f) * Real.sqrt (cov n g g) := by
    rw [← Real.sqrt_mul hf.le]
    exact Real.abs_le_sqrt hcs
  have hd : 0 < Real.sqrt (cov n f f) * Real.sqrt (cov n g g) :=
    mul_pos (Real.sqrt_pos.2 hf) (Real.sqrt_pos.2 hg)
  rw [← h, ← abs_le, abs_div, abs_of_pos hd, div_le_one hd]
  exact hs

/-- **C33 (range).**  Every value the transform returns that is not nan lies in `[-1, 1]`. -/
theorem pearson_bounded (ms T : ℕ) (A s : List ℕ) (x y : Tensor ℝ) (out : Tensor (Option ℝ))
    (hx : x.shape = A ++ (s ++ [T])) (hy : y.shape = s ++ [T]) (hr : (A ++ s).length ≤ 2)
    (hpos : ∀ d ∈ A ++ s, 0 < d) (hT : 0 < T) (ho : forward ms x y = .ok out)
    (k : ℕ) (a i : List ℕ) (hk : k < 2 * ms + 1) (ha : InB a A) (hi : InB i s) (r : ℝ)
    (h : out.get (k :: (a ++ i)) = some r) : -1 ≤ r ∧ r ≤ 1 := by
  obtain ⟨out', h1, -, h3⟩ := pearson_correct ms T A s x y hx hy hr hpos hT
  rw [ho] at h1
  cases h1
  rw [h3 k a i hk ha hi] at h
  exact corr_bounded _ _ _ _ h

/-- **C33 (affine invariance).**  Adding a constant to `y` or multiplying it by a positive factor does not
change the correlation. -/
theorem corr_affine (n : ℕ) (hn : 0 < n) (f g : ℕ → ℝ) (a b : ℝ) (ha : 0 < a) :
    corr n f (fun t => a * g t + b) = corr n f g := by
  have hm : mean n (fun t => a * g t + b) = a * mean n g + b := by
    unfold mean
    rw [Finset.sum_add_distrib, ← Finset.mul_sum]
    simp
    field_simp
  have h1 : ∀ f, cov n f (fun t => a * g t + b) = a * cov n f g := by
    intro f
    unfold cov
    rw [hm, Finset.mul_sum]
    exact Finset.sum_congr rfl fun t _ => by ring
  have h2 : cov n (fun t => a * g t + b) (fun t => a * g t + b) = a ^ 2 * cov n g g := by
    unfold cov
    rw [hm, Finset.mul_sum]
    exact Finset.sum_congr rfl fun t _ => by ring
  unfold corr
  rw [h2, h1, Real.sqrt_mul (by positivity), Real.sqrt_sq ha.le]
  have : a ^ 2 * cov n g g = 0 ↔ cov n g g = 0 := by simp [ha.ne']
  simp only [this]
  split_ifs
  · rfl
  · congr 1
    rw [show Real.sqrt (cov n f f) * (a * Real.sqrt (cov n g g)) =
      a * (Real.sqrt (cov n f f) * Real.sqrt (cov n g g)) by ring, mul_div_mul_left _ _ ha.ne']

example : corr 3 (fun t => (t : ℝ)) (fun t => 2 * (t : ℝ) ^ 2 + 7) = corr 3 (fun t => (t : ℝ)) (fun t => (t : ℝ) ^ 2) :=
  corr_affine 3 (by norm_num) (fun t => (t : ℝ)) (fun t => (t : ℝ) ^ 2) 2 7 (by norm_num)

/-- **C33 (validation).**  Shapes that do not match from the right, or more than three dimensions, raise
ValueError, whatever the values and the maximal shift. -/
theorem pearson_shape_error (ms : Int) (x y : Tensor ℝ) (h : ¬ (x.shape.length ≤ 3 ∧ y.shape <:+ x.shape)) :
    forward ms x y = .error .value := by
  have hc : shapeChecks x.shape y.shape = .error .value := by
    rcases shapeChecks_cases x.shape y.shape with h1 | h1
    · exact absurd ((shapeChecks_ok_iff _ _).1 h1) h
    · exact h1
  unfold forward
  rw [hc]; rfl

example : forward 2 (⟨[2, 8], fun _ => 0⟩ : Tensor ℝ) ⟨[3, 8], fun _ => 0⟩ = .error .value :=
  pearson_shape_error _ _ _ (by decide)

/-- A negative maximal shift never returns a value. -/
theorem pearson_negative_shift (ms : Int) (hms : ms < 0) (x y : Tensor ℝ) : ∃ e, forward ms x y = .error e := by
  by_cases h : x.shape.length ≤ 3 ∧ y.shape <:+ x.shape
  · have hc := (shapeChecks_ok_iff _ _).2 h
    unfold forward
    rw [hc]
    simp only [res_bind_ok]
    rcases List.eq_nil_or_concat x.shape with h0 | ⟨lead, T, h0⟩
    · exact ⟨.index, by simp [Tensor.lastDim, h0]⟩
    · rw [List.concat_eq_append] at h0
      rw [Slicing.lastDim_append x lead T h0]
      simp only [res_bind_ok]
      unfold Tensor.padLast
      rw [Slicing.lastDim_append x lead T h0]
      simp only [res_bind_ok]
      by_cases hn : (T : Int) + ms + ms < 0
      · rw [if_pos hn]; exact ⟨_, rfl⟩
      · rw [if_neg hn]
        simp only [res_bind_ok]
        obtain ⟨e, he⟩ := (Slicing.unfold_windows_error_iff
          (⟨x.shape.dropLast ++ [((T : Int) + ms + ms).toNat], fun i =>
            let t : Int := (i.getLastD 0 : Nat)
            if 0 ≤ t - ms ∧ t - ms < T then x.get (i.dropLast ++ [(t - ms).toNat]) else 0⟩ : Tensor ℝ) lead
          ((T : Int) + ms + ms).toNat T 1 true (by simp [h0]) (by
            have := h.1; rw [h0] at this; simp at this; omega)).2 (by omega)
        dsimp only at he ⊢
        rw [he]
        exact ⟨e, rfl⟩
  · exact ⟨_, pearson_shape_error ms x y h⟩

example : ∃ e, forward (-1) (⟨[2, 8], fun _ => 0⟩ : Tensor ℝ) ⟨[8], fun _ => 0⟩ = .error e :=
  pearson_negative_shift _ (by decide) _ _

end Verif.Pearson
