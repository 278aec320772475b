import Verif.Lemmas.SchoenbergWhitney
import Verif.Lemmas.Tensor
import Mathlib.Data.List.GetD
import Mathlib.LinearAlgebra.Matrix.ToLinearEquiv
import Mathlib.Tactic.NormNum
import Mathlib.Tactic.IntervalCases
/-!
# C47, C48: spline interpolation
-/
set_option linter.unusedSimpArgs false
set_option linter.unusedVariables false
namespace Verif.Spline
open Finset Matrix

/-- What a caller may rely on about the coordinates along an axis: degree at least one, the constructor's length check
passed, coordinates strictly increasing. -/
def Axis.Proper (a : Axis) : Prop := 1 ≤ a.k ∧ a.k + 2 ≤ a.xIn.length ∧ Spec.Increasing a.xIn.length (at' a.xIn)

theorem Axis.good (a : Axis) (h : a.Proper) : Good a.n a.k a.t := knots_good a.xIn a.k h.1 h.2.1 h.2.2

theorem Axis.t_lo (a : Axis) (h : a.Proper) : a.t a.k = at' a.xIn 0 := knot_lo _ _ _ h.2.1 le_rfl
theorem Axis.t_hi (a : Axis) (h : a.Proper) : a.t a.n = at' a.xIn (a.n - 1) := knot_hi _ _ _ le_rfl

theorem Axis.basis_eq (a : Axis) (i : ℕ) (x : ℝ) : basis a.t (a.n + a.k + 1) a.k i x = basisD a.t (a.n + a.k + 1) a.n a.k i x := by
  unfold basis; rw [show a.n + a.k + 1 - a.k - 1 = a.n by omega]

/-- C47 (knots): the generated knots are the documented ones. -/
theorem knots_correct (x : List ℝ) (k : ℕ) (hk : 1 ≤ k) (hx : k + 2 ≤ x.length) : Spec.IsKnots x.length k (at' x) (knot x k) := by
  refine ⟨fun i hi => knot_lo x k i hx hi, fun i hi _ => knot_hi x k i hi, fun i hi => ?_⟩
  rw [knot_mid x k i hi]
  have : (k : ℝ) ≠ 0 := by exact_mod_cast (show k ≠ 0 by omega)
  field_simp

/-- Any knot sequence meeting the description, in place of the generated one, has the same entries. -/
theorem knots_unique (x : List ℝ) (k : ℕ) (hk : 1 ≤ k) (hx : k + 2 ≤ x.length) (t : ℕ → ℝ) (ht : Spec.IsKnots x.length k (at' x) t)
    (i : ℕ) (hi : i ≤ x.length + k) : t i = knot x k i := by
  have hk0 : (k : ℝ) ≠ 0 := by exact_mod_cast (show k ≠ 0 by omega)
  rcases Nat.lt_or_ge k i with h1 | h1
  · rcases Nat.lt_or_ge i x.length with h2 | h2
    · obtain ⟨q, rfl⟩ : ∃ q, i = k + 1 + q := ⟨i - (k + 1), by omega⟩
      have := (knots_correct x k hk hx).2.2 q (by omega)
      have h3 := ht.2.2 q (by omega)
      rw [← this] at h3
      exact mul_left_cancel₀ hk0 h3
    · rw [ht.2.1 i h2 hi, knot_hi x k i h2]
  · rw [ht.1 i h1, knot_lo x k i hx h1]

example : knot [0, 1, 3, 4, 7] 3 4 = (1 + 3 + 4) / 3 := by
  norm_num [knot, at', sum_range_succ]

/-- The basis functions the module uses for output coordinate `y` (after clamping): column `i`. -/
noncomputable def Axis.basisAt (a : Axis) (i : ℕ) (y : ℝ) : ℝ :=
  basis a.t (a.n + a.k + 1) a.k i (clamp y (a.t a.k) (a.t (a.n + a.k + 1 - a.k - 1)))

theorem Axis.clamp_eq (a : Axis) (h : a.Proper) (y : ℝ) :
    clamp y (a.t a.k) (a.t (a.n + a.k + 1 - a.k - 1)) = Spec.nearest (at' a.xIn 0) (at' a.xIn (a.n - 1)) y ∧
      a.t a.k ≤ Spec.nearest (at' a.xIn 0) (at' a.xIn (a.n - 1)) y ∧
      Spec.nearest (at' a.xIn 0) (at' a.xIn (a.n - 1)) y ≤ a.t a.n := by
  rw [show a.n + a.k + 1 - a.k - 1 = a.n by omega, a.t_lo h, a.t_hi h]
  have hlt : at' a.xIn 0 < at' a.xIn (a.n - 1) := h.2.2 _ _ (by have := h.2.1; unfold Axis.n; omega) (by have := h.2.1; unfold Axis.n; omega)
  unfold clamp Spec.nearest
  split_ifs with c1 c2
  · rw [max_eq_right c1.le, min_eq_left hlt.le]; exact ⟨rfl, le_rfl, hlt.le⟩
  · rw [max_eq_left (by linarith), min_eq_right c2.le]; exact ⟨rfl, hlt.le, le_rfl⟩
  · push Not at c1 c2
    rw [max_eq_left c1, min_eq_left c2]; exact ⟨rfl, c1, c2⟩

/-- C47 (basis): for every output coordinate the basis values are non-negative, add up to one, vanish unless the coordinate
(moved into the input range) lies in the support `[t_i, t_{i+k+1}]`, and are the textbook B-splines over the documented
knots; at the right end point only the last one is non-zero and equals one. -/
theorem basis_correct (a : Axis) (h : a.Proper) (t : ℕ → ℝ) (ht : Spec.IsKnots a.n a.k (at' a.xIn) t) (y : ℝ) :
    (∑ i ∈ range a.n, a.basisAt i y = 1) ∧
      ∀ i < a.n, 0 ≤ a.basisAt i y ∧
        (a.basisAt i y ≠ 0 → t i ≤ Spec.nearest (at' a.xIn 0) (at' a.xIn (a.n - 1)) y ∧
          Spec.nearest (at' a.xIn 0) (at' a.xIn (a.n - 1)) y ≤ t (i + a.k + 1)) ∧
        (y < at' a.xIn (a.n - 1) → a.basisAt i y = Spec.N t a.k i (Spec.nearest (at' a.xIn 0) (at' a.xIn (a.n - 1)) y)) ∧
        (at' a.xIn (a.n - 1) ≤ y → a.basisAt i y = if i + 1 = a.n then 1 else 0) := by
  have g := a.good h
  obtain ⟨e, c0, c1⟩ := a.clamp_eq h y
  have hu : ∀ i ≤ a.n + a.k, t i = a.t i := fun i hi => knots_unique a.xIn a.k h.1 h.2.1 t ht i hi
  have hlt : at' a.xIn 0 < at' a.xIn (a.n - 1) := h.2.2 _ _ (by have := h.2.1; unfold Axis.n; omega) (by have := h.2.1; unfold Axis.n; omega)
  have NN : ∀ d i x, i + d + 1 ≤ a.n + a.k → Spec.N t d i x = Spec.N a.t d i x := by
    intro d
    induction d with
    | zero => intro i x hi; simp only [Spec.N]; rw [hu i (by omega), hu (i + 1) (by omega)]
    | succ d ih =>
      intro i x hi
      simp only [Spec.N]
      rw [hu i (by omega), hu (i + 1) (by omega), hu (i + (d + 1)) (by omega), hu (i + (d + 1) + 1) (by omega),
        ih i x (by omega), ih (i + 1) x (by omega)]
  unfold Axis.basisAt
  simp only [a.basis_eq, e]
  refine ⟨basisD_sum g _ c0 c1, fun i hi => ⟨basisD_nonneg g _ c0 c1 _ le_rfl i hi, fun hne => ?_, fun hy => ?_, fun hy => ?_⟩⟩
  · obtain ⟨q, r⟩ := basisD_support g _ c0 c1 _ le_rfl i hi hne
    rw [hu i (by omega), hu (i + a.k + 1) (by omega)]
    refine ⟨q, ?_⟩
    rcases r with r | ⟨r1, r2⟩
    · exact r.le
    · rw [g.hi (i + a.k + 1) (by omega) (by omega)]; exact r2.le
  · rw [NN _ _ _ (by omega)]
    apply basisD_eq_N g _ c0 _ _ le_rfl i hi
    rw [a.t_hi h]
    unfold Spec.nearest
    split_ifs with c2 c3
    · exact hlt
    · linarith
    · exact hy
  · have : Spec.nearest (at' a.xIn 0) (at' a.xIn (a.n - 1)) y = a.t a.n := by
      rw [a.t_hi h]
      unfold Spec.nearest
      split_ifs with c2 c3
      · linarith
      · rfl
      · linarith
    rw [this]
    exact basisD_last g _ le_rfl i hi

/-- A concrete axis for the examples: six sites, cubic. -/
def demoAxis : Axis := ⟨[0, 1, 2, 4, 5, 7], 3, 0⟩

theorem demoAxis_proper : demoAxis.Proper := by
  refine ⟨by decide, by decide, ?_⟩
  intro i j hij hj
  simp only [demoAxis, List.length_cons, List.length_nil] at hj
  interval_cases j <;> interval_cases i <;> norm_num [demoAxis, at']

example : ∑ i ∈ range 6, demoAxis.basisAt i 3 = 1 := (basis_correct demoAxis demoAxis_proper _ (knots_correct _ 3 (by decide) (by decide)) 3).1

/-! ## The fit -/

/-- The spline with coefficients `c`, evaluated as the module does. -/
noncomputable def Axis.spline (a : Axis) (c : Fin a.n → ℝ) (y : ℝ) : ℝ := ∑ i : Fin a.n, c i * a.basisAt i y

theorem Axis.B_eq (a : Axis) (h : a.Proper) (j i : Fin a.n) : a.B j i = a.basisAt i (at' a.xIn j) := by
  unfold Axis.B Axis.basisAt
  rw [(a.clamp_eq h _).1]
  congr 1
  have hl : at' a.xIn 0 ≤ at' a.xIn j := by
    rcases Nat.eq_zero_or_pos j.1 with h0 | h0
    · rw [h0]
    · exact (h.2.2 _ _ h0 j.2).le
  have hr : at' a.xIn j ≤ at' a.xIn (a.n - 1) := by
    rcases eq_or_ne j.1 (a.n - 1) with h0 | h0
    · rw [h0]
    · exact (h.2.2 _ _ (by have := j.2; omega) (by have := j.2; unfold Axis.n at *; omega)).le
  unfold Spec.nearest
  rw [if_neg (by linarith), if_neg (by linarith)]

/-- C47 (solvability, Schoenberg–Whitney): the collocation matrix of strictly increasing coordinates is invertible, for every degree and number of
coordinates. -/
theorem Axis.B_det (a : Axis) (h : a.Proper) : a.B.det ≠ 0 := by
  intro h0
  obtain ⟨v, hv, hz⟩ := Matrix.exists_mulVec_eq_zero_iff.2 h0
  apply hv
  have := schoenberg_whitney (a.good h) (knots_simple a.xIn a.k h.1 h.2.1 h.2.2) (at' a.xIn) (knots_sites a.xIn a.k h.1 h.2.1 h.2.2)
    (fun i => if hi : i < a.n then v ⟨i, hi⟩ else 0) (fun j hj => by
      have hzj := congrFun hz ⟨j, hj⟩
      simp only [mulVec, dotProduct, Pi.zero_apply] at hzj
      refine Eq.trans ?_ hzj
      rw [← Fin.sum_univ_eq_sum_range (fun i => (if hi : i < a.n then v ⟨i, hi⟩ else 0) * basisD a.t (a.n + a.k + 1) a.n a.k i (at' a.xIn j))]
      refine sum_congr rfl fun i _ => ?_
      rw [dif_pos i.2, mul_comm]
      congr 1
      exact (a.basis_eq i _).symm)
  funext i
  have hi := this i i.2
  rwa [dif_pos i.2] at hi

example : demoAxis.B.det ≠ 0 := demoAxis.B_det demoAxis_proper

theorem Axis.BTB_zero (a : Axis) (hs : a.s = 0) : a.BTB = a.Bᵀ * a.B := by
  unfold Axis.BTB; rw [hs, zero_smul, add_zero]

theorem Axis.det_zero (a : Axis) (hs : a.s = 0) : a.BTB.det = a.B.det * a.B.det := by
  rw [a.BTB_zero hs, det_mul, det_transpose]

/-- C47 (solvability): the normal equations are never singular, with or without (positive) regularisation. -/
theorem fit_solvable (a : Axis) (hs : 0 < a.s ∨ (a.s = 0 ∧ a.Proper)) : a.BTB.det ≠ 0 := by
  rcases hs with hs | ⟨hs, hp⟩
  swap
  · rw [a.det_zero hs]; exact mul_ne_zero (a.B_det hp) (a.B_det hp)
  intro h0
  obtain ⟨v, hv, hz⟩ := Matrix.exists_mulVec_eq_zero_iff.2 h0
  have h1 : v ⬝ᵥ (a.BTB *ᵥ v) = 0 := by rw [hz, dotProduct_zero]
  unfold Axis.BTB at h1
  rw [add_mulVec, dotProduct_add, smul_mulVec, one_mulVec, dotProduct_smul, ← mulVec_mulVec, dotProduct_mulVec, vecMul_transpose, smul_eq_mul] at h1
  have p1 : 0 ≤ (a.B *ᵥ v) ⬝ᵥ (a.B *ᵥ v) := sum_nonneg fun i _ => mul_self_nonneg _
  have p2 : 0 < v ⬝ᵥ v := by
    obtain ⟨i, hi⟩ := Function.ne_iff.1 hv
    exact sum_pos' (fun i _ => mul_self_nonneg _) ⟨i, mem_univ i, mul_self_pos.2 hi⟩
  nlinarith [mul_pos hs p2]

/-- The coefficients computed for a row of data. -/
noncomputable def Axis.coef (a : Axis) (z : Fin a.n → ℝ) : Fin a.n → ℝ := solve a.BTB (a.Bᵀ *ᵥ z)

theorem Axis.coef_interp (a : Axis) (hs : a.s = 0) (hB : a.B.det ≠ 0) (z : Fin a.n → ℝ) : a.B *ᵥ a.coef z = z := by
  have hu : IsUnit a.B.det := isUnit_iff_ne_zero.2 hB
  have hut : IsUnit a.Bᵀ.det := by rw [det_transpose]; exact hu
  unfold Axis.coef solve
  rw [a.BTB_zero hs, Matrix.mul_inv_rev, ← mulVec_mulVec, mulVec_mulVec (M := (a.Bᵀ)⁻¹), nonsing_inv_mul _ hut, one_mulVec, mulVec_mulVec,
    mul_nonsing_inv _ hu, one_mulVec]

theorem Axis.coef_unique (a : Axis) (hs : a.s = 0) (hB : a.B.det ≠ 0) (z c : Fin a.n → ℝ) (hc : a.B *ᵥ c = z) : a.coef z = c := by
  have hu : IsUnit a.B.det := isUnit_iff_ne_zero.2 hB
  subst hc
  have h1 := a.coef_interp hs hB (a.B *ᵥ c)
  have := congrArg (fun v => a.B⁻¹ *ᵥ v) h1
  simpa [mulVec_mulVec, nonsing_inv_mul _ hu] using this

/-! ## The module: one-dimensional -/

theorem to4d_shape (Z : Tensor ℝ) (lead : List ℕ) (w : ℕ) (hZ : Z.shape = lead ++ [w]) (hl : lead.length ≤ 3) :
    (to4d Z).shape = List.replicate (3 - lead.length) 1 ++ lead ++ [w] := by
  simp only [to4d, hZ, List.length_append, List.length_singleton]
  rw [show 4 - (lead.length + 1) = 3 - lead.length by omega, List.append_assoc]

theorem validate_ok (f : Interp1D) (Z : Tensor ℝ) (lead : List ℕ) (hZ : Z.shape = lead ++ [f.ax.n]) (hl : lead.length ≤ 3)
    (xo : Option (List ℝ)) (hx : xo ≠ none ∨ f.xOut ≠ none) : f.validate Z xo = .ok (to4d Z) := by
  unfold Interp1D.validate
  rw [if_neg (by tauto), if_neg (by simp [hZ]; omega), if_neg (by simp [hZ]), if_neg (by simp [hZ])]

/-- The entries of a leading index after padding with ones. -/
theorem to4d_get (Z : Tensor ℝ) (lead : List ℕ) (w : ℕ) (hZ : Z.shape = lead ++ [w]) (hl : lead.length ≤ 3) (i : List ℕ)
    (j : ℕ) : (to4d Z).get (List.replicate (3 - lead.length) 0 ++ i ++ [j]) = Z.get (i ++ [j]) := by
  simp only [to4d, hZ, List.length_append, List.length_singleton]
  rw [show 4 - (lead.length + 1) = 3 - lead.length by omega, List.append_assoc]
  rw [List.drop_left' (by simp)]

/-- The output of one successful evaluation, stated for the data as passed (before the padding to four dimensions): row `i`
of the data is fitted by coefficients `c`, which minimise nothing else but solve the regularised normal equations, and the
output at column `j` is the spline with those coefficients at the `j`-th output coordinate. -/
def Evaluates1D (a : Axis) (Z : Tensor ℝ) (lead : List ℕ) (xs : List ℝ) (out : Tensor ℝ) : Prop :=
  out.shape = List.replicate (3 - lead.length) 1 ++ lead ++ [xs.length] ∧
    ∀ i : List ℕ, i.length = lead.length → ∃ c : Fin a.n → ℝ,
      (a.BTB *ᵥ c = a.Bᵀ *ᵥ fun j => Z.get (i ++ [(j : ℕ)])) ∧
        ∀ j (hj : j < xs.length), out.get (List.replicate (3 - lead.length) 0 ++ i ++ [j]) = a.spline c xs[j]

theorem fitEval_ok (a : Axis) (hd : a.BTB.det ≠ 0) (xs : List ℝ) (Z : Tensor ℝ) (lead : List ℕ) (hZ : Z.shape = lead ++ [a.n])
    (hl : lead.length ≤ 3) : ∃ out, fitEval a (a.rows xs) (to4d Z) = .ok out ∧ Evaluates1D a Z lead xs out ∧
      ∀ i : List ℕ, i.length = lead.length → ∀ j (hj : j < xs.length), out.get (List.replicate (3 - lead.length) 0 ++ i ++ [j]) =
        a.spline (a.coef fun j => Z.get (i ++ [(j : ℕ)])) xs[j] := by
  unfold fitEval
  rw [if_neg hd]
  have key : ∀ i : List ℕ, i.length = lead.length → ∀ j (hj : j < xs.length),
      ((a.rows xs).getD ((List.replicate (3 - lead.length) 0 ++ i ++ [j]).getLastD 0) 0 ⬝ᵥ
        solve a.BTB (a.Bᵀ *ᵥ fun p => (to4d Z).get ((List.replicate (3 - lead.length) 0 ++ i ++ [j]).dropLast ++ [(p : ℕ)]))) =
      a.spline (a.coef fun p => Z.get (i ++ [(p : ℕ)])) xs[j] := by
    intro i hi j hj
    rw [List.getLastD_concat, List.dropLast_concat]
    simp only [to4d_get Z lead a.n hZ hl]
    unfold Axis.rows
    rw [List.getD_eq_getElem _ _ (by simpa using hj), List.getElem_map]
    simp only [Axis.spline, Axis.basisAt, dotProduct, Axis.coef]
    exact sum_congr rfl fun _ _ => mul_comm _ _
  refine ⟨_, rfl, ⟨?_, ?_⟩, key⟩
  · simp only [to4d_shape Z lead a.n hZ hl, List.dropLast_concat, Axis.rows, List.length_map]
  · intro i hi
    refine ⟨a.coef fun p => Z.get (i ++ [(p : ℕ)]), ?_, fun j hj => key i hi j hj⟩
    unfold Axis.coef solve
    rw [mulVec_mulVec, mul_nonsing_inv _ (isUnit_iff_ne_zero.2 hd), one_mulVec]

/-- C47 (constructor): too few sites are rejected, everything else is accepted and remembered. -/
theorem init1d (x : List ℝ) (k : ℕ) (s : ℝ) (xo : Option (List ℝ)) :
    (x.length < k + 2 → Interp1D.init x k s xo = .error .value) ∧
      (k + 2 ≤ x.length → ∃ f, Interp1D.init x k s xo = .ok f ∧ f.ax = ⟨x, k, s⟩ ∧ f.xOut = xo) := by
  unfold Interp1D.init
  exact ⟨fun h => by rw [if_pos h], fun h => by rw [if_neg (by omega)]; exact ⟨_, rfl, rfl, rfl⟩⟩

/-- C47 (evaluation at the given coordinates): with `x_out` passed to the call, or given at construction and never overridden,
the call evaluates the fitted spline at those coordinates. -/
theorem spline1d_evaluates (x : List ℝ) (k : ℕ) (s : ℝ) (xo yo : Option (List ℝ)) (xs : List ℝ) (f : Interp1D)
    (hf : Interp1D.init x k s xo = .ok f) (hxs : yo = some xs ∨ (yo = none ∧ xo = some xs)) (hd : f.ax.BTB.det ≠ 0)
    (Z : Tensor ℝ) (lead : List ℕ) (hZ : Z.shape = lead ++ [x.length]) (hl : lead.length ≤ 3) :
    ∃ out, (f.forward Z yo).1 = .ok out ∧ Evaluates1D ⟨x, k, s⟩ Z lead xs out := by
  unfold Interp1D.init at hf
  split_ifs at hf with hx
  cases hf
  unfold Interp1D.forward
  rw [validate_ok ⟨⟨x, k, s⟩, xo, xo.map (Axis.rows ⟨x, k, s⟩)⟩ Z lead hZ hl yo (by rcases hxs with h | h <;> simp [h])]
  obtain ⟨out, h1, h2, _⟩ := fitEval_ok ⟨x, k, s⟩ hd xs Z lead hZ hl
  refine ⟨out, ?_, h2⟩
  rcases hxs with rfl | ⟨rfl, rfl⟩
  · exact h1
  · exact h1

/-- C47 (no failure): with strictly increasing coordinates, enough of them for the degree, and non-negative regularisation, construction and call
succeed for every output coordinates and data of the right width, and evaluate the fitted spline. -/
theorem spline1d_total (x : List ℝ) (k : ℕ) (s : ℝ) (hk : 1 ≤ k) (hx : k + 2 ≤ x.length) (hinc : Spec.Increasing x.length (at' x)) (hs : 0 ≤ s)
    (xo yo : Option (List ℝ)) (xs : List ℝ) (hxs : yo = some xs ∨ (yo = none ∧ xo = some xs)) (Z : Tensor ℝ) (lead : List ℕ)
    (hZ : Z.shape = lead ++ [x.length]) (hl : lead.length ≤ 3) :
    ∃ f out, Interp1D.init x k s xo = .ok f ∧ (f.forward Z yo).1 = .ok out ∧ Evaluates1D ⟨x, k, s⟩ Z lead xs out := by
  obtain ⟨f, hf, hax, _⟩ := (init1d x k s xo).2 hx
  have hd : f.ax.BTB.det ≠ 0 := by
    rw [hax]
    refine fit_solvable _ ?_
    rcases eq_or_lt_of_le hs with h0 | h0
    · exact Or.inr ⟨h0.symm, hk, hx, hinc⟩
    · exact Or.inl h0
  obtain ⟨out, h1, h2⟩ := spline1d_evaluates x k s xo yo xs f hf hxs hd Z lead hZ hl
  exact ⟨f, out, hf, h1, h2⟩

example : ∃ f out, Interp1D.init [0, 1, 2, 4, 5, 7] 3 0 (some [0.5, 6]) = .ok f ∧ (f.forward ⟨[6], fun i => ((i.getD 0 0 : ℕ) : ℝ) ^ 2⟩ none).1 = .ok out ∧
    Evaluates1D ⟨[0, 1, 2, 4, 5, 7], 3, 0⟩ ⟨[6], fun i => ((i.getD 0 0 : ℕ) : ℝ) ^ 2⟩ [] [0.5, 6] out :=
  spline1d_total [0, 1, 2, 4, 5, 7] 3 0 (by decide) (by decide) demoAxis_proper.2.2 le_rfl _ _ [0.5, 6] (Or.inr ⟨rfl, rfl⟩) _ [] rfl (by decide)

/-- C47 (data reproduced): with zero regularisation, every output coordinate equal to an
input coordinate gets exactly the datum, and every output coordinate beyond the ends gets the end datum. -/
theorem spline1d_interpolates (a : Axis) (h : a.Proper) (hs : a.s = 0) (Z : Tensor ℝ) (lead : List ℕ)
    (xs : List ℝ) (out : Tensor ℝ) (ho : Evaluates1D a Z lead xs out) (i : List ℕ) (hi : i.length = lead.length) (j p : ℕ) (hj : j < xs.length)
    (hp : p < a.n) (hx : xs[j] = at' a.xIn p ∨ (p = 0 ∧ xs[j] ≤ at' a.xIn 0) ∨ (p = a.n - 1 ∧ at' a.xIn (a.n - 1) ≤ xs[j])) :
    out.get (List.replicate (3 - lead.length) 0 ++ i ++ [j]) = Z.get (i ++ [p]) := by
  obtain ⟨c, hc, hv⟩ := ho.2 i hi
  rw [hv j hj]
  have hB := a.B_det h
  have hd : a.BTB.det ≠ 0 := by rw [a.det_zero hs]; exact mul_ne_zero hB hB
  have hcc : c = a.coef fun j => Z.get (i ++ [(j : ℕ)]) := by
    unfold Axis.coef solve
    rw [← hc, mulVec_mulVec, nonsing_inv_mul _ (isUnit_iff_ne_zero.2 hd), one_mulVec]
  have hk := congrFun (a.coef_interp hs hB fun j => Z.get (i ++ [(j : ℕ)])) ⟨p, hp⟩
  rw [← hcc] at hk
  simp only at hk
  rw [← hk]
  simp only [mulVec, dotProduct, Axis.spline]
  have hlt : at' a.xIn 0 < at' a.xIn (a.n - 1) := h.2.2 _ _ (by have := h.2.1; unfold Axis.n; omega) (by have := h.2.1; unfold Axis.n; omega)
  have hb : ∀ q, a.basisAt q xs[j] = a.basisAt q (at' a.xIn p) := by
    intro q
    unfold Axis.basisAt
    rw [(a.clamp_eq h _).1, (a.clamp_eq h _).1]
    rcases hx with hx | ⟨rfl, hx⟩ | ⟨rfl, hx⟩
    · rw [hx]
    · congr 1
      unfold Spec.nearest
      split_ifs <;> linarith
    · congr 1
      unfold Spec.nearest
      split_ifs <;> linarith
  refine sum_congr rfl fun q _ => ?_
  rw [a.B_eq h, hb]; ring

/-- C47 (polynomials reproduced): with zero regularisation, data sampled from a polynomial of degree at most `k`
come out as the same polynomial at every output coordinate (moved into the input range). -/
theorem spline1d_polynomial (a : Axis) (h : a.Proper) (hs : a.s = 0) (Z : Tensor ℝ) (lead : List ℕ)
    (xs : List ℝ) (out : Tensor ℝ) (ho : Evaluates1D a Z lead xs out) (i : List ℕ) (hi : i.length = lead.length) (p : Polynomial ℝ)
    (hp : p.natDegree ≤ a.k) (hZ : ∀ q < a.n, Z.get (i ++ [q]) = p.eval (at' a.xIn q)) (j : ℕ) (hj : j < xs.length) :
    out.get (List.replicate (3 - lead.length) 0 ++ i ++ [j]) = p.eval (Spec.nearest (at' a.xIn 0) (at' a.xIn (a.n - 1)) xs[j]) := by
  obtain ⟨c, hc, hv⟩ := ho.2 i hi
  rw [hv j hj]
  have hB := a.B_det h
  have hd : a.BTB.det ≠ 0 := by rw [a.det_zero hs]; exact mul_ne_zero hB hB
  have hcc : c = a.coef fun j => Z.get (i ++ [(j : ℕ)]) := by
    unfold Axis.coef solve
    rw [← hc, mulVec_mulVec, nonsing_inv_mul _ (isUnit_iff_ne_zero.2 hd), one_mulVec]
  obtain ⟨e, he⟩ := poly_span (a.good h) p hp
  have hval : ∀ y, ∑ q : Fin a.n, e q * a.basisAt q y = p.eval (Spec.nearest (at' a.xIn 0) (at' a.xIn (a.n - 1)) y) := by
    intro y
    obtain ⟨e1, c0, c1⟩ := a.clamp_eq h y
    rw [Fin.sum_univ_eq_sum_range (fun q => e q * a.basisAt q y), ← he _ c0 c1]
    refine sum_congr rfl fun q _ => ?_
    unfold Axis.basisAt
    rw [e1, a.basis_eq]
  have : c = fun q : Fin a.n => e q := by
    rw [hcc]
    apply a.coef_unique hs hB
    funext q
    rw [hZ q q.2]
    simp only [mulVec, dotProduct, a.B_eq h]
    have hn : Spec.nearest (at' a.xIn 0) (at' a.xIn (a.n - 1)) (at' a.xIn q) = at' a.xIn q := by
      have hl : at' a.xIn 0 ≤ at' a.xIn q := by
        rcases Nat.eq_zero_or_pos q.1 with h0 | h0
        · rw [h0]
        · exact (h.2.2 _ _ h0 q.2).le
      have hr : at' a.xIn q ≤ at' a.xIn (a.n - 1) := by
        rcases eq_or_ne q.1 (a.n - 1) with h0 | h0
        · rw [h0]
        · exact (h.2.2 _ _ (by have := q.2; omega) (by have := q.2; unfold Axis.n at *; omega)).le
      unfold Spec.nearest
      rw [if_neg (by linarith), if_neg (by linarith)]
    have h5 := hval (at' a.xIn q)
    rw [hn] at h5
    rw [← h5]
    exact sum_congr rfl fun _ _ => mul_comm _ _
  rw [this]
  exact hval xs[j]

/-- C47 (linearity): evaluating a combination of data gives the combination of the outputs. -/
theorem spline1d_linear (a : Axis) (hd : a.BTB.det ≠ 0) (lead : List ℕ) (xs : List ℝ) (α β : ℝ) (Z Z' Z'' out out' out'' : Tensor ℝ)
    (h1 : Evaluates1D a Z lead xs out) (h2 : Evaluates1D a Z' lead xs out') (h3 : Evaluates1D a Z'' lead xs out'')
    (hZ : ∀ i q, Z''.get (i ++ [q]) = α * Z.get (i ++ [q]) + β * Z'.get (i ++ [q])) (i : List ℕ) (hi : i.length = lead.length)
    (j : ℕ) (hj : j < xs.length) :
    out''.get (List.replicate (3 - lead.length) 0 ++ i ++ [j]) = α * out.get (List.replicate (3 - lead.length) 0 ++ i ++ [j])
      + β * out'.get (List.replicate (3 - lead.length) 0 ++ i ++ [j]) := by
  obtain ⟨c, hc, hv⟩ := h1.2 i hi
  obtain ⟨c', hc', hv'⟩ := h2.2 i hi
  obtain ⟨c'', hc'', hv''⟩ := h3.2 i hi
  rw [hv j hj, hv' j hj, hv'' j hj]
  have inj : ∀ u v : Fin a.n → ℝ, a.BTB *ᵥ u = a.BTB *ᵥ v → u = v := by
    intro u v huv
    have := congrArg (fun w => a.BTB⁻¹ *ᵥ w) huv
    simpa [mulVec_mulVec, nonsing_inv_mul _ (isUnit_iff_ne_zero.2 hd)] using this
  have : c'' = α • c + β • c' := by
    apply inj
    rw [hc'', mulVec_add, mulVec_smul, mulVec_smul, hc, hc', ← mulVec_smul, ← mulVec_smul, ← mulVec_add]
    congr 1
    funext q
    simp only [Pi.add_apply, Pi.smul_apply, smul_eq_mul]
    exact hZ i q
  rw [this]
  simp only [Axis.spline, Pi.add_apply, Pi.smul_apply, smul_eq_mul, mul_sum, ← sum_add_distrib]
  exact sum_congr rfl fun q _ => by ring

/-- C47 (rejections of the call): the documented errors, before any state changes. -/
theorem spline1d_rejects (f : Interp1D) (Z : Tensor ℝ) (xo : Option (List ℝ))
    (hbad : (xo = none ∧ f.xOut = none) ∨ 4 < Z.shape.length ∨ (Z.shape ≠ [] ∧ Z.shape.getLastD 0 ≠ f.ax.n)) :
    f.forward Z xo = (.error .value, f) := by
  unfold Interp1D.forward Interp1D.validate
  split_ifs with h1 h2 h3 h4
  · rfl
  · rfl
  · rcases hbad with h | h | h
    · exact absurd h h1
    · exact absurd h h2
    · exact absurd h3 h.1
  · rfl
  · rcases hbad with h | h | h
    · exact absurd h h1
    · exact absurd h h2
    · exact absurd h.2 h4

/-! ## C48: histories -/

/-- The state after a history of calls. -/
noncomputable def after (f : Interp1D) (calls : List (Tensor ℝ × Option (List ℝ))) : Interp1D :=
  calls.foldl (fun g c => (g.forward c.1 c.2).2) f

theorem forward_state (f : Interp1D) (Z : Tensor ℝ) (xo : Option (List ℝ)) :
    (f.forward Z xo).2 = f ∨ ∃ xs, xo = some xs ∧ (f.forward Z xo).2 = { f with rowsOut := some (f.ax.rows xs) } := by
  unfold Interp1D.forward
  cases h : f.validate Z xo with
  | error e => exact Or.inl rfl
  | ok Z4 =>
    cases xo with
    | none => exact Or.inl rfl
    | some xs => exact Or.inr ⟨xs, rfl, rfl⟩

/-- C48, the part that holds: as long as no call of the history passed its own coordinates, a call without coordinates
evaluates at those given at construction. -/
theorem history_no_override_partial (x : List ℝ) (k : ℕ) (s : ℝ) (xs : List ℝ) (f : Interp1D)
    (hf : Interp1D.init x k s (some xs) = .ok f) (calls : List (Tensor ℝ × Option (List ℝ))) (hc : ∀ c ∈ calls, c.2 = none)
    (hd : f.ax.BTB.det ≠ 0) (Z : Tensor ℝ) (lead : List ℕ) (hZ : Z.shape = lead ++ [x.length]) (hl : lead.length ≤ 3) :
    ∃ out, ((after f calls).forward Z none).1 = .ok out ∧ Evaluates1D ⟨x, k, s⟩ Z lead xs out := by
  have : after f calls = f := by
    clear hd hf
    induction calls generalizing f with
    | nil => rfl
    | cons c cs ih =>
      unfold after
      rw [List.foldl_cons]
      have h1 : (f.forward c.1 c.2).2 = f := by
        rcases forward_state f c.1 c.2 with h | ⟨_, h, _⟩
        · exact h
        · rw [hc c (by simp)] at h; cases h
      rw [h1]
      exact ih f (fun d hd => hc d (by simp [hd]))
  rw [this]
  exact spline1d_evaluates x k s (some xs) none xs f hf (Or.inr ⟨rfl, rfl⟩) hd Z lead hZ hl

/-- C48, what the code does instead: a call without coordinates evaluates at the coordinates of the most recent valid call
that passed some. -/
theorem history_last_override (x : List ℝ) (k : ℕ) (s : ℝ) (xs ys : List ℝ) (f : Interp1D)
    (hf : Interp1D.init x k s (some xs) = .ok f) (before later : List (Tensor ℝ × Option (List ℝ))) (Y : Tensor ℝ) (leadY : List ℕ)
    (hY : Y.shape = leadY ++ [x.length]) (hlY : leadY.length ≤ 3) (hc : ∀ c ∈ later, c.2 = none)
    (hd : f.ax.BTB.det ≠ 0) (Z : Tensor ℝ) (lead : List ℕ) (hZ : Z.shape = lead ++ [x.length]) (hl : lead.length ≤ 3) :
    ∃ out, ((after f (before ++ (Y, some ys) :: later)).forward Z none).1 = .ok out ∧ Evaluates1D ⟨x, k, s⟩ Z lead ys out := by
  unfold Interp1D.init at hf
  split_ifs at hf with hx
  cases hf
  have inv : ∀ (cs : List (Tensor ℝ × Option (List ℝ))) (r : Option (List (Fin (Axis.n ⟨x, k, s⟩) → ℝ))),
      ∃ r', after ⟨⟨x, k, s⟩, some xs, r⟩ cs = ⟨⟨x, k, s⟩, some xs, r'⟩ := by
    intro cs
    induction cs with
    | nil => intro r; exact ⟨r, rfl⟩
    | cons c cs ih =>
      intro r
      unfold after
      rw [List.foldl_cons]
      rcases forward_state ⟨⟨x, k, s⟩, some xs, r⟩ c.1 c.2 with h | ⟨q, _, h⟩
      · rw [h]; exact ih r
      · rw [h]; exact ih _
  have stay : ∀ (cs : List (Tensor ℝ × Option (List ℝ))) (g : Interp1D), (∀ c ∈ cs, c.2 = none) → after g cs = g := by
    intro cs
    induction cs with
    | nil => intro g _; rfl
    | cons c cs ih =>
      intro g hg
      unfold after
      rw [List.foldl_cons]
      have h1 : (g.forward c.1 c.2).2 = g := by
        rcases forward_state g c.1 c.2 with h | ⟨_, h, _⟩
        · exact h
        · rw [hg c (by simp)] at h; cases h
      rw [h1]
      exact ih g fun d hd => hg d (by simp [hd])
  obtain ⟨r', hr'⟩ := inv before (Option.map (Axis.rows ⟨x, k, s⟩) (some xs))
  have e : after ⟨⟨x, k, s⟩, some xs, Option.map (Axis.rows ⟨x, k, s⟩) (some xs)⟩ (before ++ (Y, some ys) :: later) =
      ⟨⟨x, k, s⟩, some xs, some (Axis.rows ⟨x, k, s⟩ ys)⟩ := by
    have h1 : ∀ (g : Interp1D) a b, after g (a ++ b) = after (after g a) b := fun g a b => List.foldl_append
    rw [h1, hr']
    have h2 : ∀ (g : Interp1D) c b, after g (c :: b) = after (g.forward c.1 c.2).2 b := fun g c b => rfl
    rw [h2]
    have h3 : ((⟨⟨x, k, s⟩, some xs, r'⟩ : Interp1D).forward Y (some ys)).2 = ⟨⟨x, k, s⟩, some xs, some (Axis.rows ⟨x, k, s⟩ ys)⟩ := by
      unfold Interp1D.forward
      rw [validate_ok ⟨⟨x, k, s⟩, some xs, r'⟩ Y leadY hY hlY (some ys) (by simp)]
      rfl
    rw [h3]
    exact stay later _ hc
  rw [e]
  obtain ⟨out, h1, h2, _⟩ := fitEval_ok ⟨x, k, s⟩ hd ys Z lead hZ hl
  refine ⟨out, ?_, h2⟩
  unfold Interp1D.forward
  rw [validate_ok ⟨⟨x, k, s⟩, some xs, some (Axis.rows ⟨x, k, s⟩ ys)⟩ Z lead hZ hl none (by simp)]
  exact h1

/-- C48, the other asymmetry: without coordinates at construction a call without coordinates raises, whatever was passed
to earlier calls. -/
theorem history_never_constructed (x : List ℝ) (k : ℕ) (s : ℝ) (f : Interp1D) (hf : Interp1D.init x k s none = .ok f)
    (calls : List (Tensor ℝ × Option (List ℝ))) (Z : Tensor ℝ) : ((after f calls).forward Z none).1 = .error .value := by
  have : (after f calls).xOut = none := by
    have h0 : f.xOut = none := by
      unfold Interp1D.init at hf; split_ifs at hf; cases hf; rfl
    clear hf
    induction calls generalizing f with
    | nil => exact h0
    | cons c cs ih =>
      unfold after
      rw [List.foldl_cons]
      apply ih
      rcases forward_state f c.1 c.2 with h | ⟨_, _, h⟩
      · rw [h]; exact h0
      · rw [h]; exact h0
  rw [spline1d_rejects _ Z none (Or.inl ⟨rfl, this⟩)]

/-! ## A concrete instance, and the negation of C48 -/

/-- Three sites, piecewise linear: the collocation matrix is the identity. -/
def lin3 : Axis := ⟨[0, 1, 2], 1, 0⟩

theorem lin3_proper : lin3.Proper := by
  refine ⟨by decide, by decide, ?_⟩
  intro i j hij hj
  simp only [lin3, List.length_cons, List.length_nil] at hj
  interval_cases j <;> interval_cases i <;> norm_num [lin3, at']

theorem lin3_t : ∀ i, lin3.t i = if i < 2 then 0 else if i = 2 then 1 else 2 := by
  intro i
  unfold Axis.t knot lin3 at'
  simp only [List.length_cons, List.length_nil]
  rcases Nat.lt_or_ge i 3 with h | h
  · interval_cases i <;> norm_num [sum_range_succ]
  · rw [if_neg (by omega), if_pos (by omega), if_neg (by omega), if_neg (by omega)]
    rfl

theorem lin3_B : lin3.B = 1 := by
  ext j i
  have hj := j.2; have hi := i.2
  change j.1 < 3 at hj
  change i.1 < 3 at hi
  rw [Matrix.one_apply]
  unfold Axis.B basis
  have ek : lin3.k = 1 := rfl
  have en : lin3.n = 3 := rfl
  rcases j with ⟨j, hj'⟩; rcases i with ⟨i, hi'⟩
  simp only [ek, en, basisD, left, right, zeroth, lin3_t] at hi hj ⊢
  interval_cases i <;> interval_cases j <;> norm_num [lin3, at']

theorem lin3_det : lin3.B.det ≠ 0 := by rw [lin3_B, det_one]; exact one_ne_zero
theorem lin3_detBTB : lin3.BTB.det ≠ 0 := by rw [lin3.det_zero rfl]; exact mul_ne_zero lin3_det lin3_det

/-- Data 10, 20, 40 at the three sites. -/
def demoZ : Tensor ℝ := ⟨[3], fun i => if i = [0] then 10 else if i = [1] then 20 else 40⟩

/-- An instance built with output coordinate 0. -/
noncomputable def demoF : Interp1D := ⟨lin3, some [0], some (lin3.rows [0])⟩

theorem demoF_init : Interp1D.init [0, 1, 2] 1 0 (some [0]) = .ok demoF := by
  unfold Interp1D.init; rw [if_neg (by norm_num)]; rfl

example : ∃ out, (demoF.forward demoZ none).1 = .ok out ∧ Evaluates1D lin3 demoZ [] [0] out :=
  spline1d_evaluates [0, 1, 2] 1 0 (some [0]) none [0] demoF demoF_init (Or.inr ⟨rfl, rfl⟩) lin3_detBTB demoZ [] rfl (by decide)

/-- C48 is false of the code: built for coordinate 0, the call without coordinates gives the datum 10 there, but after one
call with `x_out = [2]` the same call gives 40, the value at 2. -/
theorem override_persists :
    (∃ out, (demoF.forward demoZ none).1 = .ok out ∧ out.get [0, 0, 0, 0] = 10) ∧
      ∃ out, ((after demoF [(demoZ, some [2])]).forward demoZ none).1 = .ok out ∧ out.get [0, 0, 0, 0] = 40 := by
  constructor
  · obtain ⟨out, h1, h2⟩ := spline1d_evaluates [0, 1, 2] 1 0 (some [0]) none [0] demoF demoF_init (Or.inr ⟨rfl, rfl⟩) lin3_detBTB demoZ [] rfl (by decide)
    refine ⟨out, h1, ?_⟩
    have := spline1d_interpolates lin3 lin3_proper rfl demoZ [] [0] out h2 [] rfl 0 0 (by decide) (by decide) (Or.inl rfl)
    exact this.trans (by simp [demoZ])
  · obtain ⟨out, h1, h2⟩ := history_last_override [0, 1, 2] 1 0 [0] [2] demoF demoF_init [] [] demoZ [] rfl (by decide) (by simp) lin3_detBTB demoZ [] rfl (by decide)
    refine ⟨out, h1, ?_⟩
    have := spline1d_interpolates lin3 lin3_proper rfl demoZ [] [2] out h2 [] rfl 0 2 (by decide) (by decide) (Or.inl rfl)
    exact this.trans (by simp [demoZ])

example (out : Tensor ℝ) (h : Evaluates1D lin3 ⟨[3], fun i => 5 * (i.getD 0 0 : ℝ) + 1⟩ [] [1.5] out) : out.get [0, 0, 0, 0] = 8.5 := by
  have := spline1d_polynomial lin3 lin3_proper rfl _ [] [1.5] out h [] rfl (Polynomial.C 5 * Polynomial.X + Polynomial.C 1)
    (by
      refine le_trans (Polynomial.natDegree_add_le _ _) ?_
      simp only [Polynomial.natDegree_C, max_le_iff, Nat.zero_le, and_true]
      exact le_trans (Polynomial.natDegree_C_mul_le _ _) (Polynomial.natDegree_X_le))
    (by
      intro q hq
      change q < 3 at hq
      interval_cases q <;> norm_num [lin3, at']) 0 (by decide)
  refine this.trans ?_
  simp only [Spec.nearest, lin3, at', Axis.n, List.length_cons, List.length_nil]
  norm_num

end Verif.Spline
