import Verif.Props.Spline
/-!
# C47, C48 for the two-dimensional module
-/
set_option linter.unusedSimpArgs false
set_option linter.unusedVariables false
namespace Verif.Spline
open Finset Matrix

/-- The tensor-product spline with coefficients `c` at `(x, y)`. -/
noncomputable def spline2 (ax ay : Axis) (c : Matrix (Fin ay.n) (Fin ax.n) ℝ) (x y : ℝ) : ℝ :=
  ∑ p : Fin ay.n, ∑ q : Fin ax.n, ay.basisAt p y * c p q * ax.basisAt q x

/-- The image at leading index `i`. -/
def image (ax ay : Axis) (Z : Tensor ℝ) (i : List ℕ) : Matrix (Fin ay.n) (Fin ax.n) ℝ :=
  fun p q => Z.get (i ++ [(p : ℕ), (q : ℕ)])

/-- The output of one successful evaluation, for data as passed: each image is fitted by the coefficients solving the (regularised) normal
equations along both axes, and the output at row `j`, column `l` is the tensor-product spline at `(xs[l], ys[j])`. -/
def Evaluates2D (ax ay : Axis) (Z : Tensor ℝ) (lead : List ℕ) (xs ys : List ℝ) (out : Tensor ℝ) : Prop :=
  out.shape = List.replicate (2 - lead.length) 1 ++ lead ++ [ys.length, xs.length] ∧
    ∀ i : List ℕ, i.length = lead.length → ∃ c : Matrix (Fin ay.n) (Fin ax.n) ℝ,
      ay.BTB * c * ax.BTB = ay.Bᵀ * image ax ay Z i * ax.B ∧
        ∀ j l (hj : j < ys.length) (hl : l < xs.length),
          out.get (List.replicate (2 - lead.length) 0 ++ i ++ [j, l]) = spline2 ax ay c xs[l] ys[j]

theorem Axis.BTB_symm (a : Axis) : a.BTBᵀ = a.BTB := by
  unfold Axis.BTB
  rw [transpose_add, transpose_mul, transpose_transpose, transpose_smul, transpose_one]

theorem coef2_eq (ax ay : Axis) (hx : ax.BTB.det ≠ 0) (hy : ay.BTB.det ≠ 0) (Z : Matrix (Fin ay.n) (Fin ax.n) ℝ) :
    ay.BTB * coef2 ax ay Z * ax.BTB = ay.Bᵀ * Z * ax.B := by
  have ux := isUnit_iff_ne_zero.2 hx
  have uy := isUnit_iff_ne_zero.2 hy
  unfold coef2
  rw [transpose_mul, transpose_transpose, transpose_nonsing_inv, ax.BTB_symm, Matrix.mul_assoc, Matrix.mul_assoc,
    nonsing_inv_mul _ ux, Matrix.mul_one, ← Matrix.mul_assoc, mul_nonsing_inv _ uy, Matrix.one_mul]

theorem validate2_ok (f : Interp2D) (Z : Tensor ℝ) (lead : List ℕ) (hZ : Z.shape = lead ++ [f.ay.n, f.ax.n]) (hl : lead.length ≤ 2)
    (xo yo : Option (List ℝ)) (hx : xo ≠ none ∨ f.xOut ≠ none) (hy : yo ≠ none ∨ f.yOut ≠ none) :
    f.validate Z xo yo = .ok (to4d Z) := by
  unfold Interp2D.validate
  rw [if_neg (by tauto), if_neg (by tauto), if_neg (by simp [hZ]; omega), if_neg (by simp [hZ]), if_neg]
  rw [hZ]
  simp

theorem fitEval2_ok (ax ay : Axis) (hx : ax.BTB.det ≠ 0) (hy : ay.BTB.det ≠ 0) (xs ys : List ℝ) (Z : Tensor ℝ) (lead : List ℕ)
    (hZ : Z.shape = lead ++ [ay.n, ax.n]) (hl : lead.length ≤ 2) :
    ∃ out, fitEval2 ax ay (ax.rows xs) (ay.rows ys) (to4d Z) = .ok out ∧ Evaluates2D ax ay Z lead xs ys out := by
  unfold fitEval2
  rw [if_neg hy, if_neg hx]
  refine ⟨_, rfl, ?_, ?_⟩
  · simp only [to4d, hZ, List.length_append, List.length_cons, List.length_nil, Axis.rows, List.length_map]
    rw [show 4 - (lead.length + (0 + 1 + 1)) = 2 - lead.length by omega, ← List.append_assoc]
    rw [List.take_left' (by simp; omega)]
  · intro i hi
    refine ⟨coef2 ax ay (image ax ay Z i), coef2_eq ax ay hx hy _, ?_⟩
    intro j l hj hl'
    have hlen : (List.replicate (2 - lead.length) 0 ++ i).length = 2 := by simp [hi]; omega
    have g2 : (List.replicate (2 - lead.length) 0 ++ i ++ [j, l]).getD 2 0 = j := by
      rw [List.getD_append_right _ _ _ _ (by omega), hlen]; rfl
    have g3 : (List.replicate (2 - lead.length) 0 ++ i ++ [j, l]).getD 3 0 = l := by
      rw [List.getD_append_right _ _ _ _ (by omega), hlen]; rfl
    have g4 : (List.replicate (2 - lead.length) 0 ++ i ++ [j, l]).take 2 = List.replicate (2 - lead.length) 0 ++ i :=
      List.take_left' hlen
    have g5 : (fun (p : Fin ay.n) (q : Fin ax.n) => (to4d Z).get (List.replicate (2 - lead.length) 0 ++ i ++ [(p : ℕ), (q : ℕ)])) = image ax ay Z i := by
      funext p q
      simp only [to4d, hZ, List.length_append, List.length_cons, List.length_nil, image]
      rw [show 4 - (lead.length + (0 + 1 + 1)) = 2 - lead.length by omega, List.append_assoc, List.drop_left' (by simp)]
    simp only [g2, g3, g4]
    rw [g5]
    simp only [Axis.rows]
    rw [List.getD_eq_getElem _ _ (by simpa using hj), List.getD_eq_getElem _ _ (by simpa using hl'), List.getElem_map, List.getElem_map]
    simp only [spline2, dotProduct, mulVec, Axis.basisAt, mul_sum]
    exact sum_congr rfl fun p _ => sum_congr rfl fun q _ => by ring

/-- C47 (2-D constructor). -/
theorem init2d (x y : List ℝ) (kx ky : ℕ) (sx sy : ℝ) (xo yo : Option (List ℝ)) :
    (x.length < kx + 2 ∨ y.length < ky + 2 → Interp2D.init x y kx ky sx sy xo yo = .error .value) ∧
      (kx + 2 ≤ x.length → ky + 2 ≤ y.length → ∃ f, Interp2D.init x y kx ky sx sy xo yo = .ok f ∧ f.ax = ⟨x, kx, sx⟩ ∧
        f.ay = ⟨y, ky, sy⟩ ∧ f.xOut = xo ∧ f.yOut = yo) := by
  unfold Interp2D.init
  constructor
  · intro h
    split_ifs with h1 h2
    · rfl
    · rfl
    · omega
  · intro h1 h2
    rw [if_neg (by omega), if_neg (by omega)]
    exact ⟨_, rfl, rfl, rfl, rfl, rfl⟩

/-- C47 (2-D evaluation): each axis is evaluated at the coordinates passed to the call, or else at those given at construction
(no override yet). -/
theorem spline2d_evaluates (x y : List ℝ) (kx ky : ℕ) (sx sy : ℝ) (xo yo xc yc : Option (List ℝ)) (xs ys : List ℝ) (f : Interp2D)
    (hf : Interp2D.init x y kx ky sx sy xo yo = .ok f) (hxs : xc = some xs ∨ (xc = none ∧ xo = some xs))
    (hys : yc = some ys ∨ (yc = none ∧ yo = some ys)) (hdx : f.ax.BTB.det ≠ 0) (hdy : f.ay.BTB.det ≠ 0)
    (Z : Tensor ℝ) (lead : List ℕ) (hZ : Z.shape = lead ++ [y.length, x.length]) (hl : lead.length ≤ 2) :
    ∃ out, (f.forward Z xc yc).1 = .ok out ∧ Evaluates2D ⟨x, kx, sx⟩ ⟨y, ky, sy⟩ Z lead xs ys out := by
  unfold Interp2D.init at hf
  split_ifs at hf with h1 h2
  cases hf
  obtain ⟨out, e1, e2⟩ := fitEval2_ok ⟨x, kx, sx⟩ ⟨y, ky, sy⟩ hdx hdy xs ys Z lead hZ hl
  refine ⟨out, ?_, e2⟩
  unfold Interp2D.forward
  rw [validate2_ok ⟨⟨x, kx, sx⟩, ⟨y, ky, sy⟩, xo, yo, xo.map (Axis.rows ⟨x, kx, sx⟩), yo.map (Axis.rows ⟨y, ky, sy⟩)⟩ Z lead hZ hl xc yc
    (by rcases hxs with h | h <;> simp [h]) (by rcases hys with h | h <;> simp [h])]
  rcases hxs with rfl | ⟨rfl, rfl⟩ <;> rcases hys with rfl | ⟨rfl, rfl⟩ <;> exact e1

/-- C47 (2-D, end to end): a transform constructed from strictly increasing coordinates, with degrees at least one, enough points and
non-negative regularisation, never fails on data of the right shape, and evaluates the tensor-product spline of the fit. -/
theorem spline2d_total (x y : List ℝ) (kx ky : ℕ) (sx sy : ℝ) (hkx : 1 ≤ kx) (hky : 1 ≤ ky) (hx : kx + 2 ≤ x.length) (hy : ky + 2 ≤ y.length)
    (ix : Spec.Increasing x.length (at' x)) (iy : Spec.Increasing y.length (at' y)) (hsx : 0 ≤ sx) (hsy : 0 ≤ sy)
    (xo yo xc yc : Option (List ℝ)) (xs ys : List ℝ) (hxs : xc = some xs ∨ (xc = none ∧ xo = some xs))
    (hys : yc = some ys ∨ (yc = none ∧ yo = some ys)) (Z : Tensor ℝ) (lead : List ℕ)
    (hZ : Z.shape = lead ++ [y.length, x.length]) (hl : lead.length ≤ 2) :
    ∃ f out, Interp2D.init x y kx ky sx sy xo yo = .ok f ∧ (f.forward Z xc yc).1 = .ok out ∧
      Evaluates2D ⟨x, kx, sx⟩ ⟨y, ky, sy⟩ Z lead xs ys out := by
  obtain ⟨f, hf, hax, hay, _⟩ := (init2d x y kx ky sx sy xo yo).2 hx hy
  have hdx : f.ax.BTB.det ≠ 0 := by
    rw [hax]
    refine fit_solvable _ ?_
    rcases eq_or_lt_of_le hsx with h0 | h0
    · exact Or.inr ⟨h0.symm, hkx, hx, ix⟩
    · exact Or.inl h0
  have hdy : f.ay.BTB.det ≠ 0 := by
    rw [hay]
    refine fit_solvable _ ?_
    rcases eq_or_lt_of_le hsy with h0 | h0
    · exact Or.inr ⟨h0.symm, hky, hy, iy⟩
    · exact Or.inl h0
  obtain ⟨out, h1, h2⟩ := spline2d_evaluates x y kx ky sx sy xo yo xc yc xs ys f hf hxs hys hdx hdy Z lead hZ hl
  exact ⟨f, out, hf, h1, h2⟩

example : ∃ f out, Interp2D.init [0, 1, 2, 4, 5, 7] [0, 1, 2, 4, 5, 7] 3 3 0 0.5 (some [0.5, 6]) none = .ok f ∧
    (f.forward ⟨[2, 6, 6], fun i => ((i.getD 1 0 : ℕ) : ℝ) ^ 2⟩ none (some [3])).1 = .ok out ∧
    Evaluates2D ⟨[0, 1, 2, 4, 5, 7], 3, 0⟩ ⟨[0, 1, 2, 4, 5, 7], 3, 0.5⟩ ⟨[2, 6, 6], fun i => ((i.getD 1 0 : ℕ) : ℝ) ^ 2⟩ [2] [0.5, 6] [3] out :=
  spline2d_total _ _ 3 3 0 0.5 (by decide) (by decide) (by decide) (by decide) demoAxis_proper.2.2 demoAxis_proper.2.2 le_rfl (by norm_num) _ _ _ _
    [0.5, 6] [3] (Or.inr ⟨rfl, rfl⟩) (Or.inl rfl) _ [2] rfl (by decide)

/-- With zero regularisation and invertible collocation matrices the coefficients solve the collocation equations. -/
theorem coef2_interp (ax ay : Axis) (hsx : ax.s = 0) (hsy : ay.s = 0) (hx : ax.B.det ≠ 0) (hy : ay.B.det ≠ 0)
    (Z c : Matrix (Fin ay.n) (Fin ax.n) ℝ) (hc : ay.BTB * c * ax.BTB = ay.Bᵀ * Z * ax.B) : ay.B * c * ax.Bᵀ = Z := by
  have ux := isUnit_iff_ne_zero.2 hx
  have uy : IsUnit ay.Bᵀ.det := by rw [det_transpose]; exact isUnit_iff_ne_zero.2 hy
  rw [ax.BTB_zero hsx, ay.BTB_zero hsy] at hc
  have h2 : ay.Bᵀ * (ay.B * c * ax.Bᵀ) * ax.B = ay.Bᵀ * Z * ax.B := by
    rw [← hc]; simp only [Matrix.mul_assoc]
  have h3 := congrArg (fun M => (ay.Bᵀ)⁻¹ * (M * ax.B⁻¹)) h2
  simp only [Matrix.mul_assoc, mul_nonsing_inv _ ux, Matrix.mul_one] at h3
  simp only [← Matrix.mul_assoc, nonsing_inv_mul _ uy, Matrix.one_mul] at h3
  exact h3

theorem coef2_unique (ax ay : Axis) (hsx : ax.s = 0) (hsy : ay.s = 0) (hx : ax.B.det ≠ 0) (hy : ay.B.det ≠ 0)
    (c e : Matrix (Fin ay.n) (Fin ax.n) ℝ) (hce : ay.B * c * ax.Bᵀ = ay.B * e * ax.Bᵀ) : c = e := by
  have ux : IsUnit ax.Bᵀ.det := by rw [det_transpose]; exact isUnit_iff_ne_zero.2 hx
  have uy := isUnit_iff_ne_zero.2 hy
  have h3 := congrArg (fun M => ay.B⁻¹ * (M * (ax.Bᵀ)⁻¹)) hce
  simp only [Matrix.mul_assoc, mul_nonsing_inv _ ux, Matrix.mul_one] at h3
  simp only [← Matrix.mul_assoc, nonsing_inv_mul _ uy, Matrix.one_mul] at h3
  exact h3

theorem nearest_site (a : Axis) (h : a.Proper) (p : ℕ) (hp : p < a.n) :
    Spec.nearest (at' a.xIn 0) (at' a.xIn (a.n - 1)) (at' a.xIn p) = at' a.xIn p := by
  have hl : at' a.xIn 0 ≤ at' a.xIn p := by
    rcases Nat.eq_zero_or_pos p with h0 | h0
    · rw [h0]
    · exact (h.2.2 _ _ h0 hp).le
  have hr : at' a.xIn p ≤ at' a.xIn (a.n - 1) := by
    rcases eq_or_ne p (a.n - 1) with h0 | h0
    · rw [h0]
    · exact (h.2.2 _ _ (by omega) (by unfold Axis.n at *; omega)).le
  unfold Spec.nearest
  rw [if_neg (by linarith), if_neg (by linarith)]

/-- C47 (2-D data reproduced): at output coordinates that, moved into range, are input coordinates, the datum comes out. -/
theorem spline2d_interpolates (ax ay : Axis) (px : ax.Proper) (py : ay.Proper) (hsx : ax.s = 0) (hsy : ay.s = 0)
    (Z : Tensor ℝ) (lead : List ℕ) (xs ys : List ℝ) (out : Tensor ℝ) (ho : Evaluates2D ax ay Z lead xs ys out)
    (i : List ℕ) (hi : i.length = lead.length) (j l p q : ℕ) (hj : j < ys.length) (hl : l < xs.length) (hp : p < ay.n) (hq : q < ax.n)
    (ey : Spec.nearest (at' ay.xIn 0) (at' ay.xIn (ay.n - 1)) ys[j] = at' ay.xIn p)
    (ex : Spec.nearest (at' ax.xIn 0) (at' ax.xIn (ax.n - 1)) xs[l] = at' ax.xIn q) :
    out.get (List.replicate (2 - lead.length) 0 ++ i ++ [j, l]) = Z.get (i ++ [p, q]) := by
  obtain ⟨c, hc, hv⟩ := ho.2 i hi
  have hx := ax.B_det px
  have hy := ay.B_det py
  rw [hv j l hj hl]
  have h1 := congrFun (congrFun (coef2_interp ax ay hsx hsy hx hy _ c hc) ⟨p, hp⟩) ⟨q, hq⟩
  simp only [image] at h1
  rw [← h1]
  have bx : ∀ r, ax.basisAt r xs[l] = ax.basisAt r (at' ax.xIn q) := fun r => by
    unfold Axis.basisAt; rw [(ax.clamp_eq px _).1, (ax.clamp_eq px _).1, ex, nearest_site ax px q hq]
  have by' : ∀ r, ay.basisAt r ys[j] = ay.basisAt r (at' ay.xIn p) := fun r => by
    unfold Axis.basisAt; rw [(ay.clamp_eq py _).1, (ay.clamp_eq py _).1, ey, nearest_site ay py p hp]
  simp only [Matrix.mul_apply, spline2, transpose_apply, ax.B_eq px, ay.B_eq py, bx, by', sum_mul]
  rw [sum_comm]

/-- C47 (2-D polynomials reproduced): data sampled from a polynomial of degree at most `kx` in x and `ky` in y (a sum of
products) come out as the same polynomial at every output coordinate. -/
theorem spline2d_polynomial (ax ay : Axis) (px : ax.Proper) (py : ay.Proper) (hsx : ax.s = 0) (hsy : ay.s = 0)
    (Z : Tensor ℝ) (lead : List ℕ) (xs ys : List ℝ) (out : Tensor ℝ) (ho : Evaluates2D ax ay Z lead xs ys out)
    (i : List ℕ) (hi : i.length = lead.length) (R : ℕ) (P Q : ℕ → Polynomial ℝ) (hP : ∀ r < R, (P r).natDegree ≤ ax.k) (hQ : ∀ r < R, (Q r).natDegree ≤ ay.k)
    (hZ : ∀ p < ay.n, ∀ q < ax.n, Z.get (i ++ [p, q]) = ∑ r ∈ range R, (Q r).eval (at' ay.xIn p) * (P r).eval (at' ax.xIn q))
    (j l : ℕ) (hj : j < ys.length) (hl : l < xs.length) :
    out.get (List.replicate (2 - lead.length) 0 ++ i ++ [j, l]) =
      ∑ r ∈ range R, (Q r).eval (Spec.nearest (at' ay.xIn 0) (at' ay.xIn (ay.n - 1)) ys[j]) *
        (P r).eval (Spec.nearest (at' ax.xIn 0) (at' ax.xIn (ax.n - 1)) xs[l]) := by
  obtain ⟨c, hc, hv⟩ := ho.2 i hi
  have hx := ax.B_det px
  have hy := ay.B_det py
  rw [hv j l hj hl]
  have span : ∀ (a : Axis) (ha : a.Proper) (p : Polynomial ℝ), p.natDegree ≤ a.k → ∃ e : Fin a.n → ℝ, ∀ y,
      ∑ q : Fin a.n, e q * a.basisAt q y = p.eval (Spec.nearest (at' a.xIn 0) (at' a.xIn (a.n - 1)) y) := by
    intro a ha p hp
    obtain ⟨e, he⟩ := poly_span (a.good ha) p hp
    refine ⟨fun q => e q, fun y => ?_⟩
    obtain ⟨e1, c0, c1⟩ := a.clamp_eq ha y
    rw [Fin.sum_univ_eq_sum_range (fun q => e q * a.basisAt q y), ← he _ c0 c1]
    refine sum_congr rfl fun q _ => ?_
    unfold Axis.basisAt
    rw [e1, a.basis_eq]
  have spx : ∀ r : ℕ, ∃ e : Fin ax.n → ℝ, r < R → ∀ y,
      ∑ q : Fin ax.n, e q * ax.basisAt q y = (P r).eval (Spec.nearest (at' ax.xIn 0) (at' ax.xIn (ax.n - 1)) y) := by
    intro r
    by_cases hr : r < R
    · obtain ⟨e, he⟩ := span ax px (P r) (hP r hr); exact ⟨e, fun _ => he⟩
    · exact ⟨0, fun h => absurd h hr⟩
  have spy : ∀ r : ℕ, ∃ e : Fin ay.n → ℝ, r < R → ∀ y,
      ∑ q : Fin ay.n, e q * ay.basisAt q y = (Q r).eval (Spec.nearest (at' ay.xIn 0) (at' ay.xIn (ay.n - 1)) y) := by
    intro r
    by_cases hr : r < R
    · obtain ⟨e, he⟩ := span ay py (Q r) (hQ r hr); exact ⟨e, fun _ => he⟩
    · exact ⟨0, fun h => absurd h hr⟩
  choose u hu using spx
  choose w hw using spy
  have val : ∀ x y, spline2 ax ay (fun p q => ∑ r ∈ range R, w r p * u r q) x y =
      ∑ r ∈ range R, (Q r).eval (Spec.nearest (at' ay.xIn 0) (at' ay.xIn (ay.n - 1)) y) *
        (P r).eval (Spec.nearest (at' ax.xIn 0) (at' ax.xIn (ax.n - 1)) x) := by
    intro x y
    unfold spline2
    calc _ = ∑ p : Fin ay.n, ∑ q : Fin ax.n, ∑ r ∈ range R, (w r p * ay.basisAt p y) * (u r q * ax.basisAt q x) := by
          refine sum_congr rfl fun p _ => sum_congr rfl fun q _ => ?_
          rw [mul_sum, sum_mul]
          exact sum_congr rfl fun r _ => by ring
      _ = ∑ r ∈ range R, ∑ p : Fin ay.n, ∑ q : Fin ax.n, (w r p * ay.basisAt p y) * (u r q * ax.basisAt q x) := by
          rw [sum_comm]
          conv_rhs => rw [sum_comm]
          rw [sum_comm]
          refine sum_congr rfl fun p _ => ?_
          rw [sum_comm]
      _ = _ := by
          refine sum_congr rfl fun r hr => ?_
          rw [← hu r (mem_range.1 hr) x, ← hw r (mem_range.1 hr) y, sum_mul_sum]
  have : c = fun p q => ∑ r ∈ range R, w r p * u r q := by
    apply coef2_unique ax ay hsx hsy hx hy
    rw [coef2_interp ax ay hsx hsy hx hy _ c hc]
    ext p q
    have := val (at' ax.xIn q) (at' ay.xIn p)
    rw [nearest_site ax px q q.2, nearest_site ay py p p.2, ← hZ p p.2 q q.2] at this
    simp only [image]
    rw [← this, Matrix.mul_apply]
    unfold spline2
    rw [sum_comm]
    refine sum_congr rfl fun q' _ => ?_
    rw [transpose_apply, ax.B_eq px]
    change _ = (∑ p' : Fin ay.n, ay.B p p' * ∑ r ∈ range R, w r p' * u r q') * _
    rw [sum_mul]
    exact sum_congr rfl fun p' _ => by rw [ay.B_eq py]
  rw [this]
  exact val _ _

/-- C47 (2-D linearity). -/
theorem spline2d_linear (ax ay : Axis) (hx : ax.BTB.det ≠ 0) (hy : ay.BTB.det ≠ 0) (lead : List ℕ) (xs ys : List ℝ) (α β : ℝ)
    (Z Z' Z'' out out' out'' : Tensor ℝ) (h1 : Evaluates2D ax ay Z lead xs ys out) (h2 : Evaluates2D ax ay Z' lead xs ys out')
    (h3 : Evaluates2D ax ay Z'' lead xs ys out'') (hZ : ∀ i p q, Z''.get (i ++ [p, q]) = α * Z.get (i ++ [p, q]) + β * Z'.get (i ++ [p, q]))
    (i : List ℕ) (hi : i.length = lead.length) (j l : ℕ) (hj : j < ys.length) (hl : l < xs.length) :
    out''.get (List.replicate (2 - lead.length) 0 ++ i ++ [j, l]) =
      α * out.get (List.replicate (2 - lead.length) 0 ++ i ++ [j, l]) + β * out'.get (List.replicate (2 - lead.length) 0 ++ i ++ [j, l]) := by
  obtain ⟨c, hc, hv⟩ := h1.2 i hi
  obtain ⟨c', hc', hv'⟩ := h2.2 i hi
  obtain ⟨c'', hc'', hv''⟩ := h3.2 i hi
  rw [hv j l hj hl, hv' j l hj hl, hv'' j l hj hl]
  have inj : ∀ u v : Matrix (Fin ay.n) (Fin ax.n) ℝ, ay.BTB * u * ax.BTB = ay.BTB * v * ax.BTB → u = v := by
    intro u v huv
    have h3 := congrArg (fun M => ay.BTB⁻¹ * (M * ax.BTB⁻¹)) huv
    simp only [Matrix.mul_assoc, mul_nonsing_inv _ (isUnit_iff_ne_zero.2 hx), Matrix.mul_one] at h3
    simp only [← Matrix.mul_assoc, nonsing_inv_mul _ (isUnit_iff_ne_zero.2 hy), Matrix.one_mul] at h3
    exact h3
  have : c'' = α • c + β • c' := by
    apply inj
    have him : image ax ay Z'' i = α • image ax ay Z i + β • image ax ay Z' i := by
      ext p q
      exact hZ i p q
    rw [hc'', him]
    simp only [Matrix.mul_add, Matrix.add_mul, Matrix.mul_smul, Matrix.smul_mul, hc, hc']
  rw [this]
  simp only [spline2, Matrix.add_apply, Matrix.smul_apply, smul_eq_mul, mul_sum, ← sum_add_distrib]
  exact sum_congr rfl fun p _ => sum_congr rfl fun q _ => by ring

/-- C47 (2-D rejections), before any state changes. -/
theorem spline2d_rejects (f : Interp2D) (Z : Tensor ℝ) (xo yo : Option (List ℝ))
    (hbad : (xo = none ∧ f.xOut = none) ∨ (yo = none ∧ f.yOut = none) ∨ 4 < Z.shape.length ∨ Z.shape.length < 2 ∨
      Z.shape.drop (Z.shape.length - 2) ≠ [f.ay.n, f.ax.n]) : f.forward Z xo yo = (.error .value, f) := by
  unfold Interp2D.forward Interp2D.validate
  split_ifs with h1 h2 h3 h4 h5
  · rfl
  · rfl
  · rfl
  · rfl
  · rfl
  · exfalso; tauto

/-- The state after a history of calls (data, x coordinates, y coordinates). -/
noncomputable def after2 (f : Interp2D) (calls : List (Tensor ℝ × Option (List ℝ) × Option (List ℝ))) : Interp2D :=
  calls.foldl (fun g c => (g.forward c.1 c.2.1 c.2.2).2) f

/-- C48 in two dimensions: after any calls without coordinates, one valid call with coordinates `xc`, `yc` (either may be absent), and
any calls without, a call without coordinates evaluates at the overridden ones where given and at the constructed ones elsewhere.
With `xc = yc = none` this is the part of C48 that holds; otherwise the constructed coordinates are lost. -/
theorem history2d_partial (x y : List ℝ) (kx ky : ℕ) (sx sy : ℝ) (xs ys : List ℝ) (f : Interp2D)
    (hf : Interp2D.init x y kx ky sx sy (some xs) (some ys) = .ok f) (before later : List (Tensor ℝ × Option (List ℝ) × Option (List ℝ)))
    (hb : ∀ c ∈ before, c.2.1 = none ∧ c.2.2 = none) (hlt : ∀ c ∈ later, c.2.1 = none ∧ c.2.2 = none)
    (Y : Tensor ℝ) (leadY : List ℕ) (hY : Y.shape = leadY ++ [y.length, x.length]) (hlY : leadY.length ≤ 2) (xc yc : Option (List ℝ))
    (hdx : f.ax.BTB.det ≠ 0) (hdy : f.ay.BTB.det ≠ 0)
    (Z : Tensor ℝ) (lead : List ℕ) (hZ : Z.shape = lead ++ [y.length, x.length]) (hl : lead.length ≤ 2) :
    ∃ out, ((after2 f (before ++ (Y, xc, yc) :: later)).forward Z none none).1 = .ok out ∧
      Evaluates2D ⟨x, kx, sx⟩ ⟨y, ky, sy⟩ Z lead (xc.getD xs) (yc.getD ys) out := by
  unfold Interp2D.init at hf
  split_ifs at hf with h1 h2
  cases hf
  have stay : ∀ (cs : List (Tensor ℝ × Option (List ℝ) × Option (List ℝ))) (g : Interp2D), (∀ c ∈ cs, c.2.1 = none ∧ c.2.2 = none) → after2 g cs = g := by
    intro cs
    induction cs with
    | nil => intro g _; rfl
    | cons c cs ih =>
      intro g hg
      unfold after2
      rw [List.foldl_cons]
      have h1 : (g.forward c.1 c.2.1 c.2.2).2 = g := by
        rw [(hg c (by simp)).1, (hg c (by simp)).2]
        unfold Interp2D.forward
        cases g.validate c.1 none none <;> rfl
      rw [h1]
      exact ih g fun d hd => hg d (by simp [hd])
  have e : after2 ⟨⟨x, kx, sx⟩, ⟨y, ky, sy⟩, some xs, some ys, some (Axis.rows ⟨x, kx, sx⟩ xs), some (Axis.rows ⟨y, ky, sy⟩ ys)⟩
      (before ++ (Y, xc, yc) :: later) =
      ⟨⟨x, kx, sx⟩, ⟨y, ky, sy⟩, some xs, some ys, some (Axis.rows ⟨x, kx, sx⟩ (xc.getD xs)), some (Axis.rows ⟨y, ky, sy⟩ (yc.getD ys))⟩ := by
    have h1 : ∀ (g : Interp2D) a b, after2 g (a ++ b) = after2 (after2 g a) b := fun g a b => List.foldl_append
    rw [h1, stay before _ hb]
    have h2 : ∀ (g : Interp2D) c b, after2 g (c :: b) = after2 (g.forward c.1 c.2.1 c.2.2).2 b := fun g c b => rfl
    rw [h2, stay later _ hlt]
    unfold Interp2D.forward
    rw [validate2_ok ⟨⟨x, kx, sx⟩, ⟨y, ky, sy⟩, some xs, some ys, some (Axis.rows ⟨x, kx, sx⟩ xs), some (Axis.rows ⟨y, ky, sy⟩ ys)⟩ Y leadY hY hlY xc yc
      (by simp) (by simp)]
    cases xc <;> cases yc <;> rfl
  obtain ⟨out, e1, e2⟩ := fitEval2_ok ⟨x, kx, sx⟩ ⟨y, ky, sy⟩ hdx hdy (xc.getD xs) (yc.getD ys) Z lead hZ hl
  refine ⟨out, ?_, e2⟩
  have e' := e
  simp only [Option.map_some] at e' ⊢
  rw [e']
  unfold Interp2D.forward
  rw [validate2_ok ⟨⟨x, kx, sx⟩, ⟨y, ky, sy⟩, some xs, some ys, some (Axis.rows ⟨x, kx, sx⟩ (xc.getD xs)), some (Axis.rows ⟨y, ky, sy⟩ (yc.getD ys))⟩
    Z lead hZ hl none none (by simp) (by simp)]
  exact e1

/-- A concrete image: `10 x + y` on a 3×3 grid. -/
def demoZ2 : Tensor ℝ := ⟨[3, 3], fun i => 10 * (i.getD 1 0 : ℝ) + (i.getD 0 0 : ℝ)⟩

noncomputable def demoF2 : Interp2D := ⟨lin3, lin3, some [1.5], some [0.5], some (lin3.rows [1.5]), some (lin3.rows [0.5])⟩

theorem demoF2_init : Interp2D.init [0, 1, 2] [0, 1, 2] 1 1 0 0 (some [1.5]) (some [0.5]) = .ok demoF2 := by
  unfold Interp2D.init; rw [if_neg (by norm_num), if_neg (by norm_num)]; rfl

example : ∃ out, (demoF2.forward demoZ2 none none).1 = .ok out ∧ Evaluates2D lin3 lin3 demoZ2 [] [1.5] [0.5] out :=
  spline2d_evaluates [0, 1, 2] [0, 1, 2] 1 1 0 0 (some [1.5]) (some [0.5]) none none [1.5] [0.5] demoF2 demoF2_init (Or.inr ⟨rfl, rfl⟩)
    (Or.inr ⟨rfl, rfl⟩) lin3_detBTB lin3_detBTB demoZ2 [] rfl (by decide)

/-- C48 is false of the 2-D module too: an override of x alone persists. -/
theorem override2d_persists : ∃ out, ((after2 demoF2 [(demoZ2, some [0], none)]).forward demoZ2 none none).1 = .ok out ∧
    Evaluates2D lin3 lin3 demoZ2 [] [0] [0.5] out :=
  history2d_partial [0, 1, 2] [0, 1, 2] 1 1 0 0 [1.5] [0.5] demoF2 demoF2_init [] [] (by simp) (by simp) demoZ2 [] rfl (by decide) (some [0]) none
    lin3_detBTB lin3_detBTB demoZ2 [] rfl (by decide)

end Verif.Spline
