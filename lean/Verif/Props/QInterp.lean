import Verif.Props.QTransform
import Verif.Props.QTileSmall
import Verif.Props.Resample
import Verif.Props.Spline
/-!
# Properties of `SingleQTransform.interpolate` (C50, C80)
-/
set_option linter.unusedSimpArgs false
set_option linter.unusedVariables false
namespace Verif.QTransform
open Finset Fourier Whiten QSpec Resample

/-! ## The cubic spline through given points -/

/-- The value at `y` of the cubic spline that the spline module fits to the data `z` at the coordinates `x`. -/
noncomputable def through (x : List ℝ) (z : ℕ → ℝ) (y : ℝ) : ℝ :=
  Spline.Axis.spline ⟨x, 3, 0⟩ (Spline.Axis.coef ⟨x, 3, 0⟩ fun j => z j) y

/-- At least five coordinates, strictly increasing. -/
def Nodes (x : List ℝ) : Prop := 5 ≤ x.length ∧ ∀ i j, i < j → j < x.length → x.getD i 0 < x.getD j 0

theorem Nodes.proper {x : List ℝ} (h : Nodes x) : Spline.Axis.Proper ⟨x, 3, 0⟩ := ⟨by show 1 ≤ 3; omega, h.1, h.2⟩

theorem Nodes.solvable {x : List ℝ} (h : Nodes x) : (Spline.Axis.BTB ⟨x, 3, 0⟩).det ≠ 0 := Spline.fit_solvable _ (.inr ⟨rfl, h.proper⟩)

theorem through_out {x : List ℝ} (h : Nodes x) (z : ℕ → ℝ) (y : ℝ) :
    ∃ out : Tensor ℝ, Spline.Evaluates1D ⟨x, 3, 0⟩ ⟨[x.length], fun i => z (i.getD 0 0)⟩ [] [y] out ∧ out.get [0, 0, 0, 0] = through x z y := by
  obtain ⟨out, -, h2, h3⟩ := Spline.fitEval_ok ⟨x, 3, 0⟩ h.solvable [y] ⟨[x.length], fun i => z (i.getD 0 0)⟩ [] rfl (by decide)
  exact ⟨out, h2, h3 [] rfl 0 (by simp)⟩

/-- The spline goes through the data. -/
theorem through_node {x : List ℝ} (h : Nodes x) (z : ℕ → ℝ) (p : ℕ) (hp : p < x.length) : through x z (x.getD p 0) = z p := by
  obtain ⟨out, h1, h2⟩ := through_out h z (x.getD p 0)
  rw [← h2]
  exact Spline.spline1d_interpolates ⟨x, 3, 0⟩ h.proper rfl _ [] _ out h1 [] rfl 0 p (by simp) hp (.inl rfl)

/-- Beyond the last coordinate the last datum is repeated, before the first the first. -/
theorem through_beyond {x : List ℝ} (h : Nodes x) (z : ℕ → ℝ) (y : ℝ) :
    (y ≤ x.getD 0 0 → through x z y = z 0) ∧ (x.getD (x.length - 1) 0 ≤ y → through x z y = z (x.length - 1)) := by
  obtain ⟨out, h1, h2⟩ := through_out h z y
  rw [← h2]
  have hl := h.1
  constructor
  · intro hy
    exact Spline.spline1d_interpolates ⟨x, 3, 0⟩ h.proper rfl _ [] _ out h1 [] rfl 0 0 (by simp) (by show 0 < x.length; omega) (.inr (.inl ⟨rfl, hy⟩))
  · intro hy
    exact Spline.spline1d_interpolates ⟨x, 3, 0⟩ h.proper rfl _ [] _ out h1 [] rfl 0 (x.length - 1) (by simp) (by show x.length - 1 < x.length; omega)
      (.inr (.inr ⟨rfl, hy⟩))

/-- The spline reproduces cubic polynomials between the first and the last coordinate. -/
theorem through_poly {x : List ℝ} (h : Nodes x) (z : ℕ → ℝ) (p : Polynomial ℝ) (hp : p.natDegree ≤ 3) (hz : ∀ j < x.length, z j = p.eval (x.getD j 0))
    (y : ℝ) (h0 : x.getD 0 0 ≤ y) (h1 : y ≤ x.getD (x.length - 1) 0) : through x z y = p.eval y := by
  obtain ⟨out, h2, h3⟩ := through_out h z y
  rw [← h3]
  have := Spline.spline1d_polynomial ⟨x, 3, 0⟩ h.proper rfl _ [] _ out h2 [] rfl p hp (fun q hq => by simpa [Spline.at'] using hz q hq) 0 (by simp)
  refine Eq.trans this ?_
  congr 1
  show Spline.Spec.nearest (x.getD 0 0) (x.getD (x.length - 1) 0) y = y
  unfold Spline.Spec.nearest
  rw [if_neg (not_lt.2 h0), if_neg (not_lt.2 h1)]

theorem through_congr (x : List ℝ) (z w : ℕ → ℝ) (y : ℝ) (h : ∀ j < x.length, z j = w j) : through x z y = through x w y := by
  unfold through
  congr 2
  funext j
  exact h j j.2

/-- The spline is linear in the data. -/
theorem through_linear {x : List ℝ} (h : Nodes x) (z w : ℕ → ℝ) (α β y : ℝ) :
    through x (fun j => α * z j + β * w j) y = α * through x z y + β * through x w y := by
  obtain ⟨o1, a1, b1⟩ := through_out h z y
  obtain ⟨o2, a2, b2⟩ := through_out h w y
  obtain ⟨o3, a3, b3⟩ := through_out h (fun j => α * z j + β * w j) y
  rw [← b1, ← b2, ← b3]
  exact Spline.spline1d_linear ⟨x, 3, 0⟩ h.solvable [] [y] α β _ _ _ o1 o2 o3 a1 a2 a3 (fun i q => rfl) [] rfl 0 (by simp)

/-- Non-vacuity: five tiles of a two-second row. -/
theorem nodes_times (dur : ℝ) (n : ℕ) (hd : 0 < dur) (hn : 5 ≤ n) : Nodes (times dur n) := by
  refine ⟨by rw [times_length]; exact hn, ?_⟩
  intro i j hij hj
  rw [times_length] at hj
  unfold times
  rw [List.getD_eq_getElem _ _ (by simp; omega), List.getD_eq_getElem _ _ (by simp; omega)]
  simp only [List.getElem_map, List.getElem_range]
  have : (i : ℝ) < j := by exact_mod_cast hij
  have hn' : (0 : ℝ) < n := by exact_mod_cast (by omega : 0 < n)
  gcongr

example : through (times 2 8) (fun u => ((u : ℝ) * (2 / 8)) ^ 2) 0.6 = 0.36 := by
  have hn := nodes_times 2 8 (by norm_num) (by decide)
  have hl : (times 2 8).length = 8 := times_length 2 8
  have := through_poly hn (fun u => ((u : ℝ) * (2 / 8)) ^ 2) (Polynomial.X ^ 2) (by rw [Polynomial.natDegree_X_pow]; decide) (by
    intro j hj
    rw [hl] at hj
    rw [Polynomial.eval_pow, Polynomial.eval_X]
    unfold times
    rw [List.getD_eq_getElem _ _ (by simpa using hj)]
    simp) 0.6 (by norm_num [times]) (by rw [hl]; norm_num [times, List.range_succ])
  rw [this]
  norm_num

/-- A constructed interpolator evaluates `through` on every row of a 4-D tensor. -/
theorem forward_through (x o : List ℝ) (h : Nodes x) (Z : Tensor ℝ) (B C R : ℕ) (hZ : Z.shape = [B, C, R, x.length]) :
    ∃ out, ((⟨⟨x, 3, 0⟩, some o, some (Spline.Axis.rows ⟨x, 3, 0⟩ o)⟩ : Spline.Interp1D).forward Z none).1 = .ok out ∧ out.shape = [B, C, R, o.length] ∧
      ∀ b c r j, j < o.length → out.get [b, c, r, j] = through x (fun k => Z.get [b, c, r, k]) (o.getD j 0) := by
  obtain ⟨out, h1, h2, h3⟩ := Spline.fitEval_ok ⟨x, 3, 0⟩ h.solvable o Z [B, C, R] hZ (by simp)
  refine ⟨out, ?_, h2.1, ?_⟩
  · unfold Spline.Interp1D.forward
    rw [Spline.validate_ok (⟨⟨x, 3, 0⟩, some o, some (Spline.Axis.rows ⟨x, 3, 0⟩ o)⟩ : Spline.Interp1D) Z [B, C, R] hZ (by simp) none (.inr (by simp))]
    exact h1
  · intro b c r j hj
    have := h3 [b, c, r] rfl j hj
    rw [List.getD_eq_getElem _ _ hj]
    exact this

/-! ## The output coordinates -/

/-- The output frequencies: a geometric progression from the lower to the upper limit. -/
theorem logspace_spec (a b : ℝ) (n : ℕ) (ha : 0 < a) (hb : 0 < b) :
    (logspace a b n).length = n ∧ (∀ i < n, (logspace a b n).getD i 0 = a * (b / a) ^ ((i : ℝ) / ((n : ℝ) - 1))) ∧
      (0 < n → (logspace a b n).getD 0 0 = a) ∧ (2 ≤ n → (logspace a b n).getD (n - 1) 0 = b) := by
  have key : ∀ i < n, (logspace a b n).getD i 0 = a * (b / a) ^ ((i : ℝ) / ((n : ℝ) - 1)) := by
    intro i hi
    unfold logspace
    rw [List.getD_eq_getElem _ _ (by simpa using hi)]
    simp only [List.getElem_map, List.getElem_range]
    rw [Real.rpow_add (by norm_num), Real.rpow_logb (by norm_num) (by norm_num) ha]
    congr 1
    rw [← Real.logb_div hb.ne' ha.ne', show (i : ℝ) * (Real.logb 10 (b / a) / ((n : ℝ) - 1)) = Real.logb 10 (b / a) * ((i : ℝ) / ((n : ℝ) - 1)) by ring,
      Real.rpow_mul (by norm_num), Real.rpow_logb (by norm_num) (by norm_num) (by positivity)]
  refine ⟨by simp [logspace], key, ?_, ?_⟩
  · intro hn
    rw [key 0 hn]; simp
  · intro hn
    rw [key _ (by omega)]
    have : ((n - 1 : ℕ) : ℝ) = (n : ℝ) - 1 := by rw [Nat.cast_sub (by omega)]; simp
    have h2 : (n : ℝ) - 1 ≠ 0 := by
      have : (2 : ℝ) ≤ n := by exact_mod_cast hn
      linarith
    rw [this, div_self h2, Real.rpow_one]
    field_simp

theorem times_get (dur : ℝ) (n u : ℕ) (hu : u < n) : (times dur n).getD u 0 = u * (dur / n) := by
  unfold times
  rw [List.getD_eq_getElem _ _ (by simpa using hu)]
  simp

/-! ## The spline branch -/

theorem pick_ok (tiles : List (Tensor ℝ)) (i : ℕ) (hi : i < tiles.length) : pick tiles i = .ok tiles[i] := by
  unfold pick; rw [List.getElem?_eq_getElem hi]

theorem mem_stackIdx (nt : List ℤ) (k : ℕ) (hk : k < (uniqueNtiles nt).length) :
    (stackIdx nt).getD k [] = (List.range nt.length).filter fun i => decide (nt.getD i 0 = (uniqueNtiles nt)[k]) := by
  unfold stackIdx
  rw [List.getD_eq_getElem _ _ (by simpa using hk), List.getElem_map]

/-- One group: the tiles of one length, stacked and interpolated in time. -/
theorem group_ok (dur : ℝ) (T B C : ℕ) (tiles : List (Tensor ℝ)) (idx : List ℕ) (n : ℕ) (hd : 0 < dur) (hn : 5 ≤ n) (hne : idx ≠ [])
    (hi : ∀ i ∈ idx, ∃ h : i < tiles.length, tiles[i].shape = [B, C, n]) :
    ∃ st, (do let ts ← idx.mapM (pick tiles); stackM2 ts : Res (Tensor ℝ)) = .ok st ∧
      ∃ out, ((timeInterp dur T n).forward st none).1 = .ok out ∧ out.shape = [B, C, idx.length, T] ∧
        ∀ b c r (hr : r < idx.length) j, j < T →
          out.get [b, c, r, j] = through (times dur n) (fun u => (tiles.getD idx[r] ⟨[], fun _ => 0⟩).get [b, c, u]) ((times dur T).getD j 0) := by
  have hm := mapM_ok (pick tiles) (fun i => tiles.getD i ⟨[], fun _ => 0⟩) idx (fun i h => by
    obtain ⟨h1, -⟩ := hi i h
    rw [pick_ok tiles i h1, List.getD_eq_getElem _ _ h1])
  obtain ⟨st, h1, h2, h3⟩ := stackM2_ok (idx.map fun i => tiles.getD i ⟨[], fun _ => 0⟩) [B, C] n (by simpa using hne) (by
    intro t ht
    obtain ⟨i, h, rfl⟩ := List.mem_map.1 ht
    obtain ⟨h4, h5⟩ := hi i h
    rw [List.getD_eq_getElem _ _ h4, h5]; rfl)
  refine ⟨st, by rw [hm]; exact h1, ?_⟩
  have hsh : st.shape = [B, C, idx.length, (times dur n).length] := by
    rw [h2, times_length]; simp
  obtain ⟨out, e1, e2, e3⟩ := forward_through (times dur n) (times dur T) (nodes_times dur n hd hn) st B C idx.length hsh
  refine ⟨out, e1, by rw [e2, times_length], ?_⟩
  intro b c r hr j hj
  rw [e3 b c r j (by rw [times_length]; exact hj)]
  congr 1
  funext u
  have := h3 [b, c] rfl r (by simpa using hr) u
  simpa using this

/-- The plane of the spline method: each row is interpolated in time by the cubic spline through its tiles, placed at `u dur / n`, and read at the output times
`t dur / T`; each column is then interpolated in frequency by the cubic spline through the rows, placed at their frequencies, and read at the output frequencies. -/
noncomputable def splinePlane (dur : ℝ) (fs : List ℝ) (r : ℝ × ℝ) (F T : ℕ) (tiles : List (Tensor ℝ)) (n : ℕ → ℕ) (b c f t : ℕ) : ℝ :=
  through fs (fun k => through (times dur (n k)) (fun u => (tiles.getD k ⟨[], fun _ => 0⟩).get [b, c, u]) (t * (dur / T)))
    ((logspace r.1 r.2 F).getD f 0)

theorem splineInterpolate_ok (dur : ℝ) (fs : List ℝ) (r : ℝ × ℝ) (F T B C : ℕ) (tiles : List (Tensor ℝ)) (nt : List ℤ) (hd : 0 < dur)
    (hfs : Nodes fs) (hlen : tiles.length = fs.length) (hnt : nt.length = fs.length) (hmono : nt.Pairwise (· ≤ ·)) (h5 : ∀ n ∈ nt, 5 ≤ n)
    (hsh : ∀ k (hk : k < tiles.length), tiles[k].shape = [B, C, (nt.getD k 0).toNat]) :
    ∃ P, splineInterpolate nt ((uniqueNtiles nt).map fun n => timeInterp dur T n.toNat) (freqInterp fs r F) tiles = .ok P ∧ P.shape = [B, C, F, T] ∧
      ∀ b c f t, f < F → t < T → P.get [b, c, f, t] = splinePlane dur fs r F T tiles (fun k => (nt.getD k 0).toNat) b c f t := by
  set U := uniqueNtiles nt with hU
  have hidx : ∀ n ∈ U, ((List.range nt.length).filter fun i => decide (nt.getD i 0 = n)) ≠ [] ∧ 5 ≤ n ∧
      ∀ i ∈ (List.range nt.length).filter (fun i => decide (nt.getD i 0 = n)), ∃ h : i < tiles.length, tiles[i].shape = [B, C, n.toNat] := by
    intro n hn
    rw [hU, mem_uniqueNtiles] at hn
    refine ⟨?_, h5 n hn, ?_⟩
    · obtain ⟨k, hk, rfl⟩ := List.mem_iff_getElem.1 hn
      intro h0
      have : k ∈ (List.range nt.length).filter fun i => decide (nt.getD i 0 = nt[k]) := by
        rw [List.mem_filter, List.mem_range]
        exact ⟨hk, by rw [List.getD_eq_getElem _ _ hk]; simp⟩
      rw [h0] at this; simp at this
    · intro i hi
      rw [List.mem_filter, List.mem_range] at hi
      have hi1 : i < tiles.length := by omega
      refine ⟨hi1, ?_⟩
      have : nt.getD i 0 = n := by simpa using hi.2
      rw [hsh i hi1, this]
  -- the stacked groups
  have hgrp : ∀ n : ℤ, ∃ st out : Tensor ℝ, n ∈ U →
      (do let ts ← ((List.range nt.length).filter fun i => decide (nt.getD i 0 = n)).mapM (pick tiles); stackM2 ts : Res (Tensor ℝ)) = .ok st ∧
      ((timeInterp dur T n.toNat).forward st none).1 = .ok out ∧
      out.shape = [B, C, ((List.range nt.length).filter fun i => decide (nt.getD i 0 = n)).length, T] ∧
        ∀ b c r (hr : r < ((List.range nt.length).filter fun i => decide (nt.getD i 0 = n)).length) j, j < T →
          out.get [b, c, r, j] = through (times dur n.toNat) (fun u => (tiles.getD ((List.range nt.length).filter fun i => decide (nt.getD i 0 = n))[r] ⟨[], fun _ => 0⟩).get [b, c, u])
            ((times dur T).getD j 0) := by
    intro n
    by_cases hn : n ∈ U
    · obtain ⟨a1, a2, a3⟩ := hidx n hn
      obtain ⟨st, e1, out, e2, e3, e4⟩ := group_ok dur T B C tiles _ n.toNat hd (by omega) a1 a3
      exact ⟨st, out, fun _ => ⟨e1, e2, e3, e4⟩⟩
    · exact ⟨⟨[], fun _ => 0⟩, ⟨[], fun _ => 0⟩, fun h => absurd h hn⟩
  choose st out hg using hgrp
  have hst : (stackIdx nt).mapM (fun idx => (do let ts ← idx.mapM (pick tiles); stackM2 ts : Res (Tensor ℝ))) = .ok (U.map st) := by
    unfold stackIdx
    rw [← hU, List.mapM_map]
    exact mapM_ok _ st U fun n hn => (hg n hn).1
  have hrows : ((U.map st).zip (U.map fun n => timeInterp dur T n.toNat)).mapM (fun p => (p.2.forward p.1 none).1) = .ok (U.map out) := by
    rw [List.zip_map', List.mapM_map]
    exact mapM_ok _ out U fun n hn => (hg n hn).2.1
  have hUne : U ≠ [] := by
    intro h0
    have h1 := hfs.1
    have : nt[0]'(by omega) ∈ U := by rw [hU, mem_uniqueNtiles]; exact List.getElem_mem _
    rw [h0] at this; simp at this
  have hheight : ∀ n ∈ U, height (out n) = ((List.range nt.length).filter fun i => decide (nt.getD i 0 = n)).length := by
    intro n hn; unfold height; rw [(hg n hn).2.2.1]; rfl
  obtain ⟨y, y1, y2, y3⟩ := catM2_ok (U.map out) B C T (by simpa using hUne) (by
    intro t ht
    obtain ⟨n, hn, rfl⟩ := List.mem_map.1 ht
    rw [hheight n hn]; exact (hg n hn).2.2.1)
  have horder := stackIdx_in_order nt hmono
  have hflat : ∀ b c j, j < T → ((U.map out).flatMap fun t => (List.range (height t)).map fun r => t.get [b, c, r, j]) =
      (List.range nt.length).map fun k => through (times dur (nt.getD k 0).toNat) (fun u => (tiles.getD k ⟨[], fun _ => 0⟩).get [b, c, u]) ((times dur T).getD j 0) := by
    intro b c j hj
    rw [← horder, List.map_flatten, List.flatMap_def, List.map_map]
    unfold stackIdx
    rw [← hU, List.map_map]
    congr 1
    refine List.map_congr_left fun n hn => ?_
    simp only [Function.comp_apply]
    obtain ⟨-, -, -, g4⟩ := hg n hn
    rw [hheight n hn]
    apply List.ext_getElem
    · simp
    · intro r hr hr'
      simp only [List.length_map, List.length_range] at hr
      simp only [List.getElem_map, List.getElem_range]
      rw [g4 b c r hr j hj]
      have hmem := List.getElem_mem hr
      rw [List.mem_filter] at hmem
      have : nt.getD (((List.range nt.length).filter fun i => decide (nt.getD i 0 = n))[r]) 0 = n := by simpa using hmem.2
      rw [this]
  have hsum : ((U.map out).map height).sum = nt.length := by
    have h1 : ((U.map out).map height) = (stackIdx nt).map List.length := by
      unfold stackIdx
      rw [← hU, List.map_map, List.map_map]
      exact List.map_congr_left fun n hn => hheight n hn
    rw [h1, ← List.length_flatten, horder, List.length_range]
  have hyT : (y.transpose 2 3).shape = [B, C, T, fs.length] := by
    unfold Tensor.transpose
    rw [y2, hsum, hnt]; rfl
  obtain ⟨z, z1, z2, z3⟩ := forward_through fs (logspace r.1 r.2 F) hfs (y.transpose 2 3) B C T hyT
  have hF : (logspace r.1 r.2 F).length = F := by simp [logspace]
  refine ⟨z.transpose 2 3, ?_, ?_, ?_⟩
  · unfold splineInterpolate
    simp only [hst, res_bind_ok]
    rw [if_neg (by simp)]
    simp only [hrows, res_bind_ok, y1]
    unfold freqInterp
    simp only [z1, res_bind_ok]
  · unfold Tensor.transpose; rw [z2, hF]; rfl
  · intro b c f t hf ht
    show z.get [b, c, t, f] = _
    rw [z3 b c t f (by rw [hF]; exact hf)]
    unfold splinePlane
    refine through_congr fs _ _ _ fun k hk => ?_
    show y.get [b, c, k, t] = _
    rw [y3, hflat b c t ht, List.getD_eq_getElem _ _ (by simp; omega)]
    simp only [List.getElem_map, List.getElem_range]
    rw [times_get dur T t ht]

/-! ## The image branch -/

/-- The plane of the other methods: each row of tiles resampled to the time bins, then each column resampled to the frequency bins. -/
noncomputable def plane (res : ℕ → ℕ → (ℕ → ℝ) → ℕ → ℝ) (tiles : List (Tensor ℝ)) (n : ℕ → ℕ) (F T b c f t : ℕ) : ℝ :=
  res tiles.length F (fun k => res (n k) T (fun u => (tiles.getD k ⟨[], fun _ => 0⟩).get [b, c, u]) t) f

theorem unsqueezeIdx_self (sh i : List ℕ) (h1 : ∀ n ∈ sh, n ≠ 1) (hl : i.length = sh.length) : unsqueezeIdx sh i = i := by
  induction sh generalizing i with
  | nil => cases i <;> simp_all [unsqueezeIdx]
  | cons a s ih =>
    cases i with
    | nil => simp at hl
    | cons j i =>
      have ha : a ≠ 1 := h1 a (by simp)
      have := ih i (fun n hn => h1 n (by simp [hn])) (by simpa using hl)
      rw [unsqueezeIdx.eq_def]
      split
      · simp_all
      · rename_i h; simp only [List.cons.injEq] at h; exact absurd h.1 ha
      · rename_i h h'; simp only [List.cons.injEq] at h h'; obtain ⟨rfl, rfl⟩ := h; obtain ⟨rfl, rfl⟩ := h'; rw [this]
      · rename_i h h'; simp at h'

theorem squeeze_self (t : Tensor ℝ) (h : ∀ n ∈ t.shape, n ≠ 1) : (squeeze t).shape = t.shape ∧ ∀ i, InB i t.shape → (squeeze t).get i = t.get i := by
  unfold squeeze
  refine ⟨?_, ?_⟩
  · simp only [List.filter_eq_self]
    intro a ha
    simpa using h a ha
  · intro i hi
    simp only
    rw [unsqueezeIdx_self _ _ h (inB_length hi)]

theorem imageInterpolate_ok (k : ℕ → ℕ → (ℕ → ℝ) → ℕ → ℝ) (hk : Good k) (bins : ℕ × ℕ) (tiles : List (Tensor ℝ)) (n : ℕ → ℕ) (B C : ℕ)
    (hB : 0 < B) (hC : 0 < C) (hF : 0 < bins.1) (hT : 0 < bins.2) (hne : tiles ≠ []) (hsh : ∀ i (hi : i < tiles.length), tiles[i].shape = [B, C, n i] ∧ 0 < n i) :
    ∃ P, imageInterpolate k bins tiles = .ok (squeeze P) ∧ P.shape = [B, C, bins.1, bins.2] ∧
      ∀ b c f t, b < B → c < C → f < bins.1 → t < bins.2 → P.get [b, c, f, t] = plane k tiles n bins.1 bins.2 b c f t := by
  obtain ⟨rs, r1, r2, r3⟩ := mapM_get (fun t : Tensor ℝ => interp2 k (t.shape.getD (t.shape.length - 2) 0) bins.2 t.unsqueeze0) tiles (by
    intro t ht
    obtain ⟨i, hi, rfl⟩ := List.mem_iff_getElem.1 ht
    obtain ⟨h1, h2⟩ := hsh i hi
    obtain ⟨o, ho, -⟩ := interp2_ok k tiles[i].unsqueeze0 1 B C (n i) C bins.2 (by simp [Tensor.unsqueeze0, h1]) hB hC h2 hC hT
    refine ⟨o, ?_⟩
    rw [h1]; exact ho)
  have hval : ∀ i (hi : i < rs.length), rs[i].shape = [1, B, C, bins.2] ∧ ∀ b c x, c < C → rs[i].get [0, b, c, x] =
      k (n i) bins.2 (fun u => (tiles.getD i ⟨[], fun _ => 0⟩).get [b, c, u]) x := by
    intro i hi
    have hi' : i < tiles.length := by omega
    obtain ⟨h1, h2⟩ := hsh i hi'
    obtain ⟨o, ho, ho2, ho3⟩ := interp2_ok k tiles[i].unsqueeze0 1 B C (n i) C bins.2 (by simp [Tensor.unsqueeze0, h1]) hB hC h2 hC hT
    have h4 := r3 i hi' hi
    rw [h1] at h4
    have h5 : interp2 k C bins.2 tiles[i].unsqueeze0 = .ok rs[i] := h4
    rw [ho] at h5
    rw [← Except.ok.inj h5]
    refine ⟨ho2, fun b c x hc => ?_⟩
    rw [ho3, hk.same _ _ _ hc, List.getD_eq_getElem _ _ hi']
    rfl
  have hrne : rs ≠ [] := by
    intro h0; rw [h0] at r2
    exact hne (List.length_eq_zero_iff.1 r2.symm)
  obtain ⟨y, y1, y2, y3⟩ := stackM2_ok rs [1, B, C] bins.2 hrne (by
    intro t ht
    obtain ⟨i, hi, rfl⟩ := List.mem_iff_getElem.1 ht
    exact (hval i hi).1)
  have hpos : 0 < rs.length := List.length_pos_of_ne_nil hrne
  obtain ⟨z, z1, z2, z3⟩ := interp2_ok k ⟨y.shape.tail, fun i => y.get (0 :: i)⟩ B C rs.length bins.2 bins.1 bins.2 (by rw [y2]; rfl) hC hpos hT hF hT
  refine ⟨z, ?_, z2, ?_⟩
  · unfold imageInterpolate
    simp only [r1, res_bind_ok, y1, z1]
  · intro b c f t hb hc hf ht
    rw [z3]
    unfold plane
    rw [← r2]
    refine hk.congr _ _ _ _ _ hpos hf fun i hi => ?_
    rw [hk.same _ _ _ ht, ← (hval i hi).2 b c t hc]
    exact y3 [0, b, c] rfl i hi t

theorem good_kernel (m : Interp) : Good (kernel m) := by
  cases m
  · exact good_linear
  · exact good_cubic
  · exact good_cubic

/-! ## `interpolate` -/

/-- Before the tiles have been computed, both queries raise RuntimeError. -/
theorem before_compute (s : Single) (h : s.tiles = none) (fsearch : Option (ℝ × ℝ)) :
    s.maxEnergy fsearch = .error .runtime ∧ s.interpolate = .error .runtime := by
  unfold Single.maxEnergy Single.interpolate; rw [h]; exact ⟨rfl, rfl⟩

/-- **Interpolation (bilinear, bicubic).**  On tiles of shapes `(B, C, n_i)` the rows are resampled in time and then the columns in frequency, each batch element and channel
separately; dimensions of size one are dropped. -/
theorem interpolate_image (s : Single) (tiles : List (Tensor ℝ)) (n : ℕ → ℕ) (B C : ℕ) (hm : s.method ≠ .spline) (ht : s.tiles = some tiles) (hne : tiles ≠ [])
    (hB : 0 < B) (hC : 0 < C) (hF : 0 < s.bins.1) (hT : 0 < s.bins.2) (hsh : ∀ i (hi : i < tiles.length), tiles[i].shape = [B, C, n i] ∧ 0 < n i) :
    ∃ P : Tensor ℝ, s.interpolate = .ok (squeeze P) ∧ P.shape = [B, C, s.bins.1, s.bins.2] ∧
      ∀ b c f t, b < B → c < C → f < s.bins.1 → t < s.bins.2 → P.get [b, c, f, t] = plane (kernel s.method) tiles n s.bins.1 s.bins.2 b c f t := by
  obtain ⟨P, h1, h2, h3⟩ := imageInterpolate_ok (kernel s.method) (good_kernel _) s.bins tiles n B C hB hC hF hT hne hsh
  refine ⟨P, ?_, h2, h3⟩
  unfold Single.interpolate
  rw [ht]
  cases hmm : s.method with
  | spline => exact absurd hmm hm
  | bilinear => rw [hmm] at h1; exact h1
  | bicubic => rw [hmm] at h1; exact h1

/-- Without time or frequency bins the bilinear and bicubic methods raise RuntimeError. -/
theorem interpolate_image_empty (s : Single) (tiles : List (Tensor ℝ)) (n : ℕ → ℕ) (B C : ℕ) (hm : s.method ≠ .spline) (ht : s.tiles = some tiles) (hne : tiles ≠ [])
    (hsh : ∀ i (hi : i < tiles.length), tiles[i].shape = [B, C, n i]) (hT : s.bins.2 = 0) : s.interpolate = .error .runtime := by
  have key : imageInterpolate (kernel s.method) s.bins tiles = .error .runtime := by
    unfold imageInterpolate
    cases tiles with
    | nil => exact absurd rfl hne
    | cons t ts =>
      have h0 := hsh 0 (by simp)
      simp only [List.getElem_cons_zero] at h0
      rw [List.mapM_cons, interp2_reject _ _ 1 B C (n 0) _ _ (by simp [Tensor.unsqueeze0, h0]) (.inr (.inr (.inr (.inr hT))))]
      rfl
  unfold Single.interpolate
  rw [ht]
  cases hmm : s.method with
  | spline => exact absurd hmm hm
  | bilinear => rw [hmm] at key; exact key
  | bicubic => rw [hmm] at key; exact key

/-- **Interpolation (spline).**  For a transform that the constructor built, tiles of the lengths it expects are interpolated in time and then in frequency by cubic
splines in physical time and frequency; all four dimensions are kept. -/
theorem interpolate_spline (s : Single) (tiles : List (Tensor ℝ)) (B C : ℕ) (hd : 0 < s.dur) (hm : s.method = .spline) (ht : s.tiles = some tiles)
    (hspl : s.spl = some ((uniqueNtiles (s.transforms.map QTile.ntiles)).map fun n => timeInterp s.dur s.bins.2 n.toNat, freqInterp s.freqs s.range s.bins.1))
    (hfit : SplineFits s) (hmono : (s.transforms.map QTile.ntiles).Pairwise (· ≤ ·)) (hfs : s.freqs.Pairwise (· < ·)) (hlen : tiles.length = s.freqs.length)
    (hsh : ∀ k (hk : k < tiles.length), tiles[k].shape = [B, C, ((s.transforms.map QTile.ntiles).getD k 0).toNat]) :
    ∃ P : Tensor ℝ, s.interpolate = .ok P ∧ P.shape = [B, C, s.bins.1, s.bins.2] ∧
      ∀ b c f t, f < s.bins.1 → t < s.bins.2 → P.get [b, c, f, t] =
        splinePlane s.dur s.freqs s.range s.bins.1 s.bins.2 tiles (fun k => ((s.transforms.map QTile.ntiles).getD k 0).toNat) b c f t := by
  have hnodes : Nodes s.freqs := by
    refine ⟨hfit.2.1, ?_⟩
    intro i j hij hj
    rw [List.getD_eq_getElem _ _ (by omega), List.getD_eq_getElem _ _ hj]
    exact List.pairwise_iff_getElem.1 hfs i j (by omega) hj hij
  obtain ⟨P, h1, h2, h3⟩ := splineInterpolate_ok s.dur s.freqs s.range s.bins.1 s.bins.2 B C tiles (s.transforms.map QTile.ntiles) hd hnodes hlen
    (by simp [Single.transforms]) hmono (by
      intro n hn
      obtain ⟨t, ht, rfl⟩ := List.mem_map.1 hn
      exact hfit.2.2 t ht) hsh
  refine ⟨P, ?_, h2, h3⟩
  unfold Single.interpolate
  rw [ht, hm, hspl]
  exact h1

/-- **Finding.**  For a batch of one, the default method returns three dimensions, `(C, F, T)`, although the documentation promises one more than the input. -/
theorem interpolate_squeezes (s : Single) (tiles : List (Tensor ℝ)) (n : ℕ → ℕ) (C : ℕ) (ht : s.tiles = some tiles) (hne : tiles ≠ [])
    (hsh : ∀ k (hk : k < tiles.length), tiles[k].shape = [1, C, n k] ∧ 0 < n k) (hm : s.method = .bicubic) (hC : 1 < C) (hF : 1 < s.bins.1) (hT : 1 < s.bins.2) :
    ∃ P, s.interpolate = .ok P ∧ P.shape = [C, s.bins.1, s.bins.2] := by
  obtain ⟨P, h1, h2, -⟩ := interpolate_image s tiles n 1 C (by rw [hm]; simp) ht hne (by decide) (by omega) (by omega) (by omega) hsh
  refine ⟨_, h1, ?_⟩
  unfold squeeze
  simp [h2, (show C ≠ 1 by omega), (show s.bins.1 ≠ 1 by omega), (show s.bins.2 ≠ 1 by omega)]

/-- Non-vacuity: two rows of two and four tiles. -/
example : ∃ P, (⟨1, 1024, 12, 0.2, (8, 16), (20, 400), .bicubic, none, some [⟨[1, 3, 2], fun _ => 1⟩, ⟨[1, 3, 4], fun _ => 2⟩]⟩ : Single).interpolate
    = .ok P ∧ P.shape = [3, 8, 16] := by
  refine interpolate_squeezes _ [⟨[1, 3, 2], fun _ => 1⟩, ⟨[1, 3, 4], fun _ => 2⟩] (fun k => 2 + 2 * k) 3 rfl (by simp) ?_ rfl (by decide) (by decide) (by decide)
  intro k hk
  simp only [List.length_cons, List.length_nil] at hk
  interval_cases k <;> exact ⟨rfl, by decide⟩

/-! ## What the plane shows -/

/-- **Bounds (bilinear).**  The interpolated plane stays within any bounds of the tiles; in particular energies stay non-negative. -/
theorem plane_bounds (tiles : List (Tensor ℝ)) (n : ℕ → ℕ) (F T b c f t : ℕ) (lo hi : ℝ) (hne : tiles ≠ []) (hf : f < F) (ht : t < T)
    (hn : ∀ i < tiles.length, 0 < n i) (hv : ∀ i (h : i < tiles.length) u, u < n i → lo ≤ tiles[i].get [b, c, u] ∧ tiles[i].get [b, c, u] ≤ hi) :
    lo ≤ plane linear tiles n F T b c f t ∧ plane linear tiles n F T b c f t ≤ hi := by
  unfold plane
  refine linear_bounds _ _ _ _ _ _ (List.length_pos_of_ne_nil hne) hf fun i h => ?_
  refine linear_bounds _ _ _ _ _ _ (hn i h) ht fun u hu => ?_
  rw [List.getD_eq_getElem _ _ h]
  exact hv i h u hu

/-- The bicubic plane overshoots by at most 3/16 of the range along each axis. -/
theorem plane_bounds_cubic (tiles : List (Tensor ℝ)) (n : ℕ → ℕ) (F T b c f t : ℕ) (lo hi : ℝ) (hne : tiles ≠ [])
    (hn : ∀ i < tiles.length, 0 < n i) (hv : ∀ i (h : i < tiles.length) u, u < n i → lo ≤ tiles[i].get [b, c, u] ∧ tiles[i].get [b, c, u] ≤ hi) :
    lo - 57 / 128 * (hi - lo) ≤ plane cubic tiles n F T b c f t ∧ plane cubic tiles n F T b c f t ≤ hi + 57 / 128 * (hi - lo) := by
  have h1 : ∀ i < tiles.length, lo - 3 / 16 * (hi - lo) ≤ cubic (n i) T (fun u => (tiles.getD i ⟨[], fun _ => 0⟩).get [b, c, u]) t ∧
      cubic (n i) T (fun u => (tiles.getD i ⟨[], fun _ => 0⟩).get [b, c, u]) t ≤ hi + 3 / 16 * (hi - lo) := by
    intro i h
    refine cubic_bounds _ _ _ _ _ _ (hn i h) fun u hu => ?_
    rw [List.getD_eq_getElem _ _ h]
    exact hv i h u hu
  have := cubic_bounds tiles.length F (fun k => cubic (n k) T (fun u => (tiles.getD k ⟨[], fun _ => 0⟩).get [b, c, u]) t) f _ _ (List.length_pos_of_ne_nil hne) h1
  unfold plane
  constructor
  · linarith [this.1]
  · linarith [this.2]

/-- **Time axis (bilinear).**  Tile `u` of a row of `n` stands for the time `u dur / n`.  A row that is an affine function of time comes out at bin `t` as its value at
`(t + 1/2) dur / T - dur / (2 n)`, moved into the range of the tiles. -/
theorem row_time_bilinear (dur : ℝ) (n T t : ℕ) (α β : ℝ) (hd : 0 < dur) (hn : 0 < n) (ht : t < T) :
    linear n T (fun u => α + β * (u * (dur / n))) t =
      α + β * min (max (((t : ℝ) + 1 / 2) * (dur / T) - dur / (2 * n)) 0) (dur - dur / n) := by
  have hn' : (0 : ℝ) < n := by exact_mod_cast hn
  have hT' : (0 : ℝ) < T := by exact_mod_cast (by omega : 0 < T)
  have h1 : (fun u : ℕ => α + β * (u * (dur / n))) = fun u : ℕ => α + (β * (dur / n)) * u := by funext u; ring
  rw [h1, linear_affine n T _ _ t hn ht, mul_assoc, mul_min_of_nonneg _ _ (by positivity), mul_max_of_nonneg _ _ (by positivity)]
  congr 4
  · unfold source; field_simp
  · ring
  · field_simp

/-- **Time axis (spline).**  Under the spline method the same row comes out at bin `t` as its value at `t dur / T`, as long as that is not beyond the last tile. -/
theorem row_time_spline (dur : ℝ) (n T t : ℕ) (p : Polynomial ℝ) (hp : p.natDegree ≤ 3) (hd : 0 < dur) (hn : 5 ≤ n) (ht : t * (dur / T) ≤ dur - dur / n) :
    through (times dur n) (fun u => p.eval (u * (dur / n))) (t * (dur / T)) = p.eval (t * (dur / T)) := by
  have hl := times_length dur n
  have hn' : (0 : ℝ) < n := by exact_mod_cast (by omega : 0 < n)
  refine through_poly (nodes_times dur n hd hn) _ p hp ?_ _ ?_ ?_
  · intro j hj
    rw [hl] at hj
    rw [times_get dur n j hj]
  · rw [times_get dur n 0 (by omega)]
    simp only [Nat.cast_zero, zero_mul]
    positivity
  · rw [hl, times_get dur n (n - 1) (by omega), Nat.cast_sub (by omega)]
    have : ((n : ℝ) - (1 : ℕ)) * (dur / n) = dur - dur / n := by push_cast; field_simp
    rw [this]; exact ht

/-- **Columns are times (spline).**  Two rows with different numbers of tiles that sample the same cubic function of time agree in every output column.  Missing for the full
property: the image methods, for which it is false (`bilinear_misaligned`). -/
theorem columns_aligned_partial (dur : ℝ) (n n' T t : ℕ) (p : Polynomial ℝ) (hp : p.natDegree ≤ 3) (hd : 0 < dur) (hn : 5 ≤ n) (hn' : 5 ≤ n')
    (ht : t * (dur / T) ≤ dur - dur / n) (ht' : t * (dur / T) ≤ dur - dur / n') :
    through (times dur n) (fun u => p.eval (u * (dur / n))) (t * (dur / T)) = through (times dur n') (fun u => p.eval (u * (dur / n'))) (t * (dur / T)) := by
  rw [row_time_spline dur n T t p hp hd hn ht, row_time_spline dur n' T t p hp hd hn' ht']

/-- **Finding.**  The bilinear method does not align rows in time: for two rows of different numbers of tiles that are the same affine, non-constant function of time, the
outputs at an inner time bin differ by the slope times `dur / (2 n') - dur / (2 n)`. -/
theorem bilinear_misaligned (dur : ℝ) (n n' T t : ℕ) (α β : ℝ) (hd : 0 < dur) (hn : 0 < n) (hn' : 0 < n') (ht : t < T)
    (h1 : dur / (2 * n) ≤ ((t : ℝ) + 1 / 2) * (dur / T)) (h2 : ((t : ℝ) + 1 / 2) * (dur / T) ≤ dur - dur / (2 * n))
    (h1' : dur / (2 * n') ≤ ((t : ℝ) + 1 / 2) * (dur / T)) (h2' : ((t : ℝ) + 1 / 2) * (dur / T) ≤ dur - dur / (2 * n')) :
    linear n T (fun u => α + β * (u * (dur / n))) t - linear n' T (fun u => α + β * (u * (dur / n'))) t = β * (dur / (2 * n') - dur / (2 * n)) := by
  have e : ∀ m : ℕ, 0 < m → dur / m = 2 * (dur / (2 * m)) := by
    intro m hm
    have : (0 : ℝ) < m := by exact_mod_cast hm
    field_simp
  rw [row_time_bilinear dur n T t α β hd hn ht, row_time_bilinear dur n' T t α β hd hn' ht]
  rw [max_eq_left (by linarith), max_eq_left (by linarith), min_eq_left (by rw [e n hn]; linarith), min_eq_left (by rw [e n' hn']; linarith)]
  ring

/-- Non-vacuity: rows of 8 and 64 tiles of a one-second transform, 64 time bins, bin 32: the two rows are read 7/128 of a second apart. -/
example : linear 8 64 (fun u => 0 + 1 * (u * ((1 : ℝ) / (8 : ℕ)))) 32 - linear 64 64 (fun u => 0 + 1 * (u * ((1 : ℝ) / (64 : ℕ)))) 32 = -(7 / 128) := by
  rw [bilinear_misaligned 1 8 64 64 32 0 1 (by norm_num) (by norm_num) (by norm_num) (by norm_num) (by norm_num) (by norm_num) (by norm_num) (by norm_num)]
  norm_num

/-- **Reproduction (spline).**  Tiles sampled from a polynomial of degree at most three in time and in frequency come out as that polynomial at the output times and
frequencies, for output times not beyond the last tile of any row and output frequencies between the first and last row. -/
theorem splinePlane_poly (dur : ℝ) (fs : List ℝ) (r : ℝ × ℝ) (F T : ℕ) (tiles : List (Tensor ℝ)) (n : ℕ → ℕ) (b c f t : ℕ) (R : ℕ) (P Q : ℕ → Polynomial ℝ)
    (hP : ∀ i, (P i).natDegree ≤ 3) (hQ : ∀ i, (Q i).natDegree ≤ 3) (hd : 0 < dur) (hfs : Nodes fs) (hn : ∀ k < fs.length, 5 ≤ n k)
    (hv : ∀ k < fs.length, ∀ u < n k, (tiles.getD k ⟨[], fun _ => 0⟩).get [b, c, u] = ∑ i ∈ Finset.range R, (P i).eval (fs.getD k 0) * (Q i).eval (u * (dur / n k)))
    (ht : ∀ k < fs.length, t * (dur / T) ≤ dur - dur / n k)
    (hf0 : fs.getD 0 0 ≤ (logspace r.1 r.2 F).getD f 0) (hf1 : (logspace r.1 r.2 F).getD f 0 ≤ fs.getD (fs.length - 1) 0) :
    splinePlane dur fs r F T tiles n b c f t = ∑ i ∈ Finset.range R, (P i).eval ((logspace r.1 r.2 F).getD f 0) * (Q i).eval (t * (dur / T)) := by
  have evalsum : ∀ (a : ℕ → ℝ) (G : ℕ → Polynomial ℝ) (y : ℝ), (∑ i ∈ Finset.range R, Polynomial.C (a i) * G i).eval y = ∑ i ∈ Finset.range R, a i * (G i).eval y := by
    intro a G y
    rw [Polynomial.eval_finsetSum]
    exact Finset.sum_congr rfl fun i _ => by rw [Polynomial.eval_mul, Polynomial.eval_C]
  have degsum : ∀ (a : ℕ → ℝ) (G : ℕ → Polynomial ℝ), (∀ i, (G i).natDegree ≤ 3) → (∑ i ∈ Finset.range R, Polynomial.C (a i) * G i).natDegree ≤ 3 := by
    intro a G hG
    refine Polynomial.natDegree_sum_le_of_forall_le _ _ fun i _ => ?_
    exact (Polynomial.natDegree_C_mul_le _ _).trans (hG i)
  have inner : ∀ k < fs.length, through (times dur (n k)) (fun u => (tiles.getD k ⟨[], fun _ => 0⟩).get [b, c, u]) (t * (dur / T)) =
      (∑ i ∈ Finset.range R, Polynomial.C ((Q i).eval (t * (dur / T))) * P i).eval (fs.getD k 0) := by
    intro k hk
    rw [through_congr _ _ (fun u => (∑ i ∈ Finset.range R, Polynomial.C ((P i).eval (fs.getD k 0)) * Q i).eval (u * (dur / n k))) _ (by
      intro u hu
      rw [times_length] at hu
      rw [hv k hk u hu, evalsum])]
    rw [row_time_spline dur (n k) T t _ (degsum _ _ hQ) hd (hn k hk) (ht k hk), evalsum, evalsum]
    exact Finset.sum_congr rfl fun i _ => mul_comm _ _
  unfold splinePlane
  rw [through_poly hfs _ _ (degsum _ _ hP) inner _ hf0 hf1, evalsum]
  exact Finset.sum_congr rfl fun i _ => mul_comm _ _

/-- **Reproduction (spline, data).**  Where an output frequency is the frequency of a row and an output time the time of one of its tiles, the tile comes out. -/
theorem splinePlane_node (dur : ℝ) (fs : List ℝ) (r : ℝ × ℝ) (F T : ℕ) (tiles : List (Tensor ℝ)) (n : ℕ → ℕ) (b c f t k u : ℕ) (hd : 0 < dur) (hfs : Nodes fs)
    (hk : k < fs.length) (hn : 5 ≤ n k) (hu : u < n k) (hf : (logspace r.1 r.2 F).getD f 0 = fs.getD k 0) (ht : (t : ℝ) * (dur / T) = u * (dur / n k)) :
    splinePlane dur fs r F T tiles n b c f t = (tiles.getD k ⟨[], fun _ => 0⟩).get [b, c, u] := by
  unfold splinePlane
  rw [hf, through_node hfs _ k hk, ht, ← times_get dur (n k) u hu, through_node (nodes_times dur (n k) hd hn) _ u (by rw [times_length]; exact hu)]

end Verif.QTransform
