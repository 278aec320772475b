import Verif.Props.Batch
import Verif.Props.QScan
import Verif.Props.Heterodyne
/-!
# Batch independence of the Q transform and of heterodyning (C84)
-/
namespace Verif.Batch
open Spec.Batch Finset QTransform Whiten

/-- The planes of a batch and of a selection from it. -/
theorem q_planes (dur sr : ℝ) (bins : ℕ × ℕ) (q m : ℝ) (i : Interp) (x : Tensor ℝ) (B C N : ℕ) (norm : Option String)
    (nrm : (n : ℕ) → (ℕ → ℝ) → ℝ) (hd : 0 < dur) (hs : 0 < sr) (hq : 1 ≤ q) (hm : 0 < m) (hm1 : m ≤ 1) (ha : Accepts dur sr bins q (0, none) m i)
    (hx : x.shape = [B, C, N]) (hN : 0 < N) (hNs : pyInt (dur * sr) = N) (hn : normalizer norm = .ok nrm) (hC : 0 < C) (hF : 0 < bins.1) (hT : 0 < bins.2)
    (σ : List ℕ) (hσ : Positions B σ) :
    ∃ P P' : Tensor ℝ, (built dur sr bins q (0, none) m i).forward x norm = .ok (if i = .spline then P else squeeze P) ∧
      (built dur sr bins q (0, none) m i).forward (x.pick 0 σ) norm = .ok (if i = .spline then P' else squeeze P') ∧
      P.shape = [B, C, bins.1, bins.2] ∧ P'.Same (P.pick 0 σ) := by
  obtain ⟨hB, hB'⟩ := pos_batch hσ
  obtain ⟨tl, out, t1, f1, P, p1, p2, p3⟩ := single_default dur sr bins q m i x [B, C] B C N norm nrm hd hs hq hm hm1 ha hx (by simp) (by simp) hN hNs hn hB hC hF hT
  obtain ⟨tl', out', t1', f1', P', p1', p2', p3'⟩ := single_default dur sr bins q m i (x.pick 0 σ) [σ.length, C] σ.length C N norm nrm hd hs hq hm hm1 ha
    (pick_shape x σ B _ hx) (by simp) (by simp) hN hNs hn hB' hC hF hT
  have hmeth : (built dur sr bins q (0, none) m i).method = i := rfl
  rw [hmeth] at p2 p2' p3 p3'
  have hbins : (built dur sr bins q (0, none) m i).bins = bins := rfl
  rw [hbins] at p1 p1' p3 p3'
  refine ⟨P, P', by rw [f1, p2], by rw [f1', p2'], p1, by rw [p1', pick_shape P σ B _ p1], ?_⟩
  have hlen : tl'.length = tl.length := by rw [t1.1, t1'.1]
  have htr : (built dur sr bins q (0, none) m i).transforms.length = (built dur sr bins q (0, none) m i).freqs.length := by simp [Single.transforms]
  have htile : ∀ b c k, (fun u => (tl'.getD k ⟨[], fun _ => 0⟩).get [b, c, u]) = fun u => (tl.getD k ⟨[], fun _ => 0⟩).get [σ.getD b 0, c, u] := by
    intro b c k
    funext u
    by_cases hk : k < tl.length
    · have hk' : k < tl'.length := by omega
      have hkt : k < (built dur sr bins q (0, none) m i).transforms.length := by rw [htr, ← t1.1]; exact hk
      rw [List.getD_eq_getElem _ _ hk, List.getD_eq_getElem _ _ hk', (t1.2.2 k hk hkt).2.2, (t1'.2.2 k hk' hkt).2.2]
      rfl
    · rw [List.getD_eq_default _ _ (by omega), List.getD_eq_default _ _ (by omega)]
  intro j hj
  rw [p1'] at hj
  match j, hj with
  | [b, c, f, t], ⟨hb, hc, hf, ht, _⟩ =>
    rw [pick_cons, p3' b c f t hb hc hf ht, p3 _ c f t (getD_lt hσ hb) hc hf ht]
    unfold splinePlane plane
    simp only [htile, hlen]

/-- **C84 (Q transform, spline method).**  A transform with the default frequency range. -/
theorem q_spline (dur sr : ℝ) (bins : ℕ × ℕ) (q m : ℝ) (C N : ℕ) (norm : Option String)
    (nrm : (n : ℕ) → (ℕ → ℝ) → ℝ) (hd : 0 < dur) (hs : 0 < sr) (hq : 1 ≤ q) (hm : 0 < m) (hm1 : m ≤ 1) (s : Single)
    (hinit : (Single.init dur sr bins q none m "spline").1 = .ok s) (hN : 0 < N) (hNs : pyInt (dur * sr) = N) (hn : normalizer norm = .ok nrm)
    (hC : 0 < C) (hF : 0 < bins.1) (hT : 0 < bins.2) : BatchWise (fun sh => sh = [C, N]) 0 fun x => s.forward x norm := by
  obtain ⟨i, hi, ha⟩ := (init_ok_iff dur sr bins q none m "spline" hd).1 ⟨s, hinit⟩
  have hi' : i = .spline := by simpa [parseInterp, eq_comm] using hi
  subst hi'
  rw [init_ok dur sr bins q none m "spline" .spline hd hi ha] at hinit
  obtain rfl := Except.ok.inj hinit
  rintro B _ x σ hx rfl hσ
  obtain ⟨P, P', h1, h2, h3, h4⟩ := q_planes dur sr bins q m .spline x B C N norm nrm hd hs hq hm hm1 ha hx hN hNs hn hC hF hT σ hσ
  exact ⟨P, P', h1, h2, by simp [h3], h4⟩

/-- **C84 (Q transform, image methods).**  The planes are selected, but both results are squeezed: with at least two channels and two bins in each direction
they agree unless exactly one element is selected from a batch of several (or several times the same one from a batch of one). -/
theorem q_image (dur sr : ℝ) (bins : ℕ × ℕ) (q m : ℝ) (method : String) (C N B : ℕ) (norm : Option String) (x : Tensor ℝ) (σ : List ℕ)
    (nrm : (n : ℕ) → (ℕ → ℝ) → ℝ) (hd : 0 < dur) (hs : 0 < sr) (hq : 1 ≤ q) (hm : 0 < m) (hm1 : m ≤ 1) (s : Single) (hmeth : method ≠ "spline")
    (hinit : (Single.init dur sr bins q none m method).1 = .ok s) (hN : 0 < N) (hNs : pyInt (dur * sr) = N) (hn : normalizer norm = .ok nrm)
    (hC : 2 ≤ C) (hF : 2 ≤ bins.1) (hT : 2 ≤ bins.2) (hx : x.shape = [B, C, N]) (hσ : Positions B σ) :
    ∃ y y', s.forward x norm = .ok y ∧ s.forward (x.pick 0 σ) norm = .ok y' ∧
      y.shape = (if B = 1 then [C, bins.1, bins.2] else [B, C, bins.1, bins.2]) ∧
      y'.shape = (if σ.length = 1 then [C, bins.1, bins.2] else [σ.length, C, bins.1, bins.2]) ∧
      ∀ b c f t, b < σ.length → c < C → f < bins.1 → t < bins.2 →
        y'.get (if σ.length = 1 then [c, f, t] else [b, c, f, t]) = y.get (if B = 1 then [c, f, t] else [σ.getD b 0, c, f, t]) := by
  obtain ⟨i, hi, ha⟩ := (init_ok_iff dur sr bins q none m method hd).1 ⟨s, hinit⟩
  have hi' : i ≠ .spline := by
    rintro rfl
    unfold parseInterp at hi
    split_ifs at hi <;> simp_all
  rw [init_ok dur sr bins q none m method i hd hi ha] at hinit
  obtain rfl := Except.ok.inj hinit
  obtain ⟨P, P', h1, h2, h3, h4, h5⟩ := q_planes dur sr bins q m i x B C N norm nrm hd hs hq hm hm1 ha hx hN hNs hn (by omega) (by omega) (by omega) σ hσ
  rw [if_neg hi'] at h1 h2
  obtain ⟨hB, hB'⟩ := pos_batch hσ
  rw [pick_shape P σ B _ h3] at h4
  have hsq : ∀ (Q : Tensor ℝ) (n : ℕ), Q.shape = [n, C, bins.1, bins.2] →
      (squeeze Q).shape = (if n = 1 then [C, bins.1, bins.2] else [n, C, bins.1, bins.2]) ∧
      ∀ b c f t, b < n → (squeeze Q).get (if n = 1 then [c, f, t] else [b, c, f, t]) = Q.get [b, c, f, t] := by
    intro Q n hQ
    have e1 : C ≠ 1 := by omega
    have e2 : bins.1 ≠ 1 := by omega
    have e3 : bins.2 ≠ 1 := by omega
    constructor
    · unfold squeeze
      rw [hQ]
      by_cases h : n = 1 <;> simp [h, e1, e2, e3]
    · intro b c f t hb
      unfold squeeze
      rw [hQ]
      dsimp only
      by_cases h : n = 1
      · subst h
        obtain rfl : b = 0 := by omega
        simp [unsqueezeIdx]
      · rw [if_neg h, unsqueezeIdx_self [n, C, bins.1, bins.2] [b, c, f, t] (by simp [e1, e2, e3, h]) rfl]
  refine ⟨_, _, h1, h2, (hsq P B h3).1, (hsq P' σ.length h4).1, ?_⟩
  intro b c f t hb hc hf ht
  rw [(hsq P' σ.length h4).2 b c f t hb]
  have := (hsq P B h3).2 (σ.getD b 0) c f t (getD_lt hσ hb)
  rw [this, h5 [b, c, f, t] (by rw [h4]; exact ⟨hb, hc, hf, ht, trivial⟩)]
  rfl

/-- So the image methods do **not** treat the elements of a batch independently: the result for one element has a dimension less. -/
theorem q_image_not (dur sr : ℝ) (bins : ℕ × ℕ) (q m : ℝ) (method : String) (C N : ℕ) (norm : Option String)
    (nrm : (n : ℕ) → (ℕ → ℝ) → ℝ) (hd : 0 < dur) (hs : 0 < sr) (hq : 1 ≤ q) (hm : 0 < m) (hm1 : m ≤ 1) (s : Single) (hmeth : method ≠ "spline")
    (hinit : (Single.init dur sr bins q none m method).1 = .ok s) (hN : 0 < N) (hNs : pyInt (dur * sr) = N) (hn : normalizer norm = .ok nrm)
    (hC : 2 ≤ C) (hF : 2 ≤ bins.1) (hT : 2 ≤ bins.2) : ¬ BatchWise (fun sh => sh = [C, N]) 0 fun x => s.forward x norm := by
  intro h
  have hσ : Positions 2 [0] := ⟨by simp, by simp⟩
  obtain ⟨y, y', h1, h2, h3, h4, -⟩ := h 2 _ ⟨[2, C, N], fun _ => 0⟩ [0] rfl rfl hσ
  obtain ⟨z, z', g1, g2, g3, g4, -⟩ := q_image dur sr bins q m method C N 2 norm ⟨[2, C, N], fun _ => 0⟩ [0] nrm hd hs hq hm hm1 s hmeth hinit hN hNs hn hC hF hT rfl hσ
  have e1 := Except.ok.inj (h1.symm.trans g1)
  have e2 := Except.ok.inj (h2.symm.trans g2)
  subst e1 e2
  rw [g4] at h4
  have := congrArg List.length h4
  simp [Tensor.pick, g3] at this

open Heterodyne in
/-- **C84 (heterodyning)**, for inputs of the configured length. -/
theorem heterodyne (sr kl : ℝ) (hsr : 0 < sr) (mass x : Tensor ℝ) (M B C T : ℕ) (hm : mass.shape = [M]) (hx : x.shape = [B, C, T]) (hT : 2 ≤ T)
    (hK : (pyInt (kl * sr)).toNat = T) (r : String) (s : Heterodyne.State) (hs : Heterodyne.init sr kl mass r = .ok s) (σ : List ℕ) (hσ : Positions B σ) :
    ∃ X X' y y', Heterodyne.forward s x = .ok (Heterodyne.select s.ret y X) ∧ Heterodyne.forward s (x.pick 0 σ) = .ok (Heterodyne.select s.ret y' X') ∧
      X.shape = [B, C, M, T / 2 + 1] ∧ y.shape = [B, C, M, 2 * (T / 2)] ∧ X'.Same (X.pick 0 σ) ∧ y'.Same (y.pick 0 σ) := by
  obtain ⟨hsr', X, h1, h2, h3⟩ := spectra_ok sr kl hsr mass x M B C T hm hx (by omega) hK r s hs
  obtain ⟨-, X', h1', h2', h3'⟩ := spectra_ok sr kl hsr mass (x.pick 0 σ) M σ.length C T hm (pick_shape x σ B _ hx) (by omega) hK r s hs
  have hn : 2 * (T / 2 + 1 - 1) = 2 * (T / 2) := by omega
  have hback : ∀ (Y : Tensor ℂ) b, Y.shape = [b, C, M, T / 2 + 1] →
      backToTime s.sr Y = .ok (mapRows (2 * (T / 2)) (fun Y t => Fourier.irfft (2 * (T / 2)) Y t * sr) Y) := by
    intro Y b hY
    unfold backToTime
    have : Y.lastDim = .ok (T / 2 + 1) := Slicing.lastDim_append Y [b, C, M] _ hY
    simp only [this, res_bind_ok, hn, hsr']
    rw [if_neg (by omega)]
  have hsel : ∀ b c m k, b < σ.length → c < C → m < M → k < T / 2 + 1 → X'.get [b, c, m, k] = X.get [σ.getD b 0, c, m, k] := by
    intro b c m k hb hc hm hk
    rw [h3' b c m k hb hc hm hk, h3 _ c m k (getD_lt hσ hb) hc hm hk]
    rfl
  refine ⟨X, X', mapRows (2 * (T / 2)) (fun Y t => Fourier.irfft (2 * (T / 2)) Y t * sr) X,
    mapRows (2 * (T / 2)) (fun Y t => Fourier.irfft (2 * (T / 2)) Y t * sr) X', ?_, ?_, h2, ?_, ⟨by rw [h2', pick_shape X σ B _ h2], ?_⟩, ?_, ?_⟩
  · unfold Heterodyne.forward
    simp only [h1, res_bind_ok, hback X B h2]
  · unfold Heterodyne.forward
    simp only [h1', res_bind_ok, hback X' σ.length h2']
  · simp [mapRows, h2]
  · intro i hi
    rw [h2'] at hi
    match i, hi with
    | [b, c, m, k], ⟨hb, hc, hm, hk, _⟩ => exact hsel b c m k hb hc hm hk
  · simp [mapRows, h2, h2', Tensor.pick]
  · intro i hi
    have hi' : InB i [σ.length, C, M, 2 * (T / 2)] := by simpa [mapRows, h2'] using hi
    match i, hi' with
    | [b, c, m, t], ⟨hb, hc, hm, ht, _⟩ =>
      show Fourier.irfft (2 * (T / 2)) (fun k => X'.get [b, c, m, k]) t * sr = Fourier.irfft (2 * (T / 2)) (fun k => X.get [σ.getD b 0, c, m, k]) t * sr
      unfold Fourier.irfft
      rw [irfftF_congr _ _ _ fun k hk => hsel b c m k hb hc hm (by omega)]

/-! ## The hypotheses can be met -/

theorem demo_q (method : String) (hm : ∃ i, parseInterp method = .ok i) : ∃ q s, 1 ≤ q ∧ (Single.init 2 4096 (64, 128) q none 0.2 method).1 = .ok s := by
  obtain ⟨i, hi⟩ := hm
  obtain ⟨⟨ts, hts⟩, h2, h3⟩ := scan_2s_4096 (64, 128) (by norm_num) method i hi
  obtain ⟨q, hq⟩ := List.exists_mem_of_length_pos (l := keptQs 2 4096 none 0.2) (by omega)
  have ha := (scanInit_ok_iff 2 4096 (64, 128) none none method 0.2 (by norm_num)).1 ⟨ts, hts⟩ q hq
  obtain ⟨s, hs⟩ := (init_ok_iff 2 4096 (64, 128) q none 0.2 method (by norm_num)).2 ha
  rw [h2] at hq
  have := (getQs_spec 0.2 (4, 64) (by norm_num) (by norm_num) (by norm_num)).2.2.2.1 q hq
  dsimp only at this
  exact ⟨q, s, by linarith, hs⟩

example : ∃ q s, (Single.init 2 4096 (64, 128) q none 0.2 "spline").1 = .ok s ∧ BatchWise (fun sh => sh = [3, 8192]) 0 fun x => s.forward x none := by
  obtain ⟨q, s, h1, h2⟩ := demo_q "spline" ⟨.spline, by decide⟩
  exact ⟨q, s, h2, q_spline 2 4096 (64, 128) q 0.2 3 8192 none _ (by norm_num) (by norm_num) h1 (by norm_num) (by norm_num) s h2 (by norm_num)
    (by norm_num [pyInt]) rfl (by norm_num) (by norm_num) (by norm_num)⟩

example : ∃ q s, (Single.init 2 4096 (64, 128) q none 0.2 "bilinear").1 = .ok s ∧ ¬ BatchWise (fun sh => sh = [3, 8192]) 0 fun x => s.forward x none := by
  obtain ⟨q, s, h1, h2⟩ := demo_q "bilinear" ⟨.bilinear, by decide⟩
  exact ⟨q, s, h2, q_image_not 2 4096 (64, 128) q 0.2 "bilinear" 3 8192 none _ (by norm_num) (by norm_num) h1 (by norm_num) (by norm_num) s (by decide) h2 (by norm_num)
    (by norm_num [pyInt]) rfl (by norm_num) (by norm_num) (by norm_num)⟩

example : ∃ s X X' y y', Heterodyne.init 4 1 ⟨[2], fun i => 1 + i.headD 0⟩ "both" = .ok s ∧
    Heterodyne.forward s ⟨[4, 1, 4], fun i => (ravel [4, 1, 4] i : ℝ)⟩ = .ok (Heterodyne.select s.ret y X) ∧
    Heterodyne.forward s (Tensor.pick 0 [2, 0, 2] ⟨[4, 1, 4], fun i => (ravel [4, 1, 4] i : ℝ)⟩) = .ok (Heterodyne.select s.ret y' X') ∧
      X'.Same (X.pick 0 [2, 0, 2]) ∧ y'.Same (y.pick 0 [2, 0, 2]) := by
  obtain ⟨s, hs⟩ := (Heterodyne.heterodyne_return_type 4 1 ⟨[2], fun i => 1 + i.headD 0⟩ 2 rfl "both").1.2 (by simp)
  obtain ⟨X, X', y, y', h1, h2, -, -, h3, h4⟩ := heterodyne 4 1 (by norm_num) ⟨[2], fun i => 1 + i.headD 0⟩ ⟨[4, 1, 4], fun i => (ravel [4, 1, 4] i : ℝ)⟩ 2 4 1 4 rfl rfl (by norm_num)
    (by norm_num [pyInt]; rfl) "both" s hs [2, 0, 2] demo_positions
  exact ⟨s, X, X', y, y', hs, h1, h2, h3, h4⟩

end Verif.Batch
