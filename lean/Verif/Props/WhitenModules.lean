import Verif.Model.WhitenModules
import Verif.Props.WhitenFlat
import Verif.Props.Spectral
import Verif.Lemmas.Chunk
import Verif.Lemmas.Broadcast
/-!
# Properties of `Whiten`, `FixedWhiten` (C30) and `SpectralDensity` (C46)
-/
set_option linter.unusedSimpArgs false
namespace Verif.Whiten
open Finset Verif.Fourier Verif.Spectral Spec.Whiten

/-- The PSD with `n` bins resampled to `F` bins as `FixedWhiten.fit` does it: nearest bin at or below. -/
def resampled (n F : ℕ) (p : ℕ → ℝ) (k : ℕ) : ℝ := if n = F then p k else p (k * n / F)

theorem view3 {α : Type _} (p : Tensor α) (n : ℕ) (hp : p.shape = [n]) :
    ∃ q, p.reshapeInfer [1, 1] [] = .ok q ∧ q.shape = [1, 1, n] ∧ ∀ k < n, q.get [0, 0, k] = p.get [k] := by
  refine ⟨_, by simp [Tensor.reshapeInfer, Tensor.inferDim, Tensor.reshape, hp, numel, Nat.mod_one, res_bind_ok]; rfl, rfl, ?_⟩
  intro k _
  simp [hp, numel, ravel, unravel]

theorem normalizePsd_ok (x p : Tensor ℝ) (sr : ℝ) (F n : ℕ) (ff ov : Option ℝ) (hp : toPsd x sr ff ov = .ok p)
    (hs : p.shape = [n]) (hn : 0 < n) :
    ∃ q, normalizePsd x sr F ff ov = .ok q ∧ q.shape = [F] ∧
      ∀ k < F, q.get [k] = resampled n F (fun k => p.get [k]) k := by
  obtain ⟨q, e, hq, g⟩ := view3 p n hs
  unfold normalizePsd
  simp only [hp, res_bind_ok, e, hq]
  by_cases h : n = F
  · refine ⟨_, by simp [h]; rfl, rfl, fun k hk => ?_⟩
    simp only [resampled, h, if_true]
    exact g k (by omega)
  · refine ⟨_, by simp [h, hn.ne']; rfl, rfl, fun k hk => ?_⟩
    simp only [resampled, h, if_false, interpNearest, List.headD]
    exact g _ (by
      rw [Nat.div_lt_iff_lt_mul (by omega)]
      rw [mul_comm n F]
      exact Nat.mul_lt_mul_of_pos_right hk hn)

theorem truncRow_congr (F pad W : ℕ) (w : ℕ → ℝ) (sr : ℝ) (hp lp : Option ℝ) (p q : ℕ → ℝ) (hF : 2 ≤ F) (h : ∀ k < F, p k = q k) (k : ℕ) :
    truncRow F pad W w sr hp lp p k = truncRow F pad W w sr hp lp q k := by
  have hi : ∀ k < F, invAsd F sr hp lp p k = invAsd F sr hp lp q k := by
    intro k hk
    simp only [invAsd, h k hk]
  unfold truncRow
  dsimp only
  have : irfftF ((F - 1) * 2) (fun k => (invAsd F sr hp lp p k : ℂ)) =
      irfftF ((F - 1) * 2) (fun k => (invAsd F sr hp lp q k : ℂ)) := by
    funext t
    exact irfftF_congr _ _ _ (fun k hk => by rw [hi k (by omega)]) t
  rw [this]

/-- The truncated PSD fitted for one channel. -/
theorem fitOne_ok (x p : Tensor ℝ) (sr : ℝ) (hsr : 0 < sr) (F n pad : ℕ) (fd : ℝ) (ff ov hp lp : Option ℝ)
    (hp' : toPsd x sr ff ov = .ok p) (hs : p.shape = [n]) (hn : 0 < n) (hF : 2 ≤ F)
    (hpd : pyInt (fd * sr / 2) = pad) (hpad : 1 ≤ pad) (hpadF : pad ≤ F - 1)
    (hhp : ∀ h, hp = some h → 0 ≤ h) (hlp : ∀ h, lp = some h → 0 ≤ h) :
    ∃ t, fitOne sr F fd ff ov hp lp x = .ok t ∧ t.shape = [F] ∧
      ∀ k, t.get [k] = 1 / ENNReal.ofReal (‖filterResponse F pad (2 * pad) (hann (2 * pad)) sr hp lp
        (resampled n F fun k => p.get [k]) k‖ ^ 2) / 2 := by
  obtain ⟨q, e, hq, g⟩ := normalizePsd_ok x p sr F n ff ov hp' hs hn
  obtain ⟨q3, e3, hq3, g3⟩ := view3 q F hq
  have hpd' : (FDuration.secs fd).pad sr = pad := hpd
  have ht1 : (FDuration.secs fd).taper sr = (2 * pad, hann (2 * pad)) := by
    have : (2 * pyInt (fd * sr / 2)).toNat = 2 * pad := by rw [hpd]; omega
    simp only [FDuration.taper, this]
  unfold fitOne
  simp only [e, res_bind_ok, e3]
  have ht : truncateInverse q3 (.secs fd) sr hp lp =
      .ok (mapRows F (truncRow F pad (2 * pad) (hann (2 * pad)) sr hp lp) q3) := by
    unfold truncateInverse
    rw [hq3]
    dsimp only
    rw [if_neg (by omega), if_neg (by rw [hpd']; omega), ht1, hpd']
    rfl
  rw [ht, res_bind_ok]
  refine ⟨_, rfl, by simp [mapRows, hq3], fun k => ?_⟩
  simp only [mapRows, List.dropLast, List.getLastD, List.getLast, List.cons_append, List.nil_append]
  rw [← truncRow_eq F pad (2 * pad) hF (by omega) _ sr hsr hp lp hhp hlp]
  refine truncRow_congr F pad _ _ sr hp lp _ _ hF (fun j hj => ?_) k
  rw [g3 j hj, g j hj]

theorem bc2 (B C n : ℕ) : Tensor.bcShapeRev [n, C, B] [n, C] = some [n, C, B] := by
  simp [Tensor.bcShapeRev]

/-- **C30 (FixedWhiten).**  After `fit` on one background per channel (with PSD `psd c`, obtained by Welch's method
when `fftlength` is given), calling the transform on a batch of the right length whitens channel `c` with the
truncated filter of the PSD of background `c` resampled to the number of bins of the kernel. -/
theorem fixed_whiten_correct (maxF : ℝ) (rnd : ℝ → ℝ) (fw : FixedWhiten) (bgs : List (Tensor ℝ)) (B N pad : ℕ) (fd : ℝ)
    (ff ov hp lp : Option ℝ) (crop : Bool) (x : Tensor ℝ) (psd : ℕ → Tensor ℝ) (n : ℕ → ℕ)
    (hfw : fw.psd.shape = [fw.numChannels, N / 2 + 1]) (hN : FixedWhiten.size fw.kernelLength fw.sr = N) (hsr : 0 < fw.sr)
    (hlen : bgs.length = fw.numChannels) (hC : 0 < fw.numChannels)
    (hpsd : ∀ c (h : c < bgs.length), toPsd bgs[c] fw.sr ff ov = .ok (psd c) ∧ (psd c).shape = [n c] ∧ 0 < n c)
    (hpd : pyInt (fd * fw.sr / 2) = pad) (hrnd : pyInt (rnd fd * fw.sr / 2) = pad) (hpad : 1 ≤ pad) (hpN : 2 * pad < N)
    (hhp : ∀ h, hp = some h → 0 ≤ h) (hlp : ∀ h, lp = some h → 0 ≤ h) (hx : x.shape = [B, fw.numChannels, N]) :
    ∃ fw' y, FixedWhiten.fit rnd fw fd bgs ff hp lp ov = .ok fw' ∧ FixedWhiten.call maxF fw' x crop = .ok y ∧
      y.shape = [B, fw.numChannels, if crop then N - 2 * pad else N] ∧
      ∀ b c t, b < B → c < fw.numChannels → y.get [b, c, t] =
        whitened N fw.sr (filterResponse (N / 2 + 1) pad (2 * pad) (hann (2 * pad)) fw.sr hp lp
          (resampled (n c) (N / 2 + 1) fun k => (psd c).get [k])) (fun t => x.get [b, c, t]) (if crop then t + pad else t) := by
  have hone : ∀ c (h : c < bgs.length), ∃ t, fitOne fw.sr (N / 2 + 1) fd ff ov hp lp bgs[c] = .ok t ∧
      ∀ k, t.get [k] = 1 / ENNReal.ofReal (‖filterResponse (N / 2 + 1) pad (2 * pad) (hann (2 * pad)) fw.sr hp lp
        (resampled (n c) (N / 2 + 1) fun k => (psd c).get [k]) k‖ ^ 2) / 2 := by
    intro c h
    obtain ⟨h1, h2, h3⟩ := hpsd c h
    obtain ⟨t, e, -, g⟩ := fitOne_ok bgs[c] (psd c) fw.sr hsr (N / 2 + 1) (n c) pad fd ff ov hp lp h1 h2 h3 (by omega) hpd hpad
      (by omega) hhp hlp
    exact ⟨t, e, g⟩
  obtain ⟨ts, hts, hl, hg⟩ : ∃ ts : List (Tensor ENNReal), bgs.mapM (fitOne fw.sr (N / 2 + 1) fd ff ov hp lp) = .ok ts ∧
      ts.length = bgs.length ∧ ∀ c < bgs.length, ∀ k, (ts.getD c ⟨[], fun _ => 0⟩).get [k] = 1 / ENNReal.ofReal
        (‖filterResponse (N / 2 + 1) pad (2 * pad) (hann (2 * pad)) fw.sr hp lp
        (resampled (n c) (N / 2 + 1) fun k => (psd c).get [k]) k‖ ^ 2) / 2 := by
    obtain ⟨ts, e, h2⟩ := mapM_ok_exists (fitOne fw.sr (N / 2 + 1) fd ff ov hp lp)
      (fun x t => fitOne fw.sr (N / 2 + 1) fd ff ov hp lp x = .ok t) bgs (fun x hx => by
        obtain ⟨c, hc, rfl⟩ := List.getElem_of_mem hx
        obtain ⟨t, e, -⟩ := hone c hc
        exact ⟨t, e, e⟩)
    refine ⟨ts, e, h2.length_eq.symm, fun c hc k => ?_⟩
    have hc' : c < ts.length := by rw [← h2.length_eq]; exact hc
    have := List.forall₂_iff_get.1 h2
    have h3 := this.2 c hc hc'
    obtain ⟨t, e1, g⟩ := hone c hc
    simp only [List.get_eq_getElem] at h3
    rw [e1] at h3
    obtain rfl := Except.ok.inj h3
    rw [List.getD_eq_getElem _ _ hc']
    exact g k
  have hne : ts ≠ [] := by
    intro h; rw [h] at hl; simp at hl; omega
  let fw' : FixedWhiten := { fw with
      psd := ⟨[fw.numChannels, N / 2 + 1], fun i => (ts.getD (i.headD 0) ⟨[], fun _ => 0⟩).get i.tail⟩
      fduration := rnd fd
      built := true }
  have hfit : FixedWhiten.fit rnd fw fd bgs ff hp lp ov = .ok fw' := by
    unfold FixedWhiten.fit
    simp only [hlen, ne_eq, not_true_eq_false, if_false, hfw, List.getD_cons_succ, List.getD_cons_zero, hts, res_bind_ok, hne]
    rfl
  have hl : x.lastDim = .ok N := by simp [Tensor.lastDim, hx]
  have hcall : FixedWhiten.call maxF fw' x crop = normalizeByPsd maxF x fw'.psd fw.sr pad crop := by
    unfold FixedWhiten.call
    simp only [fw', Bool.true_eq_false, if_false, hl, res_bind_ok, hN, ne_eq, not_true_eq_false, hrnd]
  obtain ⟨y, hy, hys, hyg⟩ := normalize_correct_gen maxF x fw'.psd B fw.numChannels N fw.sr pad crop
    (fun b c => filterResponse (N / 2 + 1) pad (2 * pad) (hann (2 * pad)) fw.sr hp lp
          (resampled (n c) (N / 2 + 1) fun k => (psd c).get [k])) hx (bc2 _ _ _) hpad hpN (by
      intro b c k hb hc hk
      have : Tensor.bcIdx fw'.psd.shape [b, c, k] = [c, k] := by
        have h1 : Tensor.bcIdx [fw.numChannels, N / 2 + 1] [b, c, k] = Tensor.bcIdx [fw.numChannels, N / 2 + 1] [c, k] := rfl
        have h2 : fw'.psd.shape = [fw.numChannels, N / 2 + 1] := rfl
        rw [h2, h1]
        exact bcIdx_self _ _ ⟨hc, hk, trivial⟩
      rw [this]
      exact hg c (by omega) k)
  exact ⟨fw', y, hfit, by rw [hcall, hy], hys, hyg⟩

/-- **C30.**  `FixedWhiten` fitted on one PSD per channel (with as many bins as the kernel needs) gives the same
output as `Whiten` called with the stacked PSDs, when the filter has an even number `2·pad` of samples and the
rounding of `fduration` to float32 does not change `pad`. -/
theorem whiten_agrees_fixed_partial (maxF : ℝ) (rnd : ℝ → ℝ) (fw : FixedWhiten) (bgs : List (Tensor ℝ)) (B N pad : ℕ) (fd : ℝ)
    (hp lp : Option ℝ) (crop : Bool) (x psd : Tensor ℝ)
    (hfw : fw.psd.shape = [fw.numChannels, N / 2 + 1]) (hN : FixedWhiten.size fw.kernelLength fw.sr = N) (hsr : 0 < fw.sr)
    (hlen : bgs.length = fw.numChannels) (hC : 0 < fw.numChannels)
    (hbs : ∀ b ∈ bgs, b.shape = [N / 2 + 1]) (hps : psd.shape = [fw.numChannels, N / 2 + 1])
    (hpg : ∀ c (h : c < bgs.length) k, psd.get [c, k] = bgs[c].get [k]) (hpos : ∀ i, InB i psd.shape → 0 < psd.get i)
    (hev : pyInt (fd * fw.sr) = 2 * pad) (hpd : pyInt (fd * fw.sr / 2) = pad) (hrnd : pyInt (rnd fd * fw.sr / 2) = pad)
    (hpad : 1 ≤ pad) (hpN : 2 * pad < N)
    (hhp : ∀ h, hp = some h → 0 ≤ h) (hlp : ∀ h, lp = some h → 0 ≤ h) (hx : x.shape = [B, fw.numChannels, N]) :
    ∃ fw' y z, FixedWhiten.fit rnd fw fd bgs none hp lp none = .ok fw' ∧ FixedWhiten.call maxF fw' x crop = .ok y ∧
      whitenModule maxF fd fw.sr hp lp x psd crop = .ok z ∧ y.shape = z.shape ∧
      ∀ b c t, b < B → c < fw.numChannels → y.get [b, c, t] = z.get [b, c, t] := by
  obtain ⟨fw', y, h1, h2, h3, h4⟩ := fixed_whiten_correct maxF rnd fw bgs B N pad fd none none hp lp crop x
    (fun c => bgs.getD c ⟨[], fun _ => 0⟩) (fun _ => N / 2 + 1) hfw hN hsr hlen hC (by
      intro c hc
      refine ⟨?_, ?_, by omega⟩
      · rw [List.getD_eq_getElem _ _ hc]; rfl
      · rw [List.getD_eq_getElem _ _ hc]; exact hbs _ (List.getElem_mem hc)) hpd hrnd hpad hpN hhp hlp hx
  have hsz : (pyInt (fd * fw.sr)).toNat = 2 * pad := by rw [hev]; omega
  obtain ⟨z, g1, g2, g3⟩ := whiten_correct maxF x psd B fw.numChannels N 1 fw.numChannels (N / 2 + 1) pad
    (.window (2 * pad) (hann (2 * pad))) fw.sr hp lp crop hx (.inr (.inl ⟨hps, rfl⟩)) (.inl rfl) (.inr rfl) hsr
    (by simp [FDuration.pad]) hpad hpN hpos hhp hlp
  refine ⟨fw', y, z, h1, h2, ?_, by rw [h3, g2], ?_⟩
  · unfold whitenModule
    simp only [hsz]
    rw [if_neg (by rw [hev]; omega)]
    exact g1
  · intro b c t hb hc
    rw [h4 b c t hb hc, g3 b c t hb hc]
    have : psdAt (N / 2 + 1) (N / 2 + 1) psd b c = resampled (N / 2 + 1) (N / 2 + 1) fun k => (bgs.getD c ⟨[], fun _ => 0⟩).get [k] := by
      funext k
      have hcl : c < bgs.length := by omega
      rw [psdAt, if_pos rfl, psdOf, hps, resampled, if_pos rfl, List.getD_eq_getElem _ _ hcl, ← hpg c hcl k]
      dsimp only
      split_ifs with h
      · rw [show c = 0 by omega]
      · rfl
    rw [this]
    rfl

/-- **C30 (rejections).**  `FixedWhiten` raises ValueError when fitted on the wrong number of backgrounds, called
before being fitted, or called on a batch of another length. -/
theorem fixed_whiten_rejects (maxF : ℝ) (rnd : ℝ → ℝ) (fw : FixedWhiten) (bgs : List (Tensor ℝ)) (fd : ℝ) (ff ov hp lp : Option ℝ)
    (x : Tensor ℝ) (crop : Bool) :
    (bgs.length ≠ fw.numChannels → FixedWhiten.fit rnd fw fd bgs ff hp lp ov = .error .value) ∧
    (fw.built = false → FixedWhiten.call maxF fw x crop = .error .value) ∧
    (∀ (lead : List ℕ) (N : ℕ), x.shape = lead ++ [N] → (N : Int) ≠ FixedWhiten.size fw.kernelLength fw.sr →
      FixedWhiten.call maxF fw x crop = .error .value) := by
  refine ⟨fun h => by unfold FixedWhiten.fit; simp [h], fun h => by unfold FixedWhiten.call; simp [h], ?_⟩
  intro lead N hx hne
  have hl : x.lastDim = .ok N := by simp [Tensor.lastDim, hx]
  unfold FixedWhiten.call
  cases fw.built with
  | false => rfl
  | true => simp [hl, res_bind_ok, hne]

/-- **C30 (finding).**  `FixedWhiten` crops according to the *rounded* `fduration`: for 0.7 s at 20 Hz the filter
has 7 samples on either side, but any rounding of 0.7 downwards (float32 gives 0.69999999) makes the transform crop 6,
leaving a sample corrupted by the filter at either end. -/
theorem fixed_whiten_rounding (r : ℝ) (h1 : 6 / 10 ≤ r) (h2 : r < 7 / 10) :
    (FDuration.secs (7 / 10)).pad 20 = 7 ∧ pyInt (r * 20 / 2) = 6 := by
  constructor
  · simp only [FDuration.pad, pyInt]; norm_num
  · unfold pyInt
    rw [if_pos (by linarith), Int.floor_eq_iff]
    constructor <;> push_cast <;> linarith

/-- **C30 (finding).**  An explicit `overlap=0` is silently replaced by half the FFT length. -/
theorem fixed_whiten_zero_overlap (f : ℝ) : orHalf (some 0) f = f / 2 := by simp [orHalf]

/-- Non-vacuity of `whiten_agrees_fixed_partial`. -/
example : ∃ fw' y, FixedWhiten.fit id (FixedWhiten.init 2 1 16) (1/4) [⟨[9], fun _ => 1⟩, ⟨[9], fun i => 1 + (i.headD 0 : ℝ)⟩]
      none (some 2) none none = .ok fw' ∧
    FixedWhiten.call 0 fw' ⟨[3, 2, 16], fun i => (ravel [3, 2, 16] i : ℝ)⟩ true = .ok y ∧ y.shape = [3, 2, 12] := by
  have hsz : FixedWhiten.size 1 16 = (16 : ℕ) := by norm_num [FixedWhiten.size, pyInt]
  obtain ⟨fw', y, h1, h2, h3, -⟩ := fixed_whiten_correct 0 id (FixedWhiten.init 2 1 16)
    [⟨[9], fun _ => 1⟩, ⟨[9], fun i => 1 + (i.headD 0 : ℝ)⟩] 3 16 2 (1/4) none none (some 2) none true
    ⟨[3, 2, 16], fun i => (ravel [3, 2, 16] i : ℝ)⟩
    (fun c => if c = 0 then ⟨[9], fun _ => 1⟩ else ⟨[9], fun i => 1 + (i.headD 0 : ℝ)⟩) (fun _ => 9)
    (by simp [FixedWhiten.init, hsz]) hsz (by norm_num [FixedWhiten.init]) rfl (by norm_num [FixedWhiten.init])
    (by
      intro c hc
      match c, hc with
      | 0, _ => exact ⟨rfl, rfl, by norm_num⟩
      | 1, _ => exact ⟨rfl, rfl, by norm_num⟩)
    (by norm_num [FixedWhiten.init, pyInt]) (by norm_num [FixedWhiten.init, pyInt]) (by norm_num) (by norm_num)
    (by simp) (by simp) rfl
  exact ⟨fw', y, h1, h2, h3⟩

/-! ## SpectralDensity -/

/-- **C46.**  With a default window or one given as a 1-dimensional tensor of `n` samples, the constructor succeeds
exactly when a given overlap is smaller than the FFT length, the window has `int(fftlength·sr)` samples, and the
average is "mean" or "median"; otherwise it raises ValueError. -/
theorem density_init_iff (sr f : ℝ) (ov : Option ℝ) (average : String) (window : Option (Tensor ℝ)) (fast : Bool)
    (hf : 0 ≤ f * sr) :
    ((∃ d, Density.init sr f ov average window fast = .ok d) ↔
      (∀ o, ov = some o → o < f) ∧ (∀ w, window = some w → ((w.shape.headD 0 : ℕ) : Int) = pyInt (f * sr)) ∧
        (average = "mean" ∨ average = "median")) ∧
    (¬ (∃ d, Density.init sr f ov average window fast = .ok d) → Density.init sr f ov average window fast = .error .value) := by
  have h0 : ¬ pyInt (f * sr) < 0 := by
    unfold pyInt
    rw [if_pos hf]
    have := Int.floor_nonneg.2 hf
    omega
  have hov : overlapTooLong ov f = true ↔ ¬ ∀ o, ov = some o → o < f := by
    cases ov with
    | none => simp [overlapTooLong]
    | some o => simp [overlapTooLong]
  unfold Density.init
  by_cases h1 : overlapTooLong ov f = true
  · rw [if_pos h1]
    refine ⟨⟨fun ⟨d, h⟩ => (by cases h), fun h => absurd h.1 (hov.1 h1)⟩, fun _ => rfl⟩
  · rw [if_neg h1]
    have h1' : ∀ o, ov = some o → o < f := by
      by_contra hc; exact h1 (hov.2 hc)
    obtain ⟨w, hwin, hcond⟩ : ∃ w, windowOrHann window (pyInt (f * sr)) = .ok w ∧
        (((w.shape.headD 0 : ℕ) : Int) = pyInt (f * sr) ↔
          ∀ w, window = some w → ((w.shape.headD 0 : ℕ) : Int) = pyInt (f * sr)) := by
      cases window with
      | none =>
        refine ⟨⟨[(pyInt (f * sr)).toNat], _⟩, by rw [windowOrHann, hannTensor, if_neg h0], ?_⟩
        simp only [List.headD_cons, reduceCtorEq, false_imp_iff, implies_true, iff_true]
        omega
      | some w => exact ⟨w, rfl, by simp⟩
    dsimp only
    rw [hwin]
    simp only [res_bind_ok]
    rw [← hcond]
    by_cases hw : ((w.shape.headD 0 : ℕ) : Int) = pyInt (f * sr)
    · rw [if_neg (by simpa using hw)]
      by_cases ha : average ≠ "mean" ∧ average ≠ "median"
      · rw [if_pos ha]
        refine ⟨⟨fun ⟨d, h⟩ => (by cases h), fun h => ?_⟩, fun _ => rfl⟩
        rcases h.2.2 with h | h
        · exact absurd h ha.1
        · exact absurd h ha.2
      · rw [if_neg ha]
        exact ⟨⟨fun _ => ⟨h1', hw, by tauto⟩, fun _ => ⟨_, rfl⟩⟩, fun h => absurd ⟨_, rfl⟩ h⟩
    · rw [if_pos (by simpa using hw)]
      exact ⟨⟨fun ⟨d, h⟩ => (by cases h), fun h => absurd h.2.1 hw⟩, fun _ => rfl⟩

/-- **C46 (cross densities).**  A second series with `fast=False` raises NotImplementedError. -/
theorem density_cross_slow (d : Density) (x y : Tensor ℝ) (h : d.fast = false) :
    d.forward x (some y) = .error .notImplemented := by
  simp [Density.forward, h]

/-- **C46 (result).**  A successfully constructed `SpectralDensity` with `0 < nperseg ≤ T` and a stride of at least
one sample returns the Welch density with segments of `int(fftlength·sr)` samples overlapping by
`int(overlap·sr)` (half the FFT length by default), scaled by `1/(sr·Σw²)`. -/
theorem density_forward (sr f : ℝ) (ov : Option ℝ) (average : String) (window : Option (Tensor ℝ)) (d : Density)
    (hd : Density.init sr f ov average window false = .ok d) (x : Tensor ℝ) (lead : List ℕ) (T N hop : ℕ)
    (hNe : pyInt (f * sr) = N) (hhop : pyInt (f * sr) - pyInt (ov.getD (f / 2) * sr) = hop)
    (hw1 : ∀ w, window = some w → w.shape = [N]) (hx : x.shape = lead ++ [T]) (hr : lead.length ≤ 2) (hl : ∀ d ∈ lead, 0 < d)
    (hN : 0 < N) (hNT : N ≤ T) (hhop0 : 0 < hop) :
    ∃ y, d.forward x none = .ok y ∧ y.shape = lead ++ [N / 2 + 1] ∧ ∀ i k, InB i lead → k < N / 2 + 1 →
      y.get (i ++ [k]) = (Spec.Welch.psd T N hop (fun t => (window.getD ⟨[N], fun i => hann N (i.headD 0)⟩).get [t])
        (1 / (sr * ∑ t ∈ range N, (window.getD ⟨[N], fun i => hann N (i.headD 0)⟩).get [t] ^ 2)) average
        (fun t => x.get (i ++ [t])) k : ℝ) := by
  obtain ⟨w, hws, hwd, e⟩ : ∃ w : Tensor ℝ, w.shape = [N] ∧ window.getD ⟨[N], fun i => hann N (i.headD 0)⟩ = w ∧
      d = ⟨N, hop, w, densityScale sr w, average, false⟩ := by
    obtain ⟨w, hwin, hws, hwd⟩ : ∃ w : Tensor ℝ, windowOrHann window N = .ok w ∧ w.shape = [N] ∧
        window.getD ⟨[N], fun i => hann N (i.headD 0)⟩ = w := by
      cases window with
      | none => exact ⟨⟨[N], fun i => hann N (i.headD 0)⟩, by rw [windowOrHann, hannTensor, if_neg (by omega)]; rfl, rfl, rfl⟩
      | some w => exact ⟨w, rfl, hw1 w rfl, rfl⟩
    refine ⟨w, hws, hwd, ?_⟩
    unfold Density.init at hd
    by_cases h1 : overlapTooLong ov f = true
    · rw [if_pos h1] at hd; cases hd
    · rw [if_neg h1] at hd
      simp only [hhop] at hd
      simp only [hNe, hwin, res_bind_ok, hws, List.headD_cons, ne_eq, not_true_eq_false, if_false] at hd
      split_ifs at hd
      exact (Except.ok.inj hd).symm
  rw [hwd]
  obtain ⟨y, hy, hys, hyg⟩ := spectral_density_correct x w lead T N hop (densityScale sr w) average hx hr hl hN hNT hhop0 hws
  have hsc : densityScale sr w = 1 / (sr * ∑ t ∈ range N, w.get [t] ^ 2) := by simp [densityScale, hws]
  refine ⟨y.map (fun (v : ℝ) => (v : ℂ)), ?_, hys, fun i k hi hk => ?_⟩
  · rw [e]
    simp [Density.forward, hy, res_bind_ok]
  · rw [← hsc, ← hyg i k hi hk]; rfl

/-- Non-vacuity: one second of 16 Hz data, default overlap and window. -/
example : ∃ d, Density.init 16 1 none "median" none false = .ok d :=
  (density_init_iff 16 1 none "median" none false (by norm_num)).1.2 ⟨by simp, by simp, .inr rfl⟩
example : Density.init 16 1 (some 1) "median" none false = .error .value :=
  (density_init_iff 16 1 (some 1) "median" none false (by norm_num)).2 (by
    rw [(density_init_iff 16 1 (some 1) "median" none false (by norm_num)).1]
    rintro ⟨h, -⟩
    exact absurd (h 1 rfl) (by norm_num))

/-- Fitting on time-domain data: `toPsd` is the Welch estimate with a Hann window and the median average, so
`fixed_whiten_correct` applies with that PSD. -/
theorem toPsd_welch (x : Tensor ℝ) (sr f : ℝ) (ov : Option ℝ) (T N hop : ℕ) (hx : x.shape = [T])
    (hNe : pyInt (f * sr) = N) (hhop : pyInt (f * sr) - pyInt (orHalf ov f * sr) = hop)
    (hN : 0 < N) (hNT : N ≤ T) (hhop0 : 0 < hop) :
    ∃ p, toPsd x sr (some f) ov = .ok p ∧ p.shape = [N / 2 + 1] ∧ ∀ k < N / 2 + 1,
      p.get [k] = Spec.Welch.psd T N hop (hann N) (1 / (sr * ∑ t ∈ range N, hann N t ^ 2)) "median" (fun t => x.get [t]) k := by
  have hh : hannTensor (N : Int) = .ok ⟨[N], fun i => hann N (i.headD 0)⟩ := by
    unfold hannTensor; rw [if_neg (by omega)]; rfl
  obtain ⟨y, hy, hys, hyg⟩ := spectral_density_correct x ⟨[N], fun i => hann N (i.headD 0)⟩ [] T N hop
    (densityScale sr ⟨[N], fun i => hann N (i.headD 0)⟩) "median" hx (by simp) (by simp) hN hNT hhop0 rfl
  refine ⟨y, ?_, hys, fun k hk => ?_⟩
  · unfold toPsd
    simp only [hhop]
    simp only [hNe, hh, res_bind_ok]
    exact hy
  · have := hyg [] k trivial hk
    simpa [densityScale] using this

end Verif.Whiten
