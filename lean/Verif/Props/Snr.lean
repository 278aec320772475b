import Verif.Model.Snr
import Verif.Spec.Snr
import Verif.Props.Whiten
import Verif.Lemmas.TensorMore
import Mathlib.Algebra.BigOperators.Field
/-!
# Properties of the SNR functions (C34, C35)
-/
set_option linter.unusedSimpArgs false
set_option linter.unusedVariables false
namespace Verif.Snr
open Finset Verif.Fourier Verif.Whiten Verif.Spec.Snr

/-- Element-wise operation of a `(B, C, n)` tensor with one whose first two dimensions may be 1. -/
theorem zipB_bc3 {α β γ : Type _} (f : α → β → γ) (x : Tensor α) (p : Tensor β) (B C n pb pc : ℕ)
    (hx : x.shape = [B, C, n]) (hp : p.shape = [pb, pc, n]) (hpb : pb = 1 ∨ pb = B) (hpc : pc = 1 ∨ pc = C) :
    ∃ y, Tensor.zipB f x p = .ok y ∧ y.shape = [B, C, n] ∧ ∀ b c k, b < B → c < C → k < n →
      y.get [b, c, k] = f (x.get [b, c, k]) (p.get [if pb = 1 then 0 else b, if pc = 1 then 0 else c, k]) := by
  unfold Tensor.zipB
  rw [hx, hp]
  simp only [List.reverse_cons, List.reverse_nil, List.nil_append, List.cons_append]
  rw [bc3 B C n pb pc hpb hpc]
  refine ⟨_, rfl, rfl, ?_⟩
  intro b c k hb hc hk
  dsimp only
  rw [Spectral.bcIdx_self [B, C, n] [b, c, k] ⟨hb, hc, hk, trivial⟩]
  congr 2
  simp only [Tensor.bcIdx, List.length_cons, List.length_nil, Nat.sub_self, List.drop_zero,
    List.zipWith_cons_cons, List.zipWith_nil_right]
  congr 3
  split_ifs with h
  · omega
  · rfl

/-- The weights a cut applies: the mask given, or the bins kept by the critical frequency. -/
noncomputable def hpWeight (N : ℕ) (sr : ℝ) : Cut → ℕ → ℝ
  | .none, _ => 1
  | .freq f, k => above N sr f k
  | .mask m, k => m.get [k]

/-- The same for the low pass. -/
noncomputable def lpWeight (N : ℕ) (sr : ℝ) : Cut → ℕ → ℝ
  | .none, _ => 1
  | .freq f, k => below N sr f k
  | .mask m, k => m.get [k]

/-- A mask has one entry per frequency bin. -/
def Cut.Fits (N : ℕ) : Cut → Prop
  | .mask m => m.shape = [N / 2 + 1]
  | _ => True

theorem rfftfreq_eq (N : ℕ) (sr : ℝ) (k : ℕ) : rfftfreq N sr k = freq N sr k := by
  unfold rfftfreq freq
  rw [mul_one_div, div_div_eq_mul_div]

theorem applyCut_ok (N : ℕ) (sr : ℝ) (keep : ℝ → ℝ → Prop) (cut : Cut) (hf : cut.Fits N) (x : Tensor ℝ) (B C : ℕ)
    (hx : x.shape = [B, C, N / 2 + 1]) (w : ℕ → ℝ)
    (hw : ∀ k, w k = match cut with
      | .none => 1
      | .freq f => boolMask (keep f (rfftfreq N sr k))
      | .mask m => m.get [k]) :
    ∃ y, applyCut N sr keep cut x = .ok y ∧ y.shape = [B, C, N / 2 + 1] ∧ ∀ b c k, b < B → c < C → k < N / 2 + 1 →
      y.get [b, c, k] = x.get [b, c, k] * w k := by
  cases cut with
  | none => exact ⟨x, rfl, hx, fun b c k _ _ _ => by rw [hw, mul_one]⟩
  | freq f => exact ⟨_, rfl, hx, fun b c k _ _ _ => by rw [hw]; rfl⟩
  | mask m =>
    have hm : m.shape = [N / 2 + 1] := hf
    obtain ⟨y, h1, h2, h3⟩ := zipB_suffix (fun a b : ℝ => a * b) x m [B, C] [N / 2 + 1] hx hm
    have h4 : m.len = .ok (N / 2 + 1) := by simp [Tensor.len, hm]
    have h5 : x.lastDim = .ok (N / 2 + 1) := Slicing.lastDim_append x [B, C] _ hx
    refine ⟨y, ?_, h2, ?_⟩
    · unfold applyCut
      simp only [h4, h5, res_bind_ok, ne_eq, not_true_eq_false, if_false, h1]
    · intro b c k hb hc hk
      have := h3 [b, c] [k] ⟨hb, hc, trivial⟩ ⟨hk, trivial⟩
      simp only [List.cons_append, List.nil_append] at this
      rw [this, hw]

theorem matchBins_ok (psd : Tensor ℝ) (B C N pb pc F : ℕ)
    (hs : psd.shape = [F] ∧ pb = 1 ∧ pc = 1 ∨ psd.shape = [pc, F] ∧ pb = 1 ∨ psd.shape = [pb, pc, F]) :
    ∃ p, matchBins N (to3d psd) = .ok p ∧ p.shape = [pb, pc, N] ∧ ∀ b c k,
      p.get [if pb = 1 then 0 else b, if pc = 1 then 0 else c, k] = psdAt F N psd b c k := by
  have h3s : (to3d psd).shape = [pb, pc, F] := by
    rcases hs with ⟨h, rfl, rfl⟩ | ⟨h, rfl⟩ | h <;> simp [to3d, h]
  have h3g : ∀ b c k, (to3d psd).get [if pb = 1 then 0 else b, if pc = 1 then 0 else c, k] = psdOf psd b c k := by
    intro b c k
    rcases hs with ⟨h, rfl, rfl⟩ | ⟨h, rfl⟩ | h <;> simp [to3d, psdOf, h]
  have hl : (to3d psd).lastDim = .ok F := Slicing.lastDim_append _ [pb, pc] F h3s
  unfold matchBins
  simp only [hl, res_bind_ok]
  by_cases hF : F = N
  · rw [if_neg (by simpa using hF)]
    refine ⟨_, rfl, by rw [h3s, hF], fun b c k => ?_⟩
    rw [h3g]; simp [psdAt, hF]
  · rw [if_pos hF]
    refine ⟨_, rfl, by simp [mapRows, h3s], fun b c k => ?_⟩
    simp only [mapRows, List.dropLast, List.getLastD_cons, List.getLastD_nil,
      List.cons_append, List.nil_append, h3g, psdAt, if_neg hF, List.getLastD, List.getLast]

/-- **C34 (value).**  For responses `(B, C, N)` and a PSD of one, two or three dimensions (broadcast, and
interpolated when its number of bins differs) the SNR of response `(b, c)` is the square root of
`4 Σ w_k |h̃_k|²/S_k df`, the weights being those of the two cuts: bins `≥ highpass` and `< lowpass`. -/
theorem ifo_snr_correct (x psd : Tensor ℝ) (B C N pb pc F : ℕ) (sr : ℝ) (hp lp : Cut)
    (hx : x.shape = [B, C, N]) (hN : 0 < N)
    (hs : psd.shape = [F] ∧ pb = 1 ∧ pc = 1 ∨ psd.shape = [pc, F] ∧ pb = 1 ∨ psd.shape = [pb, pc, F])
    (hpb : pb = 1 ∨ pb = B) (hpc : pc = 1 ∨ pc = C) (hhp : hp.Fits N) (hlp : lp.Fits N)
    (hpos : ∀ b c k, 0 ≤ psdAt F (N / 2 + 1) psd b c k) :
    ∃ y, ifoSnr x psd sr hp lp = .ok y ∧ y.shape = [B, C] ∧ ∀ b c, b < B → c < C →
      y.get [b, c] = Real.sqrt (snrSq N sr (psdAt F (N / 2 + 1) psd b c)
        (fun k => hpWeight N sr hp k * lpWeight N sr lp k) (fun t => x.get [b, c, t])) := by
  obtain ⟨p, hp1, hp2, hp3⟩ := matchBins_ok psd B C (N / 2 + 1) pb pc F hs
  have hfs : (mapRows (N / 2 + 1) (fun s k => ‖rfft N s k‖ / sr) x).shape = [B, C, N / 2 + 1] := by
    simp [mapRows, hx]
  obtain ⟨z, hz1, hz2, hz3⟩ := zipB_bc3 (fun a p : ℝ => (a / Real.sqrt p) ^ 2) _ p B C (N / 2 + 1) pb pc hfs hp2 hpb hpc
  obtain ⟨u, hu1, hu2, hu3⟩ := applyCut_ok N sr (fun f x => x ≥ f) hp hhp z B C hz2 (hpWeight N sr hp) (by
    intro k
    cases hp with
    | none => rfl
    | freq f => simp only [hpWeight, above, boolMask, rfftfreq_eq, ge_iff_le]
    | mask m => rfl)
  obtain ⟨v, hv1, hv2, hv3⟩ := applyCut_ok N sr (fun f x => x < f) lp hlp u B C hu2 (lpWeight N sr lp) (by
    intro k
    cases lp with
    | none => rfl
    | freq f => simp only [lpWeight, below, boolMask, rfftfreq_eq]
    | mask m => rfl)
  refine ⟨⟨[B, C], fun i => Real.sqrt (4 * (v.sumLast.get i * (sr / N)))⟩, ?_, rfl, ?_⟩
  · unfold ifoSnr
    rw [hx]
    dsimp only
    rw [if_neg (by omega)]
    simp only [hp1, res_bind_ok, hz1, hu1, hv1]
    simp [Tensor.map, Tensor.sumLast, hv2]
  · intro b c hb hc
    dsimp only
    congr 1
    unfold snrSq
    congr 1
    simp only [Tensor.sumLast, hv2]
    rw [show ([B, C, N / 2 + 1] : List ℕ).getLastD 0 = N / 2 + 1 by rfl, Finset.sum_mul]
    refine Finset.sum_congr rfl fun k hk => ?_
    have hk' : k < N / 2 + 1 := by simpa using hk
    simp only [List.cons_append, List.nil_append]
    rw [hv3 b c k hb hc hk', hu3 b c k hb hc hk', hz3 b c k hb hc hk', hp3]
    simp only [mapRows, List.dropLast, List.cons_append, List.nil_append,
      List.getLastD, List.getLast]
    rw [div_pow, Real.sq_sqrt (hpos b c k)]
    have hn : ‖rfft N (fun t => x.get [b, c, t]) k‖ ^ 2 / sr ^ 2 = ‖rfft N (fun t => x.get [b, c, t]) k / (sr : ℂ)‖ ^ 2 := by
      rw [norm_div, div_pow, Complex.norm_real, Real.norm_eq_abs, sq_abs]
    rw [div_pow, hn]
    ring

theorem snrSq_nonneg (N : ℕ) (sr : ℝ) (hsr : 0 ≤ sr) (S w h : ℕ → ℝ) (hS : ∀ k, 0 ≤ S k) (hw : ∀ k, 0 ≤ w k) :
    0 ≤ snrSq N sr S w h := by
  unfold snrSq
  apply mul_nonneg (by norm_num)
  apply Finset.sum_nonneg
  intro k _
  have h1 := hS k
  have h2 := hw k
  positivity

/-- Non-vacuity: a unit impulse in flat unit noise at unit rate has SNR² 4·(N/2+1)/N. -/
example : ∃ y, ifoSnr (⟨[1, 1, 4], fun i => if i.getD 2 0 = 0 then 1 else 0⟩ : Tensor ℝ) ⟨[3], fun _ => 1⟩ 1 .none .none = .ok y ∧
    y.get [0, 0] = Real.sqrt 3 := by
  obtain ⟨y, h1, -, h3⟩ := ifo_snr_correct (⟨[1, 1, 4], fun i => if i.getD 2 0 = 0 then 1 else 0⟩ : Tensor ℝ)
    ⟨[3], fun _ => 1⟩ 1 1 4 1 1 3 1 .none .none rfl (by norm_num) (Or.inl ⟨rfl, rfl, rfl⟩) (Or.inl rfl) (Or.inl rfl)
    trivial trivial (by intro b c k; simp [psdAt, psdOf])
  refine ⟨y, h1, ?_⟩
  rw [h3 0 0 (by norm_num) (by norm_num)]
  congr 1
  have : ∀ k, rfft 4 (fun t => (if t = 0 then 1 else 0 : ℝ)) k = 1 := by
    intro k
    simp [rfft, dft, Finset.sum_range_succ, ω]
  simp [snrSq, hpWeight, lpWeight, psdAt, psdOf, this]
  norm_num

/-- **C34 (homogeneity).**  Scaling the series by `a` scales the squared SNR by `a²`. -/
theorem snrSq_smul (N : ℕ) (sr a : ℝ) (S w h : ℕ → ℝ) : snrSq N sr S w (fun t => a * h t) = a ^ 2 * snrSq N sr S w h := by
  unfold snrSq
  rw [mul_left_comm (a ^ 2) 4, Finset.mul_sum (range (N / 2 + 1)) _ (a ^ 2)]
  congr 1
  refine Finset.sum_congr rfl fun k _ => ?_
  rw [rfft_mul_left, mul_div_assoc, norm_mul, mul_pow, Complex.norm_real, Real.norm_eq_abs, sq_abs]
  ring

/-- **C34 (homogeneity, on the API).**  Multiplying the responses of event `b` by `a b` multiplies its SNRs
by `|a b|`. -/
theorem ifo_snr_smul (x x' psd y y' : Tensor ℝ) (B C N pb pc F : ℕ) (sr : ℝ) (hp lp : Cut)
    (hx : x.shape = [B, C, N]) (hx' : x'.shape = [B, C, N]) (hN : 0 < N)
    (hs : psd.shape = [F] ∧ pb = 1 ∧ pc = 1 ∨ psd.shape = [pc, F] ∧ pb = 1 ∨ psd.shape = [pb, pc, F])
    (hpb : pb = 1 ∨ pb = B) (hpc : pc = 1 ∨ pc = C) (hhp : hp.Fits N) (hlp : lp.Fits N)
    (hpos : ∀ b c k, 0 ≤ psdAt F (N / 2 + 1) psd b c k) (a : ℕ → ℝ)
    (ha : ∀ b c t, b < B → c < C → t < N → x'.get [b, c, t] = a b * x.get [b, c, t])
    (hy : ifoSnr x psd sr hp lp = .ok y) (hy' : ifoSnr x' psd sr hp lp = .ok y') (b c : ℕ) (hb : b < B) (hc : c < C) :
    y'.get [b, c] = |a b| * y.get [b, c] := by
  obtain ⟨z, h1, -, h3⟩ := ifo_snr_correct x psd B C N pb pc F sr hp lp hx hN hs hpb hpc hhp hlp hpos
  obtain ⟨z', h1', -, h3'⟩ := ifo_snr_correct x' psd B C N pb pc F sr hp lp hx' hN hs hpb hpc hhp hlp hpos
  rw [hy] at h1; cases h1
  rw [hy'] at h1'; cases h1'
  rw [h3 b c hb hc, h3' b c hb hc, ← Real.sqrt_sq_eq_abs, ← Real.sqrt_mul (sq_nonneg _), ← snrSq_smul]
  congr 1
  unfold snrSq
  congr 1
  refine Finset.sum_congr rfl fun k _ => ?_
  rw [rfft_congr N _ (fun t => a b * x.get [b, c, t]) (fun t ht => ha b c t hb hc ht)]

theorem snrSq_congr (N : ℕ) (sr : ℝ) (S w h g : ℕ → ℝ) (e : ∀ t < N, h t = g t) : snrSq N sr S w h = snrSq N sr S w g := by
  unfold snrSq
  congr 1
  exact Finset.sum_congr rfl fun k _ => by rw [rfft_congr N _ _ e]

/-- **C34 (cuts partition the spectrum).**  The squared SNR is the sum of the part kept by a low pass and the
part kept by a high pass at the same frequency. -/
theorem snr_cut_partition (x psd y yl yh : Tensor ℝ) (B C N pb pc F : ℕ) (sr f : ℝ) (hsr : 0 < sr)
    (hx : x.shape = [B, C, N]) (hN : 0 < N)
    (hs : psd.shape = [F] ∧ pb = 1 ∧ pc = 1 ∨ psd.shape = [pc, F] ∧ pb = 1 ∨ psd.shape = [pb, pc, F])
    (hpb : pb = 1 ∨ pb = B) (hpc : pc = 1 ∨ pc = C)
    (hpos : ∀ b c k, 0 ≤ psdAt F (N / 2 + 1) psd b c k)
    (hy : ifoSnr x psd sr .none .none = .ok y) (hyh : ifoSnr x psd sr (.freq f) .none = .ok yh)
    (hyl : ifoSnr x psd sr .none (.freq f) = .ok yl) (b c : ℕ) (hb : b < B) (hc : c < C) :
    y.get [b, c] ^ 2 = yl.get [b, c] ^ 2 + yh.get [b, c] ^ 2 := by
  obtain ⟨z, h1, -, h3⟩ := ifo_snr_correct x psd B C N pb pc F sr .none .none hx hN hs hpb hpc trivial trivial hpos
  obtain ⟨zh, h1', -, h3'⟩ := ifo_snr_correct x psd B C N pb pc F sr (.freq f) .none hx hN hs hpb hpc trivial trivial hpos
  obtain ⟨zl, h1'', -, h3''⟩ := ifo_snr_correct x psd B C N pb pc F sr .none (.freq f) hx hN hs hpb hpc trivial trivial hpos
  rw [hy] at h1; cases h1
  rw [hyh] at h1'; cases h1'
  rw [hyl] at h1''; cases h1''
  rw [h3 b c hb hc, h3' b c hb hc, h3'' b c hb hc]
  have hw0 : ∀ k, 0 ≤ above N sr f k := fun k => by unfold above; split_ifs <;> norm_num
  have hw1 : ∀ k, 0 ≤ below N sr f k := fun k => by unfold below; split_ifs <;> norm_num
  rw [Real.sq_sqrt (snrSq_nonneg N sr hsr.le _ _ _ (hpos b c) (fun k => by simp [hpWeight, lpWeight])),
    Real.sq_sqrt (snrSq_nonneg N sr hsr.le _ _ _ (hpos b c) (fun k => by simp [hpWeight, lpWeight, hw1])),
    Real.sq_sqrt (snrSq_nonneg N sr hsr.le _ _ _ (hpos b c) (fun k => by simp [hpWeight, lpWeight, hw0]))]
  unfold snrSq
  rw [← mul_add, ← Finset.sum_add_distrib]
  congr 1
  refine Finset.sum_congr rfl fun k _ => ?_
  have : (1 : ℝ) = below N sr f k + above N sr f k := by
    unfold below above
    by_cases h : f ≤ freq N sr k
    · rw [if_pos h, if_neg (not_lt.2 h)]; norm_num
    · rw [if_neg h, if_pos (not_le.1 h)]; norm_num
  simp only [hpWeight, lpWeight, one_mul, mul_one]
  rw [← add_mul, ← add_mul, ← this, one_mul]

/-- **C34 (mask length).**  A high pass mask whose length is not the number of frequency bins raises ValueError. -/
theorem ifo_snr_mask_error (x psd m : Tensor ℝ) (B C N pb pc F l : ℕ) (sr : ℝ) (lp : Cut) (rest : List ℕ)
    (hx : x.shape = [B, C, N]) (hN : 0 < N)
    (hs : psd.shape = [F] ∧ pb = 1 ∧ pc = 1 ∨ psd.shape = [pc, F] ∧ pb = 1 ∨ psd.shape = [pb, pc, F])
    (hpb : pb = 1 ∨ pb = B) (hpc : pc = 1 ∨ pc = C) (hm : m.shape = l :: rest) (hl : l ≠ N / 2 + 1) :
    ifoSnr x psd sr (.mask m) lp = .error .value := by
  obtain ⟨p, hp1, hp2, hp3⟩ := matchBins_ok psd B C (N / 2 + 1) pb pc F hs
  have hfs : (mapRows (N / 2 + 1) (fun s k => ‖rfft N s k‖ / sr) x).shape = [B, C, N / 2 + 1] := by
    simp [mapRows, hx]
  obtain ⟨z, hz1, hz2, hz3⟩ := zipB_bc3 (fun a p : ℝ => (a / Real.sqrt p) ^ 2) _ p B C (N / 2 + 1) pb pc hfs hp2 hpb hpc
  have h4 : m.len = .ok l := by simp [Tensor.len, hm]
  have h5 : z.lastDim = .ok (N / 2 + 1) := Slicing.lastDim_append z [B, C] _ hz2
  unfold ifoSnr
  rw [hx]
  dsimp only
  rw [if_neg (by omega)]
  simp only [hp1, res_bind_ok, hz1, applyCut, h4, h5, ne_eq, hl, not_false_eq_true, if_true, res_bind_error]

/-- The same for the low pass mask. -/
theorem ifo_snr_lowpass_mask_error (x psd m : Tensor ℝ) (B C N pb pc F l : ℕ) (sr : ℝ) (hp : Cut) (rest : List ℕ)
    (hx : x.shape = [B, C, N]) (hN : 0 < N)
    (hs : psd.shape = [F] ∧ pb = 1 ∧ pc = 1 ∨ psd.shape = [pc, F] ∧ pb = 1 ∨ psd.shape = [pb, pc, F])
    (hpb : pb = 1 ∨ pb = B) (hpc : pc = 1 ∨ pc = C) (hhp : hp.Fits N) (hm : m.shape = l :: rest) (hl : l ≠ N / 2 + 1) :
    ifoSnr x psd sr hp (.mask m) = .error .value := by
  obtain ⟨p, hp1, hp2, hp3⟩ := matchBins_ok psd B C (N / 2 + 1) pb pc F hs
  have hfs : (mapRows (N / 2 + 1) (fun s k => ‖rfft N s k‖ / sr) x).shape = [B, C, N / 2 + 1] := by
    simp [mapRows, hx]
  obtain ⟨z, hz1, hz2, hz3⟩ := zipB_bc3 (fun a p : ℝ => (a / Real.sqrt p) ^ 2) _ p B C (N / 2 + 1) pb pc hfs hp2 hpb hpc
  obtain ⟨u, hu1, hu2, hu3⟩ := applyCut_ok N sr (fun f x => x ≥ f) hp hhp z B C hz2 _ (fun k => rfl)
  have h4 : m.len = .ok l := by simp [Tensor.len, hm]
  have h5 : u.lastDim = .ok (N / 2 + 1) := Slicing.lastDim_append u [B, C] _ hu2
  unfold ifoSnr
  rw [hx]
  dsimp only
  rw [if_neg (by omega)]
  simp only [hp1, res_bind_ok, hz1, hu1]
  simp only [applyCut, h4, h5, res_bind_ok, ne_eq, hl, not_false_eq_true, if_true, res_bind_error]

example : ifoSnr (⟨[1, 2, 8], fun _ => 1⟩ : Tensor ℝ) ⟨[5], fun _ => 1⟩ 1 (.mask ⟨[4], fun _ => 1⟩) .none = .error .value :=
  ifo_snr_mask_error _ _ _ 1 2 8 1 1 5 4 1 .none [] rfl (by norm_num) (Or.inl ⟨rfl, rfl, rfl⟩) (Or.inl rfl) (Or.inl rfl)
    rfl (by norm_num)

example : ifoSnr (⟨[1, 2, 8], fun _ => 1⟩ : Tensor ℝ) ⟨[5], fun _ => 1⟩ 1 (.freq 1) (.mask ⟨[4], fun _ => 1⟩) = .error .value :=
  ifo_snr_lowpass_mask_error _ _ _ 1 2 8 1 1 5 4 1 (.freq 1) [] rfl (by norm_num) (Or.inl ⟨rfl, rfl, rfl⟩) (Or.inl rfl) (Or.inl rfl)
    trivial rfl (by norm_num)

/-- **C34 (network).**  The network SNR of an event is the root of the sum of the squared SNRs of its
interferometers. -/
theorem network_snr_correct (x psd : Tensor ℝ) (B C : ℕ) (sr : ℝ) (hp lp : Cut) (s : Tensor ℝ)
    (hs : ifoSnr x psd sr hp lp = .ok s) (hsh : s.shape = [B, C]) :
    ∃ y, networkSnr x psd sr hp lp = .ok y ∧ y.shape = [B] ∧ ∀ b,
      y.get [b] = Real.sqrt (∑ c ∈ range C, s.get [b, c] ^ 2) := by
  unfold networkSnr
  simp only [hs, res_bind_ok]
  refine ⟨_, rfl, by simp [Tensor.map, Tensor.sumLast, hsh], ?_⟩
  intro b
  simp [Tensor.map, Tensor.sumLast, hsh]

/-- The network SNR (squared) as the sum over interferometers. -/
noncomputable def netSq (x psd : Tensor ℝ) (C N F : ℕ) (sr : ℝ) (hp lp : Cut) (b : ℕ) : ℝ :=
  ∑ c ∈ range C, snrSq N sr (psdAt F (N / 2 + 1) psd b c)
    (fun k => hpWeight N sr hp k * lpWeight N sr lp k) (fun t => x.get [b, c, t])

/-- Weights are non-negative (true for every boolean mask). -/
def Cut.Nonneg (N : ℕ) : Cut → Prop
  | .mask m => ∀ k, 0 ≤ m.get [k]
  | _ => True

theorem hpWeight_nonneg (N : ℕ) (sr : ℝ) (c : Cut) (h : c.Nonneg N) (k : ℕ) : 0 ≤ hpWeight N sr c k := by
  cases c with
  | none => simp [hpWeight]
  | freq f => simp only [hpWeight, above]; split_ifs <;> norm_num
  | mask m => exact h k

theorem lpWeight_nonneg (N : ℕ) (sr : ℝ) (c : Cut) (h : c.Nonneg N) (k : ℕ) : 0 ≤ lpWeight N sr c k := by
  cases c with
  | none => simp [lpWeight]
  | freq f => simp only [lpWeight, below]; split_ifs <;> norm_num
  | mask m => exact h k

theorem network_snr_value (x psd : Tensor ℝ) (B C N pb pc F : ℕ) (sr : ℝ) (hsr : 0 < sr) (hp lp : Cut)
    (hx : x.shape = [B, C, N]) (hN : 0 < N)
    (hs : psd.shape = [F] ∧ pb = 1 ∧ pc = 1 ∨ psd.shape = [pc, F] ∧ pb = 1 ∨ psd.shape = [pb, pc, F])
    (hpb : pb = 1 ∨ pb = B) (hpc : pc = 1 ∨ pc = C) (hhp : hp.Fits N) (hlp : lp.Fits N)
    (hhn : hp.Nonneg N) (hln : lp.Nonneg N)
    (hpos : ∀ b c k, 0 ≤ psdAt F (N / 2 + 1) psd b c k) :
    ∃ y, networkSnr x psd sr hp lp = .ok y ∧ y.shape = [B] ∧ ∀ b, b < B →
      y.get [b] = Real.sqrt (netSq x psd C N F sr hp lp b) := by
  obtain ⟨s, h1, h2, h3⟩ := ifo_snr_correct x psd B C N pb pc F sr hp lp hx hN hs hpb hpc hhp hlp hpos
  obtain ⟨y, hy1, hy2, hy3⟩ := network_snr_correct x psd B C sr hp lp s h1 h2
  refine ⟨y, hy1, hy2, ?_⟩
  intro b hb
  rw [hy3 b]
  congr 1
  refine Finset.sum_congr rfl fun c hc => ?_
  rw [h3 b c hb (by simpa using hc), Real.sq_sqrt]
  exact snrSq_nonneg N sr hsr.le _ _ _ (hpos b c)
    (fun k => mul_nonneg (hpWeight_nonneg N sr hp hhn k) (lpWeight_nonneg N sr lp hln k))

theorem rescale_ok (x t s : Tensor ℝ) (B C N : ℕ) (hx : x.shape = [B, C, N]) (hs : s.shape = [B])
    (ht : t.shape = [B] ∨ t.shape = []) :
    ∃ z, rescale x t s = .ok z ∧ z.shape = [B, C, N] ∧ ∀ b c k, b < B → c < C → k < N →
      z.get [b, c, k] = t.get (if t.shape = [] then [] else [b]) / s.get [b] * x.get [b, c, k] := by
  obtain ⟨w, hw1, hw2, hw3⟩ : ∃ w, Tensor.zipB (· / ·) t s = .ok w ∧ w.shape = [B] ∧ ∀ b, b < B →
      w.get [b] = t.get (if t.shape = [] then [] else [b]) / s.get [b] := by
    rcases ht with h | h
    · obtain ⟨w, h1, h2, h3⟩ := Spectral.zipB_same (fun a b : ℝ => a / b) t s (by rw [h, hs])
      refine ⟨w, h1, by rw [h2, h], fun b hb => ?_⟩
      rw [h3 [b] (by rw [h]; exact ⟨hb, trivial⟩), if_neg (by simp [h])]
    · unfold Tensor.zipB
      rw [h, hs]
      refine ⟨_, rfl, rfl, fun b hb => ?_⟩
      dsimp only
      rw [Spectral.bcIdx_self [B] [b] ⟨hb, trivial⟩]
      simp [Tensor.bcIdx]
  unfold rescale
  simp only [hw1, res_bind_ok]
  have hbc : Tensor.bcShapeRev [N, C, B] [1, 1, B] = some [N, C, B] := by
    by_cases h1 : N = 1 <;> by_cases h2 : C = 1 <;> simp [Tensor.bcShapeRev, h1, h2]
  unfold Tensor.zipB
  rw [hx]
  simp only [addDims2, hw2, List.cons_append, List.nil_append, List.reverse_cons, List.reverse_nil, hbc]
  refine ⟨_, rfl, rfl, ?_⟩
  intro b c k hb hc hk
  dsimp only
  rw [Spectral.bcIdx_self [B, C, N] [b, c, k] ⟨hb, hc, hk, trivial⟩]
  have e : List.take ([B] : List ℕ).length (Tensor.bcIdx [B, 1, 1] [b, c, k]) = [b] := by
    simp [Tensor.bcIdx]
    omega
  rw [e, hw3 b hb, mul_comm]

theorem netSq_scale (x z psd : Tensor ℝ) (C N F : ℕ) (sr : ℝ) (hp lp : Cut) (b : ℕ) (a : ℝ)
    (h : ∀ c t, c < C → t < N → z.get [b, c, t] = a * x.get [b, c, t]) :
    netSq z psd C N F sr hp lp b = a ^ 2 * netSq x psd C N F sr hp lp b := by
  unfold netSq
  rw [Finset.mul_sum]
  refine Finset.sum_congr rfl fun c hc => ?_
  rw [← snrSq_smul]
  exact snrSq_congr N sr _ _ _ _ (fun t ht => h c t (by simpa using hc) ht)

/-- The common core of `reweight_snrs` and `SnrRescaler`. -/
theorem rescale_reaches (x psd t s : Tensor ℝ) (B C N pb pc F : ℕ) (sr : ℝ) (hsr : 0 < sr) (hp lp : Cut)
    (hx : x.shape = [B, C, N]) (hN : 0 < N)
    (hs : psd.shape = [F] ∧ pb = 1 ∧ pc = 1 ∨ psd.shape = [pc, F] ∧ pb = 1 ∨ psd.shape = [pb, pc, F])
    (hpb : pb = 1 ∨ pb = B) (hpc : pc = 1 ∨ pc = C) (hhp : hp.Fits N) (hlp : lp.Fits N)
    (hhn : hp.Nonneg N) (hln : lp.Nonneg N)
    (hpos : ∀ b c k, 0 ≤ psdAt F (N / 2 + 1) psd b c k)
    (hn : networkSnr x psd sr hp lp = .ok s) (ht : t.shape = [B] ∨ t.shape = []) :
    ∃ z zs, rescale x t s = .ok z ∧ z.shape = [B, C, N] ∧ networkSnr z psd sr hp lp = .ok zs ∧
      (∀ b, b < B → s.get [b] ≠ 0 → zs.get [b] = |t.get (if t.shape = [] then [] else [b])|) ∧
      (∀ b, b < B → ∃ a : ℝ, ∀ c k, c < C → k < N → z.get [b, c, k] = a * x.get [b, c, k]) := by
  obtain ⟨s', hs1, hs2, hs3⟩ := network_snr_value x psd B C N pb pc F sr hsr hp lp hx hN hs hpb hpc hhp hlp hhn hln hpos
  rw [hn] at hs1; cases hs1
  obtain ⟨z, hz1, hz2, hz3⟩ := rescale_ok x t s B C N hx hs2 ht
  obtain ⟨zs, hzs1, hzs2, hzs3⟩ := network_snr_value z psd B C N pb pc F sr hsr hp lp hz2 hN hs hpb hpc hhp hlp hhn hln hpos
  refine ⟨z, zs, hz1, hz2, hzs1, ?_, ?_⟩
  · intro b hb h0
    rw [hzs3 b hb, netSq_scale x z psd C N F sr hp lp b _ (fun c t hc ht => hz3 b c t hb hc ht),
      Real.sqrt_mul (sq_nonneg _), ← hs3 b hb, Real.sqrt_sq_eq_abs, abs_div]
    have h0' : 0 ≤ s.get [b] := by rw [hs3 b hb]; exact Real.sqrt_nonneg _
    rw [abs_of_nonneg h0', div_mul_cancel₀ _ h0]
  · intro b hb
    exact ⟨_, fun c k hc hk => hz3 b c k hb hc hk⟩

/-- **C35 (target reached).**  After `reweight_snrs` with a non-negative target (a number or one per event)
the network SNR of every event with non-zero SNR is the target; every event is multiplied by one number, so
the relative SNRs of its interferometers do not change. -/
theorem reweight_reaches (x psd s : Tensor ℝ) (target : Target) (B C N pb pc F : ℕ) (sr : ℝ) (hsr : 0 < sr) (hp lp : Cut)
    (hx : x.shape = [B, C, N]) (hN : 0 < N)
    (hs : psd.shape = [F] ∧ pb = 1 ∧ pc = 1 ∨ psd.shape = [pc, F] ∧ pb = 1 ∨ psd.shape = [pb, pc, F])
    (hpb : pb = 1 ∨ pb = B) (hpc : pc = 1 ∨ pc = C) (hhp : hp.Fits N) (hlp : lp.Fits N)
    (hhn : hp.Nonneg N) (hln : lp.Nonneg N)
    (hpos : ∀ b c k, 0 ≤ psdAt F (N / 2 + 1) psd b c k)
    (hn : networkSnr x psd sr hp lp = .ok s) (tgt : ℕ → ℝ) (htgt : ∀ b, 0 ≤ tgt b)
    (ht : (∃ v, target = .scalar v ∧ ∀ b, tgt b = v) ∨
      ∃ t : Tensor ℝ, target = .tensor t ∧ t.shape = [B] ∧ ∀ b, b < B → tgt b = t.get [b]) :
    ∃ z zs, reweightSnrs x target psd sr hp lp = .ok z ∧ z.shape = x.shape ∧ networkSnr z psd sr hp lp = .ok zs ∧
      (∀ b, b < B → s.get [b] ≠ 0 → zs.get [b] = tgt b) ∧
      (∀ b, b < B → ∃ a : ℝ, ∀ c k, c < C → k < N → z.get [b, c, k] = a * x.get [b, c, k]) := by
  have hts : target.val.shape = [B] ∨ target.val.shape = [] := by
    rcases ht with ⟨v, rfl, -⟩ | ⟨t, rfl, h, -⟩
    · right; rfl
    · left; exact h
  have htv : ∀ b, b < B → target.val.get (if target.val.shape = [] then [] else [b]) = tgt b := by
    intro b hb
    rcases ht with ⟨v, rfl, h⟩ | ⟨t, rfl, h1, h2⟩
    · simp [Target.val, h]
    · have hne : ¬ (t.shape = []) := by rw [h1]; simp
      show t.get (if t.shape = [] then [] else [b]) = _
      rw [if_neg hne, h2 b hb]
  obtain ⟨z, zs, h1, h2, h3, h4, h5⟩ := rescale_reaches x psd target.val s B C N pb pc F sr hsr hp lp hx hN hs hpb hpc hhp hlp
    hhn hln hpos hn hts
  refine ⟨z, zs, ?_, by rw [h2, hx], h3, ?_, h5⟩
  · unfold reweightSnrs
    simp only [hn, res_bind_ok, h1]
  · intro b hb h0
    rw [h4 b hb h0, htv b hb, abs_of_nonneg (htgt b)]

/-- A PSD given per channel with as many bins as the spectrum is used as it is. -/
theorem psdAt_self (psd : Tensor ℝ) (C M : ℕ) (h : psd.shape = [C, M]) (b c : ℕ) (hc : c < C) (k : ℕ) :
    psdAt M M psd b c k = psd.get [c, k] := by
  simp only [psdAt, if_true, psdOf, h]
  congr 2
  split_ifs with h1 <;> omega

theorem mask_fits (n N : ℕ) (sr : ℝ) (keep : ℝ → ℝ → Prop) (f : Option ℝ) (h : n = N) :
    (maskOf n sr keep f).Fits N ∧ (maskOf n sr keep f).Nonneg N := by
  subst h
  cases f with
  | none => exact ⟨trivial, trivial⟩
  | some f => exact ⟨rfl, fun k => by simp only [boolMask]; split_ifs <;> norm_num⟩

/-- **C35 (module, explicit targets).**  A built `SnrRescaler` called on responses of the declared length with
non-negative targets returns responses of these network SNRs (events with non-zero SNR), computed from the
fitted background with the masks `freq ≥ highpass`, `freq < lowpass`. -/
theorem rescaler_reaches (r : Rescaler) (nc : ℕ) (sr dur : ℝ) (hsr : 0 < sr) (hpf lpf : Option ℝ) (perm : ℕ → ℕ)
    (x t s : Tensor ℝ) (B N : ℕ) (hN : (N : Int) = pyInt (dur * sr)) (hN0 : 0 < N)
    (hr : r.numChannels = nc ∧ r.sr = sr ∧ r.highpassMask = (Rescaler.init nc sr dur hpf lpf).highpassMask ∧
      r.lowpassMask = (Rescaler.init nc sr dur hpf lpf).lowpassMask)
    (hb : r.background.shape = [nc, N / 2 + 1]) (hbp : ∀ i, 0 ≤ r.background.get i) (hbuilt : r.built = true)
    (hx : x.shape = [B, nc, N]) (ht : t.shape = [B]) (htp : ∀ b, b < B → 0 ≤ t.get [b])
    (hn : networkSnr x r.background sr r.highpassMask r.lowpassMask = .ok s) :
    ∃ z zs, r.call perm x (some t) = .ok (z, t) ∧ networkSnr z r.background sr r.highpassMask r.lowpassMask = .ok zs ∧
      ∀ b, b < B → s.get [b] ≠ 0 → zs.get [b] = t.get [b] := by
  obtain ⟨h1, h2, h3, h4⟩ := hr
  have hn' : (pyInt (dur * sr)).toNat = N := by omega
  have hm := mask_fits (pyInt (dur * sr)).toNat N sr (fun f x => x ≥ f) hpf hn'
  have hm2 := mask_fits (pyInt (dur * sr)).toNat N sr (fun f x => x < f) lpf hn'
  obtain ⟨z, zs, a1, a2, a3, a4, -⟩ := rescale_reaches x r.background t s B nc N 1 nc (N / 2 + 1) sr hsr r.highpassMask r.lowpassMask
    hx hN0 (Or.inr (Or.inl ⟨hb, rfl⟩)) (Or.inl rfl) (Or.inr rfl) (by rw [h3]; exact hm.1) (by rw [h4]; exact hm2.1)
    (by rw [h3]; exact hm.2) (by rw [h4]; exact hm2.2)
    (by intro b c k; simp only [psdAt, if_true, psdOf, hb]; exact hbp _) hn (Or.inl ht)
  refine ⟨z, zs, ?_, a3, ?_⟩
  · unfold Rescaler.call
    rw [hbuilt, h2, hn]
    simp only [res_bind_ok, Bool.true_eq_false, if_false, Rescaler.targets, a1]
  · intro b hbb h0
    rw [a4 b hbb h0, if_neg (by simp [ht]), abs_of_nonneg (htp b hbb)]

/-- **C35 (module, no targets).**  Without targets the network SNRs of the returned responses are the SNRs of
the input in the order of the random permutation: no SNR is lost or invented. -/
theorem rescaler_permutes (r : Rescaler) (nc : ℕ) (sr dur : ℝ) (hsr : 0 < sr) (hpf lpf : Option ℝ) (perm : ℕ → ℕ)
    (x s : Tensor ℝ) (B N : ℕ) (hN : (N : Int) = pyInt (dur * sr)) (hN0 : 0 < N)
    (hr : r.numChannels = nc ∧ r.sr = sr ∧ r.highpassMask = (Rescaler.init nc sr dur hpf lpf).highpassMask ∧
      r.lowpassMask = (Rescaler.init nc sr dur hpf lpf).lowpassMask)
    (hb : r.background.shape = [nc, N / 2 + 1]) (hbp : ∀ i, 0 ≤ r.background.get i) (hbuilt : r.built = true)
    (hx : x.shape = [B, nc, N])
    (hperm : (List.range B).map perm |>.Perm (List.range B))
    (hn : networkSnr x r.background sr r.highpassMask r.lowpassMask = .ok s) (h0 : ∀ b, b < B → s.get [b] ≠ 0) :
    ∃ z t zs, r.call perm x none = .ok (z, t) ∧ t.shape = [B] ∧
      networkSnr z r.background sr r.highpassMask r.lowpassMask = .ok zs ∧
      (∀ b, b < B → zs.get [b] = t.get [b]) ∧
      ((List.range B).map fun b => zs.get [b]).Perm ((List.range B).map fun b => s.get [b]) := by
  obtain ⟨h1, h2, h3, h4⟩ := hr
  have hn' : (pyInt (dur * sr)).toNat = N := by omega
  have hm := mask_fits (pyInt (dur * sr)).toNat N sr (fun f x => x ≥ f) hpf hn'
  have hm2 := mask_fits (pyInt (dur * sr)).toNat N sr (fun f x => x < f) lpf hn'
  obtain ⟨s', hs1, hs2, hs3⟩ := network_snr_value x r.background B nc N 1 nc (N / 2 + 1) sr hsr r.highpassMask r.lowpassMask
    hx hN0 (Or.inr (Or.inl ⟨hb, rfl⟩)) (Or.inl rfl) (Or.inr rfl) (by rw [h3]; exact hm.1) (by rw [h4]; exact hm2.1)
    (by rw [h3]; exact hm.2) (by rw [h4]; exact hm2.2)
    (by intro b c k; simp only [psdAt, if_true, psdOf, hb]; exact hbp _)
  rw [hn] at hs1; cases hs1
  have ht : (Rescaler.targets perm none s).shape = [B] := hs2
  obtain ⟨z, zs, a1, a2, a3, a4, -⟩ := rescale_reaches x r.background (Rescaler.targets perm none s) s B nc N 1 nc (N / 2 + 1) sr hsr
    r.highpassMask r.lowpassMask
    hx hN0 (Or.inr (Or.inl ⟨hb, rfl⟩)) (Or.inl rfl) (Or.inr rfl) (by rw [h3]; exact hm.1) (by rw [h4]; exact hm2.1)
    (by rw [h3]; exact hm.2) (by rw [h4]; exact hm2.2)
    (by intro b c k; simp only [psdAt, if_true, psdOf, hb]; exact hbp _) hn (Or.inl ht)
  have hpb : ∀ b, b < B → perm b < B := by
    intro b hbb
    have : perm b ∈ List.range B := hperm.mem_iff.1 (List.mem_map.2 ⟨b, by simpa using hbb, rfl⟩)
    simpa using this
  have hz : ∀ b, b < B → zs.get [b] = s.get [perm b] := by
    intro b hbb
    rw [a4 b hbb (h0 b hbb), if_neg (by simp [ht])]
    have : (Rescaler.targets perm none s).get [b] = s.get [perm b] := rfl
    rw [this, abs_of_nonneg]
    rw [hs3 _ (hpb b hbb)]
    exact Real.sqrt_nonneg _
  refine ⟨z, Rescaler.targets perm none s, zs, ?_, ht, a3, hz, ?_⟩
  · unfold Rescaler.call
    rw [hbuilt, h2, hn]
    simp only [res_bind_ok, Bool.true_eq_false, if_false, a1]
  · have : (List.range B).map (fun b => zs.get [b]) = ((List.range B).map perm).map (fun b => s.get [b]) := by
      rw [List.map_map]
      exact List.map_congr_left fun b hbb => hz b (by simpa using hbb)
    rw [this]
    exact hperm.map _

/-- Calling an unfitted rescaler, or fitting it with the wrong number of channels, raises ValueError. -/
theorem rescaler_rejects (nc : ℕ) (sr dur : ℝ) (hpf lpf : Option ℝ) :
    (∀ perm x t, (Rescaler.init nc sr dur hpf lpf).call perm x t = .error .value) ∧
    ∀ (bg : List (Tensor ℝ)) ff ov, bg.length ≠ nc → (Rescaler.init nc sr dur hpf lpf).fit bg ff ov = .error .value := by
  constructor
  · intro perm x t; rfl
  · intro bg ff ov h
    unfold Rescaler.fit
    rw [if_pos (show bg.length ≠ (Rescaler.init nc sr dur hpf lpf).numChannels from h)]

example : (Rescaler.init 2 1024 2 (some 32) none).fit [⟨[1025], fun _ => 1⟩] none none = .error .value :=
  (rescaler_rejects 2 1024 2 (some 32) none).2 _ _ _ (by decide)

/-- Non-vacuity: a unit impulse (SNR² = 3) is scaled to network SNR 7. -/
example : ∃ (s z zs : Tensor ℝ), networkSnr (⟨[1, 1, 4], fun i => if i.getD 2 0 = 0 then 1 else 0⟩ : Tensor ℝ) ⟨[3], fun _ => 1⟩ 1 .none .none = .ok s ∧
    s.get [0] ≠ 0 ∧
    reweightSnrs (⟨[1, 1, 4], fun i => if i.getD 2 0 = 0 then 1 else 0⟩ : Tensor ℝ) (.scalar 7) ⟨[3], fun _ => 1⟩ 1 .none .none = .ok z ∧
    networkSnr z ⟨[3], fun _ => 1⟩ 1 .none .none = .ok zs ∧ zs.get [0] = 7 := by
  obtain ⟨s, h1, h2, h3⟩ := network_snr_value (⟨[1, 1, 4], fun i => if i.getD 2 0 = 0 then 1 else 0⟩ : Tensor ℝ)
    ⟨[3], fun _ => 1⟩ 1 1 4 1 1 3 1 (by norm_num) .none .none rfl (by norm_num) (Or.inl ⟨rfl, rfl, rfl⟩) (Or.inl rfl) (Or.inl rfl)
    trivial trivial trivial trivial (by intro b c k; simp [psdAt, psdOf])
  have h0 : s.get [0] ≠ 0 := by
    rw [h3 0 (by norm_num)]
    have : ∀ k, rfft 4 (fun t => (if t = 0 then 1 else 0 : ℝ)) k = 1 := by
      intro k
      simp [rfft, dft, Finset.sum_range_succ, ω]
    apply Real.sqrt_ne_zero'.2
    simp [netSq, snrSq, hpWeight, lpWeight, psdAt, psdOf, this]
  obtain ⟨z, zs, a1, a2, a3, a4, a5⟩ := reweight_reaches _ _ s (.scalar 7) 1 1 4 1 1 3 1 (by norm_num) .none .none rfl (by norm_num)
    (Or.inl ⟨rfl, rfl, rfl⟩) (Or.inl rfl) (Or.inl rfl) trivial trivial trivial trivial (by intro b c k; simp [psdAt, psdOf]) h1
    (fun _ => 7) (by norm_num) (Or.inl ⟨7, rfl, fun _ => rfl⟩)
  exact ⟨s, z, zs, h1, h0, a1, a3, a4 0 (by norm_num) h0⟩

/-- Non-vacuity of `ifo_snr_smul` and `snr_cut_partition`: an impulse and its triple. -/
example : ∃ (y y' yl yh : Tensor ℝ),
    ifoSnr (⟨[1, 1, 4], fun i => if i.getD 2 0 = 0 then 1 else 0⟩ : Tensor ℝ) ⟨[3], fun _ => 1⟩ 1 .none .none = .ok y ∧
    ifoSnr (⟨[1, 1, 4], fun i => -3 * if i.getD 2 0 = 0 then 1 else 0⟩ : Tensor ℝ) ⟨[3], fun _ => 1⟩ 1 .none .none = .ok y' ∧
    y'.get [0, 0] = 3 * y.get [0, 0] ∧
    ifoSnr (⟨[1, 1, 4], fun i => if i.getD 2 0 = 0 then 1 else 0⟩ : Tensor ℝ) ⟨[3], fun _ => 1⟩ 1 .none (.freq (1/4)) = .ok yl ∧
    ifoSnr (⟨[1, 1, 4], fun i => if i.getD 2 0 = 0 then 1 else 0⟩ : Tensor ℝ) ⟨[3], fun _ => 1⟩ 1 (.freq (1/4)) .none = .ok yh ∧
    y.get [0, 0] ^ 2 = yl.get [0, 0] ^ 2 + yh.get [0, 0] ^ 2 := by
  have hok : ∀ (x : Tensor ℝ) (hp lp : Cut), x.shape = [1, 1, 4] → hp.Fits 4 → lp.Fits 4 →
      ∃ y, ifoSnr x ⟨[3], fun _ => 1⟩ 1 hp lp = .ok y := fun x hp lp hx h1 h2 =>
    let ⟨y, h, _⟩ := ifo_snr_correct x ⟨[3], fun _ => 1⟩ 1 1 4 1 1 3 1 hp lp hx (by norm_num) (Or.inl ⟨rfl, rfl, rfl⟩)
      (Or.inl rfl) (Or.inl rfl) h1 h2 (by intro b c k; simp [psdAt, psdOf])
    ⟨y, h⟩
  obtain ⟨y, hy⟩ := hok ⟨[1, 1, 4], fun i => if i.getD 2 0 = 0 then 1 else 0⟩ .none .none rfl trivial trivial
  obtain ⟨y', hy'⟩ := hok ⟨[1, 1, 4], fun i => -3 * if i.getD 2 0 = 0 then 1 else 0⟩ .none .none rfl trivial trivial
  obtain ⟨yl, hyl⟩ := hok ⟨[1, 1, 4], fun i => if i.getD 2 0 = 0 then 1 else 0⟩ .none (.freq (1/4)) rfl trivial trivial
  obtain ⟨yh, hyh⟩ := hok ⟨[1, 1, 4], fun i => if i.getD 2 0 = 0 then 1 else 0⟩ (.freq (1/4)) .none rfl trivial trivial
  refine ⟨y, y', yl, yh, hy, hy', ?_, hyl, hyh, ?_⟩
  · have := ifo_snr_smul _ _ _ y y' 1 1 4 1 1 3 1 .none .none rfl rfl (by norm_num) (Or.inl ⟨rfl, rfl, rfl⟩)
      (Or.inl rfl) (Or.inl rfl) trivial trivial (by intro b c k; simp [psdAt, psdOf]) (fun _ => -3)
      (fun _ _ _ _ _ _ => rfl) hy hy' 0 0 (by norm_num) (by norm_num)
    rw [this]; norm_num
  · exact snr_cut_partition _ _ y yl yh 1 1 4 1 1 3 1 (1/4) (by norm_num) rfl (by norm_num) (Or.inl ⟨rfl, rfl, rfl⟩)
      (Or.inl rfl) (Or.inl rfl) (by intro b c k; simp [psdAt, psdOf]) hy hyh hyl 0 0 (by norm_num) (by norm_num)

/-- Non-vacuity of `rescaler_reaches` and `rescaler_permutes`: a rescaler fitted on a flat background. -/
example : ∃ (r : Rescaler) (x z t zs z' t' zs' : Tensor ℝ),
    (Rescaler.init 1 1 4 none none).fit [⟨[3], fun _ => 1⟩] none none = .ok r ∧
    r.call id x (some ⟨[1], fun _ => 5⟩) = .ok (z, t) ∧ networkSnr z r.background 1 r.highpassMask r.lowpassMask = .ok zs ∧
    zs.get [0] = 5 ∧ r.call id x none = .ok (z', t') ∧ networkSnr z' r.background 1 r.highpassMask r.lowpassMask = .ok zs' ∧
    zs'.get [0] = t'.get [0] := by
  have e4 : pyInt (4 * 1) = 4 := by unfold pyInt; norm_num
  have hfit : (Rescaler.init 1 1 4 none none).fit [⟨[3], fun _ => 1⟩] none none =
      .ok ⟨1, 1, ⟨[1, 3], fun i => (([⟨[3], fun _ => 1⟩] : List (Tensor ℝ)).getD (i.headD 0) ⟨[], fun _ => 0⟩).get i.tail⟩,
        .none, .none, true⟩ := by
    have hF : (Rescaler.init 1 1 4 none none).background.shape.getD 1 0 = 3 := by
      simp only [Rescaler.init, Tensor.zeros, e4]; rfl
    unfold Rescaler.fit
    rw [if_neg (by simp [Rescaler.init])]
    dsimp only
    rw [hF]
    have hn : normalizePsd (⟨[3], fun _ => 1⟩ : Tensor ℝ) 1 3 none none = .ok ⟨[3], fun _ => 1⟩ := by
      unfold normalizePsd toPsd
      rw [res_bind_ok, Tensor.reshapeInfer_ok _ [1, 1] [] 3 (by decide) (by decide)]
      rfl
    have hsr : (Rescaler.init 1 1 4 none none).sr = 1 := rfl
    simp only [hsr, List.mapM_cons, List.mapM_nil, hn, res_bind_ok, res_pure, reduceCtorEq, if_false]
    rfl
  have hbg' : ∀ i, (0 : ℝ) ≤ (([⟨[3], fun _ => 1⟩] : List (Tensor ℝ)).getD ((i : List ℕ).headD 0) ⟨[], fun _ => 0⟩).get i.tail := by
    intro i; rcases i with _ | ⟨_ | n, i⟩ <;> simp
  obtain ⟨s, h1, h2, h3⟩ := network_snr_value (⟨[1, 1, 4], fun i => if i.getD 2 0 = 0 then 1 else 0⟩ : Tensor ℝ)
    ⟨[1, 3], fun i => (([⟨[3], fun _ => 1⟩] : List (Tensor ℝ)).getD (i.headD 0) ⟨[], fun _ => 0⟩).get i.tail⟩
    1 1 4 1 1 3 1 (by norm_num) .none .none rfl (by norm_num) (Or.inr (Or.inl ⟨rfl, rfl⟩)) (Or.inl rfl) (Or.inl rfl)
    trivial trivial trivial trivial (by intro b c k; simp [psdAt, psdOf])
  have h0 : s.get [0] ≠ 0 := by
    rw [h3 0 (by norm_num)]
    have : ∀ k, rfft 4 (fun t => (if t = 0 then 1 else 0 : ℝ)) k = 1 := by
      intro k
      simp [rfft, dft, Finset.sum_range_succ, ω]
    apply Real.sqrt_ne_zero'.2
    simp [netSq, snrSq, hpWeight, lpWeight, psdAt, psdOf, this]
  obtain ⟨z, zs, a1, a2, a3⟩ := rescaler_reaches ⟨1, 1, _, .none, .none, true⟩ 1 1 4 (by norm_num) none none id
    ⟨[1, 1, 4], fun i => if i.getD 2 0 = 0 then 1 else 0⟩ ⟨[1], fun _ => 5⟩ s 1 4 (by rw [e4]; rfl) (by norm_num)
    ⟨rfl, rfl, rfl, rfl⟩ rfl hbg' rfl rfl rfl (by norm_num) h1
  obtain ⟨z', t', zs', b1, b2, b3, b4, -⟩ := rescaler_permutes ⟨1, 1, _, .none, .none, true⟩ 1 1 4 (by norm_num) none none id
    ⟨[1, 1, 4], fun i => if i.getD 2 0 = 0 then 1 else 0⟩ s 1 4 (by rw [e4]; rfl) (by norm_num)
    ⟨rfl, rfl, rfl, rfl⟩ rfl hbg' rfl rfl (by simp) h1 (by intro b hb; rw [show b = 0 by omega]; exact h0)
  exact ⟨_, _, z, _, zs, z', t', zs', hfit, a1, a2, a3 0 (by norm_num) h0, b1, b3, b4 0 (by norm_num)⟩

end Verif.Snr
