import Verif.Lemmas.Whiten
/-!
# Properties of PSD truncation and whitening (C28, C29, C67)
-/
set_option linter.unusedSimpArgs false
namespace Verif.Whiten
open Finset Verif.Fourier Verif.Spectral Spec.Whiten

/-- The truncated filter response of `truncate_inverse_power_spectrum` according to the specification:
`F` bins, i.e. `(F-1)*2` time samples, taper window `w` of size `W`. -/
noncomputable def filterResponse (F pad W : ℕ) (w : ℕ → ℝ) (sr : ℝ) (hp lp : Option ℝ) (psd : ℕ → ℝ) : ℕ → ℂ :=
  response ((F - 1) * 2) pad w (fun t => w (W - pad + t)) (amplitude F (sr / ((F - 1) * 2 : ℕ)) hp lp psd)

theorem truncRow_eq (F pad W : ℕ) (hF : 2 ≤ F) (hpad : 2 * pad ≤ (F - 1) * 2) (w : ℕ → ℝ) (sr : ℝ) (hsr : 0 < sr)
    (hp lp : Option ℝ) (hhp : ∀ h, hp = some h → 0 ≤ h) (hlp : ∀ h, lp = some h → 0 ≤ h) (psd : ℕ → ℝ) (k : ℕ) :
    truncRow F pad W w sr hp lp psd k =
      1 / ENNReal.ofReal (‖filterResponse F pad W w sr hp lp psd k‖ ^ 2) / 2 := by
  unfold truncRow filterResponse response
  dsimp only
  have h1 : ∀ t, irfftF ((F - 1) * 2) (fun k => (invAsd F sr hp lp psd k : ℂ)) t =
      irfftF ((F - 1) * 2) (fun k => (amplitude F (sr / ((F - 1) * 2 : ℕ)) hp lp psd k : ℂ)) t := by
    intro t
    exact irfftF_congr _ _ _ (fun k hk => by rw [invAsd_eq F hF sr hsr hp lp hhp hlp psd k (by omega)]) t
  have h2 : rfft ((F - 1) * 2) (taper ((F - 1) * 2) pad W w
        (irfftF ((F - 1) * 2) (fun k => (invAsd F sr hp lp psd k : ℂ)))) k =
      rfft ((F - 1) * 2) (fun t => taperWeight ((F - 1) * 2) pad w (fun t => w (W - pad + t)) t *
        irfftF ((F - 1) * 2) (fun k => (amplitude F (sr / ((F - 1) * 2 : ℕ)) hp lp psd k : ℂ)) t) k :=
    rfft_congr _ _ _ (fun t ht => by rw [taper_eq _ _ _ hpad _ _ _ ht, h1]) k
  rw [h2, norm_mul, RCLike.norm_conj, ← pow_two]

/-- **C28.**  For a positive PSD with at least two bins, filter half-length `1 ≤ pad ≤ F-1` and
non-negative cut-offs, the truncated PSD is `1/(2‖H‖²)` where `H` is the response of the filter obtained
from the inverse ASD by zeroing the removed bins, going to the time domain, keeping only `pad` samples
at either end (tapered), and going back. -/
theorem truncate_correct (psd : Tensor ℝ) (pb pc F pad : ℕ) (fd : FDuration) (sr : ℝ) (hsr : 0 < sr) (hp lp : Option ℝ)
    (hs : psd.shape = [pb, pc, F]) (hF : 2 ≤ F) (hpd : fd.pad sr = pad) (hpad : 1 ≤ pad) (hpadF : pad ≤ F - 1)
    (_hpos : ∀ i, InB i psd.shape → 0 < psd.get i)
    (hhp : ∀ h, hp = some h → 0 ≤ h) (hlp : ∀ h, lp = some h → 0 ≤ h) :
    ∃ y, truncateInverse psd fd sr hp lp = .ok y ∧ y.shape = psd.shape ∧
      ∀ a c k, y.get [a, c, k] = 1 / ENNReal.ofReal
        (‖filterResponse F pad (fd.taper sr).1 (fd.taper sr).2 sr hp lp (fun k => psd.get [a, c, k]) k‖ ^ 2) / 2 := by
  unfold truncateInverse
  rw [hs]
  dsimp only
  rw [if_neg (by omega), if_neg (by rw [hpd]; omega)]
  refine ⟨_, rfl, by simp [mapRows, hs], ?_⟩
  intro a c k
  simp only [mapRows, List.dropLast, List.getLastD, List.getLast, List.cons_append, List.nil_append, hpd,
    Int.toNat_natCast]
  exact truncRow_eq F pad _ hF (by omega) _ sr hsr hp lp hhp hlp _ k

/-- **C28 (what the cut-offs remove).**  With bin spacing `df`, every bin at least one spacing below the
highpass frequency and every bin above the lowpass frequency is removed; no bin at or above the
highpass frequency and at least one spacing below the lowpass frequency is, except the last of an odd
number of bins. -/
theorem truncate_band (F : ℕ) (df hp lp : ℝ) (hdf : 0 < df) (psd : ℕ → ℝ) (k : ℕ) :
    ((k : ℝ) * df ≤ hp - df → amplitude F df (some hp) (some lp) psd k = 0) ∧
    (lp < (k : ℝ) * df → amplitude F df (some hp) (some lp) psd k = 0) ∧
    (hp ≤ (k : ℝ) * df → (k : ℝ) * df ≤ lp - df → ¬ (F % 2 = 1 ∧ k = F - 1) →
      amplitude F df (some hp) (some lp) psd k = 1 / Real.sqrt (psd k)) := by
  unfold amplitude Removed
  refine ⟨fun h => ?_, fun h => ?_, fun h1 h2 h3 => ?_⟩
  · rw [if_pos]; exact .inl ⟨hp, rfl, by linarith⟩
  · rw [if_pos]; exact .inr (.inl ⟨lp, rfl, by linarith⟩)
  · rw [if_neg]
    rintro (⟨h, hh, hle⟩ | ⟨h, hh, hle⟩ | h)
    · obtain rfl := Option.some.inj hh; linarith
    · obtain rfl := Option.some.inj hh; linarith
    · exact h3 h

/-- **C28 (negation).**  "All frequencies below highpass are zeroed" fails for the bin just below a
highpass frequency that is not a multiple of the bin spacing. -/
theorem truncate_highpass_keeps_bin_below :
    ∃ (F k : ℕ) (df hp : ℝ) (psd : ℕ → ℝ), (k : ℝ) * df < hp ∧ amplitude F df (some hp) none psd k ≠ 0 := by
  refine ⟨4, 1, 1, 3 / 2, fun _ => 1, by norm_num, ?_⟩
  unfold amplitude
  rw [if_neg]
  · norm_num
  · rintro (⟨h, hh, hle⟩ | ⟨h, hh, hle⟩ | h)
    · obtain rfl := Option.some.inj hh; norm_num at hle
    · cases hh
    · norm_num at h

/-- **C28 (finding).**  A zero duration always fails. -/
theorem truncate_zero_duration (psd : Tensor ℝ) (pb pc F : ℕ) (sr : ℝ) (hp lp : Option ℝ)
    (hs : psd.shape = [pb, pc, F]) (hF : 2 ≤ F) :
    truncateInverse psd (.secs 0) sr hp lp = .error .runtime := by
  unfold truncateInverse
  rw [hs]
  dsimp only
  rw [if_neg (by omega), if_pos]
  left
  simp [FDuration.pad, pyInt]

/-- Non-vacuity of `truncate_correct`. -/
example : ∃ y, truncateInverse ⟨[1, 2, 9], fun _ => 1⟩ (.window 8 fun _ => 1) 16 (some 2) none = .ok y :=
  let ⟨y, h, _⟩ := truncate_correct ⟨[1, 2, 9], fun _ => 1⟩ 1 2 9 4 (.window 8 fun _ => 1) 16 (by norm_num)
    (some 2) none rfl (by norm_num) (by rfl) (by norm_num) (by norm_num) (by simp)
    (by simp) (by simp)
  ⟨y, h⟩

/-- The PSD used for batch element `b` and channel `c` (leading dimensions of size 1 or missing are
shared), before interpolation. -/
def psdOf (psd : Tensor ℝ) (b c k : ℕ) : ℝ :=
  match psd.shape with
  | [_] => psd.get [k]
  | [pc, _] => psd.get [if pc = 1 then 0 else c, k]
  | [pb, pc, _] => psd.get [if pb = 1 then 0 else b, if pc = 1 then 0 else c, k]
  | _ => 0

/-- The same resampled (linearly) from `F` to `M` bins if necessary. -/
noncomputable def psdAt (F M : ℕ) (psd : Tensor ℝ) (b c : ℕ) : ℕ → ℝ :=
  if F = M then psdOf psd b c else interpLinear F M (psdOf psd b c)

theorem bc3 (B C n pb pc : ℕ) (hpb : pb = 1 ∨ pb = B) (hpc : pc = 1 ∨ pc = C) :
    Tensor.bcShapeRev [n, C, B] [n, pc, pb] = some [n, C, B] := by
  have h2 : Tensor.bcShapeRev [B] [pb] = some [B] := by
    rcases hpb with h | h
    · subst h
      by_cases hB : B = 1 <;> simp [Tensor.bcShapeRev, hB]
    · subst h; simp [Tensor.bcShapeRev]
  have h1 : Tensor.bcShapeRev [C, B] [pc, pb] = some [C, B] := by
    rw [Tensor.bcShapeRev, h2]
    rcases hpc with h | h
    · subst h
      by_cases hC : C = 1 <;> simp [hC]
    · subst h; simp
  rw [Tensor.bcShapeRev, h1]; simp

/-- `normalize_by_psd` in terms of the filter, for a PSD of any shape that broadcasts against the batch. -/
theorem normalize_correct_gen (maxF : ℝ) (x : Tensor ℝ) (p : Tensor ENNReal) (B C N : ℕ) (sr : ℝ) (pad : ℕ)
    (crop : Bool) (H : ℕ → ℕ → ℕ → ℂ)
    (hx : x.shape = [B, C, N]) (hp : Tensor.bcShapeRev [N / 2 + 1, C, B] p.shape.reverse = some [N / 2 + 1, C, B])
    (hpad : 1 ≤ pad) (hN : 2 * pad < N)
    (hH : ∀ b c k, b < B → c < C → k < N / 2 + 1 → p.get (Tensor.bcIdx p.shape [b, c, k]) =
      1 / ENNReal.ofReal (‖H b c k‖ ^ 2) / 2) :
    ∃ y, normalizeByPsd maxF x p sr pad crop = .ok y ∧
      y.shape = [B, C, if crop then N - 2 * pad else N] ∧
      ∀ b c t, b < B → c < C → y.get [b, c, t] =
        whitened N sr (H b c) (fun t => x.get [b, c, t]) (if crop then t + pad else t) := by
  have hNr : (N : ℝ) ≠ 0 := by
    have : 0 < N := by omega
    positivity
  have hval : ∀ b c t, b < B → c < C →
      irfftF N (fun k => rfft N (fun t => (demean x).get [b, c, t]) k / N *
        ((invSqrt maxF (p.get (Tensor.bcIdx p.shape [b, c, k])) : ℝ) : ℂ)) t / Real.sqrt sr =
      whitened N sr (H b c) (fun t => x.get [b, c, t]) t := by
    intro b c t hb hc
    have h1 : irfftF N (fun k => rfft N (fun t => (demean x).get [b, c, t]) k / N *
        ((invSqrt maxF (p.get (Tensor.bcIdx p.shape [b, c, k])) : ℝ) : ℂ)) t =
        irfftF N (fun k => rfft N (fun t => (demean x).get [b, c, t]) k / N *
        ((Real.sqrt 2 * ‖H b c k‖ : ℝ) : ℂ)) t :=
      irfftF_congr N _ _ (fun k hk => by rw [hH b c k hb hc hk, invSqrt_eq maxF _ (norm_nonneg _)]) t
    rw [h1]
    have h2 : ∀ t, (demean x).get [b, c, t] = x.get [b, c, t] - (∑ s ∈ range N, x.get [b, c, s]) / N := by
      intro t
      have := demean_get x [B, C] N hx [b, c] t
      simpa [Spec.Welch.mean] using this
    simp only [h2]
    unfold whitened irfft
    have h3 : ∀ k, rfft N (fun t => x.get [b, c, t] - (∑ s ∈ range N, x.get [b, c, s]) / N) k / N *
        ((Real.sqrt 2 * ‖H b c k‖ : ℝ) : ℂ) =
        ((Real.sqrt 2 / N : ℝ) : ℂ) * (rfft N (fun t => x.get [b, c, t] - (∑ s ∈ range N, x.get [b, c, s]) / N) k *
          (‖H b c k‖ : ℂ)) := by
      intro k; push_cast; ring
    simp only [h3, irfftF_smul]
    ring
  unfold normalizeByPsd
  rw [hx]
  dsimp only
  unfold Tensor.zipB
  have e : Tensor.bcShapeRev (mapRows (N / 2 + 1) (fun (s : ℕ → ℝ) k => rfft N s k / N) (demean x)).shape.reverse
      (p.map (invSqrt maxF)).shape.reverse = some [N / 2 + 1, C, B] := by
    simp only [mapRows, demean, Tensor.map, hx, List.dropLast, List.cons_append, List.nil_append]
    exact hp
  simp only [e, res_bind_ok]
  cases crop with
  | false =>
    refine ⟨_, rfl, by simp [mapRows], ?_⟩
    intro b c t hb hc
    rw [← hval b c _ hb hc]
    simp only [mapRows, List.dropLast, List.getLastD, List.getLast, List.cons_append, List.nil_append, List.reverse_cons,
      List.reverse_nil, Tensor.map, demean, hx, if_false, Bool.false_eq_true]
    congr 1
    refine irfftF_congr N _ _ (fun k hk => ?_) t
    rw [bcIdx_self [B, C, N / 2 + 1] [b, c, k] ⟨hb, hc, hk, trivial⟩]
    rfl
  | true =>
    have hlo : pySliceBound N (pad : Int) = pad := by
      unfold pySliceBound
      rw [if_neg (by omega), Int.toNat_natCast]; omega
    have hhi : pySliceBound N (-(pad : Int)) = N - pad := by
      unfold pySliceBound
      rw [if_pos (by omega)]; omega
    simp only [if_true, hlo, hhi]
    refine ⟨_, rfl, by simp [mapRows, Tensor.narrowLast, mapLast]; omega, ?_⟩
    intro b c t hb hc
    rw [← hval b c _ hb hc]
    simp only [mapRows, Tensor.narrowLast, mapLast, List.dropLast, List.getLastD, List.getLast, List.cons_append, List.nil_append, List.reverse_cons,
      List.reverse_nil, Tensor.map, demean, hx]
    congr 1
    refine irfftF_congr N _ _ (fun k hk => ?_) _
    rw [bcIdx_self [B, C, N / 2 + 1] [b, c, k] ⟨hb, hc, hk, trivial⟩]
    rfl

/-- `normalize_by_psd` in terms of the filter, for a 3-dimensional PSD. -/
theorem normalize_correct (maxF : ℝ) (x : Tensor ℝ) (p : Tensor ENNReal) (B C N pb pc : ℕ) (sr : ℝ) (pad : ℕ)
    (crop : Bool) (H : ℕ → ℕ → ℕ → ℂ)
    (hx : x.shape = [B, C, N]) (hp : p.shape = [pb, pc, N / 2 + 1]) (hpb : pb = 1 ∨ pb = B) (hpc : pc = 1 ∨ pc = C)
    (hpad : 1 ≤ pad) (hN : 2 * pad < N)
    (hH : ∀ b c k, p.get [if pb = 1 then 0 else b, if pc = 1 then 0 else c, k] =
      1 / ENNReal.ofReal (‖H b c k‖ ^ 2) / 2) :
    ∃ y, normalizeByPsd maxF x p sr pad crop = .ok y ∧
      y.shape = [B, C, if crop then N - 2 * pad else N] ∧
      ∀ b c t, b < B → c < C → y.get [b, c, t] =
        whitened N sr (H b c) (fun t => x.get [b, c, t]) (if crop then t + pad else t) := by
  have hF : ¬ (N / 2 + 1 = 1) := by omega
  refine normalize_correct_gen maxF x p B C N sr pad crop H hx (by rw [hp]; exact bc3 B C _ pb pc hpb hpc) hpad hN ?_
  intro b c k _ _ _
  rw [← hH b c k, hp]
  simp only [Tensor.bcIdx, List.length_cons, List.length_nil, Nat.sub_self, List.drop_zero, List.zipWith_cons_cons,
    List.zipWith_nil_right, hF, if_false]

/-- **C29.**  For a batch `(B, C, N)`, a positive PSD of 1, 2 or 3 dimensions whose leading dimensions
agree with the batch (or are 1), `pad ≥ 1` and `N > 2·pad`, `whiten` succeeds and returns `N - 2·pad`
samples per channel (`N` without cropping), each being the demeaned series of this very channel filtered
with the truncated filter of its PSD. -/
theorem whiten_correct (maxF : ℝ) (x psd : Tensor ℝ) (B C N pb pc F pad : ℕ) (fd : FDuration) (sr : ℝ) (hp lp : Option ℝ)
    (crop : Bool) (hx : x.shape = [B, C, N])
    (hs : psd.shape = [F] ∧ pb = 1 ∧ pc = 1 ∨ psd.shape = [pc, F] ∧ pb = 1 ∨ psd.shape = [pb, pc, F])
    (hpb : pb = 1 ∨ pb = B) (hpc : pc = 1 ∨ pc = C)
    (hsr : 0 < sr) (hpd : fd.pad sr = pad) (hpad : 1 ≤ pad) (hN : 2 * pad < N)
    (_hpos : ∀ i, InB i psd.shape → 0 < psd.get i)
    (hhp : ∀ h, hp = some h → 0 ≤ h) (hlp : ∀ h, lp = some h → 0 ≤ h) :
    ∃ y, whiten maxF x psd fd sr hp lp crop = .ok y ∧
      y.shape = [B, C, if crop then N - 2 * pad else N] ∧
      ∀ b c t, b < B → c < C → y.get [b, c, t] =
        whitened N sr (filterResponse (N / 2 + 1) pad (fd.taper sr).1 (fd.taper sr).2 sr hp lp
          (psdAt F (N / 2 + 1) psd b c)) (fun t => x.get [b, c, t]) (if crop then t + pad else t) := by
  have h3s : (to3d psd).shape = [pb, pc, F] := by
    rcases hs with ⟨h, rfl, rfl⟩ | ⟨h, rfl⟩ | h <;> simp [to3d, h]
  have h3g : ∀ b c k, (to3d psd).get [if pb = 1 then 0 else b, if pc = 1 then 0 else c, k] = psdOf psd b c k := by
    intro b c k
    rcases hs with ⟨h, rfl, rfl⟩ | ⟨h, rfl⟩ | h <;> simp [to3d, psdOf, h]
  have hl : x.lastDim = .ok N := by simp [Tensor.lastDim, hx]
  have hl3 : (to3d psd).lastDim = .ok F := by simp [Tensor.lastDim, h3s]
  unfold whiten
  simp only [hl, res_bind_ok, hpd]
  rw [if_neg (by omega)]
  simp only [hl3, res_bind_ok]
  -- the interpolated PSD
  obtain ⟨q, hq, hqs, hqg⟩ : ∃ q : Tensor ℝ, (if F ≠ N / 2 + 1 then
      mapRows (N / 2 + 1) (interpLinear F (N / 2 + 1)) (to3d psd) else to3d psd) = q ∧
      q.shape = [pb, pc, N / 2 + 1] ∧
      ∀ b c, (fun k => q.get [if pb = 1 then 0 else b, if pc = 1 then 0 else c, k]) = psdAt F (N / 2 + 1) psd b c := by
    by_cases h : F = N / 2 + 1
    · refine ⟨_, rfl, by simp [h, h3s], ?_⟩
      intro b c
      funext k
      simp only [h, ne_eq, not_true_eq_false, if_false, psdAt, if_true, h3g]
    · refine ⟨_, rfl, by simp [h, mapRows, h3s], ?_⟩
      intro b c
      funext k
      simp only [h, ne_eq, not_false_eq_true, if_true, psdAt, if_false, mapRows, List.dropLast, List.getLastD, List.getLast,
        List.cons_append, List.nil_append, h3g]
  rw [hq]
  obtain ⟨p, hpo, hps, hpg⟩ : ∃ p, truncateInverse q fd sr hp lp = .ok p ∧ p.shape = q.shape ∧
      ∀ a c k, p.get [a, c, k] = 1 / ENNReal.ofReal
        (‖filterResponse (N / 2 + 1) pad (fd.taper sr).1 (fd.taper sr).2 sr hp lp (fun k => q.get [a, c, k]) k‖ ^ 2) / 2 := by
    unfold truncateInverse
    rw [hqs]
    dsimp only
    rw [if_neg (by omega), if_neg (by rw [hpd]; omega)]
    refine ⟨_, rfl, by simp [mapRows, hqs], ?_⟩
    intro a c k
    simp only [mapRows, List.dropLast, List.getLastD, List.getLast, List.cons_append, List.nil_append, hpd,
      Int.toNat_natCast]
    exact truncRow_eq (N / 2 + 1) pad _ (by omega) (by omega) _ sr hsr hp lp hhp hlp _ k
  rw [hpo, res_bind_ok]
  exact normalize_correct maxF x p B C N pb pc sr pad crop _ hx (by rw [hps, hqs]) hpb hpc hpad hN
    (fun b c k => by rw [hpg, hqg b c])

/-- Non-vacuity: one PSD for all channels, interpolated from 5 to 9 bins. -/
example : ∃ y, whiten 0 ⟨[2, 3, 16], fun i => (ravel [2, 3, 16] i : ℝ)⟩ ⟨[5], fun _ => 1⟩ (.window 4 fun _ => 1)
    16 none (some 6) true = .ok y ∧ y.shape = [2, 3, 12] :=
  let ⟨y, h, hs, _⟩ := whiten_correct 0 ⟨[2, 3, 16], fun i => (ravel [2, 3, 16] i : ℝ)⟩ ⟨[5], fun _ => 1⟩ 2 3 16 1 1 5 2
    (.window 4 fun _ => 1) 16 none (some 6) true rfl (.inl ⟨rfl, rfl, rfl⟩) (.inl rfl) (.inl rfl) (by norm_num) rfl
    (by norm_num) (by norm_num) (by simp) (by simp) (by simp)
  ⟨y, h, hs⟩

theorem whitened_affine (N : ℕ) (hN : 0 < N) (sr : ℝ) (H : ℕ → ℂ) (x x' : ℕ → ℝ) (a a' c : ℝ) (t : ℕ) :
    whitened N sr H (fun t => a * x t + a' * x' t + c) t = a * whitened N sr H x t + a' * whitened N sr H x' t := by
  have hNr : (N : ℝ) ≠ 0 := by positivity
  unfold whitened irfft
  have h1 : ∀ t, (a * x t + a' * x' t + c) - (∑ s ∈ range N, (a * x s + a' * x' s + c)) / N =
      a * (x t - (∑ s ∈ range N, x s) / N) + a' * (x' t - (∑ s ∈ range N, x' s) / N) := by
    intro t
    rw [Finset.sum_add_distrib, Finset.sum_add_distrib, ← Finset.mul_sum, ← Finset.mul_sum]
    simp only [Finset.sum_const, Finset.card_range, nsmul_eq_mul]
    field_simp
    ring
  simp only [h1]
  have h2 : ∀ k, rfft N (fun t => a * (x t - (∑ s ∈ range N, x s) / N) + a' * (x' t - (∑ s ∈ range N, x' s) / N)) k *
      (‖H k‖ : ℂ) = (a : ℂ) * (rfft N (fun t => x t - (∑ s ∈ range N, x s) / N) k * (‖H k‖ : ℂ)) +
        (a' : ℂ) * (rfft N (fun t => x' t - (∑ s ∈ range N, x' s) / N) k * (‖H k‖ : ℂ)) := by
    intro k
    rw [rfft_add, rfft_mul_left, rfft_mul_left]; ring
  simp only [h2, irfftF_add, irfftF_smul]
  ring

/-- **C29 (linearity and shift invariance).**  If every channel of `z` is `a·x + a'·x' + const` (the
constants may differ between channels), the whitened `z` is `a` times the whitened `x` plus `a'` times
the whitened `x'`. -/
theorem whiten_linear (maxF : ℝ) (x x' z psd : Tensor ℝ) (B C N pb pc F pad : ℕ) (fd : FDuration) (sr : ℝ) (hp lp : Option ℝ)
    (crop : Bool) (hx : x.shape = [B, C, N]) (hx' : x'.shape = [B, C, N]) (hz : z.shape = [B, C, N])
    (hs : psd.shape = [F] ∧ pb = 1 ∧ pc = 1 ∨ psd.shape = [pc, F] ∧ pb = 1 ∨ psd.shape = [pb, pc, F])
    (hpb : pb = 1 ∨ pb = B) (hpc : pc = 1 ∨ pc = C)
    (hsr : 0 < sr) (hpd : fd.pad sr = pad) (hpad : 1 ≤ pad) (hN : 2 * pad < N)
    (hpos : ∀ i, InB i psd.shape → 0 < psd.get i)
    (hhp : ∀ h, hp = some h → 0 ≤ h) (hlp : ∀ h, lp = some h → 0 ≤ h) (a a' : ℝ) (k : ℕ → ℕ → ℝ)
    (hlin : ∀ b c t, z.get [b, c, t] = a * x.get [b, c, t] + a' * x'.get [b, c, t] + k b c) :
    ∃ y y' w, whiten maxF x psd fd sr hp lp crop = .ok y ∧ whiten maxF x' psd fd sr hp lp crop = .ok y' ∧
      whiten maxF z psd fd sr hp lp crop = .ok w ∧
      ∀ b c t, b < B → c < C → w.get [b, c, t] = a * y.get [b, c, t] + a' * y'.get [b, c, t] := by
  obtain ⟨y, hy, -, hyg⟩ := whiten_correct maxF x psd B C N pb pc F pad fd sr hp lp crop hx hs hpb hpc hsr hpd hpad hN hpos hhp hlp
  obtain ⟨y', hy', -, hyg'⟩ := whiten_correct maxF x' psd B C N pb pc F pad fd sr hp lp crop hx' hs hpb hpc hsr hpd hpad hN hpos hhp hlp
  obtain ⟨w, hw, -, hwg⟩ := whiten_correct maxF z psd B C N pb pc F pad fd sr hp lp crop hz hs hpb hpc hsr hpd hpad hN hpos hhp hlp
  refine ⟨y, y', w, hy, hy', hw, fun b c t hb hc => ?_⟩
  rw [hyg b c t hb hc, hyg' b c t hb hc, hwg b c t hb hc]
  simp only [hlin]
  exact whitened_affine N (by omega) sr _ _ _ a a' (k b c) _

/-- **C29 (rejection).**  A series of at most `2·pad` samples raises ValueError. -/
theorem whiten_too_short (maxF : ℝ) (x psd : Tensor ℝ) (lead : List ℕ) (N : ℕ) (fd : FDuration) (sr : ℝ) (hp lp : Option ℝ)
    (crop : Bool) (hx : x.shape = lead ++ [N]) (h : (N : Int) ≤ 2 * fd.pad sr) :
    whiten maxF x psd fd sr hp lp crop = .error .value := by
  have hl : x.lastDim = .ok N := by simp [Tensor.lastDim, hx]
  unfold whiten
  simp only [hl, res_bind_ok]
  rw [if_pos h]

/-- **C29 (finding).**  `normalize_by_psd` with `crop=True` and `pad = 0` returns an empty tensor instead of
the uncropped series. -/
theorem normalize_pad_zero_empty (maxF : ℝ) (x : Tensor ℝ) (p : Tensor ENNReal) (B C N : ℕ) (sr : ℝ)
    (hx : x.shape = [B, C, N]) (hp : p.shape = [B, C, N / 2 + 1]) :
    ∃ y, normalizeByPsd maxF x p sr 0 true = .ok y ∧ y.shape = [B, C, 0] := by
  unfold normalizeByPsd
  rw [hx]
  dsimp only
  unfold Tensor.zipB
  have e : Tensor.bcShapeRev (mapRows (N / 2 + 1) (fun (s : ℕ → ℝ) k => rfft N s k / N) (demean x)).shape.reverse
      (p.map (invSqrt maxF)).shape.reverse = some [N / 2 + 1, C, B] := by
    simp only [mapRows, demean, Tensor.map, hx, hp, List.dropLast, List.cons_append, List.nil_append]
    exact bc3 B C _ B C (.inr rfl) (.inr rfl)
  simp only [e, res_bind_ok]
  refine ⟨_, rfl, ?_⟩
  simp [mapRows, Tensor.narrowLast, mapLast, pySliceBound]

/-- Resampling a positive PSD keeps it positive, between the smallest and largest value. -/
theorem interpLinear_bounds (n m : ℕ) (hn : 0 < n) (hm : 0 < m) (p : ℕ → ℝ) (lo hi : ℝ) (h : ∀ k < n, lo ≤ p k ∧ p k ≤ hi)
    (i : ℕ) (hi' : i < m) : lo ≤ interpLinear n m p i ∧ interpLinear n m p i ≤ hi := by
  have hm' : (0:ℝ) < m := by exact_mod_cast hm
  unfold interpLinear
  dsimp only
  generalize hsrc : max (((i : ℝ) + 1 / 2) * ((n : ℝ) / m) - 1 / 2) 0 = src
  have hs0 : 0 ≤ src := by rw [← hsrc]; exact le_max_right _ _
  have hsn : src < n := by
    rw [← hsrc, max_lt_iff]
    refine ⟨?_, by exact_mod_cast hn⟩
    have h1 : (i : ℝ) + 1 ≤ m := by exact_mod_cast hi'
    have : ((i : ℝ) + 1 / 2) * ((n : ℝ) / m) < m * ((n : ℝ) / m) := by
      apply mul_lt_mul_of_pos_right (by linarith)
      have : (0:ℝ) < n := by exact_mod_cast hn
      positivity
    have e : (m : ℝ) * ((n : ℝ) / m) = n := by field_simp
    linarith
  have hf1 := Nat.floor_le hs0
  have hf2 := Nat.lt_floor_add_one src
  have hfn : ⌊src⌋₊ < n := (Nat.floor_lt hs0).2 hsn
  have hp0 := h _ hfn
  have hp1 : lo ≤ p (if ⌊src⌋₊ + 1 < n then ⌊src⌋₊ + 1 else ⌊src⌋₊) ∧
      p (if ⌊src⌋₊ + 1 < n then ⌊src⌋₊ + 1 else ⌊src⌋₊) ≤ hi := by
    split_ifs with h1
    · exact h _ h1
    · exact hp0
  generalize p (if ⌊src⌋₊ + 1 < n then ⌊src⌋₊ + 1 else ⌊src⌋₊) = p1 at hp1
  constructor <;> nlinarith [hp0.1, hp0.2, hp1.1, hp1.2]

end Verif.Whiten
