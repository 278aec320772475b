import Verif.Lemmas.SpectralFast
import Mathlib.Algebra.BigOperators.Field
/-!
# Properties of the spectral densities (C24-C27, C66)
-/
set_option linter.unusedSimpArgs false
namespace Verif.Spectral
open Finset Verif.Fourier Spec Classical

/-- **C26 (what is computed).**  For every series of rank 1-3 with at least `nperseg` samples,
`spectral_density` succeeds and returns, for every batch element and channel, the Welch estimate of that
series alone: segments of `nperseg` samples every `nstride` samples, each detrended by its own mean. -/
theorem spectral_density_correct (x window : Tensor ℝ) (lead : List Nat) (T N hop : ℕ) (scale : ℝ)
    (average : String) (hx : x.shape = lead ++ [T]) (hr : lead.length ≤ 2) (hl : ∀ d ∈ lead, 0 < d)
    (hN : 0 < N) (hNT : N ≤ T) (hhop : 0 < hop) (hw : window.shape = [N]) :
    ∃ y, spectralDensity x N hop window scale average = .ok y ∧ y.shape = lead ++ [N / 2 + 1] ∧
      ∀ i k, InB i lead → k < N / 2 + 1 →
        y.get (i ++ [k]) = Welch.psd T N hop (fun t => window.get [t]) scale average
          (fun t => x.get (i ++ [t])) k := by
  have hval : validateShapes x.shape N none = .ok () := by
    unfold validateShapes
    have h1 : ¬ ((T : Int) < N) := by omega
    have h2 : ¬ (lead.length + 1 > 3) := by omega
    simp [hx, h1]; omega
  have hq : Int.fdiv ((T:Int) - N) hop = (((T - N) / hop : Nat) : Int) := by
    rw [Int.fdiv_eq_ediv_of_nonneg _ (by omega), Int.natCast_ediv, Int.ofNat_sub hNT]
  have hhop0 : ¬ ((hop : Int) = 0) := by omega
  have hseg : Welch.segments T N hop = (T - N) / hop + 1 := rfl
  generalize hn : (T - N) / hop = n at *
  have hstop : (((n : Int) + 1 - 1) * hop + N) = ((n * hop + N : Nat) : Int) := by push_cast; ring
  have hle : n * hop + N ≤ T := by
    have := Nat.div_mul_le_self (T - N) hop
    rw [hn] at this; omega
  have hbound : pySliceBound T ((n * hop + N : Nat) : Int) = n * hop + N := by
    unfold pySliceBound
    rw [if_neg (by omega), Int.toNat_natCast]; omega
  have htn : ((n : Int) + 1).toNat = n + 1 := by omega
  obtain ⟨shape, get⟩ := x
  dsimp only at hx hval
  rcases list_len_le2 lead hr with h | ⟨c, h⟩ | ⟨b, c, h⟩
  · subst h; subst hx
    simp only [List.nil_append, List.cons_append] at hval
    obtain ⟨u, v, hu, hv, hs, hg⟩ := slow_core ((⟨[1, 1, 1, T], fun i => get [i.getD 3 0]⟩ : Tensor ℝ).narrowLast 0 (n * hop + N))
      window 1 1 n N hop scale rfl (by omega) hN hhop hw
    unfold spectralDensity
    simp only [hval, res_bind_ok, Slicing.to4d, List.nil_append, Tensor.lastDim, List.getLast?, List.getLast,
      pyFloorDiv, hhop0, if_false, hq, hstop, hbound, hu, hv, htn]
    rw [Tensor.reshapeInfer_ok _ _ _ (N / 2 + 1) (by simp [numel]) (by rw [hs]; simp [numel])]
    simp only [res_bind_ok]
    refine ⟨_, rfl, by simp, ?_⟩
    intro i k hi hk
    have := hi.eq0; subst this
    simp only [List.nil_append, List.dropLast, List.getLastD, List.getLast]
    rw [aggregate_eq _ _ (by omega)]
    unfold Welch.psd
    rw [hseg]
    refine combine_congr _ _ _ _ fun s hs' => ?_
    have h0 : s * (N / 2 + 1) + k < (n + 1) * (N / 2 + 1) := idx_lt hs' hk
    have := hg 0 0 s k (by omega) hs' hk
    simp only [hs, List.cons_append, List.nil_append, unravel, ravel, numel, Nat.mul_one, Nat.add_zero, Nat.div_one, Nat.one_mul, Nat.zero_mul, Nat.zero_add,
      Nat.mod_eq_of_lt h0, Nat.div_eq_of_lt h0, idx_div _ hk, idx_mod _ hk] at this ⊢
    rw [this]
    simp [Tensor.narrowLast, mapLast]
  · subst h; subst hx
    simp only [List.nil_append, List.cons_append] at hval
    have hc : 0 < c := hl c (by simp)
    obtain ⟨u, v, hu, hv, hs, hg⟩ := slow_core ((⟨[1, c, 1, T], fun i => get [i.getD 1 0, i.getD 3 0]⟩ : Tensor ℝ).narrowLast 0 (n * hop + N))
      window 1 c n N hop scale rfl hc hN hhop hw
    unfold spectralDensity
    simp only [hval, res_bind_ok, Slicing.to4d, List.nil_append, List.cons_append, Tensor.lastDim, List.getLast?, List.getLast,
      pyFloorDiv, hhop0, if_false, hq, hstop, hbound, hu, hv, htn, List.dropLast]
    rw [Tensor.reshapeInfer_ok _ _ _ (N / 2 + 1) (by simpa [numel] using hc) (by rw [hs]; simp [numel])]
    simp only [res_bind_ok]
    refine ⟨_, rfl, by simp, ?_⟩
    intro i k hi hk
    obtain ⟨j, rfl, hj⟩ := hi.eq1
    simp only [List.nil_append, List.cons_append, List.dropLast, List.getLastD, List.getLast]
    rw [aggregate_eq _ _ (by omega)]
    unfold Welch.psd
    rw [hseg]
    refine combine_congr _ _ _ _ fun s hs' => ?_
    have e : j * ((n + 1) * (N / 2 + 1)) + (s * (N / 2 + 1) + k) = (j * (n + 1) + s) * (N / 2 + 1) + k := by ring
    have h00 : j * (n + 1) + s < c * (n + 1) := idx_lt hj hs'
    have h0 : (j * (n + 1) + s) * (N / 2 + 1) + k < c * (n + 1) * (N / 2 + 1) := idx_lt h00 hk
    have := hg 0 j s k hj hs' hk
    simp only [hs, List.cons_append, List.nil_append, unravel, ravel, numel, Nat.mul_one, Nat.add_zero, Nat.div_one, Nat.one_mul, Nat.zero_mul, Nat.zero_add, e,
      Nat.mod_eq_of_lt h0, Nat.div_eq_of_lt h0, idx_div _ hk, idx_mod _ hk] at this ⊢
    rw [this]
    simp [Tensor.narrowLast, mapLast]
  · subst h; subst hx
    simp only [List.nil_append, List.cons_append] at hval
    have hc : 0 < c := hl c (by simp)
    have hb : 0 < b := hl b (by simp)
    obtain ⟨u, v, hu, hv, hs, hg⟩ := slow_core ((⟨[b, c, 1, T], fun i => get [i.getD 0 0, i.getD 1 0, i.getD 3 0]⟩ : Tensor ℝ).narrowLast 0 (n * hop + N))
      window b c n N hop scale rfl hc hN hhop hw
    unfold spectralDensity
    simp only [hval, res_bind_ok, Slicing.to4d, List.nil_append, List.cons_append, Tensor.lastDim, List.getLast?, List.getLast,
      pyFloorDiv, hhop0, if_false, hq, hstop, hbound, hu, hv, htn, List.dropLast]
    rw [Tensor.reshapeInfer_ok _ _ _ (N / 2 + 1) (by simp [numel]; exact ⟨hb, hc⟩) (by rw [hs]; simp [numel]; ring)]
    simp only [res_bind_ok]
    refine ⟨_, rfl, by simp, ?_⟩
    intro i k hi hk
    obtain ⟨a, j, rfl, ha, hj⟩ := hi.eq2
    simp only [List.nil_append, List.cons_append, List.dropLast, List.getLastD, List.getLast]
    rw [aggregate_eq _ _ (by omega)]
    unfold Welch.psd
    rw [hseg]
    refine combine_congr _ _ _ _ fun s hs' => ?_
    have h00 : j * (n + 1) + s < c * (n + 1) := idx_lt hj hs'
    have h0 : (j * (n + 1) + s) * (N / 2 + 1) + k < c * (n + 1) * (N / 2 + 1) := idx_lt h00 hk
    have e : a * (c * ((n + 1) * (N / 2 + 1))) + (j * ((n + 1) * (N / 2 + 1)) + (s * (N / 2 + 1) + k)) =
      a * (c * (n + 1) * (N / 2 + 1)) + ((j * (n + 1) + s) * (N / 2 + 1) + k) := by ring
    have := hg a j s k hj hs' hk
    simp only [hs, List.cons_append, List.nil_append, unravel, ravel, numel, Nat.mul_one, Nat.add_zero, Nat.div_one, Nat.one_mul, Nat.zero_mul, Nat.zero_add, e,
      idx_div _ h0, idx_mod _ h0, idx_div _ hk, idx_mod _ hk] at this ⊢
    rw [this]
    simp [Tensor.narrowLast, mapLast]

theorem validate_psd (lead : List Nat) (T N : ℕ) (hr : lead.length ≤ 2) (hNT : N ≤ T) :
    validateShapes (lead ++ [T]) N none = .ok () := by
  unfold validateShapes
  have h1 : ¬ ((T : Int) < N) := by omega
  simp [h1]; omega

theorem conj_mul_re (z : ℂ) : ((starRingEnd ℂ) z * z).re = ‖z‖ ^ 2 := by
  rw [mul_comm, Complex.mul_conj, Complex.ofReal_re, Complex.normSq_eq_norm_sq]

/-- **C26 (what is computed), fast version.**  The same with the mean of the whole series removed. -/
theorem fast_density_correct (x window : Tensor ℝ) (lead : List Nat) (T N hop : ℕ) (scale : ℝ)
    (average : String) (hx : x.shape = lead ++ [T]) (hr : lead.length ≤ 2) (hl : ∀ d ∈ lead, 0 < d)
    (hN : 0 < N) (hNT : N ≤ T) (hhop : 0 < hop) (hw : window.shape = [N]) :
    ∃ y, fastSpectralDensity x N hop window scale average none = .ok y ∧ y.shape = lead ++ [N / 2 + 1] ∧
      ∀ i k, InB i lead → k < N / 2 + 1 →
        y.get (i ++ [k]) = (Welch.psdFast T N hop (fun t => window.get [t]) scale average
          (fun t => x.get (i ++ [t])) k : ℝ) := by
  have hval := validate_psd lead T N hr hNT
  have hS : 0 < Welch.segments T N hop := Nat.succ_pos _
  unfold fastSpectralDensity
  simp only [hx, hval, Option.map_none, res_bind_ok, Tensor.ndim]
  rcases list_len_le2 lead hr with h | ⟨c, h⟩ | ⟨b, c, h⟩
  · subst h
    obtain ⟨y, hy, hys, hyg⟩ := stft_ok x window [] T N hop hx (by simp) hN hNT hhop hw
    have hf : flattenBatch x = .ok x := by unfold flattenBatch; simp [Tensor.ndim, hx]
    simp only [hf, res_bind_ok, hy]
    obtain ⟨o, ho, hos, hog⟩ := fastTail_auto ⟨y.shape, fun i => ((((starRingEnd ℂ) (y.get i) * y.get i).re : ℝ) : ℂ)⟩
      (fun i => ((starRingEnd ℂ) (y.get i) * y.get i).re) [] x.ndim N _ scale average none hys hS
      (by simp [Tensor.ndim, hx]) (fun _ => rfl)
    refine ⟨o, by simpa [finish, Tensor.ndim, hx] using ho, hos, ?_⟩
    intro i k hi hk
    rw [hog i k (by rw [hi.eq0]) hk]
    simp only [conj_mul_re, hyg]
    rfl
  · subst h
    obtain ⟨y, hy, hys, hyg⟩ := stft_ok x window [c] T N hop hx (by simp) hN hNT hhop hw
    have hf : flattenBatch x = .ok x := by unfold flattenBatch; simp [Tensor.ndim, hx]
    simp only [hf, res_bind_ok, hy]
    obtain ⟨o, ho, hos, hog⟩ := fastTail_auto ⟨y.shape, fun i => ((((starRingEnd ℂ) (y.get i) * y.get i).re : ℝ) : ℂ)⟩
      (fun i => ((starRingEnd ℂ) (y.get i) * y.get i).re) [c] x.ndim N _ scale average none hys hS
      (by simp [Tensor.ndim, hx, hys]) (fun _ => rfl)
    refine ⟨o, by simpa [finish, Tensor.ndim, hx] using ho, hos, ?_⟩
    intro i k hi hk
    obtain ⟨j, rfl, hj⟩ := hi.eq1
    rw [hog [j] k rfl hk]
    simp only [conj_mul_re, hyg]
    rfl
  · subst h
    have hb : 0 < b := hl b (by simp)
    have hc : 0 < c := hl c (by simp)
    obtain ⟨x2, hx2, hx2s, hx2g⟩ := flatten3 x b c T hx (by omega)
    obtain ⟨y, hy, hys, hyg⟩ := stft_ok x2 window [b * c] T N hop hx2s (by simp) hN hNT hhop hw
    have hf : flattenBatch x = .ok x2 := by
      unfold flattenBatch; simp [Tensor.ndim, hx, Tensor.lastDim, hx2]
    simp only [hf, res_bind_ok, hy]
    obtain ⟨o, ho, hos, hog⟩ := fastTail_auto ⟨y.shape, fun i => ((((starRingEnd ℂ) (y.get i) * y.get i).re : ℝ) : ℂ)⟩
      (fun i => ((starRingEnd ℂ) (y.get i) * y.get i).re) [b * c] x2.ndim N _ scale average (some (b, c)) hys hS
      (by simp [Tensor.ndim, hx2s, hys]) (fun _ => rfl)
    obtain ⟨z, hz, hzs, hzg⟩ := finish_batch o b c (N / 2 + 1) hos hb hc
    refine ⟨z, by rw [← hz, ← ho]; simp [Tensor.ndim], hzs, ?_⟩
    intro i k hi hk
    obtain ⟨a, j, rfl, ha, hj⟩ := hi.eq2
    have := hzg a j k ha hj hk
    simp only [List.cons_append, List.nil_append]
    rw [this]
    have := hog [a * c + j] k rfl hk
    rw [List.cons_append, List.nil_append] at this
    rw [this]
    simp only [conj_mul_re, hyg]
    unfold Welch.psdFast
    congr 1
    refine combine_congr _ _ _ _ fun s hs' => ?_
    congr 3
    have hs : s * hop + N ≤ T := by
      have h1 : s ≤ (T - N) / hop := by unfold Welch.segments at hs'; omega
      have h2 := Nat.mul_le_mul_right hop h1
      have := Nat.div_mul_le_self (T - N) hop
      omega
    refine rfft_congr N _ _ (fun t ht => ?_) k
    have hm : Welch.mean T (fun t => x2.get [a * c + j, t]) = Welch.mean T (fun t => x.get [a, j, t]) := by
      unfold Welch.mean
      congr 1
      exact Finset.sum_congr rfl fun t ht => hx2g a j t ha hj (by simpa using ht)
    simp only [List.cons_append, List.nil_append, hm, Welch.segment]
    rw [hx2g a j _ ha hj (by omega)]

theorem spec_congr (T N hop s : ℕ) (hNT : N ≤ T) (hs : s < Welch.segments T N hop) (w f g : ℕ → ℝ)
    (h : ∀ t < T, f t = g t) (k : ℕ) :
    Welch.spec N w (fun t => Welch.segment hop f s t - Welch.mean T f) k =
      Welch.spec N w (fun t => Welch.segment hop g s t - Welch.mean T g) k := by
  have hs : s * hop + N ≤ T := by
    have h1 : s ≤ (T - N) / hop := by unfold Welch.segments at hs; omega
    have h2 := Nat.mul_le_mul_right hop h1
    have := Nat.div_mul_le_self (T - N) hop
    omega
  have hm : Welch.mean T f = Welch.mean T g := by
    unfold Welch.mean
    congr 1
    exact Finset.sum_congr rfl fun t ht => h t (by simpa using ht)
  refine rfft_congr N _ _ (fun t ht => ?_) k
  rw [hm]
  simp only [Welch.segment]
  rw [h _ (by omega)]

theorem csd_congr (T N hop : ℕ) (hNT : N ≤ T) (w : ℕ → ℝ) (scale : ℝ) (average : String)
    (f f' g g' : ℕ → ℝ) (hf : ∀ t < T, f t = f' t) (hg : ∀ t < T, g t = g' t) (k : ℕ) :
    Welch.csdFast T N hop w scale average f g k = Welch.csdFast T N hop w scale average f' g' k := by
  unfold Welch.csdFast
  dsimp only
  congr 1
  · refine combine_congr _ _ _ _ fun s hs => ?_
    rw [spec_congr T N hop s hNT hs w f f' hf, spec_congr T N hop s hNT hs w g g' hg]
  · refine combine_congr _ _ _ _ fun s hs => ?_
    rw [spec_congr T N hop s hNT hs w f f' hf, spec_congr T N hop s hNT hs w g g' hg]

theorem csd_of_entries (T N hop : ℕ) (w : ℕ → ℝ) (scale : ℝ) (average : String)
    (f g : ℕ → ℝ) (k : ℕ) (z : ℕ → ℂ)
    (hz : ∀ s < Welch.segments T N hop, z s =
      (starRingEnd ℂ) (Welch.spec N w (fun t => Welch.segment hop f s t - Welch.mean T f) k) *
      Welch.spec N w (fun t => Welch.segment hop g s t - Welch.mean T g) k) :
    (⟨Welch.combine average (Welch.segments T N hop) fun s => ((((scale * Welch.oneSided N k : ℝ) : ℂ)) * z s).re,
      Welch.combine average (Welch.segments T N hop) fun s => ((((scale * Welch.oneSided N k : ℝ) : ℂ)) * z s).im⟩ : ℂ) =
    Welch.csdFast T N hop w scale average f g k := by
  unfold Welch.csdFast
  congr 1
  · exact combine_congr _ _ _ _ fun s hs => by rw [hz s hs]
  · exact combine_congr _ _ _ _ fun s hs => by rw [hz s hs]

/-- **C25/C26 (cross densities).**  For each accepted combination of shapes the fast density with `y`
returns, for every batch element and channel of `x`, the Welch cross density of this series with the series
of `y` at the same leading index (without the channel entry if `y` has no channel dimension). -/
theorem cross_density_correct (x y window : Tensor ℝ) (lead : List Nat) (T N hop : ℕ) (scale : ℝ)
    (average : String) (hx : x.shape = lead ++ [T])
    (hy : y.shape = lead ++ [T] ∨ y.shape = lead.dropLast ++ [T])
    (hr : lead.length ≤ 2) (hl : ∀ d ∈ lead, 0 < d)
    (hN : 0 < N) (hNT : N ≤ T) (hhop : 0 < hop) (hw : window.shape = [N]) :
    ∃ z, fastSpectralDensity x N hop window scale average (some y) = .ok z ∧ z.shape = lead ++ [N / 2 + 1] ∧
      ∀ i k, InB i lead → k < N / 2 + 1 →
        z.get (i ++ [k]) = Welch.csdFast T N hop (fun t => window.get [t]) scale average
          (fun t => x.get (i ++ [t])) (fun t => y.get (i.take (y.ndim - 1) ++ [t])) k := by
  have hT : ¬ ((T : Int) < N) := by omega
  have hS : 0 < Welch.segments T N hop := Nat.succ_pos _
  generalize hSe : Welch.segments T N hop = S at *
  rcases list_len_le2 lead hr with h | ⟨c, h⟩ | ⟨b, c, h⟩
  · subst h
    have hy : y.shape = [T] := by rcases hy with h | h <;> simpa using h
    obtain ⟨X, hX, hXs, hXg⟩ := stft_ok x window [] T N hop hx (by simp) hN hNT hhop hw
    obtain ⟨Y, hY, hYs, hYg⟩ := stft_ok y window [] T N hop hy (by simp) hN hNT hhop hw
    rw [hSe] at hXs hYs
    obtain ⟨P, hP, hPs, hPg⟩ := zipB_same (fun a b => (starRingEnd ℂ) a * b) X Y (by rw [hXs, hYs])
    obtain ⟨o, ho, hos, hog⟩ := fastTail_cross P [] x.ndim N S scale average none
      (by rw [hPs, hXs]) hS (by simp [Tensor.ndim, hx])
    refine ⟨o, ?_, hos, ?_⟩
    · unfold fastSpectralDensity
      simp [Tensor.ndim, hx, hy, validateShapes, hT, flattenBatch, hX, hY, alignCross, hP]
      simpa [finish, Tensor.ndim, hx] using ho
    · intro i k hi hk
      rw [hog i k (by rw [hi.eq0]) hk, ← hSe]
      refine csd_of_entries _ _ _ _ _ _ _ _ _ _ fun s hs => ?_
      have := hi.eq0; subst this
      rw [hPg _ (by rw [hXs]; exact ⟨hk, by rw [← hSe]; exact hs, trivial⟩), hXg, hYg]
      simp
  · subst h
    obtain ⟨X, hX, hXs, hXg⟩ := stft_ok x window [c] T N hop hx (by simp) hN hNT hhop hw
    rw [hSe] at hXs
    rcases hy with hy | hy
    · obtain ⟨Y, hY, hYs, hYg⟩ := stft_ok y window [c] T N hop hy (by simp) hN hNT hhop hw
      rw [hSe] at hYs
      obtain ⟨P, hP, hPs, hPg⟩ := zipB_same (fun a b => (starRingEnd ℂ) a * b) X Y (by rw [hXs, hYs])
      obtain ⟨o, ho, hos, hog⟩ := fastTail_cross P [c] x.ndim N S scale average none
        (by rw [hPs, hXs]) hS (by simp [Tensor.ndim, hx, hPs, hXs])
      refine ⟨o, ?_, hos, ?_⟩
      · unfold fastSpectralDensity
        simp [Tensor.ndim, hx, hy, validateShapes, hT, flattenBatch, hX, hY, alignCross, hP]
        simpa [finish, Tensor.ndim, hx] using ho
      · intro i k hi hk
        obtain ⟨j, rfl, hj⟩ := hi.eq1
        rw [hog [j] k rfl hk, ← hSe]
        refine csd_of_entries _ _ _ _ _ _ _ _ _ _ fun s hs => ?_
        rw [hPg _ (by rw [hXs]; exact ⟨hj, hk, by rw [← hSe]; exact hs, trivial⟩), hXg, hYg]
        simp [Tensor.ndim, hy]
    · have hy : y.shape = [] ++ [T] := by simpa using hy
      obtain ⟨Y, hY, hYs, hYg⟩ := stft_ok y window [] T N hop hy (by simp) hN hNT hhop hw
      rw [hSe] at hYs
      obtain ⟨P, hP, hPs, hPg⟩ : ∃ P, Tensor.zipB (fun a b => (starRingEnd ℂ) a * b) X Y = .ok P ∧
          P.shape = [c, N / 2 + 1, S] ∧ ∀ j k s, j < c → k < N / 2 + 1 → s < S →
            P.get [j, k, s] = (starRingEnd ℂ) (X.get [j, k, s]) * Y.get [k, s] := by
        unfold Tensor.zipB
        have e : Tensor.bcShapeRev X.shape.reverse Y.shape.reverse = some [S, N / 2 + 1, c] := by
          simp [hXs, hYs, Tensor.bcShapeRev]
        rw [e]
        refine ⟨_, rfl, by simp, ?_⟩
        intro j k s hj hk hs
        have e1 := bcIdx_self X.shape [j, k, s] (by rw [hXs]; exact ⟨hj, hk, hs, trivial⟩)
        have e2 := bcIdx_self Y.shape [k, s] (by rw [hYs]; exact ⟨hk, hs, trivial⟩)
        have e3 : Tensor.bcIdx Y.shape [j, k, s] = Tensor.bcIdx Y.shape [k, s] := by
          simp [Tensor.bcIdx, hYs]
        simp only [e1, e3, e2]
      obtain ⟨o, ho, hos, hog⟩ := fastTail_cross P [c] x.ndim N S scale average none
        (by rw [hPs]; rfl) hS (by simp [Tensor.ndim, hx, hPs])
      refine ⟨o, ?_, hos, ?_⟩
      · unfold fastSpectralDensity
        simp [Tensor.ndim, hx, hy, validateShapes, hT, flattenBatch, hX, hY, alignCross, hP]
        simpa [finish, Tensor.ndim, hx] using ho
      · intro i k hi hk
        obtain ⟨j, rfl, hj⟩ := hi.eq1
        rw [hog [j] k rfl hk, ← hSe]
        refine csd_of_entries _ _ _ _ _ _ _ _ _ _ fun s hs => ?_
        rw [List.cons_append, List.nil_append, hPg j k s hj hk (by rw [← hSe]; exact hs)]
        have h1 := hXg [j] k s
        have h2 := hYg [] k s
        simp only [List.cons_append, List.nil_append] at h1 h2
        rw [h1, h2]
        simp [Tensor.ndim, hy]
  · subst h
    have hb : 0 < b := hl b (by simp)
    have hc : 0 < c := hl c (by simp)
    obtain ⟨x2, hx2, hx2s, hx2g⟩ := flatten3 x b c T hx (by omega)
    obtain ⟨X, hX, hXs, hXg⟩ := stft_ok x2 window [b * c] T N hop hx2s (by simp) hN hNT hhop hw
    rw [hSe] at hXs
    have hx2l : x2.lastDim = .ok T := by simp [Tensor.lastDim, hx2s]
    rcases hy with hy | hy
    · obtain ⟨y2, hy2, hy2s, hy2g⟩ := flatten3 y b c T hy (by omega)
      obtain ⟨Y, hY, hYs, hYg⟩ := stft_ok y2 window [b * c] T N hop hy2s (by simp) hN hNT hhop hw
      rw [hSe] at hYs
      obtain ⟨P, hP, hPs, hPg⟩ := zipB_same (fun a b => (starRingEnd ℂ) a * b) X Y (by rw [hXs, hYs])
      obtain ⟨o, ho, hos, hog⟩ := fastTail_cross P [b * c] x2.ndim N S scale average (some (b, c))
        (by rw [hPs, hXs]) hS (by simp [Tensor.ndim, hx2s, hPs, hXs])
      obtain ⟨z, hz, hzs, hzg⟩ := finish_batch o b c (N / 2 + 1) hos hb hc
      refine ⟨z, ?_, hzs, ?_⟩
      · unfold fastSpectralDensity
        simp [Tensor.ndim, hx, hy, validateShapes, hT, flattenBatch, Tensor.lastDim, hx2, hy2, hX, hY, alignCross, hP, hXs, hYs, hx2s]
        rw [← hz, ← ho]; simp [Tensor.ndim, hx2s]
      · intro i k hi hk
        obtain ⟨a, j, rfl, ha, hj⟩ := hi.eq2
        have e := hog [a * c + j] k rfl hk
        simp only [List.cons_append, List.nil_append] at e ⊢
        rw [hzg a j k ha hj hk, e, ← hSe]
        rw [csd_of_entries T N hop (fun t => window.get [t]) scale average (fun t => x2.get [a * c + j, t])
          (fun t => y2.get [a * c + j, t]) k]
        · refine csd_congr T N hop hNT _ _ _ _ _ _ _ (fun t ht => hx2g a j t ha hj ht) (fun t ht => ?_) k
          rw [hy2g a j t ha hj ht]; simp [Tensor.ndim, hy]
        · intro s hs
          have h1 := hXg [a * c + j] k s
          have h2 := hYg [a * c + j] k s
          simp only [List.cons_append, List.nil_append] at h1 h2
          rw [hPg _ (by rw [hXs]; exact ⟨idx_lt ha hj, hk, by rw [← hSe]; exact hs, trivial⟩), h1, h2]
    · have hy : y.shape = [b, T] := by simpa using hy
      obtain ⟨Y, hY, hYs, hYg⟩ := stft_ok y window [b] T N hop hy (by simp) hN hNT hhop hw
      rw [hSe] at hYs
      by_cases hc1 : c = 1
      · subst hc1
        obtain ⟨P, hP, hPs, hPg⟩ := zipB_same (fun a b => (starRingEnd ℂ) a * b) X Y (by rw [hXs, hYs]; simp)
        obtain ⟨o, ho, hos, hog⟩ := fastTail_cross P [b * 1] x2.ndim N S scale average (some (b, 1))
          (by rw [hPs, hXs]) hS (by simp [Tensor.ndim, hx2s, hPs, hXs])
        obtain ⟨z, hz, hzs, hzg⟩ := finish_batch o b 1 (N / 2 + 1) hos hb hc
        refine ⟨z, ?_, hzs, ?_⟩
        · unfold fastSpectralDensity
          simp [Tensor.ndim, hx, hy, validateShapes, hT, flattenBatch, Tensor.lastDim, hx2, hX, hY, alignCross, hP, hXs, hYs, hx2s]
          rw [← hz, ← ho]; simp [Tensor.ndim, hx2s]
        · intro i k hi hk
          obtain ⟨a, j, rfl, ha, hj⟩ := hi.eq2
          have e := hog [a * 1 + j] k rfl hk
          simp only [List.cons_append, List.nil_append] at e ⊢
          rw [hzg a j k ha hj hk, e, ← hSe]
          rw [csd_of_entries T N hop (fun t => window.get [t]) scale average (fun t => x2.get [a * 1 + j, t])
            (fun t => y.get [a, t]) k]
          · refine csd_congr T N hop hNT _ _ _ _ _ _ _ (fun t ht => hx2g a j t ha hj ht) (fun t ht => ?_) k
            simp [Tensor.ndim, hy]
          · intro s hs
            have hj0 : j = 0 := by omega
            subst hj0
            have h1 := hXg [a * 1 + 0] k s
            have h2 := hYg [a] k s
            simp only [List.cons_append, List.nil_append, Nat.mul_one, Nat.add_zero] at h1 h2 ⊢
            rw [hPg _ (by rw [hXs]; exact ⟨by omega, hk, by rw [← hSe]; exact hs, trivial⟩), h1, h2]
      · -- the channels are split off again
        have hne : ¬ (b * c = b) := by
          intro h
          have := Nat.eq_of_mul_eq_mul_left hb (h.trans (Nat.mul_one b).symm)
          omega
        have hnn : ((N : Int) / 2 + 1).toNat = N / 2 + 1 := by omega
        have hX4 := Tensor.reshapeInfer_ok X [b, c, N / 2 + 1] [] S
          (by simp [numel]; exact ⟨hb, hc⟩) (by simp [hXs, numel]; ring)
        generalize hX4e : (⟨[b, c, N / 2 + 1] ++ [S], fun i => X.get (unravel X.shape (ravel ([b, c, N / 2 + 1] ++ [S]) i))⟩ : Tensor ℂ) = X4 at hX4
        have hX4s : X4.shape = [b, c, N / 2 + 1, S] := by rw [← hX4e]; rfl
        have hX4g : ∀ a j k s, a < b → j < c → k < N / 2 + 1 → s < S → X4.get [a, j, k, s] = X.get [a * c + j, k, s] := by
          intro a j k s ha hj hk hs
          rw [← hX4e]
          have h1 : k * S + s < (N / 2 + 1) * S := idx_lt hk hs
          have h2 : j * ((N / 2 + 1) * S) + (k * S + s) < c * ((N / 2 + 1) * S) := idx_lt hj h1
          have e : a * (c * ((N / 2 + 1) * S)) + (j * ((N / 2 + 1) * S) + (k * S + s)) =
            (a * c + j) * ((N / 2 + 1) * S) + (k * S + s) := by ring
          simp only [List.cons_append, List.nil_append, ravel, numel, hXs, unravel, Nat.mul_one, Nat.add_zero, e,
            idx_div _ h1, idx_mod _ h1, idx_div _ hs, idx_mod _ hs, Nat.div_one]
        obtain ⟨P, hP, hPs, hPg⟩ : ∃ P, Tensor.zipB (fun a b => (starRingEnd ℂ) a * b) X4
            (⟨[b, 1, N / 2 + 1, S], fun i => Y.get (i.getD 0 0 :: i.tail.tail)⟩ : Tensor ℂ) = .ok P ∧
            P.shape = [b, c, N / 2 + 1, S] ∧ ∀ a j k s, a < b → j < c → k < N / 2 + 1 → s < S →
              P.get [a, j, k, s] = (starRingEnd ℂ) (X4.get [a, j, k, s]) * Y.get [a, k, s] := by
          unfold Tensor.zipB
          have e : Tensor.bcShapeRev X4.shape.reverse [b, 1, N / 2 + 1, S].reverse = some [S, N / 2 + 1, c, b] := by
            simp [hX4s, Tensor.bcShapeRev, hc1]
          dsimp only
          rw [e]
          refine ⟨_, rfl, by simp, ?_⟩
          intro a j k s ha hj hk hs
          have e1 := bcIdx_self X4.shape [a, j, k, s] (by rw [hX4s]; exact ⟨ha, hj, hk, hs, trivial⟩)
          have e2 := bcIdx_self Y.shape [a, k, s] (by rw [hYs]; exact ⟨ha, hk, hs, trivial⟩)
          have e3 : (Tensor.bcIdx [b, 1, N / 2 + 1, S] [a, j, k, s]).getD 0 0 ::
              (Tensor.bcIdx [b, 1, N / 2 + 1, S] [a, j, k, s]).tail.tail = Tensor.bcIdx Y.shape [a, k, s] := by
            simp [Tensor.bcIdx, hYs]
          simp only [e1, e3, e2]
        obtain ⟨o, ho, hos, hog⟩ := fastTail_cross P [b, c] x2.ndim N S scale average (some (b, c))
          (by rw [hPs]; rfl) hS (by simp [Tensor.ndim, hx2s, hPs])
        refine ⟨o, ?_, hos, ?_⟩
        · simp only [List.getD_eq_getElem?_getD] at hP
          unfold fastSpectralDensity
          simp [Tensor.ndim, hx, hy, validateShapes, hT, flattenBatch, Tensor.lastDim, hx2, hX, hY, alignCross, hXs, hYs, hx2s, hne, hnn, hX4, hP]
          have : finish o (some (b, c)) = .ok o := by simp [finish, Tensor.ndim, hos]
          rw [← this, ← ho]; simp [Tensor.ndim, hx2s]
        · intro i k hi hk
          obtain ⟨a, j, rfl, ha, hj⟩ := hi.eq2
          have e := hog [a, j] k rfl hk
          simp only [List.cons_append, List.nil_append] at e ⊢
          rw [e, ← hSe]
          rw [csd_of_entries T N hop (fun t => window.get [t]) scale average (fun t => x2.get [a * c + j, t])
            (fun t => y.get [a, t]) k]
          · refine csd_congr T N hop hNT _ _ _ _ _ _ _ (fun t ht => hx2g a j t ha hj ht) (fun t ht => ?_) k
            simp [Tensor.ndim, hy]
          · intro s hs
            rw [hSe] at hs
            have h1 := hXg [a * c + j] k s
            have h2 := hYg [a] k s
            simp only [List.cons_append, List.nil_append] at h1 h2 ⊢
            rw [hPg a j k s ha hj hk hs, hX4g a j k s ha hj hk hs, h1, h2]

/-- Non-vacuity: a batch of 2 series with 3 channels against a batch of 2 reference series. -/
example : ∃ z, fastSpectralDensity (⟨[2, 3, 16], fun i => (ravel [2, 3, 16] i : ℝ)⟩ : Tensor ℝ) (8 : ℕ) (4 : ℕ)
    ⟨[8], fun _ => 1⟩ 1 "mean" (some ⟨[2, 16], fun i => (ravel [2, 16] i : ℝ) ^ 2⟩) = .ok z ∧ z.shape = [2, 3, 5] :=
  let ⟨z, h, hs, _⟩ := cross_density_correct (⟨[2, 3, 16], fun i => (ravel [2, 3, 16] i : ℝ)⟩ : Tensor ℝ)
    ⟨[2, 16], fun i => (ravel [2, 16] i : ℝ) ^ 2⟩ ⟨[8], fun _ => 1⟩ [2, 3] 16 8 4 1 "mean" rfl (.inr rfl)
    (by simp) (by simp) (by norm_num) (by norm_num) (by norm_num) rfl
  ⟨z, h, hs⟩

/-! ## C24: the median -/

theorem countP_all {α : Type _} (p : α → Bool) (l : List α) (h : ∀ a ∈ l, p a = true) :
    l.countP p = l.length := List.countP_eq_length.2 h

theorem quantile50_isMedian (l : List ℝ) (hl : l ≠ []) : Welch.IsMedian l (Welch.median l) := by
  have hn : 0 < l.length := List.length_pos_of_ne_nil hl
  have hperm := List.perm_insertionSort (· ≤ ·) l
  have hsort : (l.insertionSort (· ≤ ·)).Pairwise (· ≤ ·) := List.pairwise_insertionSort (· ≤ ·) l
  have hlen : (l.insertionSort (· ≤ ·)).length = l.length := hperm.length_eq
  unfold Welch.IsMedian Welch.median
  rw [← hperm.countP_eq, ← hperm.countP_eq]
  generalize hs : l.insertionSort (· ≤ ·) = s at *
  have hle : ∀ i j (hi : i < s.length) (hj : j < s.length), i ≤ j → s[i] ≤ s[j] := by
    intro i j hi hj hij
    rcases Nat.lt_or_ge i j with h | h
    · exact List.pairwise_iff_getElem.1 hsort i j hi hj h
    · have : i = j := by omega
      subst this; exact le_refl _
  have ha : (l.length - 1) / 2 < s.length := by omega
  have hb : l.length / 2 < s.length := by omega
  have hab := hle _ _ ha hb (by omega)
  have e1 : s.getD ((l.length - 1) / 2) 0 = s[(l.length - 1) / 2] := List.getD_eq_getElem s 0 ha
  have e2 : s.getD (l.length / 2) 0 = s[l.length / 2] := List.getD_eq_getElem s 0 hb
  have key : ∀ m : ℝ, s[(l.length - 1) / 2] ≤ m → m ≤ s[l.length / 2] →
      l.length ≤ 2 * s.countP (fun v => decide (v ≤ m)) ∧ l.length ≤ 2 * s.countP (fun v => decide (m ≤ v)) := by
    intro m hm1 hm2
    constructor
    · have h1 := List.countP_append (p := fun v => decide (v ≤ m))
        (l₁ := s.take ((l.length - 1) / 2 + 1)) (l₂ := s.drop ((l.length - 1) / 2 + 1))
      rw [List.take_append_drop] at h1
      have h2 := countP_all (fun v => decide (v ≤ m))
        (s.take ((l.length - 1) / 2 + 1)) (by
          intro v hv
          obtain ⟨i, hi, rfl⟩ := List.mem_iff_getElem.1 hv
          have hi' : i < (l.length - 1) / 2 + 1 := by
            simp only [List.length_take] at hi; omega
          rw [List.getElem_take]
          have := hle i _ (by omega) ha (by omega)
          simp only [decide_eq_true_eq]
          linarith)
      rw [h1, h2]
      simp only [List.length_take]
      omega
    · have h1 := List.countP_append (p := fun v => decide (m ≤ v))
        (l₁ := s.take (l.length / 2)) (l₂ := s.drop (l.length / 2))
      rw [List.take_append_drop] at h1
      have h2 := countP_all (fun v => decide (m ≤ v))
        (s.drop (l.length / 2)) (by
          intro v hv
          obtain ⟨i, hi, rfl⟩ := List.mem_iff_getElem.1 hv
          simp only [List.length_drop] at hi
          rw [List.getElem_drop]
          have := hle _ (l.length / 2 + i) hb (by omega) (by omega)
          simp only [decide_eq_true_eq]
          linarith)
      rw [h1, h2]
      simp only [List.length_drop]
      omega
  refine key _ ?_ ?_
  · dsimp only; rw [e1, e2]; linarith
  · dsimp only; rw [e1, e2]; linarith

/-- **C24.**  For every non-empty list of values, `median` is a median of the values divided by the
alternating harmonic sum `1 - 1/2 + 1/3 - ..` (an odd number of terms), which lies in `(1/2, 1]`, so the
division is always defined. -/
theorem median_correct (l : List ℝ) (hl : l ≠ []) :
    ∃ m, Welch.IsMedian l m ∧ median l = m / Welch.altHarmonic l.length ∧
      1 / 2 < Welch.altHarmonic l.length ∧ Welch.altHarmonic l.length ≤ 1 := by
  have hn : 0 < l.length := List.length_pos_of_ne_nil hl
  refine ⟨_, quantile50_isMedian l hl, ?_, ?_, ?_⟩
  · rw [← medianBias_altHarmonic _ hn]; rfl
  · rw [← medianBias_altHarmonic _ hn]; exact medianBias_gt _
  · rw [← medianBias_altHarmonic _ hn]; exact medianBias_le _

/-- Non-vacuity. -/
example : ∃ m, Welch.IsMedian [3, 1, 2] m ∧ median [3, 1, 2] = m / Welch.altHarmonic 3 :=
  let ⟨m, h1, h2, _⟩ := median_correct [3, 1, 2] (by simp)
  ⟨m, h1, h2⟩

/-! ## C25: shapes -/

/-- **C25.**  Shapes are accepted exactly when `x` has 1 to 3 dimensions, at least `nperseg` samples, and
`y` (if given) has the shape of `x` or the shape of `x` without the channel dimension. -/
theorem shapes_accepted_iff (xlead : List Nat) (T : ℕ) (N : Int) (y : Option (List Nat))
    (hy : y ≠ some []) :
    (validateShapes (xlead ++ [T]) N y = .ok () ↔
      N ≤ T ∧ xlead.length ≤ 2 ∧
        (y = none ∨ y = some (xlead ++ [T]) ∨ y = some (xlead.dropLast ++ [T]))) ∧
    (validateShapes (xlead ++ [T]) N y ≠ .ok () → validateShapes (xlead ++ [T]) N y = .error .value) := by
  unfold validateShapes
  simp only [List.getLast?_append, List.getLast?_singleton, Option.some_or, List.length_append, List.length_singleton]
  by_cases h1 : (T : Int) < N
  · simp only [h1, if_true]
    refine ⟨⟨fun h => (by cases h), fun h => by omega⟩, fun _ => trivial⟩
  · by_cases h2 : xlead.length + 1 > 3
    · simp only [h1, if_false, h2, if_true]
      refine ⟨⟨fun h => (by cases h), fun h => by omega⟩, fun _ => trivial⟩
    · simp only [h1, if_false, h2]
      cases y with
      | none => simp; omega
      | some y =>
        have hyne : y ≠ [] := fun h => hy (by rw [h])
        obtain ⟨yl, U, rfl⟩ : ∃ yl U, y = yl ++ [U] :=
          ⟨y.dropLast, y.getLast hyne, (List.dropLast_append_getLast hyne).symm⟩
        have hinj : ∀ a b : List Nat, ∀ u v : ℕ, a ++ [u] = b ++ [v] ↔ a = b ∧ u = v := by
          intro a b u v
          constructor
          · intro h; simpa using h
          · rintro ⟨rfl, rfl⟩; rfl
        simp only [List.getLast?_append, List.getLast?_singleton, Option.some_or, List.length_append,
          List.length_singleton, Option.some.injEq, hinj, reduceCtorEq, false_or]
        by_cases h3 : T = U
        · subst h3
          rcases list_len_le2 xlead (by omega) with h | ⟨c, h⟩ | ⟨b, c, h⟩
          · subst h
            match yl with
            | [] => simp; omega
            | a :: yl => simp
          · subst h
            match yl with
            | [] => simp; omega
            | [a] => by_cases h : a = c <;> simp [h]; omega
            | a :: a' :: yl => simp
          · subst h
            match yl with
            | [] => simp
            | [a] => by_cases h : a = b <;> simp [h]; omega
            | [a, a'] => by_cases h : a = b ∧ a' = c <;> simp [h]; omega
            | a :: a' :: a'' :: yl => simp
        · simp only [ne_eq, h3, not_false_eq_true, if_true, Ne.symm h3]
          refine ⟨⟨fun h => (by cases h), fun h => ?_⟩, fun _ => trivial⟩
          simp at h

/-- **C25 (negation of a documented case).**  The documentation allows a 2-dimensional `y` that is a
single multichannel series for a batch `x`; the code rejects it whenever the number of channels differs
from the batch size. -/
theorem shapes_documented_multichannel_rejected (b c T : ℕ) (N : Int) (h : b ≠ c) :
    validateShapes [b, c, T] N (some [c, T]) = .error .value := by
  have := (shapes_accepted_iff [b, c] T N (some [c, T]) (by simp))
  apply this.2
  intro h'
  have := (this.1.1 h').2.2
  simp [h.symm] at this

example : validateShapes [2, 3, 8] 4 (some [2, 8]) = .ok () ∧ validateShapes [2, 3, 8] 4 (some [3, 8]) = .error .value := by
  decide

/-! ## C26: positivity, scaling, shift invariance -/

theorem median_smul (c : ℝ) (hc : 0 ≤ c) (l : List ℝ) :
    Welch.median (l.map (c * ·)) = c * Welch.median l := by
  have h : (l.map (c * ·)).insertionSort (· ≤ ·) = (l.insertionSort (· ≤ ·)).map (c * ·) := by
    apply List.Perm.eq_of_pairwise (le := (· ≤ ·))
    · intro a b _ _ h1 h2; exact le_antisymm h1 h2
    · exact List.pairwise_insertionSort _ _
    · rw [List.pairwise_map]
      exact (List.pairwise_insertionSort (· ≤ ·) l).imp fun h => mul_le_mul_of_nonneg_left h hc
    · exact (List.perm_insertionSort _ _).trans ((List.perm_insertionSort _ l).symm.map _)
  unfold Welch.median
  simp only [h, List.length_map]
  have e : ∀ (s : List ℝ) n, (s.map (c * ·)).getD n 0 = c * s.getD n 0 := by
    intro s n
    have := List.getD_map (f := (c * ·)) (l := s) (d := 0) (n := n)
    simpa using this
  rw [e, e]; ring

theorem combine_smul (average : String) (S : ℕ) (c : ℝ) (hc : 0 ≤ c) (f : ℕ → ℝ) :
    Welch.combine average S (fun s => c * f s) = c * Welch.combine average S f := by
  unfold Welch.combine Welch.mean
  split_ifs
  · rw [← Finset.mul_sum]; ring
  · have : (List.range S).map (fun s => c * f s) = ((List.range S).map f).map (c * ·) := by
      simp [Function.comp_def]
    rw [this, median_smul c hc]; ring

theorem combine_nonneg (average : String) (S : ℕ) (hS : 0 < S) (f : ℕ → ℝ) (hf : ∀ s < S, 0 ≤ f s) :
    0 ≤ Welch.combine average S f := by
  unfold Welch.combine Welch.mean
  split_ifs
  · exact div_nonneg (Finset.sum_nonneg fun s hs => hf s (by simpa using hs)) (Nat.cast_nonneg S)
  · rw [← medianBias_altHarmonic S hS]
    refine div_nonneg ?_ (by have := medianBias_gt S; linarith)
    unfold Welch.median
    have hperm := List.perm_insertionSort (· ≤ ·) ((List.range S).map f)
    have h0 : ∀ n, 0 ≤ (((List.range S).map f).insertionSort (· ≤ ·)).getD n 0 := by
      intro n
      rcases Nat.lt_or_ge n (((List.range S).map f).insertionSort (· ≤ ·)).length with h | h
      · rw [List.getD_eq_getElem _ 0 h]
        have := hperm.mem_iff.1 (List.getElem_mem h)
        obtain ⟨s, hs, he⟩ := List.mem_map.1 this
        rw [← he]; exact hf s (by simpa using hs)
      · rw [List.getD_eq_default _ 0 h]
    have h1 := h0 ((((List.range S).map f).length - 1) / 2)
    have h2 := h0 (((List.range S).map f).length / 2)
    dsimp only
    linarith

theorem mean_affine (N : ℕ) (hN : 0 < N) (a c : ℝ) (f : ℕ → ℝ) :
    Welch.mean N (fun t => a * f t + c) = a * Welch.mean N f + c := by
  have : (N : ℝ) ≠ 0 := by positivity
  unfold Welch.mean
  rw [Finset.sum_add_distrib, ← Finset.mul_sum]
  simp
  field_simp

theorem spec_smul (N : ℕ) (w f : ℕ → ℝ) (a : ℝ) (k : ℕ) :
    Welch.spec N w (fun t => a * f t) k = a * Welch.spec N w f k := by
  unfold Welch.spec
  rw [← rfft_mul_left]
  exact rfft_congr N _ _ (fun t _ => by ring) k

theorem psd_nonneg (T N hop : ℕ) (w : ℕ → ℝ) (scale : ℝ) (hs : 0 ≤ scale) (average : String) (x : ℕ → ℝ) (k : ℕ) :
    0 ≤ Welch.psd T N hop w scale average x k :=
  combine_nonneg _ _ (Nat.succ_pos _) _ fun s _ => by
    have : 0 ≤ Welch.oneSided N k := by unfold Welch.oneSided; split_ifs <;> norm_num
    positivity

theorem psdFast_nonneg (T N hop : ℕ) (w : ℕ → ℝ) (scale : ℝ) (hs : 0 ≤ scale) (average : String) (x : ℕ → ℝ) (k : ℕ) :
    0 ≤ Welch.psdFast T N hop w scale average x k :=
  combine_nonneg _ _ (Nat.succ_pos _) _ fun s _ => by
    have : 0 ≤ Welch.oneSided N k := by unfold Welch.oneSided; split_ifs <;> norm_num
    positivity

theorem psd_affine (T N hop : ℕ) (hN : 0 < N) (hNT : N ≤ T) (w : ℕ → ℝ) (scale : ℝ) (average : String) (x x' : ℕ → ℝ)
    (a c : ℝ) (h : ∀ t < T, x' t = a * x t + c) (k : ℕ) :
    Welch.psd T N hop w scale average x' k = a ^ 2 * Welch.psd T N hop w scale average x k := by
  unfold Welch.psd
  rw [← combine_smul _ _ _ (sq_nonneg a)]
  refine combine_congr _ _ _ _ fun s hs' => ?_
  have hs : s * hop + N ≤ T := by
    have h1 : s ≤ (T - N) / hop := by unfold Welch.segments at hs'; omega
    have h2 := Nat.mul_le_mul_right hop h1
    have := Nat.div_mul_le_self (T - N) hop
    omega
  have hm : Welch.mean N (Welch.segment hop x' s) = a * Welch.mean N (Welch.segment hop x s) + c := by
    rw [← mean_affine N hN]
    unfold Welch.mean
    congr 1
    refine Finset.sum_congr rfl fun t ht => ?_
    have : t < N := by simpa using ht
    simp only [Welch.segment]
    rw [h _ (by omega)]
  have : Welch.spec N w (fun t => Welch.segment hop x' s t - Welch.mean N (Welch.segment hop x' s)) k =
      a * Welch.spec N w (fun t => Welch.segment hop x s t - Welch.mean N (Welch.segment hop x s)) k := by
    rw [← spec_smul]
    refine rfft_congr N _ _ (fun t ht => ?_) k
    rw [hm]
    simp only [Welch.segment]
    rw [h _ (by omega)]; ring
  dsimp only
  rw [this, norm_mul, mul_pow]
  simp only [Complex.norm_real, Real.norm_eq_abs, sq_abs]
  ring

theorem psdFast_affine (T N hop : ℕ) (hN : 0 < N) (hNT : N ≤ T) (w : ℕ → ℝ) (scale : ℝ) (average : String) (x x' : ℕ → ℝ)
    (a c : ℝ) (h : ∀ t < T, x' t = a * x t + c) (k : ℕ) :
    Welch.psdFast T N hop w scale average x' k = a ^ 2 * Welch.psdFast T N hop w scale average x k := by
  unfold Welch.psdFast
  rw [← combine_smul _ _ _ (sq_nonneg a)]
  refine combine_congr _ _ _ _ fun s hs' => ?_
  have hs : s * hop + N ≤ T := by
    have h1 : s ≤ (T - N) / hop := by unfold Welch.segments at hs'; omega
    have h2 := Nat.mul_le_mul_right hop h1
    have := Nat.div_mul_le_self (T - N) hop
    omega
  have hm : Welch.mean T x' = a * Welch.mean T x + c := by
    rw [← mean_affine T (by omega)]
    unfold Welch.mean
    congr 1
    exact Finset.sum_congr rfl fun t ht => h t (by simpa using ht)
  have : Welch.spec N w (fun t => Welch.segment hop x' s t - Welch.mean T x') k =
      a * Welch.spec N w (fun t => Welch.segment hop x s t - Welch.mean T x) k := by
    rw [← spec_smul]
    refine rfft_congr N _ _ (fun t ht => ?_) k
    rw [hm]
    simp only [Welch.segment]
    rw [h _ (by omega)]; ring
  rw [this, norm_mul, mul_pow]
  simp only [Complex.norm_real, Real.norm_eq_abs, sq_abs]
  ring

/-- **C26.**  For a non-negative scale both implementations return non-negative values; and if every
series of `x'` is an affine image `a·x + c` of the same series of `x` (with its own `a`, `c`), every bin of
`x'` is `a²` times that of `x` - whatever the other series are. -/
theorem spectral_density_affine (x x' window : Tensor ℝ) (lead : List Nat) (T N hop : ℕ) (scale : ℝ)
    (average : String) (hx : x.shape = lead ++ [T]) (hx' : x'.shape = lead ++ [T])
    (hr : lead.length ≤ 2) (hl : ∀ d ∈ lead, 0 < d)
    (hN : 0 < N) (hNT : N ≤ T) (hhop : 0 < hop) (hw : window.shape = [N]) (hscale : 0 ≤ scale)
    (a c : List Nat → ℝ) (hac : ∀ i t, InB i lead → t < T → x'.get (i ++ [t]) = a i * x.get (i ++ [t]) + c i) :
    (∃ y y', spectralDensity x N hop window scale average = .ok y ∧
      spectralDensity x' N hop window scale average = .ok y' ∧
      ∀ i k, InB i lead → k < N / 2 + 1 → 0 ≤ y.get (i ++ [k]) ∧ y'.get (i ++ [k]) = a i ^ 2 * y.get (i ++ [k])) ∧
    (∃ y y', fastSpectralDensity x N hop window scale average none = .ok y ∧
      fastSpectralDensity x' N hop window scale average none = .ok y' ∧
      ∀ i k, InB i lead → k < N / 2 + 1 → (y.get (i ++ [k])).im = 0 ∧ 0 ≤ (y.get (i ++ [k])).re ∧
        y'.get (i ++ [k]) = a i ^ 2 * y.get (i ++ [k])) := by
  constructor
  · obtain ⟨y, hy, -, hyg⟩ := spectral_density_correct x window lead T N hop scale average hx hr hl hN hNT hhop hw
    obtain ⟨y', hy', -, hyg'⟩ := spectral_density_correct x' window lead T N hop scale average hx' hr hl hN hNT hhop hw
    refine ⟨y, y', hy, hy', fun i k hi hk => ⟨?_, ?_⟩⟩
    · rw [hyg i k hi hk]; exact psd_nonneg _ _ _ _ _ hscale _ _ _
    · rw [hyg i k hi hk, hyg' i k hi hk]
      exact psd_affine T N hop hN hNT _ _ _ _ _ _ _ (fun t ht => hac i t hi ht) k
  · obtain ⟨y, hy, -, hyg⟩ := fast_density_correct x window lead T N hop scale average hx hr hl hN hNT hhop hw
    obtain ⟨y', hy', -, hyg'⟩ := fast_density_correct x' window lead T N hop scale average hx' hr hl hN hNT hhop hw
    refine ⟨y, y', hy, hy', fun i k hi hk => ⟨?_, ?_, ?_⟩⟩
    · rw [hyg i k hi hk]; simp
    · rw [hyg i k hi hk]; simpa using psdFast_nonneg _ _ _ _ _ hscale _ _ _
    · rw [hyg i k hi hk, hyg' i k hi hk,
        psdFast_affine T N hop hN hNT _ _ _ _ _ _ _ (fun t ht => hac i t hi ht) k]
      push_cast; rfl

/-- **C27 (Parseval).**  With the density scale `1/(sample_rate Σ w²)` and mean averaging, the sum of the
one-sided density over the bins times the bin width `sample_rate/N` is the average over the segments of
the window-weighted mean square of the detrended segment. -/
theorem spectral_density_parseval (x window : Tensor ℝ) (lead : List Nat) (T N hop : ℕ) (sr : ℝ)
    (hx : x.shape = lead ++ [T]) (hr : lead.length ≤ 2) (hl : ∀ d ∈ lead, 0 < d)
    (hN : 0 < N) (hNT : N ≤ T) (hhop : 0 < hop) (hw : window.shape = [N]) (hsr : 0 < sr)
    (hw0 : ∑ t ∈ range N, window.get [t] ^ 2 ≠ 0) :
    ∃ y, spectralDensity x N hop window (1 / (sr * ∑ t ∈ range N, window.get [t] ^ 2)) "mean" = .ok y ∧
      ∀ i, InB i lead → ∑ k ∈ range (N / 2 + 1), y.get (i ++ [k]) * (sr / N) =
        Welch.mean (Welch.segments T N hop) fun s =>
          let seg := Welch.segment hop (fun t => x.get (i ++ [t])) s
          (∑ t ∈ range N, (window.get [t] * (seg t - Welch.mean N seg)) ^ 2) / ∑ t ∈ range N, window.get [t] ^ 2 := by
  obtain ⟨y, hy, -, hyg⟩ := spectral_density_correct x window lead T N hop
    (1 / (sr * ∑ t ∈ range N, window.get [t] ^ 2)) "mean" hx hr hl hN hNT hhop hw
  refine ⟨y, hy, ?_⟩
  intro i hi
  rw [Finset.sum_congr rfl fun k hk => by rw [hyg i k hi (by simpa using hk)]]
  unfold Welch.psd Welch.combine Welch.mean
  simp only [if_true]
  rw [← Finset.sum_mul, ← Finset.sum_div, Finset.sum_comm, div_mul_eq_mul_div, Finset.sum_mul]
  congr 1
  refine Finset.sum_congr rfl fun s _ => ?_
  have hp := rfft_parseval N hN (fun t => window.get [t] * (Welch.segment hop (fun t => x.get (i ++ [t])) s t -
    Welch.mean N (Welch.segment hop (fun t => x.get (i ++ [t])) s)))
  have hN' : (N : ℝ) ≠ 0 := by positivity
  unfold Welch.spec Welch.oneSided
  simp only [mul_assoc (1 / (sr * ∑ t ∈ range N, window.get [t] ^ 2))]
  rw [← Finset.mul_sum]
  unfold Welch.mean at hp
  rw [hp]
  field_simp

/-- Non-vacuity of C26/C27. -/
example : ∃ y, spectralDensity (⟨[2, 8], fun i => (ravel [2, 8] i : ℝ)⟩ : Tensor ℝ) 4 2
    ⟨[4], fun _ => 1⟩ (1 / (16 * ∑ t ∈ range 4, ((⟨[4], fun _ => 1⟩ : Tensor ℝ).get [t]) ^ 2)) "mean" = .ok y :=
  let ⟨y, h, _⟩ := spectral_density_parseval (⟨[2, 8], fun i => (ravel [2, 8] i : ℝ)⟩ : Tensor ℝ)
    ⟨[4], fun _ => 1⟩ [2] 8 4 2 16 rfl (by simp) (by simp) (by norm_num) (by norm_num) (by norm_num) rfl (by norm_num)
    (by simp)
  ⟨y, h⟩

/-! ## Fast and exact densities agree above bin 1 for the default window -/

/-- The DFT of the periodic Hann window is zero in the bins `2..N/2`. -/
theorem hann_bins (N k : ℕ) (hk : 2 ≤ k) (hkN : k ≤ N / 2) :
    rfft N (fun t => 1 / 2 * (1 - Real.cos (2 * Real.pi * t / N))) k = 0 := by
  have hN : 0 < N := by omega
  have hcos : ∀ t : ℕ, ((1 / 2 * (1 - Real.cos (2 * Real.pi * t / N)) : ℝ) : ℂ) =
      1 / 2 - 1 / 4 * ω N (t * 1) - 1 / 4 * ω N (t * (-1)) := by
    intro t
    have h1 : ω N (t * 1) = Complex.exp (((2 * Real.pi * t / N : ℝ) : ℂ) * Complex.I) := by
      rw [ω]; congr 1; push_cast; ring
    have h2 : ω N (t * (-1)) = Complex.exp (-((2 * Real.pi * t / N : ℝ) : ℂ) * Complex.I) := by
      rw [ω]; congr 1; push_cast; ring
    rw [h1, h2]
    rw [Complex.ofReal_mul, Complex.ofReal_sub, Complex.ofReal_cos, Complex.cos]
    push_cast
    ring
  unfold rfft dft
  have : ∀ t ∈ range N, ((1 / 2 * (1 - Real.cos (2 * Real.pi * t / N)) : ℝ) : ℂ) * ω N (-((k : ℤ) * t)) =
      1 / 2 * ω N (t * (-(k : ℤ))) - 1 / 4 * ω N (t * (1 - k)) - 1 / 4 * ω N (t * (-1 - k)) := by
    intro t _
    rw [hcos]
    have e1 : -((k : ℤ) * t) = (t : ℤ) * (-(k : ℤ)) := by ring
    have e2 : ω N (t * (1 - k)) = ω N (t * 1) * ω N (t * (-(k : ℤ))) := by rw [← ω_add]; congr 1; ring
    have e3 : ω N (t * (-1 - k)) = ω N (t * (-1)) * ω N (t * (-(k : ℤ))) := by rw [← ω_add]; congr 1; ring
    rw [e1, e2, e3]; ring
  rw [Finset.sum_congr rfl this, Finset.sum_sub_distrib, Finset.sum_sub_distrib, ← Finset.mul_sum, ← Finset.mul_sum,
    ← Finset.mul_sum, sum_ω N hN, sum_ω N hN, sum_ω N hN]
  have d1 : ¬ ((N : ℤ) ∣ -(k : ℤ)) := by
    intro h
    have := Int.eq_zero_of_abs_lt_dvd h (by rw [abs_lt]; omega)
    omega
  have d2 : ¬ ((N : ℤ) ∣ 1 - (k : ℤ)) := by
    intro h
    have := Int.eq_zero_of_abs_lt_dvd h (by rw [abs_lt]; omega)
    omega
  have d3 : ¬ ((N : ℤ) ∣ -1 - (k : ℤ)) := by
    intro h
    have := Int.eq_zero_of_abs_lt_dvd h (by rw [abs_lt]; omega)
    omega
  simp [d1, d2, d3]

/-- **C66.**  With the default (periodic Hann) window the fast density equals the exact one in every bin
but the two lowest, for every series, as documented. -/
theorem fast_density_exact_above_bin1 (x : Tensor ℝ) (lead : List Nat) (T N hop : ℕ) (scale : ℝ)
    (average : String) (hx : x.shape = lead ++ [T]) (hr : lead.length ≤ 2) (hl : ∀ d ∈ lead, 0 < d)
    (hN : 0 < N) (hNT : N ≤ T) (hhop : 0 < hop) (window : Tensor ℝ) (hw : window.shape = [N])
    (hann : ∀ t < N, window.get [t] = 1 / 2 * (1 - Real.cos (2 * Real.pi * t / N))) :
    ∃ y z, spectralDensity x N hop window scale average = .ok y ∧
      fastSpectralDensity x N hop window scale average none = .ok z ∧
      ∀ i k, InB i lead → 2 ≤ k → k < N / 2 + 1 → z.get (i ++ [k]) = (y.get (i ++ [k]) : ℝ) := by
  obtain ⟨y, hy, -, hyg⟩ := spectral_density_correct x window lead T N hop scale average hx hr hl hN hNT hhop hw
  obtain ⟨z, hz, -, hzg⟩ := fast_density_correct x window lead T N hop scale average hx hr hl hN hNT hhop hw
  refine ⟨y, z, hy, hz, fun i k hi hk2 hk => ?_⟩
  rw [hyg i k hi hk, hzg i k hi hk]
  congr 1
  unfold Welch.psd Welch.psdFast
  refine combine_congr _ _ _ _ fun s _ => ?_
  dsimp only
  congr 3
  have key : ∀ c : ℝ, ∀ f : ℕ → ℝ, Welch.spec N (fun t => window.get [t]) (fun t => f t - c) k =
      Welch.spec N (fun t => window.get [t]) f k := by
    intro c f
    unfold Welch.spec
    have h1 : rfft N (fun t => window.get [t] * (f t - c)) k =
        rfft N (fun t => window.get [t] * f t + (-c) * window.get [t]) k :=
      rfft_congr N _ _ (fun t _ => by ring) k
    rw [h1, rfft_add, rfft_mul_left, rfft_congr N (fun t => window.get [t]) _ hann, hann_bins N k hk2 (by omega)]
    simp
  rw [key, key]

example : ∃ y z, spectralDensity (⟨[2, 16], fun i => (ravel [2, 16] i : ℝ)⟩ : Tensor ℝ) (8 : ℕ) (4 : ℕ)
    ⟨[8], fun i => 1 / 2 * (1 - Real.cos (2 * Real.pi * (i.getD 0 0 : ℕ) / (8 : ℕ)))⟩ 1 "median" = .ok y ∧
    fastSpectralDensity (⟨[2, 16], fun i => (ravel [2, 16] i : ℝ)⟩ : Tensor ℝ) (8 : ℕ) (4 : ℕ)
    ⟨[8], fun i => 1 / 2 * (1 - Real.cos (2 * Real.pi * (i.getD 0 0 : ℕ) / (8 : ℕ)))⟩ 1 "median" none = .ok z ∧
    z.get [1, 3] = (y.get [1, 3] : ℝ) :=
  let ⟨y, z, h1, h2, h3⟩ := fast_density_exact_above_bin1 (⟨[2, 16], fun i => (ravel [2, 16] i : ℝ)⟩ : Tensor ℝ)
    [2] 16 8 4 1 "median" rfl (by simp) (by simp) (by norm_num) (by norm_num) (by norm_num)
    ⟨[8], fun i => 1 / 2 * (1 - Real.cos (2 * Real.pi * (i.getD 0 0 : ℕ) / (8 : ℕ)))⟩ rfl (fun _ _ => rfl)
  ⟨y, z, h1, h2, h3 [1] 3 ⟨by norm_num, trivial⟩ (by norm_num) (by norm_num)⟩

end Verif.Spectral
