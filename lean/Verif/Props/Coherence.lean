import Verif.Props.Spectral
import Verif.Lemmas.Broadcast
import Mathlib.Algebra.Order.Chebyshev
import Mathlib.Data.List.GetD
/-!
# Cross spectral densities as inner products (C89)

`fast_spectral_density` with two series (spectral.py:88-246): exchanging the series conjugates the result, a series against itself gives its power, and with `average="mean"`
the coherence never exceeds one.  With `average="median"` it can.
-/
set_option linter.unusedSimpArgs false
namespace Verif.Spectral
open Finset Verif.Fourier Spec Classical

theorem median_neg (l : List ℝ) : Welch.median (l.map (-·)) = - Welch.median l := by
  have h : (l.map (-·)).insertionSort (· ≤ ·) = ((l.insertionSort (· ≤ ·)).map (-·)).reverse := by
    apply List.Perm.eq_of_pairwise (le := (· ≤ ·))
    · intro a b _ _ h1 h2; exact le_antisymm h1 h2
    · exact List.pairwise_insertionSort _ _
    · rw [List.pairwise_reverse, List.pairwise_map]
      exact (List.pairwise_insertionSort (· ≤ ·) l).imp fun h => neg_le_neg h
    · exact (List.perm_insertionSort _ _).trans (((List.perm_insertionSort _ l).symm.map _).trans (List.reverse_perm _).symm)
  unfold Welch.median
  dsimp only
  rw [h]
  have hl : (l.insertionSort (· ≤ ·)).length = l.length := List.length_insertionSort _ _
  generalize l.insertionSort (· ≤ ·) = s at *
  have e : ∀ n < l.length, ((s.map (-·)).reverse).getD n 0 = - s.getD (l.length - 1 - n) 0 := by
    intro n hn
    rw [List.getD_eq_getElem _ _ (by simpa [hl] using hn), List.getElem_reverse, List.getElem_map, List.getD_eq_getElem _ _ (by omega)]
    simp [hl]
  rcases Nat.eq_zero_or_pos l.length with h0 | h0
  · have : s = [] := List.length_eq_zero_iff.1 (hl.trans h0)
    subst this
    simp
  · rw [List.length_map, e _ (by omega), e _ (by omega)]
    have h1 : l.length - 1 - (l.length - 1) / 2 = l.length / 2 := by omega
    have h2 : l.length - 1 - l.length / 2 = (l.length - 1) / 2 := by omega
    rw [h1, h2]
    ring

theorem combine_neg (average : String) (S : ℕ) (f : ℕ → ℝ) :
    Welch.combine average S (fun s => - f s) = - Welch.combine average S f := by
  unfold Welch.combine Welch.mean
  split_ifs
  · rw [Finset.sum_neg_distrib]; ring
  · have : (List.range S).map (fun s => - f s) = ((List.range S).map f).map (-·) := by simp [Function.comp_def]
    rw [this, median_neg]; ring

theorem combine_zero (average : String) (S : ℕ) : Welch.combine average S (fun _ => 0) = 0 := by
  have := combine_smul average S 0 le_rfl (fun _ => 0)
  simpa using this

theorem csd_swap (T N hop : ℕ) (w : ℕ → ℝ) (scale : ℝ) (average : String) (x y : ℕ → ℝ) (k : ℕ) :
    Welch.csdFast T N hop w scale average y x k = (starRingEnd ℂ) (Welch.csdFast T N hop w scale average x y k) := by
  unfold Welch.csdFast
  dsimp only
  refine Complex.ext ?_ ?_
  · simp only [Complex.conj_re]
    congr 1
    funext s
    simp only [Complex.mul_re, Complex.mul_im, Complex.ofReal_re, Complex.ofReal_im, Complex.conj_re, Complex.conj_im]
    ring
  · simp only [Complex.conj_im]
    rw [← combine_neg]
    congr 1
    funext s
    simp only [Complex.mul_re, Complex.mul_im, Complex.ofReal_re, Complex.ofReal_im, Complex.conj_re, Complex.conj_im]
    ring

theorem csd_self (T N hop : ℕ) (w : ℕ → ℝ) (scale : ℝ) (average : String) (x : ℕ → ℝ) (k : ℕ) :
    Welch.csdFast T N hop w scale average x x k = (Welch.psdFast T N hop w scale average x k : ℝ) := by
  unfold Welch.csdFast Welch.psdFast
  dsimp only
  refine Complex.ext ?_ ?_
  · rw [Complex.ofReal_re]
    dsimp only
    congr 1
    funext s
    rw [Complex.re_ofReal_mul, conj_mul_re]
  · rw [Complex.ofReal_im]
    dsimp only
    rw [← combine_zero average (Welch.segments T N hop)]
    congr 1
    funext s
    simp only [Complex.mul_re, Complex.mul_im, Complex.ofReal_re, Complex.ofReal_im, Complex.conj_re, Complex.conj_im]
    ring

/-- The Cauchy-Schwarz inequality for the averaged cross spectrum. -/
theorem csd_cauchy (T N hop : ℕ) (w : ℕ → ℝ) (scale : ℝ) (hs : 0 ≤ scale) (x y : ℕ → ℝ) (k : ℕ) :
    ‖Welch.csdFast T N hop w scale "mean" x y k‖ ^ 2 ≤ Welch.psdFast T N hop w scale "mean" x k * Welch.psdFast T N hop w scale "mean" y k := by
  have ho : 0 ≤ scale * Welch.oneSided N k := mul_nonneg hs (by unfold Welch.oneSided; split_ifs <;> norm_num)
  unfold Welch.csdFast Welch.psdFast Welch.combine
  simp only [if_true]
  generalize scale * Welch.oneSided N k = c at *
  generalize Welch.segments T N hop = S
  generalize hX : (fun s => Welch.spec N w (fun t => Welch.segment hop x s t - Welch.mean T x) k) = X
  generalize hY : (fun s => Welch.spec N w (fun t => Welch.segment hop y s t - Welch.mean T y) k) = Y
  have hX' := fun s => congrFun hX s
  have hY' := fun s => congrFun hY s
  simp only [hX', hY']
  have e : (⟨Welch.mean S fun s => ((c : ℂ) * ((starRingEnd ℂ) (X s) * Y s)).re, Welch.mean S fun s => ((c : ℂ) * ((starRingEnd ℂ) (X s) * Y s)).im⟩ : ℂ)
      = ((c / S : ℝ) : ℂ) * ∑ s ∈ range S, (starRingEnd ℂ) (X s) * Y s := by
    unfold Welch.mean
    refine Complex.ext ?_ ?_
    · rw [Complex.re_ofReal_mul, Complex.re_sum, Finset.sum_congr rfl fun s _ => Complex.re_ofReal_mul c _, ← Finset.mul_sum]
      ring
    · rw [Complex.im_ofReal_mul, Complex.im_sum, Finset.sum_congr rfl fun s _ => Complex.im_ofReal_mul c _, ← Finset.mul_sum]
      ring
  rw [e]
  have e2 : ∀ Z : ℕ → ℂ, Welch.mean S (fun s => c * ‖Z s‖ ^ 2) = c / S * ∑ s ∈ range S, ‖Z s‖ ^ 2 := by
    intro Z
    unfold Welch.mean
    rw [← Finset.mul_sum]
    ring
  rw [e2, e2, norm_mul, mul_pow]
  have h1 : ‖∑ s ∈ range S, (starRingEnd ℂ) (X s) * Y s‖ ≤ ∑ s ∈ range S, ‖X s‖ * ‖Y s‖ := by
    refine (norm_sum_le _ _).trans (le_of_eq (Finset.sum_congr rfl fun s _ => ?_))
    rw [norm_mul, RCLike.norm_conj]
  have h2 := Finset.sum_mul_sq_le_sq_mul_sq (range S) (fun s => ‖X s‖) (fun s => ‖Y s‖)
  have h3 : ‖∑ s ∈ range S, (starRingEnd ℂ) (X s) * Y s‖ ^ 2 ≤ (∑ s ∈ range S, ‖X s‖ ^ 2) * ∑ s ∈ range S, ‖Y s‖ ^ 2 :=
    (pow_le_pow_left₀ (norm_nonneg _) h1 2).trans h2
  have h4 : ‖((c / S : ℝ) : ℂ)‖ ^ 2 = (c / S) ^ 2 := by rw [Complex.norm_real, Real.norm_eq_abs, sq_abs]
  rw [h4]
  nlinarith [mul_le_mul_of_nonneg_left h3 (sq_nonneg (c / S))]

/-- **C89 (exchange).**  Exchanging the two inputs conjugates every bin, whatever the averaging. -/
theorem cross_swap (x y window : Tensor ℝ) (lead : List Nat) (T N hop : ℕ) (scale : ℝ) (average : String)
    (hx : x.shape = lead ++ [T]) (hy : y.shape = lead ++ [T]) (hr : lead.length ≤ 2) (hl : ∀ d ∈ lead, 0 < d)
    (hN : 0 < N) (hNT : N ≤ T) (hhop : 0 < hop) (hw : window.shape = [N]) :
    ∃ a b, fastSpectralDensity x N hop window scale average (some y) = .ok a ∧ fastSpectralDensity y N hop window scale average (some x) = .ok b ∧
      b.shape = a.shape ∧ ∀ i k, InB i lead → k < N / 2 + 1 → b.get (i ++ [k]) = (starRingEnd ℂ) (a.get (i ++ [k])) := by
  obtain ⟨a, ha, has, hag⟩ := cross_density_correct x y window lead T N hop scale average hx (Or.inl hy) hr hl hN hNT hhop hw
  obtain ⟨b, hb, hbs, hbg⟩ := cross_density_correct y x window lead T N hop scale average hy (Or.inl hx) hr hl hN hNT hhop hw
  refine ⟨a, b, ha, hb, by rw [has, hbs], fun i k hi hk => ?_⟩
  have hlen : i.length = lead.length := inB_length hi
  have ex : i.take (x.ndim - 1) = i := by rw [Tensor.ndim, hx]; simp [← hlen]
  have ey : i.take (y.ndim - 1) = i := by rw [Tensor.ndim, hy]; simp [← hlen]
  rw [hag i k hi hk, hbg i k hi hk, ex, ey, csd_swap]

/-- **C89 (a series with itself).**  The cross density of a series with itself is its power spectral density, whatever the averaging. -/
theorem cross_self (x window : Tensor ℝ) (lead : List Nat) (T N hop : ℕ) (scale : ℝ) (average : String)
    (hx : x.shape = lead ++ [T]) (hr : lead.length ≤ 2) (hl : ∀ d ∈ lead, 0 < d)
    (hN : 0 < N) (hNT : N ≤ T) (hhop : 0 < hop) (hw : window.shape = [N]) :
    ∃ a b, fastSpectralDensity x N hop window scale average (some x) = .ok a ∧ fastSpectralDensity x N hop window scale average none = .ok b ∧
      b.shape = a.shape ∧ ∀ i k, InB i lead → k < N / 2 + 1 → a.get (i ++ [k]) = b.get (i ++ [k]) := by
  obtain ⟨a, ha, has, hag⟩ := cross_density_correct x x window lead T N hop scale average hx (Or.inl hx) hr hl hN hNT hhop hw
  obtain ⟨b, hb, hbs, hbg⟩ := fast_density_correct x window lead T N hop scale average hx hr hl hN hNT hhop hw
  refine ⟨a, b, ha, hb, by rw [has, hbs], fun i k hi hk => ?_⟩
  have hlen : i.length = lead.length := inB_length hi
  have ex : i.take (x.ndim - 1) = i := by rw [Tensor.ndim, hx]; simp [← hlen]
  rw [hag i k hi hk, hbg i k hi hk, ex, csd_self]

/-- **C89 (coherence).**  With `average="mean"` the squared modulus of every bin of the cross density is at most the product of the two power spectral densities at this bin:
the coherence of any two series is at most one. -/
theorem coherence_le_one (x y window : Tensor ℝ) (lead : List Nat) (T N hop : ℕ) (scale : ℝ) (hs : 0 ≤ scale)
    (hx : x.shape = lead ++ [T]) (hy : y.shape = lead ++ [T]) (hr : lead.length ≤ 2) (hl : ∀ d ∈ lead, 0 < d)
    (hN : 0 < N) (hNT : N ≤ T) (hhop : 0 < hop) (hw : window.shape = [N]) :
    ∃ c p q, fastSpectralDensity x N hop window scale "mean" (some y) = .ok c ∧ fastSpectralDensity x N hop window scale "mean" none = .ok p ∧
      fastSpectralDensity y N hop window scale "mean" none = .ok q ∧
      ∀ i k, InB i lead → k < N / 2 + 1 → ‖c.get (i ++ [k])‖ ^ 2 ≤ (p.get (i ++ [k])).re * (q.get (i ++ [k])).re := by
  obtain ⟨c, hc, -, hcg⟩ := cross_density_correct x y window lead T N hop scale "mean" hx (Or.inl hy) hr hl hN hNT hhop hw
  obtain ⟨p, hp, -, hpg⟩ := fast_density_correct x window lead T N hop scale "mean" hx hr hl hN hNT hhop hw
  obtain ⟨q, hq, -, hqg⟩ := fast_density_correct y window lead T N hop scale "mean" hy hr hl hN hNT hhop hw
  refine ⟨c, p, q, hc, hp, hq, fun i k hi hk => ?_⟩
  have hlen : i.length = lead.length := inB_length hi
  have ey : i.take (y.ndim - 1) = i := by rw [Tensor.ndim, hy]; simp [← hlen]
  rw [hcg i k hi hk, hpg i k hi hk, hqg i k hi hk, ey, Complex.ofReal_re, Complex.ofReal_re]
  exact csd_cauchy T N hop _ scale hs _ _ k

/-- **C89 (coherence, one reference for all channels).**  The same when `y` has no channel dimension: every channel is bounded by its own power and that of the shared reference. -/
theorem coherence_le_one_shared (x y window : Tensor ℝ) (lead : List Nat) (ch T N hop : ℕ) (scale : ℝ) (hs : 0 ≤ scale)
    (hx : x.shape = lead ++ [ch] ++ [T]) (hy : y.shape = lead ++ [T]) (hr : lead.length ≤ 1) (hl : ∀ d ∈ lead ++ [ch], 0 < d)
    (hN : 0 < N) (hNT : N ≤ T) (hhop : 0 < hop) (hw : window.shape = [N]) :
    ∃ c p q, fastSpectralDensity x N hop window scale "mean" (some y) = .ok c ∧ fastSpectralDensity x N hop window scale "mean" none = .ok p ∧
      fastSpectralDensity y N hop window scale "mean" none = .ok q ∧
      ∀ i j k, InB i lead → j < ch → k < N / 2 + 1 → ‖c.get (i ++ [j] ++ [k])‖ ^ 2 ≤ (p.get (i ++ [j] ++ [k])).re * (q.get (i ++ [k])).re := by
  obtain ⟨c, hc, -, hcg⟩ := cross_density_correct x y window (lead ++ [ch]) T N hop scale "mean" hx (Or.inr (by simpa using hy)) (by simpa using hr) hl hN hNT hhop hw
  obtain ⟨p, hp, -, hpg⟩ := fast_density_correct x window (lead ++ [ch]) T N hop scale "mean" hx (by simpa using hr) hl hN hNT hhop hw
  obtain ⟨q, hq, -, hqg⟩ := fast_density_correct y window lead T N hop scale "mean" hy (by omega) (fun d hd => hl d (by simp [hd])) hN hNT hhop hw
  refine ⟨c, p, q, hc, hp, hq, fun i j k hi hj hk => ?_⟩
  have hij : InB (i ++ [j]) (lead ++ [ch]) := by
    rcases list_len_le2 lead (by omega) with h | ⟨c, h⟩ | ⟨b, c, h⟩
    · subst h; rw [hi.eq0]; exact ⟨hj, trivial⟩
    · subst h; obtain ⟨m, rfl, hm⟩ := hi.eq1; exact ⟨hm, hj, trivial⟩
    · subst h; simp at hr
  have hlen : i.length = lead.length := inB_length hi
  have ey : (i ++ [j]).take (y.ndim - 1) = i := by rw [Tensor.ndim, hy]; simp [← hlen]
  rw [hcg _ k hij hk, hpg _ k hij hk, hqg i k hi hk, ey, Complex.ofReal_re, Complex.ofReal_re]
  exact csd_cauchy T N hop _ scale hs _ _ k

/-! ## With the median the coherence can exceed one -/

/-- A series of three segments of two samples. -/
noncomputable def burst (a b c : ℝ) : Tensor ℝ := ⟨[6], fun i => ([a, 0, b, 0, c, 0] : List ℝ).getD (i.getD 0 0) 0⟩

theorem median3 (l : List ℝ) (a b c : ℝ) (hp : l.Perm [a, b, c]) (h1 : a ≤ b) (h2 : b ≤ c) : Welch.median l = b := by
  have h : l.insertionSort (· ≤ ·) = [a, b, c] := by
    apply List.Perm.eq_of_pairwise (le := (· ≤ ·))
    · intro a b _ _ h1 h2; exact le_antisymm h1 h2
    · exact List.pairwise_insertionSort _ _
    · simp [h1, h2, h1.trans h2]
    · exact (List.perm_insertionSort _ _).trans hp
  have hl : l.length = 3 := by simpa using hp.length_eq
  unfold Welch.median
  dsimp only
  rw [h, hl]
  norm_num

theorem ω_half : ω 2 (-1) = -1 := by
  unfold ω
  have : (2 * Real.pi * Complex.I * ((-1 : ℤ) : ℂ) / ((2 : ℕ) : ℂ) : ℂ) = -(Real.pi * Complex.I) := by push_cast; ring
  rw [this, Complex.exp_neg, Complex.exp_pi_mul_I]
  norm_num

theorem rfft_two (f : ℕ → ℝ) : rfft 2 f 1 = ((f 0 - f 1 : ℝ) : ℂ) := by
  unfold rfft dft
  rw [Finset.sum_range_succ, Finset.sum_range_one]
  norm_num [ω_zero, ω_half]
  ring

theorem burst_spec (a b c m : ℝ) (s : ℕ) (hs : s < 3) :
    Welch.spec 2 (fun _ => 1) (fun t => Welch.segment 2 (fun t => (burst a b c).get ([] ++ [t])) s t - m) 1 = (([a, b, c].getD s 0 : ℝ) : ℂ) := by
  unfold Welch.spec
  rw [rfft_two]
  obtain rfl | rfl | rfl : s = 0 ∨ s = 1 ∨ s = 2 := by omega
  all_goals simp [Welch.segment, burst]

theorem altHarmonic_three : Welch.altHarmonic 3 = 5 / 6 := by
  unfold Welch.altHarmonic
  norm_num [Finset.sum_range_succ]

theorem burst_psd (a b c m : ℝ) (h : ([a, b, c].map (· ^ 2)).Perm [1, 1, m]) (hm : 1 ≤ m) :
    Welch.psdFast 6 2 2 (fun _ => 1) 1 "median" (fun t => (burst a b c).get ([] ++ [t])) 1 = 6 / 5 := by
  unfold Welch.psdFast Welch.combine
  rw [if_neg (by decide)]
  have hS : Welch.segments 6 2 2 = 3 := rfl
  have ho : Welch.oneSided 2 1 = 1 := by unfold Welch.oneSided; simp
  rw [hS, ho, altHarmonic_three]
  have : (List.range 3).map (fun s => 1 * 1 * ‖Welch.spec 2 (fun _ => 1) (fun t => Welch.segment 2 (fun t => (burst a b c).get ([] ++ [t])) s t
      - Welch.mean 6 fun t => (burst a b c).get ([] ++ [t])) 1‖ ^ 2) = [a, b, c].map (· ^ 2) := by
    show [_, _, _] = [_, _, _]
    dsimp only
    rw [burst_spec a b c _ 0 (by norm_num), burst_spec a b c _ 1 (by norm_num), burst_spec a b c _ 2 (by norm_num)]
    simp
  rw [this, median3 _ 1 1 m h le_rfl hm]
  norm_num

theorem burst_csd (a : ℝ) (ha : 1 ≤ a) :
    Welch.csdFast 6 2 2 (fun _ => 1) 1 "median" (fun t => (burst a 1 1).get ([] ++ [t])) (fun t => (burst 1 a 1).get ([] ++ [t])) 1 = ((6 / 5 * a : ℝ) : ℂ) := by
  unfold Welch.csdFast Welch.combine
  dsimp only
  rw [if_neg (by decide), if_neg (by decide)]
  have hS : Welch.segments 6 2 2 = 3 := rfl
  have ho : Welch.oneSided 2 1 = 1 := by unfold Welch.oneSided; simp
  rw [hS, ho, altHarmonic_three]
  have h3 : ∀ g : ℕ → ℝ, (List.range 3).map g = [g 0, g 1, g 2] := fun g => rfl
  rw [h3, h3]
  simp only [burst_spec a 1 1 _ 0 (by norm_num), burst_spec a 1 1 _ 1 (by norm_num), burst_spec a 1 1 _ 2 (by norm_num),
    burst_spec 1 a 1 _ 0 (by norm_num), burst_spec 1 a 1 _ 1 (by norm_num), burst_spec 1 a 1 _ 2 (by norm_num)]
  have e0 : [a, 1, 1].getD 0 0 = a := rfl
  have e1 : [a, 1, 1].getD 1 0 = 1 := rfl
  have e2 : [a, 1, 1].getD 2 0 = 1 := rfl
  have f0 : [1, a, 1].getD 0 0 = 1 := rfl
  have f1 : [1, a, 1].getD 1 0 = a := rfl
  have f2 : [1, a, 1].getD 2 0 = 1 := rfl
  rw [e0, e1, e2, f0, f1, f2]
  simp only [Complex.conj_ofReal, Complex.ofReal_one, mul_one, one_mul, map_one]
  refine Complex.ext ?_ ?_
  · simp only [Complex.ofReal_re, Complex.one_re]
    rw [median3 [a, a, 1] 1 a a (by simpa using (List.perm_append_comm (l₁ := [a, a]) (l₂ := [1]))) ha le_rfl]
    ring
  · simp only [Complex.ofReal_im, Complex.one_im]
    rw [median3 [0, 0, 0] 0 0 0 (List.Perm.refl _) le_rfl le_rfl]
    simp

/-- **C89 (negation for `average="median"`, the default of `fast_spectral_density`).**  With the median no multiple of the product of the power spectra bounds the cross spectrum: for every `B`
there are two series whose power at bin 1 is positive and whose squared cross density exceeds `B` times the product of their powers. -/
theorem coherence_median_unbounded (B : ℝ) : ∃ (x y window : Tensor ℝ) (c p q : Tensor ℂ), x.shape = [6] ∧ y.shape = [6] ∧ window.shape = [2] ∧
    fastSpectralDensity x (2 : ℕ) (2 : ℕ) window 1 "median" (some y) = .ok c ∧ fastSpectralDensity x (2 : ℕ) (2 : ℕ) window 1 "median" none = .ok p ∧
    fastSpectralDensity y (2 : ℕ) (2 : ℕ) window 1 "median" none = .ok q ∧ 0 < (p.get [1]).re ∧ 0 < (q.get [1]).re ∧
    B * ((p.get [1]).re * (q.get [1]).re) < ‖c.get [1]‖ ^ 2 := by
  have ha : (1 : ℝ) ≤ |B| + 1 := by linarith [abs_nonneg B]
  generalize hae : |B| + 1 = a at ha
  obtain ⟨c, hc, -, hcg⟩ := cross_density_correct (burst a 1 1) (burst 1 a 1) ⟨[2], fun _ => 1⟩ [] 6 2 2 1 "median" rfl (Or.inl rfl) (by simp) (by simp) (by norm_num)
    (by norm_num) (by norm_num) rfl
  obtain ⟨p, hp, -, hpg⟩ := fast_density_correct (burst a 1 1) ⟨[2], fun _ => 1⟩ [] 6 2 2 1 "median" rfl (by simp) (by simp) (by norm_num) (by norm_num) (by norm_num) rfl
  obtain ⟨q, hq, -, hqg⟩ := fast_density_correct (burst 1 a 1) ⟨[2], fun _ => 1⟩ [] 6 2 2 1 "median" rfl (by simp) (by simp) (by norm_num) (by norm_num) (by norm_num) rfl
  have ha2 : 1 ≤ a ^ 2 := one_le_pow₀ ha
  have hP : p.get [1] = ((6 / 5 : ℝ) : ℂ) := by
    have := hpg [] 1 trivial (by norm_num)
    rw [burst_psd a 1 1 (a ^ 2) (by simpa using (List.perm_append_comm (l₁ := [a ^ 2]) (l₂ := [1, 1]))) ha2] at this
    simpa using this
  have hQ : q.get [1] = ((6 / 5 : ℝ) : ℂ) := by
    have := hqg [] 1 trivial (by norm_num)
    rw [burst_psd 1 a 1 (a ^ 2) (by simpa using (List.Perm.cons (1 : ℝ) (List.perm_append_comm (l₁ := [a ^ 2]) (l₂ := [1])))) ha2] at this
    simpa using this
  have hC : c.get [1] = ((6 / 5 * a : ℝ) : ℂ) := (hcg [] 1 trivial (by norm_num)).trans (burst_csd a ha)
  refine ⟨burst a 1 1, burst 1 a 1, ⟨[2], fun _ => 1⟩, c, p, q, rfl, rfl, rfl, hc, hp, hq, ?_, ?_, ?_⟩
  · rw [hP, Complex.ofReal_re]; norm_num
  · rw [hQ, Complex.ofReal_re]; norm_num
  · rw [hP, hQ, hC, Complex.ofReal_re, Complex.norm_real, Real.norm_eq_abs, sq_abs]
    have : B ≤ |B| := le_abs_self B
    nlinarith

/-! ## The hypotheses can be met -/

example : ∃ c p q, fastSpectralDensity (⟨[2, 16], fun i => (ravel [2, 16] i : ℝ)⟩ : Tensor ℝ) (8 : ℕ) (4 : ℕ) ⟨[8], fun i => (i.getD 0 0 : ℝ)⟩ 1 "mean"
      (some ⟨[2, 16], fun i => (ravel [2, 16] i : ℝ) ^ 2⟩) = .ok c ∧
    fastSpectralDensity (⟨[2, 16], fun i => (ravel [2, 16] i : ℝ)⟩ : Tensor ℝ) (8 : ℕ) (4 : ℕ) ⟨[8], fun i => (i.getD 0 0 : ℝ)⟩ 1 "mean" none = .ok p ∧
    fastSpectralDensity (⟨[2, 16], fun i => (ravel [2, 16] i : ℝ) ^ 2⟩ : Tensor ℝ) (8 : ℕ) (4 : ℕ) ⟨[8], fun i => (i.getD 0 0 : ℝ)⟩ 1 "mean" none = .ok q ∧
    ∀ i k, InB i [2] → k < 8 / 2 + 1 → ‖c.get (i ++ [k])‖ ^ 2 ≤ (p.get (i ++ [k])).re * (q.get (i ++ [k])).re :=
  coherence_le_one _ _ _ [2] 16 8 4 1 zero_le_one rfl rfl (by simp) (by simp) (by norm_num) (by norm_num) (by norm_num) rfl

end Verif.Spectral
