import Verif.Lemmas.Periodogram
import Verif.Props.Spectral
import Verif.Model.WhitenModules
/-!
# Spectral density estimates of white noise are unbiased (C91)
-/
namespace Verif.SpectralNoise
open MeasureTheory ProbabilityTheory Finset Verif.Fourier Verif.Spec Verif.Spec.Noise Verif.Spectral Verif.Whiten
  Verif.Periodogram

/-- The periodic Hann window. -/
noncomputable def hannW (N t : ℕ) : ℝ := 1 / 2 * (1 - Real.cos (2 * Real.pi * t / N))

theorem hannW_ω (N t : ℕ) : (hannW N t : ℂ) = 1 / 2 - 1 / 4 * ω N (t * 1) - 1 / 4 * ω N (t * (-1)) := by
  have h1 : ω N (t * 1) = Complex.exp (((2 * Real.pi * t / N : ℝ) : ℂ) * Complex.I) := by
    rw [ω]; congr 1; push_cast; ring
  have h2 : ω N (t * (-1)) = Complex.exp (-((2 * Real.pi * t / N : ℝ) : ℂ) * Complex.I) := by
    rw [ω]; congr 1; push_cast; ring
  rw [h1, h2, hannW, Complex.ofReal_mul, Complex.ofReal_sub, Complex.ofReal_cos, Complex.cos]
  push_cast
  ring

theorem hannW_mul (N t : ℕ) (k : ℤ) : (hannW N t : ℂ) * ω N (-(k * t)) =
    1 / 2 * ω N (t * (-k)) - 1 / 4 * ω N (t * (1 - k)) - 1 / 4 * ω N (t * (-1 - k)) := by
  have e1 : -(k * t) = (t : ℤ) * (-k) := by ring
  have e2 : ω N (t * (1 - k)) = ω N (t * 1) * ω N (t * (-k)) := by rw [← ω_add]; congr 1; ring
  have e3 : ω N (t * (-1 - k)) = ω N (t * (-1)) * ω N (t * (-k)) := by rw [← ω_add]; congr 1; ring
  rw [hannW_ω, e1, e2, e3]; ring

theorem hannW_sq_mul (N t : ℕ) (k : ℤ) : (hannW N t : ℂ) ^ 2 * ω N (-(k * t)) =
    3 / 8 * ω N (t * (-k)) - 1 / 4 * ω N (t * (1 - k)) - 1 / 4 * ω N (t * (-1 - k))
      + 1 / 16 * ω N (t * (2 - k)) + 1 / 16 * ω N (t * (-2 - k)) := by
  have e1 : -(k * t) = (t : ℤ) * (-k) := by ring
  have e2 : ω N (t * (1 - k)) = ω N (t * 1) * ω N (t * (-k)) := by rw [← ω_add]; congr 1; ring
  have e3 : ω N (t * (-1 - k)) = ω N (t * (-1)) * ω N (t * (-k)) := by rw [← ω_add]; congr 1; ring
  have e4 : ω N (t * (2 - k)) = ω N (t * 1) ^ 2 * ω N (t * (-k)) := by
    rw [sq, ← ω_add, ← ω_add]; congr 1; ring
  have e5 : ω N (t * (-2 - k)) = ω N (t * (-1)) ^ 2 * ω N (t * (-k)) := by
    rw [sq, ← ω_add, ← ω_add]; congr 1; ring
  have e6 : ω N (t * 1) * ω N (t * (-1)) = 1 := by
    rw [← ω_add]; have : (t * 1 + t * (-1) : ℤ) = 0 := by ring
    rw [this, ω_zero]
  rw [hannW_ω, e1, e2, e3, e4, e5]
  linear_combination (1 / 8 * ω N (t * (-k))) * e6

theorem sum_hannW_sq (N : ℕ) (hN : 3 ≤ N) : ∑ t ∈ range N, hannW N t ^ 2 = 3 * N / 8 := by
  have h : ((∑ t ∈ range N, hannW N t ^ 2 : ℝ) : ℂ) = ((3 * N / 8 : ℝ) : ℂ) := by
    push_cast
    have e : ∀ t ∈ range N, (hannW N t : ℂ) ^ 2 = 3 / 8 * ω N (t * (-0)) - 1 / 4 * ω N (t * (1 - 0)) -
        1 / 4 * ω N (t * (-1 - 0)) + 1 / 16 * ω N (t * (2 - 0)) + 1 / 16 * ω N (t * (-2 - 0)) := by
      intro t _
      rw [← hannW_sq_mul N t 0]; simp [ω_zero]
    rw [sum_congr rfl e, sum_add_distrib, sum_add_distrib, sum_sub_distrib, sum_sub_distrib, ← mul_sum, ← mul_sum,
      ← mul_sum, ← mul_sum, ← mul_sum]
    simp only [sum_ω N (by omega : 0 < N)]
    have d0 : (N : ℤ) ∣ -0 := by simp
    have dn : ∀ m : ℤ, m ≠ 0 → |m| < N → ¬ (N : ℤ) ∣ m := fun m h0 h1 hd => h0 (Int.eq_zero_of_abs_lt_dvd hd h1)
    rw [if_pos d0, if_neg (dn _ (by omega) (by rw [abs_lt]; omega)), if_neg (dn _ (by omega) (by rw [abs_lt]; omega)),
      if_neg (dn _ (by omega) (by rw [abs_lt]; omega)), if_neg (dn _ (by omega) (by rw [abs_lt]; omega))]
    ring
  exact_mod_cast h

theorem rfft_hannW (N k : ℕ) (hN : 3 ≤ N) (hk : k ≤ N / 2) :
    rfft N (hannW N) k = if k = 0 then (N : ℂ) / 2 else if k = 1 then -(N : ℂ) / 4 else 0 := by
  unfold rfft dft
  rw [sum_congr rfl fun t _ => hannW_mul N t k, sum_sub_distrib, sum_sub_distrib, ← mul_sum, ← mul_sum, ← mul_sum]
  simp only [sum_ω N (by omega : 0 < N)]
  have dn : ∀ m : ℤ, m ≠ 0 → |m| < N → ¬ (N : ℤ) ∣ m := fun m h0 h1 hd => h0 (Int.eq_zero_of_abs_lt_dvd hd h1)
  rw [if_neg (dn (-1 - k) (by omega) (by rw [abs_lt]; omega))]
  by_cases h0 : k = 0
  · subst h0
    rw [if_pos (by simp), if_neg (dn _ (by omega) (by rw [abs_lt]; omega)), if_pos rfl]; ring
  · rw [if_neg (dn (-k) (by omega) (by rw [abs_lt]; omega)), if_neg h0]
    by_cases h1 : k = 1
    · subst h1; rw [if_pos (by simp), if_pos rfl]; ring
    · rw [if_neg (dn _ (by omega) (by rw [abs_lt]; omega)), if_neg h1]; ring

theorem sum_hannW_pseudo (N k : ℕ) (hk : 2 ≤ k) (hkN : 2 * k + 2 < N) :
    ∑ t ∈ range N, ((hannW N t : ℂ) * ω N (-((k : ℤ) * t))) ^ 2 = 0 := by
  have e : ∀ t ∈ range N, ((hannW N t : ℂ) * ω N (-((k : ℤ) * t))) ^ 2 =
      (hannW N t : ℂ) ^ 2 * ω N (-((2 * k : ℤ) * t)) := by
    intro t _
    rw [mul_pow, sq (ω N _), ← ω_add]; congr 2; ring
  rw [sum_congr rfl e, sum_congr rfl fun t _ => hannW_sq_mul N t (2 * k), sum_add_distrib, sum_add_distrib, sum_sub_distrib,
    sum_sub_distrib, ← mul_sum, ← mul_sum, ← mul_sum, ← mul_sum, ← mul_sum]
  simp only [sum_ω N (by omega : 0 < N)]
  have dn : ∀ m : ℤ, m ≠ 0 → |m| < N → ¬ (N : ℤ) ∣ m := fun m h0 h1 hd => h0 (Int.eq_zero_of_abs_lt_dvd hd h1)
  rw [if_neg (dn _ (by omega) (by rw [abs_lt]; omega)), if_neg (dn _ (by omega) (by rw [abs_lt]; omega)),
      if_neg (dn _ (by omega) (by rw [abs_lt]; omega)),
      if_neg (dn _ (by omega) (by rw [abs_lt]; omega)), if_neg (dn _ (by omega) (by rw [abs_lt]; omega))]
  ring

theorem segment_fits (T N hop s : ℕ) (hNT : N ≤ T) (hs : s < Welch.segments T N hop) :
    s * hop + N ≤ T := by
  have h1 : s ≤ (T - N) / hop := by unfold Welch.segments at hs; omega
  have h2 : s * hop ≤ (T - N) / hop * hop := Nat.mul_le_mul_right _ h1
  have h3 := Nat.div_mul_le_self (T - N) hop
  omega

variable {Ω : Type*} [MeasurableSpace Ω] {P : Measure Ω}

/-- **C91 (median).**  For `n` independent exponentially distributed values of mean `p` the median that the
code computes has expectation exactly `p`, for every `n`. -/
theorem median_unbiased (n : ℕ) (hn : 0 < n) (p : ℝ) (hp : 0 < p) (X : Fin n → Ω → ℝ)
    (hlaw : ∀ i, HasLaw (X i) (expMeasure (1 / p)) P) (hind : iIndepFun X P) :
    Integrable (fun ω => Spectral.median (List.ofFn fun i => X i ω)) P ∧
    ∫ ω, Spectral.median (List.ofFn fun i => X i ω) ∂P = p := by
  obtain ⟨a, b⟩ := OrderStat.expected_median P n hn p hp X (fun i => (hlaw i).aemeasurable) hind
    (fun i => (hlaw i).map_eq)
  have hb : medianBias n ≠ 0 := by have := medianBias_gt n; intro h; linarith
  have e : (fun ω => Spectral.median (List.ofFn fun i => X i ω)) =
      fun ω => Welch.median (List.ofFn fun i => X i ω) / medianBias n := by
    funext ω
    unfold Spectral.median quantile50 Welch.median
    simp only [List.length_ofFn]
  rw [e]
  refine ⟨a.div_const _, ?_⟩
  rw [integral_div, b]
  field_simp

/-- Expectation of the mean-averaged estimate of the specification. -/
theorem psd_expectation [IsProbabilityMeasure P] (T N hop : ℕ) (hN : 0 < N) (hNT : N ≤ T) (w : ℕ → ℝ) (sr : ℝ) (k : ℕ)
    (hw0 : ∑ t ∈ range N, w t ^ 2 ≠ 0) (X : ℕ → Ω → ℝ) (m σ2 : ℝ) (hwhite : White P T X m σ2) :
    Integrable (fun ω => Welch.psd T N hop w (1 / (sr * ∑ t ∈ range N, w t ^ 2)) "mean" (fun t => X t ω) k) P ∧
    ∫ ω, Welch.psd T N hop w (1 / (sr * ∑ t ∈ range N, w t ^ 2)) "mean" (fun t => X t ω) k ∂P =
      Welch.oneSided N k * σ2 / sr * (1 - ‖rfft N w k‖ ^ 2 / (N * ∑ t ∈ range N, w t ^ 2)) := by
  have hN' : (N : ℝ) ≠ 0 := by positivity
  have hS : (Welch.segments T N hop : ℝ) ≠ 0 := by unfold Welch.segments; positivity
  have hpsd : ∀ ω, Welch.psd T N hop w (1 / (sr * ∑ t ∈ range N, w t ^ 2)) "mean" (fun t => X t ω) k =
      (∑ s ∈ range (Welch.segments T N hop), 1 / (sr * ∑ t ∈ range N, w t ^ 2) * Welch.oneSided N k *
        ‖Welch.spec N w (fun t => X (s * hop + t) ω - Welch.mean N fun t => X (s * hop + t) ω) k‖ ^ 2) /
          (Welch.segments T N hop : ℝ) := by
    intro ω
    unfold Welch.psd Welch.combine
    rw [if_pos rfl]
    rfl
  have hseg := fun s (hs : s ∈ range (Welch.segments T N hop)) =>
    expected_periodogram N hN w k (fun t ω => X (s * hop + t) ω) m σ2
      (white_shift T N (s * hop) _ m σ2 hwhite (segment_fits T N hop s hNT (mem_range.1 hs)))
  simp only [hpsd]
  constructor
  · exact (integrable_finsetSum _ fun s hs => ((hseg s hs).1).const_mul _).div_const _
  · rw [integral_div, integral_finsetSum _ fun s hs => ((hseg s hs).1).const_mul _]
    rw [sum_congr rfl fun s hs => by rw [integral_const_mul, (hseg s hs).2]]
    rw [sum_const, card_range, nsmul_eq_mul, mul_div_cancel_left₀ _ hS]
    by_cases hsr : sr = 0
    · simp [hsr]
    · field_simp

/-- **C91 (mean averaging, any window).**  For white noise of variance `σ2` and any mean, any window, any
overlap and the density scale, the expectation of the mean-averaged estimate is the one-sided density
`oneSided · σ2 / sample_rate` reduced by the factor `1 - |W_k|² / (N Σ w²)` that removing the segment means
costs. -/
theorem density_expectation [IsProbabilityMeasure P] (x : Ω → Tensor ℝ) (window : Tensor ℝ) (lead : List Nat)
    (T N hop : ℕ) (sr : ℝ) (hx : ∀ ω, (x ω).shape = lead ++ [T]) (hr : lead.length ≤ 2) (hl : ∀ d ∈ lead, 0 < d)
    (hN : 0 < N) (hNT : N ≤ T) (hhop : 0 < hop) (hw : window.shape = [N])
    (hw0 : ∑ t ∈ range N, window.get [t] ^ 2 ≠ 0) :
    ∃ y : Ω → Tensor ℝ,
      (∀ ω, spectralDensity (x ω) N hop window (1 / (sr * ∑ t ∈ range N, window.get [t] ^ 2)) "mean" = .ok (y ω)) ∧
      ∀ i k m σ2, InB i lead → k < N / 2 + 1 → White P T (fun t ω => (x ω).get (i ++ [t])) m σ2 →
        Integrable (fun ω => (y ω).get (i ++ [k])) P ∧
        ∫ ω, (y ω).get (i ++ [k]) ∂P = Welch.oneSided N k * σ2 / sr *
          (1 - ‖rfft N (fun t => window.get [t]) k‖ ^ 2 / (N * ∑ t ∈ range N, window.get [t] ^ 2)) := by
  choose y hy _ hyg using fun ω => spectral_density_correct (x ω) window lead T N hop
    (1 / (sr * ∑ t ∈ range N, window.get [t] ^ 2)) "mean" (hx ω) hr hl hN hNT hhop hw
  refine ⟨y, hy, fun i k m σ2 hi hk hwhite => ?_⟩
  simp only [hyg _ i k hi hk]
  exact psd_expectation T N hop hN hNT _ sr k hw0 _ m σ2 hwhite

/-- What a `SpectralDensity` module with the default window computes above bin 1. -/
theorem density_forward (d : Density) (sr f : ℝ) (ov : Option ℝ) (average : String) (fast : Bool)
    (hd : Density.init sr f ov average none fast = .ok d) (x : Tensor ℝ) (lead : List Nat) (T N hop : ℕ)
    (hdN : d.nperseg = N) (hdh : d.nstride = hop) (hx : x.shape = lead ++ [T]) (hr : lead.length ≤ 2)
    (hl : ∀ c ∈ lead, 0 < c) (hN : 2 ≤ N) (hNT : N ≤ T) (hhop : 0 < hop) :
    ∃ z, d.forward x none = .ok z ∧ ∀ i k, InB i lead → 2 ≤ k → k < N / 2 + 1 → z.get (i ++ [k]) =
      (Welch.psd T N hop (hannW N) (1 / (sr * ∑ t ∈ range N, hannW N t ^ 2)) average (fun t => x.get (i ++ [t])) k : ℝ) := by
  have hinit : d = ⟨N, hop, ⟨[N], fun i => hann N (i.headD 0)⟩,
      1 / (sr * ∑ t ∈ range N, hannW N t ^ 2), average, fast⟩ := by
    unfold Density.init windowOrHann hannTensor at hd
    split at hd
    · cases hd
    · dsimp only at hd
      generalize pyInt (f * sr) = np at hd
      by_cases hnp : np < 0
      · rw [if_pos hnp] at hd; cases hd
      · rw [if_neg hnp, res_bind_ok] at hd
        split at hd
        · cases hd
        · split at hd
          · cases hd
          · have hd' := (Except.ok.inj hd).symm
            rw [hd'] at hdN hdh
            simp only at hdN hdh
            rw [hd', hdh, hdN]
            have hNn : np.toNat = N := by omega
            simp only [Int.toNat_natCast]
            unfold densityScale
            congr 3
            refine sum_congr rfl fun t _ => ?_
            change hann N t ^ 2 = _
            unfold hann hannW
            rw [if_neg (by omega)]
  have hwin : ∀ t, (⟨[N], fun i => hann N (i.headD 0)⟩ : Tensor ℝ).get [t] = hannW N t := by
    intro t
    change hann N t = _
    unfold hann hannW
    rw [if_neg (by omega)]
  have hwf : (fun t => (⟨[N], fun i => hann N (i.headD 0)⟩ : Tensor ℝ).get [t]) = hannW N := funext hwin
  obtain ⟨y, z, hy, hz, hyz⟩ := fast_density_exact_above_bin1 x lead T N hop (1 / (sr * ∑ t ∈ range N, hannW N t ^ 2))
    average hx hr hl (by omega) hNT hhop ⟨[N], fun i => hann N (i.headD 0)⟩ rfl (fun t _ => hwin t)
  obtain ⟨y', hy', -, hyg⟩ := spectral_density_correct x ⟨[N], fun i => hann N (i.headD 0)⟩ lead T N hop
    (1 / (sr * ∑ t ∈ range N, hannW N t ^ 2)) average hx hr hl (by omega) hNT hhop rfl
  obtain rfl : y = y' := Except.ok.inj (hy.symm.trans hy')
  rw [hinit]
  unfold Density.forward
  cases fast with
  | true =>
    refine ⟨z, hz, fun i k hi hk2 hk => ?_⟩
    rw [hyz i k hi hk2 hk, hyg i k hi hk, hwf]
  | false =>
    refine ⟨y.map (fun (v : ℝ) => (v : ℂ)), ?_, fun i k hi hk2 hk => ?_⟩
    · simp only [Option.isSome_none, Bool.false_eq_true, if_false, hy, res_bind_ok]
    · change ((y.get (i ++ [k]) : ℝ) : ℂ) = _
      rw [hyg i k hi hk, hwf]

/-- **C91 (`SpectralDensity`, mean).**  A `SpectralDensity` module with the default window and mean averaging,
fast or exact, with any overlap, applied to white noise of variance `σ2` (any mean), is an unbiased estimate of
the one-sided density `oneSided · σ2 / sample_rate` in every bin but the two lowest, for every batch element
and channel. -/
theorem spectral_density_unbiased [IsProbabilityMeasure P] (d : Density) (sr f : ℝ) (ov : Option ℝ) (fast : Bool)
    (hd : Density.init sr f ov "mean" none fast = .ok d) (x : Ω → Tensor ℝ) (lead : List Nat) (T N hop : ℕ)
    (hdN : d.nperseg = N) (hdh : d.nstride = hop) (hx : ∀ ω, (x ω).shape = lead ++ [T]) (hr : lead.length ≤ 2)
    (hl : ∀ c ∈ lead, 0 < c) (hN : 2 ≤ N) (hNT : N ≤ T) (hhop : 0 < hop) :
    ∃ z : Ω → Tensor ℂ, (∀ ω, d.forward (x ω) none = .ok (z ω)) ∧
      ∀ i k m σ2, InB i lead → 2 ≤ k → k < N / 2 + 1 → White P T (fun t ω => (x ω).get (i ++ [t])) m σ2 →
        (∀ ω, ((z ω).get (i ++ [k])).im = 0) ∧ Integrable (fun ω => ((z ω).get (i ++ [k])).re) P ∧
        ∫ ω, ((z ω).get (i ++ [k])).re ∂P = Welch.oneSided N k * σ2 / sr := by
  choose z hz hzg using fun ω => density_forward d sr f ov "mean" fast hd (x ω) lead T N hop hdN hdh (hx ω) hr hl hN hNT hhop
  refine ⟨z, hz, fun i k m σ2 hi hk2 hk hwhite => ?_⟩
  simp only [hzg _ i k hi hk2 hk]
  have hN3 : 3 ≤ N := by omega
  have hw0 : ∑ t ∈ range N, hannW N t ^ 2 ≠ 0 := by
    rw [sum_hannW_sq N hN3]; have : (0 : ℝ) < N := by exact_mod_cast (by omega : 0 < N)
    positivity
  obtain ⟨a, b⟩ := psd_expectation T N hop (by omega) hNT (hannW N) sr k hw0 _ m σ2 hwhite
  refine ⟨fun ω => Complex.ofReal_im _, a, ?_⟩
  have h0 : rfft N (hannW N) k = 0 := by
    rw [rfft_hannW N k hN3 (by omega), if_neg (by omega), if_neg (by omega)]
  simp only [Complex.ofReal_re]
  rw [b, h0]; simp

/-- **C91 (lowest bins).**  In the two lowest bins the exact estimate of `spectral_density` with the Hann window
is *not* unbiased: removing the segment means leaves a third of the density in bin 0 and five sixths in bin 1. -/
theorem lowest_bins_biased [IsProbabilityMeasure P] (x : Ω → Tensor ℝ) (lead : List Nat)
    (T N hop : ℕ) (sr : ℝ) (hx : ∀ ω, (x ω).shape = lead ++ [T]) (hr : lead.length ≤ 2) (hl : ∀ d ∈ lead, 0 < d)
    (hN : 3 ≤ N) (hNT : N ≤ T) (hhop : 0 < hop) :
    ∃ y : Ω → Tensor ℝ,
      (∀ ω, spectralDensity (x ω) N hop ⟨[N], fun i => hannW N (i.headD 0)⟩
        (1 / (sr * ∑ t ∈ range N, hannW N t ^ 2)) "mean" = .ok (y ω)) ∧
      ∀ i m σ2, InB i lead → White P T (fun t ω => (x ω).get (i ++ [t])) m σ2 →
        ∫ ω, (y ω).get (i ++ [0]) ∂P = 1 / 3 * (σ2 / sr) ∧ ∫ ω, (y ω).get (i ++ [1]) ∂P = 5 / 6 * (2 * σ2 / sr) := by
  have hNr : (0 : ℝ) < N := by exact_mod_cast (by omega : 0 < N)
  have hsum := sum_hannW_sq N hN
  have hw0 : ∑ t ∈ range N, hannW N t ^ 2 ≠ 0 := by rw [hsum]; positivity
  obtain ⟨y, hy, hyg⟩ := density_expectation (P := P) x ⟨[N], fun i => hannW N (i.headD 0)⟩ lead T N hop sr hx hr hl (by omega) hNT
    hhop rfl hw0
  refine ⟨y, hy, fun i m σ2 hi hw => ⟨?_, ?_⟩⟩
  · rw [(hyg i 0 m σ2 hi (by omega) hw).2]
    change Welch.oneSided N 0 * σ2 / sr * (1 - ‖rfft N (hannW N) 0‖ ^ 2 / (N * ∑ t ∈ range N, hannW N t ^ 2)) = _
    rw [hsum, rfft_hannW N 0 hN (by omega), if_pos rfl]
    simp only [Welch.oneSided, true_or, if_true, norm_div, Complex.norm_natCast, Complex.norm_ofNat]
    field_simp
    norm_num
  · rw [(hyg i 1 m σ2 hi (by omega) hw).2]
    change Welch.oneSided N 1 * σ2 / sr * (1 - ‖rfft N (hannW N) 1‖ ^ 2 / (N * ∑ t ∈ range N, hannW N t ^ 2)) = _
    rw [hsum, rfft_hannW N 1 hN (by omega), if_neg (by omega), if_pos rfl]
    have : Welch.oneSided N 1 = 2 := by unfold Welch.oneSided; rw [if_neg (by omega)]
    simp only [this, norm_div, norm_neg, Complex.norm_natCast, Complex.norm_ofNat]
    field_simp
    ring

/-- **C91 (`SpectralDensity`, median).**  A `SpectralDensity` module with the default window and the median
average, fast or exact, whose segments do not overlap, applied to Gaussian white noise of variance `v` (any
mean), is an exactly unbiased estimate of the one-sided density `2 v / sample_rate` in every bin from 2 up to
two below the Nyquist bin, for every number of segments. -/
theorem spectral_density_unbiased_median [IsProbabilityMeasure P] (d : Density) (sr f : ℝ) (hsr : 0 < sr) (ov : Option ℝ) (fast : Bool)
    (hd : Density.init sr f ov "median" none fast = .ok d) (x : Ω → Tensor ℝ) (lead : List Nat) (T N hop : ℕ)
    (hdN : d.nperseg = N) (hdh : d.nstride = hop) (hx : ∀ ω, (x ω).shape = lead ++ [T]) (hr : lead.length ≤ 2)
    (hl : ∀ c ∈ lead, 0 < c) (hNT : N ≤ T) (hN : 2 ≤ N) (hhop : N ≤ hop) :
    ∃ z : Ω → Tensor ℂ, (∀ ω, d.forward (x ω) none = .ok (z ω)) ∧
      ∀ i k m v, InB i lead → 2 ≤ k → 2 * k + 2 < N → v ≠ 0 →
        GaussianWhite P T (fun t ω => (x ω).get (i ++ [t])) m v →
        (∀ ω, ((z ω).get (i ++ [k])).im = 0) ∧ Integrable (fun ω => ((z ω).get (i ++ [k])).re) P ∧
        ∫ ω, ((z ω).get (i ++ [k])).re ∂P = 2 * v / sr := by
  choose z hz hzg using fun ω => density_forward d sr f ov "median" fast hd (x ω) lead T N hop hdN hdh (hx ω) hr hl hN hNT
    (by omega)
  refine ⟨z, hz, fun i k m v hi hk2 hk hv hwhite => ?_⟩
  simp only [hzg _ i k hi hk2 (by omega : k < N / 2 + 1), Complex.ofReal_re]
  refine ⟨fun ω => Complex.ofReal_im _, ?_⟩
  have hN3 : 3 ≤ N := by omega
  have hNr : (0 : ℝ) < N := by exact_mod_cast (by omega : 0 < N)
  have hsum := sum_hannW_sq N hN3
  have h0 : rfft N (hannW N) k = 0 := by
    rw [rfft_hannW N k hN3 (by omega), if_neg (by omega), if_neg (by omega)]
  set X : ℕ → Ω → ℝ := fun t ω => (x ω).get (i ++ [t]) with hXdef
  set S := Welch.segments T N hop with hSdef
  have hS0 : 0 < S := Nat.succ_pos _
  have hc2 : ∑ t ∈ range N, coef N (hannW N) k t ^ 2 = 0 := by
    refine Eq.trans (sum_congr rfl fun t _ => ?_) (sum_hannW_pseudo N k hk2 hk)
    unfold coef; rw [h0]; simp
  have hE : ∑ t ∈ range N, ‖coef N (hannW N) k t‖ ^ 2 = 3 * N / 8 := by
    rw [sum_coef_sq N (by omega), hsum, h0]; simp
  obtain ⟨hind, hlaw⟩ := periodograms_exp T N hop S hhop X m v hv hwhite (fun s hs => segment_fits T N hop s hNT hs)
    (coef N (hannW N) k) (sum_coef N (by omega) _ k) hc2 _ hE (by positivity)
  have hv0 : (0 : ℝ) < v := by positivity
  obtain ⟨a, b⟩ := OrderStat.expected_median P S hS0 (v * (3 * N / 8)) (by positivity) _ (fun s => (hlaw s).1) hind
    (fun s => (hlaw s).2)
  have hb : medianBias S ≠ 0 := by have := medianBias_gt S; intro h; linarith
  have hpsd : ∀ ω, Welch.psd T N hop (hannW N) (1 / (sr * ∑ t ∈ range N, hannW N t ^ 2)) "median" (fun t => X t ω) k =
      (1 / (sr * (3 * N / 8)) * 2) / medianBias S * Welch.median (List.ofFn fun s : Fin S =>
        part N hop (coef N (hannW N) k) X s 0 ω ^ 2 + part N hop (coef N (hannW N) k) X s 1 ω ^ 2) := by
    intro ω
    unfold Welch.psd
    rw [combine_smul _ _ _ (by rw [hsum]; unfold Welch.oneSided; split_ifs <;> positivity)]
    unfold Welch.combine
    rw [if_neg (by decide), ← medianBias_altHarmonic _ hS0, hsum]
    have h2 : Welch.oneSided N k = 2 := by unfold Welch.oneSided; rw [if_neg (by omega)]
    rw [h2]
    have hlist : (List.range S).map (fun s => ‖Welch.spec N (hannW N) (fun t => Welch.segment hop (fun t => X t ω) s t -
          Welch.mean N (Welch.segment hop (fun t => X t ω) s)) k‖ ^ 2) = List.ofFn fun s : Fin S =>
        part N hop (coef N (hannW N) k) X s 0 ω ^ 2 + part N hop (coef N (hannW N) k) X s 1 ω ^ 2 := by
      refine List.ext_getElem (by simp) fun s h1 h2 => ?_
      rw [List.getElem_map, List.getElem_range, List.getElem_ofFn]
      exact normSq_spec N (by omega) (hannW N) k (fun t => X (s * hop + t)) ω
    rw [hlist]
    ring
  have hfun : (fun ω => Welch.psd T N hop (hannW N) (1 / (sr * ∑ t ∈ range N, hannW N t ^ 2)) "median" (fun t => X t ω) k) = _ :=
    funext hpsd
  refine ⟨?_, ?_⟩
  · exact (a.const_mul _).congr (Filter.Eventually.of_forall fun ω => (hpsd ω).symm)
  · refine Eq.trans (congrArg (fun g => ∫ ω, g ω ∂P) hfun) ?_
    simp only
    rw [integral_const_mul, b]
    field_simp

/-! Non-vacuity: `T` independent standard normal samples on the product space. -/

/-- The standard normal samples as a one-dimensional tensor. -/
noncomputable def normalSeries (T : ℕ) (ω : Fin T → ℝ) : Tensor ℝ :=
  ⟨[T], fun i => if h : i.headD 0 < T then ω ⟨i.headD 0, h⟩ else 0⟩

theorem normalSeries_gaussian (T : ℕ) :
    GaussianWhite (Measure.pi fun _ : Fin T => gaussianReal 0 1) T (fun t ω => (normalSeries T ω).get ([] ++ [t])) 0 1 := by
  have e : ∀ t (ht : t < T), (fun ω => (normalSeries T ω).get ([] ++ [t])) = fun ω => ω ⟨t, ht⟩ := by
    intro t ht; funext ω
    change (if h : t < T then ω ⟨t, h⟩ else 0) = _
    rw [dif_pos ht]
  constructor
  · intro t ht
    rw [e t ht]
    exact ⟨(measurable_pi_apply _).aemeasurable, (measurePreserving_eval (fun _ : Fin T => gaussianReal 0 1) ⟨t, ht⟩).map_eq⟩
  · have := iIndepFun_pi (μ := fun _ : Fin T => gaussianReal 0 1) (X := fun _ (y : ℝ) => y) (fun _ => by fun_prop)
    convert this using 2 with t
    exact e t t.2

/-- A module with `sample_rate = 8`, `fftlength = 1`, no overlap. -/
theorem example_init (average : String) (h : average = "mean" ∨ average = "median") :
    ∃ d, Density.init 8 1 (some 0) average none false = .ok d ∧ d.nperseg = (8 : ℕ) ∧ d.nstride = (8 : ℕ) := by
  have h8 : pyInt (8 : ℝ) = 8 := by
    unfold pyInt
    norm_num
  have h0 : pyInt (0 : ℝ) = 0 := by
    unfold pyInt
    norm_num
  refine ⟨⟨8, 8 - 0, ⟨[8], fun i => hann 8 (i.headD 0)⟩, densityScale 8 ⟨[8], fun i => hann 8 (i.headD 0)⟩, average, false⟩,
    ?_, rfl, rfl⟩
  unfold Density.init overlapTooLong windowOrHann hannTensor
  simp only [Option.getD_some, one_mul, zero_mul, h8, h0]
  have h10 : ¬ ((1 : ℝ) ≤ 0) := by norm_num
  have havg : ¬ (average ≠ "mean" ∧ average ≠ "median") := by rcases h with rfl | rfl <;> simp
  rw [decide_eq_false h10, if_neg Bool.false_ne_true, if_neg (by decide), res_bind_ok, if_neg (by decide), if_neg havg]
  rfl

example : ∃ z : (Fin 24 → ℝ) → Tensor ℂ,
    ∫ ω, ((z ω).get [2]).re ∂(Measure.pi fun _ : Fin 24 => gaussianReal 0 1) = 2 * ((1 : NNReal) : ℝ) / 8 := by
  obtain ⟨d, hd, h1, h2⟩ := example_init "median" (Or.inr rfl)
  obtain ⟨z, _, h⟩ := spectral_density_unbiased_median (P := Measure.pi fun _ : Fin 24 => gaussianReal 0 1) d 8 1 (by norm_num)
    (some 0) false hd (normalSeries 24) [] 24 8 8 h1 h2 (fun _ => rfl) (by simp) (by simp) (by norm_num) (by norm_num) le_rfl
  exact ⟨z, (h [] 2 0 1 trivial le_rfl (by norm_num) one_ne_zero (normalSeries_gaussian 24)).2.2⟩

example : ∃ z : (Fin 24 → ℝ) → Tensor ℂ,
    ∫ ω, ((z ω).get [4]).re ∂(Measure.pi fun _ : Fin 24 => gaussianReal 0 1) = Welch.oneSided 8 4 * ((1 : NNReal) : ℝ) / 8 := by
  obtain ⟨d, hd, h1, h2⟩ := example_init "mean" (Or.inl rfl)
  obtain ⟨z, _, h⟩ := spectral_density_unbiased (P := Measure.pi fun _ : Fin 24 => gaussianReal 0 1) d 8 1
    (some 0) false hd (normalSeries 24) [] 24 8 8 h1 h2 (fun _ => rfl) (by simp) (by simp) (by norm_num) (by norm_num) (by norm_num)
  exact ⟨z, (h [] 4 0 _ trivial (by norm_num) (by norm_num) (gaussian_white _ _ _ _ (normalSeries_gaussian 24))).2.2⟩

example : ∃ y : (Fin 24 → ℝ) → Tensor ℝ,
    ∫ ω, (y ω).get [0] ∂(Measure.pi fun _ : Fin 24 => gaussianReal 0 1) = 1 / 3 * (((1 : NNReal) : ℝ) / 8) := by
  obtain ⟨y, _, h⟩ := lowest_bins_biased (P := Measure.pi fun _ : Fin 24 => gaussianReal 0 1) (normalSeries 24) [] 24 8 4 8
    (fun _ => rfl) (by simp) (by simp) (by norm_num) (by norm_num) (by norm_num)
  exact ⟨y, (h [] 0 _ trivial (gaussian_white _ _ _ _ (normalSeries_gaussian 24))).1⟩

example : ∫ ω : Fin 5 → ℝ, Spectral.median (List.ofFn fun i => ω i) ∂(Measure.pi fun _ : Fin 5 => expMeasure (1 / 3)) = 3 := by
  have : IsProbabilityMeasure (expMeasure (1 / 3)) := isProbabilityMeasure_expMeasure (by norm_num)
  refine (median_unbiased (P := Measure.pi fun _ : Fin 5 => expMeasure (1 / 3)) 5 (by norm_num) 3 (by norm_num) (fun i ω => ω i)
    (fun i => ⟨(measurable_pi_apply _).aemeasurable, (measurePreserving_eval (fun _ : Fin 5 => expMeasure (1 / 3)) i).map_eq⟩) ?_).2
  exact iIndepFun_pi (μ := fun _ : Fin 5 => expMeasure (1 / 3)) (X := fun _ (y : ℝ) => y) (fun _ => by fun_prop)

end Verif.SpectralNoise
