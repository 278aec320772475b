import Verif.Props.GeneratorFilter
/-!
# What a waveform owes to the rest of its batch (C85)
-/
set_option linter.unusedSimpArgs false
namespace Verif.Generator
open CbcUtils CbcSpec Whiten QTransform Fourier GenSpec IIRSpec IIRFilter Finset

/-- The filter looks at the samples of the series only. -/
theorem filtRow_congr (a b : List ℝ) (N : ℕ) (x z : ℕ → ℝ) (ha : a.getD 0 0 ≠ 0) (h : ∀ t < N, x t = z t) (n : ℕ) (hn : n < N) :
    filtRow a b N x n = filtRow a b N z n := by
  rw [filtRow_eq a b N x ha n hn, filtRow_eq a b N z ha n hn]
  refine Finset.sum_congr rfl fun k hk => ?_
  have hk := Finset.mem_range.1 hk
  rw [lfilter_conv a b x ha, lfilter_conv a b z ha]
  congr 1
  refine Finset.sum_congr rfl fun j hj => ?_
  have hj := Finset.mem_range.1 hj
  rw [h _ (by omega)]

theorem evalAt_zero (l : List ℝ) (hl : 0 < l.length) : evalAt l 0 = l.getD 0 0 := by
  unfold evalAt
  rw [Finset.sum_eq_single 0]
  · simp
  · intro k _ hk; simp [hk]
  · intro h; exact absurd (Finset.mem_range.2 hl) h

/-- The first coefficients of the generator's filter do not vanish. -/
theorem highpass_coeffs (g : Gen) (h0 : 0 < g.fMin) (h1 : 2 * g.fMin < g.sampleRate) (m : IIRFilter.Module) (hm : g.buildHighpass = .ok m) :
    m.a.getD 0 0 ≠ 0 ∧ m.b.getD 0 0 ≠ 0 := by
  obtain ⟨_, _, hw0, hw1, _⟩ := highpass_ok g h0 h1
  obtain ⟨hst, hla, hlb⟩ := Butter.stable 8 g.highpassWn (by norm_num) hw0 hw1
  have hb : g.buildHighpass = .ok ⟨(Butter.highpass 8 g.highpassWn).2, (Butter.highpass 8 g.highpassWn).1⟩ := by
    unfold Gen.buildHighpass; rw [if_pos ⟨hw0, hw1⟩]; rfl
  rw [hb] at hm
  obtain rfl := Except.ok.inj hm
  constructor
  · have := hst 0 (by simp)
    rw [evalAt_zero _ (by omega)] at this
    exact_mod_cast this
  · have e := Butter.numerator 8 g.highpassWn 0
    rw [evalAt_zero _ (by omega)] at e
    dsimp only
    intro h
    rw [h, Butter.gain_eq 8 g.highpassWn (by norm_num)] at e
    have hne : ∏ k ∈ range 8, (4 - Butter.hpPole 8 g.highpassWn k) ≠ 0 :=
      Finset.prod_ne_zero_iff.2 fun k hk => Butter.four_sub_ne 8 g.highpassWn hw0 hw1 k (Finset.mem_range.1 hk)
    rw [Complex.ofReal_zero, sub_zero, one_pow, mul_one, eq_comm, div_eq_zero_iff] at e
    rcases e with e | e
    · exact absurd e (by norm_num)
    · exact hne e

/-- **C85 (when it holds).**  A binary that occurs in two batches whose longest chirps need the same number of samples gets the same series from both, sample by
sample: order, size and the other binaries of the batch do not matter otherwise. -/
theorem same_longest_partial (g : Gen) (hg : g.Valid) (hny : 2 * g.fMin < g.sampleRate) (h : ℕ) (hh : g.sampleRate = 2 * h) (hd : 0 ≤ g.duration)
    (ps ps' : List Par) (hps : Batch ps) (hps' : Batch ps') (Hc Hp Hc' Hp' : ℕ → ℝ → ℂ)
    (hl : ∃ q ∈ ps', ∀ p ∈ ps, g.chirplen p ≤ g.chirplen q) (hl' : ∃ q ∈ ps, ∀ p ∈ ps', g.chirplen p ≤ g.chirplen q)
    (b b' : ℕ) (p : Par) (hb : ps[b]? = some p) (hb' : ps'[b']? = some p) (hHc : Hc b = Hc' b') (hHp : Hp b = Hp' b') :
    ∃ r r', g.run (fun fs => .ok fun b j => (Hc b (fs.getD j 0), Hp b (fs.getD j 0))) ps = .ok r ∧
      g.run (fun fs => .ok fun b j => (Hc' b (fs.getD j 0), Hp' b (fs.getD j 0))) ps' = .ok r' ∧ r.len = r'.len ∧
      ∀ t < r.len, r.cross b t = r'.cross b' t ∧ r.plus b t = r'.plus b' t := by
  obtain ⟨F, s, r, hF, hst, hs, hr, hlen, hrow⟩ := run_ok g hg hny h hh hd ps hps Hc Hp
  obtain ⟨F', s', r', hF', -, hs', hr', hlen', hrow'⟩ := run_ok g hg hny h hh hd ps' hps' Hc' Hp'
  rw [hF] at hF'
  obtain rfl := Except.ok.inj hF'
  obtain ⟨m, -, hdf, -, -, u, hu, hul, huv⟩ := unfiltered_grid g hg h hh hd ps hps Hc Hp
  obtain ⟨m', -, hdf', -, -, u', hu', hul', huv'⟩ := unfiltered_grid g hg h hh hd ps' hps' Hc' Hp'
  rw [hs] at hu; obtain rfl := Except.ok.inj hu
  rw [hs'] at hu'; obtain rfl := Except.ok.inj hu'
  have hsr := sampleRate_pos hg (hps.2 p (List.mem_of_getElem? hb))
  have hmm : m' = m := by
    have e : g.df ps = g.df ps' := by
      unfold Gen.df
      obtain ⟨c, hc, hcm, hcx⟩ := listMax_ok (ps.map g.chirplen) (by simpa using hps.1)
      obtain ⟨c', hc', hcm', hcx'⟩ := listMax_ok (ps'.map g.chirplen) (by simpa using hps'.1)
      obtain ⟨q, hq, hqx⟩ := hl
      obtain ⟨q', hq', hqx'⟩ := hl'
      obtain ⟨a, ha, rfl⟩ := List.mem_map.1 hcm
      obtain ⟨a', ha', rfl⟩ := List.mem_map.1 hcm'
      have : g.chirplen a = g.chirplen a' :=
        le_antisymm ((hqx a ha).trans (hcx' _ (List.mem_map.2 ⟨q, hq, rfl⟩))) ((hqx' a' ha').trans (hcx _ (List.mem_map.2 ⟨q', hq', rfl⟩)))
      rw [hc, hc', this]
    rw [hdf, hdf'] at e
    have e := Except.ok.inj e
    rw [div_eq_div_iff (by positivity) (by positivity)] at e
    have e := (mul_left_cancel₀ hsr.ne' e).symm
    have e2 : (2 : ℕ) ^ m = 2 ^ m' := by exact_mod_cast e
    exact (Nat.pow_right_injective le_rfl e2).symm
  subst hmm
  have hll : s.len = s'.len := by
    have := hul.trans hul'.symm
    exact_mod_cast this
  have hser : ∀ t < s.len, s.cross b t = s'.cross b' t ∧ s.plus b t = s'.plus b' t := by
    intro t ht
    have e : s.len - (s.len - t) = t := by omega
    have e' : s'.len - (s.len - t) = t := by omega
    constructor
    · have h1 := huv b p hb (s.len - t) (by omega) (by omega) s.cross Hc (Or.inl ⟨rfl, rfl⟩)
      have h2 := huv' b' p hb' (s.len - t) (by omega) (by omega) s'.cross Hc' (Or.inl ⟨rfl, rfl⟩)
      rw [e] at h1; rw [e', ← hHc] at h2
      rw [h1, h2]
    · have h1 := huv b p hb (s.len - t) (by omega) (by omega) s.plus Hp (Or.inr ⟨rfl, rfl⟩)
      have h2 := huv' b' p hb' (s.len - t) (by omega) (by omega) s'.plus Hp' (Or.inr ⟨rfl, rfl⟩)
      rw [e] at h1; rw [e', ← hHp] at h2
      rw [h1, h2]
  have ha := (highpass_coeffs g hg.1 hny F hF).1
  obtain ⟨xc, xp, hx, hy⟩ := hrow b (List.getElem?_eq_some_iff.1 hb).1
  obtain ⟨xc', xp', hx', hy'⟩ := hrow' b' (List.getElem?_eq_some_iff.1 hb').1
  refine ⟨r, r', hr, hr', by rw [hlen, hlen', hll], ?_⟩
  intro t ht
  rw [hlen] at ht
  have ec : ∀ t < s.len, xc t = xc' t ∧ xp t = xp' t := by
    intro t ht
    obtain ⟨a1, a2⟩ := hx t ht
    obtain ⟨b1, b2⟩ := hx' t (by omega)
    obtain ⟨c1, c2⟩ := hser t ht
    rw [a1, b1] at c1; rw [a2, b2] at c2
    exact ⟨Option.some.inj c1, Option.some.inj c2⟩
  rw [(hy t ht).1, (hy t ht).2, (hy' t (by omega)).1, (hy' t (by omega)).2, ← hll]
  exact ⟨congrArg some (filtRow_congr _ _ _ _ _ ha (fun t ht => (ec t ht).1) t ht), congrArg some (filtRow_congr _ _ _ _ _ ha (fun t ht => (ec t ht).2) t ht)⟩

/-! ## When it fails -/

/-- Heavy binaries need arbitrarily long series: six cycles at their last stable orbit. -/
theorem long_companion (g : Gen) (hg : g.Valid) (K : ℝ) : ∃ q : Par, q.Valid ∧ K ≤ g.time q * g.sampleRate - 1 / 2 := by
  have hsr : 0 < g.sampleRate := by have := hg.1; have := hg.2; linarith
  have hmt := mtsun_pos
  have hms := msun_pos
  set M := (|K| + 1) / (g.sampleRate * mtsun) with hM
  have hM0 : 0 < M := by rw [hM]; positivity
  refine ⟨⟨M, M, 0, 0⟩, ⟨hM0, hM0⟩, ?_⟩
  have hq : (⟨M, M, 0, 0⟩ : Par).Valid := ⟨hM0, hM0⟩
  obtain ⟨h1, h2⟩ := masses_pos hg hq
  have a := (chirpTime_bound (g.fstart ⟨M, M, 0, 0⟩) _ _ 0 0 h1 h2 (fstart_range hg hq).1).1
  have b := tmerge_pos hg hq
  have hf := fLow_pos hg hq
  have hi : g.fLow ⟨M, M, 0, 0⟩ ≤ 1 / (2 * M * mtsun) := by
    refine (min_le_left _ _).trans ?_
    unfold fIsco frequencyIsco
    dsimp only
    apply one_div_le_one_div_of_le (by positivity)
    have h9 : (1 : ℝ) ≤ (9 : ℝ) ^ (1.5 : ℝ) := Real.one_le_rpow (by norm_num) (by norm_num)
    have hp := Real.pi_gt_three
    have e : (9 : ℝ) ^ (1.5 : ℝ) * Real.pi * (M * msun + M * msun) * mtsun / msun = (9 : ℝ) ^ (1.5 : ℝ) * Real.pi * (2 * M * mtsun) := by
      field_simp; ring
    rw [e]
    have h3 : 1 ≤ (9 : ℝ) ^ (1.5 : ℝ) * Real.pi := by nlinarith
    have : 0 < 2 * M * mtsun := by positivity
    nlinarith
  have ht : 2 * M * mtsun ≤ 1 / g.fLow ⟨M, M, 0, 0⟩ := by
    rw [le_div_iff₀ hf]
    have := mul_le_mul_of_nonneg_left hi (by positivity : (0 : ℝ) ≤ 2 * M * mtsun)
    rwa [mul_one_div_cancel (by positivity)] at this
  have htime : 6 * (2 * M * mtsun) ≤ g.time ⟨M, M, 0, 0⟩ := by
    unfold Gen.time Gen.textra
    have e : 2 * (3 / g.fLow ⟨M, M, 0, 0⟩) = 6 * (1 / g.fLow ⟨M, M, 0, 0⟩) := by ring
    rw [e]
    dsimp only at a ⊢
    linarith
  have hK : 6 * (2 * M * mtsun) * g.sampleRate = 12 * (|K| + 1) := by rw [hM]; field_simp; norm_num
  have := mul_le_mul_of_nonneg_right htime hsr.le
  have := le_abs_self K
  have := abs_nonneg K
  linarith

theorem ramp_pos (x : ℝ) (h0 : 0 < x) (h1 : x < 1) : 0 < ramp x := by
  unfold ramp
  have hp := Real.pi_pos
  have := Real.cos_lt_cos_of_nonneg_of_le_pi le_rfl (by nlinarith : Real.pi * x ≤ Real.pi) (by positivity)
  rw [Real.cos_zero] at this
  linarith

theorem edges_pos (ns ne : ℤ) (N t : ℕ) (h0 : 0 < t) (h1 : t < N) : 0 < edges ns ne N t := by
  unfold edges
  apply mul_pos
  · split_ifs with h
    · have hn : (0 : ℝ) < ns := by
        have : (0 : ℤ) < ns := by omega
        exact_mod_cast this
      have ht : (t : ℝ) < ns := by exact_mod_cast h
      exact ramp_pos _ (by positivity) (by rwa [div_lt_one hn])
    · norm_num
  · split_ifs with h
    · have hn : (0 : ℝ) < ne := by
        have : (0 : ℤ) < ne := by omega
        exact_mod_cast this
      have ht : (N : ℝ) - t < ne := by exact_mod_cast h
      have h1' : (t : ℝ) < N := by exact_mod_cast h1
      exact ramp_pos _ (div_pos (by linarith) hn) (by rwa [div_lt_one hn])
    · norm_num

/-- The inverse transform at zero of a spectrum that is one in one bin and zero in the others. -/
theorem irfft_bin (N k : ℕ) (hk : k ≤ N / 2) (hN : 0 < N) (X : ℕ → ℂ) (h1 : X k = 1) (h0 : ∀ j, j ≠ k → X j = 0) : 0 < irfft N X 0 := by
  unfold irfft irfftF
  apply div_pos _ (by exact_mod_cast hN)
  rw [Complex.re_sum]
  have hv : ∀ j, (herm N X j * ω N ((j : ℤ) * ((0 : ℕ) : ℤ))).re = (herm N X j).re := by
    intro j
    have : ω N ((j : ℤ) * ((0 : ℕ) : ℤ)) = 1 := by unfold ω; simp
    rw [this, mul_one]
  refine Finset.sum_pos' (fun j _ => ?_) ⟨k, Finset.mem_range.2 (by omega), ?_⟩
  · rw [hv]
    unfold herm
    split_ifs with h
    · by_cases e : j = k
      · rw [e, h1]; norm_num
      · rw [h0 j e]; norm_num
    · by_cases e : N - j = k
      · rw [e, h1]; norm_num
      · rw [h0 _ e]; norm_num
  · rw [hv]
    unfold herm
    rw [if_pos hk, h1]; norm_num

/-- **C85 (when it fails).**  For every generator and every binary there is a companion, and an approximant, with which the binary's series changes: alone it is zero
everywhere, in the company of the other it is not.  The longer companion refines the frequency grid for the whole batch. -/
theorem companion_matters (g : Gen) (hg : g.Valid) (hny : 2 * g.fMin < g.sampleRate) (h : ℕ) (hh : g.sampleRate = 2 * h) (hd : 0 ≤ g.duration)
    (p : Par) (hp : p.Valid) (hS : 1 ≤ roundEven (g.rightPad * g.sampleRate)) (hSd : (roundEven (g.rightPad * g.sampleRate) : ℝ) ≤ g.duration * g.sampleRate) :
    ∃ q : Par, q.Valid ∧ ∃ (H : ℝ → ℂ) (r r' : Series),
      g.run (fun fs => .ok fun _ j => (H (fs.getD j 0), H (fs.getD j 0))) [p] = .ok r ∧
      g.run (fun fs => .ok fun _ j => (H (fs.getD j 0), H (fs.getD j 0))) [p, q] = .ok r' ∧
      (∀ t < r.len, r.cross 0 t = some 0 ∧ r.plus 0 t = some 0) ∧ (∃ t < r'.len, r'.cross 0 t ≠ some 0) ∧ ∃ t < r'.len, r'.plus 0 t ≠ some 0 := by
  have hsr := sampleRate_pos hg hp
  have hb1 : Batch [p] := ⟨by simp, by simpa using hp⟩
  obtain ⟨m, hm4, hdf1, -, -⟩ := df_ok g [p] hg hb1
  set S := roundEven (g.rightPad * g.sampleRate) with hSdef
  have hgap : 0 < 1 / 2 - g.fMin / g.sampleRate := by
    rw [sub_pos, div_lt_iff₀ hsr]; linarith
  obtain ⟨q, hq, hqK⟩ := long_companion g hg ((2 : ℝ) ^ m + S + 1 + 2 / (1 / 2 - g.fMin / g.sampleRate))
  refine ⟨q, hq, ?_⟩
  have hb2 : Batch [p, q] := ⟨by simp, by intro x hx; simp at hx; rcases hx with rfl | rfl <;> assumption⟩
  obtain ⟨m', hm4', hdf2, hall, -⟩ := df_ok g [p, q] hg hb2
  have hK : (2 : ℝ) ^ m + S + 1 + 2 / (1 / 2 - g.fMin / g.sampleRate) ≤ 2 ^ m' := hqK.trans (hall q (by simp))
  have hdiv : 0 < 2 / (1 / 2 - g.fMin / g.sampleRate) := by positivity
  have hSR : (1 : ℝ) ≤ S := by exact_mod_cast hS
  have hpm : (0 : ℝ) < 2 ^ m := by positivity
  have hmm : m < m' := by
    by_contra hc
    have : (2 : ℝ) ^ m' ≤ 2 ^ m := pow_le_pow_right₀ (by norm_num) (not_lt.1 hc)
    linarith
  have hSN : S < 2 ^ m' := by
    have : (S : ℝ) < 2 ^ m' := by linarith
    exact_mod_cast this
  have hgapN : 2 ≤ (1 / 2 - g.fMin / g.sampleRate) * 2 ^ m' := by
    have : 2 / (1 / 2 - g.fMin / g.sampleRate) ≤ 2 ^ m' := by linarith
    rwa [div_le_iff₀ hgap, mul_comm] at this
  have hN2 : (2 : ℕ) ^ m' = 2 * 2 ^ (m' - 1) := by rw [← pow_succ', Nat.sub_add_cancel (by omega)]
  have hN2R : (2 : ℝ) ^ m' = 2 * 2 ^ (m' - 1) := by exact_mod_cast hN2
  have h8 : 8 ≤ 2 ^ (m' - 1) := by
    calc 8 = 2 ^ 3 := by norm_num
      _ ≤ 2 ^ (m' - 1) := Nat.pow_le_pow_right (by norm_num) (by omega)
  set k := 2 ^ (m' - 1) - 1 with hk
  have hkR : (k : ℝ) = 2 ^ (m' - 1) - 1 := by
    rw [hk, Nat.cast_sub (by omega)]; push_cast; ring
  set df := g.sampleRate / 2 ^ m' with hdfd
  have hdf0 : 0 < df := by rw [hdfd]; positivity
  set H : ℝ → ℂ := fun f => if f = k * df then 1 else 0 with hH
  -- alone
  obtain ⟨F, s, r, hF, -, hs, hr, hlen, hrow⟩ := run_ok g hg hny h hh hd [p] hb1 (fun _ => H) (fun _ => H)
  obtain ⟨F', s', r', hF', -, hs', hr', hlen', hrow'⟩ := run_ok g hg hny h hh hd [p, q] hb2 (fun _ => H) (fun _ => H)
  rw [hF] at hF'
  obtain rfl := Except.ok.inj hF'
  obtain ⟨ha, hb⟩ := highpass_coeffs g hg.1 hny F hF
  obtain ⟨n, -, hdf, -, -, u, hu, hul, huv⟩ := unfiltered_grid g hg h hh hd [p] hb1 (fun _ => H) (fun _ => H)
  obtain ⟨n', -, hdf', -, -, u', hu', hul', huv'⟩ := unfiltered_grid g hg h hh hd [p, q] hb2 (fun _ => H) (fun _ => H)
  rw [hs] at hu; obtain rfl := Except.ok.inj hu
  rw [hs'] at hu'; obtain rfl := Except.ok.inj hu'
  have hpow : ∀ a b : ℕ, g.sampleRate / 2 ^ a = g.sampleRate / 2 ^ b → a = b := by
    intro a b e
    rw [div_eq_div_iff (by positivity) (by positivity)] at e
    have e := (mul_left_cancel₀ hsr.ne' e).symm
    have e2 : (2 : ℕ) ^ a = 2 ^ b := by exact_mod_cast e
    exact Nat.pow_right_injective le_rfl e2
  obtain rfl : n = m := hpow _ _ (Except.ok.inj (hdf.symm.trans hdf1))
  obtain rfl : n' = m' := hpow _ _ (Except.ok.inj (hdf'.symm.trans hdf2))
  have hcoarse : ∀ j : ℕ, H (j * (g.sampleRate / 2 ^ n)) = 0 := by
    intro j
    rw [hH]
    dsimp only
    rw [if_neg]
    intro e
    rw [hdfd] at e
    have e1 : (j : ℝ) * 2 ^ n' = k * 2 ^ n := by field_simp at e; linarith
    have e2 : j * 2 ^ n' = k * 2 ^ n := by exact_mod_cast e1
    obtain ⟨d, rfl⟩ : ∃ d, n' = n + 1 + d := ⟨n' - n - 1, by omega⟩
    have e3 : 2 ^ n * (j * 2 * 2 ^ d) = 2 ^ n * k := by rw [mul_comm _ k, ← e2]; ring
    have e4 := Nat.eq_of_mul_eq_mul_left (by positivity) e3
    have e5 : 2 ∣ 2 ^ (n + 1 + d - 1) := dvd_pow_self 2 (by omega)
    have e6 : 2 ∣ k := ⟨j * 2 ^ d, by rw [← e4]; ring⟩
    omega
  have hz : ∀ t < s.len, s.cross 0 t = some 0 ∧ s.plus 0 t = some 0 := by
    intro t ht
    have e : s.len - (s.len - t) = t := by omega
    have h0 : ∀ (K : ℕ) (f : ℝ) (k0 k1 : ℤ) , shaped H (g.sampleRate / 2 ^ n) f k0 k1 K = fun _ => 0 := by
      intro K f k0 k1
      funext j
      unfold shaped
      rw [hcoarse, mul_zero, ite_self]
    have hir : ∀ N t, irfft N (fun _ => 0) t = 0 := by intro N t; simp [irfft, irfftF, herm]
    have h1 := huv 0 p rfl (s.len - t) (by omega) (by omega) s.cross _ (Or.inl ⟨rfl, rfl⟩)
    have h2 := huv 0 p rfl (s.len - t) (by omega) (by omega) s.plus _ (Or.inr ⟨rfl, rfl⟩)
    rw [e, h0, hir] at h1 h2
    rw [h1, h2]
    simp
  -- in company
  have hS1 : S.toNat = S := Int.toNat_of_nonneg (by omega)
  have hSlen : S.toNat ≤ s'.len := by
    have : S ≤ (s'.len : ℤ) := by
      rw [hul']
      split_ifs
      · exact Int.le_floor.2 hSd
      · have := Int.le_ceil (g.duration * g.sampleRate)
        exact_mod_cast hSd.trans this
    omega
  have hSN' : S.toNat < 2 ^ n' := by
    have : (S.toNat : ℤ) < ((2 ^ n' : ℕ) : ℤ) := by rw [hS1]; exact_mod_cast hSN
    exact_mod_cast this
  have hval : 0 < irfft (2 ^ n') (shaped H df (g.fstart p) (roundEven (g.fstart p / df)) (roundEven (g.fLow p / df)) (2 ^ (n' - 1))) 0 := by
    have hkdf : (k : ℝ) * df = g.sampleRate / 2 - df := by
      rw [hdfd, hkR, hN2R]; field_simp
    have hfl : g.fLow p ≤ g.fMin := min_le_right _ _
    have hdfle : 2 * df ≤ g.sampleRate / 2 - g.fMin := by
      have := mul_le_mul_of_nonneg_right hgapN hdf0.le
      have e : (1 / 2 - g.fMin / g.sampleRate) * 2 ^ n' * df = g.sampleRate / 2 - g.fMin := by rw [hdfd]; field_simp
      linarith
    refine irfft_bin _ k (by omega) (by positivity) _ ?_ ?_
    · unfold shaped
      rw [if_neg]
      · unfold GenSpec.taper
        rw [if_neg]
        · rw [hH]; simp
        · intro hc
          have h1 : roundEven (g.fLow p / df) ≤ k - 1 := by
            apply roundEven_le
            push_cast
            rw [div_le_iff₀ hdf0, sub_mul, hkdf]
            linarith
          omega
      · rintro (hc | hc)
        · have := (fstart_range hg hp).2
          linarith
        · omega
    · intro j hj
      unfold shaped
      have : H (j * df) = 0 := by
        rw [hH]; dsimp only
        rw [if_neg]
        intro e
        have := mul_right_cancel₀ hdf0.ne' e
        exact hj (by exact_mod_cast this)
      rw [this, mul_zero, ite_self]
  have hlater : later (2 ^ n') (2 ^ n' - S.toNat) S = 0 := by
    have := coalescence_later (2 ^ n') S.toNat (by omega) hSN'.le
    rwa [hS1] at this
  have hne : ∀ (x : ℕ → ℕ → Option ℝ) (H' : ℕ → ℝ → ℂ), (x = s'.cross ∧ H' = fun _ => H) ∨ (x = s'.plus ∧ H' = fun _ => H) → ∃ v, v ≠ 0 ∧ x 0 (s'.len - S.toNat) = some v := by
    intro x H' hx
    have h1 := huv' 0 p rfl S.toNat (by omega) hSlen x H' hx
    have hHx : H' 0 = H := by rcases hx with ⟨-, rfl⟩ | ⟨-, rfl⟩ <;> rfl
    rw [if_pos hSN'.le, hHx, hlater] at h1
    refine ⟨_, ?_, h1⟩
    exact (mul_pos (mul_pos hval hsr) (edges_pos _ _ _ _ (by omega) (by omega))).ne'
  obtain ⟨xc, xp, hx, hy⟩ := hrow 0 (by simp)
  obtain ⟨xc', xp', hx', hy'⟩ := hrow' 0 (by simp)
  have hfz : ∀ t < s.len, filtRow F.a F.b s.len xc t = 0 ∧ filtRow F.a F.b s.len xp t = 0 := by
    have h0 : ∀ t < s.len, filtRow F.a F.b s.len (fun _ => 0) t = 0 := by
      intro t ht
      have := linear F.a F.b s.len (fun _ => 0) (fun _ => 0) 0 0 ha t ht
      simpa using this
    intro t ht
    constructor
    · rw [filtRow_congr _ _ _ xc (fun _ => 0) ha (fun j hj => Option.some.inj ((hx j hj).1.symm.trans (hz j hj).1)) t ht, h0 t ht]
    · rw [filtRow_congr _ _ _ xp (fun _ => 0) ha (fun j hj => Option.some.inj ((hx j hj).2.symm.trans (hz j hj).2)) t ht, h0 t ht]
  refine ⟨H, r, r', hr, hr', ?_, ?_, ?_⟩
  · intro t ht
    rw [hlen] at ht
    rw [(hy t ht).1, (hy t ht).2, (hfz t ht).1, (hfz t ht).2]
    exact ⟨rfl, rfl⟩
  · by_contra hc
    push Not at hc
    rw [hlen'] at hc
    have hinj := injective F.a F.b s'.len xc' ha hb fun t ht => by
      have := hc t ht
      rw [(hy' t ht).1] at this
      exact Option.some.inj this
    obtain ⟨v, hv, hv2⟩ := hne s'.cross _ (Or.inl ⟨rfl, rfl⟩)
    have hlt : s'.len - S.toNat < s'.len := by omega
    rw [(hx' _ hlt).1, hinj _ hlt] at hv2
    exact hv (Option.some.inj hv2).symm
  · by_contra hc
    push Not at hc
    rw [hlen'] at hc
    have hinj := injective F.a F.b s'.len xp' ha hb fun t ht => by
      have := hc t ht
      rw [(hy' t ht).2] at this
      exact Option.some.inj this
    obtain ⟨v, hv, hv2⟩ := hne s'.plus _ (Or.inr ⟨rfl, rfl⟩)
    have hlt : s'.len - S.toNat < s'.len := by omega
    rw [(hx' _ hlt).2, hinj _ hlt] at hv2
    exact hv (Option.some.inj hv2).symm

/-! ## The hypotheses can be met -/

example : ∃ q : Par, q.Valid ∧ ∃ (H : ℝ → ℂ) (r r' : Series),
      exGen.run (fun fs => .ok fun _ j => (H (fs.getD j 0), H (fs.getD j 0))) [exPar] = .ok r ∧
      exGen.run (fun fs => .ok fun _ j => (H (fs.getD j 0), H (fs.getD j 0))) [exPar, q] = .ok r' ∧
      (∀ t < r.len, r.cross 0 t = some 0 ∧ r.plus 0 t = some 0) ∧ (∃ t < r'.len, r'.cross 0 t ≠ some 0) ∧ ∃ t < r'.len, r'.plus 0 t ≠ some 0 := by
  have hr : roundEven (exGen.rightPad * exGen.sampleRate) = 1024 := by
    have e : exGen.rightPad * exGen.sampleRate = ((1024 : ℤ) : ℝ) := by unfold exGen; norm_num
    rw [e]; unfold roundEven; simp
  exact companion_matters exGen (by unfold exGen Gen.Valid; norm_num) (by unfold exGen; norm_num) 1024 (by unfold exGen; norm_num) (by unfold exGen; norm_num)
    exPar (by constructor <;> norm_num [exPar]) (by rw [hr]; norm_num) (by rw [hr]; unfold exGen; norm_num)

/-- A permuted batch. -/
example (Hc Hp : ℕ → ℝ → ℂ) : ∃ r r', exGen.run (fun fs => .ok fun b j => (Hc b (fs.getD j 0), Hp b (fs.getD j 0))) [exPar, ⟨1.4, 1.4, 0.1, -0.2⟩] = .ok r ∧
      exGen.run (fun fs => .ok fun b j => (Hc (1 - b) (fs.getD j 0), Hp (1 - b) (fs.getD j 0))) [⟨1.4, 1.4, 0.1, -0.2⟩, exPar] = .ok r' ∧ r.len = r'.len ∧
      ∀ t < r.len, r.cross 0 t = r'.cross 1 t ∧ r.plus 0 t = r'.plus 1 t := by
  have hb : ∀ l : List Par, l ≠ [] → (∀ p ∈ l, p = exPar ∨ p = ⟨1.4, 1.4, 0.1, -0.2⟩) → Batch l := by
    intro l hl h
    refine ⟨hl, fun p hp => ?_⟩
    rcases h p hp with rfl | rfl <;> constructor <;> norm_num [exPar]
  refine same_longest_partial exGen (by unfold exGen Gen.Valid; norm_num) (by unfold exGen; norm_num) 1024 (by unfold exGen; norm_num) (by unfold exGen; norm_num)
    [exPar, ⟨1.4, 1.4, 0.1, -0.2⟩] [⟨1.4, 1.4, 0.1, -0.2⟩, exPar] (hb _ (by simp) (by simp)) (hb _ (by simp) (by simp)) Hc Hp
    (fun b => Hc (1 - b)) (fun b => Hp (1 - b)) ?_ ?_ 0 1 exPar rfl rfl rfl rfl
  all_goals
    rcases le_total (exGen.chirplen exPar) (exGen.chirplen ⟨1.4, 1.4, 0.1, -0.2⟩) with h | h
    · exact ⟨⟨1.4, 1.4, 0.1, -0.2⟩, by simp, by simpa using h⟩
    · exact ⟨exPar, by simp, by simpa using h⟩

end Verif.Generator
