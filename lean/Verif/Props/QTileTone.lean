import Verif.Props.QTileShift
import Mathlib.Analysis.Complex.ExponentialBounds
/-!
# The response of a row of Q tiles to a tone (C96)
-/
set_option linter.unusedVariables false
namespace Verif.QTransform
open Finset Fourier Whiten QSpec

/-- The spectrum of a tone. -/
theorem rfft_tone (N m c : ℕ) (A φ : ℝ) (hm : 0 < m) (hm2 : 2 * m < N) (hc : c ≤ N / 2) :
    rfft N (tone N m A φ) c = if c = m then (A : ℂ) * N / 2 * Complex.exp (φ * Complex.I) else 0 := by
  have hN : 0 < N := by omega
  have hN' : (N : ℂ) ≠ 0 := by exact_mod_cast hN.ne'
  have ht : ∀ t : ℕ, ((tone N m A φ t : ℝ) : ℂ) * ω N (-((c : ℤ) * t)) =
      (A : ℂ) / 2 * Complex.exp (φ * Complex.I) * ω N ((t : ℤ) * ((m : ℤ) - c)) +
        (A : ℂ) / 2 * Complex.exp (-(φ * Complex.I)) * ω N ((t : ℤ) * (-(m : ℤ) - c)) := by
    intro t
    unfold tone
    push_cast
    rw [Complex.cos]
    have e1 : ω N ((t : ℤ) * ((m : ℤ) - c)) = Complex.exp (2 * Real.pi * m * t / N * Complex.I) * ω N (-((c : ℤ) * t)) := by
      unfold ω
      rw [← Complex.exp_add]
      congr 1
      push_cast
      field_simp
      ring
    have e2 : ω N ((t : ℤ) * (-(m : ℤ) - c)) = Complex.exp (-(2 * Real.pi * m * t / N * Complex.I)) * ω N (-((c : ℤ) * t)) := by
      unfold ω
      rw [← Complex.exp_add]
      congr 1
      push_cast
      field_simp
      ring
    have e3 : -(2 * (Real.pi : ℂ) * m * t / N + φ) * Complex.I = -(2 * Real.pi * m * t / N * Complex.I) + -(φ * Complex.I) := by ring
    rw [e1, e2, e3, add_mul, Complex.exp_add, Complex.exp_add]
    ring
  unfold rfft dft
  dsimp only
  rw [sum_congr rfl fun t _ => ht t, sum_add_distrib, ← mul_sum, ← mul_sum, sum_ω N hN, sum_ω N hN]
  have h2 : ¬ (N : ℤ) ∣ (-(m : ℤ) - c) := by
    intro h
    have h' : (N : ℤ) ∣ ((m : ℤ) + c) := by
      have := (dvd_neg (a := (N : ℤ))).2 h
      rwa [show -(-(m : ℤ) - c) = (m : ℤ) + c by ring] at this
    have := Int.le_of_dvd (by omega) h'
    omega
  rw [if_neg h2, mul_zero, add_zero]
  by_cases h : c = m
  · subst h
    rw [if_pos (by simp), if_pos rfl]; ring
  · rw [if_neg h, if_neg, mul_zero]
    intro hd
    have := Int.eq_zero_of_abs_lt_dvd hd (by rw [abs_lt]; omega)
    omega

/-- The offset of a bin from the centre of the window is within the window. -/
theorem half_iff (t : QTile) (hq : 0 < t.q) (hf : 0 < t.f) (hd : 0 < t.dur) (z : ℤ) :
    |z| ≤ t.half ↔ |(z : ℝ) / t.dur| ≤ t.f * Real.sqrt 11 / t.q := by
  have hqp := qprime_pos hq
  rw [abs_div, abs_of_pos hd, div_le_iff₀ hd]
  have e : t.f * Real.sqrt 11 / t.q * t.dur = t.f / qprime t.q * t.dur := by unfold qprime; field_simp
  rw [e]
  unfold QTile.half pyInt
  rw [if_pos (by positivity), Int.le_floor]
  push_cast
  rfl

/-- The energies of a row for a spectrum with a single bin. -/
theorem energy_bin (t : QTile) (X : ℕ → ℂ) (N k m : ℕ) (hq : 0 < t.q) (hf : 0 < t.f) (hd : 0 < t.dur) (hs : 0 < t.sr) (hm : 0 < t.mismatch)
    (hm4 : t.mismatch ≤ 1 / 4) (h2 : 2 ≤ t.ntiles) (hk : t.f * t.dur = k) (hN : nRfft t.dur t.sr = ((N / 2 : ℕ) : ℤ))
    (hin : Inside t.q t.f t.dur N) (hX : ∀ c ≤ N / 2, c ≠ m → X c = 0) (s : ℕ) :
    t.energy X s = ‖X m‖ ^ 2 * response t.q t.f t.dur t.sr (m / t.dur - t.f - 1 / t.dur) := by
  have hh := half_nonneg t hq hf hd
  have hw : t.windowsize = 2 * t.half + 1 := rfl
  have hn0 : 0 < t.ntiles.toNat := by omega
  have hδ : (m : ℝ) / t.dur - t.f - 1 / t.dur = (((m : ℤ) - k - 1 : ℤ) : ℝ) / t.dur := by
    have : t.f = k / t.dur := by rw [← hk]; field_simp
    rw [this]; push_cast; field_simp
  rw [energy_eq t X hq hf hd hm hm4 h2 s, hδ]
  unfold rowEnergy response
  have hidx := index_inside t N k hq hf hd hk hN hin
  by_cases hc : |((m : ℤ) - k - 1)| ≤ t.half
  · rw [if_pos ((half_iff t hq hf hd _).1 hc)]
    have hc' := abs_le.1 hc
    set j := ((m : ℤ) - k - 1 + t.half).toNat with hj
    have hjW : (j : ℤ) < t.windowsize := by omega
    rw [Finset.sum_eq_single j]
    · have ej : (t.index j).toNat = m := by
        have := (hidx j hjW).1; omega
      beta_reduce
      rw [ej]
      have hexp : ‖Complex.exp (2 * Real.pi * Complex.I * (j * s) / (t.ntiles.toNat : ℕ))‖ = 1 := by
        have : Complex.exp (2 * Real.pi * Complex.I * (j * s) / (t.ntiles.toNat : ℕ)) = ω t.ntiles.toNat ((j : ℤ) * s) := by
          unfold ω; push_cast; rfl
        rw [this, ω_norm]
      rw [norm_mul, norm_mul, norm_mul, hexp, mul_one, Complex.norm_real, Real.norm_eq_abs, mul_pow, mul_pow, sq_abs, norm_div, norm_one,
        Complex.norm_natCast, window_bisquare]
      have eo : ((j : ℝ) - t.half) = (((m : ℤ) - k - 1 : ℤ) : ℝ) := by
        have : ((j : ℤ) - t.half) = (m : ℤ) - k - 1 := by omega
        exact_mod_cast this
      have en : (t.ntiles : ℝ) = (t.ntiles.toNat : ℝ) := by
        have : ((t.ntiles.toNat : ℕ) : ℤ) = t.ntiles := by omega
        exact_mod_cast this.symm
      have hqp := qprime_pos hq
      have hnR : (0 : ℝ) < t.ntiles.toNat := by exact_mod_cast hn0
      rw [eo, en, mul_pow, mul_pow, Real.sq_sqrt (by positivity)]
      unfold qprime at *
      field_simp
    · intro j' hj' hne
      have hj'W : (j' : ℤ) < t.windowsize := by have := mem_range.1 hj'; omega
      obtain ⟨i1, i2, i3⟩ := hidx j' hj'W
      beta_reduce
      rw [hX (t.index j').toNat (by omega) (by omega)]; ring
    · intro h; exact absurd (mem_range.2 (by omega)) h
  · rw [if_neg (fun h => hc ((half_iff t hq hf hd _).2 h)), mul_zero]
    rw [Finset.sum_eq_zero]
    · simp
    · intro j' hj'
      have hj'W : (j' : ℤ) < t.windowsize := by have := mem_range.1 hj'; omega
      obtain ⟨i1, i2, i3⟩ := hidx j' hj'W
      have : ¬ (-t.half ≤ (m : ℤ) - k - 1 ∧ (m : ℤ) - k - 1 ≤ t.half) := fun h => hc (abs_le.2 h)
      beta_reduce
      rw [hX (t.index j').toNat (by omega) (by omega)]; ring

/-- **C96 (tone).**  A tone of amplitude `A` with `m` periods in the data gives the same unnormalised energy in every tile of a row whose window lies
inside the spectrum: `A ^ 2` times the response of the row at the tone's offset **from the frequency one bin above that of the row**.  The full
property, with the offset from the frequency of the row itself, is false (`tone_off_centre`). -/
theorem tiles_tone_partial (s : Single) (x : Tensor ℝ) (lead : List ℕ) (N m : ℕ) (A φ : ℝ) (hx : x.shape = lead ++ [N]) (hl : lead.length ≤ 2)
    (hNs : pyInt (s.dur * s.sr) = N) (h2 : ∀ t ∈ s.transforms, 2 ≤ t.ntiles) (hq : 0 < s.q) (hdur : 0 < s.dur) (hsr : 0 < s.sr)
    (hmis : 0 < s.mismatch) (hmis4 : s.mismatch ≤ 1 / 4) (hr1 : 1 / s.dur ≤ s.range.1) (hr : s.range.1 ≤ s.range.2) (hm : 0 < m) (hm2 : 2 * m < N)
    (htone : ∀ b : List ℕ, ∀ t < N, x.get (b ++ [t]) = tone N m A φ t) :
    ∃ ts : List (Tensor ℝ), s.compute x none = .ok { s with tiles := some ts } ∧ ts.length = s.freqs.length ∧
      ∀ i (hi : i < ts.length), Inside s.q (s.freqs.getD i 0) s.dur N → ∀ b : List ℕ, b.length = 2 → ∀ u,
        ts[i].get (b ++ [u]) = A ^ 2 * response s.q (s.freqs.getD i 0) s.dur s.sr (m / s.dur - s.freqs.getD i 0 - 1 / s.dur) := by
  have hN : 0 < N := by omega
  obtain ⟨ts, c1, c2, c3⟩ := compute_ok s x lead N none _ hx hl hN hNs normalizer_none h2
  refine ⟨ts, c1, c2, ?_⟩
  intro i hi hin b hb u
  have hi2 : i < s.transforms.length := by rw [c2] at hi; simpa [Single.transforms] using hi
  obtain ⟨-, e2, e3⟩ := c3 i hi hi2
  obtain ⟨r1, r2, r3, r4, r5, r6⟩ := row_facts s N hNs i hi2
  have hmm : (s.transforms[i]).mismatch = s.mismatch := by simp [Single.transforms]
  have ht2 := h2 _ (List.getElem_mem hi2)
  have hpos : 0 < s.range.1 := lt_of_lt_of_le (by positivity) hr1
  obtain ⟨⟨k, hk⟩, -, -, hf1, -⟩ := (freqs_spec s.dur s.q s.mismatch s.range hdur hpos hr).2.2 _ r5
  have hf : 0 < (s.transforms[i]).f := lt_of_lt_of_le (by positivity) (hf1 hr1)
  rw [e3 b hb, div_one]
  have hN' : (N : ℂ) ≠ 0 := by exact_mod_cast hN.ne'
  have hsp : ∀ c ≤ N / 2, rfft N (fun t => x.get (dropLead lead b ++ [t])) c = if c = m then (A : ℂ) * N / 2 * Complex.exp (φ * Complex.I) else 0 := by
    intro c hc
    rw [rfft_congr N _ (tone N m A φ) (htone (dropLead lead b)), rfft_tone N m c A φ hm hm2 hc]
  rw [energy_bin (s.transforms[i]) _ N k m (by rw [r1]; exact hq) hf (by rw [r2]; exact hdur) (by rw [r4]; exact hsr) (by rw [hmm]; exact hmis)
    (by rw [hmm]; exact hmis4) ht2 (by rw [r2]; exact hk) r6 (by rw [r1, r2, r3]; exact hin)]
  · rw [hsp m (by omega), if_pos rfl, if_pos (show 1 ≤ m from hm), r1, r2, r3, r4]
    congr 1
    have : (A : ℂ) * N / 2 * Complex.exp (φ * Complex.I) / N * 2 = A * Complex.exp (φ * Complex.I) := by field_simp
    rw [this, norm_mul, Complex.norm_exp_ofReal_mul_I, mul_one, Complex.norm_real, Real.norm_eq_abs, sq_abs]
  · intro c hc hne
    rw [hsp c hc, if_neg hne]; simp

/-- The response is largest at offset zero and strictly smaller elsewhere. -/
theorem response_lt (q f dur sr δ : ℝ) (hq : 0 < q) (hf : 0 < f) (hd : 0 < dur) (hs : 0 < sr) (hδ : δ ≠ 0) :
    response q f dur sr δ < response q f dur sr 0 := by
  have h11 : 0 < Real.sqrt 11 := by positivity
  unfold response
  rw [if_pos (show |(0 : ℝ)| ≤ f * Real.sqrt 11 / q by rw [abs_zero]; positivity)]
  have hC : 0 < 315 * (q / Real.sqrt 11) / (128 * f) := by positivity
  have hD : 0 < (dur * sr) ^ 2 := by positivity
  have h0 : bisquare f (q / Real.sqrt 11) 0 = 1 := by simp [bisquare]
  rw [h0]
  split_ifs with h
  · refine div_lt_div_of_pos_right (mul_lt_mul_of_pos_right ?_ hC) hD
    unfold bisquare
    have hx : |δ * (q / Real.sqrt 11) / f| ≤ 1 := by
      rw [abs_div, abs_mul, abs_of_pos hf, abs_of_pos (show 0 < q / Real.sqrt 11 by positivity), div_le_one hf]
      calc |δ| * (q / Real.sqrt 11) ≤ f * Real.sqrt 11 / q * (q / Real.sqrt 11) := by gcongr
        _ = f := by field_simp
    have hx2 : (δ * (q / Real.sqrt 11) / f) ^ 2 ≤ 1 := by rw [sq_le_one_iff_abs_le_one]; exact hx
    have hx0 : 0 < (δ * (q / Real.sqrt 11) / f) ^ 2 := by positivity
    generalize (δ * (q / Real.sqrt 11) / f) ^ 2 = y at *
    rw [one_pow, ← pow_mul]
    exact pow_lt_one₀ (by linarith) (by linarith) (by norm_num)
  · positivity

/-- **C96 (finding).**  In every row whose window lies inside the spectrum, a tone at the frequency of the row gives strictly less energy than a tone
of the same amplitude one bin of the spectrum higher (qtransform.py:100 adds one to the indices). -/
theorem tone_off_centre (s : Single) (x y : Tensor ℝ) (lead : List ℕ) (N k : ℕ) (A φ : ℝ) (hA : A ≠ 0) (hx : x.shape = lead ++ [N])
    (hy : y.shape = lead ++ [N]) (hl : lead.length ≤ 2) (hNs : pyInt (s.dur * s.sr) = N) (h2 : ∀ t ∈ s.transforms, 2 ≤ t.ntiles) (hq : 0 < s.q)
    (hdur : 0 < s.dur) (hsr : 0 < s.sr) (hmis : 0 < s.mismatch) (hmis4 : s.mismatch ≤ 1 / 4) (hr1 : 1 / s.dur ≤ s.range.1)
    (hr : s.range.1 ≤ s.range.2) (hm : 0 < k) (hm2 : 2 * (k + 1) < N) (i : ℕ) (hi : i < s.freqs.length) (hf : s.freqs.getD i 0 = k / s.dur)
    (hin : Inside s.q (s.freqs.getD i 0) s.dur N) (hxt : ∀ b : List ℕ, ∀ t < N, x.get (b ++ [t]) = tone N k A φ t)
    (hyt : ∀ b : List ℕ, ∀ t < N, y.get (b ++ [t]) = tone N (k + 1) A φ t) :
    ∃ ts ts' : List (Tensor ℝ), s.compute x none = .ok { s with tiles := some ts } ∧ s.compute y none = .ok { s with tiles := some ts' } ∧
      ts.length = s.freqs.length ∧ ts'.length = s.freqs.length ∧
      ∀ (h : i < ts.length) (h' : i < ts'.length), ∀ b : List ℕ, b.length = 2 → ∀ u v, ts[i].get (b ++ [u]) < ts'[i].get (b ++ [v]) := by
  obtain ⟨ts, c1, c2, c3⟩ := tiles_tone_partial s x lead N k A φ hx hl hNs h2 hq hdur hsr hmis hmis4 hr1 hr hm (by omega) hxt
  obtain ⟨ts', d1, d2, d3⟩ := tiles_tone_partial s y lead N (k + 1) A φ hy hl hNs h2 hq hdur hsr hmis hmis4 hr1 hr (by omega) hm2 hyt
  refine ⟨ts, ts', c1, d1, c2, d2, ?_⟩
  intro h h' b hb u v
  rw [c3 i h hin b hb u, d3 i h' hin b hb v, hf]
  have e : ((k + 1 : ℕ) : ℝ) / s.dur - k / s.dur - 1 / s.dur = 0 := by push_cast; field_simp; ring
  rw [e]
  refine mul_lt_mul_of_pos_left (response_lt _ _ _ _ _ hq ?_ hdur hsr ?_) (by positivity)
  · have : (0 : ℝ) < k := by exact_mod_cast hm
    positivity
  · have : (k : ℝ) / s.dur - k / s.dur - 1 / s.dur = -(1 / s.dur) := by ring
    rw [this, neg_ne_zero]; positivity

/-- Non-vacuity: the transform of the examples has a row inside the spectrum, at a frequency between 47 and 400 Hz. -/
theorem exSingle_row : ∃ i k : ℕ, i < exSingle.freqs.length ∧ exSingle.freqs.getD i 0 = k / exSingle.dur ∧ 0 < k ∧ 2 * (k + 1) < 2048 ∧
    Inside exSingle.q (exSingle.freqs.getD i 0) exSingle.dur 2048 := by
  obtain ⟨h1, h2, -, -⟩ := exSingle_facts
  have hpos : 0 < exSingle.range.1 := lt_of_lt_of_le (by norm_num [exSingle]) h1
  have hd : exSingle.dur = 2 := rfl
  have hq : exSingle.q = 12 := rfl
  have hfs := (freqs_spec exSingle.dur exSingle.q exSingle.mismatch exSingle.range (by rw [hd]; norm_num) hpos h2).2.2
  have hsp := (rawFreq_spacing exSingle.q exSingle.mismatch exSingle.range hpos h2 (by norm_num [exSingle]) 0).2.1
  have hmem := rawFreq_mem exSingle.q exSingle.mismatch exSingle.range hpos h2 0 (nfreq_pos _ _ _)
  set r := rawFreq exSingle.q exSingle.mismatch exSingle.range 0 with hr
  have hr0 : 0 < r := hpos.trans_le hmem.1
  have hr1 : exSingle.range.1 ≤ 100 := by
    simp only [exSingle, resolve]
    norm_num
    have := Real.pi_gt_three
    rw [div_le_iff₀ (by positivity)]
    linarith
  have hlt : r ≤ 300 := by
    unfold freqDist at hsp
    have hlog : Real.log (r / exSingle.range.1) ≤ 1 := by
      have a1 : deltam exSingle.mismatch ≤ 2 := by
        unfold deltam
        have : Real.sqrt (exSingle.mismatch / 3) ≤ 1 := by rw [Real.sqrt_le_left (by norm_num)]; norm_num [exSingle]
        linarith
      have a2 : 2 ≤ Real.sqrt (2 + exSingle.q ^ 2) := by
        rw [hq]; apply Real.le_sqrt_of_sq_le; norm_num
      have a3 := le_abs_self (Real.log (r / exSingle.range.1))
      have a4 := abs_nonneg (Real.log (r / exSingle.range.1))
      nlinarith
    have := (Real.log_le_iff_le_exp (by positivity)).1 hlog
    rw [div_le_iff₀ hpos] at this
    have e := Real.exp_one_lt_d9
    nlinarith
  have hf : floorTo exSingle.dur r ∈ exSingle.freqs := by
    unfold Single.freqs freqs
    rw [Finset.mem_sort, List.mem_toFinset, List.mem_map]
    exact ⟨0, List.mem_range.2 (nfreq_pos _ _ _), rfl⟩
  obtain ⟨⟨k, hk⟩, -, -, hf1, -⟩ := hfs _ hf
  have hf1 := hf1 h1
  obtain ⟨i, hi, hi'⟩ := List.getElem_of_mem hf
  have hget : exSingle.freqs.getD i 0 = floorTo exSingle.dur r := by rw [List.getD_eq_getElem _ _ hi, hi']
  have hle : floorTo exSingle.dur r ≤ 300 := by
    refine le_trans ?_ hlt
    unfold floorTo
    rw [hd]
    have := Int.floor_le (r / (1 / 2))
    linarith
  rw [hd] at hk hf1
  refine ⟨i, k, hi, ?_, ?_, ?_, ?_⟩
  · rw [hget, hd, ← hk]; ring
  · have : (0 : ℝ) < k := by rw [← hk]; rw [hd] at *; linarith
    exact_mod_cast this
  · have : (k : ℝ) ≤ 600 := by rw [← hk]; rw [hd] at *; linarith
    have : k ≤ 600 := by exact_mod_cast this
    omega
  · rw [hget, hq, hd]
    rw [hd] at hle
    exact inside_400 _ (by linarith) (by linarith)

/-- Non-vacuity: unit tones in that row. -/
example : ∃ i k : ℕ, i < exSingle.freqs.length ∧ exSingle.freqs.getD i 0 = k / exSingle.dur ∧ ∃ ts ts' : List (Tensor ℝ),
    exSingle.compute ⟨[2048], fun j => tone 2048 k 1 0 (j.getLastD 0)⟩ none = .ok { exSingle with tiles := some ts } ∧
    exSingle.compute ⟨[2048], fun j => tone 2048 (k + 1) 1 0 (j.getLastD 0)⟩ none = .ok { exSingle with tiles := some ts' } ∧
    ∀ (h : i < ts.length) (h' : i < ts'.length), ts[i].get [0, 0, 0] < ts'[i].get [0, 0, 0] := by
  obtain ⟨h1, h2, h3, h4⟩ := exSingle_facts
  obtain ⟨i, k, a1, a2, a3, a4, a5⟩ := exSingle_row
  obtain ⟨ts, ts', b1, b2, -, -, b3⟩ := tone_off_centre exSingle ⟨[2048], fun j => tone 2048 k 1 0 (j.getLastD 0)⟩
    ⟨[2048], fun j => tone 2048 (k + 1) 1 0 (j.getLastD 0)⟩ [] 2048 k 1 0 one_ne_zero rfl rfl (by simp) h4
    (fun t ht => le_trans (by norm_num) (h3 t ht)) (by norm_num [exSingle]) (by norm_num [exSingle]) (by norm_num [exSingle]) (by norm_num [exSingle])
    (by norm_num [exSingle]) h1 h2 a3 a4 i a1 a2 a5 (by intro b t _; simp) (by intro b t _; simp)
  exact ⟨i, k, a1, a2, ts, ts', b1, b2, fun h h' => b3 h h' [0, 0] rfl 0 0⟩

end Verif.QTransform
