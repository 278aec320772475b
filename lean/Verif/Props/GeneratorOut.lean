import Verif.Props.Generator
import Mathlib.Data.List.GetD
/-!
# The output of the time-domain generator (C56)
-/
set_option linter.unusedSimpArgs false
set_option linter.unusedVariables false
set_option linter.unusedSectionVars false
namespace Verif.Generator
open CbcUtils CbcSpec Whiten QTransform Fourier GenSpec

/-! ## Lists and rounding -/

theorem filter_pos (f : ℕ → ℝ) (P : ℝ → Bool) (n k : ℕ) (hk : k < n) (hP : P (f k) = true) :
    (((List.range n).map f).filter P).getD (((List.range k).filter fun j => P (f j)).length) 0 = f k := by
  obtain ⟨d, rfl⟩ : ∃ d, n = k + (d + 1) := ⟨n - k - 1, by omega⟩
  rw [List.range_add, List.range_succ_eq_map, List.map_append, List.filter_append, List.filter_map, List.map_cons, List.map_cons, List.filter_cons]
  have h0 : P (f (k + 0)) = true := by simpa using hP
  rw [if_pos h0]
  have hl : ((List.range k).filter fun j => P (f j)).length = (List.map f (List.filter (P ∘ f) (List.range k))).length := by
    rw [List.length_map]; rfl
  rw [hl, List.getD_append_right _ _ _ _ (le_refl _), Nat.sub_self, List.getD_cons_zero, Nat.add_zero]

theorem roundEven_le (r : ℝ) (k : ℤ) (h : r ≤ k) : roundEven r ≤ k := by
  have := (abs_le.1 (roundEven_near r)).2
  have h2 : (roundEven r : ℝ) < ((k + 1 : ℤ) : ℝ) := by push_cast; linarith
  have h3 : roundEven r < k + 1 := by exact_mod_cast h2
  omega

theorem le_roundEven (r : ℝ) (k : ℤ) (h : k ≤ r) : k ≤ roundEven r := by
  have := (abs_le.1 (roundEven_near r)).1
  have h2 : ((k - 1 : ℤ) : ℝ) < (roundEven r : ℝ) := by push_cast; linarith
  have h3 : k - 1 < roundEven r := by exact_mod_cast h2
  omega

/-! ## A phase ramp is a circular shift -/

theorem ω_mod (N : ℕ) (hN : 0 < N) (k : ℕ) (z : ℤ) : ω N ((k : ℤ) * (z % N)) = ω N ((k : ℤ) * z) := by
  have h : (k : ℤ) * z = (k : ℤ) * (z % N) + N * ((k : ℤ) * (z / N)) := by
    have := Int.emod_add_mul_ediv z N
    nth_rewrite 1 [← this]; ring
  rw [h, ω_add, ω_mul_self N hN, mul_one]

theorem herm_phase (N : ℕ) (hN : 0 < N) (X : ℕ → ℂ) (S : ℤ) (k : ℕ) (hk : k < N) : herm N (fun j => X j * ω N (S * j)) k = herm N X k * ω N (S * k) := by
  unfold herm
  split_ifs with h
  · rfl
  · rw [map_mul, ← ω_neg]
    congr 1
    have e : -(S * ((N - k : ℕ) : ℤ)) = S * k + N * (-S) := by push_cast [hk.le]; ring
    rw [e, ω_add, ω_mul_self N hN, mul_one]

theorem irfft_phase (N : ℕ) (hN : 0 < N) (X : ℕ → ℂ) (S : ℤ) (t : ℕ) : irfft N (fun j => X j * ω N (S * j)) t = irfft N X (later N t S) := by
  unfold irfft irfftF
  congr 2
  apply Finset.sum_congr rfl
  intro k hk
  rw [herm_phase N hN X S k (Finset.mem_range.1 hk), mul_assoc, ← ω_add]
  congr 1
  unfold later
  have hnn : 0 ≤ ((t : ℤ) + S) % N := Int.emod_nonneg _ (by exact_mod_cast hN.ne')
  rw [Int.toNat_of_nonneg hnn, ω_mod N hN]
  congr 1; ring

/-! ## The batch -/

/-- Every waveform of the batch is valid, and there is one. -/
def Batch (ps : List Par) : Prop := ps ≠ [] ∧ ∀ p ∈ ps, p.Valid

theorem nyquist_even (g : Gen) (h : ℕ) (hh : g.sampleRate = 2 * h) : g.nyquist = h := by
  unfold Gen.nyquist
  rw [hh, mul_div_cancel_left₀ _ (by norm_num : (2 : ℝ) ≠ 0)]
  exact_mod_cast pyInt_intCast (h : ℤ)

/-- The longest chirp of a batch, rounded up to a power of two, as a number of samples. -/
theorem df_ok (g : Gen) (ps : List Par) (hg : g.Valid) (hps : Batch ps) :
    ∃ m : ℕ, 4 ≤ m ∧ g.df ps = .ok (g.sampleRate / 2 ^ m) ∧ (∀ p ∈ ps, g.time p * g.sampleRate - 1 / 2 ≤ 2 ^ m) ∧
      ∃ p ∈ ps, (2 : ℝ) ^ m < 2 * (g.time p * g.sampleRate + 1 / 2) := by
  obtain ⟨c, hc, hmem, hmax⟩ := listMax_ok (ps.map g.chirplen) (by simpa using hps.1)
  obtain ⟨q, hq, hqc⟩ := List.mem_map.1 hmem
  obtain ⟨m, hm4, hm, _, hm2⟩ := chirplen_pow hg (hps.2 q hq)
  refine ⟨m, hm4, ?_, ?_, q, hq, hm2⟩
  · unfold Gen.df
    rw [hc, res_bind_ok, ← hqc, hm, one_div_div]; rfl
  · intro p hp
    obtain ⟨mp, _, hmp, hlow, _⟩ := chirplen_pow hg (hps.2 p hp)
    have := hmax (g.chirplen p) (List.mem_map.2 ⟨p, hp, rfl⟩)
    rw [← hqc, hm, hmp] at this
    linarith

/-- **C56.**  With an even integer sample rate the frequency grid is `k df` with `df` the sample rate over a power of two, from zero to the Nyquist frequency. -/
theorem grid (g : Gen) (hg : g.Valid) (h : ℕ) (hh : g.sampleRate = 2 * h) (m : ℕ) (hm : 4 ≤ m) :
    g.numFreqs (g.sampleRate / 2 ^ m) = 2 ^ (m - 1) + 1 ∧ (∀ k, g.freqAt (g.sampleRate / 2 ^ m) k = k * (g.sampleRate / 2 ^ m)) ∧
      g.freqAt (g.sampleRate / 2 ^ m) (2 ^ (m - 1)) = g.sampleRate / 2 := by
  have hsr : 0 < g.sampleRate := by have := hg.1; have := hg.2; linarith
  have hh0 : (0 : ℝ) < h := by rw [hh] at hsr; linarith
  obtain ⟨j, rfl⟩ : ∃ j, m = j + 1 := ⟨m - 1, by omega⟩
  have hq : (g.nyquist : ℝ) / (g.sampleRate / 2 ^ (j + 1)) = ((2 ^ j : ℕ) : ℤ) := by
    rw [nyquist_even g h hh, hh, pow_succ]; push_cast; field_simp
  have hn : g.numFreqs (g.sampleRate / 2 ^ (j + 1)) = 2 ^ j + 1 := by
    unfold Gen.numFreqs
    rw [hq, pyInt_intCast]
    generalize 2 ^ j = w
    omega
  have hf : ∀ k, g.freqAt (g.sampleRate / 2 ^ (j + 1)) k = k * (g.sampleRate / 2 ^ (j + 1)) := by
    intro k
    unfold Gen.freqAt
    rw [hn, nyquist_even g h hh, hh, pow_succ]; push_cast; field_simp; ring
  refine ⟨hn, hf, ?_⟩
  rw [hf, Nat.add_sub_cancel, pow_succ]; push_cast; field_simp

/-- **C56.**  Every waveform of a batch has a taper of positive width, so the window is never zero divided by zero. -/
theorem taper_width (g : Gen) (hg : g.Valid) (p : Par) (hp : p.Valid) (m : ℕ) (hm : g.time p * g.sampleRate - 1 / 2 ≤ 2 ^ m) :
    roundEven (g.fstart p / (g.sampleRate / 2 ^ m)) < roundEven (g.fLow p / (g.sampleRate / 2 ^ m)) := by
  have hgap := taper_gap hg hp
  have hsr := sampleRate_pos hg hp
  obtain ⟨_, hs1⟩ := fstart_range hg hp
  have a := (abs_le.1 (roundEven_near (g.fstart p / (g.sampleRate / 2 ^ m)))).2
  have b := (abs_le.1 (roundEven_near (g.fLow p / (g.sampleRate / 2 ^ m)))).1
  have hd : g.fLow p / (g.sampleRate / 2 ^ m) - g.fstart p / (g.sampleRate / 2 ^ m) = (g.fLow p - g.fstart p) * (2 ^ m / g.sampleRate) := by
    field_simp
  have hT : g.time p - 1 / (2 * g.sampleRate) ≤ 2 ^ m / g.sampleRate := by
    rw [le_div_iff₀ hsr]
    have : (g.time p - 1 / (2 * g.sampleRate)) * g.sampleRate = g.time p * g.sampleRate - 1 / 2 := by field_simp
    linarith
  have : (g.fLow p - g.fstart p) * (g.time p - 1 / (2 * g.sampleRate)) ≤ (g.fLow p - g.fstart p) * (2 ^ m / g.sampleRate) :=
    mul_le_mul_of_nonneg_left hT (by linarith)
  have : (roundEven (g.fstart p / (g.sampleRate / 2 ^ m)) : ℝ) < roundEven (g.fLow p / (g.sampleRate / 2 ^ m)) := by linarith
  exact_mod_cast this

theorem phase_eq (g : Gen) (hsr : 0 < g.sampleRate) (m k : ℕ) :
    Complex.exp (Complex.I * 2 * Real.pi * ((g.sampleRate / 2 ^ m : ℝ) : ℂ) * (((roundEven (g.rightPad * g.sampleRate) : ℝ) / g.sampleRate : ℝ) : ℂ) * k) =
      ω (2 ^ m) (roundEven (g.rightPad * g.sampleRate) * k) := by
  unfold ω
  congr 1
  have : (g.sampleRate : ℂ) ≠ 0 := by exact_mod_cast hsr.ne'
  push_cast
  field_simp

/-- **C56.**  The conditioned spectrum of a waveform that the approximant computes frequency by frequency: zero below its start frequency and at the Nyquist frequency, tapered with a raised cosine up to its lower frequency, equal to the approximant above, and multiplied by the phase of the time shift.  It is never NaN and does not depend on the other waveforms of the batch except through the grid. -/
theorem conditioned_eq (g : Gen) (hg : g.Valid) (h : ℕ) (hh : g.sampleRate = 2 * h) (p : Par) (hp : p.Valid) (m : ℕ) (hm4 : 4 ≤ m)
    (hm : g.time p * g.sampleRate - 1 / 2 ≤ 2 ^ m) (fs : ℝ) (hfs : fs ≤ g.fstart p) (H : ℝ → ℂ) (k : ℕ) (hk : k ≤ 2 ^ (m - 1)) :
    g.conditioned (g.sampleRate / 2 ^ m) fs p (fun j => H ((g.waveFreqs (g.sampleRate / 2 ^ m) fs).getD j 0)) k =
      some (shaped H (g.sampleRate / 2 ^ m) (g.fstart p) (roundEven (g.fstart p / (g.sampleRate / 2 ^ m))) (roundEven (g.fLow p / (g.sampleRate / 2 ^ m)))
        (2 ^ (m - 1)) k * ω (2 ^ m) (roundEven (g.rightPad * g.sampleRate) * k)) := by
  have hsr := sampleRate_pos hg hp
  obtain ⟨hn, hf, _⟩ := grid g hg h hh m hm4
  have hlt := taper_width g hg p hp m hm
  set df := g.sampleRate / 2 ^ m with hdf
  have hdf0 : 0 < df := by rw [hdf]; positivity
  set k0 := roundEven (g.fstart p / df) with hk0
  set k1 := roundEven (g.fLow p / df) with hk1
  unfold Gen.conditioned shaped
  dsimp only
  rw [← hk0, ← hk1, hn, hf]
  have hph := phase_eq g hsr m k
  rw [← hdf] at hph
  by_cases hny : k = 2 ^ (m - 1)
  · rw [if_pos (show k + 1 = 2 ^ (m - 1) + 1 by omega), if_pos (Or.inr hny), Option.map_some, zero_mul, zero_mul]
  rw [if_neg (show ¬ k + 1 = 2 ^ (m - 1) + 1 by omega)]
  by_cases hlow : k * df < g.fstart p
  · rw [if_pos hlow, if_pos (Or.inl hlow), Option.map_some, zero_mul, zero_mul]
  rw [if_neg hlow, if_neg (not_or.2 ⟨hlow, hny⟩)]
  have hge : g.fstart p ≤ k * df := not_lt.1 hlow
  have hsc : g.scatter df fs (fun j => H ((g.waveFreqs df fs).getD j 0)) k = H (k * df) := by
    unfold Gen.scatter
    rw [if_pos (by rw [hf]; linarith)]
    unfold Gen.waveFreqs
    dsimp only
    rw [filter_pos (g.freqAt df) (fun f => decide (fs ≤ f)) (g.numFreqs df) k (by rw [hn]; omega) (by rw [hf]; exact decide_eq_true (by linarith)), hf]
  rw [hsc]
  have hk0k : k0 ≤ k := by
    rw [hk0]
    apply roundEven_le
    rw [div_le_iff₀ hdf0]; exact_mod_cast hge
  unfold GenSpec.taper
  by_cases hk1k : (k : ℤ) ≤ k1
  · rw [if_pos ⟨hk1k, hk0k⟩, if_pos hk1k]
    unfold window mulO
    rw [if_neg (by omega), Option.map_some, Option.map_some, hph]
    congr 2
    unfold ramp
    push_cast
    rw [mul_comm (H _)]
    congr 1
    norm_num
    rw [mul_div_assoc]; ring
  · rw [if_neg (by tauto), if_neg hk1k, Option.map_some, hph]
    push_cast
    rw [one_mul]

/-! ## The second stage -/

theorem foldl_max_int (l : List ℤ) (a : ℤ) : a ≤ l.foldl max a ∧ (∀ x ∈ l, x ≤ l.foldl max a) ∧ (∀ b, a ≤ b → (∀ x ∈ l, x ≤ b) → l.foldl max a ≤ b) := by
  induction l generalizing a with
  | nil => simp
  | cons c l ih =>
    obtain ⟨h1, h2, h3⟩ := ih (max a c)
    simp only [List.foldl_cons]
    refine ⟨(le_max_left _ _).trans h1, ?_, ?_⟩
    · intro x hx
      rcases List.mem_cons.1 hx with e | e
      · rw [e]; exact (le_max_right _ _).trans h1
      · exact h2 x e
    · intro b hab hb
      exact h3 b (max_le hab (hb c (by simp))) fun x hx => hb x (by simp [hx])

/-- **C56.**  The time-domain window is a raised-cosine ramp at each end, whose lengths are those of the waveform itself: other waveforms of the batch do not matter. -/
theorem stage2_eq (g : Gen) (ps : List Par) (p : Par) (hp : p ∈ ps) (N t : ℕ) :
    g.stage2Factor p N (g.maxTaper ps) t = edges g.taperStart (g.taperEnd p) N t := by
  have hle : g.taperEnd p ≤ g.maxTaper ps := (foldl_max_int _ 0).2.1 _ (List.mem_map.2 ⟨p, hp, rfl⟩)
  unfold Gen.stage2Factor edges
  congr 1
  · unfold Gen.wStart ramp
    split_ifs
    · norm_num
      rw [mul_div_assoc]; ring
    · rfl
  · unfold Gen.wEnd ramp
    dsimp only
    have e : g.maxTaper ps - 1 - ((t : ℤ) - (N - g.maxTaper ps + 1)) = N - t := by ring
    rw [e]
    split_ifs with h1 h2 h2 h2
    · push_cast; norm_num
      rw [mul_div_assoc]; ring
    · rfl
    · omega
    · rfl

theorem taperStart_le (g : Gen) (hg : g.Valid) (p : Par) (hp : p.Valid) (m : ℕ) (hm4 : 4 ≤ m) (hm : g.time p * g.sampleRate - 1 / 2 ≤ 2 ^ m) :
    g.taperStart ≤ (2 ^ m : ℕ) ∧ g.taperEnd p ≤ (2 ^ m : ℕ) := by
  obtain ⟨h1, h2⟩ := masses_pos hg hp
  have hf := fLow_pos hg hp
  have hsr := sampleRate_pos hg hp
  have a := (chirpTime_bound (g.fstart p) _ _ p.s1z p.s2z h1 h2 (fstart_range hg hp).1).1
  have b := tmerge_pos hg hp
  have h16 : 4 ≤ ((2 ^ m : ℕ) : ℤ) := by
    have : 2 ^ 4 ≤ 2 ^ m := Nat.pow_le_pow_right (by norm_num) hm4
    omega
  have hlow : 6 * (g.sampleRate / g.fLow p) ≤ g.time p * g.sampleRate := by
    have e : 6 * (g.sampleRate / g.fLow p) = 2 * (3 / g.fLow p) * g.sampleRate := by ring
    rw [e]
    unfold Gen.time Gen.textra
    apply mul_le_mul_of_nonneg_right _ hsr.le
    linarith
  have hle : g.fLow p ≤ g.fMin := min_le_right _ _
  have hle2 : g.fLow p ≤ fIsco p := min_le_left _ _
  have h2' : 2 ≤ g.sampleRate / g.fMin := by rw [le_div_iff₀ hg.1]; exact hg.2
  have h3 : g.sampleRate / g.fMin ≤ g.sampleRate / g.fLow p := div_le_div_of_nonneg_left hsr.le hf hle
  have h4 : g.sampleRate / fIsco p ≤ g.sampleRate / g.fLow p := div_le_div_of_nonneg_left hsr.le hf hle2
  constructor
  · apply max_le _ h16
    apply roundEven_le; push_cast; linarith
  · apply max_le _ h16
    apply roundEven_le; push_cast; linarith

/-! ## The output -/

theorem len_cases (r : ℝ) (N : ℕ) (hr : 0 ≤ r) :
    (N : ℤ) + pyInt (r - N) = if (N : ℝ) ≤ r then ⌊r⌋ else ⌈r⌉ := by
  unfold pyInt
  split_ifs with h1 h2 h2
  · rw [Int.floor_sub_natCast]; ring
  · linarith
  · linarith
  · rw [Int.ceil_sub_natCast]; ring

/-- `unfiltered_ok` with the frequency spacing. -/
theorem unfiltered_grid (g : Gen) (hg : g.Valid) (h : ℕ) (hh : g.sampleRate = 2 * h) (hd : 0 ≤ g.duration) (ps : List Par) (hps : Batch ps)
    (Hc Hp : ℕ → ℝ → ℂ) :
    ∃ m : ℕ, 4 ≤ m ∧ g.df ps = .ok (g.sampleRate / 2 ^ m) ∧ (∀ p ∈ ps, g.time p * g.sampleRate - 1 / 2 ≤ 2 ^ m) ∧ (∃ p ∈ ps, (2 : ℝ) ^ m < 2 * (g.time p * g.sampleRate + 1 / 2)) ∧
    ∃ s, g.unfiltered (fun fs => .ok fun b j => (Hc b (fs.getD j 0), Hp b (fs.getD j 0))) ps = .ok s ∧
      (s.len : ℤ) = (if (2 : ℝ) ^ m ≤ g.duration * g.sampleRate then ⌊g.duration * g.sampleRate⌋ else ⌈g.duration * g.sampleRate⌉) ∧
      ∀ (b : ℕ) (p : Par), ps[b]? = some p → ∀ j : ℕ, 1 ≤ j → j ≤ s.len → ∀ (x : ℕ → ℕ → Option ℝ) (H : ℕ → ℝ → ℂ), (x = s.cross ∧ H = Hc) ∨ (x = s.plus ∧ H = Hp) →
        x b (s.len - j) = some (if j ≤ 2 ^ m then
          irfft (2 ^ m) (shaped (H b) (g.sampleRate / 2 ^ m) (g.fstart p) (roundEven (g.fstart p / (g.sampleRate / 2 ^ m)))
            (roundEven (g.fLow p / (g.sampleRate / 2 ^ m))) (2 ^ (m - 1))) (later (2 ^ m) (2 ^ m - j) (roundEven (g.rightPad * g.sampleRate)))
            * g.sampleRate * edges g.taperStart (g.taperEnd p) (2 ^ m) (2 ^ m - j) else 0) := by
  obtain ⟨m, hm4, hdf, hall, hex⟩ := df_ok g ps hg hps
  refine ⟨m, hm4, hdf, hall, hex, ?_⟩
  obtain ⟨q, hq, _⟩ := hex
  have hsr := sampleRate_pos hg (hps.2 q hq)
  obtain ⟨fs, hfs, _, hfmin⟩ := listMin_ok (ps.map g.fstart) (by simpa using hps.1)
  obtain ⟨hn, hf, _⟩ := grid g hg h hh m hm4
  have hN : 2 * (2 ^ (m - 1) + 1 - 1) = 2 ^ m := by
    rw [Nat.add_sub_cancel, ← pow_succ', Nat.sub_add_cancel (by omega)]
  have hN0 : 0 < 2 ^ m := by positivity
  have hchk : g.stage2Check ps (2 ^ m) = .ok () := by
    unfold Gen.stage2Check
    rw [if_neg]
    rintro (h1 | h1)
    · have := (taperStart_le g hg q (hps.2 q hq) m hm4 (hall q hq)).1
      omega
    · have : g.maxTaper ps ≤ (2 ^ m : ℕ) := by
        apply (foldl_max_int _ 0).2.2 _ (by positivity)
        intro x hx
        obtain ⟨p, hp, rfl⟩ := List.mem_map.1 hx
        exact (taperStart_le g hg p (hps.2 p hp) m hm4 (hall p hp)).2
      omega
  have hlen := len_cases (g.duration * g.sampleRate) (2 ^ m) (by positivity)
  have hlen0 : 0 ≤ ((2 ^ m : ℕ) : ℤ) + pyInt (g.duration * g.sampleRate - ((2 ^ m : ℕ) : ℝ)) := by
    rw [hlen]
    split_ifs
    · exact Int.floor_nonneg.2 (by positivity)
    · exact Int.ceil_nonneg (by positivity)
  have hun : g.unfiltered (fun fs => .ok fun b j => (Hc b (fs.getD j 0), Hp b (fs.getD j 0))) ps = .ok ⟨(((2 ^ m : ℕ) : ℤ) + pyInt (g.duration * g.sampleRate - ((2 ^ m : ℕ) : ℝ))).toNat,
      fun b => padLeft (pyInt (g.duration * g.sampleRate - ((2 ^ m : ℕ) : ℝ))) (fun t => (irfftO (2 ^ (m - 1) + 1) (g.conditioned (g.sampleRate / 2 ^ m) fs (ps.getD b ⟨0, 0, 0, 0⟩)
        fun j => Hc b ((g.waveFreqs (g.sampleRate / 2 ^ m) fs).getD j 0)) t).map fun r => r * g.sampleRate * g.stage2Factor (ps.getD b ⟨0, 0, 0, 0⟩) (2 ^ m) (g.maxTaper ps) t),
      fun b => padLeft (pyInt (g.duration * g.sampleRate - ((2 ^ m : ℕ) : ℝ))) (fun t => (irfftO (2 ^ (m - 1) + 1) (g.conditioned (g.sampleRate / 2 ^ m) fs (ps.getD b ⟨0, 0, 0, 0⟩)
        fun j => Hp b ((g.waveFreqs (g.sampleRate / 2 ^ m) fs).getD j 0)) t).map fun r => r * g.sampleRate * g.stage2Factor (ps.getD b ⟨0, 0, 0, 0⟩) (2 ^ m) (g.maxTaper ps) t)⟩ := by
    unfold Gen.unfiltered Gen.conditionedWaveform
    simp only [hdf, hfs, res_bind_ok, pure, Except.pure]
    simp only [hn, hN, hchk, raiseIf]
    rw [if_neg (by positivity), res_bind_ok, res_bind_ok, if_neg (by omega)]
    rfl
  refine ⟨_, hun, ?_, ?_⟩
  · dsimp only
    rw [Int.toNat_of_nonneg hlen0, hlen]; push_cast; rfl
  · intro b p hbp j hj1 hj2 x H hxH
    have hgetD : ps.getD b ⟨0, 0, 0, 0⟩ = p := by rw [List.getD_eq_getElem?_getD, hbp]; rfl
    have hpm : p ∈ ps := List.mem_of_getElem? hbp
    have hpv := hps.2 p hpm
    have hfsp : fs ≤ g.fstart p := hfmin _ (List.mem_map.2 ⟨p, hpm, rfl⟩)
    dsimp only at hj2 hxH ⊢
    set pad := pyInt (g.duration * g.sampleRate - ((2 ^ m : ℕ) : ℝ)) with hpad
    -- one polarisation
    have key : ∀ Hx : ℝ → ℂ, padLeft pad (fun t => (irfftO (2 ^ (m - 1) + 1) (g.conditioned (g.sampleRate / 2 ^ m) fs (ps.getD b ⟨0, 0, 0, 0⟩)
        fun j => Hx ((g.waveFreqs (g.sampleRate / 2 ^ m) fs).getD j 0)) t).map fun r => r * g.sampleRate * g.stage2Factor (ps.getD b ⟨0, 0, 0, 0⟩) (2 ^ m) (g.maxTaper ps) t)
        ((((2 ^ m : ℕ) : ℤ) + pad).toNat - j) = some (if j ≤ 2 ^ m then
          irfft (2 ^ m) (shaped Hx (g.sampleRate / 2 ^ m) (g.fstart p) (roundEven (g.fstart p / (g.sampleRate / 2 ^ m)))
            (roundEven (g.fLow p / (g.sampleRate / 2 ^ m))) (2 ^ (m - 1))) (later (2 ^ m) (2 ^ m - j) (roundEven (g.rightPad * g.sampleRate)))
            * g.sampleRate * edges g.taperStart (g.taperEnd p) (2 ^ m) (2 ^ m - j) else 0) := by
      intro Hx
      unfold padLeft
      by_cases hjN : j ≤ 2 ^ m
      · rw [if_neg (by omega), if_pos hjN, hgetD]
        have hidx : ((((((2 ^ m : ℕ) : ℤ) + pad).toNat - j : ℕ) : ℤ) - pad).toNat = 2 ^ m - j := by omega
        rw [hidx]
        dsimp only
        rw [stage2_eq g ps p hpm]
        have hirf : irfftO (2 ^ (m - 1) + 1) (g.conditioned (g.sampleRate / 2 ^ m) fs p fun j => Hx ((g.waveFreqs (g.sampleRate / 2 ^ m) fs).getD j 0)) (2 ^ m - j) =
            some (irfft (2 ^ m) (shaped Hx (g.sampleRate / 2 ^ m) (g.fstart p) (roundEven (g.fstart p / (g.sampleRate / 2 ^ m)))
            (roundEven (g.fLow p / (g.sampleRate / 2 ^ m))) (2 ^ (m - 1))) (later (2 ^ m) (2 ^ m - j) (roundEven (g.rightPad * g.sampleRate)))) := by
          have hc : ∀ k, k < 2 ^ (m - 1) + 1 → _ := fun k hk => conditioned_eq g hg h hh p hpv m hm4 (hall p hpm) fs hfsp Hx k (by omega)
          unfold irfftO
          rw [if_pos (fun k hk => by rw [hc k hk]; rfl), ← irfft_phase (2 ^ m) hN0, hN]
          congr 1
          unfold irfft irfftF
          congr 2
          apply Finset.sum_congr rfl
          intro k hk
          congr 1
          have hk' := Finset.mem_range.1 hk
          have hhalf : 2 ^ m / 2 = 2 ^ (m - 1) := by omega
          unfold herm
          rw [hhalf]
          split_ifs with hkh
          · dsimp only; rw [hc k (by omega)]; rfl
          · dsimp only; rw [hc (2 ^ m - k) (by omega)]; rfl
        rw [hirf, Option.map_some]
      · rw [if_pos (by omega), if_neg hjN]
    rcases hxH with ⟨rfl, rfl⟩ | ⟨rfl, rfl⟩
    · exact key (H b)
    · exact key (H b)

/-- **C56.**  For every valid batch and even integer sample rate, and an approximant that works frequency by frequency, generation succeeds.  With `N` the power of two covering the longest chirp and `S` the rounded right padding in samples, the result before the highpass filter has `⌊duration · sample rate⌋` samples (`⌈·⌉` if that is shorter than `N`), is never NaN, and its sample `j` before the end is zero for `j > N`, and otherwise the inverse transform of the conditioned spectrum, at the sample `S` later on the circle, times the windows of that waveform. -/
theorem unfiltered_ok (g : Gen) (hg : g.Valid) (h : ℕ) (hh : g.sampleRate = 2 * h) (hd : 0 ≤ g.duration) (ps : List Par) (hps : Batch ps)
    (Hc Hp : ℕ → ℝ → ℂ) :
    ∃ m : ℕ, 4 ≤ m ∧ (∀ p ∈ ps, g.time p * g.sampleRate - 1 / 2 ≤ 2 ^ m) ∧ (∃ p ∈ ps, (2 : ℝ) ^ m < 2 * (g.time p * g.sampleRate + 1 / 2)) ∧
    ∃ s, g.unfiltered (fun fs => .ok fun b j => (Hc b (fs.getD j 0), Hp b (fs.getD j 0))) ps = .ok s ∧
      (s.len : ℤ) = (if (2 : ℝ) ^ m ≤ g.duration * g.sampleRate then ⌊g.duration * g.sampleRate⌋ else ⌈g.duration * g.sampleRate⌉) ∧
      ∀ (b : ℕ) (p : Par), ps[b]? = some p → ∀ j : ℕ, 1 ≤ j → j ≤ s.len → ∀ (x : ℕ → ℕ → Option ℝ) (H : ℕ → ℝ → ℂ), (x = s.cross ∧ H = Hc) ∨ (x = s.plus ∧ H = Hp) →
        x b (s.len - j) = some (if j ≤ 2 ^ m then
          irfft (2 ^ m) (shaped (H b) (g.sampleRate / 2 ^ m) (g.fstart p) (roundEven (g.fstart p / (g.sampleRate / 2 ^ m)))
            (roundEven (g.fLow p / (g.sampleRate / 2 ^ m))) (2 ^ (m - 1))) (later (2 ^ m) (2 ^ m - j) (roundEven (g.rightPad * g.sampleRate)))
            * g.sampleRate * edges g.taperStart (g.taperEnd p) (2 ^ m) (2 ^ m - j) else 0) := by
  obtain ⟨m, h1, _, h2⟩ := unfiltered_grid g hg h hh hd ps hps Hc Hp
  exact ⟨m, h1, h2⟩

/-- **C56.**  Time zero of the inverse transform, where an approximant puts the coalescence, is `S` samples before the end. -/
theorem coalescence_later (N S : ℕ) (h0 : 0 < S) (h : S ≤ N) : later N (N - S) S = 0 := by
  unfold later
  have : ((N - S : ℕ) : ℤ) + S = N := by omega
  rw [this, Int.emod_self]; rfl

/-- **C56.**  The highpass filter changes neither the outcome nor the number of samples. -/
theorem forward_eq (g : Gen) (filt : ℕ → (ℕ → Option ℝ) → ℕ → Option ℝ) (approx : List ℝ → Res (ℕ → ℕ → ℂ × ℂ)) (ps : List Par) (s : Series)
    (h : g.unfiltered approx ps = .ok s) :
    ∃ r, g.forward filt approx ps = .ok r ∧ r.len = s.len ∧ ∀ b, r.cross b = filt s.len (s.cross b) ∧ r.plus b = filt s.len (s.plus b) := by
  unfold Gen.forward
  rw [h]
  exact ⟨_, rfl, rfl, fun b => ⟨rfl, rfl⟩⟩

/-- **C56.**  The number of samples is `int(duration · sample rate)` if that product is an integer, or at least the length of the chirp. -/
theorem len_eq_size (g : Gen) (h0 : 0 ≤ g.duration * g.sampleRate) (m : ℕ) (h : (∃ z : ℤ, g.duration * g.sampleRate = z) ∨ (2 : ℝ) ^ m ≤ g.duration * g.sampleRate) :
    (if (2 : ℝ) ^ m ≤ g.duration * g.sampleRate then ⌊g.duration * g.sampleRate⌋ else ⌈g.duration * g.sampleRate⌉) = g.size := by
  unfold Gen.size pyInt
  rw [if_pos h0]
  split_ifs with h1
  · rfl
  · rcases h with ⟨z, hz⟩ | h
    · rw [hz, Int.ceil_intCast, Int.floor_intCast]
    · exact absurd h h1

/-- **C56, finding.**  Otherwise the output is one sample longer than `size`. -/
theorem len_not_size (g : Gen) (h0 : 0 ≤ g.duration * g.sampleRate) (m : ℕ) (h1 : ∀ z : ℤ, g.duration * g.sampleRate ≠ z) (h2 : g.duration * g.sampleRate < (2 : ℝ) ^ m) :
    (if (2 : ℝ) ^ m ≤ g.duration * g.sampleRate then ⌊g.duration * g.sampleRate⌋ else ⌈g.duration * g.sampleRate⌉) = g.size + 1 := by
  unfold Gen.size pyInt
  rw [if_pos h0, if_neg (not_le.2 h2), Int.ceil_eq_iff]
  have a := Int.floor_le (g.duration * g.sampleRate)
  have b := Int.lt_floor_add_one (g.duration * g.sampleRate)
  refine ⟨?_, by push_cast; linarith⟩
  push_cast
  have : (⌊g.duration * g.sampleRate⌋ : ℝ) ≠ g.duration * g.sampleRate := fun e => h1 _ e.symm
  have := lt_of_le_of_ne a this
  linarith

/-- **C56, finding.**  With an odd sample rate the frequencies at which the approximant is evaluated are not the multiples of `df`: the grid is too coarse. -/
theorem odd_rate_grid (g : Gen) (h : ℕ) (hh : g.sampleRate = 2 * h + 1) (h1 : 1 ≤ h) (m : ℕ) (hm : 2 ≤ m) :
    g.sampleRate / 2 ^ m < g.freqAt (g.sampleRate / 2 ^ m) 1 := by
  have hh0 : (1 : ℝ) ≤ h := by exact_mod_cast h1
  have hsr : 0 < g.sampleRate := by rw [hh]; linarith
  have hny : g.nyquist = h := by
    unfold Gen.nyquist
    rw [hh]
    have := pyInt_half_odd
    unfold pyInt
    rw [if_pos (by positivity), Int.floor_eq_iff]
    push_cast
    constructor <;> linarith
  have hdf : 0 < g.sampleRate / 2 ^ m := by positivity
  set df := g.sampleRate / 2 ^ m with hdfd
  have h4 : (4 : ℝ) ≤ 2 ^ m := by
    calc (4 : ℝ) = 2 ^ 2 := by norm_num
      _ ≤ 2 ^ m := pow_le_pow_right₀ (by norm_num) hm
  have hq1 : 1 ≤ (h : ℝ) / df := by
    rw [le_div_iff₀ hdf, hdfd, one_mul, div_le_iff₀ (by positivity), hh]
    nlinarith
  have hfl : g.numFreqs df = ⌊(h : ℝ) / df⌋₊ + 1 := by
    unfold Gen.numFreqs
    rw [hny, show ((h : ℤ) : ℝ) = (h : ℝ) by push_cast; rfl, pyInt_nonneg _ (by linarith)]; omega
  have hf1 : (1 : ℝ) ≤ ⌊(h : ℝ) / df⌋₊ := by
    have : 1 ≤ ⌊(h : ℝ) / df⌋₊ := Nat.le_floor (by exact_mod_cast hq1)
    exact_mod_cast this
  unfold Gen.freqAt
  rw [hfl, hny]
  push_cast
  rw [add_sub_cancel_right, one_mul, lt_div_iff₀ (by linarith)]
  have hle := Nat.floor_le (show 0 ≤ (h : ℝ) / df by positivity)
  rcases lt_or_eq_of_le hle with hlt | heq
  · rw [lt_div_iff₀ hdf] at hlt; linarith
  · exfalso
    set n := ⌊(h : ℝ) / df⌋₊ with hn
    have e : (h : ℝ) * 2 ^ m = n * (2 * h + 1) := by
      rw [heq, ← hh, hdfd]; field_simp
    have e' : h * 2 ^ m = n * (2 * h + 1) := by exact_mod_cast e
    have hd : (2 * h + 1) ∣ h * 2 ^ m := ⟨n, by rw [e', mul_comm]⟩
    have hc : Nat.Coprime (2 * h + 1) (2 ^ m) := by
      apply Nat.Coprime.pow_right
      exact (Nat.coprime_two_right).2 ⟨h, rfl⟩
    have := Nat.le_of_dvd (by omega) (hc.dvd_of_dvd_mul_right hd)
    omega

/-- **C56.**  An empty batch is rejected. -/
theorem empty_batch (g : Gen) (filt : ℕ → (ℕ → Option ℝ) → ℕ → Option ℝ) (approx : List ℝ → Res (ℕ → ℕ → ℂ × ℂ)) : g.forward filt approx [] = .error .runtime := rfl

/-! ## The highpass filter -/

/-- **C56.**  The critical frequency lies between zero and the lower frequency, the normalised one between zero and one as the filter design requires; and filtering forwards and backwards with a Butterworth filter of order 8 keeps 99 per cent of the power at the lower frequency. -/
theorem highpass_ok (g : Gen) (h0 : 0 < g.fMin) (h1 : 2 * g.fMin < g.sampleRate) :
    0 < g.highpassFc ∧ g.highpassFc < g.fMin ∧ 0 < g.highpassWn ∧ g.highpassWn < 1 ∧
      (butterHighpassGain2 8 g.highpassWn g.sampleRate g.fMin) ^ 2 = 0.99 := by
  have hsr : 0 < g.sampleRate := by linarith
  have hpi := Real.pi_pos
  have ha : 0 < Real.pi * g.fMin / g.sampleRate := by positivity
  have hb : Real.pi * g.fMin / g.sampleRate < Real.pi / 2 := by
    rw [div_lt_div_iff₀ hsr (by norm_num)]; nlinarith
  have ht : 0 < Real.tan (Real.pi * g.fMin / g.sampleRate) := Real.tan_pos_of_pos_of_lt_pi_div_two ha hb
  have hs : (0.99 : ℝ) ^ (0.5 : ℝ) = Real.sqrt 0.99 := by rw [Real.sqrt_eq_rpow]; norm_num
  have hs0 : 0 < Real.sqrt 0.99 := Real.sqrt_pos.2 (by norm_num)
  have hs1 : Real.sqrt 0.99 < 1 := by rw [Real.sqrt_lt' (by norm_num)]; norm_num
  have hs2 : 1 / 2 < Real.sqrt 0.99 := by rw [Real.lt_sqrt (by norm_num)]; norm_num
  set c := (1 / (0.99 : ℝ) ^ (0.5 : ℝ) - 1) ^ ((1 : ℝ) / (2 * 8)) with hc
  have hcb : 0 < 1 / (0.99 : ℝ) ^ (0.5 : ℝ) - 1 := by
    rw [hs, sub_pos, lt_div_iff₀ hs0]; linarith
  have hcb1 : 1 / (0.99 : ℝ) ^ (0.5 : ℝ) - 1 < 1 := by
    rw [hs, sub_lt_iff_lt_add, div_lt_iff₀ hs0]; linarith
  have hc0 : 0 < c := Real.rpow_pos_of_pos hcb _
  have hc1 : c < 1 := Real.rpow_lt_one hcb.le hcb1 (by norm_num)
  have hc16 : c ^ 16 = 1 / Real.sqrt 0.99 - 1 := by
    rw [hc, ← Real.rpow_natCast, ← Real.rpow_mul hcb.le, hs]; norm_num
  have hfc : g.highpassFc = g.sampleRate * Real.arctan (Real.tan (Real.pi * g.fMin / g.sampleRate) * c) / Real.pi := rfl
  have hw0 : 0 < Real.tan (Real.pi * g.fMin / g.sampleRate) * c := mul_pos ht hc0
  have hat0 : 0 < Real.arctan (Real.tan (Real.pi * g.fMin / g.sampleRate) * c) := Real.arctan_pos.2 hw0
  have hat1 : Real.arctan (Real.tan (Real.pi * g.fMin / g.sampleRate) * c) < Real.pi * g.fMin / g.sampleRate := by
    have : Real.arctan (Real.tan (Real.pi * g.fMin / g.sampleRate) * c) < Real.arctan (Real.tan (Real.pi * g.fMin / g.sampleRate)) :=
      Real.arctan_strictMono (by nlinarith)
    rwa [Real.arctan_tan (by linarith) hb] at this
  have hf0 : 0 < g.highpassFc := by rw [hfc]; positivity
  have hf1 : g.highpassFc < g.fMin := by
    rw [hfc, div_lt_iff₀ hpi]
    rw [lt_div_iff₀ hsr] at hat1
    linarith
  have hwn : g.highpassWn = g.highpassFc / (g.sampleRate / 2) := rfl
  refine ⟨hf0, hf1, by rw [hwn]; positivity, by rw [hwn, div_lt_one (by positivity)]; linarith, ?_⟩
  unfold butterHighpassGain2
  have e : Real.pi * g.highpassWn / 2 = Real.arctan (Real.tan (Real.pi * g.fMin / g.sampleRate) * c) := by
    rw [hwn, hfc]; field_simp
  rw [e, Real.tan_arctan, mul_div_cancel_left₀ _ ht.ne', hc16]
  have : 1 / (1 + (1 / Real.sqrt 0.99 - 1)) = Real.sqrt 0.99 := by field_simp; ring
  rw [this, Real.sq_sqrt (by norm_num)]

/-! ## The hypotheses can be met -/

/-- Two thirty-solar-mass black holes. -/
def exPar : Par := ⟨30, 30, 0, 0⟩

/-- Eight seconds at 2048 Hz from 20 Hz. -/
noncomputable def exGen : Gen := ⟨2048, 8, 20, 20, 0.5⟩

example : exGen.Valid := by unfold exGen Gen.Valid; norm_num
example : Batch [exPar, ⟨1.4, 1.4, 0.1, -0.2⟩] := by
  refine ⟨by simp, ?_⟩
  intro p hp
  simp only [List.mem_cons, List.not_mem_nil, or_false] at hp
  rcases hp with rfl | rfl <;> constructor <;> norm_num [exPar]
example : exGen.sampleRate = 2 * (1024 : ℕ) ∧ 0 ≤ exGen.duration := by unfold exGen; norm_num
example : ∃ m : ℕ, 4 ≤ m ∧ ∃ s, exGen.unfiltered (fun fs => .ok fun b j => ((0, 1) : ℂ × ℂ)) [exPar] = .ok s ∧ s.len = 16384 := by
  have hv : exGen.Valid := by unfold exGen Gen.Valid; norm_num
  have hb : Batch [exPar] := ⟨by simp, by intro p hp; simp only [List.mem_cons, List.not_mem_nil, or_false] at hp; rw [hp]; constructor <;> norm_num [exPar]⟩
  obtain ⟨m, hm, _, _, s, hs, hl, _⟩ := unfiltered_ok exGen hv 1024 (by unfold exGen; norm_num) (by unfold exGen; norm_num) [exPar] hb (fun _ _ => 0) (fun _ _ => 1)
  refine ⟨m, hm, s, hs, ?_⟩
  rw [len_eq_size exGen (by unfold exGen; norm_num) m (Or.inl ⟨16384, by unfold exGen; norm_num⟩)] at hl
  have : exGen.size = 16384 := by
    unfold Gen.size exGen
    rw [show (8 : ℝ) * 2048 = ((16384 : ℤ) : ℝ) by norm_num, pyInt_intCast]
  omega
example : ∃ g : Gen, g.sampleRate = 2 * (1000 : ℕ) + 1 ∧ g.Valid := ⟨⟨2001, 8, 20, 20, 0.5⟩, by norm_num, by unfold Gen.Valid; norm_num⟩
example : ∀ z : ℤ, (0.30 : ℝ) * 5 ≠ z := by
  intro z h
  have : (3 : ℝ) = (2 * z : ℤ) := by push_cast; linarith
  have : (3 : ℤ) = 2 * z := by exact_mod_cast this
  omega
example : later 16384 (16384 - 1024) 1024 = 0 := coalescence_later 16384 1024 (by norm_num) (by norm_num)
example : 0 < exGen.fMin ∧ 2 * exGen.fMin < exGen.sampleRate := by unfold exGen; norm_num

end Verif.Generator
