import Verif.Model.Heterodyne
import Verif.Lemmas.FourierInv
import Verif.Lemmas.Broadcast
import Verif.Lemmas.Whiten
/-!
# Properties of `Heterodyne` (C44)
-/
set_option linter.unusedSimpArgs false
set_option linter.unusedVariables false
namespace Verif.Heterodyne
open Finset Verif.Fourier Verif.Whiten

/-- The 0PN phase `(3/128) (π M f)^(-5/3)` of a chirp mass (solar masses) at frequency `f`. -/
noncomputable def specPhase (mass f : ℝ) : ℝ := 3 / 128 * (Real.pi * (mass * 4.925490947641266978197229498498379006e-6) * f) ^ (-(5 / 3) : ℝ)

/-- **C44 (return type).**  Exactly "time", "freq" and "both" are accepted, others raise ValueError. -/
theorem heterodyne_return_type (sr kl : ℝ) (mass : Tensor ℝ) (M : ℕ) (hm : mass.shape = [M]) (r : String) :
    ((∃ s, init sr kl mass r = .ok s) ↔ r = "time" ∨ r = "freq" ∨ r = "both") ∧
    (¬ (r = "time" ∨ r = "freq" ∨ r = "both") → init sr kl mass r = .error .value) := by
  unfold init parseRet
  rw [hm]
  dsimp only
  split_ifs with h1 h2 h3
  · simp [h1, res_bind_ok]
  · simp [h2, res_bind_ok]
  · simp [h3, res_bind_ok]
  · refine ⟨⟨?_, ?_⟩, fun _ => rfl⟩
    · rintro ⟨s, hs⟩; cases hs
    · rintro (h | h | h) <;> contradiction

example : init 2048 4 ⟨[3], fun _ => 1⟩ "frequency" = .error .value :=
  (heterodyne_return_type 2048 4 ⟨[3], fun _ => 1⟩ 3 rfl "frequency").2 (by decide)

theorem bc_het (B C M F : ℕ) : Tensor.bcShapeRev [F, 1, C, B] [F, M, 1] = some [F, M, C, B] := by
  by_cases h1 : 1 = M
  · subst h1; by_cases hc : C = 1 <;> simp [Tensor.bcShapeRev, hc]
  · by_cases hc : C = 1 <;> simp [Tensor.bcShapeRev, hc, h1]

/-- The value of `spectra`, for an input whose length matches the kernel. -/
theorem spectra_ok (sr kl : ℝ) (hsr : 0 < sr) (mass x : Tensor ℝ) (M B C T : ℕ) (hm : mass.shape = [M]) (hx : x.shape = [B, C, T])
    (hT : 0 < T) (hK : (pyInt (kl * sr)).toNat = T) (r : String) (s : State) (hs : init sr kl mass r = .ok s) :
    s.sr = sr ∧ ∃ X, spectra s x = .ok X ∧ X.shape = [B, C, M, T / 2 + 1] ∧ ∀ b c m k, b < B → c < C → m < M → k < T / 2 + 1 →
      X.get [b, c, m, k] = if k = 0 then 0 else
        rfft T (fun t => x.get [b, c, t]) k / sr * Complex.exp ((specPhase (mass.get [m]) (k * sr / T) : ℝ) * Complex.I) := by
  unfold init at hs
  rw [hm] at hs
  dsimp only at hs
  cases hr : parseRet r with
  | error e => rw [hr] at hs; cases hs
  | ok rr =>
    rw [hr] at hs
    simp only [res_bind_ok] at hs
    obtain rfl := Except.ok.inj hs
    refine ⟨rfl, ?_⟩
    unfold spectra
    dsimp only
    rw [hx, hK]
    simp only
    rw [if_neg hT.ne']
    unfold Tensor.zipB
    simp only [List.reverse_cons, List.reverse_nil, List.nil_append, List.cons_append]
    rw [bc_het]
    simp only [res_bind_ok]
    refine ⟨_, rfl, by simp, ?_⟩
    intro b c m k hb hc hm' hk
    have h1 : [b, c, m, k].getLastD 0 = k := rfl
    simp only [h1]
    by_cases hk0 : k = 0
    · rw [if_pos hk0, if_pos hk0]
    rw [if_neg hk0, if_neg hk0]
    have e : ∀ (d j : ℕ), j < d → (if d = 1 then 0 else j) = j := by
      intro d j h
      split_ifs with h'
      · omega
      · rfl
    have i1 : Tensor.bcIdx [B, C, 1, T / 2 + 1] [b, c, m, k] = [b, c, 0, k] := by
      simp only [Tensor.bcIdx, List.length_cons, List.length_nil, Nat.reduceAdd, Nat.sub_self, List.drop_zero,
        List.zipWith_cons_cons, List.zipWith_nil_right, e B b hb, e C c hc, e (T / 2 + 1) k hk, if_true]
    have i2 : Tensor.bcIdx [1, M, T / 2 + 1] [b, c, m, k] = [0, m, k] := by
      simp only [Tensor.bcIdx, List.length_cons, List.length_nil, Nat.reduceAdd, Nat.reduceSub, List.drop_succ_cons, List.drop_zero,
        List.zipWith_cons_cons, List.zipWith_nil_right, e M m hm', e (T / 2 + 1) k hk, if_true]
    rw [i1, i2]
    simp only [List.getD_cons_zero, List.getD_cons_succ]
    congr 1
    congr 1
    unfold specPhase mtsun
    have : (k : ℝ) / (T * (1 / sr)) = k * sr / T := by
      rw [mul_one_div, div_div_eq_mul_div]
    rw [this]
    push_cast
    ring

/-- What the frequency series must be: the spectrum of each input divided by the sample rate, times the unit phase
of each chirp mass, with the DC bin 0. -/
def FreqOk (sr : ℝ) (mass x : Tensor ℝ) (M B C T : ℕ) (X : Tensor ℂ) : Prop :=
  X.shape = [B, C, M, T / 2 + 1] ∧ ∀ b c m k, b < B → c < C → m < M → k < T / 2 + 1 →
    X.get [b, c, m, k] = if k = 0 then 0 else
      rfft T (fun t => x.get [b, c, t]) k / sr * Complex.exp ((specPhase (mass.get [m]) (k * sr / T) : ℝ) * Complex.I)

/-- What the time series must be: the real series whose spectrum, divided by the sample rate, is `X` (at the
Nyquist bin only the real part of `X` can be represented). -/
def TimeOk (sr : ℝ) (M B C T : ℕ) (X : Tensor ℂ) (y : Tensor ℝ) : Prop :=
  y.shape = [B, C, M, T] ∧ ∀ b c m k, b < B → c < C → m < M → k < T / 2 + 1 →
    rfft T (fun t => y.get [b, c, m, t]) k / sr = if 2 * k = T then (((X.get [b, c, m, k]).re : ℝ) : ℂ) else X.get [b, c, m, k]

/-- **C44 (value).**  For an input of the configured even length: the return type selects between the frequency
series and the time series described by `FreqOk` and `TimeOk`. -/
theorem heterodyne_correct_partial (sr kl : ℝ) (hsr : 0 < sr) (mass x : Tensor ℝ) (M B C T : ℕ) (hm : mass.shape = [M]) (hx : x.shape = [B, C, T])
    (hpos : ∀ m < M, 0 < mass.get [m]) (hT : 0 < T) (hev : T % 2 = 0) (hK : (pyInt (kl * sr)).toNat = T) (r : String)
    (hr : r = "time" ∨ r = "freq" ∨ r = "both") :
    ∃ s, init sr kl mass r = .ok s ∧ ∃ X y, FreqOk sr mass x M B C T X ∧ TimeOk sr M B C T X y ∧
      ((r = "time" ∧ forward s x = .ok (.time y)) ∨ (r = "freq" ∧ forward s x = .ok (.freq X)) ∨
       (r = "both" ∧ forward s x = .ok (.both y X))) := by
  obtain ⟨s, hs⟩ := (heterodyne_return_type sr kl mass M hm r).1.2 hr
  obtain ⟨hsr', X, hX1, hX2, hX3⟩ := spectra_ok sr kl hsr mass x M B C T hm hx hT hK r s hs
  have hret : s.ret = if r = "time" then .time else if r = "freq" then .freq else .both := by
    unfold init parseRet at hs
    rw [hm] at hs
    dsimp only at hs
    rcases hr with rfl | rfl | rfl <;>
      (simp only [String.reduceEq, if_true, if_false, res_bind_ok] at hs; obtain rfl := Except.ok.inj hs; rfl)
  have hn : 2 * (T / 2 + 1 - 1) = T := by omega
  have hb : backToTime s.sr X = .ok (mapRows T (fun Y t => irfft T Y t * sr) X) := by
    unfold backToTime
    have : X.lastDim = .ok (T / 2 + 1) := Slicing.lastDim_append X [B, C, M] _ hX2
    simp only [this, res_bind_ok, hn, hsr']
    rw [if_neg hT.ne']
  refine ⟨s, hs, X, mapRows T (fun Y t => irfft T Y t * sr) X, ⟨hX2, hX3⟩, ⟨by simp [mapRows, hX2], ?_⟩, ?_⟩
  · intro b c m k hb hc hm' hk
    have hrow : (fun t => (mapRows T (fun Y t => irfft T Y t * sr) X).get [b, c, m, t]) =
        fun t => sr * irfft T (fun k => X.get [b, c, m, k]) t := by
      funext t
      simp [mapRows, List.dropLast, mul_comm]
    rw [hrow, rfft_mul_left, rfft_irfft_ends T hT _ k (by omega)]
    have hsc : (sr : ℂ) ≠ 0 := by exact_mod_cast hsr.ne'
    rw [mul_div_cancel_left₀ _ hsc]
    unfold realEnds
    by_cases hk0 : k = 0
    · subst hk0
      have h0 : X.get [b, c, m, 0] = 0 := by rw [hX3 b c m 0 hb hc hm' hk, if_pos rfl]
      simp only [true_or, if_true, h0, Complex.zero_re, Complex.ofReal_zero, ite_self]
    · simp only [hk0, false_or]
  · have hf : forward s x = .ok (select s.ret (mapRows T (fun Y t => irfft T Y t * sr) X) X) := by
      unfold forward
      simp only [hX1, hb, res_bind_ok]
    rw [hf, hret]
    rcases hr with rfl | rfl | rfl
    · exact Or.inl ⟨rfl, rfl⟩
    · exact Or.inr (Or.inl ⟨rfl, rfl⟩)
    · exact Or.inr (Or.inr ⟨rfl, rfl⟩)

/-- Non-vacuity: two chirp masses, one channel, 4 samples. -/
example : ∃ s, init 4 1 ⟨[2], fun i => 1 + i.headD 0⟩ "both" = .ok s ∧ ∃ X y,
    forward s ⟨[1, 1, 4], fun i => (i.getD 2 0 : ℝ)⟩ = .ok (.both y X) ∧ X.get [0, 0, 1, 0] = 0 := by
  obtain ⟨s, h1, X, y, hF, hT, h⟩ := heterodyne_correct_partial 4 1 (by norm_num) ⟨[2], fun i => 1 + i.headD 0⟩
    ⟨[1, 1, 4], fun i => (i.getD 2 0 : ℝ)⟩ 2 1 1 4 rfl rfl (by intro m _; positivity) (by norm_num) rfl
    (by norm_num [pyInt]; rfl) "both" (by simp)
  refine ⟨s, h1, X, y, ?_, ?_⟩
  · rcases h with ⟨h, _⟩ | ⟨h, _⟩ | ⟨_, h⟩
    · exact absurd h (by decide)
    · exact absurd h (by decide)
    · exact h
  · rw [hF.2 0 0 1 0 (by norm_num) (by norm_num) (by norm_num) (by norm_num), if_pos rfl]

/-- **C44 (unit modulus).**  Every bin but DC keeps its magnitude (over the sample rate). -/
theorem heterodyne_magnitude (sr : ℝ) (mass x : Tensor ℝ) (M B C T : ℕ) (X : Tensor ℂ) (h : FreqOk sr mass x M B C T X)
    (b c m k : ℕ) (hb : b < B) (hc : c < C) (hm : m < M) (hk : k < T / 2 + 1) (hk0 : 0 < k) :
    ‖X.get [b, c, m, k]‖ = ‖rfft T (fun t => x.get [b, c, t]) k / sr‖ := by
  rw [h.2 b c m k hb hc hm hk, if_neg hk0.ne', norm_mul, Complex.norm_exp_ofReal_mul_I, mul_one]

example (X : Tensor ℂ) (h : FreqOk 4 ⟨[1], fun _ => 30⟩ ⟨[1, 1, 4], fun i => (i.getD 2 0 : ℝ)⟩ 1 1 1 4 X) :
    ‖X.get [0, 0, 0, 1]‖ = ‖rfft 4 (fun t => (t : ℝ)) 1 / (4 : ℝ)‖ :=
  heterodyne_magnitude 4 _ _ 1 1 1 4 X h 0 0 0 1 (by norm_num) (by norm_num) (by norm_num) (by norm_num) (by norm_num)

/-- **C44 (energy).**  The energy of a heterodyned series is that of the input without its mean, minus the loss at
the Nyquist bin; in particular it never exceeds the energy of the input. -/
theorem heterodyne_energy (sr : ℝ) (hsr : 0 < sr) (mass x : Tensor ℝ) (M B C T : ℕ) (hT : 0 < T) (hev : T % 2 = 0) (X : Tensor ℂ) (y : Tensor ℝ)
    (hF : FreqOk sr mass x M B C T X) (hY : TimeOk sr M B C T X y) (b c m : ℕ) (hb : b < B) (hc : c < C) (hm : m < M) :
    T * ∑ t ∈ range T, y.get [b, c, m, t] ^ 2 = T * ∑ t ∈ range T, x.get [b, c, t] ^ 2
      - (∑ t ∈ range T, x.get [b, c, t]) ^ 2 - (sr * (X.get [b, c, m, T / 2]).im) ^ 2 ∧
    ∑ t ∈ range T, y.get [b, c, m, t] ^ 2 ≤ ∑ t ∈ range T, x.get [b, c, t] ^ 2 := by
  have hN2 : 0 < T / 2 := by omega
  have key : T * ∑ t ∈ range T, y.get [b, c, m, t] ^ 2 = T * ∑ t ∈ range T, x.get [b, c, t] ^ 2
      - (∑ t ∈ range T, x.get [b, c, t]) ^ 2 - (sr * (X.get [b, c, m, T / 2]).im) ^ 2 := by
    rw [← rfft_parseval T hT, ← rfft_parseval T hT]
    -- per-bin comparison
    have hbin : ∀ k ∈ range (T / 2 + 1), (if k = 0 ∨ 2 * k = T then 1 else 2 : ℝ) * ‖rfft T (fun t => y.get [b, c, m, t]) k‖ ^ 2 =
        (if k = 0 ∨ 2 * k = T then 1 else 2 : ℝ) * ‖rfft T (fun t => x.get [b, c, t]) k‖ ^ 2
          - (if k = 0 then (∑ t ∈ range T, x.get [b, c, t]) ^ 2 else 0)
          - (if k = T / 2 then (sr * (X.get [b, c, m, T / 2]).im) ^ 2 else 0) := by
      intro k hk
      have hk' : k < T / 2 + 1 := by simpa using hk
      have h1 := hY.2 b c m k hb hc hm hk'
      have hsc : (sr : ℂ) ≠ 0 := by exact_mod_cast hsr.ne'
      rw [div_eq_iff hsc] at h1
      rw [h1]
      by_cases hk0 : k = 0
      · subst hk0
        have e : X.get [b, c, m, 0] = 0 := by rw [hF.2 b c m 0 hb hc hm hk', if_pos rfl]
        rw [if_neg (by omega : ¬ 2 * 0 = T), e, if_pos rfl, if_neg (by omega : ¬ 0 = T / 2), rfft_zero]
        rw [Complex.norm_real, Real.norm_eq_abs, sq_abs]; simp
      · have hmag := heterodyne_magnitude sr mass x M B C T X hF b c m k hb hc hm hk' (by omega)
        rw [norm_div, Complex.norm_real, Real.norm_eq_abs, abs_of_pos hsr, eq_div_iff hsr.ne'] at hmag
        rw [if_neg hk0]
        by_cases hny : 2 * k = T
        · have hkT : k = T / 2 := by omega
          rw [if_pos hny, if_pos hkT, if_pos (Or.inr hny), ← hmag, norm_mul, mul_pow, Complex.norm_real, Complex.norm_real,
            Real.norm_eq_abs, sq_abs, Real.norm_eq_abs, sq_abs, mul_pow, mul_pow, ← Complex.normSq_eq_norm_sq, Complex.normSq_apply, ← hkT]
          ring
        · rw [if_neg hny, if_neg (by omega : ¬ k = T / 2), norm_mul, Complex.norm_real, Real.norm_eq_abs, abs_of_pos hsr, hmag]
          ring
    rw [Finset.sum_congr rfl hbin, Finset.sum_sub_distrib, Finset.sum_sub_distrib, Finset.sum_ite_eq', Finset.sum_ite_eq']
    rw [if_pos (by simp), if_pos (by simp)]
  refine ⟨key, ?_⟩
  have hT' : (0 : ℝ) < T := by exact_mod_cast hT
  refine le_of_mul_le_mul_left ?_ hT'
  rw [key]
  nlinarith [sq_nonneg (∑ t ∈ range T, x.get [b, c, t]), sq_nonneg (sr * (X.get [b, c, m, T / 2]).im)]

example (X : Tensor ℂ) (y : Tensor ℝ) (h : FreqOk 4 ⟨[1], fun _ => 30⟩ ⟨[1, 1, 4], fun i => (i.getD 2 0 : ℝ)⟩ 1 1 1 4 X)
    (hy : TimeOk 4 1 1 1 4 X y) : ∑ t ∈ range 4, y.get [0, 0, 0, t] ^ 2 ≤ 14 := by
  have := (heterodyne_energy 4 (by norm_num) _ _ 1 1 1 4 (by norm_num) rfl X y h hy 0 0 0 (by norm_num) (by norm_num) (by norm_num)).2
  refine le_trans this ?_
  simp [Finset.sum_range_succ]; norm_num

/-- **C44 (finding: odd lengths).**  For an input of odd length `T ≥ 3` the time series has length `T - 1`, not `T`
as documented. -/
theorem heterodyne_odd_length (sr kl : ℝ) (hsr : 0 < sr) (mass x : Tensor ℝ) (M B C T : ℕ) (hm : mass.shape = [M]) (hx : x.shape = [B, C, T])
    (hT : 3 ≤ T) (hodd : T % 2 = 1) (hK : (pyInt (kl * sr)).toNat = T) :
    ∃ s, init sr kl mass "time" = .ok s ∧ ∃ y, forward s x = .ok (.time y) ∧ y.shape = [B, C, M, T - 1] := by
  obtain ⟨s, hs⟩ := (heterodyne_return_type sr kl mass M hm "time").1.2 (Or.inl rfl)
  obtain ⟨hsr', X, hX1, hX2, hX3⟩ := spectra_ok sr kl hsr mass x M B C T hm hx (by omega) hK _ s hs
  have hret : s.ret = .time := by
    unfold init parseRet at hs
    rw [hm] at hs
    dsimp only at hs
    simp only [if_true, res_bind_ok] at hs
    obtain rfl := Except.ok.inj hs; rfl
  refine ⟨s, hs, mapRows (T - 1) (fun Y t => irfft (T - 1) Y t * sr) X, ?_, by simp [mapRows, hX2]⟩
  have hn : 2 * (T / 2 + 1 - 1) = T - 1 := by omega
  have hb : backToTime s.sr X = .ok (mapRows (T - 1) (fun Y t => irfft (T - 1) Y t * sr) X) := by
    unfold backToTime
    have : X.lastDim = .ok (T / 2 + 1) := Slicing.lastDim_append X [B, C, M] _ hX2
    simp only [this, res_bind_ok, hn, hsr']
    rw [if_neg (by omega)]
  unfold forward
  simp only [hX1, hb, res_bind_ok, hret]
  rfl

example : ∃ s, init 5 1 ⟨[2], fun _ => 1⟩ "time" = .ok s ∧ ∃ y, forward s ⟨[1, 1, 5], fun _ => 1⟩ = .ok (.time y) ∧ y.shape = [1, 1, 2, 4] :=
  heterodyne_odd_length 5 1 (by norm_num) _ _ 2 1 1 5 rfl rfl (by norm_num) rfl (by norm_num [pyInt]; rfl)

end Verif.Heterodyne
