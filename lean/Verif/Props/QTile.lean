import Verif.Model.QTransform
import Verif.Spec.QTransform
import Verif.Lemmas.Fourier
import Verif.Lemmas.FourierInv
import Verif.Lemmas.Whiten
import Verif.Props.Spectral
import Mathlib.Analysis.Real.Pi.Bounds
import Mathlib.Tactic.Linarith
import Mathlib.Tactic.Positivity
import Mathlib.Tactic.FieldSimp
import Mathlib.Tactic.NormNum
import Mathlib.Tactic.IntervalCases
/-!
# Properties of `QTile` (C49)
-/
set_option linter.unusedSimpArgs false
set_option linter.unusedVariables false
namespace Verif.QTransform
open Finset Fourier Whiten QSpec

theorem pyInt_intCast (z : ℤ) : pyInt (z : ℝ) = z := by
  unfold pyInt; split_ifs <;> simp

theorem deltam_pos {m : ℝ} (h : 0 < m) : 0 < deltam m := by unfold deltam; positivity
theorem qprime_pos {q : ℝ} (h : 0 < q) : 0 < qprime q := by unfold qprime; positivity

/-- The exponent of two. -/
noncomputable def QTile.expo (t : QTile) : ℤ := ⌈Real.logb 2 (t.dur * 2 * Real.pi * t.f / t.q / deltam t.mismatch)⌉

theorem ntiles_of_nonneg (t : QTile) (hf : t.f ≠ 0) (h : 0 ≤ t.expo) : t.ntiles = 2 ^ t.expo.toNat := by
  unfold QTile.ntiles
  rw [if_neg hf]
  have : ((2 : ℝ) ^ t.expo) = (((2 : ℤ) ^ t.expo.toNat : ℤ) : ℝ) := by
    push_cast
    rw [← zpow_natCast, Int.toNat_of_nonneg h]
  unfold QTile.expo at this
  rw [this, pyInt_intCast]; rfl

theorem ntiles_of_neg (t : QTile) (h : t.expo < 0) : t.ntiles = 0 := by
  unfold QTile.ntiles
  have h1 : (0 : ℝ) < 2 ^ t.expo := by positivity
  have h2 : (2 : ℝ) ^ t.expo < 1 := zpow_lt_one_of_neg₀ (by norm_num) h
  unfold QTile.expo at h1 h2
  split_ifs
  · rfl
  unfold pyInt
  rw [if_pos h1.le]
  exact Int.floor_eq_zero_iff.2 ⟨h1.le, h2⟩

/-- The number of tiles is zero or the smallest power of two not less than the time-mismatch ratio. -/
theorem ntiles_pow_two (t : QTile) (hq : 0 < t.q) (hf : 0 < t.f) (hd : 0 < t.dur) (hm : 0 < t.mismatch) :
    (t.ntiles = 0 ∧ t.dur * 2 * Real.pi * t.f / t.q / deltam t.mismatch ≤ 1 / 2) ∨
      ∃ k : ℕ, t.ntiles = 2 ^ k ∧ t.dur * 2 * Real.pi * t.f / t.q / deltam t.mismatch ≤ 2 ^ k ∧
        (2 : ℝ) ^ k < 2 * (t.dur * 2 * Real.pi * t.f / t.q / deltam t.mismatch) := by
  have hdm := deltam_pos hm
  have hr : 0 < t.dur * 2 * Real.pi * t.f / t.q / deltam t.mismatch := by have := Real.pi_pos; positivity
  rcases lt_or_ge t.expo 0 with h | h
  · refine .inl ⟨ntiles_of_neg t h, ?_⟩
    have h1 : t.expo ≤ -1 := by omega
    unfold QTile.expo at h1
    rw [Int.ceil_le] at h1
    have := (Real.logb_le_iff_le_rpow (by norm_num) hr).1 h1
    refine this.trans ?_
    rw [Int.cast_neg, Int.cast_one, Real.rpow_neg_one]; norm_num
  · refine .inr ⟨t.expo.toNat, ntiles_of_nonneg t hf.ne' h, ?_, ?_⟩
    · have h1 := Int.le_ceil (Real.logb 2 (t.dur * 2 * Real.pi * t.f / t.q / deltam t.mismatch))
      have := (Real.logb_le_iff_le_rpow (by norm_num) hr).1 h1
      refine this.trans (le_of_eq ?_)
      rw [Real.rpow_intCast, ← zpow_natCast, Int.toNat_of_nonneg h]; rfl
    · have h1 := Int.ceil_lt_add_one (Real.logb 2 (t.dur * 2 * Real.pi * t.f / t.q / deltam t.mismatch))
      have h2 : ((t.expo : ℝ) - 1) < Real.logb 2 (t.dur * 2 * Real.pi * t.f / t.q / deltam t.mismatch) := by
        unfold QTile.expo; linarith
      have := (Real.lt_logb_iff_rpow_lt (by norm_num) hr).1 h2
      rw [Real.rpow_sub (by norm_num), Real.rpow_one, Real.rpow_intCast, ← Int.toNat_of_nonneg h, zpow_natCast] at this
      linarith

/-- More tiles at higher frequencies. -/
theorem ntiles_mono (q f g dur sr m : ℝ) (hq : 0 < q) (hf : 0 < f) (hfg : f ≤ g) (hd : 0 < dur) (hm : 0 < m) :
    QTile.ntiles ⟨q, f, dur, sr, m⟩ ≤ QTile.ntiles ⟨q, g, dur, sr, m⟩ := by
  have hdm := deltam_pos hm
  have hp := Real.pi_pos
  have he : QTile.expo ⟨q, f, dur, sr, m⟩ ≤ QTile.expo ⟨q, g, dur, sr, m⟩ := by
    unfold QTile.expo
    apply Int.ceil_le_ceil
    apply Real.logb_le_logb_of_le (by norm_num) (by positivity)
    dsimp only
    gcongr
  rcases lt_or_ge (QTile.expo ⟨q, f, dur, sr, m⟩) 0 with h | h
  · rw [ntiles_of_neg _ h]
    rcases lt_or_ge (QTile.expo ⟨q, g, dur, sr, m⟩) 0 with h' | h'
    · rw [ntiles_of_neg _ h']
    · rw [ntiles_of_nonneg _ (hf.trans_le hfg).ne' h']; positivity
  · rw [ntiles_of_nonneg _ hf.ne' h, ntiles_of_nonneg _ (hf.trans_le hfg).ne' (h.trans he)]
    exact pow_le_pow_right₀ (by norm_num) (by omega)

theorem half_nonneg (t : QTile) (hq : 0 < t.q) (hf : 0 < t.f) (hd : 0 < t.dur) : 0 ≤ t.half := by
  have := qprime_pos hq
  unfold QTile.half pyInt
  rw [if_pos (by positivity)]
  exact Int.floor_nonneg.2 (by positivity)

theorem half_le (t : QTile) (hq : 0 < t.q) (hf : 0 < t.f) (hd : 0 < t.dur) : (t.half : ℝ) ≤ t.f / qprime t.q * t.dur := by
  have := qprime_pos hq
  unfold QTile.half pyInt
  rw [if_pos (by positivity)]
  exact Int.floor_le _

theorem pyInt_half_odd (z : ℤ) (h : z % 2 = 0) : pyInt ((z : ℝ) / 2) = z / 2 := by
  obtain ⟨k, rfl⟩ : ∃ k, z = 2 * k := ⟨z / 2, by omega⟩
  have : (((2 * k : ℤ) : ℝ) / 2) = ((k : ℤ) : ℝ) := by push_cast; ring
  rw [this, pyInt_intCast]; omega

/-- With at least two tiles, the padding completes the window to exactly the number of tiles. -/
theorem padding_total (t : QTile) (h2 : 2 ≤ t.ntiles) : t.len = t.ntiles ∧ t.padding.2 = t.padding.1 + 1 ∧
    2 * t.padding.1 = t.ntiles - t.windowsize - 1 := by
  have he : 0 ≤ t.expo := by
    by_contra h
    rw [ntiles_of_neg t (by omega)] at h2; omega
  have hf : t.f ≠ 0 := by
    intro h; unfold QTile.ntiles at h2; rw [if_pos h] at h2; omega
  have hn := ntiles_of_nonneg t hf he
  obtain ⟨k, hk⟩ : ∃ k, t.expo.toNat = k + 1 := by
    refine ⟨t.expo.toNat - 1, ?_⟩
    rcases Nat.eq_zero_or_pos t.expo.toNat with h | h
    · rw [hn, h] at h2; norm_num at h2
    · omega
  rw [hk, pow_succ] at hn
  generalize hz : (2 : ℤ) ^ k = z at hn
  unfold QTile.len QTile.padding
  dsimp only
  have hw : t.windowsize = 2 * t.half + 1 := rfl
  rw [pyInt_half_odd _ (by omega), pyInt_half_odd _ (by omega)]
  omega

/-- For a mismatch of at most a quarter, a row with at least two tiles is never cropped: both paddings are non-negative. -/
theorem padding_nonneg (t : QTile) (hq : 0 < t.q) (hf : 0 < t.f) (hd : 0 < t.dur) (hm : 0 < t.mismatch) (hm4 : t.mismatch ≤ 1 / 4)
    (h2 : 2 ≤ t.ntiles) : 0 ≤ t.padding.1 ∧ t.padding.1 < t.padding.2 ∧ t.windowsize < t.ntiles := by
  obtain ⟨hl, hp2, hp1⟩ := padding_total t h2
  have hw : t.windowsize = 2 * t.half + 1 := rfl
  suffices t.windowsize < t.ntiles by omega
  have hh := half_nonneg t hq hf hd
  rcases eq_or_lt_of_le hh with h0 | h0
  · omega
  · have h1 : (1 : ℝ) ≤ t.half := by exact_mod_cast h0
    have h3 := half_le t hq hf hd
    rcases ntiles_pow_two t hq hf hd hm with ⟨h, _⟩ | ⟨k, hk, hk1, -⟩
    · omega
    · have hn : (t.ntiles : ℝ) = 2 ^ k := by rw [hk]; push_cast; rfl
      rw [← hn] at hk1
      have hgoal : (t.windowsize : ℝ) < t.ntiles := by
        refine lt_of_lt_of_le ?_ hk1
        rw [hw]; push_cast
        set u := t.f * t.dur / t.q with hu
        have hu0 : 0 < u := by positivity
        have e1 : t.f / qprime t.q * t.dur = Real.sqrt 11 * u := by
          unfold qprime; rw [hu]; field_simp
        rw [e1] at h3
        have hs11 : Real.sqrt 11 ≤ 3.32 := by
          rw [Real.sqrt_le_left (by norm_num)]; norm_num
        have hs : Real.sqrt (t.mismatch / 3) ≤ 0.29 := by
          rw [Real.sqrt_le_left (by norm_num)]; norm_num; linarith
        have hs0 : 0 < Real.sqrt (t.mismatch / 3) := by positivity
        have e2 : t.dur * 2 * Real.pi * t.f / t.q / deltam t.mismatch = Real.pi * u / Real.sqrt (t.mismatch / 3) := by
          unfold deltam; rw [hu]; field_simp
        rw [e2, lt_div_iff₀ hs0]
        have hpi := Real.pi_gt_three
        have h4 : (t.half : ℝ) ≤ 3.32 * u := h3.trans (by gcongr)
        have h5 : (2 * (t.half : ℝ) + 1) * Real.sqrt (t.mismatch / 3) ≤ (2 * (t.half : ℝ) + 1) * 0.29 := by gcongr
        have h6 : 3 * u < Real.pi * u := by gcongr
        nlinarith
      exact_mod_cast hgoal

/-- The indices read from the spectrum stay within a spectrum of `⌊N/2⌋ + 1` bins. -/
theorem index_range (t : QTile) (h : 0 ≤ nRfft t.dur t.sr) (j : ℕ) : 0 ≤ t.index j ∧ t.index j ≤ nRfft t.dur t.sr := by
  unfold QTile.index
  constructor
  · exact le_min (le_max_right _ _) h
  · exact min_le_right _ _

theorem roundEven_int (z : ℤ) : roundEven (z : ℝ) = z := by
  unfold roundEven; simp

/-- For a frequency on the grid of the spectrum, the bins read are consecutive, and the middle of the window falls on the bin one above that of the
frequency, except where they are clamped to the ends of the spectrum. -/
theorem index_consecutive (t : QTile) (k : ℤ) (hk : t.f * t.dur = k) (j : ℕ) :
    t.index j = min (max (k + 1 + ((j : ℤ) - t.half)) 0) (nRfft t.dur t.sr) := by
  unfold QTile.index QTile.offset
  rw [hk]
  have : (((j : ℤ) - t.half : ℤ) : ℝ) + 1 + (k : ℝ) = ((k + 1 + ((j : ℤ) - t.half) : ℤ) : ℝ) := by push_cast; ring
  rw [this, roundEven_int]

/-- The window is the bisquare window, sampled symmetrically, with a constant norm. -/
theorem window_bisquare (t : QTile) (j : ℕ) :
    t.window j = bisquare t.f (qprime t.q) (((j : ℝ) - t.half) / t.dur) *
      ((t.ntiles : ℝ) / (t.dur * t.sr) * Real.sqrt (315 * qprime t.q / (128 * t.f))) := by
  unfold QTile.window QTile.offset bisquare
  push_cast
  rfl

/-- The window is symmetric, nowhere negative and nowhere larger than in the middle. -/
theorem window_shape (t : QTile) (hq : 0 < t.q) (hf : 0 < t.f) (hd : 0 < t.dur) (hs : 0 < t.sr) (hn : 0 ≤ t.ntiles) (j : ℕ)
    (hj : (j : ℤ) < t.windowsize) :
    t.window j = t.window (t.windowsize.toNat - 1 - j) ∧ 0 ≤ t.window j ∧ t.window j ≤ t.window t.half.toNat := by
  have hh := half_nonneg t hq hf hd
  have hle := half_le t hq hf hd
  have hqp := qprime_pos hq
  have hw : t.windowsize = 2 * t.half + 1 := rfl
  have hN : 0 ≤ (t.ntiles : ℝ) / (t.dur * t.sr) * Real.sqrt (315 * qprime t.q / (128 * t.f)) := by
    have : (0 : ℝ) ≤ t.ntiles := by exact_mod_cast hn
    positivity
  refine ⟨?_, ?_, ?_⟩
  · rw [window_bisquare, window_bisquare]
    congr 1
    have : ((t.windowsize.toNat - 1 - j : ℕ) : ℝ) - t.half = -((j : ℝ) - t.half) := by
      have : ((t.windowsize.toNat - 1 - j : ℕ) : ℤ) = 2 * t.half - j := by omega
      have h2 : ((t.windowsize.toNat - 1 - j : ℕ) : ℝ) = 2 * t.half - j := by exact_mod_cast this
      rw [h2]; ring
    rw [this]
    unfold bisquare
    congr 2
    ring
  · rw [window_bisquare]
    exact mul_nonneg (sq_nonneg _) hN
  · rw [window_bisquare, window_bisquare]
    refine mul_le_mul_of_nonneg_right ?_ hN
    have h0 : ((t.half.toNat : ℕ) : ℝ) - t.half = 0 := by
      have : ((t.half.toNat : ℕ) : ℤ) = t.half := by omega
      have h2 : ((t.half.toNat : ℕ) : ℝ) = t.half := by exact_mod_cast this
      rw [h2]; ring
    rw [h0]
    unfold bisquare
    have hx : (((j : ℝ) - t.half) / t.dur * qprime t.q / t.f) ^ 2 ≤ 1 := by
      rw [sq_le_one_iff_abs_le_one, abs_div, abs_mul, abs_div, abs_of_pos hf, abs_of_pos hqp, abs_of_pos hd]
      have hab : |(j : ℝ) - t.half| ≤ t.half := by
        have hj1 : ((j : ℤ) : ℝ) ≤ ((2 * t.half : ℤ) : ℝ) := by exact_mod_cast (by omega : (j : ℤ) ≤ 2 * t.half)
        push_cast at hj1
        have : (0 : ℝ) ≤ (j : ℝ) := by positivity
        rw [abs_le]; constructor <;> linarith
      have := hab.trans hle
      rw [div_le_one hf, div_mul_eq_mul_div, div_le_iff₀ hd]
      calc |(j : ℝ) - t.half| * qprime t.q ≤ t.f / qprime t.q * t.dur * qprime t.q := by gcongr
        _ = t.f * t.dur := by field_simp
    have hx0 := sq_nonneg (((j : ℝ) - t.half) / t.dur * qprime t.q / t.f)
    generalize (((j : ℝ) - t.half) / t.dur * qprime t.q / t.f) ^ 2 = y at *
    norm_num
    rw [abs_le]; constructor <;> linarith

theorem sum_shift_range (n L W : ℕ) (h : L + W ≤ n) (g : ℕ → ℂ) :
    (∑ p ∈ range n, if L ≤ p ∧ p < L + W then g p else 0) = ∑ j ∈ range W, g (L + j) := by
  rw [← Finset.sum_filter]
  have : (range n).filter (fun p => L ≤ p ∧ p < L + W) = Finset.Ico L (L + W) := by
    ext p; simp only [mem_filter, mem_range, mem_Ico]; omega
  rw [this, Finset.sum_Ico_eq_sum_range]; simp

theorem sum_rotate (n h : ℕ) (hn : 0 < n) (hh : h ≤ n) (F : ℕ → ℂ) : ∑ p ∈ range n, F ((p + h) % n) = ∑ p ∈ range n, F p := by
  refine Finset.sum_nbij' (fun p => (p + h) % n) (fun p => (p + (n - h)) % n) ?_ ?_ ?_ ?_ ?_
  · intro p _; exact mem_range.2 (Nat.mod_lt _ hn)
  · intro p _; exact mem_range.2 (Nat.mod_lt _ hn)
  · intro p hp
    have hp := mem_range.1 hp
    simp only [Nat.mod_add_mod]
    rw [show p + h + (n - h) = p + n by omega, Nat.add_mod_right, Nat.mod_eq_of_lt hp]
  · intro p hp
    have hp := mem_range.1 hp
    simp only [Nat.mod_add_mod]
    rw [show p + (n - h) + h = p + n by omega, Nat.add_mod_right, Nat.mod_eq_of_lt hp]
  · intro p _; rfl

theorem ω_mod (n : ℕ) (hn : 0 < n) (a : ℕ) (s : ℤ) : ω n (((a % n : ℕ) : ℤ) * s) = ω n ((a : ℤ) * s) := by
  have h : (a : ℤ) * s = ((a % n : ℕ) : ℤ) * s + (n : ℤ) * (((a / n : ℕ) : ℤ) * s) := by
    have := Nat.div_add_mod a n
    have h2 : (a : ℤ) = (n : ℤ) * ((a / n : ℕ) : ℤ) + ((a % n : ℕ) : ℤ) := by exact_mod_cast this.symm
    conv_lhs => rw [h2]
    ring
  rw [h, ω_add, ω_mul_self n hn, mul_one]

/-- A rotation only changes the phase of the inverse transform. -/
theorem ifft_ifftshift (n : ℕ) (hn : 0 < n) (Y : ℕ → ℂ) (s : ℕ) :
    ifft n (ifftshift n Y) s = ω n (-(((n / 2 : ℕ) : ℤ) * s)) * ifft n Y s := by
  unfold ifft ifftshift
  rw [mul_div_assoc']
  congr 1
  rw [mul_sum, ← sum_rotate n (n / 2) hn (by omega) (fun p => ω n (-(((n / 2 : ℕ) : ℤ) * s)) * (Y p * ω n ((p : ℤ) * s)))]
  refine sum_congr rfl fun p _ => ?_
  rw [ω_mod n hn, mul_left_comm, ← ω_add]
  congr 2
  push_cast; ring

/-- **Energies.**  The energy of a row is the squared modulus of the inverse transform of the windowed spectral values; the padding and the
shift do not change it. -/
theorem energy_eq (t : QTile) (X : ℕ → ℂ) (hq : 0 < t.q) (hf : 0 < t.f) (hd : 0 < t.dur) (hm : 0 < t.mismatch) (hm4 : t.mismatch ≤ 1 / 4)
    (h2 : 2 ≤ t.ntiles) (s : ℕ) :
    t.energy X s = rowEnergy t.ntiles.toNat t.windowsize.toNat t.window (fun j => X (t.index j).toNat) s := by
  obtain ⟨hl, hp2, hp1⟩ := padding_total t h2
  obtain ⟨hp0, -, hwn⟩ := padding_nonneg t hq hf hd hm hm4 h2
  have hh := half_nonneg t hq hf hd
  have hw : t.windowsize = 2 * t.half + 1 := rfl
  unfold QTile.energy
  rw [hl]
  set n := t.ntiles.toNat with hn
  have hn0 : 0 < n := by omega
  rw [ifft_ifftshift n hn0]
  have hz : ∀ z : ℂ, z.re ^ 2 + z.im ^ 2 = ‖z‖ ^ 2 := by
    intro z; rw [← Complex.normSq_eq_norm_sq, Complex.normSq_apply]; ring
  rw [hz, norm_mul, ω_norm, one_mul]
  unfold rowEnergy ifft
  set L := t.padding.1.toNat with hL
  set W := t.windowsize.toNat with hW
  have e : ∑ p ∈ range n, t.padded X p * ω n ((p : ℤ) * s) =
      ∑ j ∈ range W, (X (t.index j).toNat * t.window j) * ω n (((L + j : ℕ) : ℤ) * s) := by
    rw [show (∑ j ∈ range W, (X (t.index j).toNat * t.window j) * ω n (((L + j : ℕ) : ℤ) * s)) =
      ∑ j ∈ range W, (fun p : ℕ => (X (t.index (p - L)).toNat * t.window (p - L)) * ω n ((p : ℤ) * s)) (L + j) from
      sum_congr rfl fun j _ => by simp]
    rw [← sum_shift_range n L W (by omega) (fun p : ℕ => (X (t.index (p - L)).toNat * t.window (p - L)) * ω n ((p : ℤ) * s))]
    refine sum_congr rfl fun p hp => ?_
    unfold QTile.padded
    dsimp only
    have hc : (0 ≤ (p : ℤ) - t.padding.1 ∧ (p : ℤ) - t.padding.1 < t.windowsize) ↔ (L ≤ p ∧ p < L + W) := by omega
    by_cases h : L ≤ p ∧ p < L + W
    · rw [if_pos (hc.2 h), if_pos h]
      have : ((p : ℤ) - t.padding.1).toNat = p - L := by omega
      rw [this]
    · rw [if_neg (fun h' => h (hc.1 h')), if_neg h, zero_mul]
  rw [e]
  have e2 : ∑ j ∈ range W, (X (t.index j).toNat * t.window j) * ω n (((L + j : ℕ) : ℤ) * s) =
      ω n ((L : ℤ) * s) * ∑ j ∈ range W, (t.window j : ℂ) * X (t.index j).toNat * Complex.exp (2 * Real.pi * Complex.I * (j * s) / n) := by
    rw [mul_sum]
    refine sum_congr rfl fun j _ => ?_
    have : ω n (((L + j : ℕ) : ℤ) * s) = ω n ((L : ℤ) * s) * ω n ((j : ℤ) * s) := by
      rw [← ω_add]; congr 1; push_cast; ring
    rw [this]
    have : ω n ((j : ℤ) * s) = Complex.exp (2 * Real.pi * Complex.I * (j * s) / n) := by
      unfold ω; push_cast; rfl
    rw [this]; ring
  rw [e2, norm_div, norm_mul, ω_norm, one_mul, norm_mul, norm_div, norm_one]
  ring

/-- Total energy of a row (Parseval). -/
theorem energy_total (t : QTile) (X : ℕ → ℂ) (hq : 0 < t.q) (hf : 0 < t.f) (hd : 0 < t.dur) (hm : 0 < t.mismatch) (hm4 : t.mismatch ≤ 1 / 4)
    (h2 : 2 ≤ t.ntiles) :
    ∑ s ∈ range t.ntiles.toNat, t.energy X s =
      (∑ j ∈ range t.windowsize.toNat, (t.window j * ‖X (t.index j).toNat‖) ^ 2) / t.ntiles.toNat := by
  obtain ⟨-, -, hwn⟩ := padding_nonneg t hq hf hd hm hm4 h2
  set n := t.ntiles.toNat with hn
  set W := t.windowsize.toNat with hW
  have hn0 : 0 < n := by omega
  have hnC : (n : ℝ) ≠ 0 := by positivity
  let v : ℕ → ℂ := fun j => if j < W then (starRingEnd ℂ) ((t.window j : ℂ) * X (t.index j).toNat) else 0
  have hpar := dft_parseval n v
  have e1 : ∀ s ∈ range n, t.energy X s = ‖dft n v s‖ ^ 2 / n ^ 2 := by
    intro s _
    rw [energy_eq t X hq hf hd hm hm4 h2 s]
    unfold rowEnergy
    rw [norm_mul, mul_pow, norm_div, norm_one, Complex.norm_natCast, ← hn, ← hW]
    have e : (starRingEnd ℂ) (dft n v s) = ∑ j ∈ range W, (t.window j : ℂ) * X (t.index j).toNat * Complex.exp (2 * Real.pi * Complex.I * (j * s) / n) := by
      unfold dft
      rw [map_sum]
      have hsub : range W ⊆ range n := range_subset_range.2 (by omega)
      rw [← sum_subset hsub]
      · refine sum_congr rfl fun j hj => ?_
        have hj := mem_range.1 hj
        simp only [v, if_pos hj]
        rw [map_mul, Complex.conj_conj, ← ω_neg, neg_neg]
        have : ω n ((s : ℤ) * j) = Complex.exp (2 * Real.pi * Complex.I * (j * s) / n) := by
          unfold ω; push_cast; congr 1; ring
        rw [this]
      · intro j _ hj
        simp only [mem_range, not_lt] at hj
        simp only [v, if_neg (not_lt.2 hj)]
        simp
    rw [← e, Complex.norm_conj]
    ring
  rw [sum_congr rfl e1, ← sum_div, hpar]
  have e2 : ∑ j ∈ range n, ‖v j‖ ^ 2 = ∑ j ∈ range W, (t.window j * ‖X (t.index j).toNat‖) ^ 2 := by
    have hsub : range W ⊆ range n := range_subset_range.2 (by omega)
    rw [← sum_subset hsub]
    · refine sum_congr rfl fun j hj => ?_
      have hj := mem_range.1 hj
      simp only [v, if_pos hj]
      rw [Complex.norm_conj, norm_mul, mul_pow, mul_pow, Complex.norm_real, Real.norm_eq_abs, sq_abs]
    · intro j _ hj
      simp only [mem_range, not_lt] at hj
      simp only [v, if_neg (not_lt.2 hj)]
      simp
  rw [e2]
  field_simp

theorem to3dC_shape (X : Tensor ℂ) (lead : List ℕ) (F : ℕ) (hX : X.shape = lead ++ [F]) (hl : lead.length ≤ 2) :
    (to3dC X).shape = (List.replicate (2 - lead.length) 1 ++ lead) ++ [F] := by
  unfold to3dC
  simp only [hX, List.length_append, List.length_singleton, ← List.append_assoc]
  rw [show 3 - (lead.length + 1) = 2 - lead.length by omega]

/-- The index into the caller's spectrum that belongs to batch and channel index `b` of the result. -/
def dropLead (lead : List ℕ) (b : List ℕ) : List ℕ := b.drop (2 - lead.length)

/-- **Rows.**  On a spectrum with `⌊N/2⌋ + 1` bins, `N = int(duration * sample_rate)`, no index is out of range: the result has three dimensions, of
which the last has one entry per tile, and holds the energies of each row. -/
theorem forward_ok (t : QTile) (X : Tensor ℂ) (lead : List ℕ) (norm : Option String) (nrm : (n : ℕ) → (ℕ → ℝ) → ℝ)
    (hX : X.shape = lead ++ [(nRfft t.dur t.sr).toNat + 1]) (hl : lead.length ≤ 2) (hN : 0 ≤ nRfft t.dur t.sr) (h2 : 2 ≤ t.ntiles)
    (hn : normalizer norm = .ok nrm) :
    ∃ E, t.forward X norm = .ok E ∧ E.shape = (List.replicate (2 - lead.length) 1 ++ lead) ++ [t.ntiles.toNat] ∧
      ∀ b : List ℕ, b.length = 2 → ∀ s, E.get (b ++ [s]) =
        t.energy (fun k => X.get (dropLead lead b ++ [k])) s /
          nrm t.ntiles.toNat (t.energy fun k => X.get (dropLead lead b ++ [k])) := by
  have hl' := (padding_total t h2).1
  unfold QTile.forward
  rw [if_neg (by rw [hX]; simp; omega)]
  have hs := to3dC_shape X lead _ hX hl
  have hlast : (to3dC X).lastDim = .ok ((nRfft t.dur t.sr).toNat + 1) := by
    unfold Tensor.lastDim; rw [hs]; simp
  simp only [hlast, res_bind_ok]
  rw [if_neg]
  · rw [if_neg (by omega), hn]
    simp only [res_bind_ok]
    refine ⟨_, rfl, ?_, ?_⟩
    · unfold mapRows
      rw [hs, List.dropLast_concat, hl']
    · intro b hb s
      have e : ∀ k, (to3dC X).get (b ++ [k]) = X.get (dropLead lead b ++ [k]) := by
        intro k
        unfold to3dC dropLead
        simp only [hX, List.length_append, List.length_singleton]
        rw [List.drop_append_of_le_length (by omega), show 3 - (lead.length + 1) = 2 - lead.length by omega]
      simp only [mapRows, List.dropLast_concat, List.getLastD_concat, e, hl']
  · simp only [List.any_eq_true, List.mem_range, decide_eq_true_eq, not_exists, not_and, not_le]
    intro j _
    have := (index_range t hN j).2
    push_cast
    omega

/-- More than three dimensions are rejected. -/
theorem forward_dims (t : QTile) (X : Tensor ℂ) (norm : Option String) (h : 3 < X.shape.length) : t.forward X norm = .error .value := by
  unfold QTile.forward; rw [if_pos h]

/-- A spectrum with fewer bins than the tile reads raises IndexError, whatever the normalisation. -/
theorem forward_short (t : QTile) (X : Tensor ℂ) (lead : List ℕ) (F j : ℕ) (norm : Option String) (hX : X.shape = lead ++ [F]) (hl : lead.length ≤ 2)
    (hj : (j : ℤ) < t.windowsize) (hF : (F : ℤ) ≤ t.index j) : t.forward X norm = .error .index := by
  unfold QTile.forward
  rw [if_neg (by rw [hX]; simp; omega)]
  have hs := to3dC_shape X lead _ hX hl
  have hlast : (to3dC X).lastDim = .ok F := by
    unfold Tensor.lastDim; rw [hs]; simp
  simp only [hlast, res_bind_ok]
  rw [if_pos]
  simp only [List.any_eq_true, List.mem_range, decide_eq_true_eq]
  exact ⟨j, by omega, hF⟩

example : (⟨4, 0, 1, 2, 0.2⟩ : QTile).forward ⟨[3, 0], fun _ => 0⟩ (some "median") = .error .index := by
  have h0 : pyInt (0 : ℝ) = 0 := by simp [pyInt]
  have hw : (⟨4, 0, 1, 2, 0.2⟩ : QTile).windowsize = 1 := by
    unfold QTile.windowsize QTile.half
    simp [h0]
  refine forward_short _ _ [3] 0 0 _ rfl (by simp) (by rw [hw]; norm_num) ?_
  unfold QTile.index
  refine le_min (le_max_right _ _) ?_
  have : pyInt ((1 : ℝ) * 2) = 2 := by norm_num [pyInt]
  unfold nRfft
  dsimp only
  rw [this]
  decide

/-- An unknown normalisation is rejected, whatever the input. -/
theorem normalizer_reject (s : String) (h0 : s ≠ "") (h1 : lower s ≠ "median".toList) (h2 : lower s ≠ "mean".toList) :
    normalizer (some s) = .error .value := by
  have h1' : lower s ≠ ['m', 'e', 'd', 'i', 'a', 'n'] := by simpa using h1
  have h2' : lower s ≠ ['m', 'e', 'a', 'n'] := by simpa using h2
  simp [normalizer, h0, h1', h2']

/-- Without a normalisation the energies are returned as they are. -/
theorem normalizer_none : normalizer none = .ok (fun _ _ => 1) := rfl

/-- The empty string means no normalisation: a tile called with `norm=""` returns what it returns with `norm=None`, on every input. -/
theorem forward_norm_empty (t : QTile) (X : Tensor ℂ) : t.forward X (some "") = t.forward X none := by
  have : normalizer (some "") = normalizer none := by simp [normalizer]
  unfold QTile.forward
  rw [this]

/-- The name of the normalisation is not case sensitive: names that agree in lower case give the same result, on every input. -/
theorem forward_norm_case (t : QTile) (X : Tensor ℂ) (s s' : String) (h : lower s = lower s') : t.forward X (some s) = t.forward X (some s') := by
  have hl : ∀ s : String, s = "" ↔ lower s = [] := by
    intro s
    constructor
    · rintro rfl; rfl
    · intro h
      have : s.toList = [] := by simpa [lower] using h
      exact String.toList_inj.1 (by simpa using this)
  have : normalizer (some s) = normalizer (some s') := by
    unfold normalizer
    dsimp only
    have e : (s = "") = (s' = "") := by rw [eq_iff_iff, hl, hl, h]
    simp only [e, h]
  unfold QTile.forward
  rw [this]

example (t : QTile) (X : Tensor ℂ) : t.forward X (some "Median") = t.forward X (some "median") := forward_norm_case t X _ _ (by decide)

/-- With `"mean"`, the average over the row of the normalised energies is one, unless all are zero. -/
theorem normalized_mean (n : ℕ) (e : ℕ → ℝ) (nrm : (n : ℕ) → (ℕ → ℝ) → ℝ) (hn : normalizer (some "mean") = .ok nrm)
    (hne : ∑ i ∈ range n, e i ≠ 0) : (∑ i ∈ range n, e i / nrm n e) / n = 1 := by
  have : nrm = fun (n : ℕ) (e : ℕ → ℝ) => (∑ i ∈ range n, e i) / n := by
    have h : normalizer (some "mean") = .ok (fun (n : ℕ) (e : ℕ → ℝ) => (∑ i ∈ range n, e i) / n) := by
      unfold normalizer
      dsimp only
      rw [if_neg (by decide), if_neg (by simp [lower]), if_pos (by simp [lower])]
    rw [h] at hn; exact (Except.ok.inj hn).symm
  subst this
  dsimp only
  rw [← sum_div]
  have hn0 : (n : ℝ) ≠ 0 := by
    intro h0
    have : n = 0 := by exact_mod_cast h0
    subst this; simp at hne
  field_simp

theorem quantile50_div (l : List ℝ) (c : ℝ) (hc : 0 < c) : Spectral.quantile50 (l.map (· / c)) = Spectral.quantile50 l / c := by
  unfold Spectral.quantile50
  dsimp only
  rw [← List.map_insertionSort (fun a b : ℝ => a ≤ b) (fun a b : ℝ => a ≤ b) (f := (· / c)) (l := l)
    (fun a _ b _ => (div_le_div_iff_of_pos_right hc).symm)]
  have hg : ∀ (s : List ℝ) (i : ℕ), (s.map (· / c)).getD i 0 = s.getD i 0 / c := by
    intro s i
    simp only [List.getD_eq_getElem?_getD, List.getElem?_map]
    cases s[i]? <;> simp
  rw [hg, hg, List.length_map]
  ring

/-- With `"median"` (the default), the median over the row of the normalised energies is one, if the median is positive. -/
theorem normalized_median (n : ℕ) (e : ℕ → ℝ) (nrm : (n : ℕ) → (ℕ → ℝ) → ℝ) (hn : normalizer (some "median") = .ok nrm)
    (hpos : 0 < Spec.Welch.median ((List.range n).map e)) :
    Spec.Welch.median ((List.range n).map fun i => e i / nrm n e) = 1 := by
  have : nrm = fun (n : ℕ) (e : ℕ → ℝ) => Spectral.quantile50 ((List.range n).map e) := by
    have h : normalizer (some "median") = .ok (fun (n : ℕ) (e : ℕ → ℝ) => Spectral.quantile50 ((List.range n).map e)) := by
      unfold normalizer
      dsimp only
      rw [if_neg (by decide), if_pos (by simp [lower])]
    rw [h] at hn; exact (Except.ok.inj hn).symm
  subst this
  dsimp only
  have hw : ∀ l, Spec.Welch.median l = Spectral.quantile50 l := fun l => rfl
  rw [hw] at hpos ⊢
  have := quantile50_div ((List.range n).map e) _ hpos
  rw [List.map_map] at this
  refine Eq.trans ?_ (this.trans (div_self hpos.ne'))
  rfl

/-- Non-vacuity: a row at 64 Hz of two seconds at 1024 Hz, `q = 12`, with 64 tiles and the default mismatch. -/
example : ∃ t : QTile, 0 < t.q ∧ 0 < t.f ∧ 0 < t.dur ∧ 0 < t.mismatch ∧ t.mismatch ≤ 1 / 4 ∧ 2 ≤ t.ntiles ∧ 0 ≤ nRfft t.dur t.sr ∧
    t.f * t.dur = (128 : ℤ) := by
  refine ⟨⟨12, 64, 2, 1024, 0.2⟩, by norm_num, by norm_num, by norm_num, by norm_num, by norm_num, ?_, ?_, by norm_num⟩
  · rcases ntiles_pow_two ⟨12, 64, 2, 1024, 0.2⟩ (by norm_num) (by norm_num) (by norm_num) (by norm_num) with ⟨-, h⟩ | ⟨k, hk, h, -⟩
    · exfalso
      have hd : deltam 0.2 ≤ 2 := by
        unfold deltam
        have : Real.sqrt (0.2 / 3) ≤ 1 := by rw [Real.sqrt_le_left (by norm_num)]; norm_num
        linarith
      have hd0 : 0 < deltam 0.2 := deltam_pos (by norm_num)
      dsimp only at h
      rw [div_le_iff₀ hd0] at h
      have := Real.pi_gt_three
      norm_num at h
      linarith
    · rw [hk]
      have hd : deltam 0.2 ≤ 2 := by
        unfold deltam
        have : Real.sqrt (0.2 / 3) ≤ 1 := by rw [Real.sqrt_le_left (by norm_num)]; norm_num
        linarith
      have hd0 : 0 < deltam 0.2 := deltam_pos (by norm_num)
      dsimp only at h
      rw [div_le_iff₀ hd0] at h
      have := Real.pi_gt_three
      have h1 : (1 : ℝ) < 2 ^ k := by nlinarith [pow_pos (two_pos : (0 : ℝ) < 2) k]
      have h2 : 1 ≤ k := by
        rcases Nat.eq_zero_or_pos k with h0 | h0
        · rw [h0] at h1; norm_num at h1
        · exact h0
      calc (2 : ℤ) = 2 ^ 1 := by norm_num
        _ ≤ 2 ^ k := pow_le_pow_right₀ (by norm_num) h2
  · have : ((2 : ℝ) * 1024) = ((2048 : ℤ) : ℝ) := by norm_num
    unfold nRfft
    dsimp only
    rw [this, pyInt_intCast]; decide

end Verif.QTransform
