import Verif.Props.QTile
/-!
# Rounding, and rows with no or one tile (C49)
-/
set_option linter.unusedVariables false
namespace Verif.QTransform
open Finset Fourier Whiten QSpec

/-- **Rounding.**  The only integer within half of `r` that is even whenever `r` lies halfway between two integers. -/
theorem roundEven_spec (r : ℝ) (n : ℤ) : roundEven r = n ↔ |(n : ℝ) - r| < 1 / 2 ∨ (|(n : ℝ) - r| = 1 / 2 ∧ Even n) := by
  have h1 := Int.floor_le r
  have h2 := Int.lt_floor_add_one r
  set k := ⌊r⌋ with hk
  have pin : ∀ m : ℤ, ∀ a b : ℝ, a < (n : ℝ) - m → (n : ℝ) - m < b → a = -1 → b = 1 → n = m := by
    intro m a b ha hb ea eb
    have h3 : ((m - 1 : ℤ) : ℝ) < n := by push_cast; linarith
    have h4 : (n : ℝ) < ((m + 1 : ℤ) : ℝ) := by push_cast; linarith
    have h3' : m - 1 < n := by exact_mod_cast h3
    have h4' : n < m + 1 := by exact_mod_cast h4
    omega
  unfold roundEven
  rw [← hk]
  constructor
  · intro h
    rw [← h]
    split_ifs with a b c
    · left; rw [abs_lt]; constructor <;> linarith
    · left; push_cast; rw [abs_lt]; constructor <;> linarith
    · right
      refine ⟨?_, Int.even_iff.2 c⟩
      rw [abs_of_nonpos (by linarith)]; linarith
    · right
      refine ⟨?_, Int.even_iff.2 (by omega)⟩
      push_cast
      rw [abs_of_nonneg (by linarith)]; linarith
  · rintro (h | ⟨h, he⟩)
    · rw [abs_lt] at h
      split_ifs with a b c
      · exact (pin k _ _ (by linarith) (by linarith) rfl rfl).symm
      · have := pin (k + 1) (-1) 1 (by push_cast; linarith) (by push_cast; linarith) rfl rfl
        exact this.symm
      all_goals
        exfalso
        have e : r = k + 1 / 2 := by linarith
        have h3 : ((k : ℤ) : ℝ) < n := by linarith
        have h4 : (n : ℝ) < ((k + 1 : ℤ) : ℝ) := by push_cast; linarith
        have h3' : k < n := by exact_mod_cast h3
        have h4' : n < k + 1 := by exact_mod_cast h4
        omega
    · have hb := abs_le.1 h.le
      have hcase : (n : ℝ) - r = 1 / 2 ∨ (n : ℝ) - r = -(1 / 2) := (abs_eq (by norm_num)).1 h
      have e : n = k ∨ n = k + 1 := by
        have h3 : ((k - 1 : ℤ) : ℝ) < n := by push_cast; linarith
        have h4 : (n : ℝ) < ((k + 2 : ℤ) : ℝ) := by push_cast; linarith
        have h3' : k - 1 < n := by exact_mod_cast h3
        have h4' : n < k + 2 := by exact_mod_cast h4
        omega
      rw [Int.even_iff] at he
      have half : r - k = 1 / 2 := by
        rcases e with e | e <;> rcases hcase with hc | hc <;> rw [e] at hc <;> push_cast at hc <;> linarith
      rw [if_neg (by linarith), if_neg (by linarith)]
      split_ifs <;> omega

/-- With at most one tile the window is a single bin. -/
theorem half_small (t : QTile) (hq : 0 < t.q) (hf : 0 < t.f) (hd : 0 < t.dur) (hm : 0 < t.mismatch) (hm4 : t.mismatch ≤ 1 / 4)
    (h1 : t.ntiles ≤ 1) : t.half = 0 := by
  have hdm := deltam_pos hm
  have hr : t.dur * 2 * Real.pi * t.f / t.q / deltam t.mismatch ≤ 1 := by
    rcases ntiles_pow_two t hq hf hd hm with ⟨-, h⟩ | ⟨k, hk, h, -⟩
    · linarith
    · rw [hk] at h1
      have : k = 0 := by
        by_contra hk0
        have : (2 : ℤ) ^ 1 ≤ 2 ^ k := pow_le_pow_right₀ (by norm_num) (by omega)
        omega
      rw [this] at h; simpa using h
  have hdl : deltam t.mismatch ≤ 1 := by
    unfold deltam
    have : Real.sqrt (t.mismatch / 3) ≤ 1 / 2 := by rw [Real.sqrt_le_left (by norm_num)]; linarith
    linarith
  rw [div_le_one hdm, div_le_iff₀ hq] at hr
  have hq' := qprime_pos hq
  have hs : Real.sqrt 11 < 4 := by rw [Real.sqrt_lt' (by norm_num)]; norm_num
  have hs0 : 0 < Real.sqrt 11 := by positivity
  have hpi := Real.pi_gt_three
  unfold QTile.half pyInt
  rw [if_pos (by positivity), Int.floor_eq_zero_iff]
  refine ⟨by positivity, ?_⟩
  have e : t.f / qprime t.q * t.dur = t.dur * t.f * Real.sqrt 11 / t.q := by
    unfold qprime; field_simp
  rw [e, div_lt_one hq]
  have hdf : 0 < t.dur * t.f := by positivity
  have h6 : 6 * (t.dur * t.f) < t.q := by
    have : t.dur * 2 * Real.pi * t.f ≤ t.q := hr.trans (by nlinarith)
    nlinarith
  nlinarith

theorem padding_one (t : QTile) (h0 : t.half = 0) (h1 : t.ntiles = 1) : t.padding = (0, 0) ∧ t.windowsize = 1 ∧ t.len = 1 := by
  have hw : t.windowsize = 1 := by unfold QTile.windowsize; rw [h0]; rfl
  have hp : t.padding = (0, 0) := by
    unfold QTile.padding
    rw [h1, hw]
    unfold pyInt
    norm_num
  refine ⟨hp, hw, ?_⟩
  unfold QTile.len; rw [hw, hp]; rfl

/-- **One tile.**  A row with a single tile is accepted, and its energy is the squared modulus of the one windowed bin. -/
theorem forward_one (t : QTile) (X : Tensor ℂ) (lead : List ℕ) (hX : X.shape = lead ++ [(nRfft t.dur t.sr).toNat + 1]) (hl : lead.length ≤ 2)
    (hN : 0 ≤ nRfft t.dur t.sr) (hq : 0 < t.q) (hf : 0 < t.f) (hd : 0 < t.dur) (hm : 0 < t.mismatch) (hm4 : t.mismatch ≤ 1 / 4) (h1 : t.ntiles = 1) :
    ∃ E, t.forward X none = .ok E ∧ E.shape = (List.replicate (2 - lead.length) 1 ++ lead) ++ [1] ∧
      ∀ b : List ℕ, b.length = 2 → E.get (b ++ [0]) = ‖X.get (dropLead lead b ++ [(t.index 0).toNat]) * t.window 0‖ ^ 2 := by
  obtain ⟨hp, hw, hlen⟩ := padding_one t (half_small t hq hf hd hm hm4 h1.le) h1
  unfold QTile.forward
  rw [if_neg (by rw [hX]; simp; omega)]
  have hs := to3dC_shape X lead _ hX hl
  have hlast : (to3dC X).lastDim = .ok ((nRfft t.dur t.sr).toNat + 1) := by
    unfold Tensor.lastDim; rw [hs]; simp
  simp only [hlast, res_bind_ok]
  rw [if_neg]
  · rw [if_neg (by omega), normalizer_none]
    simp only [res_bind_ok]
    refine ⟨_, rfl, ?_, ?_⟩
    · unfold mapRows
      rw [hs, List.dropLast_concat, hlen]; rfl
    · intro b hb
      have e : ∀ k, (to3dC X).get (b ++ [k]) = X.get (dropLead lead b ++ [k]) := by
        intro k
        unfold to3dC dropLead
        simp only [hX, List.length_append, List.length_singleton]
        rw [List.drop_append_of_le_length (by omega), show 3 - (lead.length + 1) = 2 - lead.length by omega]
      simp only [mapRows, List.dropLast_concat, List.getLastD_concat, e]
      have hz : ∀ z : ℂ, z.re ^ 2 + z.im ^ 2 = ‖z‖ ^ 2 := by
        intro z; rw [← Complex.normSq_eq_norm_sq, Complex.normSq_apply]; ring
      unfold QTile.energy
      rw [hz, hlen]
      have : ∀ Y : ℕ → ℂ, ifft 1 Y 0 = Y 0 := by
        intro Y
        unfold ifft
        simp [ω]
      rw [show (1 : ℤ).toNat = 1 from rfl, this, div_one]
      unfold ifftshift QTile.padded
      simp [hp, hw]
  · simp only [List.any_eq_true, List.mem_range, decide_eq_true_eq, not_exists, not_and, not_le]
    intro j _
    have := (index_range t hN j).2
    push_cast
    omega

/-- **No tiles.**  A row whose time-mismatch ratio is at most one half (in particular a row at frequency zero) has no tiles, and its transform raises RuntimeError on every spectrum of the right
length. -/
theorem forward_zero (t : QTile) (X : Tensor ℂ) (lead : List ℕ) (norm : Option String) (hX : X.shape = lead ++ [(nRfft t.dur t.sr).toNat + 1])
    (hl : lead.length ≤ 2) (hN : 0 ≤ nRfft t.dur t.sr) (hq : 0 < t.q) (hf : 0 ≤ t.f) (hd : 0 < t.dur) (hm : 0 < t.mismatch) (hm4 : t.mismatch ≤ 1 / 4)
    (hr : t.dur * 2 * Real.pi * t.f / t.q / deltam t.mismatch ≤ 1 / 2) : t.forward X norm = .error .runtime := by
  have h0 : t.ntiles = 0 := by
    rcases hf.eq_or_lt with hf | hf
    · unfold QTile.ntiles; rw [if_pos hf.symm]
    rcases ntiles_pow_two t hq hf hd hm with ⟨h, -⟩ | ⟨k, hk, -, h⟩
    · exact h
    · exfalso
      have : (1 : ℝ) ≤ 2 ^ k := one_le_pow₀ (by norm_num)
      linarith
  have hh : t.half = 0 := by
    rcases hf.eq_or_lt with hf | hf
    · unfold QTile.half; rw [← hf, zero_div, zero_mul]; simp [pyInt]
    · exact half_small t hq hf hd hm hm4 (by omega)
  have hw : t.windowsize = 1 := by unfold QTile.windowsize; rw [hh]; rfl
  have hlen : t.len = 0 := by
    unfold QTile.len QTile.padding
    rw [h0, hw, pyInt_half_odd _ (by norm_num), pyInt_half_odd _ (by norm_num)]; norm_num
  unfold QTile.forward
  rw [if_neg (by rw [hX]; simp; omega)]
  have hs := to3dC_shape X lead _ hX hl
  have hlast : (to3dC X).lastDim = .ok ((nRfft t.dur t.sr).toNat + 1) := by
    unfold Tensor.lastDim; rw [hs]; simp
  simp only [hlast, res_bind_ok]
  rw [if_neg]
  · rw [if_pos (by omega)]
  · simp only [List.any_eq_true, List.mem_range, decide_eq_true_eq, not_exists, not_and, not_le]
    intro j _
    have := (index_range t hN j).2
    push_cast
    omega

/-- Non-vacuity: halves go to the even neighbour on either side. -/
example : roundEven (5 / 2) = 2 ∧ roundEven (7 / 2) = 4 ∧ roundEven (-1 / 2) = 0 := by
  refine ⟨(roundEven_spec _ _).2 (.inr ⟨?_, by decide⟩), (roundEven_spec _ _).2 (.inr ⟨?_, by decide⟩), (roundEven_spec _ _).2 (.inr ⟨?_, by decide⟩)⟩ <;>
    norm_num [abs_of_nonneg, abs_of_nonpos]

theorem ratio_example (f : ℝ) : (⟨12, f, 1, 64, 3 / 16⟩ : QTile).dur * 2 * Real.pi * f / 12 / deltam (3 / 16) = Real.pi * f / 3 := by
  have : deltam (3 / 16) = 1 / 2 := by
    unfold deltam
    rw [show (3 / 16 / 3 : ℝ) = (1 / 4) ^ 2 by norm_num, Real.sqrt_sq (by norm_num)]; norm_num
  rw [this]; ring

/-- Non-vacuity: one second, `q = 12`, mismatch 3/16: a row at 0.9 Hz has one tile, a row at 0.4 Hz none. -/
example : (⟨12, 0.9, 1, 64, 3 / 16⟩ : QTile).ntiles = 1 ∧ (1 : ℝ) * 2 * Real.pi * 0.4 / 12 / deltam (3 / 16) ≤ 1 / 2 := by
  have hp3 := Real.pi_gt_three
  have hp4 := Real.pi_lt_d2
  constructor
  · rcases ntiles_pow_two ⟨12, 0.9, 1, 64, 3 / 16⟩ (by norm_num) (by norm_num) (by norm_num) (by norm_num) with ⟨-, h⟩ | ⟨k, hk, -, h⟩
    · exfalso
      have := ratio_example 0.9
      dsimp only at h this
      rw [this] at h; linarith
    · have e := ratio_example 0.9
      dsimp only at h e
      rw [e] at h
      have : k = 0 := by
        by_contra hk0
        have : (2 : ℝ) ^ 1 ≤ 2 ^ k := pow_le_pow_right₀ (by norm_num) (by omega)
        linarith
      rw [hk, this]; rfl
  · have := ratio_example 0.4
    dsimp only at this
    rw [this]; linarith

end Verif.QTransform
