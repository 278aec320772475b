import Verif.Props.Snr
import Verif.Props.Geometry
import Verif.Props.Augment
import Verif.Lemmas.Circular
/-!
# The SNR does not depend on arrival time, sign or time direction (C92)
-/
namespace Verif.Snr
open Finset Verif.Fourier Verif.Whiten Verif.Spec.Snr Verif.Geometry

theorem rfft_norm_shift (N : ℕ) (g h : ℕ → ℝ) (d : ℤ) (σ : ℕ → ℕ)
    (hσ : ∀ t < N, σ t < N ∧ g t = h (σ t) ∧ ((σ t : ℤ) + d - t) % N = 0) (k : ℕ) : ‖rfft N g k‖ = ‖rfft N h k‖ := by
  rcases Nat.eq_zero_or_pos N with rfl | hN
  · simp [rfft, dft]
  have hinj : Set.InjOn σ (range N : Finset ℕ) := by
    intro a ha b hb hab
    have ha' : a < N := by simpa using ha
    have hb' : b < N := by simpa using hb
    have h1 := Int.dvd_of_emod_eq_zero (hσ a ha').2.2
    have h2 := Int.dvd_of_emod_eq_zero (hσ b hb').2.2
    rw [hab] at h1
    have h3 : (N : ℤ) ∣ (a : ℤ) - b := by
      have := dvd_sub h2 h1
      have e : ((σ b : ℤ) + d - b) - ((σ b : ℤ) + d - a) = (a : ℤ) - b := by ring
      rwa [e] at this
    have := Int.eq_zero_of_abs_lt_dvd h3 (by rw [abs_lt]; omega)
    omega
  have hmaps : Set.MapsTo σ (range N : Finset ℕ) (range N : Finset ℕ) := by
    intro t ht; simpa using (hσ t (by simpa using ht)).1
  have hsurj : Set.SurjOn σ (range N : Finset ℕ) (range N : Finset ℕ) :=
    Finset.surjOn_of_injOn_of_card_le σ hmaps hinj le_rfl
  have hsum : rfft N g k = ω N (-((k : ℤ) * d)) * rfft N h k := by
    unfold rfft dft
    rw [mul_sum]
    refine Finset.sum_nbij σ (fun t ht => by simpa using (hσ t (by simpa using ht)).1) hinj hsurj fun t ht => ?_
    obtain ⟨_, h1, h2⟩ := hσ t (by simpa using ht)
    obtain ⟨q, hq⟩ := Int.dvd_of_emod_eq_zero h2
    have e : -((k : ℤ) * t) = -((k : ℤ) * d) + -((k : ℤ) * σ t) + N * (k * q) := by
      have : (t : ℤ) = σ t + d - N * q := by omega
      rw [this]; ring
    dsimp only
    rw [h1, e, ω_add, ω_add, ω_mul_self N hN]
    ring
  rw [hsum, norm_mul, ω_norm, one_mul]

theorem rfft_norm_reverse (N : ℕ) (h : ℕ → ℝ) (k : ℕ) : ‖rfft N (fun t => h (N - 1 - t)) k‖ = ‖rfft N h k‖ := by
  rcases Nat.eq_zero_or_pos N with rfl | hN
  · simp [rfft, dft]
  have hsum : rfft N (fun t => h (N - 1 - t)) k = ω N (-((k : ℤ) * (N - 1))) * (starRingEnd ℂ) (rfft N h k) := by
    unfold rfft dft
    rw [map_sum, mul_sum, ← Finset.sum_range_reflect]
    refine sum_congr rfl fun t ht => ?_
    have ht : t < N := by simpa using ht
    have e : N - 1 - (N - 1 - t) = t := by omega
    dsimp only
    rw [e, map_mul, Complex.conj_ofReal, ω_neg N ((k : ℤ) * t), Complex.conj_conj]
    have e2 : -((k : ℤ) * ((N - 1 - t : ℕ) : ℤ)) = -((k : ℤ) * (N - 1)) + (k : ℤ) * t := by
      have : ((N - 1 - t : ℕ) : ℤ) = N - 1 - t := by omega
      rw [this]; ring
    rw [e2, ω_add]; ring
  rw [hsum, norm_mul, ω_norm, one_mul, RCLike.norm_conj]

theorem rfft_norm_neg (N : ℕ) (h : ℕ → ℝ) (k : ℕ) : ‖rfft N (fun t => -h t) k‖ = ‖rfft N h k‖ := by
  have : rfft N (fun t => -h t) k = -rfft N h k := by
    unfold rfft dft; rw [← sum_neg_distrib]; exact sum_congr rfl fun t _ => by push_cast; ring
  rw [this, norm_neg]

/-- **C92 (magnitudes).**  Responses with the same spectral magnitudes have the same SNRs: in every
interferometer, in the network, and therefore the same weights in `reweight_snrs`. -/
theorem snr_of_magnitudes (x x' psd : Tensor ℝ) (B C N pb pc F : ℕ) (sr : ℝ) (hp lp : Cut)
    (hx : x.shape = [B, C, N]) (hx' : x'.shape = [B, C, N]) (hN : 0 < N)
    (hs : psd.shape = [F] ∧ pb = 1 ∧ pc = 1 ∨ psd.shape = [pc, F] ∧ pb = 1 ∨ psd.shape = [pb, pc, F])
    (hpb : pb = 1 ∨ pb = B) (hpc : pc = 1 ∨ pc = C) (hhp : hp.Fits N) (hlp : lp.Fits N)
    (hpos : ∀ b c k, 0 ≤ psdAt F (N / 2 + 1) psd b c k)
    (h : ∀ b c k, b < B → c < C → k ≤ N / 2 →
      ‖rfft N (fun t => x'.get [b, c, t]) k‖ = ‖rfft N (fun t => x.get [b, c, t]) k‖) :
    ∃ y y' n n', ifoSnr x psd sr hp lp = .ok y ∧ ifoSnr x' psd sr hp lp = .ok y' ∧
      networkSnr x psd sr hp lp = .ok n ∧ networkSnr x' psd sr hp lp = .ok n' ∧
      (∀ b c, b < B → c < C → y'.get [b, c] = y.get [b, c]) ∧ (∀ b, b < B → n'.get [b] = n.get [b]) ∧
      ∀ target : Target, (target.val.shape = [B] ∨ target.val.shape = []) →
        ∃ z z', reweightSnrs x target psd sr hp lp = .ok z ∧ reweightSnrs x' target psd sr hp lp = .ok z' ∧
          ∀ b, b < B → ∃ a, ∀ c t, c < C → t < N →
            z.get [b, c, t] = a * x.get [b, c, t] ∧ z'.get [b, c, t] = a * x'.get [b, c, t] := by
  obtain ⟨y, h1, h2, h3⟩ := ifo_snr_correct x psd B C N pb pc F sr hp lp hx hN hs hpb hpc hhp hlp hpos
  obtain ⟨y', h1', h2', h3'⟩ := ifo_snr_correct x' psd B C N pb pc F sr hp lp hx' hN hs hpb hpc hhp hlp hpos
  obtain ⟨n, n1, n2, n3⟩ := network_snr_correct x psd B C sr hp lp y h1 h2
  obtain ⟨n', n1', n2', n3'⟩ := network_snr_correct x' psd B C sr hp lp y' h1' h2'
  have hifo : ∀ b c, b < B → c < C → y'.get [b, c] = y.get [b, c] := by
    intro b c hb hc
    rw [h3 b c hb hc, h3' b c hb hc]
    congr 1
    unfold snrSq
    congr 1
    refine sum_congr rfl fun k hk => ?_
    rw [norm_div, norm_div, h b c k hb hc (by have := mem_range.1 hk; omega)]
  have hnet : ∀ b, b < B → n'.get [b] = n.get [b] := by
    intro b hb
    rw [n3, n3']
    congr 1
    exact sum_congr rfl fun c hc => by rw [hifo b c hb (by simpa using hc)]
  refine ⟨y, y', n, n', h1, h1', n1, n1', hifo, hnet, fun target ht => ?_⟩
  obtain ⟨z, z1, _, z3⟩ := rescale_ok x target.val n B C N hx n2 ht
  obtain ⟨z', z1', _, z3'⟩ := rescale_ok x' target.val n' B C N hx' n2' ht
  refine ⟨z, z', ?_, ?_, fun b hb => ⟨_, fun c t hc htt => ⟨z3 b c t hb hc htt, ?_⟩⟩⟩
  · unfold reweightSnrs; rw [n1, res_bind_ok]; exact z1
  · unfold reweightSnrs; rw [n1', res_bind_ok]; exact z1'
  · rw [z3' b c t hb hc htt, hnet b hb]

/-- **C92 (arrival times).**  `shift_responses` changes no SNR, whatever the sky positions and the
detectors: the delay between the interferometers is a circular shift. -/
theorem snr_shift_invariant (x psd theta phi v : Tensor ℝ) (B C N pb pc F : ℕ) (sr : ℝ) (hp lp : Cut)
    (hx : x.shape = [B, C, N]) (hN : 0 < N) (ht : theta.shape = [B]) (hph : phi.shape = [B]) (hv : v.shape = [C, 3])
    (hs : psd.shape = [F] ∧ pb = 1 ∧ pc = 1 ∨ psd.shape = [pc, F] ∧ pb = 1 ∨ psd.shape = [pb, pc, F])
    (hpb : pb = 1 ∨ pb = B) (hpc : pc = 1 ∨ pc = C) (hhp : hp.Fits N) (hlp : lp.Fits N)
    (hpos : ∀ b c k, 0 ≤ psdAt F (N / 2 + 1) psd b c k) :
    ∃ x' y y' n n', shiftResponses x theta phi v sr = .ok x' ∧
      ifoSnr x psd sr hp lp = .ok y ∧ ifoSnr x' psd sr hp lp = .ok y' ∧
      networkSnr x psd sr hp lp = .ok n ∧ networkSnr x' psd sr hp lp = .ok n' ∧
      (∀ b c, b < B → c < C → y'.get [b, c] = y.get [b, c]) ∧ (∀ b, b < B → n'.get [b] = n.get [b]) := by
  obtain ⟨x', hx1, hx2, hx3⟩ := shift_correct x theta phi v B C N sr hx ht hph hv
  obtain ⟨y, y', n, n', h1, h2, h3, h4, h5, h6, _⟩ := snr_of_magnitudes x x' psd B C N pb pc F sr hp lp hx (hx2.trans hx) hN hs hpb
    hpc hhp hlp hpos (by
      intro b c k hb hc _
      choose! σ h1 h2 h3 using hx3 b c
      exact rfft_norm_shift N _ _ _ σ (fun t htN => ⟨h1 t htN, h2 t htN, h3 t htN⟩) k)
  exact ⟨x', y, y', n, n', hx1, h1, h2, h3, h4, h5, h6⟩

/-- **C92 (augmentations).**  `SignalInverter` and `SignalReverser` change no SNR, whatever was drawn. -/
theorem snr_augment_invariant (x psd : Tensor ℝ) (r : List Nat → ℝ) (prob : ℝ) (B C N pb pc F : ℕ) (sr : ℝ) (hp lp : Cut)
    (hx : x.shape = [B, C, N]) (hN : 0 < N)
    (hs : psd.shape = [F] ∧ pb = 1 ∧ pc = 1 ∨ psd.shape = [pc, F] ∧ pb = 1 ∨ psd.shape = [pb, pc, F])
    (hpb : pb = 1 ∨ pb = B) (hpc : pc = 1 ∨ pc = C) (hhp : hp.Fits N) (hlp : lp.Fits N)
    (hpos : ∀ b c k, 0 ≤ psdAt F (N / 2 + 1) psd b c k) :
    ∃ y yi yr, ifoSnr x psd sr hp lp = .ok y ∧ ifoSnr (Augment.invert r prob x).2 psd sr hp lp = .ok yi ∧
      ifoSnr (Augment.reverse r prob x).2 psd sr hp lp = .ok yr ∧
      ∀ b c, b < B → c < C → yi.get [b, c] = y.get [b, c] ∧ yr.get [b, c] = y.get [b, c] := by
  obtain ⟨_, i2, i3⟩ := Augment.inverter_series r prob x
  obtain ⟨_, r2, r3⟩ := Augment.reverser_series r prob x [B, C] N hx
  obtain ⟨y, y', _, _, h1, h2, _, _, h5, _⟩ := snr_of_magnitudes x (Augment.invert r prob x).2 psd B C N pb pc F sr hp lp hx
    (i2.trans hx) hN hs hpb hpc hhp hlp hpos (by
      intro b c k hb hc _
      by_cases hm : r [b, c] < prob
      · have := (i3 [b, c]).1 hm
        simp only [List.cons_append, List.nil_append] at this
        simp only [this]
        exact rfft_norm_neg N _ k
      · have := (i3 [b, c]).2 hm
        simp only [List.cons_append, List.nil_append] at this
        simp only [this])
  obtain ⟨y2, y3, _, _, g1, g2, _, _, g5, _⟩ := snr_of_magnitudes x (Augment.reverse r prob x).2 psd B C N pb pc F sr hp lp hx
    (r2.trans hx) hN hs hpb hpc hhp hlp hpos (by
      intro b c k hb hc _
      by_cases hm : r [b, c] < prob
      · have := (r3 [b, c]).1 hm
        simp only [List.cons_append, List.nil_append] at this
        rw [rfft_congr N _ _ this]
        exact rfft_norm_reverse N (fun t => x.get [b, c, t]) k
      · have := (r3 [b, c]).2 hm
        simp only [List.cons_append, List.nil_append] at this
        simp only [this])
  obtain rfl : y = y2 := Except.ok.inj (h1.symm.trans g1)
  exact ⟨y, y', y3, h1, h2, g2, fun b c hb hc => ⟨h5 b c hb hc, g5 b c hb hc⟩⟩

/-- Non-vacuity: two events in two detectors, unit PSD. -/
example : ∃ x' y y', shiftResponses ⟨[2, 2, 8], fun i => (ravel [2, 2, 8] i : ℝ)⟩ ⟨[2], fun _ => 1⟩ ⟨[2], fun _ => 2⟩
      ⟨[2, 3], fun i => (i.sum : ℝ) * 100000000⟩ 8 = .ok x' ∧
    ifoSnr ⟨[2, 2, 8], fun i => (ravel [2, 2, 8] i : ℝ)⟩ ⟨[5], fun _ => 1⟩ 8 (.freq 1) .none = .ok y ∧
    ifoSnr x' ⟨[5], fun _ => 1⟩ 8 (.freq 1) .none = .ok y' ∧ y'.get [1, 1] = y.get [1, 1] := by
  obtain ⟨x', y, y', n, n', h1, h2, h3, _, _, h6, _⟩ := snr_shift_invariant ⟨[2, 2, 8], fun i => (ravel [2, 2, 8] i : ℝ)⟩
    ⟨[5], fun _ => 1⟩ ⟨[2], fun _ => 1⟩ ⟨[2], fun _ => 2⟩ ⟨[2, 3], fun i => (i.sum : ℝ) * 100000000⟩ 2 2 8 1 1 5 8 (.freq 1) .none
    rfl (by norm_num) rfl rfl rfl (Or.inl ⟨rfl, rfl, rfl⟩) (Or.inl rfl) (Or.inl rfl) trivial trivial
    (fun b c k => by simp [psdAt, psdOf])
  exact ⟨x', y, y', h1, h2, h3, h6 1 1 (by norm_num) (by norm_num)⟩

example : ∃ y yi yr, ifoSnr ⟨[2, 2, 8], fun i => (ravel [2, 2, 8] i : ℝ)⟩ ⟨[5], fun _ => 1⟩ 8 (.freq 1) .none = .ok y ∧
    ifoSnr (Augment.invert (fun _ => 0) 1 ⟨[2, 2, 8], fun i => (ravel [2, 2, 8] i : ℝ)⟩).2 ⟨[5], fun _ => 1⟩ 8 (.freq 1) .none = .ok yi ∧
    ifoSnr (Augment.reverse (fun _ => 0) 1 ⟨[2, 2, 8], fun i => (ravel [2, 2, 8] i : ℝ)⟩).2 ⟨[5], fun _ => 1⟩ 8 (.freq 1) .none = .ok yr ∧
    yi.get [1, 1] = y.get [1, 1] ∧ yr.get [1, 0] = y.get [1, 0] := by
  obtain ⟨y, yi, yr, h1, h2, h3, h⟩ := snr_augment_invariant ⟨[2, 2, 8], fun i => (ravel [2, 2, 8] i : ℝ)⟩ ⟨[5], fun _ => 1⟩
    (fun _ => 0) 1 2 2 8 1 1 5 8 (.freq 1) .none rfl (by norm_num) (Or.inl ⟨rfl, rfl, rfl⟩) (Or.inl rfl) (Or.inl rfl) trivial trivial
    (fun b c k => by simp [psdAt, psdOf])
  exact ⟨y, yi, yr, h1, h2, h3, (h 1 1 (by norm_num) (by norm_num)).1, (h 1 0 (by norm_num) (by norm_num)).2⟩

end Verif.Snr
