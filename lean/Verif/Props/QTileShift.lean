import Verif.Props.QTransform
import Verif.Lemmas.Circular
/-!
# Q tiles follow the data in time and amplitude (C95)
-/
set_option linter.unusedVariables false
namespace Verif.QTransform
open Finset Fourier Whiten QSpec

theorem sq_norm (z : ℂ) : z.re ^ 2 + z.im ^ 2 = ‖z‖ ^ 2 := by
  rw [← Complex.normSq_eq_norm_sq, Complex.normSq_apply]; ring

theorem energy_norm (t : QTile) (X : ℕ → ℂ) (hn : 0 < t.len.toNat) (s : ℕ) :
    t.energy X s = ‖ifft t.len.toNat (t.padded X) s‖ ^ 2 := by
  unfold QTile.energy
  rw [sq_norm, ifft_ifftshift _ hn, norm_mul, ω_norm, one_mul]

/-- Bins read without clamping. -/
theorem index_inside (t : QTile) (N k : ℕ) (hq : 0 < t.q) (hf : 0 < t.f) (hd : 0 < t.dur) (hk : t.f * t.dur = k) (hN : nRfft t.dur t.sr = ((N / 2 : ℕ) : ℤ))
    (hin : Inside t.q t.f t.dur N) (j : ℕ) (hj : (j : ℤ) < t.windowsize) :
    t.index j = (k : ℤ) + 1 + ((j : ℤ) - t.half) ∧ 0 ≤ (k : ℤ) + 1 + ((j : ℤ) - t.half) ∧ (k : ℤ) + 1 + ((j : ℤ) - t.half) ≤ (N / 2 : ℕ) := by
  have hle := half_le t hq hf hd
  have e : t.f / qprime t.q * t.dur = t.f * t.dur * (Real.sqrt 11 / t.q) := by
    unfold qprime; field_simp
  rw [e] at hle
  obtain ⟨h1, h2⟩ := hin
  have a1 : (t.half : ℝ) ≤ ((k + 1 : ℤ) : ℝ) := by push_cast; rw [← hk]; linarith
  have a2 : ((k + t.half + 1 : ℤ) : ℝ) ≤ (((N / 2 : ℕ) : ℤ) : ℝ) := by
    rw [mul_add, hk] at h2
    rw [hk] at hle
    rw [Int.cast_natCast]
    generalize N / 2 = M at *
    push_cast
    linarith
  have a1 : t.half ≤ k + 1 := by exact_mod_cast a1
  have a2 : k + t.half + 1 ≤ ((N / 2 : ℕ) : ℤ) := by exact_mod_cast a2
  have hw : t.windowsize = 2 * t.half + 1 := rfl
  rw [index_consecutive t k (by exact_mod_cast hk), hN]
  omega

/-- The spectrum of a rolled series. -/
theorem rfft_roll (N d : ℕ) (hd : d < N) (x : ℕ → ℝ) (k : ℕ) : rfft N (roll N d x) k = ω N (-((k : ℤ) * d)) * rfft N x k := by
  have hN : 0 < N := by omega
  unfold rfft dft roll
  rw [mul_sum, ← sum_shift N d hd fun t => ω N (-((k : ℤ) * d)) * ((x t : ℂ) * ω N (-((k : ℤ) * t)))]
  refine sum_congr rfl fun t _ => ?_
  rw [mul_left_comm, ← neg_mul, ← neg_mul, ← neg_mul, Fourier.ω_mod N hN, ← ω_add]
  congr 1
  have e : -(k : ℤ) * d + -(k : ℤ) * ((t + N - d : ℕ) : ℤ) = -(k : ℤ) * t + N * (-k) := by
    rw [Nat.cast_sub (by omega), Nat.cast_add]; ring
  rw [e, ω_add, ω_mul_self N hN, mul_one]

theorem ω_ratio (N n : ℕ) (hN : 0 < N) (hn : 0 < n) (d m : ℕ) (h : d * n = m * N) (p : ℤ) : ω N (-(p * d)) = ω n (-(p * m)) := by
  unfold ω
  congr 1
  have hN' : (N : ℂ) ≠ 0 := by exact_mod_cast hN.ne'
  have hn' : (n : ℂ) ≠ 0 := by exact_mod_cast hn.ne'
  have h' : (d : ℂ) * n = m * N := by exact_mod_cast h
  rw [div_eq_div_iff hN' hn']
  push_cast
  linear_combination -(2 * Real.pi * Complex.I * p) * h'

/-- The energies of a row under a linear phase. -/
theorem energy_phase (t : QTile) (X X' : ℕ → ℂ) (N k d m : ℕ) (hq : 0 < t.q) (hf : 0 < t.f) (hd : 0 < t.dur) (hk : t.f * t.dur = k)
    (hN : nRfft t.dur t.sr = ((N / 2 : ℕ) : ℤ)) (hN0 : 0 < N) (hin : Inside t.q t.f t.dur N) (hn : 0 < t.len.toNat) (hm : d * t.len.toNat = m * N)
    (hX : ∀ c ≤ N / 2, X' c = ω N (-((c : ℤ) * d)) * X c) (s : ℕ) :
    t.energy X' ((s + m) % t.len.toNat) = t.energy X s := by
  set n := t.len.toNat with hnd
  rw [energy_norm t X' hn, energy_norm t X hn, ← hnd]
  set c0 : ℤ := (k : ℤ) + 1 - t.half - t.padding.1 with hc0
  have hp : ∀ p : ℕ, t.padded X' p = ω N (-(c0 * d)) * ω n (-((p : ℤ) * m)) * t.padded X p := by
    intro p
    unfold QTile.padded
    dsimp only
    split_ifs with h
    · obtain ⟨i1, i2, i3⟩ := index_inside t N k hq hf hd hk hN hin ((p : ℤ) - t.padding.1).toNat (by omega)
      rw [hX _ (by omega), i1]
      have e : ((((k : ℤ) + 1 + ((((p : ℤ) - t.padding.1).toNat : ℤ) - t.half)).toNat : ℕ) : ℤ) = c0 + p := by omega
      rw [e, add_mul, neg_add, ω_add, ω_ratio N n hN0 hn d m hm p]
      ring
    · rw [mul_zero]
  have e : ifft n (t.padded X') ((s + m) % n) = ω N (-(c0 * d)) * ifft n (t.padded X) s := by
    unfold ifft
    rw [mul_div_assoc']
    congr 1
    rw [mul_sum]
    refine sum_congr rfl fun p _ => ?_
    rw [hp p, Fourier.ω_mod n hn]
    have : ω n ((p : ℤ) * ((s + m : ℕ) : ℤ)) = ω n ((p : ℤ) * s) * ω n ((p : ℤ) * m) := by
      rw [← ω_add]; congr 1; push_cast; ring
    have h1 : ω n (-((p : ℤ) * m)) * ω n ((p : ℤ) * m) = 1 := by rw [← ω_add, neg_add_cancel, ω_zero]
    rw [this]
    linear_combination (ω N (-(c0 * d)) * t.padded X p * ω n ((p : ℤ) * s)) * h1
  rw [e, norm_mul, ω_norm, one_mul]

theorem quantile50_perm (l l' : List ℝ) (h : l.Perm l') : Spectral.quantile50 l = Spectral.quantile50 l' := by
  have : l.insertionSort (fun a b : ℝ => a ≤ b) = l'.insertionSort (fun a b : ℝ => a ≤ b) := by
    refine List.Perm.eq_of_pairwise (le := (· ≤ ·)) (fun a b _ _ h1 h2 => le_antisymm h1 h2) (List.pairwise_insertionSort _ _)
      (List.pairwise_insertionSort _ _) ?_
    exact (List.perm_insertionSort _ _).trans (h.trans (List.perm_insertionSort _ _).symm)
  unfold Spectral.quantile50
  rw [this, h.length_eq]

theorem normalizer_cases (norm : Option String) (nrm : (n : ℕ) → (ℕ → ℝ) → ℝ) (hn : normalizer norm = .ok nrm) :
    (nrm = fun _ _ => 1) ∨ (nrm = fun (n : ℕ) (e : ℕ → ℝ) => Spectral.quantile50 ((List.range n).map e)) ∨ (nrm = fun (n : ℕ) (e : ℕ → ℝ) => (∑ i ∈ range n, e i) / n) := by
  unfold normalizer at hn
  cases norm with
  | none => exact .inl (Except.ok.inj hn).symm
  | some s =>
    dsimp only at hn
    split_ifs at hn
    · exact .inl (Except.ok.inj hn).symm
    · exact .inr (.inl (Except.ok.inj hn).symm)
    · exact .inr (.inr (Except.ok.inj hn).symm)

theorem rotate_perm (n m : ℕ) (hn : 0 < n) : ((List.range n).map fun s => (s + m) % n).Perm (List.range n) := by
  have h : ((List.range n).map fun s => (s + m) % n) = (List.range n).map fun s => (s + m % n) % n := by
    refine List.map_congr_left fun s _ => ?_
    rw [Nat.add_mod_mod]
  rw [h]
  have hm := Nat.mod_lt m hn
  generalize m % n = r at hm
  rw [List.perm_ext_iff_of_nodup]
  · intro a
    simp only [List.mem_map, List.mem_range]
    constructor
    · rintro ⟨s, _, rfl⟩; exact Nat.mod_lt _ hn
    · intro ha
      refine ⟨(a + (n - r)) % n, Nat.mod_lt _ hn, ?_⟩
      rw [Nat.mod_add_mod, show a + (n - r) + r = a + n by omega, Nat.add_mod_right, Nat.mod_eq_of_lt ha]
  · refine List.Nodup.map_on ?_ List.nodup_range
    intro a ha b hb hab
    rw [List.mem_range] at ha hb
    have := Nat.ModEq.add_right_cancel' r (show (a + r) ≡ (b + r) [MOD n] from hab)
    rw [← Nat.mod_eq_of_lt ha, ← Nat.mod_eq_of_lt hb]; exact this
  · exact List.nodup_range

theorem normalizer_rotate (norm : Option String) (nrm : (n : ℕ) → (ℕ → ℝ) → ℝ) (hn : normalizer norm = .ok nrm) (n m : ℕ) (hn0 : 0 < n)
    (e e' : ℕ → ℝ) (h : ∀ s, e' ((s + m) % n) = e s) : nrm n e' = nrm n e := by
  have hp : ((List.range n).map e).Perm ((List.range n).map e') := by
    have : (List.range n).map e = ((List.range n).map fun s => (s + m) % n).map e' := by
      rw [List.map_map]; exact List.map_congr_left fun s _ => (h s).symm
    rw [this]
    exact (rotate_perm n m hn0).map e'
  rcases normalizer_cases norm nrm hn with rfl | rfl | rfl
  · rfl
  · exact (quantile50_perm _ _ hp).symm
  · have := hp.sum_eq
    dsimp only
    congr 1
    have hs : ∀ g : ℕ → ℝ, ((List.range n).map g).sum = ∑ i ∈ range n, g i := by
      intro g; rw [Finset.sum, Finset.range_val, Multiset.range, Multiset.map_coe, Multiset.sum_coe]
    rw [← hs e', ← hs e, this]

theorem normalizer_scale (norm : Option String) (nrm : (n : ℕ) → (ℕ → ℝ) → ℝ) (hn : normalizer norm = .ok nrm) (n : ℕ) (e : ℕ → ℝ) (c : ℝ) (hc : 0 < c) :
    (nrm = fun _ _ => 1) ∨ nrm n (fun s => c * e s) = c * nrm n e := by
  rcases normalizer_cases norm nrm hn with rfl | rfl | rfl
  · exact .inl rfl
  · refine .inr ?_
    have := quantile50_div ((List.range n).map e) c⁻¹ (by positivity)
    rw [List.map_map] at this
    dsimp only
    rw [div_inv_eq_mul, mul_comm] at this
    rw [← this]
    congr 1
    refine List.map_congr_left fun s _ => ?_
    simp [mul_comm]
  · refine .inr ?_
    dsimp only
    rw [← mul_sum, mul_div_assoc]

/-- Facts shared by the rows of a transform. -/
theorem row_facts (s : Single) (N : ℕ) (hNs : pyInt (s.dur * s.sr) = N) (i : ℕ) (hi : i < s.transforms.length) :
    (s.transforms[i]).q = s.q ∧ (s.transforms[i]).dur = s.dur ∧ (s.transforms[i]).f = s.freqs.getD i 0 ∧ (s.transforms[i]).sr = s.sr ∧
      (s.transforms[i]).f ∈ s.freqs ∧ nRfft (s.transforms[i]).dur (s.transforms[i]).sr = ((N / 2 : ℕ) : ℤ) := by
  have hi' : i < s.freqs.length := by simpa [Single.transforms] using hi
  simp only [Single.transforms, List.getElem_map]
  refine ⟨trivial, trivial, ?_, trivial, List.getElem_mem _, ?_⟩
  · rw [List.getD_eq_getElem _ _ hi']
  · unfold nRfft; rw [hNs]; exact Int.fdiv_eq_ediv_of_nonneg _ (by norm_num)

/-- **C95 (time).**  If the data are rolled in time by `d` samples, the tiles of every row of `n` tiles for which `d` samples are a whole number `m` of
tiles, and whose window lies inside the spectrum, are rolled by `m` tiles, whatever the normalisation. -/
theorem tiles_shift (s : Single) (x x' : Tensor ℝ) (lead : List ℕ) (N d : ℕ) (norm : Option String) (nrm : (n : ℕ) → (ℕ → ℝ) → ℝ)
    (hx : x.shape = lead ++ [N]) (hx' : x'.shape = lead ++ [N]) (hl : lead.length ≤ 2) (hd : d < N) (hNs : pyInt (s.dur * s.sr) = N)
    (hn : normalizer norm = .ok nrm) (h2 : ∀ t ∈ s.transforms, 2 ≤ t.ntiles) (hq : 0 < s.q) (hdur : 0 < s.dur) (hr1 : 1 / s.dur ≤ s.range.1)
    (hr : s.range.1 ≤ s.range.2)
    (hroll : ∀ b : List ℕ, ∀ t < N, x'.get (b ++ [t]) = roll N d (fun t => x.get (b ++ [t])) t) :
    ∃ ts ts' : List (Tensor ℝ), s.compute x norm = .ok { s with tiles := some ts } ∧ s.compute x' norm = .ok { s with tiles := some ts' } ∧
      ts.length = s.freqs.length ∧ ts'.length = s.freqs.length ∧
      ∀ i (hi : i < ts.length) (hi' : i < ts'.length), ∃ n, ts[i].shape.getLast? = some n ∧ ts'[i].shape = ts[i].shape ∧
        (Inside s.q (s.freqs.getD i 0) s.dur N → ∀ m, d * n = m * N → ∀ b : List ℕ, b.length = 2 → ∀ u,
          ts'[i].get (b ++ [(u + m) % n]) = ts[i].get (b ++ [u])) := by
  have hN : 0 < N := by omega
  obtain ⟨ts, c1, c2, c3⟩ := compute_ok s x lead N norm nrm hx hl hN hNs hn h2
  obtain ⟨ts', d1, d2, d3⟩ := compute_ok s x' lead N norm nrm hx' hl hN hNs hn h2
  refine ⟨ts, ts', c1, d1, c2, d2, ?_⟩
  intro i hi hi'
  have hi2 : i < s.transforms.length := by rw [c2] at hi; simpa [Single.transforms] using hi
  obtain ⟨-, e2, e3⟩ := c3 i hi hi2
  obtain ⟨-, f2, f3⟩ := d3 i hi' hi2
  refine ⟨(s.transforms[i]).ntiles.toNat, by rw [e2]; simp, f2.trans e2.symm, ?_⟩
  intro hin m hm b hb u
  obtain ⟨r1, r2, r3, r4, r5, r6⟩ := row_facts s N hNs i hi2
  have ht2 := h2 _ (List.getElem_mem hi2)
  have hlen := (padding_total (s.transforms[i]) ht2).1
  set t := s.transforms[i] with ht
  have hpos : 0 < s.range.1 := lt_of_lt_of_le (by positivity) hr1
  obtain ⟨⟨k, hk⟩, -, -, hf1, -⟩ := (freqs_spec s.dur s.q s.mismatch s.range hdur hpos hr).2.2 t.f r5
  have hf : 0 < t.f := lt_of_lt_of_le (by positivity) (hf1 hr1)
  have hE : ∀ v, t.energy (fun k => rfft N (fun t => x'.get (dropLead lead b ++ [t])) k / (N : ℂ) * (if 1 ≤ k then 2 else 1)) ((v + m) % t.ntiles.toNat) =
      t.energy (fun k => rfft N (fun t => x.get (dropLead lead b ++ [t])) k / (N : ℂ) * (if 1 ≤ k then 2 else 1)) v := by
    intro v
    have := energy_phase t (fun k => rfft N (fun t => x.get (dropLead lead b ++ [t])) k / (N : ℂ) * (if 1 ≤ k then 2 else 1))
      (fun k => rfft N (fun t => x'.get (dropLead lead b ++ [t])) k / (N : ℂ) * (if 1 ≤ k then 2 else 1)) N k d m (by rw [r1]; exact hq) hf
      (by rw [r2]; exact hdur) (by rw [r2]; exact hk) r6 hN (by rw [r1, r2, r3]; exact hin) (by omega) (by rw [hlen]; exact hm) ?_ v
    · rw [hlen] at this; exact this
    · intro c _
      rw [rfft_congr N _ (roll N d fun t => x.get (dropLead lead b ++ [t])) (hroll (dropLead lead b)), rfft_roll N d hd]
      ring
  rw [f3 b hb, e3 b hb, hE u, normalizer_rotate norm nrm hn _ m (by omega) _ _ hE]

/-- **C95 (amplitude).**  Data `a` times as large have energies `a ^ 2` times as large, and, for `a ≠ 0`, the same normalised energies. -/
theorem tiles_scale (s : Single) (x x' : Tensor ℝ) (lead : List ℕ) (N : ℕ) (a : ℝ) (norm : Option String) (nrm : (n : ℕ) → (ℕ → ℝ) → ℝ)
    (hx : x.shape = lead ++ [N]) (hx' : x'.shape = lead ++ [N]) (hl : lead.length ≤ 2) (hN : 0 < N) (hNs : pyInt (s.dur * s.sr) = N)
    (hn : normalizer norm = .ok nrm) (h2 : ∀ t ∈ s.transforms, 2 ≤ t.ntiles) (ha : a ≠ 0)
    (hscale : ∀ b : List ℕ, ∀ t < N, x'.get (b ++ [t]) = a * x.get (b ++ [t])) :
    ∃ ts ts' : List (Tensor ℝ), s.compute x norm = .ok { s with tiles := some ts } ∧ s.compute x' norm = .ok { s with tiles := some ts' } ∧
      ts.length = s.freqs.length ∧ ts'.length = s.freqs.length ∧
      ∀ i (hi : i < ts.length) (hi' : i < ts'.length), ts'[i].shape = ts[i].shape ∧ ∀ b : List ℕ, b.length = 2 → ∀ u,
        ts'[i].get (b ++ [u]) = (if norm = none ∨ norm = some "" then a ^ 2 else 1) * ts[i].get (b ++ [u]) := by
  obtain ⟨ts, c1, c2, c3⟩ := compute_ok s x lead N norm nrm hx hl hN hNs hn h2
  obtain ⟨ts', d1, d2, d3⟩ := compute_ok s x' lead N norm nrm hx' hl hN hNs hn h2
  refine ⟨ts, ts', c1, d1, c2, d2, ?_⟩
  intro i hi hi'
  have hi2 : i < s.transforms.length := by rw [c2] at hi; simpa [Single.transforms] using hi
  obtain ⟨-, e2, e3⟩ := c3 i hi hi2
  obtain ⟨-, f2, f3⟩ := d3 i hi' hi2
  refine ⟨f2.trans e2.symm, ?_⟩
  intro b hb u
  have ht2 := h2 _ (List.getElem_mem hi2)
  have hlen := (padding_total (s.transforms[i]) ht2).1
  set t := s.transforms[i] with ht
  rw [f3 b hb, e3 b hb]
  have hX : ∀ k, rfft N (fun t => x'.get (dropLead lead b ++ [t])) k = (a : ℂ) * rfft N (fun t => x.get (dropLead lead b ++ [t])) k := by
    intro k
    rw [rfft_congr N _ (fun t => a * x.get (dropLead lead b ++ [t])) (hscale (dropLead lead b))]
    unfold rfft dft
    rw [mul_sum]
    refine sum_congr rfl fun t _ => ?_
    push_cast; ring
  have hE : ∀ v, t.energy (fun k => rfft N (fun t => x'.get (dropLead lead b ++ [t])) k / (N : ℂ) * (if 1 ≤ k then 2 else 1)) v =
      a ^ 2 * t.energy (fun k => rfft N (fun t => x.get (dropLead lead b ++ [t])) k / (N : ℂ) * (if 1 ≤ k then 2 else 1)) v := by
    intro v
    rw [energy_norm t _ (by omega), energy_norm t _ (by omega)]
    have : ∀ p, t.padded (fun k => rfft N (fun t => x'.get (dropLead lead b ++ [t])) k / (N : ℂ) * (if 1 ≤ k then 2 else 1)) p =
        (a : ℂ) * t.padded (fun k => rfft N (fun t => x.get (dropLead lead b ++ [t])) k / (N : ℂ) * (if 1 ≤ k then 2 else 1)) p := by
      intro p
      unfold QTile.padded
      dsimp only
      rw [hX]
      split_ifs <;> ring
    unfold ifft
    simp only [this, mul_assoc]
    rw [← mul_sum, mul_div_assoc, norm_mul, mul_pow, Complex.norm_real, Real.norm_eq_abs, sq_abs]
  have hE' : (t.energy fun k => rfft N (fun t => x'.get (dropLead lead b ++ [t])) k / (N : ℂ) * (if 1 ≤ k then 2 else 1)) =
      fun v => a ^ 2 * t.energy (fun k => rfft N (fun t => x.get (dropLead lead b ++ [t])) k / (N : ℂ) * (if 1 ≤ k then 2 else 1)) v := funext hE
  rw [hE']
  generalize (t.energy fun k => rfft N (fun t => x.get (dropLead lead b ++ [t])) k / (N : ℂ) * (if 1 ≤ k then 2 else 1)) = e
  have ha2 : 0 < a ^ 2 := by positivity
  split_ifs with hnone
  · have : nrm = fun _ _ => 1 := by
      rcases hnone with rfl | rfl
      · exact (Except.ok.inj hn).symm
      · have h0 : normalizer (some "") = .ok fun _ _ => 1 := by simp [normalizer]
        rw [h0] at hn; exact (Except.ok.inj hn).symm
    subst this
    simp
  · have key : nrm t.ntiles.toNat (fun v => a ^ 2 * e v) = a ^ 2 * nrm t.ntiles.toNat e := by
      push Not at hnone
      obtain ⟨n1, n2⟩ := hnone
      unfold normalizer at hn
      cases norm with
      | none => exact absurd rfl n1
      | some str =>
        have n2 : str ≠ "" := fun h => n2 (by rw [h])
        have hn' := hn
        dsimp only at hn
        rw [if_neg n2] at hn
        rcases normalizer_scale (some str) nrm hn' t.ntiles.toNat e (a ^ 2) ha2 with h1 | h1
        · exfalso
          subst h1
          split_ifs at hn
          · have := congrFun (congrFun (Except.ok.inj hn) 0) (fun _ => 0)
            simp [Spectral.quantile50] at this
          · have := congrFun (congrFun (Except.ok.inj hn) 1) (fun _ => 0)
            simp at this
        · exact h1
    rw [key, one_mul, mul_div_mul_left _ _ ha2.ne']

/-- The transform of the examples: two seconds at 1024 Hz with the defaults. -/
noncomputable def exSingle : Single := ⟨2, 1024, 12, 0.2, (64, 64), resolve 2 1024 12 (0, none), .bicubic, none, none⟩

theorem exSingle_facts : 1 / exSingle.dur ≤ exSingle.range.1 ∧ exSingle.range.1 ≤ exSingle.range.2 ∧ (∀ t ∈ exSingle.transforms, 16 ≤ t.ntiles) ∧
    pyInt (exSingle.dur * exSingle.sr) = (2048 : ℕ) := by
  have h : pyInt ((2 : ℝ) * 1024) = (2048 : ℕ) := by
    rw [show ((2 : ℝ) * 1024) = ((2048 : ℤ) : ℝ) by norm_num, pyInt_intCast]; rfl
  obtain ⟨h1, h2, h3⟩ := default_ntiles exSingle (by norm_num [exSingle]) (by norm_num [exSingle]) (by norm_num [exSingle])
    (by
      simp only [exSingle, maxQ]
      have h11 : Real.sqrt 11 ≤ 4 := by rw [Real.sqrt_le_left (by norm_num)]; norm_num
      have := Real.pi_gt_three
      linarith) (by norm_num [exSingle]) (by norm_num [exSingle]) rfl
  exact ⟨h1, h2, h3, h⟩

theorem inside_400 (f : ℝ) (h0 : 0 ≤ f) (h400 : f ≤ 400) : Inside 12 f 2 2048 := by
  have h11 : Real.sqrt 11 / 12 ≤ 0.277 := by
    have : Real.sqrt 11 ≤ 3.32 := by rw [Real.sqrt_le_left (by norm_num)]; norm_num
    linarith
  have h11' : 0 ≤ Real.sqrt 11 / 12 := by positivity
  unfold Inside
  norm_num
  constructor <;> nlinarith

/-- Non-vacuity: data rolled by one of two seconds roll every row up to 400 Hz by half its tiles. -/
example (x x' : Tensor ℝ) (hx : x.shape = [2, 2048]) (hx' : x'.shape = [2, 2048])
    (h : ∀ b : List ℕ, ∀ t < 2048, x'.get (b ++ [t]) = roll 2048 1024 (fun t => x.get (b ++ [t])) t) :
    ∃ ts ts' : List (Tensor ℝ), exSingle.compute x (some "median") = .ok { exSingle with tiles := some ts } ∧
      exSingle.compute x' (some "median") = .ok { exSingle with tiles := some ts' } ∧ ts.length = exSingle.freqs.length ∧
      ∀ i (hi : i < ts.length) (hi' : i < ts'.length), ∃ n, ts[i].shape.getLast? = some n ∧
        (0 ≤ exSingle.freqs.getD i 0 → exSingle.freqs.getD i 0 ≤ 400 → ∀ m, n = 2 * m → ∀ b : List ℕ, b.length = 2 → ∀ u,
          ts'[i].get (b ++ [(u + m) % n]) = ts[i].get (b ++ [u])) := by
  obtain ⟨h1, h2, h3, h4⟩ := exSingle_facts
  have hn : ∃ nrm, normalizer (some "median") = .ok nrm := by
    refine ⟨fun (n : ℕ) (e : ℕ → ℝ) => Spectral.quantile50 ((List.range n).map e), ?_⟩
    unfold normalizer
    dsimp only
    rw [if_neg (by decide), if_pos (by simp [lower])]
  obtain ⟨nrm, hn⟩ := hn
  obtain ⟨ts, ts', a, b, c, d, e⟩ := tiles_shift exSingle x x' [2] 2048 1024 (some "median") nrm hx hx' (by simp) (by norm_num) h4 hn
    (fun t ht => le_trans (by norm_num) (h3 t ht)) (by norm_num [exSingle]) (by norm_num [exSingle]) h1 h2 h
  refine ⟨ts, ts', a, b, c, fun i hi hi' => ?_⟩
  obtain ⟨n, e1, _, e3⟩ := e i hi hi'
  exact ⟨n, e1, fun h0 h400 m hm => e3 (inside_400 _ h0 h400) m (by omega)⟩

end Verif.QTransform
