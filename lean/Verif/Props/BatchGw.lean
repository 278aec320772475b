import Verif.Props.Batch
import Verif.Props.WhitenModules
import Verif.Props.Projector
import Verif.Props.Heterodyne
/-!
# Batch independence of whitening, SNRs, projection and heterodyning (C84)
-/
namespace Verif.Batch
open Spec.Batch Finset Whiten Spec.Whiten

/-- A PSD accepted for `C` channels and a batch of any size: shared by the batch. -/
def SharedPsd (C F : ℕ) (s : List ℕ) : Prop := s = [F] ∨ s = [1, F] ∨ s = [C, F] ∨ s = [1, 1, F] ∨ s = [1, C, F]

theorem shared_cases {C F : ℕ} {psd : Tensor ℝ} (h : SharedPsd C F psd.shape) : ∃ pc, (pc = 1 ∨ pc = C) ∧
    (psd.shape = [F] ∧ 1 = 1 ∧ pc = 1 ∨ psd.shape = [pc, F] ∧ 1 = 1 ∨ psd.shape = [1, pc, F]) := by
  rcases h with h | h | h | h | h
  · exact ⟨1, Or.inl rfl, Or.inl ⟨h, rfl, rfl⟩⟩
  · exact ⟨1, Or.inl rfl, Or.inr (Or.inl ⟨h, rfl⟩)⟩
  · exact ⟨C, Or.inr rfl, Or.inr (Or.inl ⟨h, rfl⟩)⟩
  · exact ⟨1, Or.inl rfl, Or.inr (Or.inr h)⟩
  · exact ⟨C, Or.inr rfl, Or.inr (Or.inr h)⟩

/-- A shared PSD does not look at the batch position. -/
theorem shared_psdAt {C F M : ℕ} {psd : Tensor ℝ} (h : SharedPsd C F psd.shape) (b c : ℕ) : psdAt F M psd b c = psdAt F M psd 0 c := by
  have e : psdOf psd b c = psdOf psd 0 c := by
    funext k
    unfold psdOf
    rcases h with h | h | h | h | h <;> rw [h] <;> simp
  unfold psdAt
  rw [e]

/-- The PSD of a selected batch element. -/
theorem pick_psdAt {B pc F M : ℕ} {psd : Tensor ℝ} (h : psd.shape = [B, pc, F]) {σ : List ℕ} (hσ : Positions B σ) (b c : ℕ) (hb : b < σ.length) :
    psdAt F M (psd.pick 0 σ) b c = psdAt F M psd (σ.getD b 0) c := by
  have e : psdOf (psd.pick 0 σ) b c = psdOf psd (σ.getD b 0) c := by
    funext k
    unfold psdOf
    rw [pick_shape psd σ B _ h, h]
    dsimp only
    rw [pick_cons]
    congr 1
    have hl := getD_lt hσ hb
    by_cases h1 : B = 1
    · have : ∀ j, σ.getD j 0 = 0 := by
        intro j
        by_cases hj : j < σ.length
        · have := getD_lt hσ hj; omega
        · rw [List.getD_eq_getElem?_getD, List.getElem?_eq_none (by omega)]; rfl
      rw [if_pos h1, this]
    · rw [if_neg h1]
      by_cases h2 : σ.length = 1
      · rw [if_pos h2, show b = 0 by omega]
      · rw [if_neg h2]
  unfold psdAt
  rw [e]

/-- The whitening settings the theorem is about: a filter half-length of at least one sample, and non-negative cutoffs. -/
structure Settings (fd : FDuration) (sr : ℝ) (hp lp : Option ℝ) (pad : ℕ) : Prop where
  hsr : 0 < sr
  hpad : fd.pad sr = pad
  one : 1 ≤ pad
  hhp : ∀ h, hp = some h → 0 ≤ h
  hlp : ∀ h, lp = some h → 0 ≤ h

/-- **C84 (whitening with a shared PSD).** -/
theorem whiten_shared (maxF : ℝ) (psd : Tensor ℝ) (fd : FDuration) (sr : ℝ) (hp lp : Option ℝ) (crop : Bool) (pad C F : ℕ)
    (hset : Settings fd sr hp lp pad) (hpsd : SharedPsd C F psd.shape) (hpos : ∀ i, InB i psd.shape → 0 < psd.get i) :
    BatchWise (fun s => ∃ N, 2 * pad < N ∧ s = [C, N]) 0 (fun x => whiten maxF x psd fd sr hp lp crop) := by
  refine elements_batchwise _ _ (fun s => [C, if crop then s.getD 1 0 - 2 * pad else s.getD 1 0])
    (fun s x i => Spec.Whiten.whitened (s.getD 1 0) sr (filterResponse (s.getD 1 0 / 2 + 1) pad (fd.taper sr).1 (fd.taper sr).2 sr hp lp
          (psdAt F (s.getD 1 0 / 2 + 1) psd 0 (i.getD 0 0))) (fun t => x [i.getD 0 0, t]) (if crop then i.getD 1 0 + pad else i.getD 1 0)) ?_
  rintro x B _ hx hB ⟨N, hN, rfl⟩
  obtain ⟨pc, hpc, hs⟩ := shared_cases hpsd
  obtain ⟨y, hy, hys, hyv⟩ := whiten_correct maxF x psd B C N 1 pc F pad fd sr hp lp crop hx hs (Or.inl rfl) hpc hset.hsr hset.hpad hset.one hN hpos
    hset.hhp hset.hlp
  refine ⟨y, hy, hys, ?_⟩
  intro b i hb hi
  obtain ⟨c, t, rfl, hc, ht⟩ := InB.eq2 hi
  rw [hyv b c t hb hc, shared_psdAt hpsd]
  rfl

/-- **C84 (whitening with a PSD per batch element).** -/
theorem whiten_batched (maxF : ℝ) (fd : FDuration) (sr : ℝ) (hp lp : Option ℝ) (crop : Bool) (pad C F N B : ℕ)
    (hset : Settings fd sr hp lp pad) (x psd : Tensor ℝ) (hx : x.shape = [B, C, N]) (hN : 2 * pad < N)
    (hpsd : psd.shape = [B, 1, F] ∨ psd.shape = [B, C, F]) (hpos : ∀ i, InB i psd.shape → 0 < psd.get i) (σ : List ℕ) (hσ : Positions B σ) :
    ∃ y y', whiten maxF x psd fd sr hp lp crop = .ok y ∧ whiten maxF (x.pick 0 σ) (psd.pick 0 σ) fd sr hp lp crop = .ok y' ∧
      y.shape = [B, C, if crop then N - 2 * pad else N] ∧ y'.Same (y.pick 0 σ) := by
  obtain ⟨pc, hpc, hs⟩ : ∃ pc, (pc = 1 ∨ pc = C) ∧ psd.shape = [B, pc, F] := by
    rcases hpsd with h | h
    · exact ⟨1, Or.inl rfl, h⟩
    · exact ⟨C, Or.inr rfl, h⟩
  obtain ⟨y, hy, hys, hyv⟩ := whiten_correct maxF x psd B C N B pc F pad fd sr hp lp crop hx (Or.inr (Or.inr hs)) (Or.inr rfl) hpc hset.hsr hset.hpad
    hset.one hN hpos hset.hhp hset.hlp
  have hs' := pick_shape psd σ B _ hs
  obtain ⟨y', hy', hys', hyv'⟩ := whiten_correct maxF (x.pick 0 σ) (psd.pick 0 σ) σ.length C N σ.length pc F pad fd sr hp lp crop
    (pick_shape x σ B _ hx) (Or.inr (Or.inr hs')) (Or.inr rfl) hpc hset.hsr hset.hpad
    hset.one hN (by
      intro i hi
      rw [hs'] at hi
      obtain ⟨a, c, k, rfl, ha, hc, hk⟩ := InB.eq3 hi
      rw [pick_cons]
      apply hpos
      rw [hs]
      exact ⟨getD_lt hσ ha, hc, hk, trivial⟩) hset.hhp hset.hlp
  refine ⟨y, y', hy, hy', hys, by rw [hys', pick_shape y σ B _ hys], ?_⟩
  intro i hi
  rw [hys'] at hi
  obtain ⟨b, c, t, rfl, hb, hc, ht⟩ := InB.eq3 hi
  rw [pick_cons, hyv' b c t hb hc, hyv _ c t (getD_lt hσ hb) hc, pick_psdAt hs hσ b c hb]
  rfl

/-- **C84 (fixed whitening)**: a fitted `FixedWhiten`. -/
theorem fixed_whiten (maxF : ℝ) (rnd : ℝ → ℝ) (fw : FixedWhiten) (bgs : List (Tensor ℝ)) (N pad : ℕ) (fd : ℝ)
    (ff ov hp lp : Option ℝ) (crop : Bool) (psd : ℕ → Tensor ℝ) (n : ℕ → ℕ)
    (hfw : fw.psd.shape = [fw.numChannels, N / 2 + 1]) (hN : FixedWhiten.size fw.kernelLength fw.sr = N) (hsr : 0 < fw.sr)
    (hlen : bgs.length = fw.numChannels) (hC : 0 < fw.numChannels)
    (hpsd : ∀ c (h : c < bgs.length), toPsd bgs[c] fw.sr ff ov = .ok (psd c) ∧ (psd c).shape = [n c] ∧ 0 < n c)
    (hpd : pyInt (fd * fw.sr / 2) = pad) (hrnd : pyInt (rnd fd * fw.sr / 2) = pad) (hpad : 1 ≤ pad) (hpN : 2 * pad < N)
    (hhp : ∀ h, hp = some h → 0 ≤ h) (hlp : ∀ h, lp = some h → 0 ≤ h) :
    ∃ fw', FixedWhiten.fit rnd fw fd bgs ff hp lp ov = .ok fw' ∧
      BatchWise (fun s => s = [fw.numChannels, N]) 0 (fun x => FixedWhiten.call maxF fw' x crop) := by
  obtain ⟨fw', _, hfit, -⟩ := fixed_whiten_correct maxF rnd fw bgs 1 N pad fd ff ov hp lp crop ⟨[1, fw.numChannels, N], fun _ => 0⟩ psd n hfw hN hsr hlen hC
    hpsd hpd hrnd hpad hpN hhp hlp rfl
  refine ⟨fw', hfit, ?_⟩
  refine elements_batchwise _ _ (fun _ => [fw.numChannels, if crop then N - 2 * pad else N])
    (fun _ x i => Spec.Whiten.whitened N fw.sr (filterResponse (N / 2 + 1) pad (2 * pad) (hann (2 * pad)) fw.sr hp lp
          (resampled (n (i.getD 0 0)) (N / 2 + 1) fun k => (psd (i.getD 0 0)).get [k])) (fun t => x [i.getD 0 0, t])
          (if crop then i.getD 1 0 + pad else i.getD 1 0)) ?_
  rintro x B _ hx hB rfl
  obtain ⟨fw2, y, h1, h2, h3, h4⟩ := fixed_whiten_correct maxF rnd fw bgs B N pad fd ff ov hp lp crop x psd n hfw hN hsr hlen hC
    hpsd hpd hrnd hpad hpN hhp hlp hx
  rw [hfit] at h1
  cases h1
  refine ⟨y, h2, h3, ?_⟩
  intro b i hb hi
  obtain ⟨c, t, rfl, hc, ht⟩ := InB.eq2 hi
  exact h4 b c t hb hc

open Snr Spec.Snr in
/-- **C84 (SNRs with a shared PSD)**: the SNR of every detector. -/
theorem ifo_snr_shared (psd : Tensor ℝ) (C F N : ℕ) (sr : ℝ) (hp lp : Cut) (hN : 0 < N) (hpsd : SharedPsd C F psd.shape)
    (hhp : hp.Fits N) (hlp : lp.Fits N) (hpos : ∀ c k, 0 ≤ psdAt F (N / 2 + 1) psd 0 c k) :
    BatchWise (fun s => s = [C, N]) 0 (fun x => ifoSnr x psd sr hp lp) := by
  refine elements_batchwise _ _ (fun _ => [C]) (fun _ x i => Real.sqrt (snrSq N sr (psdAt F (N / 2 + 1) psd 0 (i.getD 0 0))
        (fun k => hpWeight N sr hp k * lpWeight N sr lp k) (fun t => x [i.getD 0 0, t]))) ?_
  rintro x B _ hx hB rfl
  obtain ⟨pc, hpc, hs⟩ := shared_cases hpsd
  obtain ⟨y, hy, hys, hyv⟩ := ifo_snr_correct x psd B C N 1 pc F sr hp lp hx hN hs (Or.inl rfl) hpc hhp hlp
    (fun b c k => by rw [shared_psdAt hpsd]; exact hpos c k)
  refine ⟨y, hy, hys, ?_⟩
  intro b i hb hi
  obtain ⟨c, rfl, hc⟩ := InB.eq1 hi
  rw [hyv b c hb hc, shared_psdAt hpsd]
  rfl

open Snr Spec.Snr in
/-- The network SNRs for a shared PSD, element by element. -/
theorem network_values (psd : Tensor ℝ) (C F N : ℕ) (sr : ℝ) (hp lp : Cut) (hN : 0 < N) (hsr : 0 < sr) (hpsd : SharedPsd C F psd.shape)
    (hhp : hp.Fits N) (hlp : lp.Fits N) (hhn : hp.Nonneg N) (hln : lp.Nonneg N) (hpos : ∀ c k, 0 ≤ psdAt F (N / 2 + 1) psd 0 c k)
    (x : Tensor ℝ) (B : ℕ) (hx : x.shape = [B, C, N]) : ∃ y, networkSnr x psd sr hp lp = .ok y ∧ y.shape = [B] ∧ ∀ b < B, y.get [b] =
      Real.sqrt (∑ c ∈ range C, snrSq N sr (psdAt F (N / 2 + 1) psd 0 c) (fun k => hpWeight N sr hp k * lpWeight N sr lp k) (fun t => x.get [b, c, t])) := by
  obtain ⟨pc, hpc, hs⟩ := shared_cases hpsd
  obtain ⟨y, hy, hys, hyv⟩ := network_snr_value x psd B C N 1 pc F sr hsr hp lp hx hN hs (Or.inl rfl) hpc hhp hlp hhn hln
    (fun b c k => by rw [shared_psdAt hpsd]; exact hpos c k)
  refine ⟨y, hy, hys, fun b hb => ?_⟩
  rw [hyv b hb]
  unfold netSq
  congr 1
  exact Finset.sum_congr rfl fun c _ => by rw [shared_psdAt hpsd]

open Snr Spec.Snr in
/-- **C84 (network SNR, reweighting).** -/
theorem network_snr_shared (psd : Tensor ℝ) (C F N : ℕ) (sr : ℝ) (hp lp : Cut) (hN : 0 < N) (hsr : 0 < sr) (hpsd : SharedPsd C F psd.shape)
    (hhp : hp.Fits N) (hlp : lp.Fits N) (hhn : hp.Nonneg N) (hln : lp.Nonneg N) (hpos : ∀ c k, 0 ≤ psdAt F (N / 2 + 1) psd 0 c k) (v : ℝ) :
    BatchWise (fun s => s = [C, N]) 0 (fun x => networkSnr x psd sr hp lp) ∧
    BatchWise (fun s => s = [C, N]) 0 (fun x => reweightSnrs x (.scalar v) psd sr hp lp) ∧
    BatchWise2 (fun s s' => s = [C, N] ∧ s' = []) 0 (fun x t => reweightSnrs x (.tensor t) psd sr hp lp) := by
  refine ⟨?_, ?_, ?_⟩
  · refine elements_batchwise _ _ (fun _ => []) (fun _ x _ => Real.sqrt (∑ c ∈ range C, snrSq N sr (psdAt F (N / 2 + 1) psd 0 c)
        (fun k => hpWeight N sr hp k * lpWeight N sr lp k) (fun t => x [c, t]))) ?_
    rintro x B _ hx hB rfl
    obtain ⟨y, hy, hys, hyv⟩ := network_values psd C F N sr hp lp hN hsr hpsd hhp hlp hhn hln hpos x B hx
    refine ⟨y, hy, hys, fun b i hb hi => ?_⟩
    rw [InB.eq0 hi]
    exact hyv b hb
  · refine elements_batchwise _ _ id (fun _ x i => v / Real.sqrt (∑ c ∈ range C, snrSq N sr (psdAt F (N / 2 + 1) psd 0 c)
        (fun k => hpWeight N sr hp k * lpWeight N sr lp k) (fun t => x [c, t])) * x i) ?_
    rintro x B _ hx hB rfl
    obtain ⟨y, hy, hys, hyv⟩ := network_values psd C F N sr hp lp hN hsr hpsd hhp hlp hhn hln hpos x B hx
    obtain ⟨z, hz, hzs, hzv⟩ := rescale_ok x ⟨[], fun _ => v⟩ y B C N hx hys (Or.inr rfl)
    refine ⟨z, by simp only [reweightSnrs, hy, res_bind_ok]; exact hz, hzs, fun b i hb hi => ?_⟩
    obtain ⟨c, t, rfl, hc, ht⟩ := InB.eq2 hi
    rw [hzv b c t hb hc ht, hyv b hb]
  · refine elements_batchwise2 _ _ (fun s _ => s) (fun _ _ x w i => w [] / Real.sqrt (∑ c ∈ range C, snrSq N sr (psdAt F (N / 2 + 1) psd 0 c)
        (fun k => hpWeight N sr hp k * lpWeight N sr lp k) (fun t => x [c, t])) * x i) ?_
    rintro x w B _ _ hx hw hB ⟨rfl, rfl⟩
    obtain ⟨y, hy, hys, hyv⟩ := network_values psd C F N sr hp lp hN hsr hpsd hhp hlp hhn hln hpos x B hx
    obtain ⟨z, hz, hzs, hzv⟩ := rescale_ok x w y B C N hx hys (Or.inl hw)
    refine ⟨z, by simp only [reweightSnrs, hy, res_bind_ok]; exact hz, hzs, fun b i hb hi => ?_⟩
    obtain ⟨c, t, rfl, hc, ht⟩ := InB.eq2 hi
    rw [hzv b c t hb hc ht, hyv b hb, hw]
    rfl

open Snr Spec.Snr in
/-- Without target SNRs the rescaler deliberately mixes the batch: the SNRs of the batch are permuted. -/
theorem rescaler_mixes (r : Rescaler) (perm : ℕ → ℕ) (x s z t : Tensor ℝ) (B C N : ℕ) (hb : r.built = true)
    (hs : networkSnr x r.background r.sr r.highpassMask r.lowpassMask = .ok s) (hss : s.shape = [B]) (hx : x.shape = [B, C, N])
    (h : r.call perm x none = .ok (z, t)) (b c k : ℕ) (hbB : b < B) (hc : c < C) (hk : k < N) :
    z.get [b, c, k] = s.get [perm b] / s.get [b] * x.get [b, c, k] := by
  unfold Rescaler.call at h
  rw [if_neg (by simp [hb]), hs] at h
  simp only [res_bind_ok] at h
  obtain ⟨z', hz', hzs', hzv'⟩ := rescale_ok x (Rescaler.targets perm none s) s B C N hx hss (Or.inl hss)
  rw [hz'] at h
  simp only [res_bind_ok, Except.ok.injEq, Prod.mk.injEq] at h
  rw [← h.1, hzv' b c k hbB hc hk]
  simp [Rescaler.targets, hss]

end Verif.Batch

namespace Verif.Batch
open Spec.Batch Finset Whiten Spec.Geometry

/-- **C84 (projection onto detectors).**  The sky locations, polarisation angles and polarisations are batched together. -/
theorem projector (ifos : List String) (sr : ℝ) (dec psi phi : Tensor ℝ) (B T : ℕ) (pols : List (String × Tensor ℝ))
    (hifo : ifos ≠ []) (hkn : ∀ n ∈ ifos, n = "H1" ∨ n = "L1" ∨ n = "V1" ∨ n = "K1")
    (hdec : dec.shape = [B]) (hpsi : psi.shape = [B]) (hphi : phi.shape = [B]) (hne : pols ≠ [])
    (hk : ∀ p ∈ pols, Known p.1) (hsh : ∀ p ∈ pols, p.2.shape = [B, T]) (σ : List ℕ) (hσ : Positions B σ) :
    ∃ y y', Geometry.waveformProjector ifos sr dec psi phi pols = .ok y ∧
      Geometry.waveformProjector ifos sr (dec.pick 0 σ) (psi.pick 0 σ) (phi.pick 0 σ) (pols.map fun p => (p.1, p.2.pick 0 σ)) = .ok y' ∧
      y.shape = [B, ifos.length, T] ∧ y'.Same (y.pick 0 σ) := by
  obtain ⟨y, h1, h2, h3⟩ := Geometry.projector_correct ifos sr dec psi phi B T pols hifo hkn hdec hpsi hphi hne hk hsh
  obtain ⟨y', h1', h2', h3'⟩ := Geometry.projector_correct ifos sr (dec.pick 0 σ) (psi.pick 0 σ) (phi.pick 0 σ) σ.length T
    (pols.map fun p => (p.1, p.2.pick 0 σ)) hifo hkn (pick_shape dec σ B _ hdec) (pick_shape psi σ B _ hpsi) (pick_shape phi σ B _ hphi) (by simpa using hne)
    (by
      intro p hp
      obtain ⟨q, hq, rfl⟩ := List.mem_map.1 hp
      exact hk q hq)
    (by
      intro p hp
      obtain ⟨q, hq, rfl⟩ := List.mem_map.1 hp
      exact pick_shape q.2 σ B _ (hsh q hq))
  refine ⟨y, y', h1, h1', h2, by rw [h2', pick_shape y σ B _ h2], ?_⟩
  intro i hi
  rw [h2'] at hi
  obtain ⟨b, c, t, rfl, hb, hc, ht⟩ := InB.eq3 hi
  obtain ⟨g', hg', s', hs', hm', he'⟩ := h3' b c t hb hc ht
  obtain ⟨g, hg, s, hs, hm, he⟩ := h3 (σ.getD b 0) c t (getD_lt hσ hb) hc ht
  rw [hg] at hg'
  cases hg'
  have hss : s' = s := by
    rw [pick_cons, pick_cons] at hm'
    have hd : ((T : ℕ) : ℤ) ∣ (s' : ℤ) - s := by
      have a := Int.dvd_of_emod_eq_zero hm'
      have b := Int.dvd_of_emod_eq_zero hm
      have := Int.dvd_sub a b
      ring_nf at this ⊢
      convert this using 1
    have := Int.eq_zero_of_abs_lt_dvd hd (by rw [abs_lt]; omega)
    omega
  subst hss
  rw [he', pick_cons (x := y), he, List.map_map]
  rfl

/-! ## The hypotheses can be met -/

/-- The settings of the example: a filter of a quarter of a second at 16 Hz. -/
theorem demo_settings : Settings (.secs (1 / 4)) 16 (some 1) none 2 :=
  ⟨by norm_num, by norm_num [FDuration.pad, pyInt], by norm_num, by simp, by simp⟩

example : BatchWise (fun s => ∃ N, 2 * 2 < N ∧ s = [3, N]) 0 (fun x => whiten 0 x ⟨[3, 9], fun i => 1 + (i.headD 0 : ℝ)⟩ (.secs (1 / 4)) 16 (some 1) none true) :=
  whiten_shared 0 ⟨[3, 9], fun i => 1 + (i.headD 0 : ℝ)⟩ (.secs (1 / 4)) 16 (some 1) none true 2 3 9 demo_settings (.inr (.inr (.inl rfl)))
    (by intro i _; positivity)
example : ∃ y y', whiten 0 ⟨[4, 3, 16], fun i => (ravel [4, 3, 16] i : ℝ)⟩ ⟨[4, 1, 9], fun i => 1 + (i.headD 0 : ℝ)⟩ (.secs (1 / 4)) 16 (some 1) none true = .ok y ∧
    whiten 0 (Tensor.pick 0 [2, 0, 2] ⟨[4, 3, 16], fun i => (ravel [4, 3, 16] i : ℝ)⟩) (Tensor.pick 0 [2, 0, 2] ⟨[4, 1, 9], fun i => 1 + (i.headD 0 : ℝ)⟩)
      (.secs (1 / 4)) 16 (some 1) none true = .ok y' ∧
    y.shape = [4, 3, if true then 16 - 2 * 2 else 16] ∧ y'.Same (y.pick 0 [2, 0, 2]) :=
  whiten_batched 0 (.secs (1 / 4)) 16 (some 1) none true 2 3 9 16 4 demo_settings _ _ rfl (by norm_num) (.inl rfl) (by intro i _; positivity) _ demo_positions
example : ∃ fw', FixedWhiten.fit id (FixedWhiten.init 2 1 16) (1/4) [⟨[9], fun _ => 1⟩, ⟨[9], fun i => 1 + (i.headD 0 : ℝ)⟩]
      none (some 2) none none = .ok fw' ∧ BatchWise (fun s => s = [2, 16]) 0 (fun x => FixedWhiten.call 0 fw' x true) := by
  have hsz : FixedWhiten.size 1 16 = (16 : ℕ) := by norm_num [FixedWhiten.size, pyInt]
  refine fixed_whiten 0 id (FixedWhiten.init 2 1 16)
    [⟨[9], fun _ => 1⟩, ⟨[9], fun i => 1 + (i.headD 0 : ℝ)⟩] 16 2 (1/4) none none (some 2) none true
    (fun c => if c = 0 then ⟨[9], fun _ => 1⟩ else ⟨[9], fun i => 1 + (i.headD 0 : ℝ)⟩) (fun _ => 9) ?_ hsz (by norm_num [FixedWhiten.init]) rfl
    (by norm_num [FixedWhiten.init]) ?_ ?_ ?_ (by norm_num) (by norm_num) (by simp) (by simp)
  · simp [FixedWhiten.init, hsz]
  · intro c h
    have hc : c = 0 ∨ c = 1 := by simp at h; omega
    rcases hc with rfl | rfl <;> simp [toPsd]
  · norm_num [pyInt, FixedWhiten.init]
  · norm_num [pyInt, FixedWhiten.init]
example : BatchWise (fun s => s = [2, 4]) 0 (fun x => Snr.ifoSnr x ⟨[3], fun _ => 1⟩ 1 .none .none) :=
  ifo_snr_shared ⟨[3], fun _ => 1⟩ 2 3 4 1 .none .none (by norm_num) (.inl rfl) trivial trivial (by intro c k; simp [psdAt, psdOf])
example : BatchWise (fun s => s = [2, 4]) 0 (fun x => Snr.reweightSnrs x (.scalar 7) ⟨[3], fun _ => 1⟩ 1 .none .none) :=
  (network_snr_shared ⟨[3], fun _ => 1⟩ 2 3 4 1 .none .none (by norm_num) (by norm_num) (.inl rfl) trivial trivial trivial trivial
    (by intro c k; simp [psdAt, psdOf]) 7).2.1
example : ∃ y y', Geometry.waveformProjector ["V1", "H1"] 2048 ⟨[4], fun i => (i.headD 0 : ℝ)⟩ ⟨[4], fun _ => 1⟩ ⟨[4], fun _ => 2⟩
      [("plus", ⟨[4, 64], fun i => (i.getD 1 0 : ℝ)⟩)] = .ok y ∧
    Geometry.waveformProjector ["V1", "H1"] 2048 (Tensor.pick 0 [2, 0, 2] ⟨[4], fun i => (i.headD 0 : ℝ)⟩) (Tensor.pick 0 [2, 0, 2] ⟨[4], fun _ => 1⟩)
      (Tensor.pick 0 [2, 0, 2] ⟨[4], fun _ => 2⟩) (([("plus", ⟨[4, 64], fun i => (i.getD 1 0 : ℝ)⟩)] : List (String × Tensor ℝ)).map fun p => (p.1, p.2.pick 0 [2, 0, 2])) = .ok y' ∧
    y.shape = [4, ["V1", "H1"].length, 64] ∧ y'.Same (y.pick 0 [2, 0, 2]) :=
  projector ["V1", "H1"] 2048 _ _ _ 4 64 _ (by simp) (by intro n hn; simp at hn; rcases hn with rfl | rfl <;> simp) rfl rfl rfl (by simp)
    (by intro m hm; simp at hm; subst hm; simp [Known]) (by intro m hm; simp at hm; subst hm; rfl) _ demo_positions

end Verif.Batch
