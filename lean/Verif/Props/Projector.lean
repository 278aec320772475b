import Verif.Props.Geometry
import Verif.Props.Snr
/-!
# Properties of `compute_observed_strain`, `WaveformProjector` and the SNR of a delayed response (C37, C38, C68)
-/
set_option linter.unusedSimpArgs false
set_option linter.unusedVariables false
namespace Verif.Geometry
open Finset Verif.Whiten Spec.Geometry Spec.Snr Verif.Fourier

/-- The delay in samples, from the specification: minus the projection of the vertex on the direction of the
source over the speed of light, times the sample rate, cut towards zero. -/
noncomputable def specDelay (dec φ sr : ℝ) (v : ℕ → ℝ) : ℤ :=
  pyInt (-(dot (direction (Real.pi / 2 - dec) φ) v) * (sr / 299792458))

theorem stack1_ok (ps : List (Tensor ℝ)) (B T : ℕ) (hne : ps ≠ []) (h : ∀ p ∈ ps, p.shape = [B, T]) :
    ∃ s, stack1 ps = .ok s ∧ s.shape = [B, ps.length, T] ∧
      ∀ b p t, (hp : p < ps.length) → s.get [b, p, t] = ps[p].get [b, t] := by
  cases ps with
  | nil => exact absurd rfl hne
  | cons p rest =>
    unfold stack1
    simp only [h p (by simp)]
    rw [if_pos]
    · refine ⟨_, rfl, rfl, ?_⟩
      intro b q t hq
      simp only [List.getD_cons_zero, List.getD_cons_succ]
      rw [List.getD_eq_getElem _ _ hq]
    · rw [List.all_eq_true]
      intro q hq
      simpa using h q (by simp [hq])

theorem project_ok (a s : Tensor ℝ) (B P I T : ℕ) (ha : a.shape = [B, P, I]) (hs : s.shape = [B, P, T]) :
    ∃ w, project a s = .ok w ∧ w.shape = [B, I, T] ∧ ∀ b i t, b < B →
      w.get [b, i, t] = ∑ p ∈ range P, a.get [b, p, i] * s.get [b, p, t] := by
  unfold project
  rw [ha, hs]
  simp only [ne_eq, not_true_eq_false, true_or, or_self, if_false]
  refine ⟨_, rfl, by simp, ?_⟩
  intro b i t hb
  simp only [List.getD_cons_zero, List.getD_cons_succ]
  refine Finset.sum_congr rfl fun p _ => ?_
  have : (if B = 1 then 0 else b) = b := by
    split_ifs with h
    · omega
    · rfl
  rw [this]

/-- **C37 (observed strain).**  For `B` sources with `(B, T)` polarizations, all known modes, and `I` detectors:
the strain at detector `i` and time `t` is the sum over the polarizations of the antenna response times the
polarization at time `(t - d) mod T`, with the delay `d` of that source at that detector. -/
theorem observed_strain_correct (dec psi phi D v : Tensor ℝ) (B I T : ℕ) (sr : ℝ) (pols : List (String × Tensor ℝ))
    (hdec : dec.shape = [B]) (hpsi : psi.shape = [B]) (hphi : phi.shape = [B])
    (hD : D.shape = [I, 3, 3]) (hv : v.shape = [I, 3]) (hne : pols ≠ [])
    (hk : ∀ p ∈ pols, Known p.1) (hsh : ∀ p ∈ pols, p.2.shape = [B, T]) :
    ∃ y, observedStrain dec psi phi D v sr pols = .ok y ∧ y.shape = [B, I, T] ∧
      ∀ b i t, b < B → i < I → t < T → ∃ s : ℕ, s < T ∧
        ((s : ℤ) + specDelay (dec.get [b]) (phi.get [b]) sr (fun j => v.get [i, j]) - t) % T = 0 ∧
        y.get [b, i, t] = (pols.map fun p =>
          response p.1 (Real.pi / 2 - dec.get [b]) (psi.get [b]) (phi.get [b]) (fun j k => D.get [i, j, k]) * p.2.get [b, s]).sum := by
  obtain ⟨F, f1, f2, f3⟩ := antenna_correct (dec.map (Real.pi / 2 - ·)) psi phi D B I (pols.map (·.1))
    (by simpa [Tensor.map] using hdec) hpsi hphi hD (by simpa using hne) (by
      intro m hm; obtain ⟨p, hp, rfl⟩ := List.mem_map.1 hm; exact hk p hp)
  obtain ⟨s, s1, s2, s3⟩ := stack1_ok (pols.map (·.2)) B T (by simpa using hne) (by
      intro m hm; obtain ⟨p, hp, rfl⟩ := List.mem_map.1 hm; exact hsh p hp)
  rw [List.length_map] at f2 s2
  obtain ⟨w, w1, w2, w3⟩ := project_ok F s B pols.length I T f2 s2
  obtain ⟨y, y1, y2, y3⟩ := shift_correct w (dec.map (Real.pi / 2 - ·)) phi v B I T sr w2
    (by simpa [Tensor.map] using hdec) hphi hv
  unfold observedStrain
  simp only [f1, s1, w1, y1, res_bind_ok]
  refine ⟨y, rfl, by rw [y2, w2], ?_⟩
  intro b i t hb hi ht
  obtain ⟨q, hq, e1, e2⟩ := y3 b i t ht
  refine ⟨q, hq, e2, ?_⟩
  rw [e1, w3 b i q hb]
  have : ∀ l : List ℝ, l.sum = ∑ p ∈ range l.length, l.getD p 0 := by
    intro l
    induction l with
    | nil => simp
    | cons a l ih => rw [List.sum_cons, List.length_cons, Finset.sum_range_succ', ih]; simp [add_comm]
  rw [this, List.length_map]
  refine Finset.sum_congr rfl fun p hp => ?_
  have hp' : p < pols.length := by simpa using hp
  rw [f3 b p i hb (by simpa using hp') hi, s3 b p q (by simpa using hp'),
    List.getD_eq_getElem _ _ (by simpa using hp')]
  simp [Tensor.map]

/-- Non-vacuity: an overhead source of constant polarizations seen by a detector with arms along the axes. -/
example : ∃ y, observedStrain ⟨[1], fun _ => Real.pi / 2⟩ ⟨[1], fun _ => 0⟩ ⟨[1], fun _ => 0⟩
    ⟨[1, 3, 3], fun i => if i = [0, 0, 0] then 1/2 else if i = [0, 1, 1] then -1/2 else 0⟩ ⟨[1, 3], fun _ => 0⟩ 4
    [("cross", ⟨[1, 4], fun _ => 5⟩), ("plus", ⟨[1, 4], fun _ => 2⟩)] = .ok y ∧ y.get [0, 0, 3] = -2 := by
  obtain ⟨y, h1, -, h3⟩ := observed_strain_correct (⟨[1], fun _ => Real.pi / 2⟩ : Tensor ℝ) ⟨[1], fun _ => 0⟩ ⟨[1], fun _ => 0⟩
    ⟨[1, 3, 3], fun i => if i = [0, 0, 0] then 1/2 else if i = [0, 1, 1] then -1/2 else 0⟩ ⟨[1, 3], fun _ => 0⟩ 1 1 4 4
    [("cross", ⟨[1, 4], fun _ => 5⟩), ("plus", ⟨[1, 4], fun _ => 2⟩)] rfl rfl rfl rfl rfl (by simp)
    (by intro m hm; simp at hm; rcases hm with rfl | rfl <;> simp [Known])
    (by intro m hm; simp at hm; rcases hm with rfl | rfl <;> rfl)
  refine ⟨y, h1, ?_⟩
  obtain ⟨s, -, -, h⟩ := h3 0 0 3 (by norm_num) (by norm_num) (by norm_num)
  rw [h]
  simp [response, tensor, axisM, axisN, eTheta, ePhi, Finset.sum_range_succ]
  norm_num

/-- **C38 (projector).**  A `WaveformProjector` of known interferometers computes, for each of them in the order
given, the observed strain with the detector tensor and the vertex of that interferometer. -/
theorem projector_correct (ifos : List String) (sr : ℝ) (dec psi phi : Tensor ℝ) (B T : ℕ) (pols : List (String × Tensor ℝ))
    (hifo : ifos ≠ []) (hkn : ∀ n ∈ ifos, n = "H1" ∨ n = "L1" ∨ n = "V1" ∨ n = "K1")
    (hdec : dec.shape = [B]) (hpsi : psi.shape = [B]) (hphi : phi.shape = [B]) (hne : pols ≠ [])
    (hk : ∀ p ∈ pols, Known p.1) (hsh : ∀ p ∈ pols, p.2.shape = [B, T]) :
    ∃ y, waveformProjector ifos sr dec psi phi pols = .ok y ∧ y.shape = [B, ifos.length, T] ∧
      ∀ b i t, b < B → (hi : i < ifos.length) → t < T → ∃ g, interferometer ifos[i] = .ok g ∧ ∃ s : ℕ, s < T ∧
        ((s : ℤ) + specDelay (dec.get [b]) (phi.get [b]) sr g.vertex - t) % T = 0 ∧
        y.get [b, i, t] = (pols.map fun p =>
          response p.1 (Real.pi / 2 - dec.get [b]) (psi.get [b]) (phi.get [b])
            (fun j k => (g.xArm j * g.xArm k - g.yArm j * g.yArm k) / 2) * p.2.get [b, s]).sum := by
  obtain ⟨D, v, d1, d2, d3, d4⟩ := ifo_geometry_correct ifos hifo hkn
  obtain ⟨y, y1, y2, y3⟩ := observed_strain_correct dec psi phi D v B ifos.length T sr pols hdec hpsi hphi d2 d3 hne hk hsh
  unfold waveformProjector
  simp only [d1, res_bind_ok]
  refine ⟨y, y1, y2, ?_⟩
  intro b i t hb hi ht
  obtain ⟨g, hg, hd⟩ := d4 i hi
  obtain ⟨s, hs, e1, e2⟩ := y3 b i t hb hi ht
  have hv : (fun j => v.get [i, j]) = g.vertex := funext fun j => (hd j 0).2.2
  have hDD : (fun j k => D.get [i, j, k]) = fun j k => (g.xArm j * g.xArm k - g.yArm j * g.yArm k) / 2 :=
    funext fun j => funext fun k => (hd j k).1
  rw [hv] at e1
  rw [hDD] at e2
  exact ⟨g, hg, s, hs, e1, e2⟩

example : ∃ y, waveformProjector ["V1", "H1", "L1"] 2048 ⟨[2], fun _ => 0.3⟩ ⟨[2], fun _ => 1⟩ ⟨[2], fun _ => 2⟩
    [("plus", ⟨[2, 64], fun i => (i.getD 1 0 : ℝ)⟩)] = .ok y ∧ y.shape = [2, 3, 64] := by
  obtain ⟨y, h1, h2, -⟩ := projector_correct ["V1", "H1", "L1"] 2048 (⟨[2], fun _ => 0.3⟩ : Tensor ℝ) ⟨[2], fun _ => 1⟩ ⟨[2], fun _ => 2⟩
    2 64 [("plus", ⟨[2, 64], fun i => (i.getD 1 0 : ℝ)⟩)] (by simp) (by intro n hn; simp at hn; rcases hn with rfl | rfl | rfl <;> simp)
    rfl rfl rfl (by simp) (by intro m hm; simp at hm; subst hm; simp [Known]) (by intro m hm; simp at hm; subst hm; rfl)
  exact ⟨y, h1, h2⟩

/-- **C38 (unknown interferometer).** -/
theorem projector_unknown_ifo (ifos : List String) (sr : ℝ) (dec psi phi : Tensor ℝ) (pols : List (String × Tensor ℝ))
    (n : String) (hn : n ∈ ifos) (h : ¬ (n = "H1" ∨ n = "L1" ∨ n = "V1" ∨ n = "K1")) :
    waveformProjector ifos sr dec psi phi pols = .error .value := by
  unfold waveformProjector
  rw [ifo_geometry_unknown ifos n hn h]; rfl

example : waveformProjector ["H1", "Z9"] 2048 ⟨[2], fun _ => 0.3⟩ ⟨[2], fun _ => 1⟩ ⟨[2], fun _ => 2⟩ [] = .error .value :=
  projector_unknown_ifo _ _ _ _ _ _ "Z9" (by simp) (by decide)

/-- **C37 (superposition).**  The observed strain is linear in the polarizations: scaling each polarization of
every source by `a` and adding another set scales and adds the strains. -/
theorem observed_strain_linear (dec psi phi D v : Tensor ℝ) (B I T : ℕ) (sr a : ℝ) (modes : List String)
    (P Q : String → Tensor ℝ)
    (hdec : dec.shape = [B]) (hpsi : psi.shape = [B]) (hphi : phi.shape = [B])
    (hD : D.shape = [I, 3, 3]) (hv : v.shape = [I, 3]) (hne : modes ≠ []) (hk : ∀ m ∈ modes, Known m)
    (hP : ∀ m ∈ modes, (P m).shape = [B, T]) (hQ : ∀ m ∈ modes, (Q m).shape = [B, T]) :
    ∃ yp yq yr : Tensor ℝ, observedStrain dec psi phi D v sr (modes.map fun m => (m, P m)) = .ok yp ∧
      observedStrain dec psi phi D v sr (modes.map fun m => (m, Q m)) = .ok yq ∧
      observedStrain dec psi phi D v sr (modes.map fun m => (m, ⟨[B, T], fun i => a * (P m).get i + (Q m).get i⟩)) = .ok yr ∧
      ∀ b i t, b < B → i < I → t < T → yr.get [b, i, t] = a * yp.get [b, i, t] + yq.get [b, i, t] := by
  have aux : ∀ R : String → Tensor ℝ, (∀ m ∈ modes, (R m).shape = [B, T]) →
      (modes.map fun m => (m, R m)) ≠ [] ∧ (∀ p ∈ (modes.map fun m => (m, R m)), Known p.1) ∧
      (∀ p ∈ (modes.map fun m => (m, R m)), p.2.shape = [B, T]) := by
    intro R hR
    refine ⟨by simpa using hne, ?_, ?_⟩
    · intro p hp; obtain ⟨m, hm, rfl⟩ := List.mem_map.1 hp; exact hk m hm
    · intro p hp; obtain ⟨m, hm, rfl⟩ := List.mem_map.1 hp; exact hR m hm
  obtain ⟨a1, a2, a3⟩ := aux P hP
  obtain ⟨b1, b2, b3⟩ := aux Q hQ
  obtain ⟨c1, c2, c3⟩ := aux (fun m => ⟨[B, T], fun i => a * (P m).get i + (Q m).get i⟩) (fun _ _ => rfl)
  obtain ⟨yp, p1, -, p3⟩ := observed_strain_correct dec psi phi D v B I T sr _ hdec hpsi hphi hD hv a1 a2 a3
  obtain ⟨yq, q1, -, q3⟩ := observed_strain_correct dec psi phi D v B I T sr _ hdec hpsi hphi hD hv b1 b2 b3
  obtain ⟨yr, r1, -, r3⟩ := observed_strain_correct dec psi phi D v B I T sr _ hdec hpsi hphi hD hv c1 c2 c3
  refine ⟨yp, yq, yr, p1, q1, r1, ?_⟩
  intro b i t hb hi ht
  obtain ⟨s, hs, e, h⟩ := p3 b i t hb hi ht
  obtain ⟨s', hs', e', h'⟩ := q3 b i t hb hi ht
  obtain ⟨s'', hs'', e'', h''⟩ := r3 b i t hb hi ht
  have uniq : ∀ (x y : ℕ) (d : ℤ), x < T → y < T → ((x : ℤ) + d - t) % T = 0 → ((y : ℤ) + d - t) % T = 0 → x = y := by
    intro x y d hx hy h1 h2
    have h4 : ((x : ℤ) - y) % T = 0 := by
      have : (x : ℤ) - y = ((x : ℤ) + d - t) - ((y : ℤ) + d - t) := by ring
      rw [this, Int.sub_emod, h1, h2]; simp
    have h5 : (x : ℤ) % T = (y : ℤ) % T := Int.emod_eq_emod_iff_emod_sub_eq_zero.2 h4
    rw [Int.emod_eq_of_lt (by omega) (by omega), Int.emod_eq_of_lt (by omega) (by omega)] at h5
    omega
  have e1 := uniq s' s _ hs' hs e' e
  have e2 := uniq s'' s _ hs'' hs e'' e
  subst e1 e2
  rw [h, h', h'']
  clear h h' h'' p1 q1 r1 p3 q3 r3 a1 a2 a3 b1 b2 b3 c1 c2 c3 hP hQ hk hne aux
  induction modes with
  | nil => simp
  | cons m l ih =>
    simp only [List.map_cons, List.sum_cons] at ih ⊢
    rw [ih]; ring

/-- Non-vacuity of the hypotheses with two modes. -/
example : ∃ yp yq yr : Tensor ℝ, ∀ b i t, b < 1 → i < 1 → t < 4 → yr.get [b, i, t] = 3 * yp.get [b, i, t] + yq.get [b, i, t] :=
  let ⟨yp, yq, yr, _, _, _, h⟩ := observed_strain_linear (⟨[1], fun _ => 1⟩ : Tensor ℝ) ⟨[1], fun _ => 0⟩ ⟨[1], fun _ => 0⟩
    ⟨[1, 3, 3], fun i => if i = [0, 0, 0] then 1/2 else if i = [0, 1, 1] then -1/2 else 0⟩ ⟨[1, 3], fun _ => 10⟩ 1 1 4 4 3
    ["cross", "plus"] (fun _ => ⟨[1, 4], fun i => (i.getD 1 0 : ℝ)⟩) (fun _ => ⟨[1, 4], fun _ => 1⟩) rfl rfl rfl rfl rfl (by simp)
    (by intro m hm; simp at hm; rcases hm with rfl | rfl <;> simp [Known]) (fun _ _ => rfl) (fun _ _ => rfl)
  ⟨yp, yq, yr, h⟩

/-- **C37 (finding).**  Projecting `B'` waveforms with the sky parameters of one source does not broadcast and is
not rejected: the strain of only one waveform is returned. -/
theorem observed_strain_drops_waveforms (dec psi phi D v : Tensor ℝ) (B' I T : ℕ) (hB : 1 ≤ B') (sr : ℝ) (pols : List (String × Tensor ℝ))
    (hdec : dec.shape = [1]) (hpsi : psi.shape = [1]) (hphi : phi.shape = [1])
    (hD : D.shape = [I, 3, 3]) (hv : v.shape = [I, 3]) (hne : pols ≠ [])
    (hk : ∀ p ∈ pols, Known p.1) (hsh : ∀ p ∈ pols, p.2.shape = [B', T]) :
    ∃ y, observedStrain dec psi phi D v sr pols = .ok y ∧ y.shape = [1, I, T] := by
  obtain ⟨F, f1, f2, f3⟩ := antenna_correct (dec.map (Real.pi / 2 - ·)) psi phi D 1 I (pols.map (·.1))
    (by simpa [Tensor.map] using hdec) hpsi hphi hD (by simpa using hne) (by
      intro m hm; obtain ⟨p, hp, rfl⟩ := List.mem_map.1 hm; exact hk p hp)
  obtain ⟨s, s1, s2, s3⟩ := stack1_ok (pols.map (·.2)) B' T (by simpa using hne) (by
      intro m hm; obtain ⟨p, hp, rfl⟩ := List.mem_map.1 hm; exact hsh p hp)
  rw [List.length_map] at f2 s2
  have hw : ∃ w, project F s = .ok w ∧ w.shape = [B', I, T] := by
    unfold project
    rw [f2, s2]
    simp
  obtain ⟨w, w1, w2⟩ := hw
  have hy : ∃ y, shiftResponses w (dec.map (Real.pi / 2 - ·)) phi v sr = .ok y ∧ y.shape = [1, I, T] := by
    unfold shiftResponses
    rw [w2, hv, show (dec.map (Real.pi / 2 - ·)).shape = [1] from hdec]
    simp only [hphi, ne_eq, not_true_eq_false, not_lt.2 hB, lt_self_iff_false, or_self, if_false]
    exact ⟨_, rfl, rfl⟩
  obtain ⟨y, y1, y2⟩ := hy
  unfold observedStrain
  simp only [f1, s1, w1, y1, res_bind_ok]
  exact ⟨y, rfl, y2⟩

example : ∃ y, observedStrain ⟨[1], fun _ => 0⟩ ⟨[1], fun _ => 0⟩ ⟨[1], fun _ => 0⟩ ⟨[2, 3, 3], fun _ => 1⟩ ⟨[2, 3], fun _ => 0⟩ 4
    [("plus", ⟨[7, 16], fun _ => 2⟩)] = .ok y ∧ y.shape = [1, 2, 16] :=
  observed_strain_drops_waveforms _ _ _ _ _ 7 2 16 (by norm_num) 4 _ rfl rfl rfl rfl rfl (by simp)
    (by intro m hm; simp at hm; subst hm; simp [Known]) (by intro m hm; simp at hm; subst hm; rfl)

/-- The spectrum of a circularly delayed series is the spectrum times a phase. -/
theorem rfft_roll (N : ℕ) (d : ℤ) (h : ℕ → ℝ) (k : ℕ) :
    rfft N (fun t => h (rollIdx N d t)) k = ω N (-((k : ℤ) * d)) * rfft N h k := by
  rcases Nat.eq_zero_or_pos N with rfl | hN
  · simp [rfft, dft]
  unfold rfft dft
  rw [Finset.mul_sum]
  refine Finset.sum_nbij' (rollIdx N d) (rollIdx N (-d)) ?_ ?_ ?_ ?_ ?_
  · intro t _; simpa using rollIdx_lt N d t hN
  · intro t _; simpa using rollIdx_lt N _ t hN
  · intro t ht; exact rollIdx_inv N d t (by simpa using ht)
  · intro t ht
    have := rollIdx_inv N (-d) t (by simpa using ht)
    rwa [neg_neg] at this
  · intro t ht
    have h0 := Int.emod_nonneg ((t : ℤ) - d) (b := N) (by omega)
    have e : ((rollIdx N d t : ℕ) : ℤ) = ((t : ℤ) - d) % N := by
      unfold rollIdx; exact Int.toNat_of_nonneg h0
    have e2 : -((k : ℤ) * t) = -((k : ℤ) * d) + -((k : ℤ) * (rollIdx N d t : ℕ)) + N * (-(k * (((t : ℤ) - d) / N))) := by
      rw [e]
      have := Int.emod_add_mul_ediv ((t : ℤ) - d) N
      have : (t : ℤ) = ((t : ℤ) - d) % N + N * (((t : ℤ) - d) / N) + d := by linarith
      conv_lhs => rw [this]
      ring
    rw [e2, ω_add, ω_add, ω_mul_self N hN]
    ring

/-- **C37 (delay keeps the SNR).**  The SNR of each response does not change when it is delayed by
`shift_responses`, whatever the PSD and the frequency cuts. -/
theorem shift_keeps_snr (x theta phi v psd y : Tensor ℝ) (B I N pb pc F : ℕ) (sr sr' : ℝ) (hp lp : Snr.Cut)
    (hx : x.shape = [B, I, N]) (hN : 0 < N) (ht : theta.shape = [B]) (hph : phi.shape = [B]) (hv : v.shape = [I, 3])
    (hs : psd.shape = [F] ∧ pb = 1 ∧ pc = 1 ∨ psd.shape = [pc, F] ∧ pb = 1 ∨ psd.shape = [pb, pc, F])
    (hpb : pb = 1 ∨ pb = B) (hpc : pc = 1 ∨ pc = I) (hhp : hp.Fits N) (hlp : lp.Fits N)
    (hpos : ∀ b c k, 0 ≤ psdAt F (N / 2 + 1) psd b c k) (hy : shiftResponses x theta phi v sr' = .ok y) :
    ∃ s s' : Tensor ℝ, Snr.ifoSnr x psd sr hp lp = .ok s ∧ Snr.ifoSnr y psd sr hp lp = .ok s' ∧
      ∀ b i, b < B → i < I → s'.get [b, i] = s.get [b, i] := by
  have hyg : y.shape = [B, I, N] ∧ ∀ b i, ∃ d : ℤ, ∀ t, y.get [b, i, t] = x.get [b, i, rollIdx N d t] := by
    unfold shiftResponses at hy
    rw [hx, ht, hv] at hy
    simp only [hph, ne_eq, not_true_eq_false, lt_self_iff_false, or_self, if_false] at hy
    obtain rfl := Except.ok.inj hy
    exact ⟨rfl, fun b i => ⟨delay (theta.get [b]) (phi.get [b]) sr' (fun j => v.get [i, j]), fun t => rfl⟩⟩
  obtain ⟨s, s1, -, s3⟩ := Snr.ifo_snr_correct x psd B I N pb pc F sr hp lp hx hN hs hpb hpc hhp hlp hpos
  obtain ⟨s', s1', -, s3'⟩ := Snr.ifo_snr_correct y psd B I N pb pc F sr hp lp hyg.1 hN hs hpb hpc hhp hlp hpos
  refine ⟨s, s', s1, s1', ?_⟩
  intro b i hb hi
  obtain ⟨d, hd⟩ := hyg.2 b i
  rw [s3 b i hb hi, s3' b i hb hi]
  congr 1
  unfold snrSq
  congr 1
  refine Finset.sum_congr rfl fun k _ => ?_
  have : (fun t => y.get [b, i, t]) = fun t => (fun u => x.get [b, i, u]) (rollIdx N d t) := funext hd
  rw [this, rfft_roll N d (fun u => x.get [b, i, u]), mul_div_assoc, norm_mul, ω_norm, one_mul]

example : ∃ y s s' : Tensor ℝ,
    shiftResponses ⟨[1, 1, 4], fun i => (i.getD 2 0 : ℝ)⟩ ⟨[1], fun _ => 0⟩ ⟨[1], fun _ => 0⟩
      ⟨[1, 3], fun i => if i.getD 1 0 = 2 then -299792458 else 0⟩ 1 = .ok y ∧
    Snr.ifoSnr ⟨[1, 1, 4], fun i => (i.getD 2 0 : ℝ)⟩ ⟨[3], fun _ => 1⟩ 1 .none (.freq 2) = .ok s ∧
    Snr.ifoSnr y ⟨[3], fun _ => 1⟩ 1 .none (.freq 2) = .ok s' ∧ s'.get [0, 0] = s.get [0, 0] := by
  obtain ⟨y, hy, -, -⟩ := shift_correct (⟨[1, 1, 4], fun i => (i.getD 2 0 : ℝ)⟩ : Tensor ℝ) ⟨[1], fun _ => 0⟩ ⟨[1], fun _ => 0⟩
    ⟨[1, 3], fun i => if i.getD 1 0 = 2 then -299792458 else 0⟩ 1 1 4 1 rfl rfl rfl rfl
  obtain ⟨s, s', h1, h2, h3⟩ := shift_keeps_snr _ _ _ _ ⟨[3], fun _ => 1⟩ y 1 1 4 1 1 3 1 1 .none (.freq 2) rfl (by norm_num) rfl rfl rfl
    (Or.inl ⟨rfl, rfl, rfl⟩) (Or.inl rfl) (Or.inl rfl) trivial trivial
    (by intro b c k; simp [psdAt, psdOf]) hy
  exact ⟨y, s, s', hy, h1, h2, h3 0 0 (by norm_num) (by norm_num)⟩

end Verif.Geometry
