import Verif.Props.QInterp
import Mathlib.Analysis.Complex.ExponentialBounds
/-!
# The multi-Q transform end to end (ml4gw/transforms/qtransform.py, QScan)
-/
set_option linter.unusedSimpArgs false
set_option linter.unusedVariables false
namespace Verif.QTransform
open Finset Fourier Whiten Resample QSpec

/-! ## The planes -/

theorem nplanes_pos (m : ℝ) (qr : ℝ × ℝ) : 0 < nplanes m qr := by
  unfold nplanes
  have : (1 : ℤ) ≤ max ⌈cumum qr / deltam m⌉ 1 := le_max_right _ _
  omega

/-- **The planes.**  The values of `Q` lie strictly inside the range, ascend strictly, and neighbours are no further apart than the mismatch allows; the first and last are within half of that of the ends. -/
theorem getQs_spec (m : ℝ) (qr : ℝ × ℝ) (hm : 0 < m) (h1 : 0 < qr.1) (h2 : qr.1 < qr.2) :
    (getQs m qr).Pairwise (· < ·) ∧ (getQs m qr).length = nplanes m qr ∧ 0 < nplanes m qr ∧
      (∀ q ∈ getQs m qr, qr.1 < q ∧ q < qr.2) ∧
      (∀ i, i + 1 < nplanes m qr → qDist ((getQs m qr).getD i 0) ((getQs m qr).getD (i + 1) 0) ≤ deltam m) ∧
      qDist qr.1 ((getQs m qr).getD 0 0) ≤ deltam m / 2 ∧ qDist ((getQs m qr).getD (nplanes m qr - 1) 0) qr.2 ≤ deltam m / 2 := by
  have hn0 := nplanes_pos m qr
  have hn : (0 : ℝ) < nplanes m qr := by exact_mod_cast hn0
  have hqr2 : 0 < qr.2 := h1.trans h2
  have hlog : 0 < Real.log (qr.2 / qr.1) := Real.log_pos ((one_lt_div h1).2 h2)
  have hs2 : 0 < Real.sqrt 2 := by positivity
  set d := Real.log (qr.2 / qr.1) / nplanes m qr with hd
  have hd0 : 0 < d := by positivity
  have hval : ∀ i : ℕ, qr.1 * Real.exp (Real.sqrt 2 * (cumum qr / nplanes m qr) * ((i : ℝ) + 1 / 2)) = qr.1 * Real.exp (d * ((i : ℝ) + 1 / 2)) := by
    intro i
    congr 3
    unfold cumum; rw [hd]; field_simp
  have hget : ∀ i < nplanes m qr, (getQs m qr).getD i 0 = qr.1 * Real.exp (d * ((i : ℝ) + 1 / 2)) := by
    intro i hi
    unfold getQs
    rw [List.getD_eq_getElem _ _ (by simpa using hi), List.getElem_map, List.getElem_range, hval]
  have hstep : d / Real.sqrt 2 ≤ deltam m := by
    have hdm := deltam_pos hm
    have h3 := Int.le_ceil (cumum qr / deltam m)
    have h4 : (⌈cumum qr / deltam m⌉ : ℝ) ≤ nplanes m qr := by
      have : ⌈cumum qr / deltam m⌉ ≤ (nplanes m qr : ℤ) := by
        unfold nplanes
        have : (1 : ℤ) ≤ max ⌈cumum qr / deltam m⌉ 1 := le_max_right _ _
        rw [Int.toNat_of_nonneg (by omega)]
        exact le_max_left _ _
      exact_mod_cast this
    have h5 := h3.trans h4
    rw [div_le_iff₀ hdm] at h5
    unfold cumum at h5
    rw [hd, div_div, mul_comm, ← div_div, div_le_iff₀ hn]
    linarith
  have hL : d * nplanes m qr = Real.log (qr.2 / qr.1) := by rw [hd]; field_simp
  refine ⟨?_, by simp [getQs], hn0, ?_, ?_, ?_, ?_⟩
  · unfold getQs
    rw [List.pairwise_map]
    refine List.pairwise_lt_range.imp ?_
    intro a b hab
    rw [hval, hval]
    have : (a : ℝ) < b := by exact_mod_cast hab
    have : d * ((a : ℝ) + 1 / 2) < d * ((b : ℝ) + 1 / 2) := by gcongr
    have := Real.exp_lt_exp.2 this
    gcongr
  · intro q hq
    unfold getQs at hq
    obtain ⟨i, hi, rfl⟩ := List.mem_map.1 hq
    have hi := List.mem_range.1 hi
    rw [hval]
    constructor
    · have : 0 < d * ((i : ℝ) + 1 / 2) := by positivity
      have := Real.one_lt_exp_iff.2 this
      nlinarith
    · have hi' : (i : ℝ) + 1 ≤ nplanes m qr := by exact_mod_cast hi
      have h3 : d * ((i : ℝ) + 1 / 2) < d * nplanes m qr := by gcongr; linarith
      rw [hL] at h3
      have := Real.exp_lt_exp.2 h3
      rw [Real.exp_log (by positivity)] at this
      calc _ < qr.1 * (qr.2 / qr.1) := by gcongr
        _ = qr.2 := by field_simp
  · intro i hi
    rw [hget i (by omega), hget (i + 1) hi]
    unfold qDist
    rw [mul_div_mul_left _ _ h1.ne', ← Real.exp_sub, Real.log_exp]
    have : d * (((i + 1 : ℕ) : ℝ) + 1 / 2) - d * ((i : ℝ) + 1 / 2) = d := by push_cast; ring
    rw [this, abs_of_pos hd0]
    exact hstep
  · rw [hget 0 hn0]
    unfold qDist
    rw [mul_div_assoc, mul_comm qr.1, div_mul_cancel₀ _ h1.ne', Real.log_exp]
    have : d * (((0 : ℕ) : ℝ) + 1 / 2) = d / 2 := by push_cast; ring
    rw [this, abs_of_pos (by positivity), div_right_comm]
    linarith
  · rw [hget _ (by omega)]
    unfold qDist
    have hc : ((nplanes m qr - 1 : ℕ) : ℝ) = nplanes m qr - 1 := by rw [Nat.cast_sub hn0]; simp
    rw [← div_div, Real.log_div (by positivity) (Real.exp_pos _).ne', Real.log_exp, hc, ← hL]
    have : d * nplanes m qr - d * ((nplanes m qr : ℝ) - 1 + 1 / 2) = d / 2 := by ring
    rw [this, abs_of_pos (by positivity), div_right_comm]
    linarith

/-- Non-vacuity: the default range. -/
example : (0 : ℝ) < 0.2 ∧ (0 : ℝ) < ((4, 64) : ℝ × ℝ).1 ∧ ((4, 64) : ℝ × ℝ).1 < ((4, 64) : ℝ × ℝ).2 := by norm_num

/-! ## When the defaults fit the spline -/

/-- Frequencies are lost to the rounding only if neighbours are closer than the frequency resolution. -/
theorem freqs_length (dur q m : ℝ) (r : ℝ × ℝ) (hd : 0 < dur) (hr1 : 0 < r.1) (hr : r.1 ≤ r.2)
    (hs : nfreq q m r ≤ dur * r.1 * Real.log (r.2 / r.1)) : (freqs dur q m r).length = nfreq q m r := by
  have hn : (0 : ℝ) < nfreq q m r := by exact_mod_cast nfreq_pos q m r
  have hr2 : 0 < r.2 := hr1.trans_le hr
  have hL : 0 ≤ Real.log (r.2 / r.1) := Real.log_nonneg ((one_le_div hr1).2 hr)
  have hstep : ∀ i, rawFreq q m r i + 1 / dur ≤ rawFreq q m r (i + 1) := by
    intro i
    rw [rawFreq_eq q m r hr1 hr2, rawFreq_eq q m r hr1 hr2]
    have e : (((i + 1 : ℕ) : ℝ) + 1 / 2) / nfreq q m r = ((i : ℝ) + 1 / 2) / nfreq q m r + 1 / nfreq q m r := by push_cast; field_simp; ring
    rw [e, Real.rpow_add (by positivity)]
    have h1 : 1 ≤ (r.2 / r.1) ^ (((i : ℝ) + 1 / 2) / nfreq q m r) := Real.one_le_rpow ((one_le_div hr1).2 hr) (by positivity)
    have h2 : 1 / (nfreq q m r : ℝ) * Real.log (r.2 / r.1) + 1 ≤ (r.2 / r.1) ^ (1 / (nfreq q m r : ℝ)) := by
      rw [Real.rpow_def_of_pos (by positivity), mul_comm (Real.log _)]
      exact Real.add_one_le_exp _
    set a := (r.2 / r.1) ^ (((i : ℝ) + 1 / 2) / nfreq q m r)
    set c := (r.2 / r.1) ^ (1 / (nfreq q m r : ℝ))
    have h3 : 1 / dur ≤ r.1 * (1 / (nfreq q m r : ℝ) * Real.log (r.2 / r.1)) := by
      rw [div_le_iff₀ hd]
      have : r.1 * (1 / (nfreq q m r : ℝ) * Real.log (r.2 / r.1)) * dur = (dur * r.1 * Real.log (r.2 / r.1)) / nfreq q m r := by ring
      rw [this, le_div_iff₀ hn]
      linarith
    have h4 : 0 ≤ c - 1 := by
      have : 0 ≤ 1 / (nfreq q m r : ℝ) * Real.log (r.2 / r.1) := by positivity
      linarith
    have h5 : r.1 * (c - 1) ≤ r.1 * a * (c - 1) := by nlinarith [mul_nonneg hr1.le (mul_nonneg (sub_nonneg.2 h1) h4)]
    nlinarith
  have hlt : ∀ i, floorTo dur (rawFreq q m r i) < floorTo dur (rawFreq q m r (i + 1)) := by
    intro i
    unfold floorTo
    have : ⌊rawFreq q m r i / (1 / dur)⌋ + 1 ≤ ⌊rawFreq q m r (i + 1) / (1 / dur)⌋ := by
      rw [Int.le_floor]
      push_cast
      have h1 := Int.floor_le (rawFreq q m r i / (1 / dur))
      have h2 : (rawFreq q m r i + 1 / dur) / (1 / dur) ≤ rawFreq q m r (i + 1) / (1 / dur) := by
        have := hstep i
        gcongr
      rw [add_div, div_self (by positivity)] at h2
      linarith
    have h3 : ((⌊rawFreq q m r i / (1 / dur)⌋ : ℝ) + 1) ≤ ⌊rawFreq q m r (i + 1) / (1 / dur)⌋ := by exact_mod_cast this
    have : (⌊rawFreq q m r i / (1 / dur)⌋ : ℝ) < ⌊rawFreq q m r (i + 1) / (1 / dur)⌋ := by linarith
    gcongr
  have hmono : StrictMono fun i => floorTo dur (rawFreq q m r i) := strictMono_nat_of_lt_succ hlt
  unfold freqs
  rw [Finset.length_sort, List.toFinset_card_of_nodup, List.length_map, List.length_range]
  exact List.nodup_range.map hmono.injective

/-- **Default range and spline.**  With the default frequency range, a mismatch between 1/50 and 1 and at least one time bin, the spline method is accepted exactly for
those `Q` whose frequency range is worth more than four steps of the grid. -/
theorem default_spline_iff (dur sr : ℝ) (bins : ℕ × ℕ) (q m : ℝ) (hd : 0 < dur) (hs : 0 < sr) (hq : 1 ≤ q) (hq' : q < maxQ dur sr) (hm : 1 / 50 ≤ m) (hm1 : m ≤ 1)
    (hb : bins.2 ≠ 0) :
    Accepts dur sr bins q (0, none) m .spline ↔
      8 * deltam m < Real.log ((resolve dur sr q (0, none)).2 / (resolve dur sr q (0, none)).1) * Real.sqrt (2 + q ^ 2) := by
  have hq0 : 0 < q := by linarith
  have hm0 : 0 < m := by linarith
  have hdm := deltam_pos hm0
  have hpos := resolve_pos dur sr q (0, none) hd hs hq0 (by simp)
  have hle : (resolve dur sr q (0, none)).1 ≤ (resolve dur sr q (0, none)).2 := ((default_range_iff _ _ _ hd hs hq0).2 hq').le
  have h1 : (resolve dur sr q (0, none)).1 = 50 * q / (2 * Real.pi * dur) := by simp [resolve]
  have hnt : ∀ f ∈ freqs dur q m (resolve dur sr q (0, none)), 16 ≤ QTile.ntiles ⟨q, f, dur, sr, m⟩ := by
    intro f hf
    exact (default_ntiles ⟨dur, sr, q, m, bins, resolve dur sr q (0, none), .spline, none, none⟩ hd hs hq hq' hm0 hm1 rfl).2.2 ⟨q, f, dur, sr, m⟩
      (List.mem_map.2 ⟨f, hf, rfl⟩)
  generalize hR : resolve dur sr q (0, none) = r at *
  have hL : 0 ≤ Real.log (r.2 / r.1) := Real.log_nonneg ((one_le_div hpos.1).2 hle)
  have hfc : fcum q r = Real.log (r.2 / r.1) * Real.sqrt (2 + q ^ 2) / 2 := rfl
  have hn5 : 5 ≤ nfreq q m r ↔ 8 * deltam m < Real.log (r.2 / r.1) * Real.sqrt (2 + q ^ 2) := by
    have e : 5 ≤ nfreq q m r ↔ (4 : ℤ) < ⌈fcum q r / deltam m⌉ := by unfold nfreq; omega
    rw [e, Int.lt_ceil, lt_div_iff₀ hdm, hfc]
    push_cast
    constructor <;> intro h <;> linarith
  rw [← hn5]
  unfold Accepts
  rw [hR]
  constructor
  · rintro ⟨-, -, h⟩
    obtain ⟨-, h5, -⟩ := h rfl
    refine h5.trans ?_
    unfold freqs
    rw [Finset.length_sort]
    refine (List.toFinset_card_le _).trans ?_
    simp
  · intro h5
    refine ⟨hq', div_pos hpos.2 hpos.1, fun _ => ⟨hb, ?_, fun f hf => by have := hnt f hf; omega⟩⟩
    rw [freqs_length dur q m r hd hpos.1 hle ?_]
    · exact h5
    · have h8 := hn5.1 h5
      have hnu : (nfreq q m r : ℝ) ≤ fcum q r / deltam m + 1 := by
        have h0 : 1 ≤ ⌈fcum q r / deltam m⌉ := by
          have e : 5 ≤ nfreq q m r ↔ (4 : ℤ) < ⌈fcum q r / deltam m⌉ := by unfold nfreq; omega
          have := e.1 h5; omega
        have e : ((nfreq q m r : ℕ) : ℤ) = ⌈fcum q r / deltam m⌉ := by unfold nfreq; rw [max_eq_right h0]; omega
        have e' : (nfreq q m r : ℝ) = (⌈fcum q r / deltam m⌉ : ℝ) := by exact_mod_cast e
        rw [e']
        exact (Int.ceil_lt_add_one _).le
      have hdl : (4 : ℝ) / 25 ≤ deltam m := by
        unfold deltam
        have : (2 : ℝ) / 25 ≤ Real.sqrt (m / 3) := by rw [Real.le_sqrt (by norm_num) (by positivity)]; linarith
        linarith
      have hsq : Real.sqrt (2 + q ^ 2) ≤ 2 * q := by rw [Real.sqrt_le_left (by positivity)]; nlinarith
      have hfd : fcum q r / deltam m + 1 ≤ 5 / 4 * (fcum q r / deltam m) := by
        have : 4 ≤ fcum q r / deltam m := by rw [le_div_iff₀ hdm, hfc]; linarith
        linarith
      have hfu : fcum q r / deltam m ≤ Real.log (r.2 / r.1) * q * (25 / 4) := by
        rw [div_le_iff₀ hdm, hfc]
        have : Real.log (r.2 / r.1) * Real.sqrt (2 + q ^ 2) / 2 ≤ Real.log (r.2 / r.1) * q := by
          have := mul_le_mul_of_nonneg_left hsq hL
          linarith
        have h3 : 0 ≤ Real.log (r.2 / r.1) * q := by positivity
        nlinarith
      have hr1 : (125 : ℝ) / 16 * q ≤ dur * r.1 := by
        rw [h1]
        have e : dur * (50 * q / (2 * Real.pi * dur)) = 25 * q / Real.pi := by field_simp; ring
        rw [e, le_div_iff₀ Real.pi_pos]
        have := Real.pi_lt_d2
        nlinarith
      have := mul_le_mul_of_nonneg_right hr1 hL
      linarith

/-- **Choice of plane.**  Given that the tiles and the energies of all planes could be computed, `forward` returns the interpolation of a plane whose largest energy is the largest of all. -/
theorem scan_best (argmax : List ℝ → ℕ) (ts : List Single) (x : Tensor ℝ) (fsearch : Option (ℝ × ℝ)) (norm : Option String)
    (hargmax : ∀ es : List ℝ, es ≠ [] → argmax es < es.length ∧ ∀ i (hi : i < es.length), es[i] ≤ es.getD (argmax es) 0)
    (hne : ts ≠ []) (hc : ∀ s ∈ ts, ∃ s', s.compute x norm = .ok s' ∧ ∃ e, s'.maxEnergy fsearch = .ok e) :
    ∃ s ∈ ts, ∃ s' e, s.compute x norm = .ok s' ∧ s'.maxEnergy fsearch = .ok e ∧
      scanForward argmax ts x fsearch norm = s'.interpolate ∧
      ∀ u ∈ ts, ∀ u' e', u.compute x norm = .ok u' → u'.maxEnergy fsearch = .ok e' → e' ≤ e := by
  obtain ⟨ts', h1, hl1, hg1⟩ := mapM_get (fun s : Single => s.compute x norm) ts (fun s hs => (hc s hs).imp fun _ h => h.1)
  obtain ⟨es, h2, hl2, hg2⟩ := mapM_get (fun s : Single => s.maxEnergy fsearch) ts' (by
    intro s' hs'
    obtain ⟨k, hk, rfl⟩ := List.mem_iff_getElem.1 hs'
    obtain ⟨s'', h3, e, h4⟩ := hc _ (List.getElem_mem (show k < ts.length by omega))
    have := hg1 k (by omega) hk
    rw [h3] at this
    rw [← Except.ok.inj this]
    exact ⟨e, h4⟩)
  have hlpos : 0 < ts.length := List.length_pos_of_ne_nil hne
  have hes : es ≠ [] := by
    intro h0; rw [h0] at hl2; simp at hl2; omega
  obtain ⟨ha, hb⟩ := hargmax es hes
  set k := argmax es with hk
  have hkt' : k < ts'.length := by omega
  have hkt : k < ts.length := by omega
  refine ⟨ts[k], List.getElem_mem _, ts'[k], es[k], hg1 k hkt hkt', hg2 k hkt' ha, ?_, ?_⟩
  · unfold scanForward
    simp only [h1, h2, res_bind_ok]
    rw [if_neg hes, ← hk, List.getElem?_eq_getElem hkt']
  · intro u hu u' e' h3 h4
    obtain ⟨j, hj, rfl⟩ := List.mem_iff_getElem.1 hu
    have hj' : j < ts'.length := by omega
    have hj'' : j < es.length := by omega
    have h5 := hg1 j hj hj'
    rw [h3] at h5
    have h6 := hg2 j hj' hj''
    rw [← Except.ok.inj h5, h4] at h6
    rw [Except.ok.inj h6]
    have := hb j hj''
    rwa [List.getD_eq_getElem _ _ ha] at this

/-- A scan that has no plane left (all `Q` at or above the limit) fails in `forward`. -/
theorem scan_empty (argmax : List ℝ → ℕ) (x : Tensor ℝ) (fsearch : Option (ℝ × ℝ)) (norm : Option String) :
    scanForward argmax [] x fsearch norm = .error .index := rfl


/-! ## Construction -/

/-- The values of `Q` that a scan keeps. -/
noncomputable def keptQs (dur sr : ℝ) (qrange : Option (ℝ × ℝ)) (m : ℝ) : List ℝ :=
  (getQs m (qrange.getD (4, 64))).filter fun q => decide (q < maxQ dur sr)

/-- **Construction.**  If every plane can be built the scan holds one transform per `Q` below the limit, in ascending order, each with the frequency limits that its own `Q`
implies. -/
theorem scanInit_ok (dur sr : ℝ) (bins : ℕ × ℕ) (qrange : Option (ℝ × ℝ)) (frange : Option FRange) (method : String) (i : Interp) (m : ℝ) (hd : 0 < dur)
    (hm : parseInterp method = .ok i) (ha : ∀ q ∈ keptQs dur sr qrange m, Accepts dur sr bins q (frange.getD (0, none)) m i) :
    scanInit dur sr bins qrange frange method m = .ok ((keptQs dur sr qrange m).map fun q => built dur sr bins q (frange.getD (0, none)) m i) := by
  unfold scanInit
  refine mapM_ok (fun q => (Single.init dur sr bins q (some (frange.getD (0, none))) m method).1) (fun q => built dur sr bins q (frange.getD (0, none)) m i) _ ?_
  intro q hq
  rw [init_ok dur sr bins q (some (frange.getD (0, none))) m method i hd hm (ha q hq)]
  rfl

/-- The constructor of a scan succeeds exactly when every plane can be built; with no `Q` left even an unknown method passes. -/
theorem scanInit_ok_iff (dur sr : ℝ) (bins : ℕ × ℕ) (qrange : Option (ℝ × ℝ)) (frange : Option FRange) (method : String) (m : ℝ) (hd : 0 < dur) :
    (∃ ts, scanInit dur sr bins qrange frange method m = .ok ts) ↔
      ∀ q ∈ keptQs dur sr qrange m, ∃ i, parseInterp method = .ok i ∧ Accepts dur sr bins q (frange.getD (0, none)) m i := by
  constructor
  · intro ⟨ts, h⟩ q hq
    by_contra hno
    have h2 := mt (init_ok_iff dur sr bins q (some (frange.getD (0, none))) m method hd).1 hno
    cases hr : (Single.init dur sr bins q (some (frange.getD (0, none))) m method).1 with
    | ok s => exact h2 ⟨s, hr⟩
    | error e =>
      obtain ⟨e', he'⟩ := mapM_err (fun q => (Single.init dur sr bins q (some (frange.getD (0, none))) m method).1) (keptQs dur sr qrange m) q hq e hr
      unfold scanInit at h
      unfold keptQs at he'
      rw [he'] at h
      cases h
  · intro h
    obtain ⟨ts, h1, -⟩ := mapM_get (fun q => (Single.init dur sr bins q (some (frange.getD (0, none))) m method).1) (keptQs dur sr qrange m)
      fun q hq => (init_ok_iff dur sr bins q (some (frange.getD (0, none))) m method hd).2 (h q hq)
    exact ⟨ts, h1⟩

/-! ## End to end -/

/-- What `interpolate` makes of the rows of tiles: the plane of values, squeezed for the image methods. -/
def Renders (s : Single) (tiles : List (Tensor ℝ)) (B C : ℕ) (out : Tensor ℝ) : Prop :=
  ∃ P : Tensor ℝ, P.shape = [B, C, s.bins.1, s.bins.2] ∧ (out = if s.method = .spline then P else squeeze P) ∧
    ∀ b c f t, b < B → c < C → f < s.bins.1 → t < s.bins.2 → P.get [b, c, f, t] =
      if s.method = .spline then splinePlane s.dur s.freqs s.range s.bins.1 s.bins.2 tiles (fun k => ((s.transforms.map QTile.ntiles).getD k 0).toNat) b c f t
      else plane (kernel s.method) tiles (fun k => ((s.transforms.map QTile.ntiles).getD k 0).toNat) s.bins.1 s.bins.2 b c f t

/-- The rows of tiles of data `x` of `N` samples per channel: normalised energies, one row per frequency. -/
def TilesOf (s : Single) (x : Tensor ℝ) (lead : List ℕ) (B C N : ℕ) (nrm : (n : ℕ) → (ℕ → ℝ) → ℝ) (tiles : List (Tensor ℝ)) : Prop :=
  tiles.length = s.freqs.length ∧ tiles ≠ [] ∧
    ∀ i (hi : i < tiles.length) (hi' : i < s.transforms.length),
      tiles[i].shape = [B, C, (s.transforms[i]).ntiles.toNat] ∧ 16 ≤ (s.transforms[i]).ntiles ∧
      ∀ b c u, tiles[i].get [b, c, u] =
        (s.transforms[i]).energy (fun k => rfft N (fun t => x.get (dropLead lead [b, c] ++ [t])) k / (N : ℂ) * (if 1 ≤ k then 2 else 1)) u /
          nrm (s.transforms[i]).ntiles.toNat
            ((s.transforms[i]).energy fun k => rfft N (fun t => x.get (dropLead lead [b, c] ++ [t])) k / (N : ℂ) * (if 1 ≤ k then 2 else 1))

/-- The tiles of a transform with the default frequency range. -/
theorem default_tiles (dur sr : ℝ) (bins : ℕ × ℕ) (q m : ℝ) (i : Interp) (x : Tensor ℝ) (lead : List ℕ) (B C N : ℕ) (norm : Option String)
    (nrm : (n : ℕ) → (ℕ → ℝ) → ℝ) (hd : 0 < dur) (hs : 0 < sr) (hq : 1 ≤ q) (hq' : q < maxQ dur sr) (hm : 0 < m) (hm1 : m ≤ 1)
    (hx : x.shape = lead ++ [N]) (hl : lead.length ≤ 2) (hBC : List.replicate (2 - lead.length) 1 ++ lead = [B, C]) (hN : 0 < N) (hNs : pyInt (dur * sr) = N)
    (hn : normalizer norm = .ok nrm) :
    ∃ tl, (built dur sr bins q (0, none) m i).compute x norm = .ok { built dur sr bins q (0, none) m i with tiles := some tl } ∧
      TilesOf (built dur sr bins q (0, none) m i) x lead B C N nrm tl := by
  obtain ⟨g1, g2, g3⟩ := default_ntiles (built dur sr bins q (0, none) m i) hd hs hq hq' hm hm1 rfl
  obtain ⟨tl, h3, h4, h5⟩ := compute_ok (built dur sr bins q (0, none) m i) x lead N norm nrm hx hl hN hNs hn fun t ht => by have := g3 t ht; omega
  refine ⟨tl, h3, h4, ?_, ?_⟩
  · intro h0
    rw [h0] at h4
    exact (freqs_spec dur q m (resolve dur sr q (0, none)) hd (lt_of_lt_of_le (by positivity) g1) g2).2.1 (List.length_eq_zero_iff.1 h4.symm)
  · intro k hk hk'
    obtain ⟨-, a2, a3⟩ := h5 k hk hk'
    refine ⟨by rw [a2, hBC]; rfl, g3 _ (List.getElem_mem hk'), ?_⟩
    intro b c u
    exact a3 [b, c] rfl u

/-- Interpolating those tiles. -/
theorem default_renders (dur sr : ℝ) (bins : ℕ × ℕ) (q m : ℝ) (i : Interp) (x : Tensor ℝ) (lead : List ℕ) (B C N : ℕ) (nrm : (n : ℕ) → (ℕ → ℝ) → ℝ)
    (tl : List (Tensor ℝ)) (hd : 0 < dur) (hs : 0 < sr) (hq : 1 ≤ q) (hm : 0 < m) (hm1 : m ≤ 1) (ha : Accepts dur sr bins q (0, none) m i)
    (hB : 0 < B) (hC : 0 < C) (hF : 0 < bins.1) (hT : 0 < bins.2) (ht : TilesOf (built dur sr bins q (0, none) m i) x lead B C N nrm tl) :
    ∃ out, ({ built dur sr bins q (0, none) m i with tiles := some tl } : Single).interpolate = .ok out ∧
      Renders (built dur sr bins q (0, none) m i) tl B C out := by
  obtain ⟨g1, g2, g3⟩ := default_ntiles (built dur sr bins q (0, none) m i) hd hs hq ha.1 hm hm1 rfl
  obtain ⟨h4, h5, h6⟩ := ht
  have hmono := transforms_mono (built dur sr bins q (0, none) m i) hd (by show 0 < q; linarith) hm g2 g1
  have hfs := (freqs_spec dur q m (resolve dur sr q (0, none)) hd (lt_of_lt_of_le (by positivity) g1) g2).1
  have hlt : (built dur sr bins q (0, none) m i).transforms.length = (built dur sr bins q (0, none) m i).freqs.length := by simp [Single.transforms]
  have hsh : ∀ k (hk : k < tl.length), tl[k].shape = [B, C, (((built dur sr bins q (0, none) m i).transforms.map QTile.ntiles).getD k 0).toNat] := by
    intro k hk
    rw [(h6 k hk (by omega)).1, List.getD_eq_getElem _ _ (by rw [List.length_map]; omega), List.getElem_map]
  by_cases hi : i = .spline
  · subst hi
    obtain ⟨P, p1, p2, p3⟩ := interpolate_spline { built dur sr bins q (0, none) m .spline with tiles := some tl } tl B C hd rfl rfl
      (by simp [built, Single.transforms, Single.freqs, List.map_map, Function.comp_def])
      ⟨(ha.2.2 rfl).1, (ha.2.2 rfl).2.1, fun t ht => by have := g3 t ht; omega⟩ hmono hfs h4 hsh
    exact ⟨P, p1, P, p2, rfl, fun b c f t _ _ hf ht => p3 b c f t hf ht⟩
  · obtain ⟨P, p1, p2, p3⟩ := interpolate_image { built dur sr bins q (0, none) m i with tiles := some tl } tl
      (fun k => (((built dur sr bins q (0, none) m i).transforms.map QTile.ntiles).getD k 0).toNat) B C hi rfl h5 hB hC hF hT (by
        intro k hk
        refine ⟨hsh k hk, ?_⟩
        have := (h6 k hk (by omega)).2.1
        rw [List.getD_eq_getElem _ _ (by rw [List.length_map]; omega), List.getElem_map]
        omega)
    refine ⟨squeeze P, p1, P, p2, (if_neg hi).symm, ?_⟩
    intro b c f t hb hc hf ht
    rw [p3 b c f t hb hc hf ht]
    exact (if_neg hi).symm

/-- **End to end, one plane.**  A transform with the default frequency range, applied to data of one to three dimensions with the declared duration and sample rate, returns
the interpolation of its normalised energies. -/
theorem single_default (dur sr : ℝ) (bins : ℕ × ℕ) (q m : ℝ) (i : Interp) (x : Tensor ℝ) (lead : List ℕ) (B C N : ℕ) (norm : Option String)
    (nrm : (n : ℕ) → (ℕ → ℝ) → ℝ) (hd : 0 < dur) (hs : 0 < sr) (hq : 1 ≤ q) (hm : 0 < m) (hm1 : m ≤ 1) (ha : Accepts dur sr bins q (0, none) m i)
    (hx : x.shape = lead ++ [N]) (hl : lead.length ≤ 2) (hBC : List.replicate (2 - lead.length) 1 ++ lead = [B, C]) (hN : 0 < N) (hNs : pyInt (dur * sr) = N)
    (hn : normalizer norm = .ok nrm) (hB : 0 < B) (hC : 0 < C) (hF : 0 < bins.1) (hT : 0 < bins.2) :
    ∃ tl out, TilesOf (built dur sr bins q (0, none) m i) x lead B C N nrm tl ∧ (built dur sr bins q (0, none) m i).forward x norm = .ok out ∧
      Renders (built dur sr bins q (0, none) m i) tl B C out := by
  obtain ⟨tl, h1, h2⟩ := default_tiles dur sr bins q m i x lead B C N norm nrm hd hs hq ha.1 hm hm1 hx hl hBC hN hNs hn
  obtain ⟨out, h3, h4⟩ := default_renders dur sr bins q m i x lead B C N nrm tl hd hs hq hm hm1 ha hB hC hF hT h2
  refine ⟨tl, out, h2, ?_, h4⟩
  unfold Single.forward
  rw [h1, res_bind_ok]
  exact h3

/-- **End to end, all planes.**  A scan with the default ranges that keeps at least one plane, applied to such data, returns the interpolation of the normalised energies of
a plane that has the largest energy of all planes. -/
theorem scan_default (argmax : List ℝ → ℕ) (dur sr : ℝ) (bins : ℕ × ℕ) (m : ℝ) (method : String) (i : Interp) (x : Tensor ℝ) (lead : List ℕ) (B C N : ℕ)
    (norm : Option String) (nrm : (n : ℕ) → (ℕ → ℝ) → ℝ) (ts : List Single)
    (hargmax : ∀ es : List ℝ, es ≠ [] → argmax es < es.length ∧ ∀ i (hi : i < es.length), es[i] ≤ es.getD (argmax es) 0)
    (hd : 0 < dur) (hs : 0 < sr) (hm : 0 < m) (hm1 : m ≤ 1) (hx : x.shape = lead ++ [N]) (hl : lead.length ≤ 2)
    (hBC : List.replicate (2 - lead.length) 1 ++ lead = [B, C]) (hB : 0 < B) (hC : 0 < C) (hN : 0 < N) (hNs : pyInt (dur * sr) = N)
    (hF : 0 < bins.1) (hT : 0 < bins.2) (hn : normalizer norm = .ok nrm) (hi : parseInterp method = .ok i)
    (hts : scanInit dur sr bins none none method m = .ok ts) (hne : keptQs dur sr none m ≠ []) :
    ∃ q ∈ keptQs dur sr none m, ∃ tl out, TilesOf (built dur sr bins q (0, none) m i) x lead B C N nrm tl ∧
      scanForward argmax ts x none norm = .ok out ∧ Renders (built dur sr bins q (0, none) m i) tl B C out ∧
      ∀ q' ∈ keptQs dur sr none m, ∀ tl', TilesOf (built dur sr bins q' (0, none) m i) x lead B C N nrm tl' →
        ∀ t' ∈ tl', ∀ idx', InB idx' t'.shape → ∃ t ∈ tl, ∃ idx, InB idx t.shape ∧ t'.get idx' ≤ t.get idx := by
  have ha : ∀ q ∈ keptQs dur sr none m, Accepts dur sr bins q (0, none) m i := by
    intro q hq
    obtain ⟨j, hj, h⟩ := (scanInit_ok_iff dur sr bins none none method m hd).1 ⟨ts, hts⟩ q hq
    rw [hi] at hj
    rwa [← Except.ok.inj hj] at h
  rw [scanInit_ok dur sr bins none none method i m hd hi ha] at hts
  obtain rfl := Except.ok.inj hts
  have hq1 : ∀ q ∈ keptQs dur sr none m, 1 ≤ q ∧ q < maxQ dur sr := by
    intro q hq
    unfold keptQs at hq
    rw [List.mem_filter] at hq
    have := ((getQs_spec m (4, 64) hm (by norm_num) (by norm_num)).2.2.2.1 _ hq.1).1
    dsimp only at this
    exact ⟨by linarith, by simpa using hq.2⟩
  have hcomp : ∀ q ∈ keptQs dur sr none m, ∃ tl, (built dur sr bins q (0, none) m i).compute x norm = .ok { built dur sr bins q (0, none) m i with tiles := some tl } ∧
      TilesOf (built dur sr bins q (0, none) m i) x lead B C N nrm tl := fun q hq =>
    default_tiles dur sr bins q m i x lead B C N norm nrm hd hs (hq1 q hq).1 (hq1 q hq).2 hm hm1 hx hl hBC hN hNs hn
  have hin : ∀ q tl, TilesOf (built dur sr bins q (0, none) m i) x lead B C N nrm tl → ∀ t ∈ tl, ∃ idx, InB idx t.shape := by
    intro q tl ht t htm
    obtain ⟨k, hk, rfl⟩ := List.mem_iff_getElem.1 htm
    obtain ⟨h4, -, h6⟩ := ht
    have hlt : (built dur sr bins q (0, none) m i).transforms.length = (built dur sr bins q (0, none) m i).freqs.length := by simp [Single.transforms]
    obtain ⟨a1, a2, -⟩ := h6 k hk (by omega)
    refine ⟨[0, 0, 0], ?_⟩
    rw [a1]
    exact ⟨hB, hC, by omega, trivial⟩
  have hen : ∀ q tl, TilesOf (built dur sr bins q (0, none) m i) x lead B C N nrm tl →
      ∃ e, ({ built dur sr bins q (0, none) m i with tiles := some tl } : Single).maxEnergy none = .ok e ∧ (∃ t ∈ tl, ∃ idx, InB idx t.shape ∧ t.get idx = e) ∧
        ∀ t ∈ tl, ∀ idx, InB idx t.shape → t.get idx ≤ e := by
    intro q tl ht
    exact maxEnergy_spec { built dur sr bins q (0, none) m i with tiles := some tl } tl tl none rfl rfl ht.2.1 (hin q tl ht)
  obtain ⟨s, hsm, s', e, h1, h2, h3, h4⟩ := scan_best argmax ((keptQs dur sr none m).map fun q => built dur sr bins q (0, none) m i) x none norm hargmax
    (by simpa using hne) (by
      intro s hs'
      obtain ⟨q, hq, rfl⟩ := List.mem_map.1 hs'
      obtain ⟨tl, a1, a2⟩ := hcomp q hq
      obtain ⟨e, b1, -⟩ := hen q tl a2
      exact ⟨_, a1, e, b1⟩)
  obtain ⟨q, hq, rfl⟩ := List.mem_map.1 hsm
  obtain ⟨tl, a1, a2⟩ := hcomp q hq
  rw [a1] at h1
  obtain rfl := Except.ok.inj h1
  obtain ⟨out, c1, c2⟩ := default_renders dur sr bins q m i x lead B C N nrm tl hd hs (hq1 q hq).1 hm hm1 (ha q hq) hB hC hF hT a2
  refine ⟨q, hq, tl, out, a2, ?_, c2, ?_⟩
  · refine Eq.trans ?_ c1
    exact h3
  · intro q' hq' tl' ht' t' htm' idx' hidx'
    obtain ⟨tl'', d1, d2⟩ := hcomp q' hq'
    obtain ⟨e', f1, -, f3⟩ := hen q' tl'' d2
    obtain ⟨k, k2, rfl⟩ := List.mem_iff_getElem.1 htm'
    have hlt : (built dur sr bins q' (0, none) m i).transforms.length = (built dur sr bins q' (0, none) m i).freqs.length := by simp [Single.transforms]
    have kt : k < (built dur sr bins q' (0, none) m i).transforms.length := by rw [hlt, ← ht'.1]; exact k2
    have k1 : k < tl''.length := by rw [d2.1, ← hlt]; exact kt
    obtain ⟨u1, -, u3⟩ := d2.2.2 k k1 kt
    obtain ⟨v1, -, v3⟩ := ht'.2.2 k k2 kt
    have hval : tl''[k].get idx' = tl'[k].get idx' ∧ InB idx' tl''[k].shape := by
      rw [v1] at hidx'
      rw [u1]
      refine ⟨?_, hidx'⟩
      match idx', hidx' with
      | [b, c, u], _ => rw [u3, v3]
    have f4 := f3 _ (List.getElem_mem k1) idx' hval.2
    rw [hval.1] at f4
    obtain ⟨e2, g1, ⟨t, gt, idx, gi, ge⟩, -⟩ := hen q tl a2
    rw [h2] at g1
    obtain rfl := Except.ok.inj g1
    have hle := h4 _ (List.mem_map_of_mem hq') _ e' d1 f1
    exact ⟨t, gt, idx, gi, by rw [ge]; exact f4.trans hle⟩

/-! ## The default planes -/

/-- The default scan has four planes, at `4 · 2^(i + 1/2)`. -/
theorem default_qs : nplanes 0.2 (4, 64) = 4 ∧ ∀ i < 4, (getQs 0.2 (4, 64)).getD i 0 = 4 * 2 ^ ((i : ℝ) + 1 / 2) := by
  have hlog : Real.log ((64 : ℝ) / 4) = 4 * Real.log 2 := by
    rw [show ((64 : ℝ) / 4) = 2 ^ (4 : ℕ) by norm_num, Real.log_pow]; norm_num
  have h2 := Real.log_two_gt_d9
  have h2' := Real.log_two_lt_d9
  have hs2 : 0 < Real.sqrt 2 := by positivity
  have hsm : 0 < Real.sqrt ((0.2 : ℝ) / 3) := by positivity
  have hsq2 : Real.sqrt 2 ^ 2 = 2 := Real.sq_sqrt (by norm_num)
  have hsqm : Real.sqrt ((0.2 : ℝ) / 3) ^ 2 = 0.2 / 3 := Real.sq_sqrt (by norm_num)
  have hdm : 0 < deltam 0.2 := deltam_pos (by norm_num)
  have hprod : (Real.sqrt 2 * Real.sqrt ((0.2 : ℝ) / 3)) ^ 2 = 2 * (0.2 / 3) := by rw [mul_pow, hsq2, hsqm]
  have hp0 : 0 < Real.sqrt 2 * Real.sqrt ((0.2 : ℝ) / 3) := by positivity
  have hn : nplanes 0.2 (4, 64) = 4 := by
    have hc : cumum (4, 64) / deltam 0.2 = 2 * Real.log 2 / (Real.sqrt 2 * Real.sqrt ((0.2 : ℝ) / 3)) := by
      unfold cumum deltam
      dsimp only
      rw [hlog]; field_simp; ring
    have hceil : ⌈cumum (4, 64) / deltam 0.2⌉ = 4 := by
      rw [Int.ceil_eq_iff, hc, lt_div_iff₀ hp0, div_le_iff₀ hp0]
      push_cast
      constructor <;> nlinarith
    unfold nplanes
    rw [hceil]; rfl
  refine ⟨hn, fun i hi => ?_⟩
  unfold getQs
  rw [List.getD_eq_getElem _ _ (by simpa [hn] using hi), List.getElem_map, List.getElem_range, hn]
  rw [Real.rpow_def_of_pos (by norm_num)]
  unfold cumum
  dsimp only
  rw [hlog]
  congr 2
  push_cast
  field_simp

theorem default_ratio (dur sr q : ℝ) (hd : 0 < dur) (hs : 0 < sr) (hq : 0 < q) :
    (resolve dur sr q (0, none)).2 / (resolve dur sr q (0, none)).1 = Real.pi * dur * sr / 50 / (q + Real.sqrt 11) := by
  have h11 : 0 < Real.sqrt 11 := by positivity
  have hp := Real.pi_pos
  simp only [resolve, le_refl, if_true, qprime]
  field_simp

/-- Two seconds at 4096 Hz fit the spline method with all default planes: the hypotheses of `scan_default` can be met. -/
theorem scan_2s_4096 (bins : ℕ × ℕ) (hb : bins.2 ≠ 0) (method : String) (i : Interp) (hi : parseInterp method = .ok i) :
    (∃ ts, scanInit 2 4096 bins none none method 0.2 = .ok ts) ∧ keptQs 2 4096 none 0.2 = getQs 0.2 (4, 64) ∧ (keptQs 2 4096 none 0.2).length = 4 := by
  have hspec := getQs_spec 0.2 (4, 64) (by norm_num) (by norm_num) (by norm_num)
  have hp := Real.pi_gt_d2
  have h11 : Real.sqrt 11 ≤ 4 := by rw [Real.sqrt_le_left (by norm_num)]; norm_num
  have h110 : 0 < Real.sqrt 11 := by positivity
  have hmax : ∀ q ∈ getQs 0.2 (4, 64), 4 < q ∧ q < 64 ∧ q < maxQ 2 4096 := by
    intro q hq
    obtain ⟨a, b⟩ := hspec.2.2.2.1 q hq
    dsimp only at a b
    refine ⟨a, b, ?_⟩
    unfold maxQ; linarith
  have hk : keptQs 2 4096 none 0.2 = getQs 0.2 (4, 64) := by
    unfold keptQs
    rw [Option.getD_none, List.filter_eq_self]
    intro q hq
    simpa using (hmax q hq).2.2
  refine ⟨?_, hk, by rw [hk, hspec.2.1, default_qs.1]⟩
  rw [scanInit_ok_iff _ _ _ _ _ _ _ (by norm_num), hk]
  intro q hq
  obtain ⟨h4, h64, hm⟩ := hmax q hq
  refine ⟨i, hi, ?_⟩
  rw [Option.getD_none]
  have hacc : Accepts 2 4096 bins q (0, none) 0.2 .spline := by
    rw [default_spline_iff 2 4096 bins q 0.2 (by norm_num) (by norm_num) (by linarith) hm (by norm_num) (by norm_num) hb,
      default_ratio 2 4096 q (by norm_num) (by norm_num) (by linarith)]
    have hL : 1 ≤ Real.log (Real.pi * 2 * 4096 / 50 / (q + Real.sqrt 11)) := by
      rw [Real.le_log_iff_exp_le (by positivity), le_div_iff₀ (by linarith)]
      have := Real.exp_one_lt_d9
      nlinarith
    have hd : deltam 0.2 ≤ 0.52 := by
      unfold deltam
      have : Real.sqrt ((0.2 : ℝ) / 3) ≤ 0.26 := by rw [Real.sqrt_le_left (by norm_num)]; norm_num
      linarith
    have hsq : (4.2 : ℝ) ≤ Real.sqrt (2 + q ^ 2) := by rw [Real.le_sqrt (by norm_num) (by positivity)]; nlinarith
    nlinarith
  refine ⟨hacc.1, hacc.2.1, fun h => hacc.2.2 rfl⟩

/-- **The defaults do not always work together.**  For one second at 800 Hz, `QScan` with default ranges and the (default) spline method cannot be constructed; with the
bilinear method it can: the plane at the largest kept `Q` has fewer than five frequencies. -/
theorem scan_1s_800 (bins : ℕ × ℕ) (hb : bins.2 ≠ 0) :
    scanInit 1 800 bins none none "spline" 0.2 = .error .value ∧ ∃ ts, scanInit 1 800 bins none none "bilinear" 0.2 = .ok ts ∧ ts ≠ [] := by
  have hspec := getQs_spec 0.2 (4, 64) (by norm_num) (by norm_num) (by norm_num)
  have hp := Real.pi_gt_d4
  have hp' := Real.pi_lt_d4
  have h11 : Real.sqrt 11 ≤ 3.317 := by rw [Real.sqrt_le_left (by norm_num)]; norm_num
  have h11' : 3.316 ≤ Real.sqrt 11 := by rw [Real.le_sqrt (by norm_num) (by norm_num)]; norm_num
  obtain ⟨hn, hq⟩ := default_qs
  have hlen : (getQs 0.2 (4, 64)).length = 4 := by rw [hspec.2.1, hn]
  have hlt : ∀ q ∈ keptQs 1 800 none 0.2, 4 < q ∧ q < maxQ 1 800 := by
    intro q hq
    unfold keptQs at hq
    rw [List.mem_filter] at hq
    exact ⟨(hspec.2.2.2.1 q hq.1).1, by simpa using hq.2⟩
  set Q := (getQs 0.2 (4, 64)).getD 3 0 with hQ
  have hQ2 : Q ^ 2 = 2048 ∧ 0 < Q := by
    rw [hQ, hq 3 (by norm_num)]
    refine ⟨?_, by positivity⟩
    rw [mul_pow, ← Real.rpow_natCast ((2 : ℝ) ^ _), ← Real.rpow_mul (by norm_num)]
    have : (((3 : ℕ) : ℝ) + 1 / 2) * ((2 : ℕ) : ℝ) = ((7 : ℕ) : ℝ) := by norm_num
    rw [this, Real.rpow_natCast]; norm_num
  have hQlo : 45.25 ≤ Q := by nlinarith [hQ2.1, hQ2.2]
  have hQhi : Q ≤ 45.26 := by nlinarith [hQ2.1, hQ2.2]
  have hQmax : Q < maxQ 1 800 := by unfold maxQ; linarith
  have hQmem : Q ∈ keptQs 1 800 none 0.2 := by
    unfold keptQs
    rw [List.mem_filter]
    refine ⟨?_, by simpa using hQmax⟩
    rw [hQ, Option.getD_none, List.getD_eq_getElem _ _ (by omega)]
    exact List.getElem_mem _
  constructor
  · have hno : ¬ Accepts 1 800 bins Q (0, none) 0.2 .spline := by
      rw [default_spline_iff 1 800 bins Q 0.2 (by norm_num) (by norm_num) (by linarith) hQmax (by norm_num) (by norm_num) hb,
        default_ratio 1 800 Q (by norm_num) (by norm_num) (by linarith), not_lt]
      have hL : Real.log (Real.pi * 1 * 800 / 50 / (Q + Real.sqrt 11)) ≤ 0.04 := by
        refine (Real.log_le_sub_one_of_pos (by positivity)).trans ?_
        rw [sub_le_iff_le_add, div_le_iff₀ (by linarith)]
        nlinarith
      have hd : 0.5 ≤ deltam 0.2 := by
        unfold deltam
        have : 0.25 ≤ Real.sqrt ((0.2 : ℝ) / 3) := by rw [Real.le_sqrt (by norm_num) (by norm_num)]; norm_num
        linarith
      have hsq : Real.sqrt (2 + Q ^ 2) ≤ 46 := by rw [Real.sqrt_le_left (by norm_num)]; nlinarith
      have hsq0 : 0 ≤ Real.sqrt (2 + Q ^ 2) := Real.sqrt_nonneg _
      nlinarith
    have hval : ∀ q ∈ keptQs 1 800 none 0.2, ∀ e, (Single.init 1 800 bins q (some ((none : Option FRange).getD (0, none))) 0.2 "spline").1 = .error e → e = .value := by
      intro q hq e he
      by_cases hacc : Accepts 1 800 bins q (0, none) 0.2 .spline
      · rw [init_ok 1 800 bins q (some ((none : Option FRange).getD (0, none))) 0.2 "spline" .spline (by norm_num) (by simp [parseInterp]) hacc] at he
        cases he
      · obtain ⟨e', h1, h2⟩ := init_reject 1 800 bins q (some ((none : Option FRange).getD (0, none))) 0.2 "spline" .spline (by norm_num) (by simp [parseInterp]) hacc
        rw [h1] at he
        have := h2 hb (by
          intro f hf
          have := (default_ntiles ⟨1, 800, q, 0.2, bins, resolve 1 800 q (0, none), .spline, none, none⟩ (by norm_num) (by norm_num) (by have := (hlt q hq).1; dsimp only; linarith)
            (hlt q hq).2 (by norm_num) (by norm_num) rfl).2.2 ⟨q, f, 1, 800, 0.2⟩ (List.mem_map.2 ⟨f, hf, rfl⟩)
          omega)
        rw [← Except.error.inj he]; exact this
    obtain ⟨e', h1, -⟩ := init_reject 1 800 bins Q (some ((none : Option FRange).getD (0, none))) 0.2 "spline" .spline (by norm_num) (by simp [parseInterp]) hno
    have : ∀ (l : List ℝ), (∀ q ∈ l, q ∈ keptQs 1 800 none 0.2) → Q ∈ l →
        l.mapM (fun q => (Single.init 1 800 bins q (some ((none : Option FRange).getD (0, none))) 0.2 "spline").1) = .error .value := by
      intro l
      induction l with
      | nil => intro _ h; simp at h
      | cons a l ih =>
        intro hl hm
        rw [List.mapM_cons]
        cases ha : (Single.init 1 800 bins a (some ((none : Option FRange).getD (0, none))) 0.2 "spline").1 with
        | error e => rw [hval a (hl a (by simp)) e ha]; rfl
        | ok s =>
          have hne : Q ≠ a := by rintro h; rw [← h, h1] at ha; cases ha
          have := ih (fun q hq => hl q (by simp [hq])) ((List.mem_cons.1 hm).resolve_left hne)
          simp only [res_bind_ok]
          rw [this]; rfl
    exact this _ (fun q hq => hq) hQmem
  · have := scanInit_ok 1 800 bins none none "bilinear" .bilinear 0.2 (by norm_num) (by simp [parseInterp]) (by
      intro q hq
      obtain ⟨h1, h2⟩ := hlt q hq
      have hpos := resolve_pos 1 800 q (0, none) (by norm_num) (by norm_num) (by linarith) (by simp)
      exact ⟨h2, div_pos hpos.2 hpos.1, fun h => by cases h⟩)
    refine ⟨_, this, ?_⟩
    intro h0
    rw [List.map_eq_nil_iff] at h0
    rw [h0] at hQmem
    simp at hQmem

/-- **A low search limit is accepted and never works.**  If the first frequency of a plane rounds to zero, the bilinear constructor succeeds but every call fails. -/
theorem zero_frequency_fails (dur sr : ℝ) (bins : ℕ × ℕ) (q m : ℝ) (fr : FRange) (i : Interp) (x : Tensor ℝ) (lead : List ℕ) (N : ℕ) (norm : Option String)
    (hd : 0 < dur) (hq : 0 < q) (hm : 0 < m) (hm4 : m ≤ 1 / 4) (h0 : 0 ∈ freqs dur q m (resolve dur sr q fr))
    (hx : x.shape = lead ++ [N]) (hl : lead.length ≤ 2) (hN : 0 < N) (hNs : pyInt (dur * sr) = N) :
    ∃ e, (built dur sr bins q fr m i).forward x norm = .error e := by
  have hz : (QTile.forward ⟨q, 0, dur, sr, m⟩ (scaledSpectrum x) norm) = .error .runtime := by
    have hnr : nRfft dur sr = (N / 2 : ℕ) := by unfold nRfft; rw [hNs]; exact (by rw [Int.fdiv_eq_ediv_of_nonneg _ (by norm_num)]; simp)
    refine forward_zero ⟨q, 0, dur, sr, m⟩ (scaledSpectrum x) lead norm ?_ hl ?_ hq le_rfl hd hm hm4 ?_
    · show (scaledSpectrum x).shape = _
      dsimp only
      rw [hnr]
      simp [scaledSpectrum, mapRows, hx]
      omega
    · dsimp only; rw [hnr]; positivity
    · simp
  obtain ⟨e, he⟩ := mapM_err (fun t : QTile => t.forward (scaledSpectrum x) norm) (built dur sr bins q fr m i).transforms ⟨q, 0, dur, sr, m⟩
    (List.mem_map.2 ⟨0, h0, rfl⟩) .runtime hz
  refine ⟨e, ?_⟩
  unfold Single.forward Single.compute
  rw [if_neg (by rw [hx]; simp; omega), he]
  rfl

/-- Non-vacuity: a lower limit of half a hertz for a one-second transform. -/
example : (0 : ℝ) ∈ freqs 1 12 0.2 (resolve 1 1024 12 (0.5, some 0.75)) := by
  have hr : resolve 1 1024 12 (0.5, some 0.75) = (0.5, 0.75) := by norm_num [resolve]
  rw [hr]
  unfold freqs
  rw [Finset.mem_sort, List.mem_toFinset, List.mem_map]
  refine ⟨0, by simpa using nfreq_pos 12 0.2 (0.5, 0.75), ?_⟩
  obtain ⟨a, b⟩ := rawFreq_mem 12 0.2 (0.5, 0.75) (by norm_num) (by norm_num) 0 (nfreq_pos _ _ _)
  dsimp only at a b
  unfold floorTo
  have : ⌊rawFreq 12 0.2 (0.5, 0.75) 0 / (1 / 1)⌋ = 0 := by
    rw [Int.floor_eq_iff]
    constructor <;> norm_num <;> linarith
  rw [this]; simp

end Verif.QTransform
