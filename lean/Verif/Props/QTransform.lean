import Verif.Props.QTile
import Verif.Lemmas.Chunk
import Verif.Lemmas.Broadcast
import Mathlib.Data.List.GetD
import Mathlib.Analysis.SpecialFunctions.Pow.Real
/-!
# Properties of `SingleQTransform`: frequencies, construction, tiles and energies (C49, C50)
-/
set_option linter.unusedSimpArgs false
set_option linter.unusedVariables false
namespace Verif.QTransform
open Finset Fourier Whiten QSpec

theorem mapM_get {α β : Type _} (f : α → Res β) (l : List α) (h : ∀ x ∈ l, ∃ y, f x = .ok y) :
    ∃ ys : List β, l.mapM f = .ok ys ∧ ys.length = l.length ∧ ∀ i (hi : i < l.length) (hi' : i < ys.length), f l[i] = .ok ys[i] := by
  obtain ⟨ys, h1, h2⟩ := mapM_ok_exists f (fun x y => f x = .ok y) l (fun x hx => (h x hx).imp fun y hy => ⟨hy, hy⟩)
  refine ⟨ys, h1, h2.length_eq.symm, ?_⟩
  intro i hi hi'
  exact (List.forall₂_iff_get.1 h2).2 i hi hi'

/-! ## Frequencies -/

theorem nfreq_pos (q m : ℝ) (r : ℝ × ℝ) : 0 < nfreq q m r := by
  unfold nfreq
  have : (1 : ℤ) ≤ max 1 ⌈fcum q r / deltam m⌉ := le_max_left _ _
  omega

/-- The frequencies before rounding: a geometric progression through the range. -/
theorem rawFreq_eq (q m : ℝ) (r : ℝ × ℝ) (hr1 : 0 < r.1) (hr2 : 0 < r.2) (i : ℕ) :
    rawFreq q m r i = r.1 * (r.2 / r.1) ^ (((i : ℝ) + 1 / 2) / nfreq q m r) := by
  have hn : (nfreq q m r : ℝ) ≠ 0 := by exact_mod_cast (nfreq_pos q m r).ne'
  have hs : Real.sqrt (2 + q ^ 2) ≠ 0 := by positivity
  unfold rawFreq fstep fcum
  congr 1
  rw [Real.rpow_def_of_pos (Real.exp_pos _), Real.log_exp, Real.rpow_def_of_pos (by positivity)]
  congr 1
  field_simp

theorem rawFreq_mem (q m : ℝ) (r : ℝ × ℝ) (hr1 : 0 < r.1) (hr : r.1 ≤ r.2) (i : ℕ) (hi : i < nfreq q m r) :
    r.1 ≤ rawFreq q m r i ∧ rawFreq q m r i ≤ r.2 := by
  have hr2 : 0 < r.2 := hr1.trans_le hr
  rw [rawFreq_eq q m r hr1 hr2]
  have hb : 1 ≤ r.2 / r.1 := (one_le_div hr1).2 hr
  have hn : (0 : ℝ) < nfreq q m r := by exact_mod_cast nfreq_pos q m r
  have hi' : (i : ℝ) + 1 ≤ nfreq q m r := by exact_mod_cast hi
  have he0 : 0 ≤ ((i : ℝ) + 1 / 2) / nfreq q m r := by positivity
  have he1 : ((i : ℝ) + 1 / 2) / nfreq q m r ≤ 1 := by rw [div_le_one hn]; linarith
  constructor
  · have := Real.one_le_rpow hb he0
    nlinarith
  · have := Real.rpow_le_rpow_of_exponent_le hb he1
    rw [Real.rpow_one] at this
    calc _ ≤ r.1 * (r.2 / r.1) := by gcongr
      _ = r.2 := by field_simp

/-- **Spacing.**  Neighbouring frequencies, before rounding, are no further apart than the requested mismatch allows, and so are the ends of the range and the first and last
frequency (half a step). -/
theorem rawFreq_spacing (q m : ℝ) (r : ℝ × ℝ) (hr1 : 0 < r.1) (hr : r.1 ≤ r.2) (hm : 0 < m) (i : ℕ) :
    freqDist q (rawFreq q m r i) (rawFreq q m r (i + 1)) ≤ deltam m ∧
      freqDist q r.1 (rawFreq q m r 0) ≤ deltam m / 2 ∧ freqDist q (rawFreq q m r (nfreq q m r - 1)) r.2 ≤ deltam m / 2 := by
  have hr2 : 0 < r.2 := hr1.trans_le hr
  have hn : (0 : ℝ) < nfreq q m r := by exact_mod_cast nfreq_pos q m r
  have hb : 1 ≤ r.2 / r.1 := (one_le_div hr1).2 hr
  have hb0 : 0 < r.2 / r.1 := by positivity
  have hlog : 0 ≤ Real.log (r.2 / r.1) := Real.log_nonneg hb
  have hs : 0 < Real.sqrt (2 + q ^ 2) := by positivity
  have hstep : fcum q r / nfreq q m r ≤ deltam m := by
    have hdm := deltam_pos hm
    rw [div_le_iff₀ hn]
    have h1 := Int.le_ceil (fcum q r / deltam m)
    have h2 : (⌈fcum q r / deltam m⌉ : ℝ) ≤ nfreq q m r := by
      have : ⌈fcum q r / deltam m⌉ ≤ (nfreq q m r : ℤ) := by
        unfold nfreq
        have : (1 : ℤ) ≤ max 1 ⌈fcum q r / deltam m⌉ := le_max_left _ _
        rw [Int.toNat_of_nonneg (by omega)]
        exact le_max_right _ _
      exact_mod_cast this
    have := h1.trans h2
    rw [div_le_iff₀ hdm] at this
    linarith
  have lg : ∀ i, Real.log (rawFreq q m r i) = Real.log r.1 + ((i : ℝ) + 1 / 2) / nfreq q m r * Real.log (r.2 / r.1) := by
    intro i
    rw [rawFreq_eq q m r hr1 hr2, Real.log_mul hr1.ne' (Real.rpow_pos_of_pos hb0 _).ne', Real.log_rpow hb0]
  have pos : ∀ i, 0 < rawFreq q m r i := fun i => by
    rw [rawFreq_eq q m r hr1 hr2]; exact mul_pos hr1 (Real.rpow_pos_of_pos hb0 _)
  have hfc : fcum q r / nfreq q m r = (1 / nfreq q m r * Real.log (r.2 / r.1)) * Real.sqrt (2 + q ^ 2) / 2 := by
    unfold fcum; field_simp
  have nn : 0 ≤ 1 / (nfreq q m r : ℝ) * Real.log (r.2 / r.1) := by positivity
  rw [hfc] at hstep
  unfold freqDist
  refine ⟨?_, ?_, ?_⟩
  · rw [Real.log_div (pos _).ne' (pos _).ne', lg, lg]
    have : Real.log r.1 + (((i + 1 : ℕ) : ℝ) + 1 / 2) / nfreq q m r * Real.log (r.2 / r.1) -
        (Real.log r.1 + ((i : ℝ) + 1 / 2) / nfreq q m r * Real.log (r.2 / r.1)) = 1 / nfreq q m r * Real.log (r.2 / r.1) := by
      push_cast; field_simp; ring
    rw [this, abs_of_nonneg nn]; exact hstep
  · rw [Real.log_div (pos _).ne' hr1.ne', lg]
    have : Real.log r.1 + (((0 : ℕ) : ℝ) + 1 / 2) / nfreq q m r * Real.log (r.2 / r.1) - Real.log r.1 =
        (1 / nfreq q m r * Real.log (r.2 / r.1)) / 2 := by push_cast; field_simp; ring
    rw [this, abs_of_nonneg (by positivity)]; linarith
  · rw [Real.log_div hr2.ne' (pos _).ne', lg]
    have hc : ((nfreq q m r - 1 : ℕ) : ℝ) = nfreq q m r - 1 := by
      rw [Nat.cast_sub (nfreq_pos q m r)]; simp
    have : Real.log r.2 - (Real.log r.1 + (((nfreq q m r - 1 : ℕ) : ℝ) + 1 / 2) / nfreq q m r * Real.log (r.2 / r.1)) =
        (1 / nfreq q m r * Real.log (r.2 / r.1)) / 2 := by
      have h1 : Real.log r.2 - Real.log r.1 = Real.log (r.2 / r.1) := (Real.log_div hr2.ne' hr1.ne').symm
      rw [hc]
      field_simp
      linear_combination (2 : ℝ) * (nfreq q m r : ℝ) * h1
    rw [this, abs_of_nonneg (by positivity)]; linarith

/-- The frequencies are strictly ascending and there is at least one; each is a multiple of `1/duration` and, if the range starts at `1/duration` or above, positive and within
`1/duration` of the range. -/
theorem freqs_spec (dur q m : ℝ) (r : ℝ × ℝ) (hd : 0 < dur) (hr1 : 0 < r.1) (hr : r.1 ≤ r.2) :
    (freqs dur q m r).Pairwise (· < ·) ∧ freqs dur q m r ≠ [] ∧
      ∀ f ∈ freqs dur q m r, (∃ k : ℕ, f * dur = k) ∧ r.1 - 1 / dur < f ∧ f ≤ r.2 ∧ (1 / dur ≤ r.1 → 1 / dur ≤ f) ∧
        ∃ i < nfreq q m r, f ≤ rawFreq q m r i ∧ rawFreq q m r i < f + 1 / dur := by
  have hmem : ∀ f, f ∈ freqs dur q m r ↔ ∃ i < nfreq q m r, floorTo dur (rawFreq q m r i) = f := by
    intro f
    unfold freqs
    rw [Finset.mem_sort, List.mem_toFinset, List.mem_map]
    simp
  refine ⟨?_, ?_, ?_⟩
  · unfold freqs; exact (Finset.sortedLT_sort _).pairwise
  · intro h0
    have := (hmem (floorTo dur (rawFreq q m r 0))).2 ⟨0, nfreq_pos _ _ _, rfl⟩
    rw [h0] at this; simp at this
  · intro f hf
    obtain ⟨i, hi, rfl⟩ := (hmem f).1 hf
    obtain ⟨h1, h2⟩ := rawFreq_mem q m r hr1 hr i hi
    set x := rawFreq q m r i
    have hx : 0 < x := hr1.trans_le h1
    have hfl : floorTo dur x = ⌊x * dur⌋ / dur := by
      unfold floorTo
      rw [show x / (1 / dur) = x * dur by field_simp]
      ring
    have hnn : 0 ≤ ⌊x * dur⌋ := Int.floor_nonneg.2 (by positivity)
    have hle : floorTo dur x ≤ x := by
      rw [hfl, div_le_iff₀ hd]; exact Int.floor_le _
    have hlt : x < floorTo dur x + 1 / dur := by
      rw [hfl, ← add_div, lt_div_iff₀ hd]; exact Int.lt_floor_add_one _
    refine ⟨⟨⌊x * dur⌋.toNat, ?_⟩, by linarith, hle.trans h2, ?_, i, hi, hle, hlt⟩
    · rw [hfl, div_mul_cancel₀ _ hd.ne']
      have : ((⌊x * dur⌋.toNat : ℕ) : ℤ) = ⌊x * dur⌋ := Int.toNat_of_nonneg hnn
      have h2 : ((⌊x * dur⌋.toNat : ℕ) : ℝ) = (⌊x * dur⌋ : ℝ) := by exact_mod_cast this
      exact h2.symm
    · intro hge
      have : (1 : ℤ) ≤ ⌊x * dur⌋ := by
        rw [Int.le_floor]
        have := hge.trans h1
        rw [div_le_iff₀ hd] at this
        exact_mod_cast this
      have h3 : (1 : ℝ) ≤ ⌊x * dur⌋ := by exact_mod_cast this
      rw [hfl]
      gcongr

/-- **Range.**  With the default limits, the range is non-empty exactly for the `q` that the constructor accepts. -/
theorem default_range_iff (dur sr q : ℝ) (hd : 0 < dur) (hs : 0 < sr) (hq : 0 < q) :
    (resolve dur sr q (0, none)).1 < (resolve dur sr q (0, none)).2 ↔ q < maxQ dur sr := by
  unfold resolve maxQ qprime
  dsimp only
  rw [if_pos (le_refl _)]
  have hp := Real.pi_pos
  have h11 : 0 < Real.sqrt 11 := by positivity
  have e : sr / 2 / (1 + 1 / (q / Real.sqrt 11)) = sr * q / (2 * (q + Real.sqrt 11)) := by
    field_simp
  rw [e, div_lt_div_iff₀ (by positivity) (by positivity), lt_sub_iff_add_lt, lt_div_iff₀ (by norm_num)]
  constructor
  · intro h
    have : 2 * q * ((q + Real.sqrt 11) * 50) < 2 * q * (Real.pi * dur * sr) := by linarith
    exact lt_of_mul_lt_mul_left this (by positivity)
  · intro h
    have : 2 * q * ((q + Real.sqrt 11) * 50) < 2 * q * (Real.pi * dur * sr) := by gcongr
    linarith

theorem parseInterp_ok_iff (s : String) : (∃ m, parseInterp s = .ok m) ↔ s ∈ ["bilinear", "bicubic", "spline"] := by
  unfold parseInterp
  simp only [List.mem_cons, List.not_mem_nil, or_false]
  by_cases h1 : s = "bilinear"
  · simp [h1]
  · by_cases h2 : s = "bicubic"
    · simp [h2]
    · by_cases h3 : s = "spline"
      · simp [h3]
      · simp [h1, h2, h3]

theorem parseInterp_err (s : String) (h : s ∉ ["bilinear", "bicubic", "spline"]) : parseInterp s = .error .value := by
  simp only [List.mem_cons, List.not_mem_nil, or_false, not_or] at h
  simp [parseInterp, h]

/-- The times of the tiles of a row of `n`: `0, dur/n, 2 dur/n, ...`. -/
noncomputable def times (dur : ℝ) (n : ℕ) : List ℝ := (List.range n).map fun u : ℕ => (u : ℝ) * (dur / n)

theorem arange0_eq (dur : ℝ) (n : ℕ) (hd : 0 < dur) (hn : 0 < n) : arange0 dur (dur / n) = times dur n := by
  have hn' : (0 : ℝ) < n := by exact_mod_cast hn
  unfold arange0 times
  have : dur / (dur / n) = ((n : ℤ) : ℝ) := by rw [div_div_cancel₀ hd.ne']; simp
  rw [this, Int.ceil_intCast, Int.toNat_natCast]

/-- The time interpolator that the set-up builds for rows of `n` tiles. -/
noncomputable def timeInterp (dur : ℝ) (T n : ℕ) : Spline.Interp1D :=
  ⟨⟨times dur n, 3, 0⟩, some (times dur T), some (Spline.Axis.rows ⟨times dur n, 3, 0⟩ (times dur T))⟩

/-- The frequency interpolator that the set-up builds. -/
noncomputable def freqInterp (fs : List ℝ) (r : ℝ × ℝ) (F : ℕ) : Spline.Interp1D :=
  ⟨⟨fs, 3, 0⟩, some (logspace r.1 r.2 F), some (Spline.Axis.rows ⟨fs, 3, 0⟩ (logspace r.1 r.2 F))⟩

theorem ntiles_nonneg (t : QTile) : 0 ≤ t.ntiles := by
  unfold QTile.ntiles pyInt
  split_ifs with h1 h2
  · exact le_refl _
  · exact Int.floor_nonneg.2 h2
  · exact absurd (by positivity) h2

theorem mem_uniqueNtiles (l : List ℤ) (n : ℤ) : n ∈ uniqueNtiles l ↔ n ∈ l := by
  unfold uniqueNtiles; rw [Finset.mem_sort, List.mem_toFinset]

/-- What the spline method demands of a transform: at least one time bin, five frequencies, and five tiles in every row. -/
def SplineFits (s : Single) : Prop := s.bins.2 ≠ 0 ∧ 5 ≤ s.freqs.length ∧ ∀ t ∈ s.transforms, 5 ≤ t.ntiles

theorem interp_init (x : List ℝ) (o : List ℝ) (h : 5 ≤ x.length) :
    Spline.Interp1D.init x 3 0 (some o) = .ok ⟨⟨x, 3, 0⟩, some o, some (Spline.Axis.rows ⟨x, 3, 0⟩ o)⟩ := by
  unfold Spline.Interp1D.init; rw [if_neg (by omega)]; rfl

theorem times_length (dur : ℝ) (n : ℕ) : (times dur n).length = n := by simp [times]

/-- **Spline set-up.**  It succeeds exactly for transforms with at least one time bin, five frequencies and five tiles in every row, and builds one
time interpolator per distinct number of tiles. -/
theorem setup_ok (s : Single) (hd : 0 < s.dur) (h : SplineFits s) :
    s.setup = .ok ((uniqueNtiles (s.transforms.map QTile.ntiles)).map fun n => timeInterp s.dur s.bins.2 n.toNat, freqInterp s.freqs s.range s.bins.1) := by
  obtain ⟨h1, h2, h3⟩ := h
  unfold Single.setup
  rw [if_neg h1]
  dsimp only
  rw [mapM_ok _ (fun n : ℤ => timeInterp s.dur s.bins.2 n.toNat)]
  · simp only [res_bind_ok, interp_init _ _ h2]; rfl
  · intro n hn
    rw [mem_uniqueNtiles] at hn
    obtain ⟨t, ht, rfl⟩ := List.mem_map.1 hn
    have h5 := h3 t ht
    rw [if_neg (by omega)]
    have hc : ((t.ntiles : ℤ) : ℝ) = ((t.ntiles.toNat : ℕ) : ℝ) := by
      have : ((t.ntiles.toNat : ℕ) : ℤ) = t.ntiles := Int.toNat_of_nonneg (by omega)
      exact_mod_cast this.symm
    rw [hc, arange0_eq _ _ hd (by omega), arange0_eq _ _ hd (by omega), interp_init _ _ (by rw [times_length]; omega)]; rfl

theorem mapM_err {α β : Type _} (f : α → Res β) (l : List α) (x : α) (hx : x ∈ l) (e : Err) (h : f x = .error e) : ∃ e', l.mapM f = .error e' := by
  cases hm : l.mapM f with
  | error e' => exact ⟨e', rfl⟩
  | ok ys =>
    exfalso
    induction l generalizing ys with
    | nil => simp at hx
    | cons a l ih =>
      rw [List.mapM_cons] at hm
      cases ha : f a with
      | error e2 => rw [ha] at hm; simp [bind, Except.bind] at hm
      | ok y =>
        rw [ha] at hm
        cases hl : l.mapM f with
        | error e2 => rw [hl] at hm; simp [bind, Except.bind] at hm
        | ok zs =>
          rcases List.mem_cons.1 hx with rfl | hx
          · rw [h] at ha; simp at ha
          · exact ih hx zs hl

theorem setup_reject (s : Single) (hd : 0 < s.dur) (h : ¬ SplineFits s) : ∃ e, s.setup = .error e := by
  unfold Single.setup
  by_cases h1 : s.bins.2 = 0
  · rw [if_pos h1]; exact ⟨_, rfl⟩
  · rw [if_neg h1]
    dsimp only
    by_cases h3 : ∀ t ∈ s.transforms, 5 ≤ t.ntiles
    · have h2 : ¬ 5 ≤ s.freqs.length := fun h2 => h ⟨h1, h2, h3⟩
      cases hm : (uniqueNtiles (s.transforms.map QTile.ntiles)).mapM fun n : ℤ =>
        if n = 0 then (.error .zeroDivision : Res Spline.Interp1D) else Spline.Interp1D.init (arange0 s.dur (s.dur / n)) 3 0 (some (arange0 s.dur (s.dur / s.bins.2))) with
      | error e => exact ⟨e, rfl⟩
      | ok fs =>
        simp only [res_bind_ok]
        unfold Spline.Interp1D.init
        rw [if_pos (by omega)]
        exact ⟨_, rfl⟩
    · push Not at h3
      obtain ⟨t, ht, hlt⟩ := h3
      obtain ⟨e, he⟩ : ∃ e, (if t.ntiles = 0 then (.error .zeroDivision : Res Spline.Interp1D) else
          Spline.Interp1D.init (arange0 s.dur (s.dur / t.ntiles)) 3 0 (some (arange0 s.dur (s.dur / s.bins.2)))) = .error e := by
        by_cases h0 : t.ntiles = 0
        · rw [if_pos h0]; exact ⟨_, rfl⟩
        · rw [if_neg h0]
          have hnn := ntiles_nonneg t
          have hc : ((t.ntiles : ℤ) : ℝ) = ((t.ntiles.toNat : ℕ) : ℝ) := by
            have : ((t.ntiles.toNat : ℕ) : ℤ) = t.ntiles := Int.toNat_of_nonneg (by omega)
            exact_mod_cast this.symm
          rw [hc, arange0_eq _ _ hd (by omega)]
          unfold Spline.Interp1D.init
          rw [if_pos (by rw [times_length]; omega)]
          exact ⟨_, rfl⟩
      obtain ⟨e', he'⟩ := mapM_err (fun n : ℤ =>
        if n = 0 then (.error .zeroDivision : Res Spline.Interp1D) else Spline.Interp1D.init (arange0 s.dur (s.dur / n)) 3 0 (some (arange0 s.dur (s.dur / s.bins.2))))
        (uniqueNtiles (s.transforms.map QTile.ntiles)) t.ntiles ((mem_uniqueNtiles _ _).2 (List.mem_map_of_mem ht)) e he
      rw [he']
      exact ⟨e', rfl⟩

/-- With at least one time bin and one tile in every row, the error is ValueError. -/
theorem setup_reject_value (s : Single) (hd : 0 < s.dur) (h : ¬ SplineFits s) (h1 : s.bins.2 ≠ 0) (h0 : ∀ t ∈ s.transforms, t.ntiles ≠ 0) :
    s.setup = .error .value := by
  unfold Single.setup
  rw [if_neg h1]
  dsimp only
  have key : ∀ l : List ℤ, (∀ n ∈ l, n ≠ 0) → (l.mapM fun n : ℤ =>
      if n = 0 then (.error .zeroDivision : Res Spline.Interp1D) else Spline.Interp1D.init (arange0 s.dur (s.dur / n)) 3 0 (some (arange0 s.dur (s.dur / s.bins.2)))) = .error .value ∨
      ∃ fs, (l.mapM fun n : ℤ =>
      if n = 0 then (.error .zeroDivision : Res Spline.Interp1D) else Spline.Interp1D.init (arange0 s.dur (s.dur / n)) 3 0 (some (arange0 s.dur (s.dur / s.bins.2)))) = .ok fs := by
    intro l hl
    induction l with
    | nil => exact .inr ⟨[], rfl⟩
    | cons a l ih =>
      rw [List.mapM_cons, if_neg (hl a (by simp))]
      unfold Spline.Interp1D.init
      split_ifs with h5
      · exact .inl rfl
      · rcases ih (fun n hn => hl n (by simp [hn])) with h | ⟨fs, h⟩
        · left; unfold Spline.Interp1D.init at h; simp only [res_bind_ok, h]; rfl
        · right; unfold Spline.Interp1D.init at h; simp only [res_bind_ok, h]; exact ⟨_, rfl⟩
  rcases key (uniqueNtiles (s.transforms.map QTile.ntiles)) (fun n hn => by
    rw [mem_uniqueNtiles] at hn
    obtain ⟨t, ht, rfl⟩ := List.mem_map.1 hn
    exact h0 t ht) with hk | ⟨fs, hk⟩
  · rw [hk]; rfl
  · obtain ⟨e, he⟩ := setup_reject s hd h
    unfold Single.setup at he
    rw [if_neg h1] at he
    dsimp only at he
    rw [hk] at he ⊢
    simp only [res_bind_ok] at he ⊢
    unfold Spline.Interp1D.init at he ⊢
    split_ifs at he ⊢ with h5
    · rfl
    · simp [res_bind_ok] at he

/-- The transform that the constructor builds: the limits replaced where they were not positive or infinite, no tiles yet, and for the spline method
the interpolators. -/
noncomputable def built (dur sr : ℝ) (bins : ℕ × ℕ) (q : ℝ) (fr : FRange) (m : ℝ) (i : Interp) : Single :=
  let r := resolve dur sr q fr
  let fs := freqs dur q m r
  ⟨dur, sr, q, m, bins, r, i,
    if i = .spline then some ((uniqueNtiles (fs.map fun f => QTile.ntiles ⟨q, f, dur, sr, m⟩)).map fun n => timeInterp dur bins.2 n.toNat, freqInterp fs r bins.1) else none,
    none⟩

/-- What the arguments of the constructor must satisfy. -/
def Accepts (dur sr : ℝ) (bins : ℕ × ℕ) (q : ℝ) (fr : FRange) (m : ℝ) (i : Interp) : Prop :=
  q < maxQ dur sr ∧ 0 < (resolve dur sr q fr).2 / (resolve dur sr q fr).1 ∧
    (i = .spline → bins.2 ≠ 0 ∧ 5 ≤ (freqs dur q m (resolve dur sr q fr)).length ∧
      ∀ f ∈ freqs dur q m (resolve dur sr q fr), 5 ≤ QTile.ntiles ⟨q, f, dur, sr, m⟩)

theorem init_ok (dur sr : ℝ) (bins : ℕ × ℕ) (q : ℝ) (fr : Option FRange) (m : ℝ) (method : String) (i : Interp)
    (hd : 0 < dur) (hm : parseInterp method = .ok i) (ha : Accepts dur sr bins q (fr.getD (0, none)) m i) :
    Single.init dur sr bins q fr m method = (.ok (built dur sr bins q (fr.getD (0, none)) m i),
      fr.map fun _ => ((resolve dur sr q (fr.getD (0, none))).1, some (resolve dur sr q (fr.getD (0, none))).2)) := by
  obtain ⟨h1, h2, h3⟩ := ha
  unfold Single.init
  dsimp only
  rw [if_neg (not_le.2 h1), hm]
  dsimp only
  rw [if_neg (not_le.2 h2)]
  by_cases hi : i = .spline
  · rw [if_pos hi]
    obtain ⟨a1, a2, a3⟩ := h3 hi
    have hf : SplineFits (⟨dur, sr, q, m, bins, resolve dur sr q (fr.getD (0, none)), i, none, none⟩ : Single) := by
      refine ⟨a1, a2, fun t ht => ?_⟩
      unfold Single.transforms at ht
      obtain ⟨f, hf, rfl⟩ := List.mem_map.1 ht
      exact a3 f hf
    rw [setup_ok (⟨dur, sr, q, m, bins, resolve dur sr q (fr.getD (0, none)), i, none, none⟩ : Single) hd hf]
    simp only [res_bind_ok]
    unfold built
    dsimp only
    rw [if_pos hi]
    simp only [Single.transforms, Single.freqs, List.map_map, Function.comp_def]
  · rw [if_neg hi]
    unfold built
    dsimp only
    rw [if_neg hi]

theorem init_reject (dur sr : ℝ) (bins : ℕ × ℕ) (q : ℝ) (fr : Option FRange) (m : ℝ) (method : String) (i : Interp)
    (hd : 0 < dur) (hm : parseInterp method = .ok i) (ha : ¬ Accepts dur sr bins q (fr.getD (0, none)) m i) :
    ∃ e, (Single.init dur sr bins q fr m method).1 = .error e ∧ (bins.2 ≠ 0 → (∀ f ∈ freqs dur q m (resolve dur sr q (fr.getD (0, none))), QTile.ntiles ⟨q, f, dur, sr, m⟩ ≠ 0) → e = .value) := by
  unfold Single.init
  dsimp only
  by_cases h1 : q ≥ maxQ dur sr
  · rw [if_pos h1]; exact ⟨_, rfl, fun _ _ => rfl⟩
  rw [if_neg h1, hm]
  dsimp only
  by_cases h2 : (resolve dur sr q (fr.getD (0, none))).2 / (resolve dur sr q (fr.getD (0, none))).1 ≤ 0
  · rw [if_pos h2]; exact ⟨_, rfl, fun _ _ => rfl⟩
  rw [if_neg h2]
  by_cases hi : i = .spline
  · rw [if_pos hi]
    have hnf : ¬ SplineFits (⟨dur, sr, q, m, bins, resolve dur sr q (fr.getD (0, none)), i, none, none⟩ : Single) := by
      rintro ⟨a1, a2, a3⟩
      refine ha ⟨not_le.1 h1, not_le.1 h2, fun _ => ⟨a1, a2, fun f hf => ?_⟩⟩
      exact a3 _ (List.mem_map_of_mem hf)
    obtain ⟨e, he⟩ := setup_reject _ hd hnf
    refine ⟨e, by rw [he]; rfl, fun hb h0 => ?_⟩
    have := setup_reject_value _ hd hnf hb (by
      intro t ht
      unfold Single.transforms at ht
      obtain ⟨f, hf, rfl⟩ := List.mem_map.1 ht
      exact h0 f hf)
    rw [he] at this
    exact Except.error.inj this
  · exact absurd ⟨not_le.1 h1, not_le.1 h2, fun h => absurd h hi⟩ ha

/-- **Acceptance.**  The constructor succeeds exactly for `Q` below the limit, a known method, limits of the same sign and, for the spline method, at least one
time bin, five frequencies and five tiles in every row. -/
theorem init_ok_iff (dur sr : ℝ) (bins : ℕ × ℕ) (q : ℝ) (fr : Option FRange) (m : ℝ) (method : String) (hd : 0 < dur) :
    (∃ s, (Single.init dur sr bins q fr m method).1 = .ok s) ↔ ∃ i, parseInterp method = .ok i ∧ Accepts dur sr bins q (fr.getD (0, none)) m i := by
  constructor
  · rintro ⟨s, hs⟩
    cases hp : parseInterp method with
    | error e =>
      exfalso
      unfold Single.init at hs
      dsimp only at hs
      rw [hp] at hs
      by_cases h0 : q ≥ maxQ dur sr
      · rw [if_pos h0] at hs; simp at hs
      · rw [if_neg h0] at hs; simp at hs
    | ok i =>
      refine ⟨i, rfl, ?_⟩
      by_contra ha
      obtain ⟨e, he, -⟩ := init_reject dur sr bins q fr m method i hd hp ha
      rw [he] at hs
      simp at hs
  · rintro ⟨i, hi, ha⟩
    exact ⟨_, by rw [init_ok dur sr bins q fr m method i hd hi ha]⟩

/-- `Q` at or above the limit, or an unknown method, raises ValueError. -/
theorem init_value (dur sr : ℝ) (bins : ℕ × ℕ) (q : ℝ) (fr : Option FRange) (m : ℝ) (method : String)
    (h : ¬ (q < maxQ dur sr ∧ method ∈ ["bilinear", "bicubic", "spline"])) : (Single.init dur sr bins q fr m method).1 = .error .value := by
  unfold Single.init
  dsimp only
  by_cases hq : q ≥ maxQ dur sr
  · rw [if_pos hq]
  · rw [if_neg hq, parseInterp_err method fun hm => h ⟨not_le.1 hq, hm⟩]

/-- The limits that are filled in are positive. -/
theorem resolve_pos (dur sr q : ℝ) (fr : FRange) (hd : 0 < dur) (hs : 0 < sr) (hq : 0 < q) (hf : ∀ h, fr.2 = some h → 0 < h) :
    0 < (resolve dur sr q fr).1 ∧ 0 < (resolve dur sr q fr).2 := by
  have hp := Real.pi_pos
  have hqp := qprime_pos hq
  unfold resolve
  constructor
  · dsimp only
    split_ifs with h
    · positivity
    · exact not_le.1 h
  · obtain ⟨a, b⟩ := fr
    cases b with
    | none => dsimp only; positivity
    | some h => exact hf h rfl

/-- **Finding.**  The constructor writes the limits it chose into the caller's list: building two transforms with the same list `[0, inf]` gives the second the limits of the first. -/
theorem frange_aliasing (dur sr : ℝ) (bins : ℕ × ℕ) (q₁ q₂ m : ℝ) (method : String) (hmethod : method ∈ ["bilinear", "bicubic"])
    (hd : 0 < dur) (hs : 0 < sr) (hq : 0 < q₁) (hq₂ : 0 < q₂) (hq₁m : q₁ < maxQ dur sr) (hq₂m : q₂ < maxQ dur sr) :
    ∃ s₁ s₂ s₂' fr, Single.init dur sr bins q₁ (some (0, none)) m method = (.ok s₁, some fr) ∧
      (Single.init dur sr bins q₂ (some fr) m method).1 = .ok s₂ ∧ s₂.range = s₁.range ∧
      (Single.init dur sr bins q₂ (some (0, none)) m method).1 = .ok s₂' ∧ s₂'.range.1 = 50 * q₂ / (2 * Real.pi * dur) ∧
      s₁.range.1 = 50 * q₁ / (2 * Real.pi * dur) := by
  obtain ⟨i, hi, hns⟩ : ∃ i, parseInterp method = .ok i ∧ i ≠ .spline := by
    simp only [List.mem_cons, List.not_mem_nil, or_false] at hmethod
    rcases hmethod with rfl | rfl
    · exact ⟨.bilinear, by simp [parseInterp], by simp⟩
    · exact ⟨.bicubic, by simp [parseInterp], by simp⟩
  obtain ⟨p1, p2⟩ := resolve_pos dur sr q₁ (0, none) hd hs hq (by simp)
  obtain ⟨p3, p4⟩ := resolve_pos dur sr q₂ (0, none) hd hs hq₂ (by simp)
  have hrr : resolve dur sr q₂ ((resolve dur sr q₁ (0, none)).1, some (resolve dur sr q₁ (0, none)).2) = resolve dur sr q₁ (0, none) := by
    generalize resolve dur sr q₁ (0, none) = r at *
    unfold resolve
    dsimp only
    rw [if_neg (not_le.2 p1)]
  refine ⟨built dur sr bins q₁ (0, none) m i, built dur sr bins q₂ ((resolve dur sr q₁ (0, none)).1, some (resolve dur sr q₁ (0, none)).2) m i,
    built dur sr bins q₂ (0, none) m i, ((resolve dur sr q₁ (0, none)).1, some (resolve dur sr q₁ (0, none)).2), ?_, ?_, ?_, ?_, ?_, ?_⟩
  · rw [init_ok dur sr bins q₁ (some (0, none)) m method i hd hi ⟨hq₁m, div_pos p2 p1, fun h => absurd h hns⟩]; rfl
  · rw [init_ok dur sr bins q₂ _ m method i hd hi ⟨hq₂m, by rw [Option.getD_some, hrr]; exact div_pos p2 p1, fun h => absurd h hns⟩]; rfl
  · exact hrr
  · rw [init_ok dur sr bins q₂ (some (0, none)) m method i hd hi ⟨hq₂m, div_pos p4 p3, fun h => absurd h hns⟩]; rfl
  · simp [built, resolve]
  · simp [built, resolve]

/-- Non-vacuity of `frange_aliasing`: the two lower limits differ. -/
example : (50 * (12 : ℝ) / (2 * Real.pi * 2)) ≠ 50 * 30 / (2 * Real.pi * 2) := by
  have := Real.pi_pos
  intro h
  rw [div_left_inj' (by positivity)] at h
  norm_num at h

/-! ## Rows in order -/

theorem filter_eq_flatten (keys : List ℤ) (hk : keys.Pairwise (· < ·)) (g : ℕ → ℤ) (n : ℕ) (hmono : ∀ i j, i ≤ j → j < n → g i ≤ g j)
    (hmem : ∀ i < n, g i ∈ keys) :
    (keys.map fun k => (List.range n).filter fun i => decide (g i = k)).flatten = List.range n := by
  induction keys generalizing n g with
  | nil =>
    rcases Nat.eq_zero_or_pos n with rfl | h
    · simp
    · have := hmem 0 h; simp at this
  | cons k ks ih =>
    have hks := (List.pairwise_cons.1 hk)
    -- the first key occupies an initial segment
    obtain ⟨a, ha, hlt, hge⟩ : ∃ a ≤ n, (∀ i < a, g i = k) ∧ ∀ i, a ≤ i → i < n → k < g i := by
      have : ∀ p ≤ n, ∃ a ≤ p, (∀ i < a, g i = k) ∧ ∀ i, a ≤ i → i < p → k < g i := by
        intro p
        induction p with
        | zero => intro _; exact ⟨0, le_refl _, by omega, by omega⟩
        | succ p ihp =>
          intro hp
          obtain ⟨a, ha, h1, h2⟩ := ihp (by omega)
          have hkp : g p = k ∨ k < g p := by
            rcases List.mem_cons.1 (hmem p (by omega)) with h | h
            · exact .inl h
            · exact .inr (hks.1 _ h)
          rcases hkp with h | h
          · have hap : a = p := by
              by_contra hne
              have hlt' := h2 a (le_refl _) (by omega)
              have := hmono a p (by omega) (by omega)
              omega
            subst hap
            refine ⟨a + 1, le_refl _, ?_, by omega⟩
            intro i hi
            rcases Nat.lt_or_ge i a with h' | h'
            · exact h1 i h'
            · have : i = a := by omega
              subst this; exact h
          · refine ⟨a, by omega, h1, ?_⟩
            intro i hi1 hi2
            rcases Nat.lt_or_ge i p with h' | h'
            · exact h2 i hi1 h'
            · have : i = p := by omega
              subst this; exact h
      exact this n (le_refl _)
    have hr : List.range n = List.range a ++ (List.range (n - a)).map (a + ·) := by
      rw [← List.range_add]; congr 1; omega
    have f1 : (List.range n).filter (fun i => decide (g i = k)) = List.range a := by
      rw [hr, List.filter_append, List.filter_eq_self.2, List.filter_eq_nil_iff.2, List.append_nil]
      · intro i hi
        obtain ⟨j, hj, rfl⟩ := List.mem_map.1 hi
        have hj := List.mem_range.1 hj
        have := hge (a + j) (by omega) (by omega)
        simp; omega
      · intro i hi
        have := hlt i (List.mem_range.1 hi)
        simpa using this
    have f2 : ∀ k' ∈ ks, (List.range n).filter (fun i => decide (g i = k')) =
        ((List.range (n - a)).filter fun i => decide (g (a + i) = k')).map (a + ·) := by
      intro k' hk'
      rw [hr, List.filter_append, List.filter_eq_nil_iff.2, List.nil_append, List.filter_map]
      · rfl
      · intro i hi
        have h1 := hlt i (List.mem_range.1 hi)
        have h2 := hks.1 _ hk'
        simp; omega
    rw [List.map_cons, List.flatten_cons, f1, hr]
    congr 1
    rw [← hr, List.map_congr_left f2]
    have := ih hks.2 (fun i => g (a + i)) (n - a) (fun i j h1 h2 => hmono _ _ (by omega) (by omega)) (by
      intro i hi
      rcases List.mem_cons.1 (hmem (a + i) (by omega)) with h | h
      · have := hge (a + i) (by omega) (by omega); omega
      · exact h)
    refine Eq.trans ?_ (congrArg (List.map (a + ·)) this)
    rw [List.map_flatten, List.map_map]
    rfl

/-- **Order of the rows.**  When the number of tiles does not decrease with the frequency (`ntiles_mono`), grouping the rows by their number of tiles
and concatenating the groups keeps them in order of frequency. -/
theorem stackIdx_in_order (ntiles : List ℤ) (hmono : ntiles.Pairwise (· ≤ ·)) : (stackIdx ntiles).flatten = List.range ntiles.length := by
    unfold stackIdx uniqueNtiles
    refine filter_eq_flatten _ (Finset.sortedLT_sort _).pairwise (fun i => ntiles.getD i 0) _ ?_ ?_
    · intro i j hij hj
      rw [List.getD_eq_getElem _ _ (by omega), List.getD_eq_getElem _ _ hj]
      rcases Nat.lt_or_ge i j with h | h
      · exact List.pairwise_iff_getElem.1 hmono i j (by omega) hj h
      · have : i = j := by omega
        subst this; exact le_refl _
    · intro i hi
      rw [Finset.mem_sort, List.mem_toFinset, List.getD_eq_getElem _ _ hi]
      exact List.getElem_mem _

/-- The tiles of a transform have a non-decreasing number of tiles. -/
theorem transforms_mono (s : Single) (hd : 0 < s.dur) (hq : 0 < s.q) (hm : 0 < s.mismatch) (hr : s.range.1 ≤ s.range.2) (hr1 : 1 / s.dur ≤ s.range.1) :
    (s.transforms.map QTile.ntiles).Pairwise (· ≤ ·) := by
  have hpos : 0 < s.range.1 := lt_of_lt_of_le (by positivity) hr1
  obtain ⟨h1, -, h3⟩ := freqs_spec s.dur s.q s.mismatch s.range hd hpos hr
  unfold Single.transforms Single.freqs
  rw [List.map_map, List.pairwise_map]
  refine h1.imp_of_mem ?_
  intro a b ha hb hab
  have hpa : 0 < a := lt_of_lt_of_le (by positivity) ((h3 a ha).2.2.2.1 hr1)
  exact ntiles_mono s.q a b s.dur s.sr s.mismatch hq hpa hab.le hd hm

/-- Non-vacuity: two groups. -/
example : stackIdx [16, 16, 32] = [[0, 1], [2]] := by
  have : ([16, 16, 32] : List ℤ).toFinset.sort (· ≤ ·) = [16, 32] := by
    refine List.Perm.eq_of_pairwise (le := (· ≤ ·)) (fun a b _ _ h1 h2 => le_antisymm h1 h2) (Finset.pairwise_sort _ _) (by decide) ?_
    rw [← Multiset.coe_eq_coe, Finset.sort_eq]; rfl
  unfold stackIdx uniqueNtiles
  rw [this]; decide

/-! ## Computing the tiles -/

/-- With the default frequency range and `q ≥ 1`, every row has at least sixteen tiles, whatever mismatch up to one is requested. -/
theorem default_ntiles (s : Single) (hd : 0 < s.dur) (hs : 0 < s.sr) (hq : 1 ≤ s.q) (hq' : s.q < maxQ s.dur s.sr) (hm : 0 < s.mismatch)
    (hm1 : s.mismatch ≤ 1) (hr : s.range = resolve s.dur s.sr s.q (0, none)) :
    1 / s.dur ≤ s.range.1 ∧ s.range.1 ≤ s.range.2 ∧ ∀ t ∈ s.transforms, 16 ≤ t.ntiles := by
  have hq0 : 0 < s.q := by linarith
  have hp := Real.pi_pos
  have hp4 := Real.pi_le_four
  have hle : s.range.1 ≤ s.range.2 := by rw [hr]; exact ((default_range_iff _ _ _ hd hs hq0).2 hq').le
  have h1 : s.range.1 = 50 * s.q / (2 * Real.pi * s.dur) := by rw [hr]; simp [resolve]
  have hge : 1 / s.dur ≤ s.range.1 := by
    rw [h1, div_le_div_iff₀ hd (by positivity)]
    nlinarith
  refine ⟨hge, hle, ?_⟩
  intro t ht
  unfold Single.transforms at ht
  obtain ⟨f, hf, rfl⟩ := List.mem_map.1 ht
  have hpos : 0 < s.range.1 := lt_of_lt_of_le (by positivity) hge
  obtain ⟨-, -, h3⟩ := freqs_spec s.dur s.q s.mismatch s.range hd hpos hle
  obtain ⟨-, hlo, -, hf1, -⟩ := h3 f hf
  have hf0 : 0 < f := lt_of_lt_of_le (by positivity) (hf1 hge)
  have hfd : 50 * s.q / (2 * Real.pi) - 1 < f * s.dur := by
    have : s.range.1 * s.dur < (f + 1 / s.dur) * s.dur := by gcongr; linarith
    rw [add_mul, one_div_mul_cancel hd.ne', h1] at this
    have e : 50 * s.q / (2 * Real.pi * s.dur) * s.dur = 50 * s.q / (2 * Real.pi) := by field_simp
    rw [e] at this; linarith
  have hdm : deltam s.mismatch ≤ 2 := by
    unfold deltam
    have : Real.sqrt (s.mismatch / 3) ≤ 1 := by rw [Real.sqrt_le_left (by norm_num)]; linarith
    linarith
  have hdm0 := deltam_pos hm
  have hbig : 2 * s.q * 16 ≤ s.dur * 2 * Real.pi * f := by
    have h2 : (50 * s.q / (2 * Real.pi) - 1) * (2 * Real.pi) ≤ f * s.dur * (2 * Real.pi) := by gcongr
    have e : (50 * s.q / (2 * Real.pi) - 1) * (2 * Real.pi) = 50 * s.q - 2 * Real.pi := by field_simp
    rw [e] at h2
    nlinarith
  have hratio : 16 ≤ s.dur * 2 * Real.pi * f / s.q / deltam s.mismatch := by
    rw [le_div_iff₀ hdm0, le_div_iff₀ hq0]
    nlinarith
  rcases ntiles_pow_two ⟨s.q, f, s.dur, s.sr, s.mismatch⟩ hq0 hf0 hd hm with ⟨-, h⟩ | ⟨k, hk, h, -⟩
  · dsimp only at h; linarith
  · rw [hk]
    dsimp only at h
    have : (16 : ℝ) ≤ 2 ^ k := hratio.trans h
    exact_mod_cast this

/-- **The tiles.**  For data of the duration and sample rate given at construction, `compute_qtiles` never fails: it stores one row of tiles per frequency, in order, whose entries
are the normalised energies of the scaled spectrum of each batch element and channel. -/
theorem compute_ok (s : Single) (x : Tensor ℝ) (lead : List ℕ) (N : ℕ) (norm : Option String) (nrm : (n : ℕ) → (ℕ → ℝ) → ℝ)
    (hx : x.shape = lead ++ [N]) (hl : lead.length ≤ 2) (hN : 0 < N) (hNs : pyInt (s.dur * s.sr) = N) (hn : normalizer norm = .ok nrm)
    (h2 : ∀ t ∈ s.transforms, 2 ≤ t.ntiles) :
    ∃ ts : List (Tensor ℝ), s.compute x norm = .ok { s with tiles := some ts } ∧ ts.length = s.freqs.length ∧
      ∀ i (hi : i < ts.length) (hi' : i < s.transforms.length),
        (s.transforms[i]).f = s.freqs.getD i 0 ∧
        ts[i].shape = (List.replicate (2 - lead.length) 1 ++ lead) ++ [(s.transforms[i]).ntiles.toNat] ∧
        ∀ b : List ℕ, b.length = 2 → ∀ u, ts[i].get (b ++ [u]) =
          (s.transforms[i]).energy (fun k => rfft N (fun t => x.get (dropLead lead b ++ [t])) k / (N : ℂ) * (if 1 ≤ k then 2 else 1)) u /
            nrm (s.transforms[i]).ntiles.toNat
              ((s.transforms[i]).energy fun k => rfft N (fun t => x.get (dropLead lead b ++ [t])) k / (N : ℂ) * (if 1 ≤ k then 2 else 1)) := by
  have hlast : x.shape.getLastD 0 = N := by rw [hx]; simp
  have hsp : (scaledSpectrum x).shape = lead ++ [N / 2 + 1] := by
    unfold scaledSpectrum mapRows; rw [hlast, hx, List.dropLast_concat]
  have hnr : nRfft s.dur s.sr = ((N / 2 : ℕ) : ℤ) := by
    unfold nRfft; rw [hNs]; exact Int.fdiv_eq_ediv_of_nonneg _ (by norm_num)
  have hdur : ∀ t ∈ s.transforms, t.dur = s.dur ∧ t.sr = s.sr := by
    intro t ht
    unfold Single.transforms at ht
    obtain ⟨f, _, rfl⟩ := List.mem_map.1 ht
    exact ⟨rfl, rfl⟩
  have hfw : ∀ t ∈ s.transforms, ∃ E, t.forward (scaledSpectrum x) norm = .ok E ∧
      E.shape = (List.replicate (2 - lead.length) 1 ++ lead) ++ [t.ntiles.toNat] ∧
      ∀ b : List ℕ, b.length = 2 → ∀ u, E.get (b ++ [u]) =
        t.energy (fun k => (scaledSpectrum x).get (dropLead lead b ++ [k])) u /
          nrm t.ntiles.toNat (t.energy fun k => (scaledSpectrum x).get (dropLead lead b ++ [k])) := by
    intro t ht
    obtain ⟨e1, e2⟩ := hdur t ht
    refine forward_ok t (scaledSpectrum x) lead norm nrm ?_ hl ?_ (h2 t ht) hn
    · rw [e1, e2, hnr, hsp, Int.toNat_natCast]
    · rw [e1, e2, hnr]; positivity
  obtain ⟨ts, hts, hlen, hget⟩ := mapM_get (fun t => QTile.forward t (scaledSpectrum x) norm) s.transforms (fun t ht => (hfw t ht).imp fun E h => h.1)
  refine ⟨ts, ?_, ?_, ?_⟩
  · unfold Single.compute
    rw [if_neg (by rw [hlast]; omega), hts]; rfl
  · rw [hlen]; simp [Single.transforms]
  · intro i hi hi'
    refine ⟨?_, ?_⟩
    · have hi'' : i < s.freqs.length := by simpa [Single.transforms] using hi'
      simp only [Single.transforms, List.getElem_map]
      rw [List.getD_eq_getElem _ _ hi'']
    · obtain ⟨E, h1, h3, h4⟩ := hfw _ (List.getElem_mem hi')
      have := hget i hi' hi
      rw [h1] at this
      have hE : E = ts[i] := Except.ok.inj this
      subst hE
      refine ⟨h3, ?_⟩
      intro b hb u
      rw [h4 b hb u]
      have e : ∀ k, (scaledSpectrum x).get (dropLead lead b ++ [k]) =
          rfft N (fun t => x.get (dropLead lead b ++ [t])) k / (N : ℂ) * (if 1 ≤ k then 2 else 1) := by
        intro k
        unfold scaledSpectrum mapRows
        simp only [hlast, List.dropLast_concat, List.getLastD_concat]
      simp only [e]

/-! ## Searching -/

theorem pmax_spec (l : List ℝ) (hne : l ≠ []) : ∃ m, pmax l = .ok m ∧ m ∈ l ∧ ∀ x ∈ l, x ≤ m := by
  cases l with
  | nil => exact absurd rfl hne
  | cons a l =>
    refine ⟨_, rfl, ?_⟩
    clear hne
    induction l generalizing a with
    | nil => simp
    | cons b l ih =>
      rw [List.foldl_cons]
      obtain ⟨h1, h2⟩ := ih (max a b)
      refine ⟨?_, ?_⟩
      · rcases List.mem_cons.1 h1 with h | h
        · rw [h]; rcases max_choice a b with h' | h' <;> simp [h']
        · simp [h]
      · intro x hx
        have h0 := h2 (max a b) (by simp)
        rcases List.mem_cons.1 hx with rfl | hx
        · exact le_trans (le_max_left _ _) h0
        · rcases List.mem_cons.1 hx with rfl | hx
          · exact le_trans (le_max_right _ _) h0
          · exact h2 x (by simp [hx])

theorem minIdx_spec (l : List ℕ) (hne : l ≠ []) : ∃ m, minIdx l = .ok m ∧ m ∈ l ∧ ∀ x ∈ l, m ≤ x := by
  cases l with
  | nil => exact absurd rfl hne
  | cons a l =>
    refine ⟨_, rfl, ?_⟩
    clear hne
    induction l generalizing a with
    | nil => simp
    | cons b l ih =>
      rw [List.foldl_cons]
      obtain ⟨h1, h2⟩ := ih (min a b)
      refine ⟨?_, ?_⟩
      · rcases List.mem_cons.1 h1 with h | h
        · rw [h]; rcases min_choice a b with h' | h' <;> simp [h']
        · simp [h]
      · intro x hx
        have h0 := h2 (min a b) (by simp)
        rcases List.mem_cons.1 hx with rfl | hx
        · exact le_trans h0 (min_le_left _ _)
        · rcases List.mem_cons.1 hx with rfl | hx
          · exact le_trans h0 (min_le_right _ _)
          · exact h2 x (by simp [hx])

theorem tmax_spec (t : Tensor ℝ) (i₀ : List ℕ) (h : InB i₀ t.shape) :
    ∃ m, tmax t = .ok m ∧ (∃ i, InB i t.shape ∧ t.get i = m) ∧ ∀ i, InB i t.shape → t.get i ≤ m := by
  have hmem : ∀ y, y ∈ ((Tensor.allIdx t.shape).map t.get).toFinset ↔ ∃ i, InB i t.shape ∧ t.get i = y := by
    intro y
    rw [List.mem_toFinset, List.mem_map]
    simp only [mem_allIdx]
  have hne : ((Tensor.allIdx t.shape).map t.get).toFinset.Nonempty := ⟨t.get i₀, (hmem _).2 ⟨i₀, h, rfl⟩⟩
  unfold tmax
  rw [dif_pos hne]
  refine ⟨_, rfl, (hmem _).1 (Finset.max'_mem _ hne), ?_⟩
  intro i hi
  exact Finset.le_max' _ _ ((hmem _).2 ⟨i, hi, rfl⟩)

/-- The searched range of rows: with ascending frequencies, those in `(a, b]`, provided there are frequencies above `a` and above `b`. -/
theorem searchTiles_spec (fs : List ℝ) (hfs : fs.Pairwise (· < ·)) (tiles : List (Tensor ℝ)) (hlen : tiles.length = fs.length) (a b : ℝ)
    (hb : ∃ f ∈ fs, b < f) (ha : ∃ f ∈ fs, a < f) :
    ∃ ts, searchTiles fs tiles (some (a, b)) = .ok ts ∧
      ∀ t, t ∈ ts ↔ ∃ i, ∃ (hi : i < tiles.length), t = tiles[i] ∧ a < fs.getD i 0 ∧ fs.getD i 0 ≤ b := by
  have hmono : ∀ i j, i < j → j < fs.length → fs.getD i 0 < fs.getD j 0 := by
    intro i j hij hj
    rw [List.getD_eq_getElem _ _ (by omega), List.getD_eq_getElem _ _ hj]
    exact List.pairwise_iff_getElem.1 hfs i j (by omega) hj hij
  have key : ∀ c, (∃ f ∈ fs, c < f) → ∃ m, minIdx (argwhere (fun f => decide (c < f)) fs) = .ok m ∧ m < fs.length ∧ ∀ i < fs.length, c < fs.getD i 0 ↔ m ≤ i := by
    intro c ⟨f, hf, hc⟩
    obtain ⟨i, hi, rfl⟩ := List.mem_iff_getElem.1 hf
    have hmem : ∀ k, k ∈ argwhere (fun f => decide (c < f)) fs ↔ k < fs.length ∧ c < fs.getD k 0 := by
      intro k; unfold argwhere; simp
    have hne : argwhere (fun f => decide (c < f)) fs ≠ [] := by
      intro h0
      have := (hmem i).2 ⟨hi, by rw [List.getD_eq_getElem _ _ hi]; exact hc⟩
      rw [h0] at this; simp at this
    obtain ⟨m, h1, h2, h3⟩ := minIdx_spec _ hne
    obtain ⟨h4, h5⟩ := (hmem m).1 h2
    refine ⟨m, h1, h4, ?_⟩
    intro k hk
    constructor
    · intro h; exact h3 k ((hmem k).2 ⟨hk, h⟩)
    · intro h
      rcases Nat.lt_or_ge m k with h' | h'
      · exact h5.trans (hmono m k h' hk)
      · have : m = k := by omega
        subst this; exact h5
  obtain ⟨m, hm, hml, hmi⟩ := key a ha
  obtain ⟨n, hn, hnl, hni⟩ := key b hb
  refine ⟨(tiles.take n).drop m, ?_, ?_⟩
  · unfold searchTiles
    simp only [hm, hn, res_bind_ok]
  · intro t
    constructor
    · intro ht
      obtain ⟨k, hk, rfl⟩ := List.mem_iff_getElem.1 ht
      have hk' : m + k < n ∧ m + k < tiles.length := by
        simp only [List.length_drop, List.length_take] at hk; omega
      refine ⟨m + k, hk'.2, ?_, (hmi _ (by omega)).2 (by omega), ?_⟩
      · rw [List.getElem_drop, List.getElem_take]
      · exact not_lt.1 fun h => by have := (hni (m + k) (by omega)).1 h; omega
    · rintro ⟨i, hi, rfl, h1, h2⟩
      have hmi' := (hmi i (by omega)).1 h1
      have hni' : i < n := by
        by_contra h
        exact absurd ((hni i (by omega)).2 (by omega)) (not_lt.2 h2)
      refine List.mem_iff_getElem.2 ⟨i - m, by simp only [List.length_drop, List.length_take]; omega, ?_⟩
      rw [List.getElem_drop, List.getElem_take]
      congr 1; omega

/-- **Finding.**  A search range that ends at or above the highest frequency of the transform raises ValueError. -/
theorem searchTiles_reject (fs : List ℝ) (tiles : List (Tensor ℝ)) (a b : ℝ) (h : ∀ f ∈ fs, f ≤ b) :
    searchTiles fs tiles (some (a, b)) = .error .value := by
  have e : argwhere (fun f => decide (b < f)) fs = [] := by
    unfold argwhere
    rw [List.filter_eq_nil_iff]
    intro i hi
    have hi := List.mem_range.1 hi
    simp only [decide_eq_true_eq, not_lt]
    rw [List.getD_eq_getElem _ _ hi]
    exact h _ (List.getElem_mem _)
  unfold searchTiles
  dsimp only
  rw [e]
  cases argwhere (fun f => decide (a < f)) fs <;> rfl

/-- **Maximum energy.**  After `compute_qtiles`, `get_max_energy` returns the largest entry of the rows searched. -/
theorem maxEnergy_spec (s : Single) (tiles ts : List (Tensor ℝ)) (fsearch : Option (ℝ × ℝ)) (ht : s.tiles = some tiles)
    (hs : searchTiles s.freqs tiles fsearch = .ok ts) (hne : ts ≠ []) (hin : ∀ t ∈ ts, ∃ i, InB i t.shape) :
    ∃ m, s.maxEnergy fsearch = .ok m ∧ (∃ t ∈ ts, ∃ i, InB i t.shape ∧ t.get i = m) ∧ ∀ t ∈ ts, ∀ i, InB i t.shape → t.get i ≤ m := by
  obtain ⟨ms, hms, hlen, hget⟩ := mapM_get tmax ts (fun t h => by
    obtain ⟨i, hi⟩ := hin t h
    obtain ⟨m, hm, -⟩ := tmax_spec t i hi
    exact ⟨m, hm⟩)
  have hmsne : ms ≠ [] := by
    intro h0
    rw [h0] at hlen
    exact hne (List.length_eq_zero_iff.1 hlen.symm)
  obtain ⟨m, h1, h2, h3⟩ := pmax_spec ms hmsne
  refine ⟨m, ?_, ?_, ?_⟩
  · unfold Single.maxEnergy
    rw [ht]
    simp only [hs, hms, res_bind_ok, h1]
  · obtain ⟨k, hk, rfl⟩ := List.mem_iff_getElem.1 h2
    have hk' : k < ts.length := by omega
    obtain ⟨i, hi⟩ := hin _ (List.getElem_mem hk')
    obtain ⟨m', hm', ⟨j, hj, hjm⟩, -⟩ := tmax_spec _ i hi
    have := hget k hk' hk
    rw [hm'] at this
    exact ⟨_, List.getElem_mem hk', j, hj, hjm.trans (Except.ok.inj this)⟩
  · intro t htm i hi
    obtain ⟨k, hk, rfl⟩ := List.mem_iff_getElem.1 htm
    obtain ⟨m', hm', -, hmax⟩ := tmax_spec _ i hi
    have hk' : k < ms.length := by omega
    have := hget k hk hk'
    rw [hm'] at this
    exact (hmax i hi).trans ((Except.ok.inj this).trans_le (h3 _ (List.getElem_mem hk')))

end Verif.QTransform
