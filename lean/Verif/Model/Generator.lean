import Verif.Model.CbcUtils
import Verif.Model.QTransform
import Verif.Fourier
import Mathlib.Analysis.SpecialFunctions.Trigonometric.Arctan
/-!
# Model of the time-domain generator (ml4gw/waveforms/generator.py)

Exact real arithmetic.  A batch is a list of parameter sets; the approximant and the highpass filter are parameters.  Values that may be NaN are options, `none` being NaN.
-/
namespace Verif.Generator
open CbcUtils Whiten QTransform Fourier

/-- The numbers `mass_1`, `mass_2` (solar masses), `s1z`, `s2z` of one waveform. (generator.py:146-151) -/
structure Par where
  mass1 : ℝ
  mass2 : ℝ
  s1z : ℝ
  s2z : ℝ

/-- The constructor's numbers (generator.py:56-71). -/
structure Gen where
  sampleRate : ℝ
  duration : ℝ
  fMin : ℝ
  fRef : ℝ
  rightPad : ℝ

/-- `nyquist` (generator.py:79-81). -/
noncomputable def Gen.nyquist (g : Gen) : ℤ := pyInt (g.sampleRate / 2)

/-- `size` (generator.py:83-86). -/
noncomputable def Gen.size (g : Gen) : ℤ := pyInt (g.duration * g.sampleRate)

/-- `f_isco` (generator.py:146-154, 285-287): masses are converted to kilogrammes. -/
noncomputable def fIsco (p : Par) : ℝ := frequencyIsco (p.mass1 * msun) (p.mass2 * msun)

/-- `f_min` (generator.py:155-158). -/
noncomputable def Gen.fLow (g : Gen) (p : Par) : ℝ := min (fIsco p) g.fMin

/-- `tchirp` (generator.py:161). -/
noncomputable def Gen.tchirp (g : Gen) (p : Par) : ℝ := chirpTimeBound (g.fLow p) (p.mass1 * msun) (p.mass2 * msun) p.s1z p.s2z

/-- `tmerge` (generator.py:164-169). -/
noncomputable def tmerge (p : Par) : ℝ :=
  mergeTimeBound (p.mass1 * msun) (p.mass2 * msun) + ringdownTimeBound (p.mass1 * msun + p.mass2 * msun) (finalSpinBound p.s1z p.s2z)

/-- `textra` (generator.py:174). -/
noncomputable def Gen.textra (g : Gen) (p : Par) : ℝ := 3 / g.fLow p

/-- `fstart` (generator.py:178-180). -/
noncomputable def Gen.fstart (g : Gen) (p : Par) : ℝ := chirpStartFrequencyBound ((1 + 0.1) * g.tchirp p) (p.mass1 * msun) (p.mass2 * msun)

/-- `tchirp_fstart + tmerge + 2 * textra` (generator.py:183-190). -/
noncomputable def Gen.time (g : Gen) (p : Par) : ℝ :=
  chirpTimeBound (g.fstart p) (p.mass1 * msun) (p.mass2 * msun) p.s1z p.s2z + tmerge p + 2 * g.textra p

/-- `chirplen` (generator.py:188-193). -/
noncomputable def Gen.chirplen (g : Gen) (p : Par) : ℝ := (2 : ℝ) ^ ⌈Real.log (roundEven (g.time p * g.sampleRate)) / Real.log 2⌉

/-- `Tensor.max()` of a one-dimensional tensor; an empty one raises RuntimeError. (generator.py:197) -/
noncomputable def listMax : List ℝ → Res ℝ
  | [] => .error .runtime
  | a :: l => .ok (l.foldl max a)

/-- `Tensor.min()`. (generator.py:204) -/
noncomputable def listMin : List ℝ → Res ℝ
  | [] => .error .runtime
  | a :: l => .ok (l.foldl min a)

/-- The critical frequency of `build_highpass_filter` (generator.py:98-102), in hertz. -/
noncomputable def Gen.highpassFc (g : Gen) : ℝ :=
  let w1 := Real.tan (Real.pi * g.fMin / g.sampleRate)
  let wc := w1 * (1 / (0.99 : ℝ) ^ (0.5 : ℝ) - 1) ^ ((1 : ℝ) / (2 * 8))
  g.sampleRate * Real.arctan wc / Real.pi

/-- The normalised critical frequency passed to the filter design (generator.py:104-109). -/
noncomputable def Gen.highpassWn (g : Gen) : ℝ := g.highpassFc / (g.sampleRate / 2)

/-- `df` (generator.py:197). -/
noncomputable def Gen.df (g : Gen) (ps : List Par) : Res ℝ := do
  let m ← listMax (ps.map g.chirplen)
  return 1 / (m / g.sampleRate)

/-- The number of frequencies (generator.py:113). -/
noncomputable def Gen.numFreqs (g : Gen) (df : ℝ) : ℕ := (pyInt (g.nyquist / df) + 1).toNat

/-- Entry `k` of `get_frequencies(df)`, a `linspace` from zero to the Nyquist frequency (generator.py:111-114). -/
noncomputable def Gen.freqAt (g : Gen) (df : ℝ) (k : ℕ) : ℝ := k * ((g.nyquist : ℝ) / ((g.numFreqs df : ℝ) - 1))

/-- The frequencies at which the approximant is evaluated (generator.py:204-205). -/
noncomputable def Gen.waveFreqs (g : Gen) (df fs : ℝ) : List ℝ := ((List.range (g.numFreqs df)).map (g.freqAt df)).filter fun f => decide (fs ≤ f)

/-- The spectrum after `spectrum[:, freq_mask] = values` (generator.py:213-221): masked entries take the values in order. -/
noncomputable def Gen.scatter (g : Gen) (df fs : ℝ) (h : ℕ → ℂ) (k : ℕ) : ℂ :=
  if fs ≤ g.freqAt df k then h (((List.range k).filter fun j => decide (fs ≤ g.freqAt df j)).length) else 0

/-- One value of `windows` (generator.py:244-246): zero divided by zero if the taper has a single point. -/
noncomputable def window (k : ℕ) (k0 k1 : ℤ) : Option ℝ :=
  if k1 = k0 then none else some (0.5 - 0.5 * Real.cos (Real.pi * ((k : ℝ) - k0) / ((k1 : ℝ) - k0)))

/-- Multiplication by a value that may be NaN. (generator.py:248-249, 266-267) -/
noncomputable def mulO (z : ℂ) (w : Option ℝ) : Option ℂ := w.map fun r : ℝ => z * (r : ℂ)

/-- The spectrum after tapering, zeroing and the time shift (generator.py:230-267). -/
noncomputable def Gen.conditioned (g : Gen) (df fs : ℝ) (p : Par) (h : ℕ → ℂ) (k : ℕ) : Option ℂ :=
  let k0 := roundEven (g.fstart p / df)
  let k1 := roundEven (g.fLow p / df)
  let x := g.scatter df fs h k
  let x := if (k : ℤ) ≤ k1 ∧ k0 ≤ (k : ℤ) then mulO x (window k k0 k1) else some x
  let x := if g.freqAt df k < g.fstart p then some 0 else x
  let x := if k + 1 = g.numFreqs df then some 0 else x
  let tshift := (roundEven (g.rightPad * g.sampleRate) : ℝ) / g.sampleRate
  x.map fun z => z * Complex.exp (Complex.I * 2 * Real.pi * df * tshift * k)

/-- The result of `generate_conditioned_fd_waveform`: number of frequencies, cross and plus spectra.
(generator.py:269) -/
structure Spectra where
  num : ℕ
  df : ℝ
  cross : ℕ → ℕ → Option ℂ
  plus : ℕ → ℕ → Option ℂ

/-- `generate_conditioned_fd_waveform` (generator.py:116-269).  `approx` maps the frequencies to cross and plus values for each waveform and frequency. -/
noncomputable def Gen.conditionedWaveform (g : Gen) (approx : List ℝ → Res (ℕ → ℕ → ℂ × ℂ)) (ps : List Par) : Res Spectra := do
  let df ← g.df ps
  let fs ← listMin (ps.map g.fstart)
  let h ← approx (g.waveFreqs df fs)
  return ⟨g.numFreqs df, df, fun b => g.conditioned df fs (ps.getD b ⟨0, 0, 0, 0⟩) fun j => (h b j).1,
    fun b => g.conditioned df fs (ps.getD b ⟨0, 0, 0, 0⟩) fun j => (h b j).2⟩

/-- `torch.fft.irfft` of a spectrum of `num` values: if one of them is NaN, so is every sample.
(generator.py:352-353) -/
noncomputable def irfftO (num : ℕ) (X : ℕ → Option ℂ) (t : ℕ) : Option ℝ :=
  open Classical in if ∀ k, k < num → (X k).isSome then some (irfft (2 * (num - 1)) (fun k => (X k).getD 0) t) else none

/-- `ntaper_start` (generator.py:293-295). -/
noncomputable def Gen.taperStart (g : Gen) : ℤ := max (roundEven (g.sampleRate / g.fMin)) 4

/-- `ntaper_end` (generator.py:303-305). -/
noncomputable def Gen.taperEnd (g : Gen) (p : Par) : ℤ := max (roundEven (g.sampleRate / fIsco p)) 4

/-- Entry `t` of `w_start` (generator.py:296-297). -/
noncomputable def Gen.wStart (g : Gen) (t : ℕ) : ℝ := 0.5 - 0.5 * Real.cos (Real.pi * t / g.taperStart)

/-- Entry `j` of `w_end` (generator.py:308-312). -/
noncomputable def Gen.wEnd (g : Gen) (p : Par) (maxN : ℤ) (j : ℤ) : ℝ :=
  let idx := (maxN - 1) - j
  if idx < g.taperEnd p then 0.5 - 0.5 * Real.cos (Real.pi * idx / g.taperEnd p) else 1

/-- The factor of `apply_td_condition_stage2` (generator.py:289-317) for sample `t` of `N`. -/
noncomputable def Gen.stage2Factor (g : Gen) (p : Par) (N : ℕ) (maxN : ℤ) (t : ℕ) : ℝ :=
  (if (t : ℤ) < g.taperStart then g.wStart t else 1) *
    (if (N : ℤ) - maxN + 1 ≤ t then g.wEnd p maxN (t - (N - maxN + 1)) else 1)

/-- The longest end taper of a batch. (generator.py:306) -/
noncomputable def Gen.maxTaper (g : Gen) (ps : List Par) : ℤ := ((ps.map g.taperEnd).foldl max 0)

/-- The tapers must fit: otherwise the in-place products have mismatched shapes (RuntimeError).
(generator.py:298-299, 314-315) -/
noncomputable def Gen.stage2Check (g : Gen) (ps : List Par) (N : ℕ) : Res Unit :=
  if (N : ℤ) < g.taperStart ∨ (N : ℤ) + 1 < g.maxTaper ps then .error .runtime else .ok ()

/-- Sample `t` after `torch.nn.functional.pad(x, (pad, 0))`, which crops if `pad` is negative (generator.py:358-360). -/
noncomputable def padLeft (pad : ℤ) (x : ℕ → Option ℝ) (t : ℕ) : Option ℝ := if (t : ℤ) < pad then some 0 else x ((t : ℤ) - pad).toNat

/-- Time series: number of samples, cross and plus. (generator.py:352-367) -/
structure Series where
  len : ℕ
  cross : ℕ → ℕ → Option ℝ
  plus : ℕ → ℕ → Option ℝ

/-- `forward` up to the highpass filter (generator.py:349-360). -/
noncomputable def Gen.unfiltered (g : Gen) (approx : List ℝ → Res (ℕ → ℕ → ℂ × ℂ)) (ps : List Par) : Res Series := do
  let s ← g.conditionedWaveform approx ps
  let N := 2 * (s.num - 1)
  raiseIf (N = 0) .runtime
  g.stage2Check ps N
  let td := fun (X : ℕ → ℕ → Option ℂ) (b t : ℕ) =>
    (irfftO s.num (X b) t).map fun r => r * g.sampleRate * g.stage2Factor (ps.getD b ⟨0, 0, 0, 0⟩) N (g.maxTaper ps) t
  let pad := pyInt (g.duration * g.sampleRate - (N : ℝ))
  raiseIf ((N : ℤ) + pad < 0) .runtime
  return ⟨((N : ℤ) + pad).toNat, fun b => padLeft pad (td s.cross b), fun b => padLeft pad (td s.plus b)⟩

/-- `forward` (generator.py:319-367); `filt` is the zero-phase highpass filter on series of the given length. -/
noncomputable def Gen.forward (g : Gen) (filt : ℕ → (ℕ → Option ℝ) → ℕ → Option ℝ) (approx : List ℝ → Res (ℕ → ℕ → ℂ × ℂ)) (ps : List Par) : Res Series := do
  let s ← g.unfiltered approx ps
  return ⟨s.len, fun b => filt s.len (s.cross b), fun b => filt s.len (s.plus b)⟩

end Verif.Generator
