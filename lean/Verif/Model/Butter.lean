import Verif.Model.IIRFilter
import Verif.Model.Generator
/-!
# The highpass filter of the generator (generator.py:92-109, iirfilter.py:73-83)

`scipy.signal.iirfilter(order, Wn, btype="highpass", ftype="butterworth", output="ba")` follows the formulas of SciPy's documentation and source:
analog prototype, change to a highpass filter, bilinear transform, expansion of the products.  SciPy is not part of the repository; these
definitions are part of the trusted base.  Exact arithmetic.
-/
namespace Verif.Butter

/-- The analog prototype poles (`buttap`, called at iirfilter.py:73-83): `-exp(1j * pi * m / (2 * N))` for `m = -N + 1, -N + 3, …, N - 1`. -/
noncomputable def protoPole (N : ℕ) (k : ℕ) : ℂ := -Complex.exp (Complex.I * Real.pi * ((-(N : ℝ) + 1 + 2 * k : ℝ) : ℂ) / (2 * N))

/-- The prewarped frequency `2 * fs * tan(pi * Wn / fs)` with `fs = 2` (`iirfilter`, called at iirfilter.py:73-83). -/
noncomputable def warped (Wn : ℝ) : ℝ := 2 * 2 * Real.tan (Real.pi * Wn / 2)

/-- The poles after `lp2hp_zpk`, `wo / p` (iirfilter.py:73-83). -/
noncomputable def hpPole (N : ℕ) (Wn : ℝ) (k : ℕ) : ℂ := (warped Wn : ℂ) / protoPole N k

/-- The gain after `lp2hp_zpk`, `real(1 / prod(-p))` (iirfilter.py:73-83); the zeros are `N` times zero. -/
noncomputable def hpGain (N : ℕ) : ℝ := (1 / ∏ k ∈ Finset.range N, (-protoPole N k)).re

/-- The poles after `bilinear_zpk`, `(fs2 + p) / (fs2 - p)` with `fs2 = 4` (iirfilter.py:73-83). -/
noncomputable def pole (N : ℕ) (Wn : ℝ) (k : ℕ) : ℂ := (4 + hpPole N Wn k) / (4 - hpPole N Wn k)

/-- The gain after `bilinear_zpk`, `k * real(prod(fs2 - z) / prod(fs2 - p))` (iirfilter.py:73-83). -/
noncomputable def gain (N : ℕ) (Wn : ℝ) : ℝ := hpGain N * ((4 : ℂ) ^ N / ∏ k ∈ Finset.range N, (4 - hpPole N Wn k)).re

/-- One step of `numpy.poly`: `convolve(c, [1, -r])` (called by `zpk2tf`, iirfilter.py:73-83). -/
noncomputable def polyStep (c : List ℂ) (r : ℂ) : List ℂ := List.zipWith (· - ·) (c ++ [0]) (0 :: c.map (r * ·))

/-- `numpy.poly(roots)` (iirfilter.py:73-83). -/
noncomputable def poly (roots : List ℂ) : List ℂ := roots.foldl polyStep [1]

/-- `zpk2tf` (iirfilter.py:73-83): the pair `(b, a)`.  The imaginary parts are dropped, which SciPy does since the roots come in conjugate pairs. -/
noncomputable def highpass (N : ℕ) (Wn : ℝ) : List ℝ × List ℝ :=
  ((poly (List.replicate N 1)).map fun c => gain N Wn * c.re, (poly ((List.range N).map (pole N Wn))).map Complex.re)

end Verif.Butter

namespace Verif.Generator

/-- `build_highpass_filter` (generator.py:92-109): order 8 and the normalised critical frequency; SciPy rejects a frequency outside `(0, 1)`. -/
noncomputable def Gen.buildHighpass (g : Gen) : Res IIRFilter.Module :=
  IIRFilter.init (if 0 < g.highpassWn ∧ g.highpassWn < 1 then .ok (Butter.highpass 8 g.highpassWn) else .error .value)

/-- The filter of `forward` on one series of `N` samples (generator.py:364-365): two passes of the recursion spread a NaN over the whole series. -/
noncomputable def filtO (m : IIRFilter.Module) (N : ℕ) (x : ℕ → Option ℝ) (t : ℕ) : Option ℝ :=
  open Classical in if ∀ k, k < N → (x k).isSome then
    some (IIRFilter.lfilterRow m.a m.b (fun s => IIRFilter.lfilterRow m.a m.b (fun j => (x j).getD 0) (N - 1 - s)) (N - 1 - t)) else none

/-- `TimeDomainCBCWaveformGenerator(...)(**parameters)` with its own filter (generator.py:56-73, 319-367). -/
noncomputable def Gen.run (g : Gen) (approx : List ℝ → Res (ℕ → ℕ → ℂ × ℂ)) (ps : List Par) : Res Series := do
  let m ← g.buildHighpass
  g.forward (filtO m) approx ps

end Verif.Generator
