import Verif.Fourier
import Mathlib.Analysis.Real.Sqrt
/-! # Specification: whitening filters -/
namespace Verif.Spec.Whiten
open Finset Verif.Fourier

/-- Bin `k` (of `F` bins with spacing `df`) is removed: the next bin is not above the highpass frequency,
the next bin is above the lowpass frequency, or it is the last of an odd number of bins. -/
def Removed (F : ℕ) (df : ℝ) (highpass lowpass : Option ℝ) (k : ℕ) : Prop :=
  (∃ hp, highpass = some hp ∧ ((k : ℝ) + 1) * df ≤ hp) ∨
  (∃ lp, lowpass = some lp ∧ lp < ((k : ℝ) + 1) * df) ∨ (F % 2 = 1 ∧ k = F - 1)

open Classical in
/-- Amplitude response before truncation: the inverse ASD with the removed bins set to zero. -/
noncomputable def amplitude (F : ℕ) (df : ℝ) (highpass lowpass : Option ℝ) (psd : ℕ → ℝ) (k : ℕ) : ℝ :=
  if Removed F df highpass lowpass k then 0 else 1 / Real.sqrt (psd k)

/-- Weight of sample `t` of the (circular) impulse response of `N` samples: only `pad` samples at either
end are kept, multiplied by the second half (`w₂`) resp. first half (`w₁`) of the taper. -/
def taperWeight (N pad : ℕ) (w₁ w₂ : ℕ → ℝ) (t : ℕ) : ℝ :=
  if t < pad then w₂ t else if N - pad ≤ t then w₁ (t - (N - pad)) else 0

/-- Frequency response of the truncated filter with `N` time samples. -/
noncomputable def response (N pad : ℕ) (w₁ w₂ : ℕ → ℝ) (amp : ℕ → ℝ) (k : ℕ) : ℂ :=
  rfft N (fun t => taperWeight N pad w₁ w₂ t * irfftF N (fun k => (amp k : ℂ)) t) k / N

/-- The whitened series: the demeaned series filtered with the (zero phase) amplitude response `‖H‖`,
scaled by `√(2/sr)`. -/
noncomputable def whitened (N : ℕ) (sr : ℝ) (H : ℕ → ℂ) (x : ℕ → ℝ) (t : ℕ) : ℝ :=
  Real.sqrt 2 / Real.sqrt sr *
    irfft N (fun k => rfft N (fun t => x t - (∑ s ∈ range N, x s) / N) k * (‖H k‖ : ℂ)) t

/-- The truncated filter in the time domain, on the circle of `N` samples: zero except for `pad` samples at either end. -/
noncomputable def impulse (N pad : ℕ) (w₁ w₂ : ℕ → ℝ) (amp : ℕ → ℝ) (t : ℕ) : ℝ :=
  taperWeight N pad w₁ w₂ t * irfftF N (fun k => (amp k : ℂ)) t / N

/-- The same as `2·pad + 1` taps of a filter centred at tap `pad`: tap `j` is the weight of the sample `j - pad` after the current one. -/
noncomputable def taps (N pad : ℕ) (w₁ w₂ : ℕ → ℝ) (amp : ℕ → ℝ) (j : ℕ) : ℝ :=
  impulse N pad w₁ w₂ amp (if j ≤ pad then pad - j else N + pad - j)

end Verif.Spec.Whiten
