import Verif.Fourier
import Mathlib.Analysis.Real.Sqrt
/-!
# Specification: signal-to-noise ratio of a sampled series
-/
namespace Verif.Spec.Snr
open Finset Verif.Fourier

/-- Frequency of bin `k` for `N` samples at rate `sr`. -/
noncomputable def freq (N : ℕ) (sr : ℝ) (k : ℕ) : ℝ := k * sr / N

/-- `4 Σ_k w_k |h̃_k|² / S_k df` over the one-sided bins, with `h̃ = DFT(h)/sr` and `df = sr/N`; `w` selects
(or weights) the frequencies. -/
noncomputable def snrSq (N : ℕ) (sr : ℝ) (S w : ℕ → ℝ) (h : ℕ → ℝ) : ℝ :=
  4 * ∑ k ∈ range (N / 2 + 1), w k * (‖rfft N h k / sr‖ ^ 2 / S k) * (sr / N)

open Classical in
/-- Weight of the bins at or above `f` (a high pass keeps them). -/
noncomputable def above (N : ℕ) (sr f : ℝ) (k : ℕ) : ℝ := if f ≤ freq N sr k then 1 else 0

open Classical in
/-- Weight of the bins strictly below `f` (a low pass keeps them). -/
noncomputable def below (N : ℕ) (sr f : ℝ) (k : ℕ) : ℝ := if freq N sr k < f then 1 else 0

end Verif.Spec.Snr
