import Mathlib.Analysis.SpecialFunctions.Complex.Circle
import Mathlib.Algebra.BigOperators.Group.Finset.Basic
/-!
# Meaning of `torch.fft.rfft` / `torch.fft.irfft`

Exact real arithmetic: the discrete Fourier transform as the defining finite sum.  Part of the trusted
base: torch's FFTs compute these sums up to rounding.
-/
namespace Verif.Fourier
open Finset

/-- `exp(2πi m / N)`. -/
noncomputable def ω (N : ℕ) (m : ℤ) : ℂ := Complex.exp (2 * Real.pi * Complex.I * m / N)

/-- `fft(x)[k] = Σ_{t<N} x[t] exp(-2πi k t / N)` (`norm="backward"`). -/
noncomputable def dft (N : ℕ) (x : ℕ → ℂ) (k : ℕ) : ℂ :=
  ∑ t ∈ range N, x t * ω N (-((k : ℤ) * t))

/-- `torch.fft.rfft(x)[k]` for a real signal of length `N`; `k` ranges over `0..N/2`. -/
noncomputable def rfft (N : ℕ) (x : ℕ → ℝ) (k : ℕ) : ℂ := dft N (fun t => (x t : ℂ)) k

/-- The full spectrum of length `N` that a half spectrum stands for. -/
noncomputable def herm (N : ℕ) (X : ℕ → ℂ) (k : ℕ) : ℂ :=
  if k ≤ N / 2 then X k else (starRingEnd ℂ) (X (N - k))

/-- `torch.fft.irfft(X, n=N, norm="forward")[t]`: the unscaled inverse transform of a half spectrum.
The imaginary parts of the DC bin and of the Nyquist bin are ignored (pocketfft/FFTW convention). -/
noncomputable def irfftF (N : ℕ) (X : ℕ → ℂ) (t : ℕ) : ℝ :=
  (∑ k ∈ range N, herm N X k * ω N ((k : ℤ) * t)).re

/-- `torch.fft.irfft(X, n=N)[t]` (default `norm="backward"`). -/
noncomputable def irfft (N : ℕ) (X : ℕ → ℂ) (t : ℕ) : ℝ := irfftF N X t / N

end Verif.Fourier
