import Verif.Fourier
import Mathlib.Data.List.Sort
/-! # Specification: Welch power spectral density -/
namespace Verif.Spec.Welch
open Finset Verif.Fourier Classical

/-- Factor of bin `k` in a one-sided spectrum of an `N`-point transform: the bins that also stand for a
negative frequency count twice; DC and (for even `N`) Nyquist count once. -/
def oneSided (N k : ℕ) : ℝ := if k = 0 ∨ 2 * k = N then 1 else 2

/-- Mean of the first `N` values. -/
noncomputable def mean (N : ℕ) (f : ℕ → ℝ) : ℝ := (∑ t ∈ range N, f t) / N

/-- `m` is a median of the values `l`: at least half of them are `≤ m` and at least half are `≥ m`. -/
def IsMedian (l : List ℝ) (m : ℝ) : Prop :=
  l.length ≤ 2 * l.countP (fun v => decide (v ≤ m)) ∧ l.length ≤ 2 * l.countP (fun v => decide (m ≤ v))

/-- The conventional median: the middle value, or the mean of the two middle values. -/
noncomputable def median (l : List ℝ) : ℝ :=
  let s := l.insertionSort (· ≤ ·)
  (s.getD ((l.length - 1) / 2) 0 + s.getD (l.length / 2) 0) / 2

/-- Bias of the median of `n` periodogram values (Allen et al. 2012, scipy): the alternating harmonic
sum with `n` terms, or `n-1` terms if `n` is even. -/
noncomputable def altHarmonic (n : ℕ) : ℝ :=
  ∑ i ∈ range (if n % 2 = 1 then n else n - 1), (-1) ^ i / ((i + 1 : ℕ) : ℝ)

/-- Combining the `S` segments. -/
noncomputable def combine (average : String) (S : ℕ) (f : ℕ → ℝ) : ℝ :=
  if average = "mean" then mean S f else median ((List.range S).map f) / altHarmonic S

/-- Windowed spectrum of one segment. -/
noncomputable def spec (N : ℕ) (w seg : ℕ → ℝ) (k : ℕ) : ℂ := rfft N (fun t => w t * seg t) k

/-- Segment `s` of a series. -/
def segment (hop : ℕ) (x : ℕ → ℝ) (s t : ℕ) : ℝ := x (s * hop + t)

/-- Number of whole segments in `T` samples. -/
def segments (T N hop : ℕ) : ℕ := (T - N) / hop + 1

/-- Welch PSD with every segment detrended by its own mean. -/
noncomputable def psd (T N hop : ℕ) (w : ℕ → ℝ) (scale : ℝ) (average : String) (x : ℕ → ℝ) (k : ℕ) : ℝ :=
  combine average (segments T N hop) fun s =>
    let seg := segment hop x s
    scale * oneSided N k * ‖spec N w (fun t => seg t - mean N seg) k‖ ^ 2

/-- Welch PSD with the mean of the whole series removed instead. -/
noncomputable def psdFast (T N hop : ℕ) (w : ℕ → ℝ) (scale : ℝ) (average : String) (x : ℕ → ℝ) (k : ℕ) : ℝ :=
  combine average (segments T N hop) fun s =>
    scale * oneSided N k * ‖spec N w (fun t => segment hop x s t - mean T x) k‖ ^ 2

/-- Welch cross spectral density (means of the whole series removed; `x` conjugated): the real and the
imaginary parts of the segments are combined separately. -/
noncomputable def csdFast (T N hop : ℕ) (w : ℕ → ℝ) (scale : ℝ) (average : String) (x y : ℕ → ℝ) (k : ℕ) : ℂ :=
  let z := fun s => ((scale * oneSided N k : ℝ) : ℂ) *
    ((starRingEnd ℂ) (spec N w (fun t => segment hop x s t - mean T x) k) *
      spec N w (fun t => segment hop y s t - mean T y) k)
  ⟨combine average (segments T N hop) fun s => (z s).re, combine average (segments T N hop) fun s => (z s).im⟩

end Verif.Spec.Welch
