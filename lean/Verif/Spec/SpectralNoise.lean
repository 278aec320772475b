import Mathlib.Probability.Moments.Covariance
import Mathlib.Probability.Distributions.Gaussian.Real
import Mathlib.Probability.HasLaw
import Mathlib.Probability.Independence.Basic
/-! # Specification: white noise -/
namespace Verif.Spec.Noise
open MeasureTheory ProbabilityTheory

/-- The samples `X 0 .. X (T-1)` are white noise of mean `m` and variance `σ2`: they have finite second
moments, the common mean and variance, and are pairwise uncorrelated. -/
structure White {Ω : Type*} [MeasurableSpace Ω] (P : Measure Ω) (T : ℕ) (X : ℕ → Ω → ℝ) (m σ2 : ℝ) : Prop where
  memLp : ∀ t < T, MemLp (X t) 2 P
  mean : ∀ t < T, ∫ ω, X t ω ∂P = m
  cov : ∀ s < T, ∀ t < T, cov[X s, X t; P] = if s = t then σ2 else 0

/-- The samples `X 0 .. X (T-1)` are Gaussian white noise: independent normal variables of mean `m` and
variance `v`. -/
structure GaussianWhite {Ω : Type*} [MeasurableSpace Ω] (P : Measure Ω) (T : ℕ) (X : ℕ → Ω → ℝ) (m : ℝ) (v : NNReal) :
    Prop where
  law : ∀ t < T, HasLaw (X t) (gaussianReal m v) P
  indep : iIndepFun (fun t : Fin T => X t) P

/-- The samples `X 0 .. X (T-1)` are noise of mean `m`, stationary on the circle of `T` samples, with one-sided power
spectral density `S` (value `S k` at the frequency `k·sr/T`, `k ≤ T/2`) at sample rate `sr`: the autocovariance is the
inverse cosine transform of the density. -/
structure Stationary {Ω : Type*} [MeasurableSpace Ω] (P : Measure Ω) (T : ℕ) (X : ℕ → Ω → ℝ) (m sr : ℝ) (S : ℕ → ℝ) : Prop where
  memLp : ∀ t < T, MemLp (X t) 2 P
  mean : ∀ t < T, ∫ ω, X t ω ∂P = m
  cov : ∀ s < T, ∀ t < T, cov[X s, X t; P] =
    sr / (2 * T) * ∑ k ∈ Finset.range T, S (min k (T - k)) * Real.cos (2 * Real.pi * k * ((s : ℝ) - t) / T)

end Verif.Spec.Noise
