import Verif.Model.Whiten
/-!
# Model of `IIRFilter` (ml4gw/transforms/iirfilter.py)

The module calls `torchaudio.functional.filtfilt(x, a, b, clamp=False)`.  Its meaning is fixed here as torchaudio documents it: a causal pass
with zero initial state, the same pass over the time-reversed result, and a reversal.  Exact real arithmetic; data types (torchaudio
asks for one type for signal and coefficients) and gradients are not modelled.
-/
namespace Verif.IIRFilter
open Finset

/-- The moving average `∑ b[k] x[n - k]` of `lfilter`; samples before the first are zero (iirfilter.py:98). -/
noncomputable def fir (b : List ℝ) (x : ℕ → ℝ) (n : ℕ) : ℝ := ∑ k ∈ range (n + 1), b.getD k 0 * x (n - k)

/-- The recursion of `lfilter` (iirfilter.py:98): the first `n` outputs, latest first, for coefficients `a` with leading one.  Each output is
the input minus the products of `a[1:]` with the latest outputs. -/
noncomputable def outputs (a : List ℝ) (u : ℕ → ℝ) : ℕ → List ℝ
  | 0 => []
  | n + 1 => (u n - (List.zipWith (· * ·) a.tail (outputs a u n)).sum) :: outputs a u n

/-- `lfilter(x, a, b)` on one row (iirfilter.py:98): the coefficients are divided by `a[0]` first. -/
noncomputable def lfilterRow (a b : List ℝ) (x : ℕ → ℝ) (n : ℕ) : ℝ :=
  (outputs (a.map (· / a.headD 0)) (fir (b.map (· / a.headD 0)) x) (n + 1)).headD 0

/-- `lfilter(x, a, b, clamp=False)` (iirfilter.py:98): coefficients of different sizes raise ValueError, a signal without samples cannot be
reshaped (RuntimeError). -/
noncomputable def lfilter (x : Tensor ℝ) (a b : List ℝ) : Res (Tensor ℝ) := do
  raiseIf (a.length ≠ b.length) .value
  let n ← x.lastDim
  raiseIf (n = 0) .runtime
  return Whiten.mapRows n (lfilterRow a b) x

/-- `x.flip(-1)` (iirfilter.py:98). -/
def flipLast (x : Tensor ℝ) : Tensor ℝ := ⟨x.shape, fun i => x.get (mapLast (fun t => x.shape.getLastD 0 - 1 - t) i)⟩

/-- `filtfilt(x, a, b, clamp=False)` (iirfilter.py:98). -/
noncomputable def filtfilt (x : Tensor ℝ) (a b : List ℝ) : Res (Tensor ℝ) := do
  let y ← lfilter x a b
  let z ← lfilter (flipLast y) a b
  return flipLast z

/-- The buffers of the module (iirfilter.py:84-85). -/
structure Module where
  a : List ℝ
  b : List ℝ

/-- `IIRFilter.__init__` (iirfilter.py:53-85): `design` is the outcome of `scipy.signal.iirfilter(..., output="ba")`, the pair `(b, a)`. -/
def init (design : Res (List ℝ × List ℝ)) : Res Module := do
  let (b, a) ← design
  return ⟨a, b⟩

/-- `IIRFilter.forward` (iirfilter.py:87-98). -/
noncomputable def Module.forward (m : Module) (x : Tensor ℝ) : Res (Tensor ℝ) := filtfilt x m.a m.b

end Verif.IIRFilter
