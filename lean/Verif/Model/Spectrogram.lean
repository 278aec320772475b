import Verif.Tensor
import Mathlib.Data.Real.Basic
import Mathlib.Data.List.Dedup
import Mathlib.Order.MinMax
import Mathlib.Data.List.Sort
/-!
# Model of `MultiResolutionSpectrogram` (ml4gw/transforms/spectrogram.py)

`torchaudio.transforms.Spectrogram` is a parameter: a transform is the shape of its output and a function of the
series.  The bin indices `int(i * shape / num)` are computed in exact arithmetic (the code divides in float32,
which agrees while `i * shape` stays below `2^24` and `num` below a few thousand).
-/
namespace Verif.Spectrogram

/-- Keyword arguments: names with lists of values. (spectrogram.py:106) -/
abbrev Kwargs (V : Type) := List (String × List V)

/-- `list(set(lengths))` for sorted `lengths` (spectrogram.py:107-108).  The order of a CPython set of small ints
is observable only for two elements; `{1, n}` is listed as `n, 1` exactly when `n` is a positive multiple of 8
(slot `hash mod 8`). -/
def setOrder (l : List ℕ) : List ℕ :=
  if l.length = 2 ∧ l.headD 0 = 1 ∧ l.getLastD 0 % 8 = 0 then l.reverse else l

/-- `list(set(lengths))`: the distinct lengths in the order of `setOrder`. (spectrogram.py:107-108) -/
def setList (lengths : List ℕ) : List ℕ := setOrder lengths.dedup.mergeSort

/-- `v * k` for a list. (spectrogram.py:127) -/
def repeatList {V : Type} (k : ℕ) (v : List V) : List V := (List.replicate k v).flatten

/-- `[dict(zip(kwargs, col, strict=True)) for col in zip(*kwargs.values(), strict=True)]` (spectrogram.py:129-132):
ValueError if the lists differ in length. -/
def zipKwargs {V : Type} (kwargs : Kwargs V) : Res (List (List (String × V))) :=
  match kwargs with
  | [] => .ok []
  | (_, v) :: _ =>
    if kwargs.all fun p => decide (p.2.length = v.length) then
      .ok ((List.range v.length).map fun i => kwargs.filterMap fun p => p.2[i]?.map fun x => (p.1, x))
    else .error .value

/-- The broadcast of the lists of length one (spectrogram.py:125-127); `int(size / len(v))`. -/
def expand {V : Type} (lengths : List ℕ) (kwargs : Kwargs V) : Kwargs V :=
  match lengths with
  | [_, size] => kwargs.map fun p => (p.1, repeatList (size / p.2.length) p.2)
  | _ => kwargs

/-- `_check_and_format_kwargs` (spectrogram.py:106-132) without the warning. -/
def formatKwargs {V : Type} (kwargs : Kwargs V) : Res (List (List (String × V))) := do
  let lengths := setList (kwargs.map fun p => p.2.length)
  if lengths.length > 2 ∨ (lengths.length = 2 ∧ lengths.headD 0 ≠ 1) then .error .value   -- lines 119-123
  else zipKwargs (expand lengths kwargs)

/-- A spectrogram transform: numbers of frequency and time bins for the configured input length, and the value.
(spectrogram.py:63-70) -/
structure Transform where
  freqs : ℕ
  times : ℕ
  apply : (ℕ → ℝ) → ℕ → ℕ → ℝ

/-- `max([...])`; ValueError on an empty list. (spectrogram.py:72-73) -/
def maxList (l : List ℕ) : Res ℕ :=
  match l with
  | [] => .error .value
  | a :: l => .ok (l.foldl max a)

/-- `int(i * shape / num)` (spectrogram.py:90, 97). -/
def binIdx (i shape num : ℕ) : ℕ := i * shape / num

/-- `base.repeat(n, 1, 1)` of a 2-d tensor. (spectrogram.py:94, 101) -/
def repeat3 (n : ℕ) (base : Tensor ℕ) : Tensor ℕ := ⟨n :: base.shape, fun i => base.get i.tail⟩

/-- `freq_idxs` (spectrogram.py:88-94), shape `(num_freqs, num_times, P)`. -/
def freqIdxs (shapes : List (ℕ × ℕ)) (numF numT : ℕ) : Tensor ℕ :=
  (repeat3 numT ⟨[numF, shapes.length], fun i => binIdx (i.getD 0 0) ((shapes.map (·.1)).getD (i.getD 1 0) 0) numF⟩).transpose 0 1

/-- `time_idxs` (spectrogram.py:95-101), shape `(num_freqs, num_times, P)`. -/
def timeIdxs (shapes : List (ℕ × ℕ)) (numF numT : ℕ) : Tensor ℕ :=
  repeat3 numF ⟨[numT, shapes.length], fun i => binIdx (i.getD 0 0) ((shapes.map (·.2)).getD (i.getD 1 0) 0) numT⟩

/-- `t(X)` for `X` of shape `(B, C, T)`: shape `(B, C, freqs, times)`. (spectrogram.py:157) -/
def Transform.call (t : Transform) (x : Tensor ℝ) : Tensor ℝ :=
  ⟨x.shape.dropLast ++ [t.freqs, t.times], fun i =>
    t.apply (fun s => x.get [i.getD 0 0, i.getD 1 0, s]) (i.getD 2 0) (i.getD 3 0)⟩

/-- `F.pad(spec, (0, right, 0, bottom))` of a 4-d tensor to `numF` rows and `numT` columns (spectrogram.py:66-77,
159-168). -/
def padTo (numF numT : ℕ) (y : Tensor ℝ) : Tensor ℝ :=
  ⟨y.shape.take 2 ++ [numF, numT], fun i =>
    if i.getD 2 0 < y.shape.getD 2 0 ∧ i.getD 3 0 < y.shape.getD 3 0 then y.get i else 0⟩

/-- `torch.stack` of tensors of the same shape. (spectrogram.py:170) -/
def stack0 (shape : List ℕ) (l : List (Tensor ℝ)) : Tensor ℝ :=
  ⟨l.length :: shape, fun i => (l.getD (i.headD 0) ⟨[], fun _ => 0⟩).get i.tail⟩

/-- `y[..., a, b]` for a 5-d `y` and index tensors of shape `(F, T, P)`. (spectrogram.py:171) -/
def gather2 (y : Tensor ℝ) (a b : Tensor ℕ) : Tensor ℝ :=
  ⟨y.shape.take 3 ++ a.shape, fun i => y.get (i.take 3 ++ [a.get (i.drop 3), b.get (i.drop 3)])⟩

/-- `torch.diagonal(y, dim1=0, dim2=-1)` for first and last dimensions of the same size: the diagonal becomes the
last dimension. (spectrogram.py:172) -/
def diagonal (y : Tensor ℝ) : Tensor ℝ :=
  ⟨y.shape.tail.dropLast ++ [y.shape.headD 0], fun i => y.get (i.getLastD 0 :: i)⟩

/-- The maximum of a non-empty list. (spectrogram.py:174) -/
noncomputable def maxReal (l : List ℝ) : ℝ :=
  match l with
  | [] => 0
  | a :: l => l.foldl max a

/-- `torch.max(y, axis=-1)[0]`. (spectrogram.py:174) -/
noncomputable def maxLast (y : Tensor ℝ) : Tensor ℝ :=
  ⟨y.shape.dropLast, fun i => maxReal ((List.range (y.shape.getLastD 0)).map fun p => y.get (i ++ [p]))⟩

/-- `forward` (spectrogram.py:134-174) for an input `(B, C, T)`; `kernelSize` is `kernel_length * sample_rate`; the
numbers of bins are computed in `__init__` (spectrogram.py:69-70). -/
noncomputable def forward (ts : List Transform) (kernelSize : ℝ) (x : Tensor ℝ) : Res (Tensor ℝ) := do
  let numF ← maxList (ts.map (·.freqs))
  let numT ← maxList (ts.map (·.times))
  let shapes := ts.map fun t => (t.freqs, t.times)
  match x.shape with
  | [B, C, T] =>
    if (T : ℝ) ≠ kernelSize then .error .value                                             -- lines 150-155
    else
      let paddedSpecs := stack0 [B, C, numF, numT] (ts.map fun t => padTo numF numT (t.call x))  -- lines 157-170
      let remapped := gather2 paddedSpecs (freqIdxs shapes numF numT) (timeIdxs shapes numF numT)
      .ok (maxLast (diagonal remapped))                                                    -- lines 172-174
  | _ => .error .index

/-- `__init__` (spectrogram.py:45-64): the `normalized` flags must all be true; without them `[True]` is added. -/
def initKwargs {V : Type} (truthy : V → Bool) (tt : V) (kwargs : Kwargs V) : Res (List (List (String × V))) :=
  match kwargs.find? fun p => p.1 = "normalized" with
  | some p => if p.2.all truthy then formatKwargs kwargs else .error .value
  | none => formatKwargs (kwargs ++ [("normalized", [tt])])

end Verif.Spectrogram
