/-!
# Specification of the sampling interval of `sample_kernels`

Written from the docstring (ml4gw/utils/slicing.py:256-274) plus the exact boundary convention
the code uses; independent of the model.
`T` samples, kernels of `K` samples, `T/2` is the centre of the series.
-/
namespace Verif.Spec

/-- `OffsetOk T K m s`: a kernel starting at sample `s` respects `max_center_offset = m`.
* `none`: anywhere strictly before the last possible window;
* `m ≥ 0`: the kernel starts before the centre, and ends (exclusive) at most `m` before the centre;
* `m < 0`: the centre is more than `|m|` after the start, and at least `|m|` before the end
  (exclusive). -/
def OffsetOk (T K : Nat) (m : Option Int) (s : Int) : Prop :=
  match m with
  | none => 0 ≤ s ∧ s < (T : Int) - K
  | some m =>
    if 0 ≤ m then s < (T / 2 : Nat) ∧ ((T / 2 : Nat) : Int) - m ≤ s + K
    else s + (-m) < (T / 2 : Nat) ∧ ((T / 2 : Nat) : Int) + (-m) ≤ s + K

/-- `Feasible T K m`: at least one start position satisfies `OffsetOk` and no start position
satisfying it is negative. -/
def Feasible (T K : Nat) (m : Option Int) : Prop :=
  (∃ s, OffsetOk T K m s) ∧ ∀ s, OffsetOk T K m s → 0 ≤ s

end Verif.Spec
