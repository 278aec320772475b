/-!
# Specification: decimation by a schedule
-/
namespace Verif.Spec.Decimator

/-- A schedule entry in natural numbers: keep the seconds `[start, stop)` at `rate` Hz. -/
structure Seg where
  start : Nat
  stop : Nat
  rate : Nat

/-- The samples kept from a series at rate `sr`: every `sr / rate`-th, beginning with the first of the
segment. -/
def kept (sr : Nat) (s : Seg) : List Nat :=
  (List.range ((s.stop - s.start) * s.rate)).map fun k => s.start * sr + k * (sr / s.rate)

/-- Each segment begins where the previous one ends; the first begins at `t`. -/
def Contiguous : Nat → List Seg → Prop
  | _, [] => True
  | t, s :: l => s.start = t ∧ Contiguous s.stop l

/-- An admissible entry for the sample rate. -/
def Seg.Ok (sr : Nat) (s : Seg) : Prop := s.start < s.stop ∧ 0 < s.rate ∧ s.rate ∣ sr

end Verif.Spec.Decimator
