/-!
# Python run-time conventions used by the model

Exceptions are values of `Err`; a Python function that may raise is modelled by a function into
`Except Err _`.  Integers are Lean's unbounded `Int`, as in Python.
-/

namespace Verif

/-- The Python exception classes that the modelled code (or torch underneath it) raises. -/
inductive Err where
  | value | runtime | index | type | zeroDivision | attribute | notImplemented | assertion | key
  | unboundLocal
  deriving DecidableEq, Repr

/-- Result of a Python call: a value or the class of the exception raised. -/
abbrev Res (α : Type _) := Except Err α

/-- Python `a // b` for ints (floor division); `b = 0` raises `ZeroDivisionError`. -/
def pyFloorDiv (a b : Int) : Res Int :=
  if b = 0 then .error .zeroDivision else .ok (Int.fdiv a b)

/-- Python `a % b` for ints (sign of the divisor); `b = 0` raises `ZeroDivisionError`. -/
def pyMod (a b : Int) : Res Int :=
  if b = 0 then .error .zeroDivision else .ok (Int.fmod a b)

/-- The start/stop normalisation of a Python slice bound on a sequence of length `n`
(step 1): negative bounds count from the end, and everything is clamped to `[0, n]`. -/
def pySliceBound (n : Nat) (i : Int) : Nat :=
  if i < 0 then (i + n).toNat else min i.toNat n

/-- Python `l[a:b]` (both bounds given, step 1). -/
def pySlice {α : Type _} (l : List α) (a b : Int) : List α :=
  let lo := pySliceBound l.length a
  let hi := pySliceBound l.length b
  (l.drop lo).take (hi - lo)

/-- `raise` a given exception if the condition holds. -/
def raiseIf (c : Prop) [Decidable c] (e : Err) : Res Unit :=
  if c then .error e else .ok ()

end Verif
