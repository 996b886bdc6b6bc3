import Mathlib.Data.Rat.Floor
import Mathlib.Algebra.Order.Floor.Ring
import Mathlib.Data.Int.Bitwise

/-!
Python run-time conventions shared by all models.
-/

namespace Svgio

/-- The Python exception classes raised by the modelled code. -/
inductive PyErr
  | valueError | typeError | attributeError | indexError | zeroDivisionError
  | keyError | recursionError | notImplementedError | nameError
  /-- not a Python exception: the code goes on with a `Point` that has a None coordinate, which the
  model cannot represent -/
  | noneCoord
  /-- not a Python exception: the fuel given to a modelled `while` loop ran out -/
  | outOfFuel
  deriving DecidableEq, Repr

/-- Python's built-in `round(x)` for one argument: nearest integer, ties to even. -/
def pyRound (x : ℚ) : ℤ :=
  if x - ⌊x⌋ < 1 / 2 then ⌊x⌋
  else if 1 / 2 < x - ⌊x⌋ then ⌊x⌋ + 1
  else if ⌊x⌋ % 2 = 0 then ⌊x⌋ else ⌊x⌋ + 1

/-- Python's `int(x)` of a number: truncation toward zero. -/
def pyTrunc (x : ℚ) : ℤ := if 0 ≤ x then ⌊x⌋ else ⌈x⌉

/-- What is assumed of the rounding of one IEEE double operation: the result
differs from the exact one by a relative error of at most `2^-53` (plus the
absolute error of the subnormal range), and is exact on integers up to `2^53`.
Round-to-nearest satisfies this (away from overflow). -/
structure FloatRounding where
  fl : ℚ → ℚ
  err : ∀ x, |fl x - x| ≤ |x| / 2 ^ 53 + 1 / 2 ^ 1074
  exact : ∀ n : ℤ, |n| ≤ 2 ^ 53 → fl n = n

/-- Exact arithmetic is an instance. -/
def FloatRounding.id : FloatRounding where
  fl x := x
  err x := by
    have : (0:ℚ) ≤ |x| / 2 ^ 53 + 1 / 2 ^ 1074 := by positivity
    simpa using this
  exact _ _ := rfl

end Svgio
