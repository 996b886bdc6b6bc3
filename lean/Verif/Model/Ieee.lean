import Verif.Model.Py
import Mathlib.Data.Int.Log
import Mathlib.Tactic.Linarith
import Mathlib.Tactic.NormNum
import Mathlib.Tactic.Positivity

/-!
Rounding of a real number, here a rational one, to a double: how Python's floats (svgio/*.py) compute. Numbers too large for a double are
left out: the exponent has no upper bound here.
-/

namespace Svgio

/-- the distance of neighbouring doubles at `x`: 53 bits, and no finer than the smallest subnormal number; used wherever the code computes
with floats, such as svgio/basic.py:2415-2418 -/
def quantum (x : ℚ) : ℚ := 2 ^ max (Int.log 2 |x| - 52) (-1074)

/-- the nearest double, of two equally near ones the even one, as in every operation on floats, such as svgio/basic.py:2415-2418 -/
def roundDouble (x : ℚ) : ℚ := pyRound (x / quantum x) * quantum x

end Svgio
