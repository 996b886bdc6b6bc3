import Mathlib.Data.Rat.Defs
import Mathlib.Algebra.Order.Field.Rat

/-!
The numbers of IEEE 754 double precision, without a largest one.
-/

namespace Svgio.Spec

/-- a whole number of at most 53 bits times a power of 2 that is not too small -/
def IsDouble (x : ℚ) : Prop := ∃ (k m : ℤ), x = k * 2 ^ m ∧ |k| ≤ 2 ^ 53 ∧ -1074 ≤ m

end Svgio.Spec
