import Verif.Spec.Number
import Mathlib.Data.Rat.Defs
import Mathlib.Algebra.Field.Rat
import Mathlib.Algebra.Order.Ring.Rat

/-!
The value of a number written in decimal notation: each digit counts ten times as much as the one after it.
-/

namespace Svgio.Spec

/-- the value of one digit -/
def digit (c : Char) : ℕ := ['0', '1', '2', '3', '4', '5', '6', '7', '8', '9'].idxOf c

/-- the value of a row of digits -/
def whole : List Char → ℕ
  | [] => 0
  | c :: ds => digit c * 10 ^ ds.length + whole ds

/-- the part from the decimal point on, and its value -/
def Fraction (fr : List Char) (f : ℚ) : Prop :=
  (fr = [] ∧ f = 0) ∨ ∃ ds, fr = '.' :: ds ∧ ds ≠ [] ∧ Digits ds ∧ f = whole ds / 10 ^ ds.length

/-- the part from the letter `e` on, and the power of ten that it stands for -/
def Power (ex : List Char) (e : ℤ) : Prop :=
  (ex = [] ∧ e = 0) ∨ ∃ c sg ds, (c = 'e' ∨ c = 'E') ∧ ex = c :: (sg ++ ds) ∧ OptSign sg ∧ ds ≠ [] ∧ Digits ds ∧
    e = if sg = ['-'] then -(whole ds : ℤ) else whole ds

/-- the text `t` is a number, and `x` is its value -/
def Value (t : List Char) (x : ℚ) : Prop :=
  ∃ sg ip fr ex f e, t = sg ++ (ip ++ (fr ++ ex)) ∧ OptSign sg ∧ Digits ip ∧ (ip ≠ [] ∨ fr ≠ []) ∧ Fraction fr f ∧ Power ex e ∧
    x = (if sg = ['-'] then -1 else 1) * (whole ip + f) * (10 : ℚ) ^ e

end Svgio.Spec
