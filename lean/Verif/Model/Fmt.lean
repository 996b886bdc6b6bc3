import Verif.Model.Lex

/-!
Python's `"%.12f" % x` and `Length.str` (svgio/basic.py:479-497), digit by digit.
-/

namespace Svgio

/-- the character of a digit, for `"%.12f"` in basic.py:487, 492 -/
def digChar (d : ℕ) : Char := Char.ofNat (48 + d)

/-- For `"%.12f"` in basic.py:487, 492: decimal digits of a natural number, without leading zeros -/
def natText (n : ℕ) : List Char :=
  if n < 10 then [digChar n] else natText (n / 10) ++ [digChar (n % 10)]
termination_by n

/-- For `"%.12f"` in basic.py:487, 492: the last `k` decimal digits of a number -/
def fixedDigits : ℕ → ℕ → List Char
  | 0, _ => []
  | k + 1, n => fixedDigits k (n / 10) ++ [digChar (n % 10)]

/-- `"%.12f" % x`, basic.py:487, 492: correctly rounded (ties to even) to 12 decimals. A negative number that rounds to 0 keeps its
sign. Simplification: the minus sign of the float -0.0 itself is not modelled. -/
def fmtF12 (x : ℚ) : List Char :=
  let n := (pyRound (|x| * 10 ^ 12)).toNat
  (if x < 0 then ['-'] else []) ++ (natText (n / 10 ^ 12) ++ '.' :: fixedDigits 12 (n % 10 ^ 12))

/-- `s.rstrip(c)` for a single character, basic.py:489, 496 -/
def rstripC (c : Char) (s : List Char) : List Char := (s.reverse.dropWhile (· = c)).reverse

/-- basic.py:479-497 `Length.str(x)` of a number -/
def lengthStr (x : ℚ) : List Char :=
  let s := fmtF12 x
  if '.' ∈ s then rstripC '.' (rstripC '0' s) else s

end Svgio
