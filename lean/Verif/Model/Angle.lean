import Verif.Model.Color
import Mathlib.Algebra.Order.Floor.Ring

/-!
`Angle`: svgio/basic.py:1832-1908. An angle is its number of radians, in an ordered field with a floor; `tau` is any
positive number of that field.
-/

namespace Svgio.Angle

section
variable {K : Type} [Field K] [LinearOrder K] [FloorRing K] (tau : K)

/-- Python's `a % b` of floats for positive `b`, used in basic.py:1843, 1847, 1908 -/
def pyMod (a b : K) : K := a - b * ⌊a / b⌋

/-- basic.py:1841-1844 `a == b` -/
def eq (a b : K) : Bool := decide (|pyMod a tau - pyMod b tau| ≤ 1 / 10 ^ 11)

/-- basic.py:1846-1847 `normalized()` -/
def normalized (a : K) : K := pyMod a tau

/-- basic.py:1868-1870 `Angle.radians(x)` -/
def ofRadians (x : K) : K := x
/-- basic.py:1872-1874 `Angle.degrees(x)` -/
def ofDegrees (x : K) : K := tau * x / 360
/-- basic.py:1876-1878 `Angle.gradians(x)` -/
def ofGradians (x : K) : K := tau * x / 400
/-- basic.py:1880-1882 `Angle.turns(x)` -/
def ofTurns (x : K) : K := tau * x

/-- basic.py:1884-1886 `as_radians` -/
def asRadians (a : K) : K := a
/-- basic.py:1888-1890 `as_degrees` -/
def asDegrees (a : K) : K := a * 360 / tau
/-- basic.py:1899-1901 `as_gradians` -/
def asGradians (a : K) : K := a * 400 / tau
/-- basic.py:1903-1905 `as_turns` -/
def asTurns (a : K) : K := a / tau

/-- basic.py:1895-1896 the loop `while v < 0`, with fuel -/
def positiveLoop : ℕ → K → Option K
  | 0, _ => none
  | n + 1, v => if v < 0 then positiveLoop n (v + 360) else some v

/-- basic.py:1892-1897 `as_positive_degrees` -/
def asPositiveDegrees (fuel : ℕ) (a : K) : Option K := positiveLoop fuel (asDegrees tau a)

/-- `text.endswith(u)` and the text before it, basic.py:1854-1865 -/
def beforeSuffix (u s : List Char) : Option (List Char) :=
  if u <:+ s then some (s.take (s.length - u.length)) else none

/-- Python `float(text)`, called in basic.py:1855-1866. Simplification: only the number literals of `PATTERN_FLOAT`
are modelled; white space around the number, `5.`, `inf` and `nan` are ValueErrors here. -/
def floatOf (s : List Char) : Except PyErr ℚ :=
  match matchFloat s with
  | some (t, []) => .ok (floatVal t)
  | _ => .error .valueError

/-- basic.py:1849-1866 `Angle.parse(text)` -/
def parse (s : List Char) : Except PyErr K :=
  let s := s.flatMap Color.lowerChar
  match beforeSuffix ['d', 'e', 'g'] s with
  | some t => (floatOf t).map (fun x => ofDegrees tau (x : K))
  | none =>
  match beforeSuffix ['g', 'r', 'a', 'd'] s with
  | some t => (floatOf t).map (fun x => ofGradians tau (x : K))
  | none =>
  match beforeSuffix ['r', 'a', 'd'] s with
  | some t => (floatOf t).map (fun x => ofRadians (x : K))
  | none =>
  match beforeSuffix ['t', 'u', 'r', 'n'] s with
  | some t => (floatOf t).map (fun x => ofTurns tau (x : K))
  | none =>
  match beforeSuffix ['%'] s with
  | some t => (floatOf t).map (fun x => ofTurns tau ((x : K) / 100))
  | none => (floatOf s).map (fun x => ofDegrees tau (x : K))

end

end Svgio.Angle
