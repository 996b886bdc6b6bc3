import Verif.Model.FloatTurn

/-!
Angles with floats: svgio/basic.py:1841-1847, 1884-1908. The model of the same code in `Model/Angle.lean` computes exactly. Overflow, infinities
and NaN are left out.
-/

namespace Svgio.Flt

variable (F : FloatRounding)

/-- basic.py:1841-1844 `a == b` for two angles -/
def angleEq (a b : ℚ) : Bool := decide (|F.fl (pyMod F a tau - pyMod F b tau)| ≤ F.fl (1 / 10 ^ 11))

/-- basic.py:1846-1847 `normalized()` -/
def normalized (a : ℚ) : ℚ := pyMod F a tau

/-- basic.py:1888-1890 `as_degrees` -/
def asDegrees (a : ℚ) : ℚ := F.fl (F.fl (a * 360) / tau)

/-- basic.py:1899-1901 `as_gradians` -/
def asGradians (a : ℚ) : ℚ := F.fl (F.fl (a * 400) / tau)

/-- basic.py:1903-1905 `as_turns` -/
def asTurns (a : ℚ) : ℚ := F.fl (a / tau)

/-- basic.py:1895-1896 the loop `while v < 0: v += 360.0`, with fuel -/
def positiveLoop : ℕ → ℚ → Option ℚ
  | 0, _ => none
  | n + 1, v => if v < 0 then positiveLoop n (F.fl (v + 360)) else some v

/-- basic.py:1892-1897 `as_positive_degrees` -/
def asPositiveDegrees (fuel : ℕ) (a : ℚ) : Option ℚ := positiveLoop F fuel (asDegrees F a)

/-- basic.py:1907-1908 `is_orthogonal()` -/
def isOrthogonal (a : ℚ) : Bool := decide (pyMod F a (F.fl (tau / 4)) = 0)

end Svgio.Flt
