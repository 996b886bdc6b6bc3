import Verif.Model.Length

/-!
Operators with a number on the left of a `Length`, and percentages of a length given as text.
-/

namespace Svgio.Len

variable {K : Type} [Field K] [LinearOrder K]

/-- `Length(number)`: basic.py:48-58. The text of a number denotes that number and has no unit. -/
def ofNum (x : K) : Len K := ⟨x, .none⟩

/-- basic.py:245-252 `number + length`, which is `length + number` -/
def radd (x : K) (self : Len K) : Except PyErr (Len K) := add self (ofNum x)

/-- basic.py:280-283 `number - length` -/
def rsub (x : K) (self : Len K) : Except PyErr (Len K) := add (neg self) (ofNum x)

/-- basic.py:288 `number * length`, which is `length * number` (76-78, 254-257) -/
def rmul (x : K) (self : Len K) : Len K := mulNum self x

/-- basic.py:410-424 `value(relative_length=text)` of a percentage: the text times the length is computed by `Length.__rmul__` (288),
that is, as the length times the text (75-97), and the product is resolved without a relative length. -/
def valueText (ctx : Ctx ℚ) (text : List Char) (l : Len ℚ) : Except PyErr (Val ℚ) :=
  if l.units = .percent then
    match mul l (ofString text) with
    | .error e => .error e
    | .ok (.num x) => .ok (.num x)
    | .ok (.len q) => value { ctx with relative := none } q
  else value ctx l

end Svgio.Len
