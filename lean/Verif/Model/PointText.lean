import Verif.Model.Regex
import Verif.Model.Seg
import Verif.Model.Lex

/-!
`Point(text)`, svgio/basic.py:1449-1455.
-/

namespace Svgio.PointText

open Regex

/-- basic.py:1452-1454 after a match: `float` of the two groups. `fl` is the rounding of `float(text)`; the groups always took part, so that
`getD` is not used. -/
def ofMatch (fl : ℚ → ℚ) (q : St) : Pt ℚ :=
  ⟨fl (floatVal ((q.group 1).getD [])), fl (floatVal ((q.group 2).getD []))⟩

/-- basic.py:1450-1455 `Point(text)`: the first pair that `REGEX_COORD_PAIR` finds; without one, `[0]` raises IndexError. -/
def ofText (fl : ℚ → ℚ) (s : List Char) : Except PyErr (Pt ℚ) :=
  match REGEX_COORD_PAIR with
  | none => .error .typeError
  | some r =>
    match findall r s with
    | [] => .error .indexError
    | q :: _ => .ok (ofMatch fl q)

end Svgio.PointText
