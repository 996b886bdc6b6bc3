import Verif.Model.Regex
import Verif.Model.Length

/-!
`text.parse_font(font)`: svgio/nodes.py:1578-1623, with the pattern constants.py:180-182.
-/

namespace Svgio.Font

/-- constants.py:180-182 -/
def REGEX_CSS_FONT : Option Regex.Re := Regex.compile
  ("(?:(normal|italic|oblique)\\s|(normal|small-caps)\\s|(normal|bold|bolder|lighter|\\d{3})\\s|(normal|ultra-condensed|extra-condensed|condensed|semi-condensed|semi-expanded|expanded|extra-expanded|ultra-expanded)\\s)*\\s*(xx-small|x-small|small|medium|large|x-large|xx-large|larger|smaller|\\d+(?:em|pt|pc|px|%))(?:/(xx-small|x-small|small|medium|large|x-large|xx-large|larger|smaller|\\d+(?:em|pt|pc|px|%)))?\\s*(.*),?\\s+(serif|sans-serif|cursive|fantasy|monospace);?").toList

/-- the attributes of the text element that a call sets, nodes.py:1603-1613; `none` is left as it was -/
structure Font where
  weight : Option ℤ := none
  size : Option (Val ℚ) := none
  face : Option (List Char) := none
  family : Option (List Char) := none
  deriving DecidableEq, Repr

/-- nodes.py:1615-1623 `parse_font_weight`: `int(..)` of a text that is no number raises ValueError, and only KeyError is caught. The text is
one of the words of the pattern or three digits. -/
def parseFontWeight (w : List Char) : Except PyErr ℤ :=
  if w = "bold".toList then .ok 700
  else if w = "normal".toList then .ok 400
  else if w.all isDig then .ok (natVal w)
  else .error .valueError

/-- nodes.py:1608-1609 -/
def dropComma (face : List Char) : List Char := if face.getLast? = some ',' then face.dropLast else face

/-- nodes.py:1595-1613: what is done with the eight groups of a match -/
def ofGroups (q : Regex.St) : Except PyErr Font := do
  let group (n : ℕ) : List Char := (q.group n).getD []
  let weight ← if (group 3).length > 0 then (parseFontWeight (group 3)).map some else .ok none
  let size ← if (group 5).length > 0 then (Len.value {} (Len.ofString (group 5))).map some else .ok none
  let face := if (group 7).length > 0 then some (dropComma (group 7)) else none
  let family := if (group 8).length > 0 then some (group 8) else none
  .ok { weight, size, face, family }

/-- nodes.py:1593-1613. `list(*matches)` is empty without a match, and `font_elements[0]` raises IndexError; with two matches `list` gets two
arguments and raises TypeError. -/
def ofMatches : List Regex.St → Except PyErr Font
  | [] => .error .indexError
  | [q] => ofGroups q
  | _ => .error .typeError

/-- nodes.py:1578-1613 `text.parse_font(font)` -/
def parseFont (s : List Char) : Except PyErr Font :=
  match REGEX_CSS_FONT with
  | none => .error .valueError
  | some r => ofMatches (Regex.findall r s)

end Svgio.Font
