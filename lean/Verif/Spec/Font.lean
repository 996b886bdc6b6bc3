import Verif.Spec.Value

/-! The parts of the CSS shorthand for fonts, as the documentation of `parse_font` lists them (nodes.py:1583-1590). -/

namespace Svgio.Font

/-- the units of sizes -/
def fontUnits : List (List Char) := ["em".toList, "pt".toList, "pc".toList, "px".toList, "%".toList]
/-- the generic families -/
def families : List (List Char) := ["serif".toList, "sans-serif".toList, "cursive".toList, "fantasy".toList, "monospace".toList]

/-- the words that may stand before the size, with their groups -/
def table : List (List Char × ℕ) :=
  [("normal".toList, 1), ("italic".toList, 1), ("oblique".toList, 1), ("small-caps".toList, 2), ("bold".toList, 3), ("bolder".toList, 3),
    ("lighter".toList, 3), ("ultra-condensed".toList, 4), ("extra-condensed".toList, 4), ("condensed".toList, 4), ("semi-condensed".toList, 4),
    ("semi-expanded".toList, 4), ("expanded".toList, 4), ("extra-expanded".toList, 4), ("ultra-expanded".toList, 4)]

/-- a word that may stand before the size, or three digits, with its group -/
def IsItem (it : List Char × ℕ) : Prop :=
  it ∈ table ∨ ∃ a b c, it = ([a, b, c], 3) ∧ Spec.Digits [a, b, c]

/-- each word is followed by a space -/
def itemsText (its : List (List Char × ℕ)) : List Char := its.flatMap fun it => it.1 ++ [' ']

/-- what the size in the text is: in pixels, or a length that is not known yet -/
inductive Size
  | pixels (x : ℚ)
  | relative (x : ℚ) (unit : List Char)

/-- a pixel, 1.3333 pixels to the point, 16 to the pica; `em` and `%` are relative -/
def sizeSpec (n : ℕ) (unit : List Char) : Size :=
  if unit = "px".toList then .pixels n
  else if unit = "pt".toList then .pixels (n * (13333 / 10000))
  else if unit = "pc".toList then .pixels (n * 16)
  else .relative n unit

/-- the last weight among the words: `none` if there is none -/
def lastWeight (its : List (List Char × ℕ)) : Option (List Char) := ((its.filter (fun it => it.2 = 3)).getLast?).map (·.1)

end Svgio.Font
