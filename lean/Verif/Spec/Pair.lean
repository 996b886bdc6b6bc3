import Verif.Spec.ColorFun

/-!
How two coordinates are written one after the other.
-/

namespace Svgio.Spec

/-- What may stand before the second number: a comma, perhaps with white space around it; white space; or nothing, if the second number
begins with a minus sign. -/
inductive Gap : List Char → List Char → Prop
  | comma (w w' t : List Char) : White w → White w' → Gap (w ++ ',' :: w') t
  | white (w t : List Char) : White w → w ≠ [] → Gap w t
  | minus (t : List Char) : Gap [] ('-' :: t)

/-- The text `s` begins with the numbers `x` and `y`; the second one goes as far as it can. -/
def Pair (s x y : List Char) : Prop :=
  IsNumber x ∧ IsNumber y ∧ ∃ gap post, s = x ++ (gap ++ (y ++ post)) ∧ Gap gap y ∧ Stops y post

end Svgio.Spec
