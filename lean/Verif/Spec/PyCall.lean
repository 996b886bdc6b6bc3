import Verif.Spec.Number
import Verif.Model.Lex
import Verif.Model.Seg

/-!
Python expressions of the form `Name(argument, keyword=argument, …)`, as far as they occur in `repr` texts.
-/

namespace Svgio.Spec

/-- `t₁ sep t₂ sep …` -/
def sepBy (sep : List Char) : List (List Char) → List Char
  | [] => []
  | [t] => t
  | t :: r => t ++ (sep ++ sepBy sep r)

/-- an argument, with a keyword unless that is empty -/
def argText (a : List Char × List Char) : List Char := if a.1 = [] then a.2 else a.1 ++ '=' :: a.2

/-- `t` is the call of `name` with these arguments, separated by commas or by commas and blanks -/
def CallText (t name : List Char) (args : List (List Char × List Char)) : Prop :=
  t = name ++ '(' :: (sepBy [','] (args.map argText) ++ [')']) ∨ t = name ++ '(' :: (sepBy [',', ' '] (args.map argText) ++ [')'])

/-- `t` is a number literal for `x` -/
def NumText (t : List Char) (x : ℚ) : Prop := IsNumber t ∧ floatVal t = x

/-- `t` is `None`, or `Point(x, y)` with two number literals -/
def PointText (t : List Char) (p : Option (Pt ℚ)) : Prop :=
  (t = "None".toList ∧ p = none) ∨
  ∃ a b x y, CallText t "Point".toList [([], a), ([], b)] ∧ NumText a x ∧ NumText b y ∧ p = some ⟨x, y⟩

/-- `t` is a string literal for `s`, without quotes, backslashes and line breaks in it -/
def StrText (t s : List Char) : Prop := t = '\'' :: (s ++ ['\'']) ∧ ∀ c ∈ s, c ≠ '\'' ∧ c ≠ '\\' ∧ c ≠ '\n'

end Svgio.Spec
