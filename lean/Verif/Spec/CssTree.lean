import Verif.Spec.Css

/-!
Documents as trees, and the values that their elements have. `own` tells the values that an element has from style sheets, its name and
its attributes.
-/

namespace Svgio.Spec

/-- an element with its attributes, the text at its beginning if there is one, and the elements in it -/
inductive Markup
  | elem (tag : List Char) (attrib : List (List Char × List Char)) (text : Option (List Char)) (kids : List Markup)

/-- `display` is `none` -/
def Unseen (v : List Char → Option (List Char)) : Prop := v "display".toList = some "none".toList

instance (v) : Decidable (Unseen v) := by unfold Unseen; infer_instance

mutual
/-- the style sheets in an element, in the order of their ends -/
def sheetsIn : Markup → List (List Char)
  | .elem tag _ text kids => sheetsOf kids ++ if tag = "style".toList then text.toList else []
/-- the style sheets in elements -/
def sheetsOf : List Markup → List (List Char)
  | [] => []
  | e :: es => sheetsIn e ++ sheetsOf es
end

variable (own : List (List Char) → List Char → List (List Char × List Char) → List Char → Option (List Char))

mutual
/-- the values of an element and of the elements in it, in the order of the document. `sheets` are the style sheets so far, `inh` are the
values of the parent. An element that is not displayed is left out with all that is in it. -/
def shownIn (sheets : List (List Char)) (inh : List Char → Option (List Char)) : Markup → List (List Char → Option (List Char))
  | .elem tag attrib _ kids =>
    if Unseen (allValues (own sheets tag attrib) inh) then []
    else allValues (own sheets tag attrib) inh :: shownOf sheets (allValues (own sheets tag attrib) inh) kids
/-- the same for elements that follow each other: a style sheet counts for all elements after it -/
def shownOf (sheets : List (List Char)) (inh : List Char → Option (List Char)) : List Markup → List (List Char → Option (List Char))
  | [] => []
  | e :: es => shownIn sheets inh e ++ shownOf (sheets ++ sheetsIn e) inh es
end

mutual
/-- for an element and every element in it, in the order of the document: the own values of the elements around it and of itself,
outermost first -/
def linesIn (sheets : List (List Char)) : Markup → List (List (List Char → Option (List Char)))
  | .elem tag attrib _ kids => [own sheets tag attrib] :: (linesOf sheets kids).map (own sheets tag attrib :: ·)
/-- the same for elements that follow each other -/
def linesOf (sheets : List (List Char)) : List Markup → List (List (List Char → Option (List Char)))
  | [] => []
  | e :: es => linesIn sheets e ++ linesOf (sheets ++ sheetsIn e) es
end

mutual
/-- every style element has a text, and no element has an attribute twice -/
def SoundIn : Markup → Prop
  | .elem tag attrib text kids => (tag = "style".toList → text ≠ none) ∧ (attrib.map (·.1)).Nodup ∧ SoundOf kids
/-- the same for elements that follow each other -/
def SoundOf : List Markup → Prop
  | [] => True
  | e :: es => SoundIn e ∧ SoundOf es
end

/-- the values of the innermost of elements inside each other, from their own values, outermost first -/
def nested (inh : List Char → Option (List Char)) (owns : List (List Char → Option (List Char))) : List Char → Option (List Char) :=
  owns.foldl (fun inh own => allValues own inh) inh

/-- neither the innermost of elements inside each other nor one around it has the display `none` -/
def Seen (inh : List Char → Option (List Char)) (owns : List (List Char → Option (List Char))) : Prop :=
  ∀ n < owns.length, ¬ Unseen (nested inh (owns.take (n + 1)))

instance (inh owns) : Decidable (Seen inh owns) := by unfold Seen; infer_instance

/-- the values before the outermost element: the colour and the transform that the caller gives, black for `fill` and nothing for `stroke` -/
def atStart (color : List Char) (transform : Option (List Char)) (k : List Char) : Option (List Char) :=
  if k = "color".toList then some color
  else if k = "fill".toList then some "black".toList
  else if k = "stroke".toList then some "none".toList
  else if k = "transform".toList then transform
  else none

end Svgio.Spec
