import Verif.Spec.ColorFun

/-!
Style sheets: how rules and declarations are written, and which value of a property an element gets from them. None of this uses the
code that is modelled.
-/

namespace Svgio.Spec

/-- no white space at either end -/
def Trimmed (s : List Char) : Prop := (∀ c ∈ s.head?, c ∉ spaces) ∧ ∀ c ∈ s.getLast?, c ∉ spaces

/-- `t` is the text `s` with white space around it -/
def Around (s t : List Char) : Prop := ∃ w w', White w ∧ White w' ∧ t = w ++ (s ++ w')

/-- a declaration `property : value`; neither part has `:` or `;` in it -/
def DeclText (k v t : List Char) : Prop :=
  Trimmed k ∧ Trimmed v ∧ (':' ∉ k ∧ ';' ∉ k) ∧ (':' ∉ v ∧ ';' ∉ v) ∧ ∃ a b, Around k a ∧ Around v b ∧ t = a ++ ':' :: b

/-- declarations with `;` between them, and perhaps after the last one -/
inductive DeclsText : List (List Char × List Char) → List Char → Prop
  | none {w} : White w → DeclsText [] w
  | one {k v t} : DeclText k v t → DeclsText [(k, v)] t
  | more {k v t l r} : DeclText k v t → DeclsText l r → DeclsText ((k, v) :: l) (t ++ ';' :: r)
  | skip {w l r} : White w → DeclsText l r → DeclsText l (w ++ ';' :: r)

/-- one selector: it has no comma and no brace in it -/
def SelectorText (s : List Char) : Prop := s ≠ [] ∧ Trimmed s ∧ ',' ∉ s ∧ '{' ∉ s

/-- selectors with commas between them -/
inductive SelectorsText : List (List Char) → List Char → Prop
  | one {s t} : SelectorText s → Around s t → SelectorsText [s] t
  | more {s t l r} : SelectorText s → Around s t → SelectorsText l r → SelectorsText (s :: l) (t ++ ',' :: r)

/-- a rule: its selectors, the text between its braces, and its declarations -/
structure Rule where
  selectors : List (List Char)
  body : List Char
  decls : List (List Char × List Char)

/-- the text of a style sheet: rules `selectors { declarations }`, and at the end some text without a brace. The part between the
braces is not blank. -/
inductive SheetText : List Rule → List Char → Prop
  | none {w} : '{' ∉ w → SheetText [] w
  | rule {sels ds key body b rs rest} : SelectorsText sels key → DeclsText ds body → Trimmed body → body ≠ [] → '}' ∉ body → Around body b →
      SheetText rs rest → SheetText (⟨sels, body, ds⟩ :: rs) (key ++ '{' :: (b ++ '}' :: rest))

/-- the declarations that rules have for a selector, in their order -/
def declared (rs : List Rule) (sel : List Char) : List (List Char × List Char) :=
  rs.flatMap fun r => (r.selectors.filter (· = sel)).flatMap fun _ => r.decls

/-- the value that the last declaration of a property gives it -/
def lastDecl (l : List (List Char × List Char)) (k : List Char) : Option (List Char) :=
  (l.reverse.find? (fun d => d.1 = k)).map (·.2)

/-- every rule with this selector has a `;` after its last declaration -/
def Closed (rs : List Rule) (sel : List Char) : Prop := ∀ r ∈ rs, sel ∈ r.selectors → r.body.getLast? = some ';'

/-- the selectors that are looked up for an element, weakest first -/
def selectorsFor (tag : List Char) (id : Option (List Char)) (classes : List (List Char)) : List (List Char) :=
  ['*'] :: tag :: (id.toList.map ('#' :: ·) ++ classes.flatMap fun c => ['.' :: c, tag ++ '.' :: c])

/-- the declarations that hold for an element, weakest first: those of the rules, then those of its style attribute -/
def declsFor (rs : List Rule) (tag : List Char) (id : Option (List Char)) (classes : List (List Char)) (own : List (List Char × List Char)) :
    List (List Char × List Char) := (selectorsFor tag id classes).flatMap (declared rs) ++ own

/-- the classes of an element, with a space between them -/
def ClassText (classes : List (List Char)) (t : List Char) : Prop :=
  classes ≠ [] ∧ (∀ c ∈ classes, ' ' ∉ c) ∧ t = [' '].intercalate classes

/-- the value of a property of an element: the last declaration, or else its attribute. The name of the element counts as an attribute
`tag`. -/
def cascaded (ds : List (List Char × List Char)) (tag : List Char) (attrib : List Char → Option (List Char)) (k : List Char) :
    Option (List Char) := (lastDecl ds k).or (if k = "tag".toList then some tag else attrib k)

/-- the values of an element, from its own values and those of its parent: `currentColor` is the colour of the element, or else of the
parent, and a transform comes behind the one of the parent -/
def computed (own inh : List Char → Option (List Char)) (k : List Char) : Option (List Char) :=
  if (k = "fill".toList ∨ k = "stroke".toList) ∧ own k = some "currentColor".toList then (own "color".toList).or (inh "color".toList)
  else if k = "transform".toList then
    match own k, inh k with
    | some t, some v => some (v ++ ' ' :: t)
    | o, _ => o
  else own k

/-- what an element does not take from its parent -/
def notInherited : List (List Char) := ["preserveAspectRatio".toList, "viewBox".toList, "id".toList, "clip-path".toList]

/-- the values that an element takes from its parent -/
def handedDown (inh : List Char → Option (List Char)) (k : List Char) : Option (List Char) := if k ∈ notInherited then none else inh k

/-- all values of an element: its own ones, or else the inherited ones -/
def allValues (own inh : List Char → Option (List Char)) (k : List Char) : Option (List Char) :=
  (computed own (handedDown inh) k).or (handedDown inh k)

end Svgio.Spec
