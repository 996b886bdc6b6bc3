import Verif.Spec.Number
import Verif.Spec.Affine
import Verif.Model.Lex

/-!
The text of a transform attribute and the plane map of each function (SVG 1.1, 7.6; CSS transforms 2D functions),
written down directly. Texts are in lower case here; the library reads every letter case.
-/

namespace Svgio.Spec

open Svgio

/-- white space -/
def Spaces (s : List Char) : Prop := ∀ c ∈ s, c = ' ' ∨ c = '\t' ∨ c = '\n' ∨ c = '\r'

/-- white space and commas -/
def Separators (s : List Char) : Prop := ∀ c ∈ s, c = ',' ∨ c = ' ' ∨ c = '\t' ∨ c = '\n' ∨ c = '\r'

/-- units of a parameter, in lower case; nothing is also allowed -/
def unitTexts : List (List Char) :=
  ["".toList, "cm".toList, "mm".toList, "in".toList, "pt".toList, "pc".toList, "px".toList, "em".toList, "ch".toList,
   "rem".toList, "vw".toList, "vh".toList, "vmin".toList, "vmax".toList, "deg".toList, "grad".toList, "rad".toList,
   "turn".toList, "%".toList]

/-- the names of the transform functions, in lower case -/
def functionNames : List (List Char) :=
  ["matrix".toList, "translate".toList, "translatex".toList, "translatey".toList, "scale".toList, "scalex".toList,
   "scaley".toList, "rotate".toList, "skew".toList, "skewx".toList, "skewy".toList]

/-- a parameter: the text of its number and of its unit -/
abbrev Param := List Char × List Char

/-- The text is a list of parameters: each a number, spaces and a unit, with separators where numbers would run
together. -/
inductive ParamsText : List Param → List Char → Prop
  | nil {s} : Separators s → ParamsText [] s
  | cons {sep n ws u rest ps} : Separators sep → IsNumber n → Spaces ws → u ∈ unitTexts →
      Stops n (ws ++ (u ++ rest)) → ParamsText ps rest →
      ParamsText ((n, u) :: ps) (sep ++ (n ++ (ws ++ (u ++ rest))))

/-- The text is a list of functions `name(parameters)`, with separators between them. -/
inductive FunctionsText : List (List Char × List Param) → List Char → Prop
  | nil {s} : Separators s → FunctionsText [] s
  | cons {sep name ws body rest ps fs} : Separators sep → name ∈ functionNames → Spaces ws →
      ParamsText ps body → body ≠ [] → FunctionsText fs rest →
      FunctionsText ((name, ps) :: fs) (sep ++ (name ++ (ws ++ ('(' :: (body ++ (')' :: rest))))))

/-- the number written as `n` -/
def num (n : List Char) : ℝ := (floatVal n : ℚ)

/-- the angle of a parameter in radians; without unit it is in degrees, and 100% is a turn -/
noncomputable def angle (p : Param) : Option ℝ :=
  if p.2 = "".toList ∨ p.2 = "deg".toList then some (num p.1 / 360 * (2 * Real.pi))
  else if p.2 = "grad".toList then some (num p.1 / 400 * (2 * Real.pi))
  else if p.2 = "rad".toList then some (num p.1)
  else if p.2 = "turn".toList then some (num p.1 * (2 * Real.pi))
  else if p.2 = "%".toList then some (num p.1 / 100 * (2 * Real.pi))
  else none

/-- the length of a parameter in pixels, for the units that have a fixed size in pixels -/
noncomputable def pixels (p : Param) : Option ℝ :=
  if p.2 = "".toList ∨ p.2 = "px".toList then some (num p.1)
  else if p.2 = "pt".toList then some (num p.1 * (13333 / 10000))
  else if p.2 = "pc".toList then some (num p.1 * 16)
  else none

/-- an optional pivot; a missing coordinate is 0 -/
inductive Pivot (lx ly : Param → Option ℝ) : List Param → ℝ → ℝ → Prop
  | none : Pivot lx ly [] 0 0
  | x {p x} : lx p = some x → Pivot lx ly [p] x 0
  | xy {p q x y} : lx p = some x → ly q = some y → Pivot lx ly [p, q] x y

/-- The plane map of a function. `lx` and `ly` are the lengths of parameters along x and along y. -/
inductive Acts (lx ly : Param → Option ℝ) : List Char × List Param → (Pt ℝ → Pt ℝ) → Prop
  | matrix {a b c d e f : List Char} {x y} : lx (e, []) = some x → ly (f, []) = some y →
      Acts lx ly ("matrix".toList, [(a, []), (b, []), (c, []), (d, []), (e, []), (f, [])])
        (fun p => ⟨num a * p.x + num c * p.y + x, num b * p.x + num d * p.y + y⟩)
  | translate {ps x y} : Pivot lx ly ps x y → ps ≠ [] →
      Acts lx ly ("translate".toList, ps) (fun p => ⟨p.x + x, p.y + y⟩)
  | translateX {q x} : lx q = some x → Acts lx ly ("translatex".toList, [q]) (fun p => ⟨p.x + x, p.y⟩)
  | translateY {q y} : ly q = some y → Acts lx ly ("translatey".toList, [q]) (fun p => ⟨p.x, p.y + y⟩)
  | scale {s : List Char} : Acts lx ly ("scale".toList, [(s, [])]) (scaleAbout (num s) (num s) 0 0)
  | scaleXY {s t : List Char} {ps x y} : Pivot lx ly ps x y → (∀ p ∈ ps, p.2 = []) →
      Acts lx ly ("scale".toList, (s, []) :: (t, []) :: ps) (scaleAbout (num s) (num t) x y)
  | scaleX {s : List Char} : Acts lx ly ("scalex".toList, [(s, [])]) (scaleAbout (num s) 1 0 0)
  | scaleY {s : List Char} : Acts lx ly ("scaley".toList, [(s, [])]) (scaleAbout 1 (num s) 0 0)
  | rotate {a ps θ x y} : angle a = some θ → Pivot lx ly ps x y →
      Acts lx ly ("rotate".toList, a :: ps) (rotateAbout θ x y)
  | skew {a b ps α β x y} : angle a = some α → angle b = some β → Pivot lx ly ps x y →
      Acts lx ly ("skew".toList, a :: b :: ps) (skewAbout α β x y)
  | skewX {a ps α x y} : angle a = some α → Pivot lx ly ps x y →
      Acts lx ly ("skewx".toList, a :: ps) (skewAbout α 0 x y)
  | skewY {a ps β x y} : angle a = some β → Pivot lx ly ps x y →
      Acts lx ly ("skewy".toList, a :: ps) (skewAbout 0 β x y)

/-- the maps of a list, the last one applied first -/
def compose : List (Pt ℝ → Pt ℝ) → Pt ℝ → Pt ℝ
  | [], p => p
  | f :: fs, p => f (compose fs p)

end Svgio.Spec
