import Verif.Spec.Dom
import Verif.Model.DomProps

/-!
The attributes of SVG elements and the names of the properties that show them.
-/

namespace Svgio.Spec

open Svgio.Dom

variable {V : Type} [DecidableEq V]

/-- the SVG attributes that a property stands for, the preferred one first. In general it has the name of the attribute, with underscores
for hyphens. SVG 2: `href` is preferred to `xlink:href`. -/
def standsFor (name : Str) : List Str :=
  if name = "href".toList then ["href".toList, "{http://www.w3.org/1999/xlink}href".toList]
  else if name = "unit_type".toList then ["clipPathUnits".toList]
  else name.map (fun c => if c = '_' then '-' else c) :: []

/-- the preferred one of the attributes that a property stands for -/
def ownValue (a : Dict V) (name : Str) : Option V := (standsFor name).findSome? (dictGet a)

/-- the inherited presentation attributes -/
def presentation : List Str := ["stroke_opacity".toList, "fill_opacity".toList, "stroke_width".toList]

/-- the attributes of SVG elements, by class, that are not presentation attributes -/
def attributesOf : Cls → List Str
  | .rect => ["x".toList, "y".toList, "width".toList, "height".toList, "rx".toList, "ry".toList, "transform".toList]
  | .circle => ["cx".toList, "cy".toList, "r".toList, "transform".toList]
  | .ellipse => ["cx".toList, "cy".toList, "rx".toList, "ry".toList, "transform".toList]
  | .line => ["x1".toList, "y1".toList, "x2".toList, "y2".toList, "transform".toList]
  | .polyline | .polygon => ["points".toList, "transform".toList]
  | .path => ["d".toList, "transform".toList]
  | .group => ["transform".toList]
  | .svg => ["x".toList, "y".toList, "width".toList, "height".toList, "viewBox".toList, "preserveAspectRatio".toList, "transform".toList]
  | .image => ["x".toList, "y".toList, "width".toList, "height".toList, "href".toList, "preserveAspectRatio".toList, "transform".toList]
  | .text | .tspan => ["x".toList, "y".toList, "dx".toList, "dy".toList]
  | .use => ["x".toList, "y".toList, "width".toList, "height".toList, "href".toList, "transform".toList]
  | .mask => ["x".toList, "y".toList, "width".toList, "height".toList]
  | .pattern => ["x".toList, "y".toList, "width".toList, "height".toList, "href".toList]
  | .clipPath => ["unit_type".toList, "transform".toList]
  | .script => ["href".toList]
  | .hyperlink => ["href".toList, "transform".toList]
  | _ => []

/-- the shapes and other elements with presentation attributes -/
def painted : List Cls := [.rect, .circle, .ellipse, .line, .polyline, .polygon, .path, .text, .tspan, .image]

/-- the value of a missing attribute; None where the specification has none or it depends on other things -/
def initialValue (c : Cls) (name : Str) : Got V :=
  if c = .rect ∧ name ∈ ["x".toList, "y".toList, "width".toList, "height".toList] then .number 0
  else if name = "unit_type".toList then .text "userSpaceOnUse".toList
  else .nothing

/-- the transforms on the way from the outermost ancestor of a node to it; their product is the transform of its coordinates to those of
the document -/
inductive Transforms (d : Dom V) : ℕ → List V → Prop
  | top {i n a} : d.nodes[i]? = some n → n.attrs = some a → n.parent = none →
      Transforms d i (dictGet a "transform".toList).toList
  | inside {i n a p l} : d.nodes[i]? = some n → n.attrs = some a → n.parent = some p → Transforms d p l →
      Transforms d i (l ++ (dictGet a "transform".toList).toList)

end Svgio.Spec
