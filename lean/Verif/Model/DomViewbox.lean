import Verif.Model.DomProps
import Verif.Model.Viewbox

/-!
The viewBox of elements: svgio/nodes.py:1436-1440, 1699-1703, 1848-1853 and basic.py:2573-2584.
-/

namespace Svgio.Dom

/-- what is given as an attribute: a number, a text (all that loading gives), or a `Viewbox` object with its aspect ratio, basic.py:2520-2538 -/
inductive Given
  | num (q : ℚ)
  | text (s : Str)
  | box (b : Box ℚ) (aspect : Option Str)
  deriving DecidableEq

/-- a property as a value, None if there is none. Simplified: builders are taken for a text; like a text they can neither be divided nor
subtracted from. -/
def valueOf : Got Given → Option Given
  | .attr v => some v
  | .nothing => none
  | .number n => some (.num n)
  | .text s => some (.text s)
  | .builder _ => some (.text [])

/-- basic.py:2586-2688 `Viewbox.viewbox_transform(..)` when the numbers of the element can be anything: dividing `e_width` (2640) and
`e_height` (2642) and subtracting from `e_x` (2651) and `e_y` (2653) raise TypeError unless they are numbers. `Viewbox.transform` is the same
for numbers. -/
def viewboxOf (ex ey ew eh : Option Given) (vb : Box ℚ) (aspect : Option Str) : Except PyErr Str :=
  match ex, ey, ew, eh, vb.x, vb.y, vb.width, vb.height with
  | some ex, some ey, some ew, some eh, some vx, some vy, some vw, some vh =>
    match ew with
    | .num ew =>
      if vw = 0 then .error .zeroDivisionError
      else match eh with
        | .num eh =>
          if vh = 0 then .error .zeroDivisionError
          else match ex, ey with
            | .num ex, .num ey => Viewbox.transform ⟨some ex, some ey, some ew, some eh⟩ ⟨some vx, some vy, some vw, some vh⟩ aspect
            | _, _ => .error .typeError
        | _ => .error .typeError
    | _ => .error .typeError
  | _, _, _, _, _, _, _, _ => .ok []

/-- basic.py:2573-2584 `viewbox.transform(element)` -/
def transformFor (vb : Box ℚ) (aspect : Option Str) (d : Dom Given) (i : ℕ) : Except PyErr Str := do
  let x ← getAttribute d i "x".toList
  let y ← getAttribute d i "y".toList
  let w ← getAttribute d i "width".toList
  let h ← getAttribute d i "height".toList
  viewboxOf (valueOf x) (valueOf y) (valueOf w) (valueOf h) vb aspect

/-- `element.viewbox_transform`: nodes.py:1848-1853 (SVG), 1436-1440 (Pattern), 1699-1703 (Image); other elements do not have it. Texts and
numbers have no method `transform`. -/
def viewboxTransform (d : Dom Given) (i : ℕ) : Except PyErr Str :=
  match d.nodes[i]? with
  | none => .error .attributeError
  | some n =>
    if n.cls = .svg then do
      match ← getAttribute d i "viewBox".toList with
      | .nothing => .ok []
      | .attr (.box b aspect) => transformFor b aspect d i
      | _ => .error .attributeError
    else if n.cls = .pattern ∨ n.cls = .image then do
      match ← getAttribute d i "viewbox".toList with
      | .nothing => .ok []
      | .attr (.box b aspect) => transformFor b aspect d i
      | _ => .error .attributeError
    else .error .attributeError

end Svgio.Dom
