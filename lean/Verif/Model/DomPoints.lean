import Verif.Model.DomViewbox
import Verif.Model.PointText

/-!
`rect.position`, `circle.center` and `ellipse.center`: svgio/nodes.py:699-704, 1022-1027, 1106-1111, with `Point(x, y)` basic.py:1449-1477.
-/

namespace Svgio.Dom

/-- basic.py:1449-1477 `Point(x, y)` for coordinates that are numbers, texts, viewboxes or None: a text or an object alone is taken for both
coordinates, a number alone for the real part; otherwise the two are kept as they are. -/
def newPoint (fl : ℚ → ℚ) (x y : Option Given) : Except PyErr (Option Given × Option Given) :=
  match x, y with
  | some (.text s), none =>
    match PointText.ofText fl s with
    | .error e => .error e
    | .ok p => .ok (some (.num p.x), some (.num p.y))
  | some (.box b _), none => .ok (b.x.map .num, b.y.map .num)
  | some (.num q), none => .ok (some (.num q), some (.num 0))
  | x, y => .ok (x, y)

/-- nodes.py:699-704 (Rect), 1022-1027 (Ellipse), 1106-1111 (Circle): the names of the two attributes; other elements have no such property -/
def pointKeys : Cls → Option (Str × Str)
  | .rect => some ("x".toList, "y".toList)
  | .circle | .ellipse => some ("cx".toList, "cy".toList)
  | _ => none

/-- `rect.position`, `ellipse.center`, `circle.center`, cited at `pointKeys` -/
def pointOf (fl : ℚ → ℚ) (d : Dom Given) (i : ℕ) : Except PyErr (Option Given × Option Given) :=
  match (d.nodes[i]?).bind fun n => pointKeys n.cls with
  | none => .error .attributeError
  | some (kx, ky) =>
    match getValues d i with
    | .error e => .error e
    | .ok values => newPoint fl (dictGet values kx) (dictGet values ky)

end Svgio.Dom
