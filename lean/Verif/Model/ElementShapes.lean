import Verif.Model.DomProps
import Verif.Model.PathLex
import Verif.Model.Shapes

/-!
Segments of path, polyline, polygon, circle and ellipse elements: svgio/nodes.py:819-1347.
-/

namespace Svgio.Dom

variable {K : Type} [Field K] [LinearOrder K]

/-- nodes.py:1344-1347 `Path.segments(transformed)` with path.py:1966-1988 `path.Path(self.d)`: the attribute `d` is read if it is a text,
and the path is empty if it is None. `transformed` is not used. -/
def pathSegments (rd : List Char → K) (mk : Path.ArcCtor K) (d : Dom Str) (i : ℕ) : Except PyErr (List (Seg K)) :=
  match getAttribute d i "d".toList with
  | .error e => .error e
  | .ok (.attr s) =>
    match Lexer.parse rd mk [] s with
    | (st, none) => .ok st.path
    | (_, some e) => .error e
  | .ok _ => .ok []

/-- nodes.py:1231-1252 `_Polyshape.segments(transformed)`: None if the attribute `points` is not empty. If it is, the local variable
`points` is read before it is set; UnboundLocalError is given as NameError, of which it is a subclass. -/
def polySegments (d : Dom Str) (i : ℕ) : Except PyErr (Option (List (Seg K))) :=
  match getAttribute d i "points".toList with
  | .error e => .error e
  | .ok (.attr s) => if s.length ≠ 0 then .ok none else .error .nameError
  | .ok _ => .error .typeError

/-- nodes.py:939-962 `point_at_t(t)` of a circle or ellipse: these have no attribute `rotation`, read in line 950 -/
def pointAtT (_t : K) : Except PyErr (Pt K) := .error .attributeError

/-- nodes.py:1029-1071 (Ellipse), 1113-1155 (Circle) `segments(transformed)`, up to the first point; `t` is the transform, in which a text
has no method `value_scale_x` either -/
def roundSegments (t : Option (Mat K)) (transformed : Bool) : Except PyErr (List (Seg K)) := do
  let _turn ← (if transformed then
      match t with
      | none => .error .attributeError
      | some m => .ok (decide (m.a * m.d < 0))
    else .ok false)
  let p ← pointAtT (0 : K)
  .ok [⟨.move, none, some p, false, true⟩]

end Svgio.Dom
