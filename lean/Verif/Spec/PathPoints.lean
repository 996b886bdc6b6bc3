import Verif.Spec.PathData

/-!
The drawing state after path data, as SVG says.
-/

namespace Svgio.Spec

variable {K : Type} [Field K]

/-- the drawing state after these commands -/
def Pen.through (pen : Pen K) : List (Cmd K) → Pen K
  | [] => pen
  | c :: cs => Pen.through (step (fun p _ _ _ _ _ _ => ⟨p, p, p, 0⟩) false pen c).2 cs

/-- the control point that a smooth curve after these commands would have: the reflection of the last control point if the last
command drew a Bezier curve, the current point otherwise -/
def Pen.reflection (pen : Pen K) : Pt K :=
  match pen.ctrl with
  | some (_, c) => ⟨2 * pen.cur.x - c.x, 2 * pen.cur.y - c.y⟩
  | none => pen.cur

end Svgio.Spec
