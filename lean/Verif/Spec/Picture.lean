import Verif.Spec.PathData
import Verif.Spec.Geom
import Verif.Spec.Arc

/-!
The picture drawn by path data, as SVG says.
-/

namespace Svgio.Spec

/-- `f`, from 0 to 1, is the same curve as `g`. -/
def Follows (f g : ℝ → Pt ℝ) : Prop := ∀ u, 0 ≤ u → u ≤ 1 → f u = g u

/-- The curve `f` is what SVG draws for this command in this drawing state. A moveto draws nothing, and so does an arc with equal
end points; an arc with a radius 0 is a straight line; the signs of radii do not matter; rotations are in degrees. -/
noncomputable def DrawsCmd (pen : Pen ℝ) (f : ℝ → Pt ℝ) : Cmd ℝ → Prop
  | .move rel p => Follows f fun _ => pen.pt rel p
  | .line rel e => Follows f (between pen.cur (pen.stop rel e))
  | .horiz rel x => Follows f (between pen.cur ⟨if rel then pen.cur.x + x else x, pen.cur.y⟩)
  | .vert rel y => Follows f (between pen.cur ⟨pen.cur.x, if rel then pen.cur.y + y else y⟩)
  | .quad rel c e => Follows f (bezier2 pen.cur (pen.pt rel c) (pen.stop rel e))
  | .smoothQuad rel e => Follows f (bezier2 pen.cur (pen.smooth false .quad) (pen.stop rel e))
  | .cubic rel c d e => Follows f (bezier3 pen.cur (pen.pt rel c) (pen.pt rel d) (pen.stop rel e))
  | .smoothCubic rel d e => Follows f (bezier3 pen.cur (pen.smooth false .cubic) (pen.pt rel d) (pen.stop rel e))
  | .arc rel rx ry rot large sweep e =>
    if pen.cur = pen.stop rel e then Follows f fun _ => pen.cur
    else if rx = 0 ∨ ry = 0 then Follows f (between pen.cur (pen.stop rel e))
    else DrawsArc pen.cur (pen.stop rel e) |rx| |ry| (rot * Real.pi / 180) large sweep f
  | .close _ => Follows f (between pen.cur pen.start)

/-- the drawing state after a command -/
noncomputable def Pen.after (pen : Pen ℝ) (c : Cmd ℝ) : Pen ℝ := (step (fun p _ _ _ _ _ _ => ⟨p, p, p, 0⟩) false pen c).2

/-- The curves are those drawn for the commands, one for each, from this drawing state on. -/
def DrawsFrom : Pen ℝ → List (Cmd ℝ) → List (ℝ → Pt ℝ) → Prop
  | _, [], fs => fs = []
  | _, _ :: _, [] => False
  | pen, c :: cs, f :: fs => DrawsCmd pen f c ∧ DrawsFrom (pen.after c) cs fs

/-- The curves are the picture of this path data: the first moveto is absolute, whatever its letter. -/
def Picture : List (Cmd ℝ) → List (ℝ → Pt ℝ) → Prop
  | .move _ p :: cs, f :: fs => Follows f (fun _ => p) ∧ DrawsFrom ⟨p, p, none⟩ cs fs
  | _, _ => False

end Svgio.Spec
