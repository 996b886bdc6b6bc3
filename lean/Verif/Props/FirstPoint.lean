import Verif.Props.SubpathBox
import Verif.Props.PathPoints

/-!
C115: the first point of any path.
-/

namespace Svgio.Props

open Svgio Spec Arc

/-- **C115** for a path made in any way: `first_point` is where the curve of its first segment begins, and None if there is no segment.
A move must have no start or one at its end. -/
theorem C115_first {ang : ArcData ℝ → Bool} {s : Seg ℝ} {f : ℝ → Pt ℝ} (h : Draws ang s f) (r : List (Seg ℝ)) :
    Path.firstPoint (s :: r) = some (f 0) ∧ Path.firstPoint ([] : List (Seg ℝ)) = none := by
  refine ⟨?_, rfl⟩
  cases h with
  | @move q o _ _ h =>
    cases o with
    | none => rfl
    | some p => simp [Path.firstPoint, h p rfl]
  | line => simp [Path.firstPoint, between]
  | close => simp [Path.firstPoint, between]
  | quad => simp [Path.firstPoint, bezier2, between]
  | cubic => simp [Path.firstPoint, bezier3, bezier2, between]
  | arc => simp [Path.firstPoint, Arc.point]

/-- a line that does not begin at the origin -/
example : Draws (fun _ => false) ⟨.line, some ⟨1, 2⟩, some ⟨3, 4⟩, false, true⟩ (between ⟨1, 2⟩ ⟨3, 4⟩) := .line

end Svgio.Props
