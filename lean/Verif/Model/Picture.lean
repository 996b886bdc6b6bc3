import Verif.Model.PathLex
import Verif.Model.Arc

/-!
Points of segments of any class.
-/

namespace Svgio.Seg

/-- `segment.point(position)` for all classes: path.py:477-491 (Move), 660-669 (Linear), 809-835 (QuadraticBezier), 1006-1033
(CubicBezier), 1468-1519 (Arc). `ang` says whether the sweep of an arc is an `Angle`. -/
noncomputable def anyPoint (numpy : Bool) (ang : ArcData ℝ → Bool) (s : Seg ℝ) (position : ℝ) : Except PyErr (Pt ℝ) :=
  match s.kind, s.start, s.stop with
  | .arc a, some p, some q => .ok (Arc.point (ang a) p q a position)
  | .arc _, _, _ => .error .attributeError
  | _, _, _ => point numpy s position

end Svgio.Seg
