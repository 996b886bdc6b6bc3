import Verif.Model.SegGeom
import Verif.Model.ArcMeasure

/-!
`segment.bbox()` for all classes of segments (path.py).
-/

namespace Svgio.Seg

/-- `segment.bbox()`: path.py:457-467, 837-861, 1035-1042 and, for arcs, 1889-1921. `ang`: whether the sweep of an arc is an Angle;
`fuel`: see `Arc.theta`. Missing points of arcs raise; which exception is simplified. -/
noncomputable def box (fuel : ℕ) (ang : ArcData ℝ → Bool) (s : Seg ℝ) : Except PyErr (BBox ℝ) :=
  match s.kind with
  | .arc a => match s.start, s.stop with
    | some p, some q => Arc.bbox fuel (ang a) p q a
    | _, _ => .error .attributeError
  | _ => s.bbox

end Svgio.Seg
