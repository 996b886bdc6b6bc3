import Verif.Model.FloatGeom

/-!
Transforming segments with floats: svgio/path.py:367-372, 559-567, 639-647, 785-795, 971-983.
-/

namespace Svgio.Flt

variable (F : FloatRounding)

/-- `segment *= matrix`: path.py:559-567 (Move), 639-647 (Linear), 785-795 (QuadraticBezier), 971-983 (CubicBezier), each point with
basic.py:1537-1544 `point *= matrix`. Arcs are left out: they stay as they are here. -/
def imul (m : Mat ℚ) (s : Seg ℚ) : Seg ℚ :=
  { s with
    start := s.start.map (pointInMatrixSpace F m)
    stop := s.stop.map (pointInMatrixSpace F m)
    kind := match s.kind with
      | .quad c => .quad (c.map (pointInMatrixSpace F m))
      | .cubic c1 c2 => .cubic (c1.map (pointInMatrixSpace F m)) (c2.map (pointInMatrixSpace F m))
      | k => k }

/-- path.py:367-372 `segment * matrix`: a copy that is transformed -/
def mul (s : Seg ℚ) (m : Mat ℚ) : Seg ℚ := imul F m (Path.copySeg s)

end Svgio.Flt
