import Verif.Model.Point
import Verif.Model.ArcCtor
import Verif.Model.FloatArc

/-!
Polar coordinates of points: svgio/basic.py:1763-1771, 1815-1823, exactly and with floats.
-/

namespace Svgio.Pt

/-- basic.py:1763-1765 `p.angle_to(q)` -/
noncomputable def angleTo (p q : Pt ℝ) : ℝ :=
  let d := q.sub p
  Arc.atan2 d.y d.x

/-- basic.py:1767-1771 `p.polar_to(angle, distance)`: the point afterwards, which is also the result -/
noncomputable def polarTo (p : Pt ℝ) (angle distance : ℝ) : Pt ℝ :=
  let q := Arc.polar p angle distance
  let p := { p with x := q.x }
  { p with y := q.y }

end Svgio.Pt

namespace Svgio.Flt

/-- basic.py:1815-1819 `Point.polar(p1, angle, r)` with floats; overflow is left out -/
def polar (F : FloatRounding) (T : FloatTrig) (p : Pt ℚ) (angle r : ℚ) : Pt ℚ :=
  let dx := F.fl (T.cos angle * r)
  let dy := F.fl (T.sin angle * r)
  ⟨F.fl (p.x + dx), F.fl (p.y + dy)⟩

end Svgio.Flt
