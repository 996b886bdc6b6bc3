import Verif.Model.Arc

/-!
The radii and angles of an arc as the methods of `Arc` give them.
-/

namespace Svgio.Arc

/-- path.py:1764-1767 `is_circular()` -/
noncomputable def isCircular (a : ArcData ℝ) : Bool := decide (rx a = ry a)

/-- path.py:1769-1775 `radius` -/
noncomputable def radius (a : ArcData ℝ) : Pt ℝ := ⟨rx a, ry a⟩

/-- path.py:1788-1792 `get_start_angle()` -/
noncomputable def startAngle (start : Pt ℝ) (a : ArcData ℝ) : ℝ := angleAtPoint a start

/-- path.py:1794-1798 `get_end_angle()` -/
noncomputable def endAngle (stop : Pt ℝ) (a : ArcData ℝ) : ℝ := angleAtPoint a stop

/-- path.py:1886-1887 `get_ellipse()`: path.py has no `Ellipse`, neither of its own nor imported -/
def getEllipse (_ : ArcData ℝ) : Except PyErr Unit := .error .nameError

end Svgio.Arc
