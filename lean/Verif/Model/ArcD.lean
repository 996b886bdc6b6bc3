import Verif.Model.Arc

/-!
The numbers and flags that `Arc.d` prints: svgio/path.py:1923-1945. How they are printed is in `Model/Print.lean`.
-/

namespace Svgio.Arc

/-- The parameters printed by `Arc.d`, before `"%G"` rounds the numbers to 6 digits (path.py:1929-1935, 1938-1944): the radii, the rotation
in degrees, the large-arc flag and the sweep flag. -/
structure SvgArgs where
  rx : ℝ
  ry : ℝ
  rot : ℝ
  large : Bool
  sweep : Bool

/-- path.py:1930-1934, 1939-1943, the same in both forms. The sweep may be an `Angle`; `>` and `>=` are those of floats there too
(basic.py:1841-1844 changes `==` only). -/
noncomputable def svgArgs (a : ArcData ℝ) : SvgArgs where
  rx := rx a
  ry := ry a
  rot := Angle.asDegrees tau (rotation a)
  large := decide (|a.sweep| > tau / 2)
  sweep := decide (a.sweep ≥ 0)

end Svgio.Arc
