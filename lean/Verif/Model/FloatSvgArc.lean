import Verif.Model.FloatArc
import Verif.Model.FloatTurn
import Verif.Model.FloatBox
import Mathlib.Analysis.SpecialFunctions.Trigonometric.Inverse

/-!
Arcs built from SVG parameters with floats: svgio/path.py:1586-1679. The model of the same code in `Model/Arc.lean` computes exactly, where
no division by zero occurs. Overflow, infinities and NaN are left out.
-/

namespace Svgio.Flt

/-- what is assumed of `acos` in the module math (basic.py:2-16): it is not negative and off by at most one unit in the last place of 2 -/
structure FloatAcos where
  acos : ℚ → ℚ
  nonneg : ∀ x, 0 ≤ acos x
  err : ∀ x : ℚ, -1 ≤ x → x ≤ 1 → |(acos x : ℝ) - Real.arccos x| ≤ 1 / 2 ^ 51

variable (F : FloatRounding)

/-- Python's `x / y` of floats, path.py:1619-1653 -/
def div (x y : ℚ) : Except PyErr ℚ := if y = 0 then .error .zeroDivisionError else .ok (F.fl (x / y))

/-- `math.radians(x)`, path.py:1606-1607: a product with the double `pi / 180` -/
def radians (x : ℚ) : ℚ := F.fl (x * F.fl (F.fl (tau / 2) / 180))

/-- `math.degrees(x)`, path.py:1660: a product with the double `180 / pi` -/
def toDegrees (x : ℚ) : ℚ := F.fl (x * F.fl (180 / F.fl (tau / 2)))

/-- path.py:1615-1622 the radii, enlarged if too small -/
def svgRadii (R : FloatSqrt) (rx ry x1Sq y1Sq : ℚ) : Except PyErr (ℚ × ℚ) := do
  let rxSq := F.fl (rx * rx)
  let rySq := F.fl (ry * ry)
  let p ← div F x1Sq rxSq
  let q ← div F y1Sq rySq
  let radiusCheck := F.fl (p + q)
  if radiusCheck > 1 then return (F.fl (rx * R.sqrt radiusCheck), F.fl (ry * R.sqrt radiusCheck)) else return (rx, ry)

/-- path.py:1615-1616, 1623-1631 the factor `c` -/
def centreFactor (R : FloatSqrt) (rx ry x1Sq y1Sq : ℚ) (large sweep : Bool) : Except PyErr ℚ := do
  let rxSq := F.fl (rx * rx)
  let rySq := F.fl (ry * ry)
  let t1 := F.fl (rxSq * y1Sq)
  let t2 := F.fl (rySq * x1Sq)
  let w ← div F (F.fl (F.fl (F.fl (rxSq * rySq) - t1) - t2)) (F.fl (t1 + t2))
  let c := R.sqrt |w|
  return if large = sweep then -c else c

/-- path.py:1651-1665 the sweep in degrees. Simplification: the unused root of path.py:1644-1645 is left out; it cannot fail. -/
def deltaDegrees (R : FloatSqrt) (A : FloatAcos) (ux uy vx vy : ℚ) (sweep : Bool) : Except PyErr ℚ := do
  let n := R.sqrt (F.fl (F.fl (F.fl (ux * ux) + F.fl (uy * uy)) * F.fl (F.fl (vx * vx) + F.fl (vy * vy))))
  let p := F.fl (F.fl (ux * vx) + F.fl (uy * vy))
  let d ← div F p n
  let d := if d > 1 then 1 else if d < -1 then -1 else d
  let delta := toDegrees F (A.acos d)
  let delta := if F.fl (F.fl (ux * vy) - F.fl (uy * vx)) < 0 then -delta else delta
  let delta := pyMod F delta 360
  return if sweep then delta else F.fl (delta - 360)

/-- path.py:1668-1679 the native parameters from centre, radii, rotation in degrees and `delta` in degrees -/
def native (T : FloatTrig) (center : Pt ℚ) (rx ry rotation delta : ℚ) : ArcData ℚ :=
  let rotateMatrix := postRotate F T Mat.identity (degrees F rotation) center.x center.y
  { center := center
    prx := pointInMatrixSpace F rotateMatrix ⟨F.fl (center.x + rx), center.y⟩
    pry := pointInMatrixSpace F rotateMatrix ⟨center.x, F.fl (center.y + ry)⟩
    sweep := degrees F delta }

/-- path.py:1586-1679 `_svg_parameterize(start, rx, ry, rotation, large_arc_flag, sweep_flag, end)` -/
def svgParameterize (T : FloatTrig) (R : FloatSqrt) (A : FloatAcos) (start : Pt ℚ) (rx ry rotation : ℚ) (large sweep : Bool) (stop : Pt ℚ) :
    Except PyErr (ArcData ℚ) :=
  if eq F start stop ∨ rx = 0 ∨ ry = 0 then .ok { center := start, prx := start, pry := start, sweep := 0 }
  else do
    let cosr := T.cos (radians F rotation)
    let sinr := T.sin (radians F rotation)
    let dx := F.fl (F.fl (start.x - stop.x) / 2)
    let dy := F.fl (F.fl (start.y - stop.y) / 2)
    let x1 := F.fl (F.fl (cosr * dx) + F.fl (sinr * dy))
    let x1Sq := F.fl (x1 * x1)
    let y1 := F.fl (F.fl (-sinr * dx) + F.fl (cosr * dy))
    let y1Sq := F.fl (y1 * y1)
    let (rx, ry) ← svgRadii F R rx ry x1Sq y1Sq
    let c ← centreFactor F R rx ry x1Sq y1Sq large sweep
    let cx ← div F (F.fl (F.fl (c * rx) * y1)) ry
    let cy ← div F (F.fl (F.fl (-c * ry) * x1)) rx
    let center : Pt ℚ := ⟨F.fl (F.fl (F.fl (cosr * cx) - F.fl (sinr * cy)) + F.fl (F.fl (start.x + stop.x) / 2)),
      F.fl (F.fl (F.fl (sinr * cx) + F.fl (cosr * cy)) + F.fl (F.fl (start.y + stop.y) / 2))⟩
    let ux ← div F (F.fl (x1 - cx)) rx
    let uy ← div F (F.fl (y1 - cy)) ry
    let vx ← div F (F.fl (-x1 - cx)) rx
    let vy ← div F (F.fl (-y1 - cy)) ry
    let delta ← deltaDegrees F R A ux uy vx vy sweep
    return native F T center rx ry rotation delta

end Svgio.Flt
