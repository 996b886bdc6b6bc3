import Verif.Model.FloatSvgArc
import Verif.Model.FloatAngle
import Verif.Model.SegGeom
import Mathlib.Analysis.SpecialFunctions.Trigonometric.Arctan

/-!
The box of an arc computed with floats: svgio/path.py:1454-1462, 1889-1921. The model of the same code in `Model/ArcMeasure.lean` computes
exactly. Overflow, infinities and NaN are left out.
-/

namespace Svgio.Flt

open Seg (BBox minOf maxOf)

/-- what is assumed of `atan` in the module math (basic.py:2-16): it is off by at most one unit in the last place of 1 -/
structure FloatAtan where
  atan : ℚ → ℚ
  err : ∀ x : ℚ, |(atan x : ℝ) - Real.arctan x| ≤ 1 / 2 ^ 52

variable (F : FloatRounding)

/-- path.py:1454-1457 `theta`; `none`: the loop of `as_positive_degrees` needs more than `fuel` rounds -/
def arcTheta (fuel : ℕ) (T : FloatTrig) (R : FloatRoot) (start : Pt ℚ) (a : ArcData ℚ) : Option ℚ :=
  asPositiveDegrees F fuel (startT F T R a start)

/-- path.py:1459-1462 `delta` -/
def arcDelta (a : ArcData ℚ) : ℚ := asDegrees F a.sweep

/-- path.py:1895-1905 `atan_x` and `atan_y` -/
def boxAngles (T : FloatTrig) (N : FloatAtan) (R : FloatRoot) (a : ArcData ℚ) : Except PyErr (ℚ × ℚ) :=
  let phi := rotation F T a
  if T.cos phi = 0 then .ok (F.fl (tau / 4), 0)
  else if T.sin phi = 0 then .ok (0, F.fl (tau / 4))
  else do
    let q ← div F (ry F R a) (rx F R a)
    let y ← div F q (T.tan phi)
    return (N.atan (F.fl (-q * T.tan phi)), N.atan y)

/-- path.py:1907-1908 `angle_inv(ang, k)`, where `delta` is not 0 -/
def angleInv (theta delta ang : ℚ) (k : ℤ) : ℚ :=
  F.fl (F.fl (F.fl (F.fl (ang + F.fl (F.fl (tau / 2) * k)) * F.fl (360 / tau)) - theta) / delta)

/-- path.py:1913-1919 the positions appended to `xtrema` or `ytrema` -/
def extremePositions (theta delta ang : ℚ) : List ℚ :=
  (([-4, -3, -2, -1, 0, 1, 2, 3, 4] : List ℤ).map (angleInv F theta delta ang)).filter (fun t => decide (0 ≤ t) && decide (t ≤ 1))

/-- path.py:1889-1921 `Arc.bbox()`. Simplification: all calls of `angle_inv` divide by the same number, which is compared with 0 once. -/
def arcBox (fuel : ℕ) (T : FloatTrig) (N : FloatAtan) (R : FloatRoot) (isAngle : Bool) (start stop : Pt ℚ) (a : ArcData ℚ) :
    Except PyErr (BBox ℚ) :=
  if sweepIsZero F isAngle a.sweep then .ok ⟨start.x, start.y, stop.x, stop.y⟩
  else do
    let (x, y) ← boxAngles F T N R a
    match arcTheta F fuel T R start a with
    | none => .error .outOfFuel
    | some th =>
      if arcDelta F a = 0 then .error .zeroDivisionError
      else
        let xs := stop.x :: (extremePositions F th (arcDelta F a) x).map (fun t => (arcPoint F T R isAngle start stop a t).x)
        let ys := stop.y :: (extremePositions F th (arcDelta F a) y).map (fun t => (arcPoint F T R isAngle start stop a t).y)
        .ok ⟨minOf start.x xs, minOf start.y ys, maxOf start.x xs, maxOf start.y ys⟩

end Svgio.Flt
