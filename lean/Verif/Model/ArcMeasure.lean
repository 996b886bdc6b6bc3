import Verif.Model.Arc
import Mathlib.MeasureTheory.Integral.IntervalIntegral.Basic

/-!
Bounding box and length of arcs: svgio/path.py:1454-1462, 1535-1570, 1889-1921, over ℝ with the exact functions.
-/

namespace Svgio.Arc

open Seg (BBox minOf maxOf)

/-- path.py:1454-1457 `theta`; `none`: the loop of `as_positive_degrees` needs more than `fuel` rounds -/
noncomputable def theta (fuel : ℕ) (start : Pt ℝ) (a : ArcData ℝ) : Option ℝ := Angle.asPositiveDegrees tau fuel (endT a start)

/-- path.py:1459-1462 `delta` -/
noncomputable def delta (a : ArcData ℝ) : ℝ := Angle.asDegrees tau a.sweep

/-- path.py:1895-1904 `atan_x` -/
noncomputable def atanX (a : ArcData ℝ) : ℝ :=
  let phi := rotation a
  if Real.cos phi = 0 then tau / 4 else if Real.sin phi = 0 then 0 else Real.arctan (-(ry a / rx a) * Real.tan phi)

/-- path.py:1895-1905 `atan_y` -/
noncomputable def atanY (a : ArcData ℝ) : ℝ :=
  let phi := rotation a
  if Real.cos phi = 0 then 0 else if Real.sin phi = 0 then tau / 4 else Real.arctan (ry a / rx a / Real.tan phi)

/-- path.py:1907-1908 `angle_inv(ang, k)` -/
noncomputable def angleInv (theta delta ang : ℝ) (k : ℤ) : ℝ := ((ang + tau / 2 * k) * (360 / tau) - theta) / delta

/-- `range(-4, 5)`, path.py:1913 -/
def turnsRange : List ℤ := [-4, -3, -2, -1, 0, 1, 2, 3, 4]

/-- path.py:1913-1919 the positions appended to `xtrema` or `ytrema` -/
noncomputable def extremePositions (theta delta ang : ℝ) : List ℝ :=
  (turnsRange.map (angleInv theta delta ang)).filter (fun t => decide (0 ≤ t) && decide (t ≤ 1))

/-- path.py:1889-1921 `Arc.bbox()`. Simplifications: the divisions by zero that floating point could meet for radii of 0 do not occur in
exact arithmetic (the rotation is 0 then); `cos(phi) == 0` is exact. -/
noncomputable def bbox (fuel : ℕ) (isAngle : Bool) (start stop : Pt ℝ) (a : ArcData ℝ) : Except PyErr (BBox ℝ) :=
  if sweepIsZero isAngle a.sweep then .ok ⟨start.x, start.y, stop.x, stop.y⟩
  else match theta fuel start a with
    | none => .error .outOfFuel
    | some th =>
      let xs := stop.x :: (extremePositions th (delta a) (atanX a)).map (fun t => (point isAngle start stop a t).x)
      let ys := stop.y :: (extremePositions th (delta a) (atanY a)).map (fun t => (point isAngle start stop a t).y)
      .ok ⟨minOf start.x xs, minOf start.y ys, maxOf start.x xs, maxOf start.y ys⟩

/-- `scipy.special.ellipeinc(phi, m)`, called in path.py:1539-1548, taken to be exact: the incomplete elliptic integral of the second
kind -/
noncomputable def ellipeinc (phi m : ℝ) : ℝ := ∫ t in (0 : ℝ)..phi, Real.sqrt (1 - m * Real.sin t ^ 2)

/-- path.py:1535-1549 `_exact_length()`; a zero radius `b` raises ZeroDivisionError -/
noncomputable def exactLength (start : Pt ℝ) (a : ArcData ℝ) : Except PyErr ℝ :=
  if ry a = 0 then .error .zeroDivisionError
  else
    let phi := endT a start
    let m := 1 - (rx a / ry a) ^ 2
    let d1 := ellipeinc phi m
    let d2 := ellipeinc (phi + a.sweep) m
    .ok (ry a * |d2 - d1|)

/-- path.py:1551-1570 `Arc.length(error, min_depth)`. `scipy`: whether scipy is installed; `fuel`: see `Seg.segmentLength`. -/
noncomputable def length (scipy isAngle : Bool) (fuel : ℕ) (error : ℝ) (minDepth : ℕ) (start stop : Pt ℝ) (a : ArcData ℝ) :
    Except PyErr ℝ :=
  if sweepIsZero isAngle a.sweep then .ok 0
  else
    let d := |rx a - ry a|
    if d < err then .ok |rx a * a.sweep|
    else
      let fallback := Seg.lineLength (point isAngle start stop a) fuel 0 1 error minDepth
      if scipy then
        match exactLength start a with
        | .ok l => .ok l
        | .error _ => fallback
      else fallback

end Svgio.Arc
