import Verif.Model.Angle
import Verif.Model.SegGeom
import Mathlib.Analysis.SpecialFunctions.Complex.Arg
import Mathlib.Analysis.SpecialFunctions.Trigonometric.Inverse
import Mathlib.Analysis.SpecialFunctions.Trigonometric.Arctan

/-!
Arcs: svgio/path.py:1132-1945, over ℝ with the exact trigonometric functions. `a : ArcData ℝ` holds the native parameters;
the end points belong to the segment. Methods that the code calls with a point that is None are not modelled.
-/

namespace Svgio.Arc

/-- path.py:4-9 `tau` -/
noncomputable def tau : ℝ := 2 * Real.pi

/-- `math.atan2(y, x)`. Simplification: there is no negative zero, so `atan2(0, x)` is half a turn for negative `x`. Called in
basic.py:1765, 1823 and path.py:1829, 1856. -/
noncomputable def atan2 (y x : ℝ) : ℝ := Complex.arg ⟨x, y⟩

/-- basic.py:1821-1823 `Point.angle(p1, p2)`; basic.py:1763-1765 `p1.angle_to(p2)` -/
noncomputable def angle (p1 p2 : Pt ℝ) : ℝ := atan2 (p2.y - p1.y) (p2.x - p1.x)

/-- path.py:1777-1779 `rx` -/
noncomputable def rx (a : ArcData ℝ) : ℝ := Pt.distance a.center a.prx

/-- path.py:1781-1783 `ry` -/
noncomputable def ry (a : ArcData ℝ) : ℝ := Pt.distance a.center a.pry

/-- path.py:1785-1786 `get_rotation()` -/
noncomputable def rotation (a : ArcData ℝ) : ℝ := angle a.center a.prx

/-- path.py:1863-1884 `point_at_t(t)` -/
noncomputable def pointAtT (a : ArcData ℝ) (t : ℝ) : Pt ℝ :=
  let rot := rotation a
  let cosRot := Real.cos rot
  let sinRot := Real.sin rot
  let cosT := Real.cos t
  let sinT := Real.sin t
  ⟨a.center.x + rx a * cosT * cosRot - ry a * sinT * sinRot, a.center.y + rx a * cosT * sinRot + ry a * sinT * cosRot⟩

/-- path.py:1836-1843 `angle_at_point(p)` -/
noncomputable def angleAtPoint (a : ArcData ℝ) (p : Pt ℝ) : ℝ := angle a.center p

/-- path.py:1829, 1856 `atan2(a * tan(angle), b)`. Simplification: at an odd multiple of a quarter turn `math.tan` returns a
huge number with the sign of the angle (the nearest double is off the pole towards zero); the result is taken to be exactly a
quarter turn there. -/
noncomputable def scaledAtan (a b angle : ℝ) : ℝ :=
  if Real.cos angle = 0 ∧ a ≠ 0 then (if 0 < angle then Real.pi / 2 else -(Real.pi / 2))
  else atan2 (a * Real.tan angle) b

/-- path.py:1829-1833, 1856-1860 the parameter of the ellipse's point seen at this angle from the first axis -/
noncomputable def ellipseT (a b angle : ℝ) : ℝ :=
  let t := scaledAtan a b angle
  let tau14 := tau / 4
  let tau34 := 3 * tau14
  if tau34 ≥ Angle.pyMod |angle| tau ∧ Angle.pyMod |angle| tau > tau14 then t + tau / 2 else t

/-- path.py:1816-1834 `point_at_angle(angle)` -/
noncomputable def pointAtAngle (a : ArcData ℝ) (angle : ℝ) : Pt ℝ :=
  let angle := angle - rotation a
  if rx a = ry a then pointAtT a angle else pointAtT a (ellipseT (rx a) (ry a) angle)

/-- path.py:1845-1861 `t_at_point(p)` -/
noncomputable def tAtPoint (a : ArcData ℝ) (p : Pt ℝ) : ℝ :=
  ellipseT (rx a) (ry a) (angleAtPoint a p - rotation a)

/-- path.py:1800-1806 `get_start_t()`, 1808-1814 `get_end_t()` for the start or the end `p` -/
noncomputable def endT (a : ArcData ℝ) (p : Pt ℝ) : ℝ := tAtPoint a (pointAtAngle a (angleAtPoint a p))

/-- path.py:1474, 1498, 1556, 1893 `self.sweep == 0`: the sweep of an arc built from SVG parameters is an `Angle`, and these
compare modulo a turn (basic.py:1841-1844) -/
noncomputable def sweepIsZero (isAngle : Bool) (w : ℝ) : Bool :=
  if isAngle then Angle.eq tau w 0 else decide (w = 0)

/-- path.py:1468-1519 one position of `npoint`, with or without numpy: both compute the same -/
noncomputable def point (isAngle : Bool) (start stop : Pt ℝ) (a : ArcData ℝ) (position : ℝ) : Pt ℝ :=
  if start.eq stop && sweepIsZero isAngle a.sweep then start
  else if position = 0 then start
  else if position = 1 then stop
  else pointAtT a (endT a start + a.sweep * position)

/-! ### SVG parameters -/

/-- path.py:1626-1633 the factor `c` after its sign is set -/
noncomputable def centreFactor (rxSq rySq x1Sq y1Sq : ℝ) (large sweep : Bool) : ℝ :=
  let t1 := rxSq * y1Sq
  let t2 := rySq * x1Sq
  let c := Real.sqrt |(rxSq * rySq - t1 - t2) / (t1 + t2)|
  if large = sweep then -c else c

/-- path.py:1651-1665 `delta` in degrees -/
noncomputable def deltaDegrees (ux uy vx vy : ℝ) (sweep : Bool) : ℝ :=
  let n := Real.sqrt ((ux * ux + uy * uy) * (vx * vx + vy * vy))
  let p := ux * vx + uy * vy
  let d := p / n
  let d := if d > 1 then 1 else if d < -1 then -1 else d
  let delta := Real.arccos d * 180 / Real.pi
  let delta := if ux * vy - uy * vx < 0 then -delta else delta
  let delta := Angle.pyMod delta 360
  if sweep then delta else delta - 360

/-- path.py:1668-1679 the native parameters from centre, radii, rotation in degrees and `delta` in degrees -/
noncomputable def native (center : Pt ℝ) (rx ry rotation delta : ℝ) : ArcData ℝ :=
  let rotateMatrix := Mat.postRotate Mat.identity (Angle.ofDegrees tau rotation) (some center.x) (some center.y)
  { center := center
    prx := rotateMatrix.pointInMatrixSpace ⟨center.x + rx, center.y⟩
    pry := rotateMatrix.pointInMatrixSpace ⟨center.x, center.y + ry⟩
    sweep := Angle.ofDegrees tau delta }

/-- path.py:1586-1679 `_svg_parameterize(start, rx, ry, rotation, large_arc_flag, sweep_flag, end)`. No division by zero occurs:
the end points differ and the radii are not zero. -/
noncomputable def svgParameterize (start : Pt ℝ) (rx ry rotation : ℝ) (large sweep : Bool) (stop : Pt ℝ) : ArcData ℝ :=
  if start.eq stop ∨ rx = 0 ∨ ry = 0 then { center := start, prx := start, pry := start, sweep := 0 }
  else
    let cosr := Real.cos (rotation * Real.pi / 180)
    let sinr := Real.sin (rotation * Real.pi / 180)
    let dx := (start.x - stop.x) / 2
    let dy := (start.y - stop.y) / 2
    let x1 := cosr * dx + sinr * dy
    let x1Sq := x1 * x1
    let y1 := -sinr * dx + cosr * dy
    let y1Sq := y1 * y1
    let radiusCheck := x1Sq / (rx * rx) + y1Sq / (ry * ry)
    let rx := if radiusCheck > 1 then rx * Real.sqrt radiusCheck else rx
    let ry := if radiusCheck > 1 then ry * Real.sqrt radiusCheck else ry
    let rxSq := rx * rx
    let rySq := ry * ry
    let c := centreFactor rxSq rySq x1Sq y1Sq large sweep
    let cx := c * rx * y1 / ry
    let cy := -c * ry * x1 / rx
    let center : Pt ℝ := ⟨(cosr * cx - sinr * cy) + (start.x + stop.x) / 2, (sinr * cx + cosr * cy) + (start.y + stop.y) / 2⟩
    let ux := (x1 - cx) / rx
    let uy := (y1 - cy) / ry
    let vx := (-x1 - cx) / rx
    let vy := (-y1 - cy) / ry
    native center rx ry rotation (deltaDegrees ux uy vx vy sweep)

/-- path.py:1586-1679 with the arguments the path reader passes: missing numbers are None. `bool(None)` is False; `None == 0` is
False; `radians(None)` and `None * None` raise TypeError. -/
noncomputable def svgCtor : Path.ArcCtor ℝ := fun start rx ry rotation large sweep stop =>
  if start.eq stop ∨ rx = some 0 ∨ ry = some 0 then
    .ok { center := start, prx := start, pry := start, sweep := 0 }
  else match rx, ry, rotation with
    | some rx, some ry, some rotation =>
      .ok (svgParameterize start rx ry rotation (large.getD false) (sweep.getD false) stop)
    | _, _, _ => .error .typeError

/-! ### approximation by curves -/

/-- path.py:1681-1686, 1716-1721 the number of curves: given, or from `sweep_limit` of a twelfth turn. `int(ceil(..))` of a
non-negative number. -/
noncomputable def arcRequired (a : ArcData ℝ) (required : Option ℤ) : ℤ :=
  required.getD ⌈|a.sweep| / (tau / 12)⌉

/-- path.py:1701-1714 the loop of `as_quad_curves`: `n` rounds are left -/
noncomputable def quadLoop (a : ArcData ℝ) (stop : Pt ℝ) (tSlice : ℝ) : ℕ → ℝ → Pt ℝ → List (Seg ℝ)
  | 0, _, _ => []
  | n + 1, currentT, pStart =>
    let nextT := currentT + tSlice
    let midT := (nextT + currentT) / 2
    let pEnd := if n = 0 then stop else pointAtT a nextT
    let cosMid := Real.cos midT
    let sinMid := Real.sin midT
    let cosTheta := Real.cos (rotation a)
    let sinTheta := Real.sin (rotation a)
    let alpha := (4 - Real.cos tSlice) / 3
    let px := a.center.x + alpha * (rx a * cosMid * cosTheta - ry a * sinMid * sinTheta)
    let py := a.center.y + alpha * (rx a * cosMid * sinTheta + ry a * sinMid * cosTheta)
    { kind := .quad (some ⟨px, py⟩), start := some pStart, stop := some pEnd } ::
      quadLoop a stop tSlice n nextT pEnd

/-- path.py:1681-1714 `as_quad_curves(arc_required)` -/
noncomputable def asQuadCurves (start stop : Pt ℝ) (a : ArcData ℝ) (required : Option ℤ) : List (Seg ℝ) :=
  let n := arcRequired a required
  if n = 0 then []
  else quadLoop a stop (a.sweep / n) n.toNat (endT a start) start

/-- path.py:1734-1762 the loop of `as_cubic_curves`: `n` rounds are left -/
noncomputable def cubicLoop (a : ArcData ℝ) (stop : Pt ℝ) (tSlice : ℝ) : ℕ → ℝ → Pt ℝ → List (Seg ℝ)
  | 0, _, _ => []
  | n + 1, currentT, pStart =>
    let nextT := currentT + tSlice
    let cosTheta := Real.cos (rotation a)
    let sinTheta := Real.sin (rotation a)
    let alpha := Real.sin tSlice * (Real.sqrt (4 + 3 * Real.tan (tSlice / 2) ^ 2) - 1) / 3
    let cosS := Real.cos currentT
    let sinS := Real.sin currentT
    let e1x := -rx a * cosTheta * sinS - ry a * sinTheta * cosS
    let e1y := -rx a * sinTheta * sinS + ry a * cosTheta * cosS
    let cosE := Real.cos nextT
    let sinE := Real.sin nextT
    let p2x := a.center.x + rx a * cosE * cosTheta - ry a * sinE * sinTheta
    let p2y := a.center.y + rx a * cosE * sinTheta + ry a * sinE * cosTheta
    let pEnd : Pt ℝ := if n = 0 then stop else ⟨p2x, p2y⟩
    let e2x := -rx a * cosTheta * sinE - ry a * sinTheta * cosE
    let e2y := -rx a * sinTheta * sinE + ry a * cosTheta * cosE
    let c1 : Pt ℝ := ⟨pStart.x + alpha * e1x, pStart.y + alpha * e1y⟩
    let c2 : Pt ℝ := ⟨pEnd.x - alpha * e2x, pEnd.y - alpha * e2y⟩
    { kind := .cubic (some c1) (some c2), start := some pStart, stop := some pEnd } ::
      cubicLoop a stop tSlice n nextT pEnd

/-- path.py:1716-1762 `as_cubic_curves(arc_required)` -/
noncomputable def asCubicCurves (start stop : Pt ℝ) (a : ArcData ℝ) (required : Option ℤ) : List (Seg ℝ) :=
  let n := arcRequired a required
  if n = 0 then []
  else cubicLoop a stop (a.sweep / n) n.toNat (endT a start) start

/-- path.py:2770-2774, 2781-2785 one round of `approximate_arcs_with_cubics` or `approximate_arcs_with_quads`: the slice
assignment (path.py:2046-2060) of the curves for the arc at position `i`. A missing end of an arc raises; which exception
is simplified. -/
noncomputable def approxStep (curves : Pt ℝ → Pt ℝ → ArcData ℝ → Option ℤ → List (Seg ℝ)) (error : ℝ) (p : List (Seg ℝ))
    (i : ℕ) : Except PyErr (List (Seg ℝ)) :=
  match p[i]? with
  | none => .error .indexError
  | some s =>
    match s.kind with
    | .arc a =>
      let sweepLimit := tau * error
      if sweepLimit = 0 then .error .zeroDivisionError
      else match s.start, s.stop with
        | some v, some u =>
          .ok (Path.validateConnections (p.take i ++ curves v u a (some ⌈|a.sweep| / sweepLimit⌉) ++ p.drop (i + 1)))
        | _, _ => .error .attributeError
    | _ => .ok p

/-- path.py:2770, 2781 the loop over the positions below `n`, from the last to the first -/
noncomputable def approxLoop (curves : Pt ℝ → Pt ℝ → ArcData ℝ → Option ℤ → List (Seg ℝ)) (error : ℝ) :
    ℕ → List (Seg ℝ) → Except PyErr (List (Seg ℝ))
  | 0, p => .ok p
  | n + 1, p =>
    match approxStep curves error p n with
    | .error e => .error e
    | .ok q => approxLoop curves error n q

/-- path.py:2765-2774 `approximate_arcs_with_cubics(error)` -/
noncomputable def approximateWithCubics (error : ℝ) (p : List (Seg ℝ)) : Except PyErr (List (Seg ℝ)) :=
  approxLoop asCubicCurves error p.length p

/-- path.py:2776-2785 `approximate_arcs_with_quads(error)` -/
noncomputable def approximateWithQuads (error : ℝ) (p : List (Seg ℝ)) : Except PyErr (List (Seg ℝ)) :=
  approxLoop asQuadCurves error p.length p

end Svgio.Arc
