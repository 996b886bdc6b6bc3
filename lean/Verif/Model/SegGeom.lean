import Verif.Model.Matrix
import Verif.Model.Point
import Verif.Model.Subpath
import Mathlib.Analysis.SpecialFunctions.Log.Basic

/-!
Geometry of segments other than arcs: svgio/path.py:334-1129. Transforming, evaluating, bounding boxes, the closest point and
the length of a quadratic curve, in exact arithmetic. Evaluation of lines depends on whether numpy is installed.
-/

namespace Svgio

namespace Seg

section
variable {K : Type} [Field K] [LinearOrder K]

/-- path.py:1418-1436 the native parameters of an arc under `arc *= matrix`, with basic.py:2215-2219 -/
def imulArc (m : Mat K) (a : ArcData K) : ArcData K :=
  let w := a.sweep
  let w := if m.a < 0 then -w else w
  let w := if m.d < 0 then -w else w
  { center := m.pointInMatrixSpace a.center, prx := m.pointInMatrixSpace a.prx, pry := m.pointInMatrixSpace a.pry,
    sweep := w }

/-- `segment *= matrix`: path.py:559-567 (Move), 639-647 (Linear), 785-795 (QuadraticBezier), 971-983 (CubicBezier),
1418-1436 (Arc) -/
def imul (m : Mat K) (s : Seg K) : Seg K :=
  { s with
    start := s.start.map m.pointInMatrixSpace
    stop := s.stop.map m.pointInMatrixSpace
    kind := match s.kind with
      | .quad c => .quad (c.map m.pointInMatrixSpace)
      | .cubic c1 c2 => .cubic (c1.map m.pointInMatrixSpace) (c2.map m.pointInMatrixSpace)
      | .arc a => .arc (imulArc m a)
      | k => k }

/-- path.py:367-372 `segment * matrix`: a copy that is transformed -/
def mul (s : Seg K) (m : Mat K) : Seg K := imul m (Path.copySeg s)

/-- path.py:818-826 one coordinate of a quadratic curve -/
def quadAt (x0 x1 x2 position : K) : K :=
  let nPos := 1 - position
  let pos2 := position ^ 2
  let nPos2 := nPos ^ 2
  let nPosPos := nPos * position
  nPos2 * x0 + 2 * nPosPos * x1 + pos2 * x2

/-- path.py:1016-1024 one coordinate of a cubic curve -/
def cubicAt (x0 x1 x2 x3 position : K) : K :=
  let pos3 := position ^ 3
  let nPos := 1 - position
  let nPos3 := nPos ^ 3
  let pos2nPos := position * position * nPos
  let nPos2pos := nPos * nPos * position
  nPos3 * x0 + 3 * (nPos2pos * x1 + pos2nPos * x2) + pos3 * x3

/-- `np.interp(position, [0, 1], [a, b])`, path.py:665-666: positions outside are moved to the nearer end -/
def interp (a b position : K) : K :=
  if position ≤ 0 then a else if 1 ≤ position then b else position * (b - a) + a

/-- path.py:660-669 a point of `Linear.npoint`, with numpy or without -/
def linearAt (numpy : Bool) (p q : Pt K) (position : K) : Pt K :=
  if numpy then ⟨interp p.x q.x position, interp p.y q.y position⟩ else Pt.towards p q position

/-- `segment.point(position)` for all classes but Arc: path.py:477-491 (Move), 660-669 (Linear), 809-835 (QuadraticBezier),
1006-1033 (CubicBezier). Missing points raise. Arcs are in `Model/Arc.lean`; here they give notImplementedError. -/
def point (numpy : Bool) (s : Seg K) (position : K) : Except PyErr (Pt K) :=
  match s.kind with
  | .move => match s.stop with
    | some q => .ok q
    | none => .error .noneCoord
  | .line | .close => match s.start, s.stop with
    | some p, some q => .ok (linearAt numpy p q position)
    | _, _ => .error (if numpy then .attributeError else .typeError)
  | .quad c => match s.start, c, s.stop with
    | some p, some c, some q => .ok ⟨quadAt p.x c.x q.x position, quadAt p.y c.y q.y position⟩
    | _, _, _ => .error .typeError
  | .cubic c1 c2 => match s.start, c1, c2, s.stop with
    | some p, some c, some d, some q => .ok ⟨cubicAt p.x c.x d.x q.x position, cubicAt p.y c.y d.y q.y position⟩
    | _, _, _, _ => .error .typeError
  | .arc _ => .error .notImplementedError

/-- a bounding box: xmin, ymin, xmax, ymax as returned in path.py:467, 861, 1042 -/
structure BBox (K : Type) where
  xmin : K
  ymin : K
  xmax : K
  ymax : K
  deriving DecidableEq, Repr

/-- Python `min` of a list that begins with `x`, path.py:463-466, 861, 1066 -/
def minOf (x : K) (l : List K) : K := l.foldl min x
/-- Python `max` of a list that begins with `x`, path.py:463-466, 861, 1066 -/
def maxOf (x : K) (l : List K) : K := l.foldl max x

/-- path.py:457-467 `PathSegment.bbox`, used by Move, Line and Close: the box of the points that are not None; `min` of an
empty list raises ValueError -/
def bboxPoints (ps : List (Pt K)) : Except PyErr (BBox K) :=
  match ps with
  | [] => .error .valueError
  | p :: r => .ok ⟨minOf p.x (r.map (·.x)), minOf p.y (r.map (·.y)), maxOf p.x (r.map (·.x)), maxOf p.y (r.map (·.y))⟩

/-- path.py:841-850, 851-860 the values of one coordinate that the box of a quadratic curve is made from, after the first -/
def quadExtrema (x0 x1 x2 : K) : List K :=
  let n := x0 - x1
  let d := x0 - 2 * x1 + x2
  let t := if d ≠ 0 then n / d else 1 / 2
  if 0 < t ∧ t < 1 then [x2, quadAt x0 x1 x2 t] else [x2]

/-- path.py:837-861 `QuadraticBezier.bbox` -/
def quadBBox (p c q : Pt K) : BBox K :=
  let xs := quadExtrema p.x c.x q.x
  let ys := quadExtrema p.y c.y q.y
  ⟨minOf p.x xs, minOf p.y ys, maxOf p.x xs, maxOf p.y ys⟩

/-- path.py:677-695 `Linear.closest_segment_point(p, respect_bounds)`; `none` is the number 0, returned for a line that is a
point. -/
def closestPoint (numpy : Bool) (a b p : Pt K) (respectBounds : Bool) : Option (Pt K) :=
  let vApX := p.x - a.x
  let vApY := p.y - a.y
  let vAbX := b.x - a.x
  let vAbY := b.y - a.y
  let sqDistanceAb := vAbX * vAbX + vAbY * vAbY
  let abApProduct := vAbX * vApX + vAbY * vApY
  if sqDistanceAb = 0 then none
  else
    let amount := abApProduct / sqDistanceAb
    let amount := if respectBounds then
        let amount := if amount > 1 then 1 else amount
        if amount < 0 then 0 else amount
      else amount
    some (linearAt numpy a b amount)

end

/-- path.py:1049-1064 `local_extremizers` of `CubicBezier._real_minmax`, after the first, for one coordinate -/
noncomputable def extremizers (a0 a1 a2 a3 : ℝ) : List ℝ :=
  let denom := a0 - 3 * a1 + 3 * a2 - a3
  if |denom| ≥ 1 / 10 ^ 12 then
    let delta := a1 ^ 2 - (a0 + a1) * a2 + a2 ^ 2 + (a0 - a1) * a3
    if delta ≥ 0 then
      let sqdelta := Real.sqrt delta
      let tau := a0 - 2 * a1 + a2
      let r1 := (tau + sqdelta) / denom
      let r2 := (tau - sqdelta) / denom
      [1] ++ (if 0 < r1 ∧ r1 < 1 then [r1] else []) ++ (if 0 < r2 ∧ r2 < 1 then [r2] else [])
    else [1]
  else [1, 1 / 2]

/-- path.py:1065-1066 `local_extrema` of `_real_minmax`, and their minimum and maximum -/
noncomputable def realMinMax (a0 a1 a2 a3 : ℝ) : ℝ × ℝ :=
  let v := (extremizers a0 a1 a2 a3).map (cubicAt a0 a1 a2 a3)
  (minOf (cubicAt a0 a1 a2 a3 0) v, maxOf (cubicAt a0 a1 a2 a3 0) v)

/-- path.py:1035-1042 `CubicBezier.bbox` -/
noncomputable def cubicBBox (p c d q : Pt ℝ) : BBox ℝ :=
  let x := realMinMax p.x c.x d.x q.x
  let y := realMinMax p.y c.y d.y q.y
  ⟨x.1, y.1, x.2, y.2⟩

/-- `segment.bbox()` for all classes but Arc: path.py:457-467, 837-861, 1035-1042. Missing points of curves
raise; which exception is simplified. -/
noncomputable def bbox (s : Seg ℝ) : Except PyErr (BBox ℝ) :=
  match s.kind with
  | .move | .line | .close => bboxPoints (s.start.toList ++ s.stop.toList)
  | .quad c => match s.start, c, s.stop with
    | some p, some c, some q => .ok (quadBBox p c q)
    | _, _, _ => .error .attributeError
  | .cubic c1 c2 => match s.start, c1, c2, s.stop with
    | some p, some c, some d, some q => .ok (cubicBBox p c d q)
    | _, _, _, _ => .error .typeError
  | .arc _ => .error .notImplementedError

/-- path.py:671-675 `Linear.length` -/
noncomputable def linearLength (s : Seg ℝ) : ℝ :=
  match s.start, s.stop with
  | some p, some q => Pt.distance q p
  | _, _ => 0

/-- path.py:863-895 `QuadraticBezier.length`, with `x / 0` raising ZeroDivisionError and `log` of a number that is not positive
raising ValueError -/
noncomputable def quadLength (p c q : Pt ℝ) : ℝ :=
  let a := (p.sub (Pt.smul 2 c)).add q
  let b := Pt.smul 2 (c.sub p)
  let A := 4 * (a.x ^ 2 + a.y ^ 2)
  let B := 4 * (a.x * b.x + a.y * b.y)
  let C := b.x ^ 2 + b.y ^ 2
  let Sabc := 2 * Real.sqrt (A + B + C)
  let A2 := Real.sqrt A
  let A32 := 2 * A * A2
  let C2 := 2 * Real.sqrt C
  let BA := B / A2
  if A2 = 0 ∨ BA + C2 = 0 ∨ (2 * A2 + BA + Sabc) / (BA + C2) ≤ 0 ∨ 4 * A32 = 0 then
    if Pt.norm a < 1 / 10 ^ 10 then Pt.norm b
    else
      let k := Pt.norm b / Pt.norm a
      if k ≥ 2 then Pt.norm b - Pt.norm a
      else Pt.norm a * (k ^ 2 / 2 - k + 1)
  else
    (A32 * Sabc + A2 * B * (Sabc - C2) + (4 * C * A - B ^ 2) * Real.log ((2 * A2 + BA + Sabc) / (BA + C2))) / (4 * A32)

/-- path.py:418-450 `PathSegment.segment_length`, for the curve `f`. `fuel` is the number of nested calls the interpreter
allows; when it runs out, RecursionError. The end points are given, as in every call but the first (path.py:430-433). -/
noncomputable def segmentLength (f : ℝ → Pt ℝ) (error : ℝ) (minDepth : ℕ) :
    (fuel : ℕ) → (start stop : ℝ) → (startPoint endPoint : Pt ℝ) → (depth : ℕ) → Except PyErr ℝ
  | 0, _, _, _, _, _ => .error .recursionError
  | fuel + 1, start, stop, startPoint, endPoint, depth =>
    let mid := (start + stop) / 2
    let midPoint := f mid
    let length := Pt.norm (endPoint.sub startPoint)
    let firstHalf := Pt.norm (midPoint.sub startPoint)
    let secondHalf := Pt.norm (endPoint.sub midPoint)
    let length2 := firstHalf + secondHalf
    if length2 - length > error ∨ depth < minDepth then do
      let l1 ← segmentLength f error minDepth fuel start mid startPoint midPoint (depth + 1)
      let l2 ← segmentLength f error minDepth fuel mid stop midPoint endPoint (depth + 1)
      pure (l1 + l2)
    else .ok length2

/-- path.py:452-455 `_line_length(start, end, error, min_depth)`, with path.py:430-433: the end points are computed first.
It is also `CubicBezier._length_default`, path.py:1085-1086, used by `length`, path.py:1088-1093, when scipy is missing. -/
noncomputable def lineLength (f : ℝ → Pt ℝ) (fuel : ℕ) (start stop error : ℝ) (minDepth : ℕ) : Except PyErr ℝ :=
  segmentLength f error minDepth fuel start stop (f start) (f stop) 0

end Seg

end Svgio
