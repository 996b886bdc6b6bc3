import Verif.Model.FloatGeom

/-!
Boxes of lines and curves computed with floats: svgio/path.py. The model of the same code in `Model/SegGeom.lean` computes exactly. Arcs,
overflow, infinities and NaN are left out.
-/

namespace Svgio.Flt

/-- what is assumed of `math.sqrt` for a float that is not negative, path.py:1055: the square of the result is the number, up to four
roundings. The correctly rounded root is closer than that. -/
structure FloatSqrt where
  sqrt : ℚ → ℚ
  nonneg : ∀ x, 0 ≤ sqrt x
  err : ∀ x, 0 ≤ x → |sqrt x ^ 2 - x| ≤ x / 2 ^ 51

variable (F : FloatRounding)

/-- path.py:841-850, 851-860 the values of one coordinate that the box of a quadratic curve is made from, after the first -/
def quadExtrema (P : FloatPow) (x0 x1 x2 : ℚ) : List ℚ :=
  let n := F.fl (x0 - x1)
  let d := F.fl (F.fl (x0 - F.fl (2 * x1)) + x2)
  let t := if d ≠ 0 then F.fl (n / d) else 1 / 2
  if 0 < t ∧ t < 1 then [x2, quadAt F P x0 x1 x2 t] else [x2]

/-- path.py:837-861 `QuadraticBezier.bbox` -/
def quadBBox (P : FloatPow) (p c q : Pt ℚ) : Seg.BBox ℚ :=
  let xs := quadExtrema F P p.x c.x q.x
  let ys := quadExtrema F P p.y c.y q.y
  ⟨Seg.minOf p.x xs, Seg.minOf p.y ys, Seg.maxOf p.x xs, Seg.maxOf p.y ys⟩

/-- path.py:1051 `denom` of `CubicBezier._real_minmax` -/
def denomOf (a0 a1 a2 a3 : ℚ) : ℚ := F.fl (F.fl (F.fl (a0 - F.fl (3 * a1)) + F.fl (3 * a2)) - a3)

/-- path.py:1053 `delta` of `CubicBezier._real_minmax` -/
def deltaOf (P : FloatPow) (a0 a1 a2 a3 : ℚ) : ℚ :=
  F.fl (F.fl (F.fl (P.pow a1 2 - F.fl (F.fl (a0 + a1) * a2)) + P.pow a2 2) + F.fl (F.fl (a0 - a1) * a3))

/-- path.py:1056 `tau` of `CubicBezier._real_minmax` -/
def tauOf (a0 a1 a2 : ℚ) : ℚ := F.fl (F.fl (a0 - F.fl (2 * a1)) + a2)

/-- path.py:1049-1064 `local_extremizers` of `CubicBezier._real_minmax`, after the first, for one coordinate; 1e-12 is the float
nearest to it -/
def extremizers (P : FloatPow) (S : FloatSqrt) (a0 a1 a2 a3 : ℚ) : List ℚ :=
  let denom := denomOf F a0 a1 a2 a3
  if |denom| ≥ F.fl (1 / 10 ^ 12) then
    let delta := deltaOf F P a0 a1 a2 a3
    if delta ≥ 0 then
      let sqdelta := S.sqrt delta
      let tau := tauOf F a0 a1 a2
      let r1 := F.fl (F.fl (tau + sqdelta) / denom)
      let r2 := F.fl (F.fl (tau - sqdelta) / denom)
      [1] ++ (if 0 < r1 ∧ r1 < 1 then [r1] else []) ++ (if 0 < r2 ∧ r2 < 1 then [r2] else [])
    else [1]
  else [1, 1 / 2]

/-- path.py:1065-1066 `local_extrema` of `_real_minmax`, and their minimum and maximum -/
def realMinMax (P : FloatPow) (S : FloatSqrt) (a0 a1 a2 a3 : ℚ) : ℚ × ℚ :=
  let v := (extremizers F P S a0 a1 a2 a3).map (cubicAt F P a0 a1 a2 a3)
  (Seg.minOf (cubicAt F P a0 a1 a2 a3 0) v, Seg.maxOf (cubicAt F P a0 a1 a2 a3 0) v)

/-- path.py:1035-1042 `CubicBezier.bbox` -/
def cubicBBox (P : FloatPow) (S : FloatSqrt) (p c d q : Pt ℚ) : Seg.BBox ℚ :=
  let x := realMinMax F P S p.x c.x d.x q.x
  let y := realMinMax F P S p.y c.y d.y q.y
  ⟨x.1, y.1, x.2, y.2⟩

/-- `segment.bbox()` for all classes but Arc: path.py:457-467 (Move, Line, Close; comparisons only, nothing is rounded), 837-861
(QuadraticBezier), 1035-1042 (CubicBezier). Missing points of curves raise; which exception is simplified. -/
def bbox (P : FloatPow) (S : FloatSqrt) (s : Seg ℚ) : Except PyErr (Seg.BBox ℚ) :=
  match s.kind with
  | .move | .line | .close => Seg.bboxPoints (s.start.toList ++ s.stop.toList)
  | .quad c => match s.start, c, s.stop with
    | some p, some c, some q => .ok (quadBBox F P p c q)
    | _, _, _ => .error .attributeError
  | .cubic c1 c2 => match s.start, c1, c2, s.stop with
    | some p, some c, some d, some q => .ok (cubicBBox F P S p c d q)
    | _, _, _, _ => .error .typeError
  | .arc _ => .error .notImplementedError

end Svgio.Flt
