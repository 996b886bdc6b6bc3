import Verif.Model.Seg
import Verif.Model.Ieee
import Mathlib.Analysis.Real.Sqrt

/-!
Lengths found by bisection, computed with floats: svgio/path.py:418-455. The model of the same code in `Model/SegGeom.lean` computes exactly.
Overflow, infinities and NaN are left out.
-/

namespace Svgio.Flt

/-- what is assumed of `math.hypot`, basic.py:1725: the result is a double, not negative, and off by at most two roundings. The correctly
rounded result is closer than that (`hypot_exists`). -/
structure FloatHypot where
  hypot : ℚ → ℚ → ℚ
  nonneg : ∀ x y, 0 ≤ hypot x y
  double : ∀ x y, roundDouble (hypot x y) = hypot x y
  zero : hypot 0 0 = 0
  err : ∀ x y, |(hypot x y : ℝ) - Real.sqrt ((x : ℝ) ^ 2 + (y : ℝ) ^ 2)| ≤ Real.sqrt ((x : ℝ) ^ 2 + (y : ℝ) ^ 2) / 2 ^ 52 + 1 / 2 ^ 1074

variable (F : FloatRounding) (H : FloatHypot)

/-- `abs(p - q)`: basic.py:1673-1678 `Point.__sub__`, basic.py:1724-1725 `Point.__abs__` -/
def chord (p q : Pt ℚ) : ℚ := H.hypot (F.fl (p.x - q.x)) (F.fl (p.y - q.y))

/-- path.py:418-450 `PathSegment.segment_length`, for the curve whose `point` is `f`. `fuel` is the number of nested calls the interpreter
allows; when it runs out, RecursionError. The end points are given, as in every call but the first (path.py:430-433). -/
def segmentLength (f : ℚ → Pt ℚ) (error : ℚ) (minDepth : ℕ) :
    (fuel : ℕ) → (start stop : ℚ) → (startPoint endPoint : Pt ℚ) → (depth : ℕ) → Except PyErr ℚ
  | 0, _, _, _, _, _ => .error .recursionError
  | fuel + 1, start, stop, startPoint, endPoint, depth =>
    let mid := F.fl (F.fl (start + stop) / 2)
    let midPoint := f mid
    let length := chord F H endPoint startPoint
    let firstHalf := chord F H midPoint startPoint
    let secondHalf := chord F H endPoint midPoint
    let length2 := F.fl (firstHalf + secondHalf)
    if F.fl (length2 - length) > error ∨ depth < minDepth then
      match segmentLength f error minDepth fuel start mid startPoint midPoint (depth + 1) with
      | .error e => .error e
      | .ok l1 =>
        match segmentLength f error minDepth fuel mid stop midPoint endPoint (depth + 1) with
        | .error e => .error e
        | .ok l2 => .ok (F.fl (l1 + l2))
    else .ok length2

/-- path.py:452-455 `_line_length(start, end, error, min_depth)`, with path.py:430-433: the end points are computed first. It is also
`CubicBezier._length_default`, path.py:1085-1086, used by `length`, path.py:1088-1093, when scipy is missing. -/
def lineLength (f : ℚ → Pt ℚ) (fuel : ℕ) (start stop error : ℚ) (minDepth : ℕ) : Except PyErr ℚ :=
  segmentLength F H f error minDepth fuel start stop (f start) (f stop) 0

end Svgio.Flt
