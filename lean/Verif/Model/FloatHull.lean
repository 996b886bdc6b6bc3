import Verif.Model.Point
import Verif.Model.FloatGeom

/-!
`Point.convex_hull` with floats: svgio/basic.py. The model of the same code in `Model/Point.lean` computes exactly. Overflow, infinities
and NaN are left out.
-/

namespace Svgio.Flt

variable (F : FloatRounding)

/-- basic.py:1779 `val` of `Point.orientation` -/
def turn (p q r : Pt ℚ) : ℚ :=
  F.fl (F.fl (F.fl (q.y - p.y) * F.fl (r.x - q.x)) - F.fl (F.fl (q.x - p.x) * F.fl (r.y - q.y)))

/-- basic.py:1776-1785 `Point.orientation(p, q, r)` -/
def orientation (p q r : Pt ℚ) : ℕ :=
  let val := turn F p q r
  if val = 0 then 0 else if val > 0 then 1 else 2

/-- basic.py:1798-1802 the body of the loop `for t in points`, with `endpoint` so far. Simplification: the test `is` for the same object is
equality, the points being different from each other. -/
def scanStep (p e t : Pt ℚ) : Pt ℚ := if p = e ∨ orientation F p t e = 2 then t else e

/-- basic.py:1797-1802 the loop `for t in points`: `endpoint` at the end -/
def hullNext (p : Pt ℚ) (points : List (Pt ℚ)) : Pt ℚ := points.foldl (scanStep F p) p

/-- basic.py:1795-1805 the loop `while True`, with fuel: the points yielded from `p` on; `none` when the fuel is used up -/
def hullLoop (first : Pt ℚ) (points : List (Pt ℚ)) : ℕ → Pt ℚ → Option (List (Pt ℚ))
  | 0, _ => none
  | n + 1, p =>
    let q := hullNext F p points
    if first = q then some [p] else (hullLoop first points n q).map (p :: ·)

/-- basic.py:1787-1805 `Point.convex_hull(pts)`, from the list `points` of line 1791 on, which has the different points in order of x -/
def convexHull (fuel : ℕ) : List (Pt ℚ) → Option (List (Pt ℚ))
  | [] => some []
  | p :: r => hullLoop F p (p :: r) fuel p

end Svgio.Flt
