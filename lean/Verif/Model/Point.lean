import Verif.Model.Seg
import Mathlib.Analysis.SpecialFunctions.Sqrt

/-!
More of `Point`: svgio/basic.py:1437-1829. The arithmetic used by paths is in `Model/Seg.lean`.
-/

namespace Svgio.Pt

section
variable {K : Type} [Field K] [LinearOrder K]

/-- basic.py:1495-1496 `p != q` -/
def ne (p q : Pt K) : Bool := !(p.eq q)

/-- basic.py:1573-1595 `point * number` and `number * point`: the product of complex numbers (1586-1587), with
imaginary part 0 for the number -/
def smul (k : K) (p : Pt K) : Pt K := ⟨p.x * k - p.y * 0, p.x * 0 + p.y * k⟩

/-- basic.py:1755-1758 `self.move_towards(p2, amount)`: the point afterwards -/
def moveTowards (self p2 : Pt K) (amount : K) : Pt K := self.add (smul amount (p2.sub self))

/-- basic.py:1776-1785 `Point.orientation(p, q, r)` -/
def orientation (p q r : Pt K) : ℕ :=
  let val := (q.y - p.y) * (r.x - q.x) - (q.x - p.x) * (r.y - q.y)
  if val = 0 then 0 else if val > 0 then 1 else 2

/-- basic.py:1798-1802 the body of the loop `for t in points`, with `endpoint` so far. Simplification: the test `is`
for the same object is equality, the points being different from each other. -/
def scanStep (p e t : Pt K) : Pt K := if p = e ∨ orientation p t e = 2 then t else e

/-- basic.py:1796-1802 the loop `for t in points`: `endpoint` at the end -/
def hullNext (p : Pt K) (points : List (Pt K)) : Pt K := points.foldl (scanStep p) p

/-- basic.py:1794-1805 the loop `while True`, with fuel: the points yielded from `p` on; `none` when the fuel is
used up -/
def hullLoop (first : Pt K) (points : List (Pt K)) : ℕ → Pt K → Option (List (Pt K))
  | 0, _ => none
  | n + 1, p =>
    let q := hullNext p points
    if first = q then some [p] else (hullLoop first points n q).map (p :: ·)

/-- basic.py:1787-1805 `Point.convex_hull(pts)`, from the list `points` of line 1791 on. That list has the
different points in order of x; the order of points with the same x is that of a Python set, any order. -/
def convexHull (fuel : ℕ) : List (Pt K) → Option (List (Pt K))
  | [] => some []
  | p :: r => hullLoop p (p :: r) fuel p

end

/-- basic.py:1807-1813 `Point.distance(p1, p2)` -/
noncomputable def distance (p q : Pt ℝ) : ℝ :=
  let dx := p.x - q.x
  let dy := p.y - q.y
  Real.sqrt (dx * dx + dy * dy)

/-- basic.py:1724-1725 `abs(p)`, `hypot` -/
noncomputable def norm (p : Pt ℝ) : ℝ := Real.sqrt (p.x ^ 2 + p.y ^ 2)

/-- basic.py:1760-1761 `p.distance_to(q)` -/
noncomputable def distanceTo (p q : Pt ℝ) : ℝ := norm (p.sub q)

end Svgio.Pt
