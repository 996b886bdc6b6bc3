import Verif.Model.FloatLocate

/-!
Lengths of lines and of paths of lines computed with floats: svgio/path.py:493-501, 671-675, 2138-2152, 2240-2242. The model of the same code in
`Model/SegGeom.lean` and `Model/PathCache.lean` computes exactly. Overflow, infinities and NaN are left out.
-/

namespace Svgio.Flt

/-- what is assumed of `math.sqrt`, basic.py:1813: the result is a double, and for a double that is not negative its square is that number,
up to four roundings. The correctly rounded root is closer than that (`root_exists`). -/
structure FloatRoot where
  sqrt : ℚ → ℚ
  nonneg : ∀ x, 0 ≤ sqrt x
  double : ∀ x, roundDouble (sqrt x) = sqrt x
  err : ∀ x, 0 ≤ x → roundDouble x = x → |sqrt x ^ 2 - x| ≤ x / 2 ^ 51

variable (F : FloatRounding)

/-- basic.py:1808-1813 `Point.distance(p1, p2)` -/
def distance (R : FloatRoot) (p q : Pt ℚ) : ℚ :=
  let dx := F.fl (p.x - q.x)
  let dy := F.fl (p.y - q.y)
  R.sqrt (F.fl (F.fl (dx * dx) + F.fl (dy * dy)))

/-- `segment.length()` of a move, path.py:493-501, of a line and of a close, path.py:671-675. Curves have other formulas and are left out. -/
def segLength (R : FloatRoot) (s : Seg ℚ) : ℚ :=
  match s.kind, s.start, s.stop with
  | .line, some p, some q => distance F R q p
  | .close, some p, some q => distance F R q p
  | _, _, _ => 0

/-- path.py:2240-2242 `path.length()`, with `_calc_lengths` path.py:2151-2152, for a path of moves, lines and closes -/
def pathLength (R : FloatRoot) (S : FloatSum) (p : List (Seg ℚ)) : ℚ := S.sum (p.map (segLength F R))

end Svgio.Flt
