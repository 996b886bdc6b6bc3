import Verif.Model.Ieee
import Verif.Model.Matrix
import Verif.Model.SegGeom

/-!
Points, matrices and curves computed with floats: every operation is rounded, in the order in which Python evaluates it. The models of the
same code in `Model/Matrix.lean` and `Model/SegGeom.lean` compute exactly. Overflow, infinities and NaN are left out.
-/

namespace Svgio.Flt

/-- what is assumed of `x ** n` for a float `x` and a small whole number `n`, as in svgio/path.py:819, 820, 1017, 1019: exact for 0 and 1,
otherwise off by at most one unit in the last place -/
structure FloatPow where
  pow : ℚ → ℕ → ℚ
  zero : ∀ n, 0 < n → pow 0 n = 0
  one : ∀ n, pow 1 n = 1
  err : ∀ x n, |pow x n - x ^ n| ≤ |x ^ n| / 2 ^ 52 + 1 / 2 ^ 1074

variable (F : FloatRounding)

/-- basic.py:1484-1493 `Point.__eq__` for two points; constants.py:6 `ERROR = 1e-12` is the double nearest to it -/
def eq (p q : Pt ℚ) : Bool := decide (|F.fl (p.x - q.x)| ≤ F.fl err) && decide (|F.fl (p.y - q.y)| ≤ F.fl err)

/-- basic.py:1826-1827 one coordinate of `Point.towards(p1, p2, amount)` -/
def towardsAt (a b amount : ℚ) : ℚ := F.fl (F.fl (amount * F.fl (b - a)) + a)

/-- `np.interp(position, [0, 1], [a, b])`, path.py:665-666; numpy's code is not part of the library: outside of the interval the nearer
end, inside of it the slope times the position, plus the first value -/
def interpAt (a b position : ℚ) : ℚ :=
  if position ≤ 0 then a else if 1 ≤ position then b else F.fl (F.fl (F.fl (b - a) * position) + a)

/-- path.py:660-669 a point of `Linear.npoint`, with numpy or without -/
def linearAt (numpy : Bool) (p q : Pt ℚ) (position : ℚ) : Pt ℚ :=
  if numpy then ⟨interpAt F p.x q.x position, interpAt F p.y q.y position⟩
  else ⟨towardsAt F p.x q.x position, towardsAt F p.y q.y position⟩

/-- path.py:816-826 one coordinate of a quadratic curve -/
def quadAt (P : FloatPow) (x0 x1 x2 position : ℚ) : ℚ :=
  let nPos := F.fl (1 - position)
  let pos2 := P.pow position 2
  let nPos2 := P.pow nPos 2
  let nPosPos := F.fl (nPos * position)
  F.fl (F.fl (F.fl (nPos2 * x0) + F.fl (F.fl (2 * nPosPos) * x1)) + F.fl (pos2 * x2))

/-- path.py:1014-1024 one coordinate of a cubic curve -/
def cubicAt (P : FloatPow) (x0 x1 x2 x3 position : ℚ) : ℚ :=
  let pos3 := P.pow position 3
  let nPos := F.fl (1 - position)
  let nPos3 := P.pow nPos 3
  let pos2nPos := F.fl (F.fl (position * position) * nPos)
  let nPos2pos := F.fl (F.fl (nPos * nPos) * position)
  F.fl (F.fl (F.fl (nPos3 * x0) + F.fl (3 * F.fl (F.fl (nPos2pos * x1) + F.fl (pos2nPos * x2)))) + F.fl (pos3 * x3))

/-- `segment.point(position)` for all classes but Arc: path.py:477-491 (Move), 660-669 (Linear), 809-835 (QuadraticBezier),
1006-1033 (CubicBezier). Missing points raise; arcs are left out. -/
def point (P : FloatPow) (numpy : Bool) (s : Seg ℚ) (position : ℚ) : Except PyErr (Pt ℚ) :=
  match s.kind with
  | .move => match s.stop with
    | some q => .ok q
    | none => .error .noneCoord
  | .line | .close => match s.start, s.stop with
    | some p, some q => .ok (linearAt F numpy p q position)
    | _, _ => .error (if numpy then .attributeError else .typeError)
  | .quad c => match s.start, c, s.stop with
    | some p, some c, some q => .ok ⟨quadAt F P p.x c.x q.x position, quadAt F P p.y c.y q.y position⟩
    | _, _, _ => .error .typeError
  | .cubic c1 c2 => match s.start, c1, c2, s.stop with
    | some p, some c, some d, some q => .ok ⟨cubicAt F P p.x c.x d.x q.x position, cubicAt F P p.y c.y d.y q.y position⟩
    | _, _, _, _ => .error .typeError
  | .arc _ => .error .notImplementedError

/-- basic.py:2414-2418 `point_in_matrix_space(v)`; basic.py:1573-1577 `point * matrix` -/
def pointInMatrixSpace (m : Mat ℚ) (v : Pt ℚ) : Pt ℚ :=
  ⟨F.fl (F.fl (F.fl (v.x * m.a) + F.fl (v.y * m.c)) + F.fl (1 * m.e)),
   F.fl (F.fl (F.fl (v.x * m.b) + F.fl (v.y * m.d)) + F.fl (1 * m.f))⟩

/-- one entry of the product in basic.py:2506-2516: `p * q + r * s + t * u` -/
def dot3 (p q r s t u : ℚ) : ℚ := F.fl (F.fl (F.fl (p * q) + F.fl (r * s)) + F.fl (t * u))

/-- basic.py:2496-2517 `matrix_multiply(m, s)` -/
def multiply (m s : Mat ℚ) : Mat ℚ :=
  ⟨dot3 F s.a m.a s.c m.b s.e 0, dot3 F s.b m.a s.d m.b s.f 0, dot3 F s.a m.c s.c m.d s.e 0, dot3 F s.b m.c s.d m.d s.f 0,
   dot3 F s.a m.e s.c m.f s.e 1, dot3 F s.b m.e s.d m.f s.f 1⟩

/-- basic.py:2237-2258 `inverse()`: the matrix afterwards, and whether it raised -/
def inverse (m : Mat ℚ) : Mat ℚ × Except PyErr Unit :=
  let det := F.fl (F.fl (m.a * m.d) - F.fl (m.c * m.b))
  if det = 0 then (m, .error .zeroDivisionError)
  else
    let i := F.fl (1 / det)
    (⟨F.fl (m.d * i), F.fl (-m.b * i), F.fl (-m.c * i), F.fl (m.a * i),
      F.fl (F.fl (F.fl (m.c * m.f) - F.fl (m.e * m.d)) * i), F.fl (F.fl (F.fl (m.b * m.e) - F.fl (m.a * m.f)) * i)⟩, .ok ())

/-- basic.py:2409-2412 `point_in_inverse_space(v)`, which inverts a copy -/
def pointInInverseSpace (m : Mat ℚ) (v : Pt ℚ) : Except PyErr (Pt ℚ) :=
  match inverse F m with
  | (r, .ok ()) => .ok (pointInMatrixSpace F r v)
  | (_, .error x) => .error x

end Svgio.Flt
