import Verif.Model.Seg
import Mathlib.Analysis.SpecialFunctions.Trigonometric.Basic

/-!
`Matrix` with numeric entries: svgio/basic.py:1911-2517. Matrices whose translation holds a `Length` are in
`Model/Transform.lean`.
-/

namespace Svgio

/-- basic.py:1926-1955 the six fields of a `Matrix` -/
@[ext] structure Mat (K : Type) where
  a : K
  b : K
  c : K
  d : K
  e : K
  f : K
  deriving DecidableEq, Repr

namespace Mat

section
variable {K : Type} [Field K] [LinearOrder K]

/-- basic.py:1927-1935 `Matrix()`, 2487-2493 `Matrix.identity()`; also 2227-2235 `reset()` -/
def identity : Mat K := ⟨1, 0, 0, 1, 0, 0⟩

/-- basic.py:2495-2517 `Matrix.matrix_multiply(m, s)` -/
def multiply (m s : Mat K) : Mat K :=
  { a := s.a * m.a + s.c * m.b + s.e * 0
    b := s.b * m.a + s.d * m.b + s.f * 0
    c := s.a * m.c + s.c * m.d + s.e * 0
    d := s.b * m.c + s.d * m.d + s.f * 0
    e := s.a * m.e + s.c * m.f + s.e * 1
    f := s.b * m.e + s.d * m.f + s.f * 1 }

/-- basic.py:1998-2004 `self @= other`, and `*=` -/
def imatmul (self other : Mat K) : Mat K := multiply self other

/-- basic.py:1988-1991 `self @ other`, and `*` -/
def matmul (self other : Mat K) : Mat K := imatmul self other

/-- basic.py:1993-1996 `__rmatmul__`, tried when the left operand has no `@`: `other @ self` -/
def rmatmul (self other : Mat K) : Mat K := imatmul other self

/-- basic.py:1960-1979 `self == other` for two matrices -/
def eq (m o : Mat K) : Bool :=
  if |m.a - o.a| > err then false
  else if |m.b - o.b| > err then false
  else if |m.c - o.c| > err then false
  else if |m.d - o.d| > err then false
  else if m.e ≠ o.e ∧ |m.e - o.e| > err then false
  else if m.f ≠ o.f ∧ |m.f - o.f| > err then false
  else true

/-- basic.py:2205-2207 `determinant` -/
def determinant (m : Mat K) : K := m.a * m.d - m.c * m.b

/-- basic.py:2237-2258 `inverse()`: the matrix afterwards, and whether it raised. Python's `1.0 / 0.0` raises
before any field is assigned. -/
def inverse (m : Mat K) : Mat K × Except PyErr Unit :=
  let det := m.a * m.d - m.c * m.b
  if det = 0 then (m, .error .zeroDivisionError)
  else
    let i := 1 / det
    ({ a := m.d * i
       c := -m.c * i
       b := -m.b * i
       d := m.a * i
       e := (m.c * m.f - m.e * m.d) * i
       f := (m.b * m.e - m.a * m.f) * i }, .ok ())

/-- basic.py:1984-1986 `~m`: inverts a copy. The matrix `m` afterwards and the result. -/
def invert (m : Mat K) : Mat K × Except PyErr (Mat K) :=
  match inverse m with
  | (r, .ok ()) => (m, .ok r)
  | (_, .error x) => (m, .error x)

/-- basic.py:2260-2267 `vector()` -/
def vector (m : Mat K) : Mat K := ⟨m.a, m.b, m.c, m.d, 0, 0⟩

/-- basic.py:2269-2277 `is_identity()` -/
def isIdentity (m : Mat K) : Bool :=
  decide (m.a = 1) && decide (m.b = 0) && decide (m.c = 0) && decide (m.d = 1) && decide (m.e = 0) &&
    decide (m.f = 0)

/-- basic.py:2414-2418 `point_in_matrix_space(v)`; basic.py:1573-1577 `point * matrix`,
1537-1544 `point *= matrix` -/
def pointInMatrixSpace (m : Mat K) (v : Pt K) : Pt K :=
  ⟨v.x * m.a + v.y * m.c + 1 * m.e, v.x * m.b + v.y * m.d + 1 * m.f⟩

/-- basic.py:2409-2412 `point_in_inverse_space(v)`: the matrix afterwards and the result -/
def pointInInverseSpace (m : Mat K) (v : Pt K) : Mat K × Except PyErr (Pt K) :=
  match inverse m with
  | (r, .ok ()) => (m, .ok (pointInMatrixSpace r v))
  | (_, .error x) => (m, .error x)

/-- basic.py:2420-2425 `transform_point(v)`, which updates `v` -/
def transformPoint (m : Mat K) (v : Pt K) : Pt K :=
  let nx := v.x * m.a + v.y * m.c + 1 * m.e
  let ny := v.x * m.b + v.y * m.d + 1 * m.f
  ⟨nx, ny⟩

/-- basic.py:2427-2435 `transform_vector(v)` -/
def transformVector (m : Mat K) (v : Pt K) : Pt K :=
  let nx := v.x * m.a + v.y * m.c
  let ny := v.x * m.b + v.y * m.d
  ⟨nx, ny⟩

/-- basic.py:2279-2281 `post_cat(matrix)` -/
def postCat (m o : Mat K) : Mat K := imatmul m o

/-- basic.py:2344-2348 `pre_cat(matrix)` -/
def preCat (m o : Mat K) : Mat K := multiply o m

/-- basic.py:2437-2441 `Matrix.scale(sx, sy)`; `none` is a missing or None `sy` -/
def scale (sx : K) (sy : Option K) : Mat K := ⟨sx, 0, 0, sy.getD sx, 0, 0⟩

/-- basic.py:2451-2457 `Matrix.translate(tx, ty)` -/
def translate (tx ty : K) : Mat K := ⟨1, 0, 0, 1, tx, ty⟩

/-- basic.py:2303-2304 `post_translate(tx, ty)` -/
def postTranslate (m : Mat K) (tx ty : K) : Mat K := postCat m (translate tx ty)

/-- basic.py:2370-2371 `pre_translate(tx, ty)` -/
def preTranslate (m : Mat K) (tx ty : K) : Mat K := preCat m (translate tx ty)

/-- The shape shared by basic.py:2283-2295 `post_scale`, 2326-2336 `post_skew`: with pivot 0,0 (or None) the plain
transform `t` is concatenated, otherwise it is wrapped in translations. -/
def postAbout (m t : Mat K) (x y : Option K) : Mat K :=
  let x := x.getD 0
  let y := y.getD 0
  if x = 0 ∧ y = 0 then postCat m t
  else postTranslate (postCat (postTranslate m (-x) (-y)) t) x y

/-- The shape shared by basic.py:2350-2362 `pre_scale`, 2379-2389 `pre_rotate`, 2391-2401 `pre_skew` -/
def preAbout (m t : Mat K) (x y : Option K) : Mat K :=
  let x := x.getD 0
  let y := y.getD 0
  if x = 0 ∧ y = 0 then preCat m t
  else preTranslate (preCat (preTranslate m x y) t) (-x) (-y)

/-- basic.py:2283-2295 `post_scale(sx, sy, x, y)` -/
def postScale (m : Mat K) (sx : K) (sy x y : Option K) : Mat K :=
  let sy := sy.getD sx
  postAbout m (scale sx (some sy)) x y

/-- basic.py:2297-2298 `post_scale_x(sx, x, y)` -/
def postScaleX (m : Mat K) (sx : K) (x y : Option K) : Mat K := postScale m sx (some 1) x y

/-- basic.py:2300-2301 `post_scale_y(sy, x, y)` -/
def postScaleY (m : Mat K) (sy : K) (x y : Option K) : Mat K := postScale m 1 (some sy) x y

/-- basic.py:2350-2362 `pre_scale(sx, sy, x, y)` -/
def preScale (m : Mat K) (sx : K) (sy x y : Option K) : Mat K :=
  let sy := sy.getD sx
  preAbout m (scale sx (some sy)) x y

/-- basic.py:2364-2365 `pre_scale_x(sx, x, y)` -/
def preScaleX (m : Mat K) (sx : K) (x y : Option K) : Mat K := preScale m sx (some 1) x y

/-- basic.py:2367-2368 `pre_scale_y(sy, x, y)` -/
def preScaleY (m : Mat K) (sy : K) (x y : Option K) : Mat K := preScale m 1 (some sy) x y

end

/-! ### with angles: over ℝ, with the exact sine, cosine and tangent. Simplification: at odd multiples of a
quarter turn, where `math.tan` returns a huge number, `Real.tan` is 0. -/

/-- basic.py:2467-2471 `Matrix.rotate(angle)` -/
noncomputable def rotate (angle : ℝ) : Mat ℝ :=
  let ct := Real.cos angle
  let st := Real.sin angle
  ⟨ct, st, -st, ct, 0, 0⟩

/-- basic.py:2473-2477 `Matrix.skew(angle_a, angle_b)` -/
noncomputable def skew (angleA angleB : ℝ) : Mat ℝ :=
  let aa := Real.tan angleA
  let bb := Real.tan angleB
  ⟨1, bb, aa, 1, 0, 0⟩

/-- basic.py:2312-2324 `post_rotate(angle, x, y)`: with a pivot, the product is built from a fresh matrix -/
noncomputable def postRotate (m : Mat ℝ) (angle : ℝ) (x y : Option ℝ) : Mat ℝ :=
  let x := x.getD 0
  let y := y.getD 0
  if x = 0 ∧ y = 0 then postCat m (rotate angle)
  else
    let q := postTranslate identity (-x) (-y)
    let q := postCat q (rotate angle)
    let q := postTranslate q x y
    postCat m q

/-- basic.py:2326-2336 `post_skew(angle_a, angle_b, x, y)` -/
noncomputable def postSkew (m : Mat ℝ) (angleA angleB : ℝ) (x y : Option ℝ) : Mat ℝ :=
  postAbout m (skew angleA angleB) x y

/-- basic.py:2338-2339 `post_skew_x(angle_a, x, y)` -/
noncomputable def postSkewX (m : Mat ℝ) (angleA : ℝ) (x y : Option ℝ) : Mat ℝ := postSkew m angleA 0 x y

/-- basic.py:2341-2342 `post_skew_y(angle_b, x, y)` -/
noncomputable def postSkewY (m : Mat ℝ) (angleB : ℝ) (x y : Option ℝ) : Mat ℝ := postSkew m 0 angleB x y

/-- basic.py:2379-2389 `pre_rotate(angle, x, y)` -/
noncomputable def preRotate (m : Mat ℝ) (angle : ℝ) (x y : Option ℝ) : Mat ℝ := preAbout m (rotate angle) x y

/-- basic.py:2391-2401 `pre_skew(angle_a, angle_b, x, y)` -/
noncomputable def preSkew (m : Mat ℝ) (angleA angleB : ℝ) (x y : Option ℝ) : Mat ℝ :=
  preAbout m (skew angleA angleB) x y

/-- basic.py:2403-2404 `pre_skew_x(angle_a, x, y)` -/
noncomputable def preSkewX (m : Mat ℝ) (angleA : ℝ) (x y : Option ℝ) : Mat ℝ := preSkew m angleA 0 x y

/-- basic.py:2406-2407 `pre_skew_y(angle_b, x, y)` -/
noncomputable def preSkewY (m : Mat ℝ) (angleB : ℝ) (x y : Option ℝ) : Mat ℝ := preSkew m 0 angleB x y

end Mat

end Svgio
