import Verif.Model.FloatArc

/-!
Matrices built with floats: svgio/basic.py:1868-1882, 2283-2295, 2303-2304, 2312-2336, 2344-2362, 2370-2371, 2379-2401, 2467-2477. The model of the
same code in `Model/Matrix.lean` computes exactly. Overflow, infinities and NaN are left out.
-/

namespace Svgio.Flt

variable (F : FloatRounding)

/-- basic.py:1872-1874 `Angle.degrees(degrees)` -/
def degrees (d : ℚ) : ℚ := F.fl (F.fl (tau * d) / 360)

/-- basic.py:1876-1878 `Angle.gradians(gradians)` -/
def gradians (g : ℚ) : ℚ := F.fl (F.fl (tau * g) / 400)

/-- basic.py:1880-1882 `Angle.turns(turns)` -/
def turns (t : ℚ) : ℚ := F.fl (tau * t)

/-- basic.py:2344-2348 `pre_cat(matrix)` -/
def preCat (m o : Mat ℚ) : Mat ℚ := multiply F o m

/-- basic.py:2279-2281 `post_cat(matrix)` -/
def postCat (m o : Mat ℚ) : Mat ℚ := multiply F m o

/-- basic.py:2370-2371 `pre_translate(tx, ty)` -/
def preTranslate (m : Mat ℚ) (tx ty : ℚ) : Mat ℚ := preCat F m (Mat.translate tx ty)

/-- basic.py:2303-2304 `post_translate(tx, ty)` -/
def postTranslate (m : Mat ℚ) (tx ty : ℚ) : Mat ℚ := postCat F m (Mat.translate tx ty)

/-- the shape shared by basic.py:2350-2362 `pre_scale`, 2379-2389 `pre_rotate`, 2391-2401 `pre_skew` -/
def preAbout (m t : Mat ℚ) (x y : ℚ) : Mat ℚ :=
  if x = 0 ∧ y = 0 then preCat F m t else preTranslate F (preCat F (preTranslate F m x y) t) (-x) (-y)

/-- the shape shared by basic.py:2283-2295 `post_scale`, 2326-2336 `post_skew` -/
def postAbout (m t : Mat ℚ) (x y : ℚ) : Mat ℚ :=
  if x = 0 ∧ y = 0 then postCat F m t else postTranslate F (postCat F (postTranslate F m (-x) (-y)) t) x y

/-- basic.py:2350-2362 `pre_scale(sx, sy, x, y)` -/
def preScale (m : Mat ℚ) (sx sy x y : ℚ) : Mat ℚ := preAbout F m ⟨sx, 0, 0, sy, 0, 0⟩ x y

/-- basic.py:2283-2295 `post_scale(sx, sy, x, y)` -/
def postScale (m : Mat ℚ) (sx sy x y : ℚ) : Mat ℚ := postAbout F m ⟨sx, 0, 0, sy, 0, 0⟩ x y

/-- basic.py:2467-2471 `Matrix.rotate(angle)` -/
def rotate (T : FloatTrig) (angle : ℚ) : Mat ℚ :=
  let ct := T.cos angle
  let st := T.sin angle
  ⟨ct, st, -st, ct, 0, 0⟩

/-- basic.py:2379-2389 `pre_rotate(angle, x, y)` -/
def preRotate (T : FloatTrig) (m : Mat ℚ) (angle x y : ℚ) : Mat ℚ := preAbout F m (rotate T angle) x y

/-- basic.py:2312-2324 `post_rotate(angle, x, y)`: with a pivot, the product is built from a fresh matrix -/
def postRotate (T : FloatTrig) (m : Mat ℚ) (angle x y : ℚ) : Mat ℚ :=
  if x = 0 ∧ y = 0 then postCat F m (rotate T angle)
  else
    let q := postTranslate F ⟨1, 0, 0, 1, 0, 0⟩ (-x) (-y)
    let q := postCat F q (rotate T angle)
    let q := postTranslate F q x y
    postCat F m q

/-- basic.py:2473-2477 `Matrix.skew(angle_a, angle_b)` -/
def skew (T : FloatTrig) (angleA angleB : ℚ) : Mat ℚ :=
  let aa := T.tan angleA
  let bb := T.tan angleB
  ⟨1, bb, aa, 1, 0, 0⟩

/-- basic.py:2391-2401 `pre_skew(angle_a, angle_b, x, y)` -/
def preSkew (T : FloatTrig) (m : Mat ℚ) (angleA angleB x y : ℚ) : Mat ℚ := preAbout F m (skew T angleA angleB) x y

/-- basic.py:2326-2336 `post_skew(angle_a, angle_b, x, y)` -/
def postSkew (T : FloatTrig) (m : Mat ℚ) (angleA angleB x y : ℚ) : Mat ℚ := postAbout F m (skew T angleA angleB) x y

end Svgio.Flt
