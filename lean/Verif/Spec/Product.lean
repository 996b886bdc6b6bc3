import Verif.Model.FloatGeom

/-!
Products of transforms, with any brackets, for C136.
-/

namespace Svgio.Spec

/-- a product of matrices with its brackets: `(A * B) * C`, `A * (B * C)`, ... -/
inductive Product
  | one (m : Mat ℚ)
  | times (l r : Product)

/-- the matrices of a product, from the left to the right -/
def Product.factors : Product → List (Mat ℚ)
  | .one m => [m]
  | .times l r => l.factors ++ r.factors

/-- the product as Python computes it with floats -/
def Product.floats (F : FloatRounding) : Product → Mat ℚ
  | .one m => m
  | .times l r => Flt.multiply F (l.floats F) (r.floats F)

/-- the point `v` moved exactly by one matrix after the other: x becomes a x + c y + e, and y becomes b x + d y + f -/
def moved : List (Mat ℚ) → Pt ℚ → Pt ℚ
  | [], v => v
  | m :: ms, v => moved ms ⟨m.a * v.x + m.c * v.y + m.e, m.b * v.x + m.d * v.y + m.f⟩

/-- the same with floats -/
def movedFloats (F : FloatRounding) : List (Mat ℚ) → Pt ℚ → Pt ℚ
  | [], v => v
  | m :: ms, v => movedFloats F ms (Flt.pointInMatrixSpace F m v)

/-- the size of a matrix: the largest sum of a row of its entries without their signs, and not less than 1 -/
def matSize (m : Mat ℚ) : ℚ := max 1 (max (|m.a| + |m.c| + |m.e|) (|m.b| + |m.d| + |m.f|))

/-- the larger coordinate without its sign, and not less than 1 -/
def ptSize (v : Pt ℚ) : ℚ := max 1 (max |v.x| |v.y|)

/-- the sizes of all factors multiplied -/
def sizes (ms : List (Mat ℚ)) : ℚ := (ms.map matSize).prod

end Svgio.Spec
