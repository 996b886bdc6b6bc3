import Verif.Model.Matrix
import Mathlib.LinearAlgebra.Matrix.Notation
import Mathlib.LinearAlgebra.Matrix.Determinant.Basic

/-!
What a transform matrix means (SVG 1.1, 7.5): homogeneous 3x3 matrices, and the elementary plane maps written
as functions on points.
-/

namespace Svgio.Spec

variable {K : Type} [Field K]

/-- the matrix `[a c e; b d f; 0 0 1]` -/
def hom (m : Mat K) : Matrix (Fin 3) (Fin 3) K := !![m.a, m.c, m.e; m.b, m.d, m.f; 0, 0, 1]

/-- the column `[x; y; 1]` -/
def homPt (p : Pt K) : Fin 3 → K := ![p.x, p.y, 1]

/-- the linear map `[a c; b d]` about the pivot `(x, y)` -/
def about (a b c d x y : K) (p : Pt K) : Pt K :=
  ⟨x + (a * (p.x - x) + c * (p.y - y)), y + (b * (p.x - x) + d * (p.y - y))⟩

/-- scaling about `(x, y)` -/
def scaleAbout (sx sy x y : K) (p : Pt K) : Pt K := ⟨x + sx * (p.x - x), y + sy * (p.y - y)⟩

/-- rotation by `θ` about `(x, y)` -/
noncomputable def rotateAbout (θ x y : ℝ) (p : Pt ℝ) : Pt ℝ :=
  ⟨x + ((p.x - x) * Real.cos θ - (p.y - y) * Real.sin θ), y + ((p.x - x) * Real.sin θ + (p.y - y) * Real.cos θ)⟩

/-- skewing along x by the angle `α` and along y by `β`, about `(x, y)` -/
noncomputable def skewAbout (α β x y : ℝ) (p : Pt ℝ) : Pt ℝ :=
  ⟨x + ((p.x - x) + (p.y - y) * Real.tan α), y + ((p.x - x) * Real.tan β + (p.y - y))⟩

/-- the square of the distance of two points -/
def dist2 (p q : Pt K) : K := (p.x - q.x) ^ 2 + (p.y - q.y) ^ 2

/-- twice the signed area of the triangle `p q r` -/
def area2 (p q r : Pt K) : K := (q.x - p.x) * (r.y - p.y) - (q.y - p.y) * (r.x - p.x)

end Svgio.Spec
