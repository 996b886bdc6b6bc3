import Verif.Spec.Affine

/-!
Plane geometry used to state what `Point.orientation` and `Point.convex_hull` do, next to `area2` of `Spec/Affine.lean`.
-/

namespace Svgio.Spec

variable {K : Type} [Field K] [LinearOrder K]

/-- some line `u x + v y = w` passes through all three points -/
def Collinear (a b c : Pt K) : Prop :=
  ∃ u v w : K, (u ≠ 0 ∨ v ≠ 0) ∧ u * a.x + v * a.y = w ∧ u * b.x + v * b.y = w ∧ u * c.x + v * c.y = w

/-- the edges of a closed polygon -/
def edges {α : Type} (h : List α) : List (α × α) := h.zip (h.rotate 1)

end Svgio.Spec
