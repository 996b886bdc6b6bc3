import Verif.Spec.Print
import Verif.Spec.Drift

/-! What a path saved as text and read again may differ by. -/

namespace Svgio.Spec

/-- the number, rounded to 12 digits, has not one of the exponents that are shortened in print (C46) -/
def PrintsWell (x : ℚ) : Prop := ∀ y, RoundedTo 12 x y → ¬ RoundExponent y

/-- the numbers that are written for the point `q` when the current point is `cur` -/
def written (rel : Bool) (cur q : Pt ℚ) : Pt ℚ := if rel then ⟨q.x - cur.x, q.y - cur.y⟩ else q

/-- the points that are written for a segment: none for a close -/
def writtenPts (s : Seg ℚ) : List (Pt ℚ) := if s.isClose then [] else drawnPts s

/-- A quadratic curve directly after a cubic one, or a cubic one after a quadratic one, has its first control point farther than `e` from
its start in one of the coordinates. -/
def NoMixedFlatWithin (e : ℚ) (p : List (Seg ℚ)) : Prop :=
  ∀ (i : ℕ) (a b : Seg ℚ), p[i]? = some a → p[i + 1]? = some b →
    (∀ c1 c2 c q, a.kind = .cubic c1 c2 → b.kind = .quad (some c) → b.start = some q → ¬ PtNear e c q) ∧
    (∀ c c1 c2 q, a.kind = .quad c → b.kind = .cubic (some c1) c2 → b.start = some q → ¬ PtNear e c1 q)

/-- the segment with another `relative` flag, without its `smooth` flag -/
def reflagged (rel : Option Bool) (s : Seg ℚ) : Seg ℚ := { s with relative := rel.getD s.relative, smooth := true }

end Svgio.Spec
