import Verif.Spec.PathData
import Verif.Spec.Connected

/-!
What printed coordinates and printed path data must mean.
-/

namespace Svgio.Spec

/-- `y` is `x` rounded to `prec` significant decimal digits, a tie going to the even digit -/
def RoundedTo (prec : ℕ) (x y : ℚ) : Prop :=
  (x = 0 ∧ y = 0) ∨ ∃ j k : ℤ, (10 : ℚ) ^ (j + prec - 1) ≤ |x| ∧ |x| < (10 : ℚ) ^ (j + prec) ∧ y = k * (10 : ℚ) ^ j ∧
    |y - x| ≤ (10 : ℚ) ^ j / 2 ∧ (|y - x| = (10 : ℚ) ^ j / 2 → Even k)

/-- a number of at most 12 significant decimal digits -/
def TwelveDigits (x : ℚ) : Prop := ∃ j k : ℤ, |k| < 10 ^ 12 ∧ x = k * (10 : ℚ) ^ j

/-- The decimal exponent of `y` is below -4 or above 11 and ends in the digit 0, and `y` has more than one significant digit. -/
def RoundExponent (y : ℚ) : Prop :=
  ∃ e : ℤ, (e < -4 ∨ 12 ≤ e) ∧ 10 ∣ e ∧ (10 : ℚ) ^ e ≤ |y| ∧ |y| < (10 : ℚ) ^ (e + 1) ∧ ¬ ∃ d : ℤ, y = d * (10 : ℚ) ^ e

/-- all coordinates of the point are multiples of `1 / 10 ^ j` of less than 12 digits, counting from there -/
def OnGrid (j : ℕ) (q : Pt ℚ) : Prop :=
  (∃ k : ℤ, 2 * |k| < 10 ^ 12 ∧ q.x = k / 10 ^ j) ∧ ∃ k : ℤ, 2 * |k| < 10 ^ 12 ∧ q.y = k / 10 ^ j

/-- the end point and the control points of a segment, where they are set -/
def drawnPts (s : Seg ℚ) : List (Pt ℚ) :=
  s.stop.toList ++ match s.kind with
    | .quad c => c.toList
    | .cubic c1 c2 => c1.toList ++ c2.toList
    | _ => []

/-- a curve has its control points -/
def HasControls (s : Seg ℚ) : Prop :=
  match s.kind with
  | .quad c => c ≠ none
  | .cubic c1 c2 => c1 ≠ none ∧ c2 ≠ none
  | _ => True

/-- A quadratic curve directly after a cubic one, or a cubic one after a quadratic one, does not have its first control point at its
start. -/
def NoMixedFlat (p : List (Seg ℚ)) : Prop :=
  ∀ (i : ℕ) (a b : Seg ℚ), p[i]? = some a → p[i + 1]? = some b →
    (∀ c1 c2 c, a.kind = .cubic c1 c2 → b.kind = .quad c → c ≠ b.start) ∧
    (∀ c c1 c2, a.kind = .quad c → b.kind = .cubic c1 c2 → c1 ≠ b.start)

/-- A segment with all points changed by `f`, arcs made by `arc` from their changed end points; the `relative` flag is `rel`, the `smooth`
flag is ignored. -/
def redrawn (f : Pt ℚ → Pt ℚ) (arc : ArcData ℚ → Pt ℚ → Pt ℚ → ArcData ℚ) (rel : Bool) (s : Seg ℚ) : Seg ℚ where
  kind := match s.kind with
    | .quad c => .quad (c.map f)
    | .cubic c1 c2 => .cubic (c1.map f) (c2.map f)
    | .arc a => .arc (arc a ((s.start.map f).getD ⟨0, 0⟩) ((s.stop.map f).getD ⟨0, 0⟩))
    | k => k
  start := s.start.map f
  stop := s.stop.map f
  relative := rel
  smooth := true

/-- a segment without its `smooth` flag -/
def noSmooth (s : Seg ℚ) : Seg ℚ := { s with smooth := true }

end Svgio.Spec
