import Verif.Spec.Arc

/-!
What it means that a curve follows a circle or an ellipse from one point to another.
-/

namespace Svgio.Spec

open Svgio

/-- `f`, from 0 to 1, runs evenly from `p` to `q` along the circle with centre `c` and radius `r`, turning by `Δ`. -/
def FollowsCircle (f : ℝ → Pt ℝ) (p q c : Pt ℝ) (r Δ : ℝ) : Prop :=
  f 0 = p ∧ f 1 = q ∧ ∃ t, ∀ u, 0 ≤ u → u ≤ 1 → f u = ⟨c.x + r * Real.cos (t + Δ * u), c.y + r * Real.sin (t + Δ * u)⟩

/-- The same along the ellipse with centre `c`, radii `r` and `s`, and the first axis turned by `φ`. -/
def FollowsEllipse (f : ℝ → Pt ℝ) (p q c : Pt ℝ) (r s φ Δ : ℝ) : Prop :=
  f 0 = p ∧ f 1 = q ∧ ∃ t, ∀ u, 0 ≤ u → u ≤ 1 → f u = ellipse c r s φ (t + Δ * u)

/-- the distance of two points -/
noncomputable def dist (p q : Pt ℝ) : ℝ := Real.sqrt ((q.x - p.x) ^ 2 + (q.y - p.y) ^ 2)

/-- the three points are on no line -/
def Triangle (p m q : Pt ℝ) : Prop := (m.x - p.x) * (q.y - p.y) - (m.y - p.y) * (q.x - p.x) ≠ 0

/-- the point at distance `s` from the middle of `p` and `q`, at a right angle to the line from `p` to `q`, on the side of decreasing
angles -/
noncomputable def above (p q : Pt ℝ) (s : ℝ) : Pt ℝ :=
  ⟨(p.x + q.x) / 2 + s * (q.y - p.y) / dist p q, (p.y + q.y) / 2 - s * (q.x - p.x) / dist p q⟩

end Svgio.Spec
