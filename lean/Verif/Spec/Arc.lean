import Verif.Model.Seg
import Mathlib.Analysis.SpecialFunctions.Trigonometric.Basic

/-!
Ellipses and elliptical arcs, as in the SVG specification (section "Elliptical arc implementation notes").
-/

namespace Svgio.Spec

open Svgio

/-- the point at parameter `t` of the ellipse with centre `c`, radii `r` and `s`, and the first axis turned by `φ` -/
noncomputable def ellipse (c : Pt ℝ) (r s φ t : ℝ) : Pt ℝ :=
  ⟨c.x + (r * Real.cos t * Real.cos φ - s * Real.sin t * Real.sin φ),
   c.y + (r * Real.cos t * Real.sin φ + s * Real.sin t * Real.cos φ)⟩

/-- the equation of that ellipse -/
def OnEllipse (c : Pt ℝ) (r s φ : ℝ) (p : Pt ℝ) : Prop :=
  (((p.x - c.x) * Real.cos φ + (p.y - c.y) * Real.sin φ) / r) ^ 2 +
    ((-(p.x - c.x) * Real.sin φ + (p.y - c.y) * Real.cos φ) / s) ^ 2 = 1

/-- the left side of that equation: 1 on the ellipse, less inside, more outside; `k ^ 2` on the ellipse with `k` times the radii -/
noncomputable def level (c : Pt ℝ) (r s φ : ℝ) (p : Pt ℝ) : ℝ :=
  (((p.x - c.x) * Real.cos φ + (p.y - c.y) * Real.sin φ) / r) ^ 2 +
    ((-(p.x - c.x) * Real.sin φ + (p.y - c.y) * Real.cos φ) / s) ^ 2

/-- Some ellipse with these radii, turned by `φ`, goes through both points. -/
def Fits (r s φ : ℝ) (p q : Pt ℝ) : Prop := ∃ c, OnEllipse c r s φ p ∧ OnEllipse c r s φ q

/-- `k` is the least factor, at least 1, by which the radii must be multiplied to fit. -/
def LeastScale (r s φ : ℝ) (p q : Pt ℝ) (k : ℝ) : Prop :=
  1 ≤ k ∧ Fits (k * r) (k * s) φ p q ∧ ∀ k', 1 ≤ k' → Fits (k' * r) (k' * s) φ p q → k ≤ k'

/-- `f`, from 0 to 1, draws the SVG arc from `p` to `q` with these radii, rotation `φ` and flags: it runs along an ellipse with
the radii (enlarged by the least possible factor), in the direction of the sweep flag, for at least half a turn when the
large-arc flag is set and for at most half a turn when it is not. -/
def DrawsArc (p q : Pt ℝ) (r s φ : ℝ) (large sweep : Bool) (f : ℝ → Pt ℝ) : Prop :=
  ∃ c k t Δ, LeastScale r s φ p q k ∧
    (∀ u, 0 ≤ u → u ≤ 1 → f u = ellipse c (k * r) (k * s) φ (t + Δ * u)) ∧ f 0 = p ∧ f 1 = q ∧
    (sweep = true → 0 < Δ) ∧ (sweep = false → Δ < 0) ∧ |Δ| < 2 * Real.pi ∧
    (large = true → Real.pi ≤ |Δ|) ∧ (large = false → |Δ| ≤ Real.pi)

end Svgio.Spec
