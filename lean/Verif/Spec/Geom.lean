import Verif.Model.Seg
import Mathlib.Analysis.Calculus.Deriv.Basic
import Mathlib.MeasureTheory.Integral.IntervalIntegral.Basic

/-!
Plane curves, boxes and distances, written down directly.
-/

namespace Svgio.Spec

open Svgio

section
variable {K : Type} [Field K] [LinearOrder K]

/-- the point `a + t (b - a)` -/
def between (a b : Pt K) (t : K) : Pt K := ⟨a.x + t * (b.x - a.x), a.y + t * (b.y - a.y)⟩

/-- the square of the distance -/
def sqDist (p q : Pt K) : K := (p.x - q.x) ^ 2 + (p.y - q.y) ^ 2

/-- The quantity `f`, as `t` goes from 0 to 1, has the least value `lo` and the greatest value `hi`. -/
def Range (f : K → K) (lo hi : K) : Prop :=
  (∀ t, 0 ≤ t → t ≤ 1 → lo ≤ f t ∧ f t ≤ hi) ∧ (∃ t, 0 ≤ t ∧ t ≤ 1 ∧ f t = lo) ∧ ∃ t, 0 ≤ t ∧ t ≤ 1 ∧ f t = hi

/-- The box with these sides holds the curve, and the curve touches each side. -/
def TightBox (f : K → Pt K) (xmin ymin xmax ymax : K) : Prop :=
  Range (fun t => (f t).x) xmin xmax ∧ Range (fun t => (f t).y) ymin ymax

/-- As `t` goes from 0 to 1, the quantity `f` stays between `lo` and `hi` and takes both values, up to `e`. -/
def RangeUpTo (e : K) (f : K → K) (lo hi : K) : Prop :=
  (∀ t, 0 ≤ t → t ≤ 1 → lo - e ≤ f t ∧ f t ≤ hi + e) ∧ (∃ t, 0 ≤ t ∧ t ≤ 1 ∧ |f t - lo| ≤ e) ∧ ∃ t, 0 ≤ t ∧ t ≤ 1 ∧ |f t - hi| ≤ e

/-- de Casteljau's construction with three points -/
def bezier2 (a b c : Pt K) (t : K) : Pt K := between (between a b t) (between b c t) t

/-- de Casteljau's construction with four points -/
def bezier3 (a b c d : Pt K) (t : K) : Pt K := between (bezier2 a b c t) (bezier2 b c d t) t

end

/-- the length of a curve between two parameters: the integral of its speed -/
noncomputable def arcLengthOn (f : ℝ → Pt ℝ) (a b : ℝ) : ℝ :=
  ∫ t in a..b, Real.sqrt ((deriv (fun u => (f u).x) t) ^ 2 + (deriv (fun u => (f u).y) t) ^ 2)

/-- the length of a curve from 0 to 1 -/
noncomputable def arcLength (f : ℝ → Pt ℝ) : ℝ := arcLengthOn f 0 1

/-- the length of the polygon through the points of the curve at `n + 1` equidistant parameters from `a` to `b` -/
noncomputable def polygonLength (f : ℝ → Pt ℝ) (a b : ℝ) (n : ℕ) : ℝ :=
  ∑ i ∈ Finset.range n, Real.sqrt (sqDist (f (a + i * ((b - a) / n))) (f (a + (i + 1) * ((b - a) / n))))

end Svgio.Spec
