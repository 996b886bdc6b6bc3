import Verif.Model.Point
import Verif.Spec.Plane
import Verif.Props.Hull
import Mathlib.Analysis.Complex.Norm
import Mathlib.Tactic.NormNum

/-!
C19–C21: equality, orientation, interpolation, reflection and distance of points.
-/

namespace Svgio.Props

open Spec

section
variable {K : Type} [Field K] [LinearOrder K] [IsStrictOrderedRing K]

/-- **C19**: `p == q` iff both coordinates differ by at most 1e-12; the relation is reflexive and symmetric, `!=` is
its negation, and it does not depend on where the two points are. -/
theorem C19_equality (p q v : Pt K) :
    (p.eq q = true ↔ |p.x - q.x| ≤ 1 / 10 ^ 12 ∧ |p.y - q.y| ≤ 1 / 10 ^ 12) ∧ p.eq p = true ∧ p.eq q = q.eq p ∧
    (p.ne q = true ↔ ¬ p.eq q = true) ∧ (p.add v).eq (q.add v) = p.eq q := by
  have h0 : (0 : K) ≤ 1 / 10 ^ 12 := by positivity
  refine ⟨by simp [Pt.eq, err], ?_, ?_, by simp [Pt.ne], ?_⟩
  · simp [Pt.eq, err]
  · simp only [Pt.eq, abs_sub_comm]
  · simp [Pt.eq, Pt.add]

/-- equality of points is not transitive -/
theorem C19_not_transitive : ∃ p q r : Pt ℚ, p.eq q = true ∧ q.eq r = true ∧ p.eq r = false := by
  refine ⟨⟨0, 0⟩, ⟨1 / 10 ^ 12, 0⟩, ⟨2 / 10 ^ 12, 0⟩, ?_⟩
  norm_num [Pt.eq, err, abs_of_pos, abs_of_neg]

/-- **C20**: orientation is 0 exactly on collinear points, 1 and 2 tell the sides of the line through the first two
points apart, it is the same for the three points taken in turn and after a translation, and exchanging two points
exchanges 1 and 2. -/
theorem C20_orientation (p q r v : Pt K) :
    (Pt.orientation p q r = 0 ↔ Collinear p q r) ∧
    (Pt.orientation p q r = 1 ↔ area2 p q r < 0) ∧ (Pt.orientation p q r = 2 ↔ 0 < area2 p q r) ∧
    Pt.orientation q r p = Pt.orientation p q r ∧
    Pt.orientation (p.add v) (q.add v) (r.add v) = Pt.orientation p q r ∧
    ∀ a b c, ((a, b, c) = (q, p, r) ∨ (a, b, c) = (p, r, q) ∨ (a, b, c) = (r, q, p)) →
      (Pt.orientation a b c = 1 ↔ Pt.orientation p q r = 2) ∧
      (Pt.orientation a b c = 2 ↔ Pt.orientation p q r = 1) := by
  have key : ∀ a b c : Pt K, Pt.orientation a b c = if area2 a b c = 0 then 0 else if area2 a b c < 0 then 1 else 2 := by
    intro a b c
    have : (b.y - a.y) * (c.x - b.x) - (b.x - a.x) * (c.y - b.y) = - area2 a b c := by
      simp only [area2]; ring
    simp only [Pt.orientation, this, neg_eq_zero, gt_iff_lt, neg_pos]
  have z : ∀ a b c : Pt K, Pt.orientation a b c = 0 ↔ area2 a b c = 0 := by
    intro a b c; rw [key]; split_ifs <;> simp_all
  have o : ∀ a b c : Pt K, Pt.orientation a b c = 1 ↔ area2 a b c < 0 := by
    intro a b c; rw [key]; split_ifs with h1 h2
    · simp [h1]
    · simp [h2]
    · simp [h2]
  have t : ∀ a b c : Pt K, Pt.orientation a b c = 2 ↔ 0 < area2 a b c := fun a b c => orientation_two
  refine ⟨(z _ _ _).trans area2_zero_iff, o _ _ _, t _ _ _, ?_, ?_, ?_⟩
  · have : area2 q r p = area2 p q r := by simp only [area2]; ring
    rw [key, key, this]
  · have : area2 (p.add v) (q.add v) (r.add v) = area2 p q r := by simp only [area2, Pt.add]; ring
    rw [key, key, this]
  · intro a b c h
    have : area2 a b c = - area2 p q r := by
      rcases h with h | h | h <;> cases h <;> simp only [area2] <;> ring
    rw [o, t, t, o, this]
    simp

/-- three points on a line, and a left turn -/
example : Pt.orientation (⟨0, 0⟩ : Pt ℚ) ⟨1, 2⟩ ⟨2, 4⟩ = 0 ∧ Pt.orientation (⟨0, 0⟩ : Pt ℚ) ⟨1, 0⟩ ⟨1, 1⟩ = 2 := by
  decide +kernel

omit [LinearOrder K] [IsStrictOrderedRing K] in
/-- **C21**, interpolation: `towards` starts at the first and ends at the second point, gives the points on the way
(`(1 - t) a + t b`), does not depend on the direction, and `move_towards` does the same. -/
theorem C21_towards [LinearOrder K] (a b : Pt K) (t : K) :
    a.towards b 0 = a ∧ a.towards b 1 = b ∧ a.towards b t = b.towards a (1 - t) ∧
    a.towards b t = ⟨(1 - t) * a.x + t * b.x, (1 - t) * a.y + t * b.y⟩ ∧ a.moveTowards b t = a.towards b t := by
  refine ⟨?_, ?_, ?_, ?_, ?_⟩ <;> apply Pt.ext <;>
    simp only [Pt.towards, Pt.moveTowards, Pt.add, Pt.sub, Pt.smul] <;> ring

/-- **C21**, reflection: reflecting twice gives the point back, and the mirror is the middle of a point and its
reflection; this determines the reflection. -/
theorem C21_reflection (a m b : Pt K) :
    (a.reflectedAcross m).reflectedAcross m = a ∧
    (b = a.reflectedAcross m ↔ (a.x + b.x) / 2 = m.x ∧ (a.y + b.y) / 2 = m.y) := by
  refine ⟨by apply Pt.ext <;> simp only [Pt.reflectedAcross, Pt.add, Pt.sub] <;> ring, ?_⟩
  simp only [Pt.ext_iff, Pt.reflectedAcross, Pt.add, Pt.sub]
  constructor
  · rintro ⟨h1, h2⟩
    rw [h1, h2]; constructor <;> ring
  · rintro ⟨h1, h2⟩
    constructor
    · linear_combination 2 * h1
    · linear_combination 2 * h2

end

theorem distance_norm (p q : Pt ℝ) : Pt.distance p q = ‖(⟨p.x, p.y⟩ : ℂ) - ⟨q.x, q.y⟩‖ := by
  rw [Complex.norm_def, Complex.normSq_apply]
  rfl

/-- **C21**, distance: never negative, symmetric, zero only from a point to itself, the triangle inequality; its square
is the sum of the squares of the differences; `distance_to` is the same; it is not changed by a translation. -/
theorem C21_distance (p q r v : Pt ℝ) :
    0 ≤ p.distance q ∧ p.distance q = q.distance p ∧ (p.distance q = 0 ↔ p = q) ∧
    p.distance r ≤ p.distance q + q.distance r ∧ p.distance q ^ 2 = (p.x - q.x) ^ 2 + (p.y - q.y) ^ 2 ∧
    p.distanceTo q = p.distance q ∧ (p.add v).distance (q.add v) = p.distance q := by
  refine ⟨Real.sqrt_nonneg _, ?_, ?_, ?_, ?_, ?_, ?_⟩
  · rw [distance_norm, distance_norm, norm_sub_rev]
  · rw [distance_norm, norm_eq_zero, sub_eq_zero, Complex.ext_iff, Pt.ext_iff]
  · rw [distance_norm, distance_norm, distance_norm]
    exact norm_sub_le_norm_sub_add_norm_sub _ _ _
  · simp only [Pt.distance]
    rw [Real.sq_sqrt (by nlinarith [sq_nonneg (p.x - q.x), sq_nonneg (p.y - q.y)])]
    ring
  · simp only [Pt.distance, Pt.distanceTo, Pt.norm, Pt.sub, pow_two]
  · simp [Pt.distance, Pt.add]

/-- going `t` of the way covers `|t|` of the distance -/
theorem C21_towards_distance (a b : Pt ℝ) (t : ℝ) : a.distance (a.towards b t) = |t| * a.distance b := by
  simp only [Pt.distance, Pt.towards]
  rw [← Real.sqrt_sq_eq_abs t, ← Real.sqrt_mul (sq_nonneg t)]
  congr 1
  ring

/-- a 3-4-5 triangle -/
example : Pt.distance ⟨0, 0⟩ ⟨3, 4⟩ = 5 := by
  simp only [Pt.distance]
  rw [show ((0 : ℝ) - 3) * (0 - 3) + (0 - 4) * (0 - 4) = 5 ^ 2 by norm_num]
  exact Real.sqrt_sq (by norm_num)

end Svgio.Props
