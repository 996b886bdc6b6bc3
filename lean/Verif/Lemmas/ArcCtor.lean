import Verif.Model.ArcCtor
import Verif.Spec.ArcCtor
import Verif.Lemmas.Arc
import Verif.Props.ArcCurves
import Mathlib.Tactic.LinearCombination
import Mathlib.Tactic.FieldSimp

/-!
Facts about the constructor of arcs.
-/

namespace Svgio.Arc

open Real Spec

theorem scaledAtan_range {a b : ℝ} (hb : 0 < b) (θ : ℝ) : -(π / 2) ≤ scaledAtan a b θ ∧ scaledAtan a b θ ≤ π / 2 := by
  have hpi := pi_pos
  unfold scaledAtan
  split_ifs
  · constructor <;> linarith
  · constructor <;> linarith
  · have : |atan2 (a * tan θ) b| ≤ π / 2 := by
      unfold atan2
      rw [Complex.abs_arg_le_pi_div_two_iff]
      exact hb.le
    exact abs_le.1 this

theorem ellipseT_range {a b : ℝ} (hb : 0 < b) (θ : ℝ) : -(π / 2) ≤ ellipseT a b θ ∧ ellipseT a b θ ≤ 3 * (π / 2) := by
  have hpi := pi_pos
  have h := scaledAtan_range (a := a) hb θ
  have e : tau / 2 = π := by unfold tau; ring
  unfold ellipseT
  simp only [e]
  split_ifs
  · constructor <;> linarith [h.1, h.2]
  · constructor <;> linarith [h.1, h.2]

theorem endT_range {a : ArcData ℝ} (hb : 0 < ry a) (p : Pt ℝ) : -(π / 2) ≤ endT a p ∧ endT a p ≤ 3 * (π / 2) :=
  ellipseT_range hb _

/-- the direction that `sweepBetween` takes: `true` for increasing angles -/
def direction (ccw : Option Bool) (cw : Bool) : Bool :=
  match ccw with
  | some b => !b
  | none => cw

theorem sweepBetween_self (ccw : Option Bool) (cw : Bool) (p : Pt ℝ) (a : ArcData ℝ) : sweepBetween ccw cw p p a = 0 := by
  unfold sweepBetween
  simp

/-- the sweep found leads from one point of the ellipse to the other, in the right direction, in less than a turn -/
theorem sweepBetween_spec {a : ArcData ℝ} (ha : 0 < rx a) (hb : 0 < ry a) {p q : Pt ℝ} {s t : ℝ} (hp : p = pointAtT a s)
    (hq : q = pointAtT a t) (hne : p ≠ q) (ccw : Option Bool) (cw : Bool) :
    pointAtT a (endT a p) = p ∧ pointAtT a (endT a p + sweepBetween ccw cw p q a) = q ∧
      (direction ccw cw = true → 0 < sweepBetween ccw cw p q a ∧ sweepBetween ccw cw p q a < 2 * π) ∧
      (direction ccw cw = false → -(2 * π) < sweepBetween ccw cw p q a ∧ sweepBetween ccw cw p q a < 0) := by
  have hpi := pi_pos
  have e1 : pointAtT a (endT a p) = p := by
    have := endT_pointAtT ha hb s
    rw [← hp] at this
    rw [pointAtT_congr a this.1 this.2, hp]
  have e2 : pointAtT a (endT a q) = q := by
    have := endT_pointAtT ha hb t
    rw [← hq] at this
    rw [pointAtT_congr a this.1 this.2, hq]
  obtain ⟨r1, r2⟩ := endT_range hb p
  obtain ⟨r3, r4⟩ := endT_range hb q
  generalize hP : endT a p = P at *
  generalize hQ : endT a q = Q at *
  have n0 : Q - P ≠ 0 := by
    intro h
    apply hne
    rw [← e1, ← e2, sub_eq_zero.1 h]
  have n1 : Q - P ≠ 2 * π := by
    intro h
    apply hne
    have : Q = P + 2 * π := by linarith
    rw [← e1, ← e2, this]
    exact pointAtT_congr a (cos_add_two_pi P).symm (sin_add_two_pi P).symm
  have n2 : Q - P ≠ -(2 * π) := by
    intro h
    apply hne
    have : P = Q + 2 * π := by linarith
    rw [← e1, ← e2, this]
    exact pointAtT_congr a (cos_add_two_pi Q) (sin_add_two_pi Q)
  refine ⟨e1, ?_⟩
  have key : sweepBetween ccw cw p q a = if direction ccw cw = true then (if Q - P < 0 then Q - P + 2 * π else Q - P)
      else (if Q - P > 0 then Q - P - 2 * π else Q - P) := by
    have : sweepBetween ccw cw p q a = (let sweep := Q - P
      let cw := direction ccw cw
      let sweep := if cw = true ∧ sweep < 0 then sweep + tau else sweep
      if cw = false ∧ sweep > 0 then sweep - tau else sweep) := by
      unfold sweepBetween direction
      rw [hP, hQ]
      rfl
    rw [this]
    cases direction ccw cw <;> simp [tau]
  rw [key]
  have c1 : pointAtT a (P + (Q - P)) = q := by rw [← e2]; congr 1; ring
  have c2 : pointAtT a (P + (Q - P + 2 * π)) = q := by
    rw [← e2, show P + (Q - P + 2 * π) = Q + 2 * π by ring]
    exact pointAtT_congr a (cos_add_two_pi Q) (sin_add_two_pi Q)
  have c3 : pointAtT a (P + (Q - P - 2 * π)) = q := by
    rw [← e2, show P + (Q - P - 2 * π) = Q - 2 * π by ring]
    exact pointAtT_congr a (cos_sub_two_pi Q) (sin_sub_two_pi Q)
  cases direction ccw cw
  · rw [if_neg (by simp)]
    split_ifs with h
    · refine ⟨c3, by simp, fun _ => ⟨by linarith, ?_⟩⟩
      rcases lt_or_gt_of_ne n1 with h | h <;> linarith
    · refine ⟨c1, by simp, fun _ => ⟨?_, ?_⟩⟩
      · rcases lt_or_gt_of_ne n2 with h | h <;> linarith
      · rcases lt_or_gt_of_ne n0 with h' | h'
        · exact h'
        · exact absurd h' h
  · rw [if_pos rfl]
    split_ifs with h
    · refine ⟨c2, fun _ => ⟨?_, by linarith⟩, by simp⟩
      rcases lt_or_gt_of_ne n2 with h | h <;> linarith
    · refine ⟨c1, fun _ => ⟨?_, ?_⟩, by simp⟩
      · rcases lt_or_gt_of_ne n0 with h' | h'
        · exact absurd h' h
        · exact h'
      · rcases lt_or_gt_of_ne n1 with h | h <;> linarith

/-- an arc with a sweep that leads from `p` to `q` -/
theorem point_follows {a : ArcData ℝ} {p q : Pt ℝ} (hw : a.sweep ≠ 0) (h1 : pointAtT a (endT a p) = p)
    (h2 : pointAtT a (endT a p + a.sweep) = q) :
    point false p q a 0 = p ∧ point false p q a 1 = q ∧ ∀ u, point false p q a u = pointAtT a (endT a p + a.sweep * u) := by
  have hz : sweepIsZero false a.sweep = false := by simp [sweepIsZero, hw]
  have hu : ∀ u, point false p q a u = pointAtT a (endT a p + a.sweep * u) := by
    intro u
    unfold point
    rw [hz, Bool.and_false, if_neg (by simp)]
    split_ifs with u0 u1
    · rw [u0, mul_zero, add_zero, h1]
    · rw [u1, mul_one, h2]
    · rfl
  refine ⟨?_, ?_, hu⟩
  · rw [hu, mul_zero, add_zero, h1]
  · rw [hu, mul_one, h2]

/-! ### Circles -/

/-- the parameters of a circle as the constructor sets them -/
def circle (c : Pt ℝ) (r w : ℝ) : ArcData ℝ := { center := c, prx := ⟨c.x + r, c.y⟩, pry := ⟨c.x, c.y + r⟩, sweep := w }

theorem circle_rx {c : Pt ℝ} {r w : ℝ} (hr : 0 < r) : rx (circle c r w) = r := by
  rw [rx_eq]
  simp [circle, sqrt_sq hr.le]

theorem circle_ry {c : Pt ℝ} {r w : ℝ} (hr : 0 < r) : ry (circle c r w) = r := by
  rw [ry_eq]
  simp [circle, sqrt_sq hr.le]

theorem circle_pointAtT {c : Pt ℝ} {r w : ℝ} (hr : 0 < r) (t : ℝ) : pointAtT (circle c r w) t = ⟨c.x + r * cos t, c.y + r * sin t⟩ := by
  have h1 := rx_cos (circle c r w)
  have h2 := rx_sin (circle c r w)
  rw [circle_rx hr] at h1 h2
  have e1 : cos (rotation (circle c r w)) = 1 := by
    have : r * cos (rotation (circle c r w)) = r * 1 := by rw [h1]; simp [circle]
    exact mul_left_cancel₀ hr.ne' this
  have e2 : sin (rotation (circle c r w)) = 0 := by
    have : r * sin (rotation (circle c r w)) = r * 0 := by rw [h2]; simp [circle]
    exact mul_left_cancel₀ hr.ne' this
  unfold pointAtT
  simp only [e1, e2, circle_rx hr, circle_ry hr]
  simp [circle]

theorem dist_sq (p q : Pt ℝ) : dist p q ^ 2 = (q.x - p.x) ^ 2 + (q.y - p.y) ^ 2 := by
  unfold Spec.dist
  rw [sq_sqrt (by positivity)]

theorem dist_nonneg (p q : Pt ℝ) : 0 ≤ Spec.dist p q := sqrt_nonneg _

theorem dist_pos {p q : Pt ℝ} (h : p ≠ q) : 0 < Spec.dist p q := by
  refine lt_of_le_of_ne (dist_nonneg p q) (fun e => h ?_)
  have := dist_sq p q
  rw [← e] at this
  have h1 : q.x - p.x = 0 := by nlinarith [sq_nonneg (q.x - p.x), sq_nonneg (q.y - p.y)]
  have h2 : q.y - p.y = 0 := by nlinarith [sq_nonneg (q.x - p.x), sq_nonneg (q.y - p.y)]
  cases p; cases q; simp_all; constructor <;> linarith

theorem distance_eq (p q : Pt ℝ) : Pt.distance p q = Spec.dist p q := by
  unfold Pt.distance Spec.dist
  congr 1
  ring

theorem circle_param {c p : Pt ℝ} {r : ℝ} (hr : 0 < r) (h : Spec.dist c p = r) : ∃ t, p = ⟨c.x + r * cos t, c.y + r * sin t⟩ := by
  have h2 := dist_sq c p
  rw [h] at h2
  obtain ⟨t, h3, h4⟩ := exists_param (x := (p.x - c.x) / r) (y := (p.y - c.y) / r) (by
    rw [div_pow, div_pow, ← add_div, ← h2]
    exact div_self (by positivity))
  refine ⟨t, ?_⟩
  rw [h3, h4, mul_div_cancel₀ _ hr.ne', mul_div_cancel₀ _ hr.ne']
  cases p
  simp

/-- the arc built between two points of a circle -/
theorem circle_between {c p q : Pt ℝ} {r : ℝ} (hr : 0 < r) (hp : Spec.dist c p = r) (hq : Spec.dist c q = r) (hne : p ≠ q)
    (ccw : Option Bool) (cw : Bool) {w : ℝ} (hw : w = sweepBetween ccw cw p q (circle c r 0)) :
    FollowsCircle (point false p q (circle c r w)) p q c r w ∧
      (∃ t, p = ⟨c.x + r * cos t, c.y + r * sin t⟩ ∧
        ∀ u, point false p q (circle c r w) u = ⟨c.x + r * cos (t + w * u), c.y + r * sin (t + w * u)⟩) ∧
      (direction ccw cw = true → 0 < w ∧ w < 2 * π) ∧ (direction ccw cw = false → -(2 * π) < w ∧ w < 0) := by
  obtain ⟨s, hs⟩ := circle_param hr hp
  obtain ⟨t, ht⟩ := circle_param hr hq
  rw [← circle_pointAtT (w := 0) hr] at hs ht
  obtain ⟨h1, h2, h3, h4⟩ := sweepBetween_spec (by rw [circle_rx hr]; exact hr) (by rw [circle_ry hr]; exact hr) hs ht hne ccw cw
  rw [← hw] at h2 h3 h4
  have hw0 : w ≠ 0 := by
    cases hd : direction ccw cw
    · exact (h4 hd).2.ne
    · exact (h3 hd).1.ne'
  obtain ⟨k0, k1, k2⟩ := point_follows (a := circle c r w) (p := p) (q := q) hw0 h1 h2
  have k3 : ∀ u, point false p q (circle c r w) u = ⟨c.x + r * cos (endT (circle c r w) p + w * u),
      c.y + r * sin (endT (circle c r w) p + w * u)⟩ := by
    intro u
    rw [k2, circle_pointAtT hr]
    rfl
  refine ⟨⟨k0, k1, _, fun u _ _ => k3 u⟩, ⟨_, ?_, k3⟩, h3, h4⟩
  have := k3 0
  rw [k0, mul_zero, add_zero] at this
  exact this

theorem sum_sines (x y : ℝ) : sin (2 * x) + sin (2 * y) - sin (2 * x + 2 * y) = 4 * sin x * sin y * sin (x + y) := by
  rw [sin_add (2 * x), sin_add x, cos_two_mul, cos_two_mul, sin_two_mul, sin_two_mul]
  have hx := cos_sq_add_sin_sq x
  have hy := cos_sq_add_sin_sq y
  linear_combination 4 * sin x * cos x * (-hy) + 4 * sin y * cos y * (-hx)

/-- twice the signed area of the triangle of three points of a circle -/
theorem circle_area (c : Pt ℝ) (r t α w : ℝ) {p m q : Pt ℝ} (hp : p = ⟨c.x + r * cos t, c.y + r * sin t⟩)
    (hm : m = ⟨c.x + r * cos (t + α), c.y + r * sin (t + α)⟩) (hq : q = ⟨c.x + r * cos (t + w), c.y + r * sin (t + w)⟩) :
    (m.x - p.x) * (q.y - p.y) - (m.y - p.y) * (q.x - p.x) =
      r ^ 2 * (4 * sin (α / 2) * sin ((w - α) / 2) * sin (w / 2)) := by
  have h := sum_sines (α / 2) ((w - α) / 2)
  rw [show 2 * (α / 2) = α by ring, show 2 * ((w - α) / 2) = w - α by ring, show α + (w - α) = w by ring,
    show α / 2 + (w - α) / 2 = w / 2 by ring] at h
  rw [← h, hp, hm, hq, sin_sub]
  simp only [cos_add, sin_add]
  have ht := cos_sq_add_sin_sq t
  linear_combination r ^ 2 * (sin α + sin w * cos α - cos w * sin α - sin w) * ht

theorem orientation_two (p m q : Pt ℝ) :
    Pt.orientation p m q = 2 ↔ 0 < (m.x - p.x) * (q.y - p.y) - (m.y - p.y) * (q.x - p.x) := by
  unfold Pt.orientation
  simp only []
  split_ifs with h1 h2
  · simp; linarith
  · simp; linarith
  · simp only [true_iff]
    rcases lt_or_gt_of_ne h1 with h | h
    · linarith
    · exact absurd h h2

theorem orientation_one (p m q : Pt ℝ) :
    Pt.orientation p m q = 1 ↔ (m.x - p.x) * (q.y - p.y) - (m.y - p.y) * (q.x - p.x) < 0 := by
  unfold Pt.orientation
  simp only []
  split_ifs with h1 h2
  · simp; linarith
  · simp; linarith
  · simp
    rcases lt_or_gt_of_ne h1 with h | h
    · linarith
    · exact absurd h h2

end Svgio.Arc
