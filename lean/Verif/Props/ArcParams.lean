import Verif.Model.ArcParams
import Verif.Lemmas.Arc
import Verif.Spec.Arc
import Verif.Spec.ArcCtor

/-!
C123: angles and parameters of the points of an arc's ellipse.
-/

namespace Svgio.Arc

open Real

/-- the ellipse of an arc: around its centre, with its radii and its rotation -/
def On (a : ArcData ℝ) (p : Pt ℝ) : Prop := Spec.OnEllipse a.center (radius a).x (radius a).y (rotation a) p

/-- equal up to full turns -/
def SameAngle (s t : ℝ) : Prop := ∃ n : ℤ, s = t + n * (2 * π)

theorem sameAngle_of {s t : ℝ} (h1 : cos s = cos t) (h2 : sin s = sin t) : SameAngle s t := by
  obtain ⟨n, hn⟩ := (Real.Angle.angle_eq_iff_two_pi_dvd_sub (ψ := t) (θ := s)).1 (Real.Angle.cos_sin_inj h1 h2)
  exact ⟨n, by linarith⟩

theorem on_pointAtT {a : ArcData ℝ} (ha : 0 < rx a) (hb : 0 < ry a) (t : ℝ) : On a (pointAtT a t) := by
  unfold On Spec.OnEllipse radius
  have hr := cos_sq_sin_sq (rotation a)
  have ht := cos_sq_sin_sq t
  have e1 : ((pointAtT a t).x - a.center.x) * cos (rotation a) + ((pointAtT a t).y - a.center.y) * sin (rotation a) = rx a * cos t := by
    simp only [pointAtT]
    linear_combination rx a * cos t * hr
  have e2 : -((pointAtT a t).x - a.center.x) * sin (rotation a) + ((pointAtT a t).y - a.center.y) * cos (rotation a) = ry a * sin t := by
    simp only [pointAtT]
    linear_combination ry a * sin t * hr
  rw [e1, e2]
  simp only
  field_simp
  linear_combination ht

theorem param_of_on {a : ArcData ℝ} (ha : 0 < rx a) (hb : 0 < ry a) {p : Pt ℝ} (h : On a p) : ∃ t, p = pointAtT a t := by
  obtain ⟨t, h1, h2⟩ := exists_param h
  simp only [radius] at h1 h2
  have hr := cos_sq_sin_sq (rotation a)
  rw [eq_div_iff ha.ne'] at h1
  rw [eq_div_iff hb.ne'] at h2
  refine ⟨t, ?_⟩
  obtain ⟨x, y⟩ := p
  simp only [pointAtT, Pt.mk.injEq] at h1 h2 ⊢
  constructor
  · linear_combination cos (rotation a) * -h1 + sin (rotation a) * h2 - (x - a.center.x) * hr
  · linear_combination sin (rotation a) * -h1 - cos (rotation a) * h2 - (y - a.center.y) * hr

/-- C123: point_at_t always gives a point of the ellipse, and t_at_point finds its parameter again, up to full turns; for every point of
the ellipse point_at_t(t_at_point(p)) is p -/
theorem C123_t {a : ArcData ℝ} (ha : 0 < rx a) (hb : 0 < ry a) :
    (∀ t, On a (pointAtT a t) ∧ SameAngle (tAtPoint a (pointAtT a t)) t) ∧ ∀ p, On a p → pointAtT a (tAtPoint a p) = p := by
  have h : ∀ t, cos (tAtPoint a (pointAtT a t)) = cos t ∧ sin (tAtPoint a (pointAtT a t)) = sin t := fun t =>
    tAtPoint_dir ha hb one_pos (by ring) (by ring)
  refine ⟨fun t => ⟨on_pointAtT ha hb t, sameAngle_of (h t).1 (h t).2⟩, fun p hp => ?_⟩
  obtain ⟨t, rfl⟩ := param_of_on ha hb hp
  exact pointAtT_congr a (h t).1 (h t).2

/-- C123: point_at_angle(θ) is the point of the ellipse that is seen from the centre at the angle θ, for every θ however many turns it has -/
theorem C123_angle {a : ArcData ℝ} (ha : 0 < rx a) (hb : 0 < ry a) (θ : ℝ) :
    On a (pointAtAngle a θ) ∧
    ∃ k, 0 < k ∧ pointAtAngle a θ = ⟨a.center.x + k * cos θ, a.center.y + k * sin θ⟩ := by
  have key : ∃ t k, 0 < k ∧ pointAtAngle a θ = pointAtT a t ∧ rx a * cos t = k * cos (θ - rotation a) ∧ ry a * sin t = k * sin (θ - rotation a) := by
    unfold pointAtAngle
    simp only
    split_ifs with h
    · exact ⟨_, rx a, ha, rfl, rfl, by rw [h]⟩
    · obtain ⟨k, hk, h3, h4⟩ := ellipseT_spec ha hb (θ - rotation a)
      refine ⟨_, rx a * ry a / k, by positivity, rfl, ?_, ?_⟩
      · field_simp
        linear_combination h3
      · field_simp
        linear_combination h4
  obtain ⟨t, k, hk, e, h1, h2⟩ := key
  have hr := cos_sq_sin_sq (rotation a)
  rw [cos_sub] at h1
  rw [sin_sub] at h2
  refine ⟨e ▸ on_pointAtT ha hb t, k, hk, ?_⟩
  rw [e]
  simp only [pointAtT, Pt.mk.injEq]
  constructor
  · linear_combination cos (rotation a) * h1 - sin (rotation a) * h2 + k * cos θ * hr
  · linear_combination sin (rotation a) * h1 + cos (rotation a) * h2 + k * sin θ * hr

theorem angle_polar (c : Pt ℝ) {k : ℝ} (hk : 0 < k) (θ : ℝ) :
    cos (angle c ⟨c.x + k * cos θ, c.y + k * sin θ⟩) = cos θ ∧ sin (angle c ⟨c.x + k * cos θ, c.y + k * sin θ⟩) = sin θ := by
  have h1 := atan2_cos (k * cos θ) (k * sin θ)
  have h2 := atan2_sin (k * cos θ) (k * sin θ)
  have e : (k * cos θ) ^ 2 + (k * sin θ) ^ 2 = k ^ 2 := by linear_combination k ^ 2 * cos_sq_sin_sq θ
  rw [e, sqrt_sq hk.le] at h1 h2
  have f1 : angle c ⟨c.x + k * cos θ, c.y + k * sin θ⟩ = atan2 (k * sin θ) (k * cos θ) := by
    simp only [angle, add_sub_cancel_left]
  rw [f1]
  exact ⟨mul_left_cancel₀ hk.ne' h1, mul_left_cancel₀ hk.ne' h2⟩

/-- C123: angle_at_point gives back the angle of point_at_angle, up to full turns, and point_at_angle(angle_at_point(p)) is p for every point
of the ellipse; so the start and the end of an arc, if on its ellipse, are its points at get_start_angle and get_end_angle, and at
get_start_t and get_end_t -/
theorem C123_back {a : ArcData ℝ} (ha : 0 < rx a) (hb : 0 < ry a) :
    (∀ θ, SameAngle (angleAtPoint a (pointAtAngle a θ)) θ) ∧ (∀ p, On a p → pointAtAngle a (angleAtPoint a p) = p) ∧
    ∀ start stop, On a start → On a stop →
      pointAtAngle a (startAngle start a) = start ∧ pointAtAngle a (endAngle stop a) = stop ∧
      pointAtT a (endT a start) = start ∧ pointAtT a (endT a stop) = stop := by
  have h2 : ∀ p, On a p → pointAtAngle a (angleAtPoint a p) = p := by
    intro p hp
    obtain ⟨t, rfl⟩ := param_of_on ha hb hp
    exact pointAtAngle_dir ha hb one_pos (by ring) (by ring)
  have h3 : ∀ p, On a p → pointAtT a (endT a p) = p := by
    intro p hp
    unfold endT
    rw [h2 p hp]
    exact (C123_t ha hb).2 p hp
  refine ⟨fun θ => ?_, h2, fun p q hp hq => ⟨h2 p hp, h2 q hq, h3 p hp, h3 q hq⟩⟩
  obtain ⟨-, k, hk, e⟩ := C123_angle ha hb θ
  rw [e]
  exact sameAngle_of (angle_polar a.center hk θ).1 (angle_polar a.center hk θ).2

/-- C123: is_circular() holds exactly if all points of the ellipse are equally far from the centre -/
theorem C123_circular (a : ArcData ℝ) :
    isCircular a = true ↔ ∀ s t, Spec.dist a.center (pointAtT a s) = Spec.dist a.center (pointAtT a t) := by
  have hr := cos_sq_sin_sq (rotation a)
  have e : ∀ t, Spec.dist a.center (pointAtT a t) = √((rx a * cos t) ^ 2 + (ry a * sin t) ^ 2) := by
    intro t
    unfold Spec.dist
    congr 1
    simp only [pointAtT]
    linear_combination ((rx a * cos t) ^ 2 + (ry a * sin t) ^ 2) * hr
  unfold isCircular
  rw [decide_eq_true_iff]
  constructor
  · intro h s t
    rw [e, e, ← h]
    congr 1
    linear_combination rx a ^ 2 * (cos_sq_sin_sq s - cos_sq_sin_sq t)
  · intro h
    have := h 0 (π / 2)
    rw [e, e] at this
    simp only [cos_zero, sin_zero, cos_pi_div_two, sin_pi_div_two, mul_one, mul_zero] at this
    have h1 : 0 ≤ rx a := by rw [rx_eq]; exact sqrt_nonneg _
    have h2 : 0 ≤ ry a := by rw [ry_eq]; exact sqrt_nonneg _
    rw [zero_pow two_ne_zero, add_zero, zero_add, sqrt_sq h1, sqrt_sq h2] at this
    exact this

/-- get_ellipse() fails for every arc -/
theorem C123_ellipse_wrong (a : ArcData ℝ) : ∃ x, getEllipse a = .error x := ⟨_, rfl⟩

example : ∃ a : ArcData ℝ, 0 < rx a ∧ 0 < ry a ∧ rx a ≠ ry a := by
  refine ⟨⟨⟨0, 0⟩, ⟨2, 0⟩, ⟨0, 1⟩, 1⟩, ?_⟩
  rw [rx_eq, ry_eq]
  have : √((4 : ℝ)) = 2 := by rw [show (4 : ℝ) = 2 ^ 2 by norm_num]; exact sqrt_sq (by norm_num)
  norm_num [this]

end Svgio.Arc
