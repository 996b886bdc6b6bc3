import Verif.Lemmas.ArcCtor

/-!
C88–C91: arcs built from three points, a bulge, a radius or a centre.
-/

namespace Svgio.Arc

open Real Spec

/-! ### Three points -/

theorem centerOfThree_eq (px py mx my qx qy : ℝ) : centerOfThree ⟨px, py⟩ ⟨mx, my⟩ ⟨qx, qy⟩ =
    if my - py = 0 then
      if qx - mx = 0 then .ok ⟨1 / 2 * (mx - px) + px, 1 / 2 * (qy - my) + my⟩
      else if (qy - my) / (qx - mx) = 0 then .error .zeroDivisionError
      else .ok ⟨1 / 2 * (mx - px) + px, 1 / 2 * (qy - my) + my +
        (1 / 2 * (qx - mx) + mx - (1 / 2 * (mx - px) + px)) / ((qy - my) / (qx - mx))⟩
    else if qy - my = 0 then
      if mx - px = 0 then .ok ⟨1 / 2 * (qx - mx) + mx, 1 / 2 * (my - py) + py⟩
      else .ok ⟨1 / 2 * (qx - mx) + mx, 1 / 2 * (my - py) + py +
        (1 / 2 * (mx - px) + px - (1 / 2 * (qx - mx) + mx)) / ((my - py) / (mx - px))⟩
    else if mx - px = 0 then
      if qx - mx = 0 then .error .notImplementedError
      else .ok ⟨(qy - my) / (qx - mx) * (1 / 2 * (qy - my) + my - (1 / 2 * (my - py) + py)) + (1 / 2 * (qx - mx) + mx),
        1 / 2 * (my - py) + py⟩
    else if qx - mx = 0 then
      .ok ⟨(my - py) / (mx - px) * (1 / 2 * (my - py) + py - (1 / 2 * (qy - my) + my)) + (1 / 2 * (mx - px) + px),
        1 / 2 * (qy - my) + my⟩
    else if (my - py) / (mx - px) = (qy - my) / (qx - mx) then .ok ⟨1 / 2 * (mx - px) + px, 1 / 2 * (my - py) + py⟩
    else
      let cx := ((my - py) / (mx - px) * ((qy - my) / (qx - mx)) *
        (1 / 2 * (my - py) + py - (1 / 2 * (qy - my) + my)) - (my - py) / (mx - px) * (1 / 2 * (qx - mx) + mx) +
          (qy - my) / (qx - mx) * (1 / 2 * (mx - px) + px)) / ((qy - my) / (qx - mx) - (my - py) / (mx - px))
      .ok ⟨cx, 1 / 2 * (my - py) + py - (cx - (1 / 2 * (mx - px) + px)) / ((my - py) / (mx - px))⟩ := rfl

theorem centerOfThree_spec {p m q : Pt ℝ} (h : Triangle p m q) :
    ∃ c, centerOfThree p m q = .ok c ∧ Spec.dist c p = Spec.dist c m ∧ Spec.dist c q = Spec.dist c m := by
  obtain ⟨px, py⟩ := p
  obtain ⟨mx, my⟩ := m
  obtain ⟨qx, qy⟩ := q
  have key : ∀ c : Pt ℝ, 2 * c.x * (mx - px) + 2 * c.y * (my - py) = mx ^ 2 - px ^ 2 + (my ^ 2 - py ^ 2) →
      2 * c.x * (qx - mx) + 2 * c.y * (qy - my) = qx ^ 2 - mx ^ 2 + (qy ^ 2 - my ^ 2) →
      Spec.dist c ⟨px, py⟩ = Spec.dist c ⟨mx, my⟩ ∧ Spec.dist c ⟨qx, qy⟩ = Spec.dist c ⟨mx, my⟩ := by
    intro c h1 h2
    unfold Spec.dist
    constructor
    · congr 1
      simp only []
      linear_combination h1
    · congr 1
      simp only []
      linear_combination -h2
  have hA : (mx - px) * (qy - my) - (my - py) * (qx - mx) ≠ 0 := by
    intro e
    apply h
    simp only []
    linear_combination e
  rw [centerOfThree_eq]
  by_cases h1 : my - py = 0
  · rw [if_pos h1]
    rw [h1, zero_mul, sub_zero] at hA
    have a0 := left_ne_zero_of_mul hA
    have b0 := right_ne_zero_of_mul hA
    have e1 : my = py := sub_eq_zero.1 h1
    by_cases h2 : qx - mx = 0
    · rw [if_pos h2]
      refine ⟨_, rfl, key _ ?_ ?_⟩
      · rw [e1]; ring
      · have : qx = mx := sub_eq_zero.1 h2
        rw [this]; ring
    · rw [if_neg h2, if_neg (div_ne_zero b0 h2)]
      refine ⟨_, rfl, key _ ?_ ?_⟩
      · rw [e1]; ring
      · simp only []
        field_simp
        rw [e1]
        ring
  rw [if_neg h1]
  by_cases h2 : qy - my = 0
  · rw [if_pos h2]
    have e2 : qy = my := sub_eq_zero.1 h2
    by_cases h3 : mx - px = 0
    · rw [if_pos h3]
      have e3 : mx = px := sub_eq_zero.1 h3
      refine ⟨_, rfl, key _ ?_ ?_⟩
      · rw [e3]; ring
      · rw [e2]; ring
    · rw [if_neg h3]
      refine ⟨_, rfl, key _ ?_ ?_⟩
      · simp only []
        field_simp
        ring
      · rw [e2]; ring
  rw [if_neg h2]
  by_cases h3 : mx - px = 0
  · rw [if_pos h3]
    have e3 : mx = px := sub_eq_zero.1 h3
    have h4 : qx - mx ≠ 0 := by
      intro e
      apply hA
      rw [h3, e]
      ring
    rw [if_neg h4]
    refine ⟨_, rfl, key _ ?_ ?_⟩
    · rw [e3]; ring
    · simp only []
      field_simp
      ring
  rw [if_neg h3]
  by_cases h4 : qx - mx = 0
  · rw [if_pos h4]
    have e4 : qx = mx := sub_eq_zero.1 h4
    refine ⟨_, rfl, key _ ?_ ?_⟩
    · simp only []
      field_simp
      ring
    · rw [e4]; ring
  rw [if_neg h4]
  have h5 : (my - py) / (mx - px) ≠ (qy - my) / (qx - mx) := by
    intro e
    rw [div_eq_div_iff h3 h4] at e
    apply hA
    linear_combination -e
  rw [if_neg h5]
  have h6 : (qy - my) / (qx - mx) - (my - py) / (mx - px) ≠ 0 := fun e => h5 (by linarith)
  have h7 : (my - py) / (mx - px) ≠ 0 := div_ne_zero h1 h3
  generalize hX : ((my - py) / (mx - px) * ((qy - my) / (qx - mx)) *
    (1 / 2 * (my - py) + py - (1 / 2 * (qy - my) + my)) - (my - py) / (mx - px) * (1 / 2 * (qx - mx) + mx) +
      (qy - my) / (qx - mx) * (1 / 2 * (mx - px) + px)) / ((qy - my) / (qx - mx) - (my - py) / (mx - px)) = X
  rw [div_eq_iff h6] at hX
  field_simp at hX
  refine ⟨_, rfl, key _ ?_ ?_⟩
  · simp only []
    field_simp
    ring
  · simp only []
    field_simp
    first | linear_combination hX | linear_combination -hX | linear_combination 2 * hX | linear_combination -2 * hX

/-- a third point of the circle on the right side of the chord is passed -/
theorem passes {c p m q : Pt ℝ} {r t w : ℝ} (hr : 0 < r) (hm : Spec.dist c m = r) (hp : p = ⟨c.x + r * cos t, c.y + r * sin t⟩)
    (hq : q = ⟨c.x + r * cos (t + w), c.y + r * sin (t + w)⟩)
    (hw : (0 < w ∧ w < 2 * π ∧ 0 < (m.x - p.x) * (q.y - p.y) - (m.y - p.y) * (q.x - p.x)) ∨
      (-(2 * π) < w ∧ w < 0 ∧ (m.x - p.x) * (q.y - p.y) - (m.y - p.y) * (q.x - p.x) < 0)) :
    ∃ u, 0 < u ∧ u < 1 ∧ m = ⟨c.x + r * cos (t + w * u), c.y + r * sin (t + w * u)⟩ := by
  have hpi := pi_pos
  obtain ⟨s, hs⟩ := circle_param hr hm
  obtain ⟨h0, h1, n, hn⟩ := pyMod_range (s - t)
  generalize Angle.pyMod (s - t) tau = α at *
  have et : tau = 2 * π := rfl
  have hs' : ∀ k : ℤ, m = ⟨c.x + r * cos (t + (α + k * (2 * π))), c.y + r * sin (t + (α + k * (2 * π)))⟩ := by
    intro k
    have : t + (α + k * (2 * π)) = s + ((k - n : ℤ) : ℝ) * (2 * π) := by push_cast; linarith
    rw [this, cos_add_int_mul_two_pi, sin_add_int_mul_two_pi]
    exact hs
  rcases hw with ⟨w0, w1, hA⟩ | ⟨w0, w1, hA⟩
  · have hm0 := hs' 0
    rw [Int.cast_zero, zero_mul, add_zero] at hm0
    rw [circle_area c r t α w hp hm0 hq] at hA
    have a1 : 0 ≤ sin (α / 2) := sin_nonneg_of_nonneg_of_le_pi (by linarith) (by linarith)
    have a2 : 0 < sin (w / 2) := sin_pos_of_pos_of_lt_pi (by linarith) (by linarith)
    have a3 : 0 < sin (α / 2) * sin ((w - α) / 2) := by
      by_contra hc
      have : r ^ 2 * (4 * sin (α / 2) * sin ((w - α) / 2) * sin (w / 2)) ≤ 0 := by
        have h2 : 0 < r ^ 2 * 4 * sin (w / 2) := by positivity
        nlinarith
      linarith
    have a4 : 0 < α := by
      rcases h0.lt_or_eq with h | h
      · exact h
      · rw [← h, zero_div, sin_zero, zero_mul] at a3
        exact absurd a3 (lt_irrefl _)
    have a5 : 0 < sin ((w - α) / 2) := by
      by_contra hc
      nlinarith
    have a6 : α < w := by
      by_contra hc
      have := sin_nonpos_of_nonpos_of_neg_pi_le (x := (w - α) / 2) (by linarith) (by linarith)
      linarith
    refine ⟨α / w, by positivity, (div_lt_one w0).2 a6, ?_⟩
    rw [mul_div_cancel₀ _ w0.ne']
    exact hm0
  · have hm0 := hs' (-1)
    set β := α + ((-1 : ℤ) : ℝ) * (2 * π) with hβ
    have b0 : β < 0 := by rw [hβ]; push_cast; linarith
    have b1 : -(2 * π) ≤ β := by rw [hβ]; push_cast; linarith
    rw [circle_area c r t β w hp hm0 hq] at hA
    have a1 : sin (β / 2) ≤ 0 := sin_nonpos_of_nonpos_of_neg_pi_le (by linarith) (by linarith)
    have a2 : sin (w / 2) < 0 := sin_neg_of_neg_of_neg_pi_lt (by linarith) (by linarith)
    have a3 : 0 < sin (β / 2) * sin ((w - β) / 2) := by
      by_contra hc
      have : 0 ≤ r ^ 2 * (4 * sin (β / 2) * sin ((w - β) / 2) * sin (w / 2)) := by
        have h2 : 0 < r ^ 2 * 4 * (-sin (w / 2)) := by
          have : 0 < -sin (w / 2) := by linarith
          positivity
        nlinarith
      linarith
    have a5 : sin ((w - β) / 2) < 0 := by
      by_contra hc
      nlinarith
    have a6 : w < β := by
      by_contra hc
      have := sin_nonneg_of_nonneg_of_le_pi (x := (w - β) / 2) (by linarith) (by linarith)
      linarith
    refine ⟨β / w, div_pos_of_neg_of_neg b0 w1, (div_lt_one_of_neg w1).2 a6, ?_⟩
    rw [mul_div_cancel₀ _ w1.ne]
    exact hm0

theorem triangle_ne {p m q : Pt ℝ} (h : Triangle p m q) : p ≠ q := by
  rintro rfl
  exact h (by ring)

theorem triangle_ne_mid {p m q : Pt ℝ} (h : Triangle p m q) : m ≠ p := by
  rintro rfl
  exact h (by ring)

/-- the constructor once the centre is known -/
theorem ctor_eq {k : CtorArgs} {c : Pt ℝ} {cw : Bool} {sw r : Option ℝ} (h0 : ¬ (k.count = 6 ∧ k.rotation.isSome))
    (hc : centerFor k (k.center.or ((boxParams k).map (·.1))) = .ok (c, cw, sw, r)) :
    ctor k = .ok (finish k.ccw cw (RawArc.mk k.start k.stop c
      (circleParams k.start k.stop c (prxOf k c r (k.prx.or ((boxParams k).map (·.2.1))))
        (pryOf k c r (k.pry.or ((boxParams k).map (·.2.2))))).1
      (circleParams k.start k.stop c (prxOf k c r (k.prx.or ((boxParams k).map (·.2.1))))
        (pryOf k c r (k.pry.or ((boxParams k).map (·.2.2))))).2 sw)) := by
  unfold ctor
  rw [if_neg h0]
  simp only [hc]
  rfl

/-- what the constructor does with three points -/
theorem ctor_three {k : CtorArgs} {p m q : Pt ℝ} (hk : ctor k = ctor { start := some p, stop := some q, control := some m })
    (h : Triangle p m q) : ∃ x a c r Δ, ctor k = .ok x ∧ x.data = some (p, q, a) ∧ 0 < r ∧ |Δ| < 2 * π ∧
      FollowsCircle (point false p q a) p q c r Δ ∧
      (∃ t, p = ⟨c.x + r * cos t, c.y + r * sin t⟩ ∧
        ∀ u, point false p q a u = ⟨c.x + r * cos (t + Δ * u), c.y + r * sin (t + Δ * u)⟩) ∧
      (0 < (m.x - p.x) * (q.y - p.y) - (m.y - p.y) * (q.x - p.x) → 0 < Δ) ∧
      ((m.x - p.x) * (q.y - p.y) - (m.y - p.y) * (q.x - p.x) < 0 → Δ < 0) ∧
      ∃ u, 0 < u ∧ u < 1 ∧ point false p q a u = m := by
  obtain ⟨c, h1, h2, h3⟩ := centerOfThree_spec h
  have hpc : Spec.dist c p = Spec.dist c m := h2
  obtain ⟨r, hrdef⟩ : ∃ r, r = Spec.dist c m := ⟨_, rfl⟩
  have hr : 0 < r := by
    refine lt_of_le_of_ne (hrdef ▸ dist_nonneg c m) (fun e => triangle_ne_mid h ?_)
    have z1 : c = m := by
      by_contra hc
      have := dist_pos hc
      linarith
    have z2 : c = p := by
      by_contra hc
      have := dist_pos hc
      linarith
    rw [← z1, z2]
  rw [← hrdef] at h2 h3
  obtain ⟨w, hw⟩ : ∃ w, w = sweepBetween none (decide (Pt.orientation p m q = 2)) p q (circle c r 0) := ⟨_, rfl⟩
  obtain ⟨f1, ⟨t, ht, f2⟩, f3, f4⟩ := circle_between hr h2 h3 (triangle_ne h) none _ hw
  have hctor : ctor k = .ok ⟨some p, some q, c, some ⟨c.x + r, c.y⟩, some ⟨c.x, c.y + r⟩, some w⟩ := by
    rw [hk, ctor_eq (c := c) (cw := decide (Pt.orientation p m q = 2)) (sw := none) (r := none) (by simp) (by
      change (do let c ← centerOfThree p m q; Except.ok (c, decide (Pt.orientation p m q = 2), none, none) : Except PyErr _) = _
      rw [h1]
      rfl)]
    change Except.ok (RawArc.mk (some p) (some q) c (some ⟨c.x + Pt.distance c p, c.y⟩) (some ⟨c.x, c.y + Pt.distance c p⟩)
      (some (sweepBetween none (decide (Pt.orientation p m q = 2)) p q (circle c (Pt.distance c p) 0)))) = _
    rw [distance_eq, h2, ← hw]
  have hq : q = ⟨c.x + r * cos (t + w), c.y + r * sin (t + w)⟩ := by
    have := f2 1
    rw [f1.2.1, mul_one] at this
    exact this
  have hs : (0 < w ∧ w < 2 * π ∧ 0 < (m.x - p.x) * (q.y - p.y) - (m.y - p.y) * (q.x - p.x)) ∨
      (-(2 * π) < w ∧ w < 0 ∧ (m.x - p.x) * (q.y - p.y) - (m.y - p.y) * (q.x - p.x) < 0) := by
    rcases lt_or_gt_of_ne h with hA | hA
    · right
      have : ¬ Pt.orientation p m q = 2 := by rw [orientation_two]; linarith
      have := f4 (by simp [direction, this])
      exact ⟨this.1, this.2, hA⟩
    · left
      have : Pt.orientation p m q = 2 := by rw [orientation_two]; linarith
      have := f3 (by simp [direction, this])
      exact ⟨this.1, this.2, hA⟩
  obtain ⟨u, u0, u1, hu⟩ := passes hr hrdef.symm ht hq hs
  refine ⟨_, circle c r w, c, r, w, hctor, rfl, hr, ?_, f1, ⟨t, ht, f2⟩, ?_, ?_, u, u0, u1, ?_⟩
  · rw [abs_lt]
    rcases hs with hs | hs <;> constructor <;> linarith [hs.1, hs.2.1]
  · intro hA
    rcases hs with hs | hs
    · exact hs.1
    · linarith [hs.2.2]
  · intro hA
    rcases hs with hs | hs
    · linarith [hs.2.2]
    · exact hs.2.1
  · rw [f2, hu]

/-- C88: `Arc(start=p, control=m, end=q)` for three points on no line is the arc of a circle from `p` to `q` that passes `m` on the
way. -/
theorem C88_three_points_partial {p m q : Pt ℝ} (h : Triangle p m q) :
    ∃ x a c r Δ, ctor { start := some p, stop := some q, control := some m } = .ok x ∧ x.data = some (p, q, a) ∧
      0 < r ∧ |Δ| < 2 * π ∧ FollowsCircle (point false p q a) p q c r Δ ∧ ∃ u, 0 < u ∧ u < 1 ∧ point false p q a u = m := by
  obtain ⟨x, a, c, r, Δ, h1, h2, h3, h4, h5, -, -, -, h6⟩ := ctor_three rfl h
  exact ⟨x, a, c, r, Δ, h1, h2, h3, h4, h5, h6⟩

/-- C88 fails for three points on a line: there is an exception, or a centre with different distances from the points. -/
theorem C88_line_wrong :
    ctor { start := some ⟨0, 0⟩, stop := some ⟨2, 0⟩, control := some ⟨1, 0⟩ } = .error .zeroDivisionError ∧
    ∃ x, ctor { start := some ⟨0, 0⟩, stop := some ⟨2, 2⟩, control := some ⟨1, 1⟩ } = .ok x ∧
      Spec.dist x.center ⟨0, 0⟩ ≠ Spec.dist x.center ⟨2, 2⟩ := by
  constructor
  · have : centerOfThree ⟨0, 0⟩ ⟨1, 0⟩ ⟨2, 0⟩ = .error .zeroDivisionError := by
      rw [centerOfThree_eq]
      norm_num
    unfold ctor
    rw [if_neg (by simp)]
    change (do
      let y ← (do let c ← centerOfThree ⟨0, 0⟩ ⟨1, 0⟩ ⟨2, 0⟩; Except.ok (c, _, _, _) : Except PyErr _)
      _ : Except PyErr _) = _
    rw [this]
    rfl
  · have : centerOfThree ⟨0, 0⟩ ⟨1, 1⟩ ⟨2, 2⟩ = .ok ⟨1 / 2, 1 / 2⟩ := by
      rw [centerOfThree_eq]
      norm_num
    rw [ctor_eq (c := ⟨1 / 2, 1 / 2⟩) (cw := decide (Pt.orientation (⟨0, 0⟩ : Pt ℝ) ⟨1, 1⟩ ⟨2, 2⟩ = 2)) (sw := none) (r := none) (by simp)
      (by
        change (do let c ← centerOfThree ⟨0, 0⟩ ⟨1, 1⟩ ⟨2, 2⟩; Except.ok (c, _, none, none) : Except PyErr _) = _
        rw [this]
        rfl)]
    refine ⟨_, rfl, ?_⟩
    change Spec.dist ⟨1 / 2, 1 / 2⟩ _ ≠ Spec.dist ⟨1 / 2, 1 / 2⟩ _
    intro h
    have h1 := dist_sq (⟨1 / 2, 1 / 2⟩ : Pt ℝ) ⟨0, 0⟩
    have h2 := dist_sq (⟨1 / 2, 1 / 2⟩ : Pt ℝ) ⟨2, 2⟩
    rw [h] at h1
    rw [h1] at h2
    norm_num at h2

/-- a triangle meets the hypothesis of C88 -/
example : Triangle ⟨0, 0⟩ ⟨1, 1⟩ ⟨3, 0⟩ := by norm_num [Triangle]

/-! ### Sagitta and bulge -/

theorem angle_unit {p q : Pt ℝ} (h : p ≠ q) : cos (angle p q) = (q.x - p.x) / Spec.dist p q ∧ sin (angle p q) = (q.y - p.y) / Spec.dist p q := by
  have hd := dist_pos h
  unfold angle
  constructor
  · rw [eq_div_iff hd.ne', mul_comm]
    exact atan2_cos _ _
  · rw [eq_div_iff hd.ne', mul_comm]
    exact atan2_sin _ _

theorem sagitta_point {p q : Pt ℝ} (h : p ≠ q) (s : ℝ) : polar (towards p q (1 / 2)) (angle p q - tau / 4) s = above p q s := by
  obtain ⟨h1, h2⟩ := angle_unit h
  unfold polar towards above
  have e : angle p q - tau / 4 = angle p q - π / 2 := by unfold tau; ring
  rw [e, cos_sub_pi_div_two, sin_sub_pi_div_two, h1, h2]
  congr 1 <;> ring

theorem above_area {p q : Pt ℝ} (h : p ≠ q) (s : ℝ) :
    ((above p q s).x - p.x) * (q.y - p.y) - ((above p q s).y - p.y) * (q.x - p.x) = s * Spec.dist p q := by
  have hd := dist_pos h
  have := dist_sq p q
  unfold above
  simp only []
  field_simp
  linear_combination -2 * s * this

/-- the point above the middle is the middle of the arc -/
theorem above_middle {p q c : Pt ℝ} {r t Δ u s : ℝ} (h : p ≠ q) (hr : 0 < r) (hΔ : |Δ| < 2 * π) (hΔ0 : Δ ≠ 0) (h0 : 0 < u) (h1 : u < 1)
    (hp : p = ⟨c.x + r * cos t, c.y + r * sin t⟩) (hm : above p q s = ⟨c.x + r * cos (t + Δ * u), c.y + r * sin (t + Δ * u)⟩)
    (hq : q = ⟨c.x + r * cos (t + Δ), c.y + r * sin (t + Δ)⟩) :
    u = 1 / 2 ∧ r ^ 2 * (2 * (1 - cos (Δ / 2))) = Spec.dist p q ^ 2 / 4 + s ^ 2 ∧ r ^ 2 * (2 * (1 - cos Δ)) = Spec.dist p q ^ 2 := by
  have hd := dist_pos h
  have hL := dist_sq p q
  have chord : ∀ a b : ℝ, (r * cos (a + b) - r * cos a) ^ 2 + (r * sin (a + b) - r * sin a) ^ 2 = r ^ 2 * (2 * (1 - cos b)) := by
    intro a b
    rw [cos_add, sin_add]
    have ha := cos_sq_add_sin_sq a
    have hb := cos_sq_add_sin_sq b
    linear_combination r ^ 2 * (cos b ^ 2 + sin b ^ 2 - 2 * cos b + 1) * ha + r ^ 2 * hb
  have e1 : ((above p q s).x - p.x) ^ 2 + ((above p q s).y - p.y) ^ 2 = Spec.dist p q ^ 2 / 4 + s ^ 2 := by
    unfold above
    simp only []
    field_simp
    linear_combination -4 * (Spec.dist p q ^ 2 + 4 * s ^ 2) * hL
  have e2 : (q.x - (above p q s).x) ^ 2 + (q.y - (above p q s).y) ^ 2 = Spec.dist p q ^ 2 / 4 + s ^ 2 := by
    unfold above
    simp only []
    field_simp
    linear_combination -4 * (Spec.dist p q ^ 2 + 4 * s ^ 2) * hL
  have c1 : r ^ 2 * (2 * (1 - cos (Δ * u))) = Spec.dist p q ^ 2 / 4 + s ^ 2 := by
    rw [← e1, hm, ← chord t (Δ * u)]
    rw [hp]
    simp only []
    ring
  have c2 : r ^ 2 * (2 * (1 - cos (Δ * (1 - u)))) = Spec.dist p q ^ 2 / 4 + s ^ 2 := by
    rw [← e2, hm, ← chord (t + Δ * u) (Δ * (1 - u)), show t + Δ * u + Δ * (1 - u) = t + Δ by ring]
    rw [hq]
    simp only []
    ring
  have c3 : r ^ 2 * (2 * (1 - cos Δ)) = Spec.dist p q ^ 2 := by
    rw [hL, ← chord t Δ]
    rw [hp, hq]
    simp only []
    ring
  have hcos : cos (Δ * u) = cos (Δ * (1 - u)) := by
    have : r ^ 2 * (2 * (1 - cos (Δ * u))) = r ^ 2 * (2 * (1 - cos (Δ * (1 - u)))) := by rw [c1, c2]
    have := mul_left_cancel₀ (by positivity : r ^ 2 ≠ 0) this
    linarith
  have hu : u = 1 / 2 := by
    have h2 := cos_sub_cos (Δ * u) (Δ * (1 - u))
    rw [hcos, sub_self, show (Δ * u + Δ * (1 - u)) / 2 = Δ / 2 by ring] at h2
    obtain ⟨b1, b2⟩ := abs_lt.1 hΔ
    have h3 : sin (Δ / 2) ≠ 0 := by
      rw [Ne, sin_eq_zero_iff_of_lt_of_lt (by linarith) (by linarith)]
      intro e
      apply hΔ0
      linarith
    have h4 : sin ((Δ * u - Δ * (1 - u)) / 2) = 0 := by
      rcases mul_eq_zero.1 h2.symm with h5 | h5
      · rcases mul_eq_zero.1 h5 with h6 | h6
        · norm_num at h6
        · exact absurd h6 h3
      · exact h5
    have h5 : |(Δ * u - Δ * (1 - u)) / 2| < π := by
      rw [show (Δ * u - Δ * (1 - u)) / 2 = Δ * ((2 * u - 1) / 2) by ring, abs_mul]
      have : |(2 * u - 1) / 2| ≤ 1 / 2 := by rw [abs_le]; constructor <;> linarith
      have hp := pi_pos
      have := abs_nonneg Δ
      nlinarith
    obtain ⟨b3, b4⟩ := abs_lt.1 h5
    rw [sin_eq_zero_iff_of_lt_of_lt b3 b4] at h4
    have h6 : Δ * (2 * u - 1) = 0 := by linarith
    rcases mul_eq_zero.1 h6 with h7 | h7
    · exact absurd h7 hΔ0
    · linarith
  refine ⟨hu, ?_, c3⟩
  rw [← c1, hu]
  congr 4
  ring

/-- what the constructor does with two points and a sagitta or bulge -/
theorem ctor_sagitta {k : CtorArgs} {p q : Pt ℝ} {s : ℝ} (h : p ≠ q) (hs : s ≠ 0)
    (hk : ctor k = ctor { start := some p, stop := some q, control := some (above p q s) }) :
    ∃ x a c r Δ, ctor k = .ok x ∧ x.data = some (p, q, a) ∧ 0 < r ∧ |Δ| < 2 * π ∧ FollowsCircle (point false p q a) p q c r Δ ∧
      point false p q a (1 / 2) = above p q s ∧ Δ = 4 * arctan (2 * s / Spec.dist p q) := by
  have hd := dist_pos h
  have hA := above_area h s
  obtain ⟨x, a, c, r, Δ, h1, h2, h3, h4, h5, ⟨t, ht, hf⟩, h7, h8, u, u0, u1, hu⟩ := ctor_three hk (by
    unfold Triangle
    rw [hA]
    exact mul_ne_zero hs hd.ne')
  rw [hA] at h7 h8
  have hΔ0 : Δ ≠ 0 := by
    rcases lt_or_gt_of_ne hs with h | h
    · exact (h8 (mul_neg_of_neg_of_pos h hd)).ne
    · exact (h7 (mul_pos h hd)).ne'
  have hq := hf 1
  rw [h5.2.1, mul_one] at hq
  have hm := hf u
  rw [hu] at hm
  obtain ⟨e1, e2, e3⟩ := above_middle h h3 h4 hΔ0 u0 u1 ht hm hq
  subst e1
  refine ⟨x, a, c, r, Δ, h1, h2, h3, h4, h5, hu, ?_⟩
  obtain ⟨b1, b2⟩ := abs_lt.1 h4
  have hc : 0 < cos (Δ / 4) := cos_pos_of_mem_Ioo ⟨by linarith, by linarith⟩
  have ht : tan (Δ / 4) = 2 * s / Spec.dist p q := by
    have k1 : cos (Δ / 2) = 2 * cos (Δ / 4) ^ 2 - 1 := by rw [← cos_two_mul]; congr 1; ring
    have k2 : cos Δ = 2 * cos (Δ / 2) ^ 2 - 1 := by rw [← cos_two_mul]; congr 1; ring
    have k3 := cos_sq_add_sin_sq (Δ / 4)
    have hs0 : sin (Δ / 4) ≠ 0 := by
      rw [Ne, sin_eq_zero_iff_of_lt_of_lt (by linarith) (by linarith)]
      intro e
      apply hΔ0
      linarith
    have k4 : r ^ 2 * (2 * (1 - cos (Δ / 2))) * 4 = r ^ 2 * (2 * (1 - cos Δ)) + 4 * s ^ 2 := by rw [e2, e3]; ring
    rw [k2, k1] at k4
    have k5 : (tan (Δ / 4)) ^ 2 = (2 * s / Spec.dist p q) ^ 2 := by
      rw [tan_eq_sin_div_cos, div_pow, div_pow, ← e3, div_eq_div_iff (by positivity) (by
        rw [e3]; positivity), k2, k1]
      have k6 : sin (Δ / 4) ^ 2 = 1 - cos (Δ / 4) ^ 2 := by linarith
      rw [k6]
      linear_combination cos (Δ / 4) ^ 2 * k4
    rcases sq_eq_sq_iff_eq_or_eq_neg.1 k5 with h | h
    · exact h
    · exfalso
      rcases lt_or_gt_of_ne hs with h' | h'
      · have := h8 (mul_neg_of_neg_of_pos h' hd)
        have t1 : tan (Δ / 4) < 0 := tan_neg_of_neg_of_pi_div_two_lt (by linarith) (by linarith)
        have : 2 * s / Spec.dist p q < 0 := div_neg_of_neg_of_pos (by linarith) hd
        linarith
      · have := h7 (mul_pos h' hd)
        have t1 : 0 < tan (Δ / 4) := tan_pos_of_pos_of_lt_pi_div_two (by linarith) (by linarith)
        have : 0 < 2 * s / Spec.dist p q := by positivity
        linarith
  rw [← ht, arctan_tan (by linarith) (by linarith)]
  ring

/-- C89: `Arc(start=p, end=q, sagitta=s)` with `s` not 0 is the arc of a circle from `p` to `q` whose middle is at distance `s` from the
middle of the chord. -/
theorem C89_sagitta_partial {p q : Pt ℝ} (h : p ≠ q) {s : ℝ} (hs : s ≠ 0) :
    ∃ x a c r Δ, ctor { start := some p, stop := some q, sagitta := some s } = .ok x ∧ x.data = some (p, q, a) ∧ 0 < r ∧ |Δ| < 2 * π ∧
      FollowsCircle (point false p q a) p q c r Δ ∧ point false p q a (1 / 2) = above p q s := by
  have hk : ctor { start := some p, stop := some q, sagitta := some s } =
      ctor { start := some p, stop := some q, control := some (above p q s) } := by
    rw [← sagitta_point h]
    rfl
  obtain ⟨x, a, c, r, Δ, h1, h2, h3, h4, h5, h6, -⟩ := ctor_sagitta h hs hk
  exact ⟨x, a, c, r, Δ, h1, h2, h3, h4, h5, h6⟩

/-- C89: `Arc(start=p, end=q, bulge=b)` with `b` not 0 is the arc of a circle from `p` to `q` that turns by the angle `4 * atan(b)`. -/
theorem C89_bulge_partial {p q : Pt ℝ} (h : p ≠ q) {b : ℝ} (hb : b ≠ 0) :
    ∃ x a c r, ctor { start := some p, stop := some q, bulge := some b } = .ok x ∧ x.data = some (p, q, a) ∧ 0 < r ∧
      FollowsCircle (point false p q a) p q c r (4 * arctan b) := by
  have hd := dist_pos h
  have hk : ctor { start := some p, stop := some q, bulge := some b } =
      ctor { start := some p, stop := some q, control := some (above p q (b * Spec.dist p q / 2)) } := by
    rw [← sagitta_point h, ← distance_eq]
    rfl
  obtain ⟨x, a, c, r, Δ, h1, h2, h3, h4, h5, h6, h7⟩ := ctor_sagitta h (by positivity) hk
  rw [show 2 * (b * Spec.dist p q / 2) / Spec.dist p q = b by field_simp] at h7
  exact ⟨x, a, c, r, h1, h2, h3, h7 ▸ h5⟩

/-- points and a bulge as the theorem asks for -/
example : (⟨0, 0⟩ : Pt ℝ) ≠ ⟨3, 4⟩ ∧ (-1 / 2 : ℝ) ≠ 0 := by norm_num

/-- C89 fails for a bulge of 0, which stands for a straight line: on a horizontal chord there is an exception. -/
theorem C89_zero_wrong : ctor { start := some ⟨0, 0⟩, stop := some ⟨2, 0⟩, bulge := some 0 } = .error .zeroDivisionError := by
  have : ctor { start := some ⟨0, 0⟩, stop := some ⟨2, 0⟩, bulge := some 0 } =
      ctor { start := some ⟨0, 0⟩, stop := some ⟨2, 0⟩, control := some ⟨1, 0⟩ } := by
    have e : polar (towards ⟨0, 0⟩ ⟨2, 0⟩ (1 / 2)) (angle ⟨0, 0⟩ ⟨2, 0⟩ - tau / 4)
        (0 * Pt.distance (⟨0, 0⟩ : Pt ℝ) ⟨2, 0⟩ / 2) = ⟨1, 0⟩ := by
      unfold polar towards
      norm_num
    rw [← e]
    rfl
  rw [this]
  exact C88_line_wrong.1

end Svgio.Arc
