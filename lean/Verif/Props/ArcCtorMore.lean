import Verif.Props.ArcCtor

/-!
C90–C93: arcs built from a radius, a centre, two radii or a box.
-/

namespace Svgio.Arc

open Real Spec

/-! ### Two points and a radius -/

theorem fixRadius_eq (p q : Pt ℝ) (r : ℝ) : fixRadius p q r = max r (Spec.dist p q / 2) := by
  unfold fixRadius
  simp only [distance_eq]
  split_ifs with h
  · rw [max_eq_right h.le]
  · rw [max_eq_left (not_lt.1 h)]

/-- the distance of the centre from the chord -/
noncomputable def apothem (p q : Pt ℝ) (R : ℝ) : ℝ := √(R ^ 2 - (Spec.dist p q / 2) ^ 2)

theorem centerAt_spec {p q : Pt ℝ} (h : p ≠ q) {R σ : ℝ} (hR : Spec.dist p q / 2 ≤ R) (hσ : σ ^ 2 = 1) :
    Spec.dist (centerAt p q R σ) p = R ∧ Spec.dist (centerAt p q R σ) q = R ∧
      ((centerAt p q R σ).x - p.x) * (q.y - p.y) - ((centerAt p q R σ).y - p.y) * (q.x - p.x) = -(σ * apothem p q R * Spec.dist p q) ∧
      (p.x - (centerAt p q R σ).x) * (q.y - (centerAt p q R σ).y) - (p.y - (centerAt p q R σ).y) * (q.x - (centerAt p q R σ).x) =
        σ * apothem p q R * Spec.dist p q := by
  have hd := dist_pos h
  have hL := dist_sq p q
  have hR0 : 0 ≤ R := by linarith
  have hh : apothem p q R ^ 2 = R ^ 2 - (Spec.dist p q / 2) ^ 2 := by
    unfold apothem
    rw [sq_sqrt]
    nlinarith
  have key : ∀ z : Pt ℝ, (z.x - (centerAt p q R σ).x) ^ 2 + (z.y - (centerAt p q R σ).y) ^ 2 = R ^ 2 → Spec.dist (centerAt p q R σ) z = R := by
    intro z hz
    unfold Spec.dist
    rw [hz, sqrt_sq hR0]
  unfold centerAt at *
  simp only [distance_eq] at *
  rw [show √(R ^ 2 - (Spec.dist p q / 2) ^ 2) = apothem p q R from rfl] at *
  generalize apothem p q R = H at *
  generalize Spec.dist p q = L at *
  have hL2 : (q.y - p.y) ^ 2 = L ^ 2 - (q.x - p.x) ^ 2 := by linarith
  refine ⟨key _ ?_, key _ ?_, ?_, ?_⟩
  · have e : ∀ x y : ℝ, (p.x - ((p.x + q.x) / 2 + x)) ^ 2 + (p.y - ((p.y + q.y) / 2 + y)) ^ 2 =
        ((q.x - p.x) ^ 2 + (q.y - p.y) ^ 2) / 4 + (q.x - p.x) * x + (q.y - p.y) * y + x ^ 2 + y ^ 2 := by intros; ring
    rw [e, ← hL]
    have e2 : (q.x - p.x) * (σ * (H * (p.y - q.y) / L)) + (q.y - p.y) * (σ * (H * (q.x - p.x) / L)) = 0 := by ring
    have e3 : (σ * (H * (p.y - q.y) / L)) ^ 2 + (σ * (H * (q.x - p.x) / L)) ^ 2 = H ^ 2 := by
      field_simp
      rw [hσ, hL]
      ring
    linear_combination e2 + e3 + hh
  · have e : ∀ x y : ℝ, (q.x - ((p.x + q.x) / 2 + x)) ^ 2 + (q.y - ((p.y + q.y) / 2 + y)) ^ 2 =
        ((q.x - p.x) ^ 2 + (q.y - p.y) ^ 2) / 4 - ((q.x - p.x) * x + (q.y - p.y) * y) + x ^ 2 + y ^ 2 := by intros; ring
    rw [e, ← hL]
    have e2 : (q.x - p.x) * (σ * (H * (p.y - q.y) / L)) + (q.y - p.y) * (σ * (H * (q.x - p.x) / L)) = 0 := by ring
    have e3 : (σ * (H * (p.y - q.y) / L)) ^ 2 + (σ * (H * (q.x - p.x) / L)) ^ 2 = H ^ 2 := by
      field_simp
      rw [hσ, hL]
      ring
    linear_combination -e2 + e3 + hh
  · field_simp
    linear_combination 2 * σ * H * hL
  · field_simp
    linear_combination -4 * L * σ * H * hL

theorem sin_turn {c p q : Pt ℝ} {r t w : ℝ} (hp : p = ⟨c.x + r * cos t, c.y + r * sin t⟩)
    (hq : q = ⟨c.x + r * cos (t + w), c.y + r * sin (t + w)⟩) :
    (p.x - c.x) * (q.y - c.y) - (p.y - c.y) * (q.x - c.x) = r ^ 2 * sin w := by
  rw [hp, hq]
  simp only [cos_add, sin_add]
  have := cos_sq_add_sin_sq t
  linear_combination r ^ 2 * sin w * this

/-- what the constructor does with two points and a radius -/
theorem ctor_radius {p q : Pt ℝ} (h : p ≠ q) (r : ℝ) (ccw : Option Bool) :
    ∃ x a c Δ, ctor { start := some p, stop := some q, r := some r, ccw := ccw } = .ok x ∧ x.data = some (p, q, a) ∧
      FollowsCircle (point false p q a) p q c (max r (Spec.dist p q / 2)) Δ ∧ |Δ| ≤ π ∧
      (direction ccw (decide (Spec.dist p q / 2 < r)) = true → 0 < Δ) ∧ (direction ccw (decide (Spec.dist p q / 2 < r)) = false → Δ < 0) ∧
      (r ≤ Spec.dist p q / 2 → |Δ| = π) := by
  have hpi := pi_pos
  have hd := dist_pos h
  obtain ⟨R, hR⟩ : ∃ R, R = max r (Spec.dist p q / 2) := ⟨_, rfl⟩
  have hR1 : Spec.dist p q / 2 ≤ R := hR ▸ le_max_right _ _
  have hR0 : 0 < R := by linarith
  have hap : 0 < apothem p q R ↔ Spec.dist p q / 2 < r := by
    unfold apothem
    rw [sqrt_pos]
    constructor
    · intro h1
      by_contra hc
      rw [max_eq_right (not_lt.1 hc)] at hR
      rw [hR, sub_self] at h1
      exact lt_irrefl _ h1
    · intro h1
      rw [max_eq_left h1.le] at hR
      rw [hR]
      nlinarith
  have hap0 : 0 ≤ apothem p q R := sqrt_nonneg _
  have hor : decide (Pt.orientation p (centerAt p q R 1) q = 1) = decide (Spec.dist p q / 2 < r) := by
    apply decide_eq_decide.2
    rw [orientation_one, (centerAt_spec h hR1 (by norm_num)).2.2.1, ← hap]
    constructor
    · intro h1
      by_contra hc
      nlinarith
    · intro h1
      nlinarith [mul_pos h1 hd]
  have hcw : ∃ σ : ℝ, σ ^ 2 = 1 ∧ centerOfRadius ccw p q r = .ok (centerAt p q R σ, decide (Spec.dist p q / 2 < r), R) ∧
      (Spec.dist p q / 2 < r → direction ccw (decide (Spec.dist p q / 2 < r)) = true → σ = 1) ∧
      (Spec.dist p q / 2 < r → direction ccw (decide (Spec.dist p q / 2 < r)) = false → σ = -1) := by
    unfold centerOfRadius
    simp only [fixRadius_eq, distance_eq, ← hR, hor]
    rw [if_neg hd.ne']
    by_cases h1 : Spec.dist p q / 2 < r
    · rcases ccw with _ | _ | _
      · refine ⟨1, by norm_num, ?_, fun _ _ => rfl, ?_⟩
        · simp [h1]
        · simp [direction, h1]
      · refine ⟨1, by norm_num, ?_, fun _ _ => rfl, ?_⟩
        · simp [h1]
        · simp [direction]
      · refine ⟨-1, by norm_num, ?_, ?_, fun _ _ => rfl⟩
        · simp [h1]
        · simp [direction]
    · refine ⟨-1, by norm_num, ?_, fun h => absurd h h1, fun h => absurd h h1⟩
      simp [h1]
  obtain ⟨σ, hσ, hc, hσ1, hσ2⟩ := hcw
  obtain ⟨k1, k2, -, k4⟩ := centerAt_spec h hR1 hσ
  generalize hcd : centerAt p q R σ = c at *
  obtain ⟨w, hw⟩ : ∃ w, w = sweepBetween ccw (decide (Spec.dist p q / 2 < r)) p q (circle c R 0) := ⟨_, rfl⟩
  obtain ⟨f1, ⟨t, ht, f2⟩, f3, f4⟩ := circle_between hR0 k1 k2 h ccw _ hw
  have hq := f2 1
  rw [f1.2.1, mul_one] at hq
  have hsin := sin_turn ht hq
  rw [k4] at hsin
  have hctor : ctor { start := some p, stop := some q, r := some r, ccw := ccw } =
      .ok ⟨some p, some q, c, some ⟨c.x + R, c.y⟩, some ⟨c.x, c.y + R⟩, some w⟩ := by
    rw [ctor_eq (c := c) (cw := decide (Spec.dist p q / 2 < r)) (sw := none) (r := some R) (by simp) (by
      change (do let y ← centerOfRadius ccw p q r; Except.ok (y.1, y.2.1, none, some y.2.2) : Except PyErr _) = _
      rw [hc]
      rfl)]
    change Except.ok (RawArc.mk (some p) (some q) c (some ⟨c.x + R, c.y⟩) (some ⟨c.x, c.y + R⟩)
      (some (sweepBetween ccw (decide (Spec.dist p q / 2 < r)) p q (circle c R 0)))) = _
    rw [← hw]
  have hflat : r ≤ Spec.dist p q / 2 → |w| = π := by
    intro h1
    have h2 : apothem p q R = 0 := by
      refine le_antisymm ?_ hap0
      by_contra hc
      exact absurd (hap.1 (not_le.1 hc)) (not_lt.2 h1)
    rw [h2, mul_zero, zero_mul] at hsin
    have h3 : sin w = 0 := by
      rcases mul_eq_zero.1 hsin.symm with h | h
      · exact absurd h (by positivity)
      · exact h
    cases hdir : direction ccw (decide (Spec.dist p q / 2 < r))
    · obtain ⟨b1, b2⟩ := f4 hdir
      have h4 : sin (w + π) = 0 := by rw [sin_add_pi, h3, neg_zero]
      rw [sin_eq_zero_iff_of_lt_of_lt (by linarith) (by linarith)] at h4
      rw [abs_of_neg b2]
      linarith
    · obtain ⟨b1, b2⟩ := f3 hdir
      have h4 : sin (w - π) = 0 := by rw [sin_sub_pi, h3, neg_zero]
      rw [sin_eq_zero_iff_of_lt_of_lt (by linarith) (by linarith)] at h4
      rw [abs_of_pos b1]
      linarith
  rw [← hR]
  refine ⟨_, circle c R w, c, w, hctor, rfl, f1, ?_, fun h => (f3 h).1, fun h => (f4 h).2, hflat⟩
  by_cases h1 : Spec.dist p q / 2 < r
  · have hh := hap.2 h1
    cases hdir : direction ccw (decide (Spec.dist p q / 2 < r))
    · obtain ⟨b1, b2⟩ := f4 hdir
      rw [hσ2 h1 hdir] at hsin
      rw [abs_of_neg b2]
      by_contra hc
      have h5 : 0 < sin (w + 2 * π) := sin_pos_of_pos_of_lt_pi (by linarith) (by linarith)
      rw [sin_add_two_pi] at h5
      have := mul_pos hh hd
      have : 0 < R ^ 2 * sin w := by positivity
      nlinarith
    · obtain ⟨b1, b2⟩ := f3 hdir
      rw [hσ1 h1 hdir] at hsin
      rw [abs_of_pos b1]
      by_contra hc
      have h5 : 0 < sin (w - π) := sin_pos_of_pos_of_lt_pi (by linarith) (by linarith)
      rw [sin_sub_pi] at h5
      have := mul_pos hh hd
      have : 0 < R ^ 2 * (-sin w) := by positivity
      nlinarith
  · exact (hflat (not_lt.1 h1)).le

/-- C90: `Arc(start=p, end=q, r=r, ccw=...)` is the arc of at most half a turn from `p` to `q` on a circle with radius `r` (enlarged to fit
the points if need be), in the direction of decreasing angles if `ccw` is True, and otherwise of increasing angles. -/
theorem C90_radius_partial {p q : Pt ℝ} (h : p ≠ q) (r : ℝ) (ccw : Option Bool) :
    ∃ x a c Δ, ctor { start := some p, stop := some q, r := some r, ccw := ccw } = .ok x ∧ x.data = some (p, q, a) ∧
      FollowsCircle (point false p q a) p q c (max r (Spec.dist p q / 2)) Δ ∧ |Δ| ≤ π ∧ (ccw = some true → Δ < 0) ∧
      (ccw = some false → 0 < Δ) ∧ (ccw = none → Spec.dist p q / 2 < r → 0 < Δ) := by
  obtain ⟨x, a, c, Δ, h1, h2, h3, h4, h5, h6, -⟩ := ctor_radius h r ccw
  refine ⟨x, a, c, Δ, h1, h2, h3, h4, ?_, ?_, ?_⟩
  · rintro rfl
    exact h6 rfl
  · rintro rfl
    exact h5 rfl
  · rintro rfl hr
    exact h5 (by simp [direction, hr])

/-- C90 fails for a half circle without `ccw`: it is in the direction of decreasing angles. -/
theorem C90_half_wrong {p q : Pt ℝ} (h : p ≠ q) {r : ℝ} (hr : r ≤ Spec.dist p q / 2) :
    ∃ x a c, ctor { start := some p, stop := some q, r := some r } = .ok x ∧ x.data = some (p, q, a) ∧
      FollowsCircle (point false p q a) p q c (Spec.dist p q / 2) (-π) := by
  obtain ⟨x, a, c, Δ, h1, h2, h3, -, -, h6, h7⟩ := ctor_radius h r none
  have h8 := h6 (by simp [direction, hr])
  have h9 := h7 hr
  rw [abs_of_neg h8] at h9
  have : Δ = -π := by linarith
  subst this
  rw [max_eq_right hr] at h3
  exact ⟨x, a, c, h1, h2, h3⟩

/-! ### A centre -/

/-- C91: `Arc(start=p, end=q, center=c, ccw=...)` for two points at the same distance from `c` is the arc of the circle around `c` from
`p` to `q`, in the direction of decreasing angles if `ccw` is True, and otherwise of increasing angles. -/
theorem C91_center_partial {p q c : Pt ℝ} (h : p ≠ q) (hc : Spec.dist c p = Spec.dist c q) (ccw : Option Bool) :
    ∃ x a Δ, ctor { start := some p, stop := some q, center := some c, ccw := ccw } = .ok x ∧ x.data = some (p, q, a) ∧
      FollowsCircle (point false p q a) p q c (Spec.dist c p) Δ ∧ |Δ| < 2 * π ∧ (ccw = some true → Δ < 0) ∧ (ccw ≠ some true → 0 < Δ) := by
  have hpi := pi_pos
  have hr : 0 < Spec.dist c p := by
    refine lt_of_le_of_ne (dist_nonneg c p) (fun e => h ?_)
    have z1 : c = p := by
      by_contra hc
      have := dist_pos hc
      linarith
    have z2 : c = q := by
      by_contra hc'
      have := dist_pos hc'
      linarith
    rw [← z1, z2]
  obtain ⟨R, hR⟩ : ∃ R, R = Spec.dist c p := ⟨_, rfl⟩
  obtain ⟨w, hw⟩ : ∃ w, w = sweepBetween ccw true p q (circle c R 0) := ⟨_, rfl⟩
  rw [← hR] at hr
  obtain ⟨f1, -, f3, f4⟩ := circle_between hr hR.symm (by rw [hR, hc]) h ccw true hw
  have hctor : ctor { start := some p, stop := some q, center := some c, ccw := ccw } =
      .ok ⟨some p, some q, c, some ⟨c.x + R, c.y⟩, some ⟨c.x, c.y + R⟩, some w⟩ := by
    rw [ctor_eq (c := c) (cw := true) (sw := none) (r := none) (by simp) rfl]
    change Except.ok (RawArc.mk (some p) (some q) c (some ⟨c.x + Pt.distance c p, c.y⟩) (some ⟨c.x, c.y + Pt.distance c p⟩)
      (some (sweepBetween ccw true p q (circle c (Pt.distance c p) 0)))) = _
    rw [distance_eq, ← hR, ← hw]
  rw [← hR]
  have hdir : direction ccw true = true ↔ ccw ≠ some true := by
    rcases ccw with _ | _ | _ <;> simp [direction]
  have hdir' : direction ccw true = false ↔ ccw = some true := by
    rcases ccw with _ | _ | _ <;> simp [direction]
  refine ⟨_, circle c R w, w, hctor, rfl, f1, ?_, fun h => (f4 (hdir'.2 h)).2, fun h => (f3 (hdir.2 h)).1⟩
  rw [abs_lt]
  by_cases h1 : ccw = some true
  · have := f4 (hdir'.2 h1)
    constructor <;> linarith [this.1, this.2]
  · have := f3 (hdir.2 h1)
    constructor <;> linarith [this.1, this.2]

/-- C91: `Arc(start=p, center=c, sweep=w)` is the arc from `p` that turns by `w` on the circle around `c`. -/
theorem C91_sweep {p c : Pt ℝ} (h : c ≠ p) (w : ℝ) :
    ∃ x q a, ctor { start := some p, center := some c, sweep := some w } = .ok x ∧ x.data = some (p, q, a) ∧
      FollowsCircle (point false p q a) p q c (Spec.dist c p) w := by
  obtain ⟨R, hR⟩ : ∃ R, R = Spec.dist c p := ⟨_, rfl⟩
  have hr : 0 < R := hR ▸ dist_pos h
  have hctor : ctor { start := some p, center := some c, sweep := some w } =
      .ok ⟨some p, some (pointAtT (circle c R 0) (endT (circle c R 0) p + w)), c, some ⟨c.x + R, c.y⟩, some ⟨c.x, c.y + R⟩, some w⟩ := by
    rw [ctor_eq (c := c) (cw := true) (sw := some w) (r := none) (by simp) rfl]
    change Except.ok (RawArc.mk (some p) (some (pointAtT (circle c (Pt.distance c p) 0) (endT (circle c (Pt.distance c p) 0) p + w))) c
      (some ⟨c.x + Pt.distance c p, c.y⟩) (some ⟨c.x, c.y + Pt.distance c p⟩) (some w)) = _
    rw [distance_eq, ← hR]
  refine ⟨_, _, circle c R w, hctor, rfl, ?_⟩
  rw [← hR]
  obtain ⟨s, hs⟩ := circle_param hr hR.symm
  rw [← circle_pointAtT (w := w) hr] at hs
  have h1 : pointAtT (circle c R w) (endT (circle c R w) p) = p := by
    have := endT_pointAtT (a := circle c R w) (by rw [circle_rx hr]; exact hr) (by rw [circle_ry hr]; exact hr) s
    rw [← hs] at this
    rw [pointAtT_congr _ this.1 this.2, hs]
  change FollowsCircle (point false p (pointAtT (circle c R w) (endT (circle c R w) p + w)) (circle c R w)) p
    (pointAtT (circle c R w) (endT (circle c R w) p + w)) c R w
  by_cases hw : w = 0
  · subst hw
    rw [add_zero, h1]
    have hp : ∀ u, point false p p (circle c R 0) u = p := by
      intro u
      unfold point
      rw [if_pos]
      simp [Pt.eq, sweepIsZero, circle, err]
    refine ⟨hp 0, hp 1, endT (circle c R 0) p, fun u _ _ => ?_⟩
    rw [hp, zero_mul, add_zero, ← circle_pointAtT (w := 0) hr, h1]
  · obtain ⟨k0, k1, k2⟩ := point_follows (a := circle c R w) (p := p) hw h1 rfl
    refine ⟨k0, k1, endT (circle c R w) p, fun u _ _ => ?_⟩
    exact (k2 u).trans (circle_pointAtT hr _)

/-- a centre and a start as the theorem asks for -/
example : (⟨1, 2⟩ : Pt ℝ) ≠ ⟨4, 6⟩ := by norm_num

/-- C91 fails for `Arc(end=q, center=c, sweep=w)`: the start stays None, and the end is replaced. -/
theorem C91_end_wrong :
    ∃ x, ctor { stop := some ⟨1, 0⟩, center := some ⟨0, 0⟩, sweep := some π } = .ok x ∧ x.start = none ∧ x.stop = some ⟨-1, 0⟩ := by
  rw [ctor_eq (c := ⟨0, 0⟩) (cw := true) (sw := some π) (r := none) (by simp) rfl]
  refine ⟨_, rfl, rfl, ?_⟩
  have e : Pt.distance (⟨0, 0⟩ : Pt ℝ) ⟨1, 0⟩ = 1 := by
    unfold Pt.distance
    norm_num
  change some (pointAtT (circle ⟨0, 0⟩ (Pt.distance (⟨0, 0⟩ : Pt ℝ) ⟨1, 0⟩) 0)
    (endT (circle ⟨0, 0⟩ (Pt.distance (⟨0, 0⟩ : Pt ℝ) ⟨1, 0⟩) 0) ⟨1, 0⟩ - π)) = _
  rw [e]
  have h0 : (⟨1, 0⟩ : Pt ℝ) = pointAtT (circle ⟨0, 0⟩ 1 0) 0 := by
    rw [circle_pointAtT one_pos]
    simp
  have h1 := endT_pointAtT (a := circle ⟨0, 0⟩ 1 0) (by rw [circle_rx one_pos]; exact one_pos) (by rw [circle_ry one_pos]; exact one_pos) 0
  rw [← h0] at h1
  rw [sub_eq_add_neg, pointAtT_add _ h1, circle_pointAtT one_pos]
  simp

/-! ### Two radii -/

/-- the parameters of an ellipse along the axes as the constructor sets them -/
def upright (c : Pt ℝ) (r s w : ℝ) : ArcData ℝ := { center := c, prx := ⟨c.x + r, c.y⟩, pry := ⟨c.x, c.y + s⟩, sweep := w }

theorem upright_rx {c : Pt ℝ} {r s w : ℝ} (hr : 0 < r) : rx (upright c r s w) = r := by
  rw [rx_eq]
  simp [upright, sqrt_sq hr.le]

theorem upright_ry {c : Pt ℝ} {r s w : ℝ} (hs : 0 < s) : ry (upright c r s w) = s := by
  rw [ry_eq]
  simp [upright, sqrt_sq hs.le]

theorem upright_pointAtT {c : Pt ℝ} {r s w : ℝ} (hr : 0 < r) (hs : 0 < s) (t : ℝ) :
    pointAtT (upright c r s w) t = ellipse c r s 0 t := by
  have h1 := rx_cos (upright c r s w)
  have h2 := rx_sin (upright c r s w)
  rw [upright_rx hr] at h1 h2
  have e1 : cos (rotation (upright c r s w)) = 1 := by
    have : r * cos (rotation (upright c r s w)) = r * 1 := by rw [h1]; simp [upright]
    exact mul_left_cancel₀ hr.ne' this
  have e2 : sin (rotation (upright c r s w)) = 0 := by
    have : r * sin (rotation (upright c r s w)) = r * 0 := by rw [h2]; simp [upright]
    exact mul_left_cancel₀ hr.ne' this
  rw [pointAtT_ellipse, upright_rx hr, upright_ry hs]
  unfold ellipse
  rw [e1, e2, cos_zero, sin_zero]
  rfl

/-- a given sweep that leads from one point to the other -/
theorem follows_given {a : ArcData ℝ} (ha : 0 < rx a) (hb : 0 < ry a) {p q c : Pt ℝ} {r s φ t : ℝ}
    (H : ∀ t, pointAtT a t = ellipse c r s φ t) (hw : a.sweep ≠ 0) (hp : p = ellipse c r s φ t) (hq : q = ellipse c r s φ (t + a.sweep)) :
    FollowsEllipse (point false p q a) p q c r s φ a.sweep := by
  rw [← H] at hp hq
  have := endT_pointAtT ha hb t
  rw [← hp] at this
  have h1 : pointAtT a (endT a p) = p := by rw [pointAtT_congr a this.1 this.2, hp]
  have h2 : pointAtT a (endT a p + a.sweep) = q := by rw [pointAtT_add a this, hq]
  obtain ⟨k0, k1, k2⟩ := point_follows hw h1 h2
  exact ⟨k0, k1, endT a p, fun u _ _ => by rw [k2, H]⟩

/-- C92: `Arc(start=p, end=q, rx=..., ry=..., scooped=...)` with the radii `|q.x - p.x|` and `|q.y - p.y|` is a quarter of an ellipse from
`p` to `q` around another corner of their box; it turns in the direction of increasing angles, or of decreasing ones if `scooped`. -/
theorem C92_quarter_partial {p q : Pt ℝ} (hx : p.x ≠ q.x) (hy : p.y ≠ q.y) (scooped : Option Bool) :
    ∃ x a c, ctor { start := some p, stop := some q, rx := some |q.x - p.x|, ry := some |q.y - p.y|, scooped := scooped } = .ok x ∧
      x.data = some (p, q, a) ∧ (c = ⟨p.x, q.y⟩ ∨ c = ⟨q.x, p.y⟩) ∧
      FollowsEllipse (point false p q a) p q c |q.x - p.x| |q.y - p.y| 0 (if scooped = some true then -(π / 2) else π / 2) := by
  have hpi := pi_pos
  have hx' : q.x - p.x ≠ 0 := sub_ne_zero.2 hx.symm
  have hy' : q.y - p.y ≠ 0 := sub_ne_zero.2 hy.symm
  have hr := abs_pos.2 hx'
  have hs := abs_pos.2 hy'
  obtain ⟨w, hw⟩ : ∃ w, w = if scooped = some true then -(π / 2) else π / 2 := ⟨_, rfl⟩
  have hw0 : w ≠ 0 := by
    rw [hw]
    split_ifs <;> linarith
  have hor : decide (Pt.orientation p ⟨p.x, q.y⟩ q = 1) = decide (0 < (q.x - p.x) * (q.y - p.y)) := by
    apply decide_eq_decide.2
    rw [orientation_one]
    simp only [sub_self, zero_mul, zero_sub, neg_neg_iff_pos]
    rw [mul_comm]
  obtain ⟨P, hP⟩ : ∃ P : Bool, P = decide ((0 < (q.x - p.x) * (q.y - p.y)) ↔ scooped ≠ some true) := ⟨_, rfl⟩
  have hcq : centerOfQuarter none scooped p q = (w, (if P = true then ⟨p.x, q.y⟩ else ⟨q.x, p.y⟩), P) := by
    unfold centerOfQuarter
    simp only [hor, hP]
    have e4 : tau / 4 = π / 2 := by unfold tau; ring
    rw [e4, hw]
    by_cases h1 : scooped = some true <;> by_cases h2 : 0 < (q.x - p.x) * (q.y - p.y) <;> simp [h1, h2]
  obtain ⟨c, hc⟩ : ∃ c : Pt ℝ, c = if P = true then ⟨p.x, q.y⟩ else ⟨q.x, p.y⟩ := ⟨_, rfl⟩
  rw [← hc] at hcq
  have hctor : ctor { start := some p, stop := some q, rx := some |q.x - p.x|, ry := some |q.y - p.y|, scooped := scooped } =
      .ok ⟨some p, some q, c, some ⟨c.x + |q.x - p.x|, c.y⟩, some ⟨c.x, c.y + |q.y - p.y|⟩, some w⟩ := by
    rw [ctor_eq (c := c) (cw := P) (sw := some w) (r := none) (by simp) (by
      change (Except.ok (let y := centerOfQuarter none scooped p q; (y.2.1, y.2.2, some y.1, none)) : Except PyErr _) = _
      rw [hcq])]
    rfl
  refine ⟨_, upright c |q.x - p.x| |q.y - p.y| w, c, hctor, rfl, ?_, ?_⟩
  · rw [hc]
    split_ifs
    · exact Or.inl rfl
    · exact Or.inr rfl
  have hax : (q.x - p.x) / |q.x - p.x| * |q.x - p.x| = q.x - p.x := div_mul_cancel₀ _ hr.ne'
  have hay : (q.y - p.y) / |q.y - p.y| * |q.y - p.y| = q.y - p.y := div_mul_cancel₀ _ hs.ne'
  have hsx : ((q.x - p.x) / |q.x - p.x|) ^ 2 = 1 := by rw [div_pow, sq_abs, div_self (pow_ne_zero 2 hx')]
  have hsy : ((q.y - p.y) / |q.y - p.y|) ^ 2 = 1 := by rw [div_pow, sq_abs, div_self (pow_ne_zero 2 hy')]
  have hsgn : (q.x - p.x) / |q.x - p.x| = (if 0 < (q.x - p.x) * (q.y - p.y) then 1 else -1) * ((q.y - p.y) / |q.y - p.y|) := by
    rcases lt_or_gt_of_ne hx' with h1 | h1 <;> rcases lt_or_gt_of_ne hy' with h2 | h2
    · rw [if_pos (mul_pos_of_neg_of_neg h1 h2), abs_of_neg h1, abs_of_neg h2, div_neg, div_neg, div_self hx', div_self hy']; ring
    · rw [if_neg (not_lt.2 (mul_neg_of_neg_of_pos h1 h2).le), abs_of_neg h1, abs_of_pos h2, div_neg, div_self hx', div_self hy']; ring
    · rw [if_neg (not_lt.2 (mul_neg_of_pos_of_neg h1 h2).le), abs_of_pos h1, abs_of_neg h2, div_neg, div_self hx', div_self hy']; ring
    · rw [if_pos (mul_pos h1 h2), abs_of_pos h1, abs_of_pos h2, div_self hx', div_self hy']; ring
  generalize (q.x - p.x) / |q.x - p.x| = X at *
  generalize (q.y - p.y) / |q.y - p.y| = Y at *
  generalize |q.x - p.x| = A at *
  generalize |q.y - p.y| = B at *
  have hcw : cos w = 0 := by rw [hw]; split_ifs <;> simp
  have hsw : sin w = if scooped = some true then -1 else 1 := by rw [hw]; split_ifs <;> simp
  rw [← hw]
  have hfin : ∀ t, p = ellipse c A B 0 t → q = ellipse c A B 0 (t + w) →
      FollowsEllipse (point false p q (upright c A B w)) p q c A B 0 w := fun t e1 e2 =>
    follows_given (a := upright c A B w) (by rw [upright_rx hr]; exact hr) (by rw [upright_ry hs]; exact hs)
      (fun t => upright_pointAtT hr hs t) hw0 e1 e2
  by_cases hPc : P = true
  · rw [if_pos hPc] at hc
    obtain ⟨t, t1, t2⟩ := exists_param (x := 0) (y := -Y) (by rw [neg_sq, hsy]; ring)
    refine hfin t ?_ ?_
    · unfold ellipse
      rw [t1, t2, cos_zero, sin_zero, hc]
      cases p
      simp only [] at hay ⊢
      congr 1
      · ring
      · linear_combination hay
    · unfold ellipse
      rw [cos_add, sin_add, t1, t2, hcw, hsw, cos_zero, sin_zero, hc]
      have hXY : X = (if scooped = some true then -1 else 1) * Y := by
        rw [hsgn]
        rw [hP, decide_eq_true_iff] at hPc
        by_cases h1 : scooped = some true
        · rw [if_pos h1, if_neg (fun h => hPc.1 h h1)]
        · rw [if_neg h1, if_pos (hPc.2 h1)]
      cases q
      simp only [] at hax ⊢
      congr 1
      · linear_combination A * hXY - hax
      · ring
  · rw [if_neg hPc] at hc
    obtain ⟨t, t1, t2⟩ := exists_param (x := -X) (y := 0) (by rw [neg_sq, hsx]; ring)
    refine hfin t ?_ ?_
    · unfold ellipse
      rw [t1, t2, cos_zero, sin_zero, hc]
      cases p
      simp only [] at hax ⊢
      congr 1
      · linear_combination hax
      · ring
    · unfold ellipse
      rw [cos_add, sin_add, t1, t2, hcw, hsw, cos_zero, sin_zero, hc]
      have hXY : X = -(if scooped = some true then -1 else 1) * Y := by
        rw [hsgn]
        rw [hP, decide_eq_true_iff] at hPc
        by_cases h1 : scooped = some true
        · rw [if_pos h1]
          by_cases h2 : 0 < (q.x - p.x) * (q.y - p.y)
          · rw [if_pos h2]; ring
          · exact absurd ⟨fun h => absurd h h2, fun h => absurd h1 h⟩ hPc
        · rw [if_neg h1]
          by_cases h2 : 0 < (q.x - p.x) * (q.y - p.y)
          · exact absurd ⟨fun _ => h1, fun _ => h2⟩ hPc
          · rw [if_neg h2]
      have hs2 : (if scooped = some true then (-1 : ℝ) else 1) ^ 2 = 1 := by split_ifs <;> norm_num
      cases q
      simp only [] at hay ⊢
      congr 1
      · ring
      · linear_combination (if scooped = some true then (-1 : ℝ) else 1) * B * hXY - hay - Y * B * hs2

/-- points as the theorem asks for -/
example : (⟨0, 1⟩ : Pt ℝ).x ≠ (⟨3, 5⟩ : Pt ℝ).x ∧ (⟨0, 1⟩ : Pt ℝ).y ≠ (⟨3, 5⟩ : Pt ℝ).y := by norm_num

/-- C92 fails with `ccw=True`: the arc of `Arc(start=0, end=1+1j, rx=1, ry=1, ccw=True)` turns away from its end. -/
theorem C92_ccw_wrong : ∃ x a, ctor { start := some ⟨0, 0⟩, stop := some ⟨1, 1⟩, rx := some 1, ry := some 1, ccw := some true } = .ok x ∧
    x.data = some (⟨0, 0⟩, ⟨1, 1⟩, a) ∧ ∀ u, 0 < u → u < 1 → (point false ⟨0, 0⟩ ⟨1, 1⟩ a u).y < 0 := by
  have hpi := pi_pos
  have hcq : centerOfQuarter (some true) none ⟨0, 0⟩ ⟨1, 1⟩ = (π / 2, ⟨1, 0⟩, true) := by
    have hor : Pt.orientation (⟨0, 0⟩ : Pt ℝ) ⟨0, 1⟩ ⟨1, 1⟩ = 1 := by rw [orientation_one]; norm_num
    have e4 : tau / 4 = π / 2 := by unfold tau; ring
    unfold centerOfQuarter
    simp only [hor, e4]
    simp
  rw [ctor_eq (c := ⟨1, 0⟩) (cw := true) (sw := some (π / 2)) (r := none) (by simp) (by
    change (Except.ok (let y := centerOfQuarter (some true) none ⟨0, 0⟩ ⟨1, 1⟩; (y.2.1, y.2.2, some y.1, none)) : Except PyErr _) = _
    rw [hcq])]
  refine ⟨_, circle ⟨1, 0⟩ 1 (π / 2), rfl, rfl, fun u h0 h1 => ?_⟩
  have hz : sweepIsZero false (circle ⟨1, 0⟩ 1 (π / 2)).sweep = false := by
    simp [sweepIsZero, circle, hpi.ne']
  have hp : (⟨0, 0⟩ : Pt ℝ) = pointAtT (circle ⟨1, 0⟩ 1 (π / 2)) π := by
    rw [circle_pointAtT one_pos]
    simp
  have he := endT_pointAtT (a := circle ⟨1, 0⟩ 1 (π / 2)) (by rw [circle_rx one_pos]; exact one_pos)
    (by rw [circle_ry one_pos]; exact one_pos) π
  rw [← hp] at he
  unfold point
  rw [hz, Bool.and_false, if_neg (by simp), if_neg h0.ne', if_neg h1.ne, pointAtT_add _ he, circle_pointAtT one_pos]
  change 0 + 1 * sin (π + π / 2 * u) < 0
  rw [add_comm π, sin_add_pi]
  have : 0 < sin (π / 2 * u) := sin_pos_of_pos_of_lt_pi (by positivity) (by nlinarith)
  linarith

/-! ### Boxes and turned ellipses -/

theorem onEllipse_param {c p : Pt ℝ} {r s φ : ℝ} (hr : 0 < r) (hs : 0 < s) (h : OnEllipse c r s φ p) : ∃ t, p = ellipse c r s φ t := by
  obtain ⟨t, h1, h2⟩ := exists_param h
  refine ⟨t, ?_⟩
  have hφ := cos_sq_add_sin_sq φ
  unfold ellipse
  rw [h1, h2, mul_div_cancel₀ _ hr.ne', mul_div_cancel₀ _ hs.ne']
  cases p
  simp only []
  congr 1
  · linear_combination -(_ - c.x) * hφ
  · linear_combination -(_ - c.y) * hφ

/-- the arc built between two points of an ellipse -/
theorem ellipse_between {c p q prx pry : Pt ℝ} {r s φ w : ℝ} (hr : 0 < r) (hs : 0 < s) (ha : rx ⟨c, prx, pry, 0⟩ = r)
    (hb : ry ⟨c, prx, pry, 0⟩ = s) (H : ∀ t, pointAtT ⟨c, prx, pry, 0⟩ t = ellipse c r s φ t) (hp : OnEllipse c r s φ p)
    (hq : OnEllipse c r s φ q) (hne : p ≠ q) (ccw : Option Bool) (hw : w = sweepBetween ccw true p q ⟨c, prx, pry, 0⟩) :
    FollowsEllipse (point false p q ⟨c, prx, pry, w⟩) p q c r s φ w ∧ |w| < 2 * π ∧ (ccw = some true → w < 0) ∧
      (ccw ≠ some true → 0 < w) := by
  have hpi := pi_pos
  obtain ⟨t1, e1⟩ := onEllipse_param hr hs hp
  obtain ⟨t2, e2⟩ := onEllipse_param hr hs hq
  rw [← H] at e1 e2
  obtain ⟨h1, h2, h3, h4⟩ := sweepBetween_spec (by rw [ha]; exact hr) (by rw [hb]; exact hs) e1 e2 hne ccw true
  rw [← hw] at h2 h3 h4
  have hdir : direction ccw true = true ↔ ccw ≠ some true := by
    rcases ccw with _ | _ | _ <;> simp [direction]
  have hdir' : direction ccw true = false ↔ ccw = some true := by
    rcases ccw with _ | _ | _ <;> simp [direction]
  have hw0 : w ≠ 0 := by
    by_cases h : ccw = some true
    · exact (h4 (hdir'.2 h)).2.ne
    · exact (h3 (hdir.2 h)).1.ne'
  obtain ⟨k0, k1, k2⟩ := point_follows (a := ⟨c, prx, pry, w⟩) (p := p) (q := q) hw0 h1 h2
  refine ⟨⟨k0, k1, endT ⟨c, prx, pry, w⟩ p, fun u _ _ => (k2 u).trans (H _)⟩, ?_, fun h => (h4 (hdir'.2 h)).2,
    fun h => (h3 (hdir.2 h)).1⟩
  rw [abs_lt]
  by_cases h : ccw = some true
  · have := h4 (hdir'.2 h)
    constructor <;> linarith [this.1, this.2]
  · have := h3 (hdir.2 h)
    constructor <;> linarith [this.1, this.2]

/-- C93: `Arc(left=..., right=..., top=..., bottom=..., start=p, end=q, ccw=...)` for points on the ellipse that fills this box is the arc
of that ellipse from `p` to `q`, in the direction of decreasing angles if `ccw` is True, and otherwise of increasing angles. -/
theorem C93_box_partial {l r t b : ℝ} (hlr : l < r) (htb : t < b) {p q : Pt ℝ} (hne : p ≠ q)
    (hp : OnEllipse ⟨(l + r) / 2, (t + b) / 2⟩ ((r - l) / 2) ((b - t) / 2) 0 p)
    (hq : OnEllipse ⟨(l + r) / 2, (t + b) / 2⟩ ((r - l) / 2) ((b - t) / 2) 0 q) (ccw : Option Bool) :
    ∃ x a Δ, ctor { left := some l, right := some r, top := some t, bottom := some b, start := some p, stop := some q, ccw := ccw } = .ok x ∧
      x.data = some (p, q, a) ∧ FollowsEllipse (point false p q a) p q ⟨(l + r) / 2, (t + b) / 2⟩ ((r - l) / 2) ((b - t) / 2) 0 Δ ∧
      |Δ| < 2 * π ∧ (ccw = some true → Δ < 0) ∧ (ccw ≠ some true → 0 < Δ) := by
  have h1 : 0 < (r - l) / 2 := by linarith
  have h2 : 0 < (b - t) / 2 := by linarith
  obtain ⟨f1, f2, f3, f4⟩ := ellipse_between (c := ⟨(l + r) / 2, (t + b) / 2⟩) (prx := ⟨(l + r) / 2 + (r - l) / 2, (t + b) / 2⟩)
    (pry := ⟨(l + r) / 2, (t + b) / 2 + (b - t) / 2⟩) h1 h2 (upright_rx (c := ⟨(l + r) / 2, (t + b) / 2⟩) h1)
    (upright_ry (c := ⟨(l + r) / 2, (t + b) / 2⟩) h2) (fun u => upright_pointAtT (c := ⟨(l + r) / 2, (t + b) / 2⟩) h1 h2 u) hp hq hne ccw rfl
  exact ⟨_, _, _, ctor_eq (c := ⟨(l + r) / 2, (t + b) / 2⟩) (cw := true) (sw := none) (r := none) (by simp) rfl, rfl, f1, f2, f3, f4⟩

/-- the ellipse with turned axes -/
theorem turned_params {c : Pt ℝ} {r s φ : ℝ} (hr : 0 < r) (hs : 0 < s) :
    rx ⟨c, polar c φ r, polar c (φ + tau / 4) s, 0⟩ = r ∧ ry ⟨c, polar c φ r, polar c (φ + tau / 4) s, 0⟩ = s ∧
      ∀ t, pointAtT ⟨c, polar c φ r, polar c (φ + tau / 4) s, 0⟩ t = ellipse c r s φ t := by
  have hφ := cos_sq_add_sin_sq φ
  have e4 : φ + tau / 4 = φ + π / 2 := by unfold tau; ring
  have e1 : rx ⟨c, polar c φ r, polar c (φ + tau / 4) s, 0⟩ = r := by
    rw [rx_eq]
    simp only [polar]
    rw [← sqrt_sq hr.le]
    congr 1
    rw [sqrt_sq hr.le]
    linear_combination r ^ 2 * hφ
  have e2 : ry ⟨c, polar c φ r, polar c (φ + tau / 4) s, 0⟩ = s := by
    rw [ry_eq]
    simp only [polar, e4, cos_add_pi_div_two, sin_add_pi_div_two]
    rw [← sqrt_sq hs.le]
    congr 1
    rw [sqrt_sq hs.le]
    linear_combination s ^ 2 * hφ
  refine ⟨e1, e2, fun t => ?_⟩
  have h1 := rx_cos ⟨c, polar c φ r, polar c (φ + tau / 4) s, 0⟩
  have h2 := rx_sin ⟨c, polar c φ r, polar c (φ + tau / 4) s, 0⟩
  rw [e1] at h1 h2
  rw [pointAtT_ellipse, e1, e2]
  generalize rotation ⟨c, polar c φ r, polar c (φ + tau / 4) s, 0⟩ = ρ at *
  have k1 : cos ρ = cos φ := by
    refine mul_left_cancel₀ hr.ne' ?_
    rw [h1]
    simp only [polar]
    ring
  have k2 : sin ρ = sin φ := by
    refine mul_left_cancel₀ hr.ne' ?_
    rw [h2]
    simp only [polar]
    ring
  unfold ellipse
  rw [k1, k2]

/-- C93: `Arc(center=c, rx=r, ry=s, rotation=φ, start=p, end=q, ccw=...)` for points on the ellipse with these parameters is the arc of
that ellipse from `p` to `q`, in the direction of decreasing angles if `ccw` is True, and otherwise of increasing angles. -/
theorem C93_turned_partial {c : Pt ℝ} {r s φ : ℝ} (hr : 0 < r) (hs : 0 < s) {p q : Pt ℝ} (hne : p ≠ q) (hp : OnEllipse c r s φ p)
    (hq : OnEllipse c r s φ q) (ccw : Bool) :
    ∃ x a Δ, ctor { center := some c, rx := some r, ry := some s, rotation := some φ, start := some p, stop := some q, ccw := some ccw } = .ok x ∧
      x.data = some (p, q, a) ∧ FollowsEllipse (point false p q a) p q c r s φ Δ ∧ |Δ| < 2 * π ∧ (ccw = true → Δ < 0) ∧
      (ccw = false → 0 < Δ) := by
  obtain ⟨e1, e2, e3⟩ := turned_params (c := c) (φ := φ) hr hs
  obtain ⟨f1, f2, f3, f4⟩ := ellipse_between hr hs e1 e2 e3 hp hq hne (some ccw) rfl
  refine ⟨_, _, _, ctor_eq (c := c) (cw := true) (sw := none) (r := none) (by simp [CtorArgs.count]) rfl, rfl, f1, f2, ?_, ?_⟩
  · rintro rfl
    exact f3 rfl
  · rintro rfl
    exact f4 (by simp)

/-- C93 fails without `ccw`: six keywords with `rotation` among them are taken for the complex form, and there is an exception. -/
theorem C93_six_wrong (c : Pt ℝ) (r s φ : ℝ) (p q : Pt ℝ) :
    ctor { center := some c, rx := some r, ry := some s, rotation := some φ, start := some p, stop := some q } = .error .typeError := by
  unfold ctor
  rw [if_pos (by simp [CtorArgs.count])]

/-- two points of an ellipse in a box meet the hypotheses of C93 -/
example : OnEllipse ⟨(0 + 4) / 2, (0 + 2) / 2⟩ ((4 - 0) / 2) ((2 - 0) / 2) 0 ⟨4, 1⟩ ∧
    OnEllipse ⟨(0 + 4) / 2, (0 + 2) / 2⟩ ((4 - 0) / 2) ((2 - 0) / 2) 0 ⟨2, 2⟩ := by
  norm_num [OnEllipse]

/-- two points at the same distance from a centre meet the hypotheses of C91 -/
example : (⟨3, 4⟩ : Pt ℝ) ≠ ⟨0, -5⟩ ∧ Spec.dist ⟨0, 0⟩ ⟨3, 4⟩ = Spec.dist ⟨0, 0⟩ ⟨0, -5⟩ := by
  norm_num [Spec.dist]

end Svgio.Arc
