import Verif.Props.Arc

/-!
C62, C79: arcs under transforms.
-/

namespace Svgio.Arc

open Real Spec

/-- the point by the axis vector and the ratio of the radii -/
theorem pointAtT_axis {a : ArcData ℝ} (ha : 0 < rx a) (t : ℝ) : pointAtT a t =
    ⟨a.center.x + (cos t * (a.prx.x - a.center.x) - ry a / rx a * sin t * (a.prx.y - a.center.y)),
     a.center.y + (cos t * (a.prx.y - a.center.y) + ry a / rx a * sin t * (a.prx.x - a.center.x))⟩ := by
  rw [← rx_cos a, ← rx_sin a]
  simp only [pointAtT]
  congr 1 <;> field_simp <;> ring

/-- the axes from the centre are perpendicular, as they are for every arc the library computes itself -/
def Perpendicular (a : ArcData ℝ) : Prop :=
  (a.prx.x - a.center.x) * (a.pry.x - a.center.x) + (a.prx.y - a.center.y) * (a.pry.y - a.center.y) = 0

/-- the code flips the sweep, or not, as the orientation of the matrix asks for -/
def SignsRight (m : Mat ℝ) : Prop :=
  (0 < m.determinant ∧ (m.a < 0 ↔ m.d < 0)) ∨ (m.determinant < 0 ∧ ¬(m.a < 0 ↔ m.d < 0))

/-- the sign of the sweep after `*=` -/
theorem imulArc_sweep (m : Mat ℝ) (a : ArcData ℝ) :
    (Seg.imulArc m a).sweep = if (m.a < 0 ↔ m.d < 0) then a.sweep else -a.sweep := by
  unfold Seg.imulArc
  by_cases h1 : m.a < 0 <;> by_cases h2 : m.d < 0 <;> simp [h1, h2]

theorem rx_pos_iff (a : ArcData ℝ) : 0 < rx a ↔ 0 < (a.prx.x - a.center.x) ^ 2 + (a.prx.y - a.center.y) ^ 2 := by
  rw [rx_eq, Real.sqrt_pos]

theorem ry_pos_iff (a : ArcData ℝ) : 0 < ry a ↔ 0 < (a.pry.x - a.center.x) ^ 2 + (a.pry.y - a.center.y) ^ 2 := by
  rw [ry_eq, Real.sqrt_pos]

theorem pos_image {a b c d x y : ℝ} (hdet : a * d - c * b ≠ 0) (h : 0 < x ^ 2 + y ^ 2) :
    0 < (x * a + y * c) ^ 2 + (x * b + y * d) ^ 2 := by
  by_contra hc
  have h1 : x * a + y * c = 0 := by nlinarith [sq_nonneg (x * a + y * c), sq_nonneg (x * b + y * d)]
  have h2 : x * b + y * d = 0 := by nlinarith [sq_nonneg (x * a + y * c), sq_nonneg (x * b + y * d)]
  have hx : x * (a * d - c * b) = 0 := by linear_combination d * h1 - c * h2
  have hy : y * (a * d - c * b) = 0 := by linear_combination -b * h1 + a * h2
  have hx0 : x = 0 := (mul_eq_zero.mp hx).resolve_right hdet
  have hy0 : y = 0 := (mul_eq_zero.mp hy).resolve_right hdet
  rw [hx0, hy0] at h
  norm_num at h

/-- perpendicular vectors `u`, `v` whose images are perpendicular: the image of `u` turned by a right angle is the turned image of
`u`, times a factor that has the sign of the determinant -/
theorem turned_image {ux uy vx vy a b c d : ℝ} (hD : a * d - c * b ≠ 0) (hu : 0 < ux ^ 2 + uy ^ 2) (hv : 0 < vx ^ 2 + vy ^ 2)
    (hp : ux * vx + uy * vy = 0)
    (hp' : (ux * a + uy * c) * (vx * a + vy * c) + (ux * b + uy * d) * (vx * b + vy * d) = 0) :
    ∃ μ, -uy * a + ux * c = -(μ * (ux * b + uy * d)) ∧ -uy * b + ux * d = μ * (ux * a + uy * c) ∧
      (if 0 < a * d - c * b then 1 else -1) * μ = |μ| ∧
      ((vx * a + vy * c) ^ 2 + (vx * b + vy * d) ^ 2) * (ux ^ 2 + uy ^ 2) =
        μ ^ 2 * ((vx ^ 2 + vy ^ 2) * ((ux * a + uy * c) ^ 2 + (ux * b + uy * d) ^ 2)) := by
  have hA : 0 < (ux * a + uy * c) ^ 2 + (ux * b + uy * d) ^ 2 := pos_image hD hu
  set X := ux * a + uy * c with hX
  set Y := ux * b + uy * d with hY
  set κ := (ux * vy - uy * vx) / (ux ^ 2 + uy ^ 2) with hκ
  have hκm : κ * (ux ^ 2 + uy ^ 2) = ux * vy - uy * vx := by rw [hκ]; field_simp
  have hv1 : vx = -(κ * uy) := by
    apply mul_right_cancel₀ hu.ne'
    linear_combination uy * hκm + ux * hp
  have hv2 : vy = κ * ux := by
    apply mul_right_cancel₀ hu.ne'
    linear_combination -ux * hκm + uy * hp
  have hκ0 : κ ≠ 0 := by
    intro h
    rw [hv1, hv2, h] at hv
    norm_num at hv
  set P := -uy * a + ux * c with hP
  set Q := -uy * b + ux * d with hQ
  have hperp : X * P + Y * Q = 0 := by
    have : κ * (X * P + Y * Q) = 0 := by
      rw [hv1, hv2] at hp'
      linear_combination hp'
    exact (mul_eq_zero.mp this).resolve_left hκ0
  set μ := (a * d - c * b) * (ux ^ 2 + uy ^ 2) / (X ^ 2 + Y ^ 2) with hμ
  have hcross : X * Q - Y * P = (a * d - c * b) * (ux ^ 2 + uy ^ 2) := by
    rw [hX, hY, hP, hQ]; ring
  have hμm : μ * (X ^ 2 + Y ^ 2) = X * Q - Y * P := by rw [hcross, hμ]; field_simp
  have hP1 : P = -(μ * Y) := by
    apply mul_right_cancel₀ hA.ne'
    linear_combination Y * hμm + X * hperp
  have hQ1 : Q = μ * X := by
    apply mul_right_cancel₀ hA.ne'
    linear_combination -X * hμm + Y * hperp
  refine ⟨μ, hP1, hQ1, ?_, ?_⟩
  · rcases lt_or_gt_of_ne hD with h | h
    · rw [if_neg (not_lt.mpr h.le)]
      have hμneg : μ < 0 := by
        rw [hμ]; exact div_neg_of_neg_of_pos (mul_neg_of_neg_of_pos h hu) hA
      rw [abs_of_neg hμneg]; ring
    · rw [if_pos h]
      have hμpos : 0 < μ := by rw [hμ]; positivity
      rw [abs_of_pos hμpos]; ring
  · have z1 : vx * a + vy * c = κ * P := by rw [hv1, hv2, hP]; ring
    have z2 : vx * b + vy * d = κ * Q := by rw [hv1, hv2, hQ]; ring
    rw [z1, z2, hP1, hQ1]
    have z3 : vx ^ 2 + vy ^ 2 = κ ^ 2 * (ux ^ 2 + uy ^ 2) := by rw [hv1, hv2]; ring
    rw [z3]
    ring

/-- the ratio of the radii after a transform -/
theorem ratio_image {r s r' s' U V U' V' μ : ℝ} (hr : 0 < r) (hs : 0 < s) (hr' : 0 < r') (hs' : 0 < s') (h1 : r ^ 2 = U) (h2 : s ^ 2 = V)
    (h3 : r' ^ 2 = U') (h4 : s' ^ 2 = V') (h : V' * U = μ ^ 2 * (V * U')) : s' / r' = |μ| * (s / r) := by
  have : (s' * r) ^ 2 = (|μ| * (s * r')) ^ 2 := by
    rw [mul_pow, mul_pow, mul_pow, sq_abs, h1, h2, h3, h4, h]
  have e := (pow_left_inj₀ (by positivity) (by positivity) two_ne_zero).mp this
  field_simp
  linear_combination e

/-- the transformed ellipse is the ellipse of the transformed arc, run through in the direction of the determinant -/
theorem pointAtT_imul {m : Mat ℝ} {a : ArcData ℝ} (ha : 0 < rx a) (hb : 0 < ry a) (hp : Perpendicular a)
    (hp' : Perpendicular (Seg.imulArc m a)) (hdet : m.determinant ≠ 0) (t : ℝ) :
    0 < rx (Seg.imulArc m a) ∧ 0 < ry (Seg.imulArc m a) ∧
    m.pointInMatrixSpace (pointAtT a t) =
      pointAtT (Seg.imulArc m a) ((if 0 < m.determinant then 1 else -1) * t) := by
  have hu := (rx_pos_iff a).mp ha
  have hv := (ry_pos_iff a).mp hb
  have e1 : (Seg.imulArc m a).center = m.pointInMatrixSpace a.center := rfl
  have e2 : (Seg.imulArc m a).prx = m.pointInMatrixSpace a.prx := rfl
  have e3 : (Seg.imulArc m a).pry = m.pointInMatrixSpace a.pry := rfl
  have hX' : (Seg.imulArc m a).prx.x - (Seg.imulArc m a).center.x =
      (a.prx.x - a.center.x) * m.a + (a.prx.y - a.center.y) * m.c := by
    rw [e1, e2]; simp only [Mat.pointInMatrixSpace]; ring
  have hY' : (Seg.imulArc m a).prx.y - (Seg.imulArc m a).center.y =
      (a.prx.x - a.center.x) * m.b + (a.prx.y - a.center.y) * m.d := by
    rw [e1, e2]; simp only [Mat.pointInMatrixSpace]; ring
  have hZ' : (Seg.imulArc m a).pry.x - (Seg.imulArc m a).center.x =
      (a.pry.x - a.center.x) * m.a + (a.pry.y - a.center.y) * m.c := by
    rw [e1, e3]; simp only [Mat.pointInMatrixSpace]; ring
  have hW' : (Seg.imulArc m a).pry.y - (Seg.imulArc m a).center.y =
      (a.pry.x - a.center.x) * m.b + (a.pry.y - a.center.y) * m.d := by
    rw [e1, e3]; simp only [Mat.pointInMatrixSpace]; ring
  have hD : m.a * m.d - m.c * m.b ≠ 0 := hdet
  have ha' : 0 < rx (Seg.imulArc m a) := by rw [rx_pos_iff, hX', hY']; exact pos_image hD hu
  have hb' : 0 < ry (Seg.imulArc m a) := by rw [ry_pos_iff, hZ', hW']; exact pos_image hD hv
  refine ⟨ha', hb', ?_⟩
  unfold Perpendicular at hp hp'
  rw [hX', hY', hZ', hW'] at hp'
  obtain ⟨μ, hP, hQ, hσ, hk⟩ := turned_image hD hu hv hp hp'
  have hratio := ratio_image ha hb ha' hb' (by rw [rx_eq, Real.sq_sqrt hu.le]) (by rw [ry_eq, Real.sq_sqrt hv.le])
    (by rw [rx_eq, hX', hY', Real.sq_sqrt (pos_image hD hu).le]) (by rw [ry_eq, hZ', hW', Real.sq_sqrt (pos_image hD hv).le]) hk
  rw [pointAtT_axis ha, pointAtT_axis ha', hX', hY', e1, hratio, ← hσ]
  have hct : cos ((if 0 < m.determinant then 1 else -1) * t) = cos t := by
    split_ifs
    · rw [one_mul]
    · rw [neg_one_mul, cos_neg]
  have hst : sin ((if 0 < m.determinant then 1 else -1) * t) = (if 0 < m.a * m.d - m.c * m.b then 1 else -1) * sin t := by
    unfold Mat.determinant
    split_ifs
    · rw [one_mul, one_mul]
    · rw [neg_one_mul, sin_neg, neg_one_mul]
  have hss : ((if 0 < m.a * m.d - m.c * m.b then 1 else -1) : ℝ) * (if 0 < m.a * m.d - m.c * m.b then 1 else -1) = 1 := by
    split_ifs <;> norm_num
  rw [hct, hst]
  simp only [Mat.pointInMatrixSpace]
  generalize ((if 0 < m.a * m.d - m.c * m.b then 1 else -1) : ℝ) = σ at hss
  generalize a.prx.x - a.center.x = ux at *
  generalize a.prx.y - a.center.y = uy at *
  generalize ry a / rx a = k at *
  clear hk hratio hσ
  congr 1
  · linear_combination k * sin t * hP + μ * k * sin t * (ux * m.b + uy * m.d) * hss
  · linear_combination k * sin t * hQ - μ * k * sin t * (ux * m.a + uy * m.c) * hss

/-- C79: an arc that starts on its ellipse, transformed by a matrix that keeps its axes perpendicular and whose orientation the
code recognizes by the signs of `a` and `d`, draws the transformed curve. -/
theorem C79_transform_partial {m : Mat ℝ} {p q : Pt ℝ} {a : ArcData ℝ} {t : ℝ} (ha : 0 < rx a) (hb : 0 < ry a)
    (hp : Perpendicular a) (hp' : Perpendicular (Seg.imulArc m a)) (hm : SignsRight m) (hs : p = pointAtT a t)
    {isAngle isAngle' : Bool} (h1 : (p.eq q && sweepIsZero isAngle a.sweep) = false)
    (h2 : ((m.pointInMatrixSpace p).eq (m.pointInMatrixSpace q) && sweepIsZero isAngle' (Seg.imulArc m a).sweep) = false) (u : ℝ) :
    point isAngle' (m.pointInMatrixSpace p) (m.pointInMatrixSpace q) (Seg.imulArc m a) u =
      m.pointInMatrixSpace (point isAngle p q a u) := by
  have hdet : m.determinant ≠ 0 := by
    rcases hm with h | h
    · exact h.1.ne'
    · exact h.1.ne
  obtain ⟨ha', hb', hpt⟩ := pointAtT_imul ha hb hp hp' hdet t
  have hpt' := fun w => (pointAtT_imul ha hb hp hp' hdet w).2.2
  set σ : ℝ := (if 0 < m.determinant then 1 else -1) with hσ
  have hsw : (Seg.imulArc m a).sweep = σ * a.sweep := by
    rw [imulArc_sweep, hσ]
    rcases hm with h | h
    · rw [if_pos h.2, if_pos h.1, one_mul]
    · rw [if_neg h.2, if_neg (not_lt.mpr h.1.le), neg_one_mul]
  unfold point
  rw [h1, h2]
  simp only [Bool.false_eq_true, if_false]
  split_ifs
  · rfl
  · rfl
  · rw [hpt']
    have hT := endT_pointAtT ha hb t
    rw [← hs] at hT
    have hT' := endT_pointAtT ha' hb' (σ * t)
    rw [← hpt, ← hs] at hT'
    rw [pointAtT_add _ hT', hsw]
    apply pointAtT_congr
    · have e : σ * t + σ * a.sweep * u = σ * (t + a.sweep * u) := by ring
      rw [e, hσ]
      split_ifs
      · rw [one_mul, one_mul, cos_add, cos_add, hT.1, hT.2]
      · rw [neg_one_mul, neg_one_mul, cos_neg, cos_neg, cos_add, cos_add, hT.1, hT.2]
    · have e : σ * t + σ * a.sweep * u = σ * (t + a.sweep * u) := by ring
      rw [e, hσ]
      split_ifs
      · rw [one_mul, one_mul, sin_add, sin_add, hT.1, hT.2]
      · rw [neg_one_mul, neg_one_mul, sin_neg, sin_neg, sin_add, sin_add, hT.1, hT.2]

/-- Similarities keep axes perpendicular: rotations with a uniform scale, and reflections. -/
theorem perpendicular_similarity {m : Mat ℝ} {a : ArcData ℝ} (hp : Perpendicular a)
    (hm : (m.a = m.d ∧ m.b = -m.c) ∨ (m.a = -m.d ∧ m.b = m.c)) : Perpendicular (Seg.imulArc m a) := by
  unfold Perpendicular at *
  simp only [Seg.imulArc, Mat.pointInMatrixSpace]
  rcases hm with ⟨h1, h2⟩ | ⟨h1, h2⟩
  · rw [h1, h2]; linear_combination (m.d ^ 2 + m.c ^ 2) * hp
  · rw [h1, h2]; linear_combination (m.d ^ 2 + m.c ^ 2) * hp

/-- Scaling along the axes of the coordinate system keeps axes perpendicular that lie along them. -/
theorem perpendicular_scale {m : Mat ℝ} {a : ArcData ℝ} (hb : m.b = 0) (hc : m.c = 0) (h1 : a.prx.y = a.center.y)
    (h2 : a.pry.x = a.center.x) : Perpendicular (Seg.imulArc m a) := by
  unfold Perpendicular
  simp only [Seg.imulArc, Mat.pointInMatrixSpace, hb, hc, h1, h2]
  ring

/-- The code recognizes the orientation of every rotation with uniform scale, of every scaling along the coordinate axes, and
of every reflection with `a ≠ 0`. -/
theorem C62_signs_partial (m : Mat ℝ) (hdet : m.determinant ≠ 0)
    (h : (m.a = m.d ∧ m.b = -m.c) ∨ (m.b = 0 ∧ m.c = 0) ∨ (m.a = -m.d ∧ m.b = m.c ∧ m.a ≠ 0)) : SignsRight m := by
  unfold SignsRight
  unfold Mat.determinant at *
  rcases h with ⟨h1, h2⟩ | ⟨h1, h2⟩ | ⟨h1, h2, h3⟩
  · left
    refine ⟨?_, by rw [h1]⟩
    apply lt_of_le_of_ne _ (Ne.symm hdet)
    rw [h1, h2]
    nlinarith [sq_nonneg m.d, sq_nonneg m.c]
  · simp only [h1, h2] at *
    have ha : m.a ≠ 0 := by intro h; apply hdet; rw [h]; ring
    have hd : m.d ≠ 0 := by intro h; apply hdet; rw [h]; ring
    rcases lt_or_gt_of_ne ha with ha | ha <;> rcases lt_or_gt_of_ne hd with hd | hd
    · left; exact ⟨by nlinarith, ⟨fun _ => hd, fun _ => ha⟩⟩
    · right; refine ⟨by nlinarith, fun hc => ?_⟩; linarith [hc.mp ha]
    · right; refine ⟨by nlinarith, fun hc => ?_⟩; linarith [hc.mpr hd]
    · left; exact ⟨by nlinarith, ⟨fun h => by linarith, fun h => by linarith⟩⟩
  · right
    have hd : m.d ≠ 0 := by intro h; apply h3; rw [h1, h]; ring
    rw [h1, h2]
    refine ⟨?_, fun hc => ?_⟩
    · have : 0 < m.d ^ 2 := by positivity
      nlinarith [sq_nonneg m.c]
    · rcases lt_or_gt_of_ne hd with hd | hd
      · linarith [hc.mpr hd]
      · linarith [hc.mp (by linarith)]

/-! ### examples and disagreements -/

/-- a quarter of the unit circle -/
noncomputable def quarter : ArcData ℝ := { center := ⟨0, 0⟩, prx := ⟨1, 0⟩, pry := ⟨0, 1⟩, sweep := π / 2 }

/-- an arc that starts at the end of its first axis -/
theorem point_from_axis {a : ArcData ℝ} (ha : 0 < rx a) (hb : 0 < ry a) {q : Pt ℝ} {isAngle : Bool}
    (h : (a.prx.eq q && sweepIsZero isAngle a.sweep) = false) {u : ℝ} (h0 : u ≠ 0) (h1 : u ≠ 1) :
    point isAngle a.prx q a u = pointAtT a (a.sweep * u) := by
  have e : pointAtT a 0 = a.prx := by
    rw [pointAtT_axis ha, cos_zero, sin_zero]
    ext <;> simp
  unfold point
  rw [h]
  simp only [Bool.false_eq_true, if_false, if_neg h0, if_neg h1]
  have hT := endT_pointAtT ha hb 0
  rw [e] at hT
  rw [pointAtT_add a hT, zero_add]

theorem quarter_rx : rx quarter = 1 := by rw [rx_eq]; norm_num [quarter]
theorem quarter_ry : ry quarter = 1 := by rw [ry_eq]; norm_num [quarter]

theorem quarter_half : point false ⟨1, 0⟩ ⟨0, 1⟩ quarter (1 / 2) = ⟨√2 / 2, √2 / 2⟩ := by
  have h := point_from_axis (a := quarter) (q := ⟨0, 1⟩) (isAngle := false) (u := 1 / 2) (by rw [quarter_rx]; norm_num)
    (by rw [quarter_ry]; norm_num) (by norm_num [quarter, Pt.eq, err]) (by norm_num) (by norm_num)
  rw [pointAtT_axis (by rw [quarter_rx]; norm_num), quarter_rx, quarter_ry] at h
  have e : quarter.sweep * (1 / 2) = π / 4 := by simp only [quarter]; ring
  rw [e, cos_pi_div_four, sin_pi_div_four] at h
  have e2 : quarter.prx = ⟨1, 0⟩ := rfl
  rw [e2] at h
  rw [h]
  norm_num [quarter]

/-- turning the quarter circle by a right angle, mirroring it and scaling it unevenly along the axes: all meet the hypotheses -/
example : SignsRight ⟨0, 1, -1, 0, 3, 4⟩ ∧ Perpendicular (Seg.imulArc ⟨0, 1, -1, 0, 3, 4⟩ quarter) ∧
    SignsRight ⟨-1, 0, 0, 1, 0, 0⟩ ∧ Perpendicular (Seg.imulArc ⟨-1, 0, 0, 1, 0, 0⟩ quarter) ∧
    SignsRight ⟨2, 0, 0, -3, 0, 0⟩ ∧ Perpendicular (Seg.imulArc ⟨2, 0, 0, -3, 0, 0⟩ quarter) ∧
    Perpendicular quarter ∧ (⟨1, 0⟩ : Pt ℝ) = pointAtT quarter 0 := by
  refine ⟨?_, ?_, ?_, ?_, ?_, ?_, ?_, ?_⟩
  all_goals try (norm_num [SignsRight, Perpendicular, Mat.determinant, Seg.imulArc, Mat.pointInMatrixSpace, quarter]; done)
  rw [pointAtT_axis (by rw [quarter_rx]; norm_num), quarter_rx, quarter_ry]
  norm_num [quarter]

/-- C62: an arc times a matrix has the transformed ends and centre, and, when the code recognizes the orientation of the matrix,
its sweep is reversed exactly by matrices that reverse orientation. -/
theorem C62_arc_partial {m : Mat ℝ} (hm : SignsRight m) (p q : Pt ℝ) (a : ArcData ℝ) (r sm : Bool) :
    ∃ b, (Seg.mul ⟨.arc a, some p, some q, r, sm⟩ m).kind = .arc b ∧
      (Seg.mul ⟨.arc a, some p, some q, r, sm⟩ m).start = some (m.pointInMatrixSpace p) ∧
      (Seg.mul ⟨.arc a, some p, some q, r, sm⟩ m).stop = some (m.pointInMatrixSpace q) ∧
      b.center = m.pointInMatrixSpace a.center ∧ (0 < m.determinant → b.sweep = a.sweep) ∧ (m.determinant < 0 → b.sweep = -a.sweep) := by
  refine ⟨Seg.imulArc m a, rfl, rfl, rfl, rfl, ?_, ?_⟩ <;> intro h <;> rw [imulArc_sweep] <;> rcases hm with ⟨h1, h2⟩ | ⟨h1, h2⟩
  · rw [if_pos h2]
  · exact absurd h (not_lt.mpr h1.le)
  · exact absurd h (not_lt.mpr h1.le)
  · rw [if_neg h2]

/-- C62, C79 are false in general: exchanging x and y reverses the orientation, but the sweep keeps its sign, and the arc then
runs the other way. -/
theorem C62_wrong : (⟨0, 1, 1, 0, 0, 0⟩ : Mat ℝ).determinant < 0 ∧ (Seg.imulArc ⟨0, 1, 1, 0, 0, 0⟩ quarter).sweep = quarter.sweep ∧
    point false ⟨0, 1⟩ ⟨1, 0⟩ (Seg.imulArc ⟨0, 1, 1, 0, 0, 0⟩ quarter) (1 / 2) = ⟨-(√2 / 2), √2 / 2⟩ ∧
    Mat.pointInMatrixSpace ⟨0, 1, 1, 0, 0, 0⟩ (point false ⟨1, 0⟩ ⟨0, 1⟩ quarter (1 / 2)) = ⟨√2 / 2, √2 / 2⟩ := by
  set a := Seg.imulArc ⟨0, 1, 1, 0, 0, 0⟩ quarter with ha
  have hc : a.center = ⟨0, 0⟩ := by norm_num [ha, Seg.imulArc, Mat.pointInMatrixSpace, quarter]
  have hx : a.prx = ⟨0, 1⟩ := by norm_num [ha, Seg.imulArc, Mat.pointInMatrixSpace, quarter]
  have hy : a.pry = ⟨1, 0⟩ := by norm_num [ha, Seg.imulArc, Mat.pointInMatrixSpace, quarter]
  have hw : a.sweep = π / 2 := by norm_num [ha, Seg.imulArc, Mat.pointInMatrixSpace, quarter]
  have r1 : rx a = 1 := by rw [rx_eq, hc, hx]; norm_num
  have r2 : ry a = 1 := by rw [ry_eq, hc, hy]; norm_num
  refine ⟨by norm_num [Mat.determinant], hw, ?_, ?_⟩
  · have h := point_from_axis (a := a) (q := ⟨1, 0⟩) (isAngle := false) (u := 1 / 2) (by rw [r1]; norm_num)
      (by rw [r2]; norm_num) (by rw [hx]; norm_num [Pt.eq, err]) (by norm_num) (by norm_num)
    have e : a.sweep * (1 / 2) = π / 4 := by rw [hw]; ring
    rw [pointAtT_axis (by rw [r1]; norm_num), r1, r2, e, cos_pi_div_four, sin_pi_div_four, hx, hc] at h
    rw [h]
    norm_num
  · rw [quarter_half]
    norm_num [Mat.pointInMatrixSpace]

/-- C79 is false in general: a skewed circle is drawn on an ellipse with the lengths of the skewed radii as its radii. -/
theorem C79_skew_wrong :
    point false ⟨1, 0⟩ ⟨1, 1⟩ (Seg.imulArc ⟨1, 0, 1, 1, 0, 0⟩ quarter) (1 / 2) = ⟨√2 / 2, 1⟩ ∧
    Mat.pointInMatrixSpace ⟨1, 0, 1, 1, 0, 0⟩ (point false ⟨1, 0⟩ ⟨0, 1⟩ quarter (1 / 2)) = ⟨√2, √2 / 2⟩ := by
  set a := Seg.imulArc ⟨1, 0, 1, 1, 0, 0⟩ quarter with ha
  have hc : a.center = ⟨0, 0⟩ := by norm_num [ha, Seg.imulArc, Mat.pointInMatrixSpace, quarter]
  have hx : a.prx = ⟨1, 0⟩ := by norm_num [ha, Seg.imulArc, Mat.pointInMatrixSpace, quarter]
  have hy : a.pry = ⟨1, 1⟩ := by norm_num [ha, Seg.imulArc, Mat.pointInMatrixSpace, quarter]
  have hw : a.sweep = π / 2 := by norm_num [ha, Seg.imulArc, Mat.pointInMatrixSpace, quarter]
  have r1 : rx a = 1 := by rw [rx_eq, hc, hx]; norm_num
  have r2 : ry a = √2 := by rw [ry_eq, hc, hy]; norm_num
  have s2 : √2 * √2 = 2 := Real.mul_self_sqrt (by norm_num)
  refine ⟨?_, ?_⟩
  · have h := point_from_axis (a := a) (q := ⟨1, 1⟩) (isAngle := false) (u := 1 / 2) (by rw [r1]; norm_num)
      (by rw [r2]; positivity) (by rw [hx]; norm_num [Pt.eq, err]) (by norm_num) (by norm_num)
    have e : a.sweep * (1 / 2) = π / 4 := by rw [hw]; ring
    rw [pointAtT_axis (by rw [r1]; norm_num), r1, r2, e, cos_pi_div_four, sin_pi_div_four, hx, hc] at h
    rw [h]
    ext
    · norm_num
    · simp only
      linear_combination s2 / 2
  · rw [quarter_half]
    ext
    · simp only [Mat.pointInMatrixSpace]; ring
    · simp only [Mat.pointInMatrixSpace]; ring

end Svgio.Arc
