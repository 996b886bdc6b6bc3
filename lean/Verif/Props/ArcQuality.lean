import Verif.Props.ArcCurves

/-!
C80: how far the curves that replace an arc are from its ellipse.
-/

namespace Svgio.Arc

open Real Spec

theorem level_image {c : Pt ℝ} {r s φ X Y : ℝ} (hr : r ≠ 0) (hs : s ≠ 0) {p : Pt ℝ}
    (hx : p.x = c.x + (r * X * cos φ - s * Y * sin φ)) (hy : p.y = c.y + (r * X * sin φ + s * Y * cos φ)) :
    level c r s φ p = X ^ 2 + Y ^ 2 := by
  have h := cos_sq_sin_sq φ
  have e1 : ((p.x - c.x) * cos φ + (p.y - c.y) * sin φ) / r = X := by
    rw [hx, hy, div_eq_iff hr]; linear_combination r * X * h
  have e2 : (-(p.x - c.x) * sin φ + (p.y - c.y) * cos φ) / s = Y := by
    rw [hx, hy, div_eq_iff hs]; linear_combination s * Y * h
  unfold level
  rw [e1, e2]

/-- the factor of `as_cubic_curves` in terms of half the slice -/
theorem cubic_alpha {w : ℝ} (hw : |w| < π) :
    sin w * (√(4 + 3 * tan (w / 2) ^ 2) - 1) / 3 = 2 * sin (w / 2) * (√(cos (w / 2) ^ 2 + 3) - cos (w / 2)) / 3 := by
  obtain ⟨h1, h2⟩ := abs_lt.mp hw
  have hc : 0 < cos (w / 2) := cos_pos_of_mem_Ioo ⟨by linarith, by linarith⟩
  have e : sin w = 2 * sin (w / 2) * cos (w / 2) := by
    rw [← sin_two_mul]; congr 1; ring
  have e2 : √(4 + 3 * tan (w / 2) ^ 2) * cos (w / 2) = √(cos (w / 2) ^ 2 + 3) := by
    have h := cos_sq_sin_sq (w / 2)
    have : cos (w / 2) ^ 2 + 3 = (4 + 3 * tan (w / 2) ^ 2) * cos (w / 2) ^ 2 := by
      rw [tan_eq_sin_div_cos]; field_simp; linear_combination -3 * h
    rw [this, sqrt_mul (by positivity), sqrt_sq hc.le]
  rw [e, ← e2]
  ring

/-- a cubic curve in place of an arc of the unit circle that is symmetric to the first axis -/
theorem cubic_core {C S α q u : ℝ} (h : C ^ 2 + S ^ 2 = 1) (hC : 0 < C) (hα : α = 2 * S * (√(C ^ 2 + 3) - C) / 3)
    (hq : q = u * (1 - u)) (h0 : 0 ≤ u) (h1 : u ≤ 1) :
    1 - S ^ 6 / 4 ≤ (C + 3 * α * S * q) ^ 2 + ((2 * u - 1) * (S * (1 + 2 * q) - 3 * α * C * q)) ^ 2 ∧
    (C + 3 * α * S * q) ^ 2 + ((2 * u - 1) * (S * (1 + 2 * q) - 3 * α * C * q)) ^ 2 ≤ 1 := by
  set R := √(C ^ 2 + 3) with hR
  have hR2 : R ^ 2 = C ^ 2 + 3 := sq_sqrt (by positivity)
  have hR0 : 0 ≤ R := sqrt_nonneg _
  have hS1 : C ^ 2 ≤ 1 := by nlinarith [sq_nonneg S]
  have hq0 : 0 ≤ q := by rw [hq]; exact mul_nonneg h0 (by linarith)
  have hq1 : q ≤ 1 / 4 := by rw [hq]; nlinarith [sq_nonneg (u - 1 / 2)]
  have hu : (2 * u - 1) ^ 2 = 1 - 4 * q := by rw [hq]; ring
  have hα2 : 9 * α ^ 2 + 12 * α * S * C - 12 * S ^ 2 = 0 := by
    rw [hα]; linear_combination (4 * S ^ 2) * hR2
  have hd : 2 * S - 3 * α * C = 2 * S * (1 + C ^ 2 - R * C) := by rw [hα]; ring
  have key : (C + 3 * α * S * q) ^ 2 + ((2 * u - 1) * (S * (1 + 2 * q) - 3 * α * C * q)) ^ 2 =
      1 - 16 * q ^ 3 * S ^ 2 * (1 + C ^ 2 - R * C) ^ 2 := by
    have : ((2 * u - 1) * (S * (1 + 2 * q) - 3 * α * C * q)) ^ 2 = (1 - 4 * q) * (S + q * (2 * S - 3 * α * C)) ^ 2 := by
      rw [mul_pow, hu]; ring
    rw [this]
    have e : 16 * q ^ 3 * S ^ 2 * (1 + C ^ 2 - R * C) ^ 2 = 4 * q ^ 3 * (2 * S - 3 * α * C) ^ 2 := by rw [hd]; ring
    rw [e]
    linear_combination (1 + 9 * α ^ 2 * q ^ 2) * h + q ^ 2 * hα2
  have hD0 : 0 ≤ 1 + C ^ 2 - R * C := by
    have : (R * C) ^ 2 ≤ (1 + C ^ 2) ^ 2 := by rw [mul_pow, hR2]; nlinarith
    have := abs_le_of_sq_le_sq this (by positivity)
    linarith [le_abs_self (R * C)]
  have hD1 : 1 + C ^ 2 - R * C ≤ S ^ 2 := by
    have : 2 * C ≤ R := by
      rw [hR]; apply le_sqrt_of_sq_le; nlinarith
    nlinarith
  have hD2 : (1 + C ^ 2 - R * C) ^ 2 ≤ S ^ 4 := by
    calc (1 + C ^ 2 - R * C) ^ 2 ≤ (S ^ 2) ^ 2 := pow_le_pow_left₀ hD0 hD1 2
      _ = S ^ 4 := by ring
  have hq3 : q ^ 3 ≤ (1 / 4) ^ 3 := pow_le_pow_left₀ hq0 hq1 3
  rw [key]
  constructor
  · have : 16 * q ^ 3 * S ^ 2 * (1 + C ^ 2 - R * C) ^ 2 ≤ 16 * (1 / 4) ^ 3 * S ^ 2 * S ^ 4 := by gcongr
    have e : 16 * (1 / 4) ^ 3 * S ^ 2 * S ^ 4 = S ^ 6 / 4 := by ring
    linarith
  · have : 0 ≤ 16 * q ^ 3 * S ^ 2 * (1 + C ^ 2 - R * C) ^ 2 := by positivity
    linarith

/-- a quadratic curve in place of an arc of the unit circle that is symmetric to the first axis -/
theorem quad_core {C S q u : ℝ} (h : C ^ 2 + S ^ 2 = 1) (hC : 0 < C) (hC' : 3 ≤ 2 * C ^ 2 + 2 * C)
    (hq : q = u * (1 - u)) (h0 : 0 ≤ u) (h1 : u ≤ 1) :
    1 ≤ (C + 2 * q * ((5 - 2 * C ^ 2) / 3 - C)) ^ 2 + (S * (2 * u - 1)) ^ 2 ∧
    (C + 2 * q * ((5 - 2 * C ^ 2) / 3 - C)) ^ 2 + (S * (2 * u - 1)) ^ 2 ≤ ((5 + 3 * C - 2 * C ^ 2) / 6) ^ 2 := by
  have hS1 : C ≤ 1 := by nlinarith [sq_nonneg S]
  have hq0 : 0 ≤ q := by rw [hq]; exact mul_nonneg h0 (by linarith)
  have hq1 : q ≤ 1 / 4 := by rw [hq]; nlinarith [sq_nonneg (u - 1 / 2)]
  have hu : (2 * u - 1) ^ 2 = 1 - 4 * q := by rw [hq]; ring
  set A := (1 - C) * (2 * C ^ 2 + 2 * C - 3) / 3 with hA
  set B := (5 - 2 * C ^ 2) / 3 - C with hB
  have hA0 : 0 ≤ A := by
    rw [hA]; exact div_nonneg (mul_nonneg (by linarith) (by linarith)) (by norm_num)
  have key : (C + 2 * q * B) ^ 2 + (S * (2 * u - 1)) ^ 2 = 1 + 4 * q * A + 4 * q ^ 2 * B ^ 2 := by
    rw [mul_pow, hu, hA, hB]
    linear_combination (1 - 4 * q) * h
  have mid : ((5 + 3 * C - 2 * C ^ 2) / 6) ^ 2 = 1 + A + B ^ 2 / 4 := by rw [hA, hB]; ring
  rw [key, mid]
  constructor
  · have : 0 ≤ 4 * q * A + 4 * q ^ 2 * B ^ 2 := by positivity
    linarith
  · have e1 : 4 * q * A ≤ 4 * (1 / 4) * A := by gcongr
    have e2 : 4 * q ^ 2 * B ^ 2 ≤ 4 * (1 / 4) ^ 2 * B ^ 2 := by gcongr
    linarith

theorem cubic_slice {a : ArcData ℝ} (ha : 0 < rx a) (hb : 0 < ry a) {t w α u : ℝ} (hw : |w| < π)
    (hα : α = sin w * (√(4 + 3 * tan (w / 2) ^ 2) - 1) / 3) (h0 : 0 ≤ u) (h1 : u ≤ 1) {p : Pt ℝ}
    (hx : p.x = Seg.cubicAt (pointAtT a t).x
      ((pointAtT a t).x + α * (-rx a * cos (rotation a) * sin t - ry a * sin (rotation a) * cos t))
      ((pointAtT a (t + w)).x - α * (-rx a * cos (rotation a) * sin (t + w) - ry a * sin (rotation a) * cos (t + w)))
      (pointAtT a (t + w)).x u)
    (hy : p.y = Seg.cubicAt (pointAtT a t).y
      ((pointAtT a t).y + α * (-rx a * sin (rotation a) * sin t + ry a * cos (rotation a) * cos t))
      ((pointAtT a (t + w)).y - α * (-rx a * sin (rotation a) * sin (t + w) + ry a * cos (rotation a) * cos (t + w)))
      (pointAtT a (t + w)).y u) :
    1 - sin (w / 2) ^ 6 / 4 ≤ level a.center (rx a) (ry a) (rotation a) p ∧
      level a.center (rx a) (ry a) (rotation a) p ≤ 1 := by
  rw [cubic_alpha hw] at hα
  obtain ⟨g1, g2⟩ := abs_lt.mp hw
  have hc : 0 < cos (w / 2) := cos_pos_of_mem_Ioo ⟨by linarith, by linarith⟩
  have hl : level a.center (rx a) (ry a) (rotation a) p =
      (Seg.cubicAt (cos t) (cos t - α * sin t) (cos (t + w) + α * sin (t + w)) (cos (t + w)) u) ^ 2 +
      (Seg.cubicAt (sin t) (sin t + α * cos t) (sin (t + w) - α * cos (t + w)) (sin (t + w)) u) ^ 2 := by
    apply level_image ha.ne' hb.ne'
    · rw [hx]; simp only [Seg.cubicAt, pointAtT]; ring
    · rw [hy]; simp only [Seg.cubicAt, pointAtT]; ring
  have core := cubic_core (cos_sq_sin_sq (w / 2)) hc hα (q := u * (1 - u)) rfl h0 h1
  rw [hl]
  have e1 : t = (t + w / 2) - w / 2 := by ring
  have e2 : t + w = (t + w / 2) + w / 2 := by ring
  have c1 : cos t = cos (t + w / 2) * cos (w / 2) + sin (t + w / 2) * sin (w / 2) := by
    conv_lhs => rw [e1]
    rw [cos_sub]
  have s1 : sin t = sin (t + w / 2) * cos (w / 2) - cos (t + w / 2) * sin (w / 2) := by
    conv_lhs => rw [e1]
    rw [sin_sub]
  have c2 : cos (t + w) = cos (t + w / 2) * cos (w / 2) - sin (t + w / 2) * sin (w / 2) := by rw [e2, cos_add]
  have s2 : sin (t + w) = sin (t + w / 2) * cos (w / 2) + cos (t + w / 2) * sin (w / 2) := by rw [e2, sin_add]
  have hm := cos_sq_sin_sq (t + w / 2)
  rw [c1, s1, c2, s2]
  clear hx hy hl c1 s1 c2 s2 e1 e2 hα
  generalize cos (t + w / 2) = cm at *
  generalize sin (t + w / 2) = sm at *
  generalize cos (w / 2) = C at *
  generalize sin (w / 2) = S at *
  have : (Seg.cubicAt (cm * C + sm * S) (cm * C + sm * S - α * (sm * C - cm * S)) (cm * C - sm * S + α * (sm * C + cm * S))
        (cm * C - sm * S) u) ^ 2 +
      (Seg.cubicAt (sm * C - cm * S) (sm * C - cm * S + α * (cm * C + sm * S)) (sm * C + cm * S - α * (cm * C - sm * S))
        (sm * C + cm * S) u) ^ 2 =
      (C + 3 * α * S * (u * (1 - u))) ^ 2 + ((2 * u - 1) * (S * (1 + 2 * (u * (1 - u))) - 3 * α * C * (u * (1 - u)))) ^ 2 := by
    set x := C + 3 * α * S * (u * (1 - u)) with hx
    set y := (2 * u - 1) * (S * (1 + 2 * (u * (1 - u))) - 3 * α * C * (u * (1 - u))) with hy
    have ex : Seg.cubicAt (cm * C + sm * S) (cm * C + sm * S - α * (sm * C - cm * S)) (cm * C - sm * S + α * (sm * C + cm * S))
        (cm * C - sm * S) u = cm * x - sm * y := by rw [hx, hy]; simp only [Seg.cubicAt]; ring
    have ey : Seg.cubicAt (sm * C - cm * S) (sm * C - cm * S + α * (cm * C + sm * S)) (sm * C + cm * S - α * (cm * C - sm * S))
        (sm * C + cm * S) u = sm * x + cm * y := by rw [hx, hy]; simp only [Seg.cubicAt]; ring
    rw [ex, ey]
    linear_combination (x ^ 2 + y ^ 2) * hm
  rw [this]
  exact core

theorem quad_slice {a : ArcData ℝ} (ha : 0 < rx a) (hb : 0 < ry a) {t w α m u : ℝ} (hc : 0 < cos (w / 2))
    (hw : 3 ≤ 2 * cos (w / 2) ^ 2 + 2 * cos (w / 2)) (hm : m = t + w / 2)
    (hα : α = (4 - cos w) / 3) (h0 : 0 ≤ u) (h1 : u ≤ 1) {p : Pt ℝ}
    (hx : p.x = Seg.quadAt (pointAtT a t).x
      (a.center.x + α * (rx a * cos m * cos (rotation a) - ry a * sin m * sin (rotation a))) (pointAtT a (t + w)).x u)
    (hy : p.y = Seg.quadAt (pointAtT a t).y
      (a.center.y + α * (rx a * cos m * sin (rotation a) + ry a * sin m * cos (rotation a))) (pointAtT a (t + w)).y u) :
    1 ≤ level a.center (rx a) (ry a) (rotation a) p ∧
      level a.center (rx a) (ry a) (rotation a) p ≤ ((5 + 3 * cos (w / 2) - 2 * cos (w / 2) ^ 2) / 6) ^ 2 := by
  have hα' : α = (5 - 2 * cos (w / 2) ^ 2) / 3 := by
    rw [hα]
    have : cos w = 2 * cos (w / 2) ^ 2 - 1 := by rw [← cos_two_mul]; congr 1; ring
    rw [this]; ring
  have hl : level a.center (rx a) (ry a) (rotation a) p =
      (Seg.quadAt (cos t) (α * cos m) (cos (t + w)) u) ^ 2 + (Seg.quadAt (sin t) (α * sin m) (sin (t + w)) u) ^ 2 := by
    apply level_image ha.ne' hb.ne'
    · rw [hx]; simp only [Seg.quadAt, pointAtT]; ring
    · rw [hy]; simp only [Seg.quadAt, pointAtT]; ring
  have core := quad_core (cos_sq_sin_sq (w / 2)) hc hw (q := u * (1 - u)) rfl h0 h1
  rw [hl]
  have e1 : t = m - w / 2 := by rw [hm]; ring
  have e2 : t + w = m + w / 2 := by rw [hm]; ring
  have hmm := cos_sq_sin_sq m
  have c1 : cos t = cos m * cos (w / 2) + sin m * sin (w / 2) := by rw [e1, cos_sub]
  have s1 : sin t = sin m * cos (w / 2) - cos m * sin (w / 2) := by rw [e1, sin_sub]
  have c2 : cos (t + w) = cos m * cos (w / 2) - sin m * sin (w / 2) := by rw [e2, cos_add]
  have s2 : sin (t + w) = sin m * cos (w / 2) + cos m * sin (w / 2) := by rw [e2, sin_add]
  rw [c1, s1, c2, s2]
  clear hx hy hl c1 s1 c2 s2 e1 e2 hα hm
  rw [← hα'] at core
  clear hα'
  generalize cos m = cm at *
  generalize sin m = sm at *
  generalize cos (w / 2) = C at *
  generalize sin (w / 2) = S at *
  have ex : Seg.quadAt (cm * C + sm * S) (α * cm) (cm * C - sm * S) u =
      cm * (C + 2 * (u * (1 - u)) * (α - C)) - sm * (S * (2 * u - 1)) := by simp only [Seg.quadAt]; ring
  have ey : Seg.quadAt (sm * C - cm * S) (α * sm) (sm * C + cm * S) u =
      sm * (C + 2 * (u * (1 - u)) * (α - C)) + cm * (S * (2 * u - 1)) := by simp only [Seg.quadAt]; ring
  rw [ex, ey]
  have : (cm * (C + 2 * (u * (1 - u)) * (α - C)) - sm * (S * (2 * u - 1))) ^ 2 +
      (sm * (C + 2 * (u * (1 - u)) * (α - C)) + cm * (S * (2 * u - 1))) ^ 2 =
      (C + 2 * (u * (1 - u)) * (α - C)) ^ 2 + (S * (2 * u - 1)) ^ 2 := by
    linear_combination ((C + 2 * (u * (1 - u)) * (α - C)) ^ 2 + (S * (2 * u - 1)) ^ 2) * hmm
  rw [this]
  exact core

theorem cubicLoop_level {a : ArcData ℝ} (ha : 0 < rx a) (hb : 0 < ry a) {w : ℝ} (hw : |w| < π) {stop : Pt ℝ} :
    ∀ (n : ℕ) (t : ℝ) (v : Pt ℝ), v = pointAtT a t → stop = pointAtT a (t + n * w) → ∀ s ∈ cubicLoop a stop w n t v,
      ∀ numpy u, 0 ≤ u → u ≤ 1 → ∃ p, Seg.point numpy s u = .ok p ∧
        1 - sin (w / 2) ^ 6 / 4 ≤ level a.center (rx a) (ry a) (rotation a) p ∧
        level a.center (rx a) (ry a) (rotation a) p ≤ 1 := by
  intro n
  induction n with
  | zero => intro t v _ _ s hs; simp [cubicLoop] at hs
  | succ n ih =>
    intro t v hv hstop s hs numpy u h0 h1
    have hp : (⟨a.center.x + rx a * cos (t + w) * cos (rotation a) - ry a * sin (t + w) * sin (rotation a),
        a.center.y + rx a * cos (t + w) * sin (rotation a) + ry a * sin (t + w) * cos (rotation a)⟩ : Pt ℝ) =
        pointAtT a (t + w) := rfl
    have hend : (if n = 0 then stop else pointAtT a (t + w)) = pointAtT a (t + w) := by
      split
      · rename_i h; rw [hstop, h]; norm_num
      · rfl
    unfold cubicLoop at hs
    simp only [hp, hend] at hs
    rcases List.mem_cons.mp hs with rfl | hs
    · refine ⟨_, rfl, ?_⟩
      rw [hv]
      exact cubic_slice ha hb hw rfl h0 h1 rfl rfl
    · refine ih (t + w) _ rfl ?_ s hs numpy u h0 h1
      rw [hstop]; congr 1; push_cast; ring

theorem quadLoop_level {a : ArcData ℝ} (ha : 0 < rx a) (hb : 0 < ry a) {w : ℝ} (hc : 0 < cos (w / 2))
    (hw : 3 ≤ 2 * cos (w / 2) ^ 2 + 2 * cos (w / 2)) {stop : Pt ℝ} :
    ∀ (n : ℕ) (t : ℝ) (v : Pt ℝ), v = pointAtT a t → stop = pointAtT a (t + n * w) → ∀ s ∈ quadLoop a stop w n t v,
      ∀ numpy u, 0 ≤ u → u ≤ 1 → ∃ p, Seg.point numpy s u = .ok p ∧
        1 ≤ level a.center (rx a) (ry a) (rotation a) p ∧
        level a.center (rx a) (ry a) (rotation a) p ≤ ((5 + 3 * cos (w / 2) - 2 * cos (w / 2) ^ 2) / 6) ^ 2 := by
  intro n
  induction n with
  | zero => intro t v _ _ s hs; simp [quadLoop] at hs
  | succ n ih =>
    intro t v hv hstop s hs numpy u h0 h1
    have hend : (if n = 0 then stop else pointAtT a (t + w)) = pointAtT a (t + w) := by
      split
      · rename_i h; rw [hstop, h]; norm_num
      · rfl
    unfold quadLoop at hs
    simp only [hend] at hs
    rcases List.mem_cons.mp hs with rfl | hs
    · refine ⟨_, rfl, ?_⟩
      rw [hv]
      exact quad_slice ha hb hc hw (m := (t + w + t) / 2) (by ring) rfl h0 h1 rfl rfl
    · refine ih (t + w) _ rfl ?_ s hs numpy u h0 h1
      rw [hstop]; congr 1; push_cast; ring

/-- C80, cubic curves: for an arc whose ends are on its ellipse, cut into slices of less than half a turn, no point of the curves is
outside the ellipse, and none is inside the ellipse shrunk by the factor whose square is `1 - sin⁶(slice/2)/4`. -/
theorem C80_cubics {a : ArcData ℝ} (ha : 0 < rx a) (hb : 0 < ry a) {start stop : Pt ℝ} {t : ℝ}
    (h1 : start = ellipse a.center (rx a) (ry a) (rotation a) t)
    (h2 : stop = ellipse a.center (rx a) (ry a) (rotation a) (t + a.sweep)) {n : ℤ} (hn : 0 < n) (hw : |a.sweep / n| < π) :
    ∀ s ∈ asCubicCurves start stop a (some n), ∀ numpy u, 0 ≤ u → u ≤ 1 → ∃ p, Seg.point numpy s u = .ok p ∧
      1 - sin (a.sweep / n / 2) ^ 6 / 4 ≤ level a.center (rx a) (ry a) (rotation a) p ∧
      level a.center (rx a) (ry a) (rotation a) p ≤ 1 := by
  rw [← pointAtT_ellipse] at h1 h2
  have ht := endT_pointAtT ha hb t
  rw [← h1] at ht
  have hnn : ((n.toNat : ℕ) : ℝ) = (n : ℝ) := by exact_mod_cast Int.toNat_of_nonneg hn.le
  have hn0 : (n : ℝ) ≠ 0 := by exact_mod_cast hn.ne'
  unfold asCubicCurves arcRequired
  simp only [Option.getD_some, if_neg hn.ne']
  apply cubicLoop_level ha hb hw
  · rw [pointAtT_congr a ht.1 ht.2]; exact h1
  · rw [hnn, mul_div_cancel₀ _ hn0, pointAtT_add a ht]; exact h2

/-- C80, quadratic curves: for an arc whose ends are on its ellipse, cut into slices of at most 69 degrees (`C` is the cosine of half a
slice), no point of the curves is inside the ellipse, and none is outside the ellipse enlarged by the factor `(5 + 3C - 2C²)/6`. -/
theorem C80_quads {a : ArcData ℝ} (ha : 0 < rx a) (hb : 0 < ry a) {start stop : Pt ℝ} {t : ℝ}
    (h1 : start = ellipse a.center (rx a) (ry a) (rotation a) t)
    (h2 : stop = ellipse a.center (rx a) (ry a) (rotation a) (t + a.sweep)) {n : ℤ} (hn : 0 < n)
    {C : ℝ} (hC : C = cos (a.sweep / n / 2)) (hC0 : 0 < C) (hw : 3 ≤ 2 * C ^ 2 + 2 * C) :
    ∀ s ∈ asQuadCurves start stop a (some n), ∀ numpy u, 0 ≤ u → u ≤ 1 → ∃ p, Seg.point numpy s u = .ok p ∧
      1 ≤ level a.center (rx a) (ry a) (rotation a) p ∧
      level a.center (rx a) (ry a) (rotation a) p ≤ ((5 + 3 * C - 2 * C ^ 2) / 6) ^ 2 := by
  rw [← pointAtT_ellipse] at h1 h2
  have ht := endT_pointAtT ha hb t
  rw [← h1] at ht
  have hnn : ((n.toNat : ℕ) : ℝ) = (n : ℝ) := by exact_mod_cast Int.toNat_of_nonneg hn.le
  have hn0 : (n : ℝ) ≠ 0 := by exact_mod_cast hn.ne'
  unfold asQuadCurves arcRequired
  simp only [Option.getD_some, if_neg hn.ne']
  subst hC
  apply quadLoop_level ha hb hC0 hw
  · rw [pointAtT_congr a ht.1 ht.2]; exact h1
  · rw [hnn, mul_div_cancel₀ _ hn0, pointAtT_add a ht]; exact h2

example : ∃ (a : ArcData ℝ) (start stop : Pt ℝ) (t C : ℝ) (n : ℤ), 0 < rx a ∧ 0 < ry a ∧
    start = ellipse a.center (rx a) (ry a) (rotation a) t ∧ stop = ellipse a.center (rx a) (ry a) (rotation a) (t + a.sweep) ∧
    0 < n ∧ |a.sweep / n| < π ∧ C = cos (a.sweep / n / 2) ∧ 0 < C ∧ 3 ≤ 2 * C ^ 2 + 2 * C := by
  have hpi := pi_pos
  refine ⟨{ quarter with sweep := π }, _, _, 0, _, 3, ?_, ?_, rfl, rfl, by norm_num, ?_, rfl, ?_⟩
  · rw [rx_eq]; norm_num [quarter]
  · rw [ry_eq]; norm_num [quarter]
  · rw [abs_of_pos (by positivity)]; push_cast; linarith
  · have : (π / ((3 : ℤ) : ℝ) / 2) = π / 6 := by push_cast; ring
    simp only [this, cos_pi_div_six]
    have h3 : √3 ^ 2 = 3 := sq_sqrt (by norm_num)
    have : (17 / 10 : ℝ) ≤ √3 := by apply le_sqrt_of_sq_le; norm_num
    constructor <;> nlinarith

end Svgio.Arc
