import Verif.Model.ArcD
import Verif.Model.Print
import Verif.Props.ArcCtorMore

/-!
C167: the parameters that `Arc.d` prints describe the arc.
-/

namespace Svgio.Arc

open Real Spec

theorem rad_degrees (x : ℝ) : rad (Angle.asDegrees tau x) = x := by
  have := pi_pos
  unfold rad Angle.asDegrees tau
  field_simp
  ring

/-- a sweep is known from its cosine, its direction and whether it is more than half a turn -/
theorem sweep_unique {w v : ℝ} (hc : cos v = cos w) (hs : 0 ≤ w → 0 ≤ v) (hs' : w < 0 → v ≤ 0) (hw : |w| < 2 * π) (hv : |v| ≤ 2 * π)
    (hl : π < |w| → π ≤ |v|) (hl' : |w| ≤ π → |v| ≤ π) : v = w := by
  have hc' : cos |v| = cos |w| := by rw [cos_abs, cos_abs, hc]
  have habs : |v| = |w| := by
    by_cases h : |w| ≤ π
    · exact injOn_cos ⟨abs_nonneg v, hl' h⟩ ⟨abs_nonneg w, h⟩ hc'
    · push Not at h
      have e : cos (2 * π - |v|) = cos (2 * π - |w|) := by rw [cos_two_pi_sub, cos_two_pi_sub, hc']
      have := injOn_cos ⟨by linarith, by linarith [hl h]⟩ ⟨by linarith, by linarith⟩ e
      linarith
  by_cases h : 0 ≤ w
  · rw [abs_of_nonneg h, abs_of_nonneg (hs h)] at habs
    exact habs
  · push Not at h
    rw [abs_of_neg h, abs_of_nonpos (hs' h)] at habs
    linarith

/-- two equal chords of the unit circle with the same sweep start at the same point -/
theorem chord_unique {s t w : ℝ} (hw : cos w ≠ 1) (hx : cos s - cos (s + w) = cos t - cos (t + w))
    (hy : sin s - sin (s + w) = sin t - sin (t + w)) : cos s = cos t ∧ sin s = sin t := by
  rw [cos_add, cos_add] at hx
  rw [sin_add, sin_add] at hy
  have h := cos_sq_sin_sq w
  have h1 : (1 - cos w) ≠ 0 := fun h => hw (by linarith)
  have h2 : 2 * (1 - cos w) ≠ 0 := by simpa using h1
  constructor
  · apply mul_left_cancel₀ h2
    linear_combination (1 - cos w) * hx - sin w * hy - (cos s - cos t) * h
  · apply mul_left_cancel₀ h2
    linear_combination (1 - cos w) * hy + sin w * hx - (sin s - sin t) * h

/-- the vector from one point of an ellipse to another one, in the coordinates of its axes -/
theorem axes_unique {r s φ x y x' y' : ℝ} (hr : r ≠ 0) (hs : s ≠ 0)
    (h1 : r * x * cos φ - s * y * sin φ = r * x' * cos φ - s * y' * sin φ)
    (h2 : r * x * sin φ + s * y * cos φ = r * x' * sin φ + s * y' * cos φ) : x = x' ∧ y = y' := by
  have h := cos_sq_sin_sq φ
  constructor
  · apply mul_left_cancel₀ hr
    linear_combination cos φ * h1 + sin φ * h2 - r * (x - x') * h
  · apply mul_left_cancel₀ hs
    linear_combination cos φ * h2 - sin φ * h1 - s * (y - y') * h

/-- An arc along an ellipse is the only one with its radii, rotation, ends and flags. -/
theorem svg_back {p q c : Pt ℝ} {r s rot t w : ℝ} (hr : 0 < r) (hs : 0 < s) (hpq : p.eq q = false)
    (hp : p = ellipse c r s (rad rot) t) (hq : q = ellipse c r s (rad rot) (t + w)) (hw : |w| < 2 * π) :
    ∃ δ, rad δ = w ∧ svgParameterize p r s rot (decide (π < |w|)) (decide (0 ≤ w)) q = native c r s rot δ := by
  obtain ⟨large, hlarge⟩ : ∃ b, b = decide (π < |w|) := ⟨_, rfl⟩
  obtain ⟨sweep, hsweep⟩ : ∃ b, b = decide (0 ≤ w) := ⟨_, rfl⟩
  rw [← hlarge, ← hsweep]
  obtain ⟨k, C, L, ux, uy, vx, vy, c', hk, ha, hu, hv, hL, hdot, hcross, hC1, hC2, hp', hq', -, -⟩ :=
    svg_shape rot large sweep hpq hr.ne' hs.ne'
  have hpi := pi_pos
  have hφ := cos_sq_sin_sq (rad rot)
  have on : ∀ t, OnEllipse c r s (rad rot) (ellipse c r s (rad rot) t) := by
    intro t
    have ht := cos_sq_sin_sq t
    unfold OnEllipse ellipse
    have e1 : (c.x + (r * cos t * cos (rad rot) - s * sin t * sin (rad rot)) - c.x) * cos (rad rot) +
        (c.y + (r * cos t * sin (rad rot) + s * sin t * cos (rad rot)) - c.y) * sin (rad rot) = r * cos t := by
      linear_combination r * cos t * hφ
    have e2 : -(c.x + (r * cos t * cos (rad rot) - s * sin t * sin (rad rot)) - c.x) * sin (rad rot) +
        (c.y + (r * cos t * sin (rad rot) + s * sin t * cos (rad rot)) - c.y) * cos (rad rot) = s * sin t := by
      linear_combination s * sin t * hφ
    simp only
    rw [e1, e2, mul_div_cancel_left₀ _ hr.ne', mul_div_cancel_left₀ _ hs.ne', ht]
  have k1 : k = 1 := by
    refine le_antisymm (hk.2.2 1 le_rfl ⟨c, ?_, ?_⟩) hk.1
    · rw [one_mul, one_mul, hp]; exact on t
    · rw [one_mul, one_mul, hq]; exact on _
  subst k1
  simp only [one_mul] at ha hp' hq'
  obtain ⟨d1, d2, d3, d4⟩ := delta_spec hu hv sweep
  obtain ⟨δ, hδ⟩ : ∃ δ, δ = deltaDegrees ux uy vx vy sweep := ⟨_, rfl⟩
  rw [← hδ] at ha d1 d2 d3 d4
  obtain ⟨v, hv'⟩ : ∃ v, v = rad δ := ⟨_, rfl⟩
  rw [← hv'] at d1 d2 d3 d4
  -- the chord
  have hx := congrArg Pt.x (hp.symm.trans hp')
  have hy := congrArg Pt.y (hp.symm.trans hp')
  have gx := congrArg Pt.x (hq.symm.trans hq')
  have gy := congrArg Pt.y (hq.symm.trans hq')
  simp only [ellipse] at hx hy gx gy
  obtain ⟨e1, e2⟩ := axes_unique (x := ux - vx) (y := uy - vy) (x' := cos t - cos (t + w)) (y' := sin t - sin (t + w)) (φ := rad rot)
    hr.ne' hs.ne' (by linear_combination gx - hx) (by linear_combination gy - hy)
  have hcos : cos v = cos w := by
    have h1 : (ux - vx) ^ 2 + (uy - vy) ^ 2 = 2 - 2 * cos v := by rw [d1]; linear_combination hu + hv
    have h2 : (cos t - cos (t + w)) ^ 2 + (sin t - sin (t + w)) ^ 2 = 2 - 2 * cos w := by
      rw [cos_add, sin_add]
      linear_combination (2 - 2 * cos w) * cos_sq_sin_sq t + (cos t ^ 2 + sin t ^ 2) * cos_sq_sin_sq w + 0 * cos_sq_sin_sq t
    rw [e1, e2, h2] at h1
    linarith
  have hne1 : cos v ≠ 1 := by rw [d1, hdot]; intro h; linarith
  have hne : v ≠ 0 := fun h => hne1 (by rw [h, cos_zero])
  have hne2 : v ≠ -(2 * π) := fun h => hne1 (by rw [h, cos_neg, cos_two_pi])
  have hvw : v = w := by
    refine sweep_unique hcos ?_ ?_ hw ?_ ?_ ?_
    · intro h
      exact (d3 (by rw [hsweep]; simpa using h)).1
    · intro h
      exact (d4 (by rw [hsweep]; simpa using h)).2.le
    · cases h : sweep
      · have := d4 h
        rw [abs_of_neg this.2]; linarith
      · have := d3 h
        rw [abs_of_nonneg this.1]; linarith
    · intro hl
      have hl : large = true := by rw [hlarge]; simpa using hl
      by_contra hlt
      push Not at hlt
      cases h : sweep
      · have h4 := d4 h
        rw [abs_of_neg h4.2] at hlt
        have hneg : sin v < 0 := sin_neg_of_neg_of_neg_pi_lt h4.2 (by linarith)
        rw [d2, hcross] at hneg
        have := hC2 (by rw [hl, h]; simp)
        have : 0 ≤ 2 * C * L := by positivity
        linarith
      · have h3 := d3 h
        rw [abs_of_nonneg h3.1] at hlt
        have hpos : 0 < sin v := sin_pos_of_pos_of_lt_pi (lt_of_le_of_ne h3.1 (Ne.symm hne)) hlt
        rw [d2, hcross] at hpos
        have hc := hC1 (by rw [hl, h])
        nlinarith
    · intro hl
      have hl : large = false := by rw [hlarge]; simpa using hl
      by_contra hlt
      push Not at hlt
      cases h : sweep
      · have h4 := d4 h
        rw [abs_of_neg h4.2] at hlt
        have hgt : -(2 * π) < v := lt_of_le_of_ne h4.1 (Ne.symm hne2)
        have hpos : 0 < sin (v + 2 * π) := sin_pos_of_pos_of_lt_pi (by linarith) (by linarith)
        rw [sin_add_two_pi, d2, hcross] at hpos
        have hc := hC1 (by rw [hl, h])
        nlinarith
      · have h3 := d3 h
        rw [abs_of_nonneg h3.1] at hlt
        have hneg : sin (v - 2 * π) < 0 := sin_neg_of_neg_of_neg_pi_lt (by linarith [h3.2]) (by linarith)
        rw [sin_sub_two_pi, d2, hcross] at hneg
        have := hC2 (by rw [hl, h]; simp)
        have : 0 ≤ 2 * C * L := by positivity
        linarith
  refine ⟨δ, by rw [← hv', hvw], ?_⟩
  obtain ⟨t0, ht1, ht2⟩ := exists_param hu
  have f1 : cos (t0 + v) = vx := by
    rw [cos_add, ht1, ht2, d1, d2]
    linear_combination vx * hu
  have f2 : sin (t0 + v) = vy := by
    rw [sin_add, ht1, ht2, d1, d2]
    linear_combination vy * hu
  rw [← ht1, ← f1, hvw] at e1
  rw [← ht2, ← f2, hvw] at e2
  obtain ⟨g1, g2⟩ := chord_unique (hcos ▸ hne1) e1 e2
  rw [← ht1, ← ht2, g1, g2] at hx hy
  have hc : c' = c := by
    ext
    · linear_combination -hx
    · linear_combination -hy
  rw [ha, hc]

/-- C167: an arc with radii that are not 0, which runs from one point to another one along its ellipse and turns by less than a full turn.
The path reader, given the radii, rotation, flags and ends that `d` prints, before they are rounded to 6 digits, builds an arc with the
same centre, sweep and first axis, and with the same point at every position. -/
theorem C167_read_back {a : ArcData ℝ} {p q : Pt ℝ} {isAngle : Bool} (ha : 0 < rx a) (hb : 0 < ry a) (hpq : p.eq q = false)
    (hw : |a.sweep| < 2 * π) (h : FollowsEllipse (point isAngle p q a) p q a.center (rx a) (ry a) (rotation a) a.sweep) :
    ∃ b, svgCtor p (some (svgArgs a).rx) (some (svgArgs a).ry) (some (svgArgs a).rot) (some (svgArgs a).large) (some (svgArgs a).sweep) q =
        .ok b ∧ b.center = a.center ∧ b.sweep = a.sweep ∧ b.prx = a.prx ∧ ry b = ry a ∧
      ∀ u, point true p q b u = point isAngle p q a u := by
  obtain ⟨h0, h1, t, ht⟩ := h
  have hp : p = ellipse a.center (rx a) (ry a) (rotation a) t := by
    rw [← h0, ht 0 le_rfl zero_le_one, mul_zero, add_zero]
  have hq : q = ellipse a.center (rx a) (ry a) (rotation a) (t + a.sweep) := by
    rw [← h1, ht 1 zero_le_one le_rfl, mul_one]
  obtain ⟨δ, hδ, hback⟩ := svg_back (rot := Angle.asDegrees tau (rotation a)) ha hb hpq (by rw [rad_degrees]; exact hp)
    (by rw [rad_degrees]; exact hq) hw
  have hpt : ∀ x, pointAtT (native a.center (rx a) (ry a) (Angle.asDegrees tau (rotation a)) δ) x = pointAtT a x := by
    intro x
    rw [native_pointAtT _ ha hb, rad_degrees]
    unfold ellipse pointAtT
    congr 1 <;> ring
  have hsw : (native a.center (rx a) (ry a) (Angle.asDegrees tau (rotation a)) δ).sweep = a.sweep := by
    rw [← hδ, ← ofDegrees_eq]; rfl
  have hprx := (native_axes a.center (rx a) (ry a) (Angle.asDegrees tau (rotation a)) δ).1
  have hrb := native_rx a.center (rx a) (ry a) (Angle.asDegrees tau (rotation a)) δ
  have hsb := native_ry a.center (rx a) (ry a) (Angle.asDegrees tau (rotation a)) δ
  rw [rad_degrees] at hprx
  rw [abs_of_pos ha] at hrb
  rw [abs_of_pos hb] at hsb
  refine ⟨native a.center (rx a) (ry a) (Angle.asDegrees tau (rotation a)) δ, ?_, rfl, hsw, ?_, hsb, fun u => ?_⟩
  · unfold svgCtor svgArgs
    rw [if_neg (by simp [hpq, ha.ne', hb.ne'])]
    simp only [Option.getD_some]
    rw [← hback, show tau / 2 = π by unfold tau; ring]
  · rw [hprx, rx_cos, rx_sin]
    ext <;> simp
  · generalize native a.center (rx a) (ry a) (Angle.asDegrees tau (rotation a)) δ = b at hpt hsw hrb hsb
    unfold point
    rw [hpq]
    simp only [Bool.false_and, Bool.false_eq_true, if_false]
    split_ifs
    · rfl
    · rfl
    · have hp1 : p = pointAtT a t := by
        rw [hp]; unfold ellipse pointAtT; congr 1 <;> ring
      have hT := endT_pointAtT ha hb t
      have hT' := endT_pointAtT (a := b) (by rw [hrb]; exact ha) (by rw [hsb]; exact hb) t
      rw [hpt, ← hp1] at hT'
      rw [← hp1] at hT
      rw [hsw, hpt]
      exact pointAtT_add a ⟨hT'.1.trans hT.1.symm, hT'.2.trans hT.2.symm⟩ _

/-- C167: `d` of the arc read back prints the same parameters. -/
theorem C167_again {a : ArcData ℝ} {p q : Pt ℝ} {isAngle : Bool} (ha : 0 < rx a) (hb : 0 < ry a) (hpq : p.eq q = false)
    (hw : |a.sweep| < 2 * π) (h : FollowsEllipse (point isAngle p q a) p q a.center (rx a) (ry a) (rotation a) a.sweep) {b : ArcData ℝ}
    (hr : svgCtor p (some (svgArgs a).rx) (some (svgArgs a).ry) (some (svgArgs a).rot) (some (svgArgs a).large) (some (svgArgs a).sweep) q =
      .ok b) : svgArgs b = svgArgs a := by
  obtain ⟨b', h1, h2, h3, h4, h5, -⟩ := C167_read_back ha hb hpq hw h
  rw [h1] at hr
  cases hr
  unfold svgArgs
  have e1 : rx b = rx a := by unfold rx; rw [h2, h4]
  have e2 : rotation b = rotation a := by unfold rotation; rw [h2, h4]
  rw [e1, e2, h3, h5]

/-- an arc built from SVG parameters runs along its ellipse and turns by less than a full turn -/
theorem svg_follows {p q : Pt ℝ} {r s : ℝ} (rot : ℝ) (large sweep : Bool) (hpq : p.eq q = false) (hr : 0 < r) (hs : 0 < s)
    {a : ArcData ℝ} (h : a = svgParameterize p r s rot large sweep q) :
    0 < rx a ∧ 0 < ry a ∧ |a.sweep| < 2 * π ∧ FollowsEllipse (point true p q a) p q a.center (rx a) (ry a) (rotation a) a.sweep := by
  obtain ⟨k, C, L, ux, uy, vx, vy, c, hk, ha, hu, hv, hL, hdot, hcross, hC1, hC2, hp, hq, -, -⟩ :=
    svg_shape rot large sweep hpq hr.ne' hs.ne'
  have k0 : 0 < k := by linarith [hk.1]
  have hpi := pi_pos
  have R0 : 0 < k * r := by positivity
  have S0 : 0 < k * s := by positivity
  rw [ha] at h
  obtain ⟨d1, d2, d3, d4⟩ := delta_spec hu hv sweep
  obtain ⟨δ, hδ⟩ : ∃ δ, δ = deltaDegrees ux uy vx vy sweep := ⟨_, rfl⟩
  rw [← hδ] at h d1 d2 d3 d4
  have hsw : a.sweep = rad δ := by rw [h, ← ofDegrees_eq]; rfl
  rw [← hsw] at d1 d2 d3 d4
  have hrx : 0 < rx a := by rw [h, native_rx, abs_of_pos R0]; exact R0
  have hry : 0 < ry a := by rw [h, native_ry, abs_of_pos S0]; exact S0
  have hpt : ∀ t, pointAtT a t = ellipse c (k * r) (k * s) (rad rot) t := fun t => by rw [h]; exact native_pointAtT c R0 S0 rot δ t
  have hpt' : ∀ t, pointAtT a t = ellipse a.center (rx a) (ry a) (rotation a) t := fun t => by
    unfold ellipse pointAtT
    congr 1 <;> ring
  obtain ⟨t0, ht1, ht2⟩ := exists_param hu
  have hpe : p = pointAtT a t0 := by
    rw [hpt, hp]; simp only [ellipse, ht1, ht2]
  have hqe : q = pointAtT a (t0 + a.sweep) := by
    have hv1 : cos (t0 + a.sweep) = vx := by
      rw [cos_add, ht1, ht2, d1, d2]
      linear_combination vx * hu
    have hv2 : sin (t0 + a.sweep) = vy := by
      rw [sin_add, ht1, ht2, d1, d2]
      linear_combination vy * hu
    rw [hpt, hq]; simp only [ellipse, hv1, hv2]
  have hne1 : cos a.sweep ≠ 1 := by rw [d1, hdot]; intro h; linarith
  have hne2 : a.sweep ≠ -(2 * π) := fun h => hne1 (by rw [h, cos_neg, cos_two_pi])
  have hT := endT_pointAtT hrx hry t0
  rw [← hpe] at hT
  refine ⟨hrx, hry, ?_, ?_, ?_, t0, fun u _ _ => ?_⟩
  · cases hsweep : sweep
    · have := d4 hsweep
      rw [abs_of_neg this.2]
      have : -(2 * π) < a.sweep := lt_of_le_of_ne this.1 (Ne.symm hne2)
      linarith
    · have := d3 hsweep
      rw [abs_of_nonneg this.1]
      exact this.2
  · simp [point, hpq]
  · simp [point, hpq]
  · unfold point
    rw [hpq]
    simp only [Bool.false_and, Bool.false_eq_true, if_false]
    split_ifs with h0 h1
    · rw [h0, mul_zero, add_zero, ← hpt', ← hpe]
    · rw [h1, mul_one, ← hpt', ← hqe]
    · rw [pointAtT_add a hT, hpt']

/-- C167: for an arc that the path reader built, with any positive radii: reading what `d` prints for it, before the numbers are rounded to
6 digits, gives an arc with the same point at every position. -/
theorem C167_svg {p q : Pt ℝ} {r s : ℝ} (rot : ℝ) (large sweep : Bool) (hpq : p.eq q = false) (hr : 0 < r) (hs : 0 < s) :
    ∃ a b, svgCtor p (some r) (some s) (some rot) (some large) (some sweep) q = .ok a ∧
      svgCtor p (some (svgArgs a).rx) (some (svgArgs a).ry) (some (svgArgs a).rot) (some (svgArgs a).large) (some (svgArgs a).sweep) q =
        .ok b ∧ ∀ u, point true p q b u = point true p q a u := by
  obtain ⟨ha, hb, hw, hf⟩ := svg_follows rot large sweep hpq hr hs rfl
  obtain ⟨b, h1, -, -, -, -, h2⟩ := C167_read_back ha hb hpq hw hf
  refine ⟨svgParameterize p r s rot large sweep q, b, ?_, h1, h2⟩
  unfold svgCtor
  rw [if_neg (by simp [hpq, hr.ne', hs.ne'])]
  rfl

/-- points and radii as the theorem asks for -/
example : (⟨1, 0⟩ : Pt ℝ).eq ⟨0, 1⟩ = false ∧ (0 : ℝ) < 2 ∧ (0 : ℝ) < 1 := by norm_num [Pt.eq, err]

/-- an arc as the theorems ask for: three quarters of an ellipse, in the negative direction -/
example : ∃ (a : ArcData ℝ) (p q : Pt ℝ), 0 < rx a ∧ 0 < ry a ∧ p.eq q = false ∧ |a.sweep| < 2 * π ∧
    FollowsEllipse (point false p q a) p q a.center (rx a) (ry a) (rotation a) a.sweep ∧ (svgArgs a).large = true ∧
    (svgArgs a).sweep = false := by
  have hpi := pi_pos
  have h2 : (0 : ℝ) < 2 := by norm_num
  have hx : rx (upright ⟨0, 0⟩ 2 1 (-(3 * π / 2))) = 2 := upright_rx h2
  have hy : ry (upright ⟨0, 0⟩ 2 1 (-(3 * π / 2))) = 1 := upright_ry one_pos
  have hrot : rotation (upright ⟨0, 0⟩ 2 1 (-(3 * π / 2))) = 0 := by
    unfold rotation angle atan2 upright
    simp only [sub_zero, zero_add]
    exact Complex.arg_ofReal_of_nonneg h2.le
  have hsw : (upright ⟨0, 0⟩ 2 1 (-(3 * π / 2))).sweep = -(3 * π / 2) := rfl
  have habs : |(-(3 * π / 2))| = 3 * π / 2 := by rw [abs_neg, abs_of_pos (by positivity)]
  have hc : cos (-(3 * π / 2)) = 0 := by
    rw [cos_neg, show 3 * π / 2 = π / 2 + π by ring, cos_add_pi, cos_pi_div_two, neg_zero]
  have hs : sin (-(3 * π / 2)) = 1 := by
    rw [sin_neg, show 3 * π / 2 = π / 2 + π by ring, sin_add_pi, sin_pi_div_two, neg_neg]
  refine ⟨upright ⟨0, 0⟩ 2 1 (-(3 * π / 2)), ⟨2, 0⟩, ⟨0, 1⟩, by rw [hx]; exact h2, by rw [hy]; exact one_pos, ?_, ?_, ?_, ?_, ?_⟩
  · norm_num [Pt.eq, err]
  · rw [hsw, habs]; linarith
  · rw [hx, hy, hrot]
    refine follows_given (t := 0) (by rw [hx]; exact h2) (by rw [hy]; exact one_pos) (fun t => upright_pointAtT h2 one_pos t) ?_ ?_ ?_
    · rw [hsw]; linarith
    · ext <;> simp [ellipse, upright]
    · rw [hsw, zero_add]
      ext <;> simp [ellipse, upright, hc, hs]
  · simp only [svgArgs, hsw, habs, tau]
    exact decide_eq_true (by linarith)
  · simp only [svgArgs, hsw]
    exact decide_eq_false (by linarith)

/-- C167 fails for an arc that turns by a full turn: it draws the whole ellipse, but what is read back is its start only. -/
theorem C167_full_turn_wrong : ∃ (a : ArcData ℝ) (p : Pt ℝ) (b : ArcData ℝ), 0 < rx a ∧ 0 < ry a ∧
    FollowsEllipse (point false p p a) p p a.center (rx a) (ry a) 0 a.sweep ∧ |a.sweep| = 2 * π ∧
    svgCtor p (some (svgArgs a).rx) (some (svgArgs a).ry) (some (svgArgs a).rot) (some (svgArgs a).large) (some (svgArgs a).sweep) p =
      .ok b ∧ (∀ u, point true p p b u = p) ∧ point false p p a (1 / 2) ≠ p := by
  have hpi := pi_pos
  have hx : rx (upright ⟨0, 0⟩ 1 1 (2 * π)) = 1 := upright_rx one_pos
  have hy : ry (upright ⟨0, 0⟩ 1 1 (2 * π)) = 1 := upright_ry one_pos
  have hsw : (upright ⟨0, 0⟩ 1 1 (2 * π)).sweep = 2 * π := rfl
  have hself : (⟨1, 0⟩ : Pt ℝ).eq ⟨1, 0⟩ = true := by norm_num [Pt.eq, err]
  have hpt := fun t => upright_pointAtT (c := ⟨0, 0⟩) (w := 2 * π) one_pos one_pos t
  have hp : (⟨1, 0⟩ : Pt ℝ) = ellipse ⟨0, 0⟩ 1 1 0 0 := by ext <;> simp [ellipse]
  refine ⟨upright ⟨0, 0⟩ 1 1 (2 * π), ⟨1, 0⟩, _, by rw [hx]; exact one_pos, by rw [hy]; exact one_pos, ?_, ?_, if_pos (Or.inl hself),
    fun u => ?_, ?_⟩
  · rw [hx, hy]
    refine follows_given (t := 0) (by rw [hx]; exact one_pos) (by rw [hy]; exact one_pos) hpt ?_ hp ?_
    · rw [hsw]; linarith
    · rw [hsw, zero_add]
      ext <;> simp [ellipse, upright]
  · rw [hsw, abs_of_pos (by positivity)]
  · unfold point sweepIsZero
    rw [hself]
    simp [Angle.eq]
  · have hT := endT_pointAtT (a := upright ⟨0, 0⟩ 1 1 (2 * π)) (by rw [hx]; exact one_pos) (by rw [hy]; exact one_pos) 0
    rw [hpt, ← hp] at hT
    have hne : ¬ (2 * π = 0) := by positivity
    unfold point sweepIsZero
    rw [hsw]
    simp only [hne, decide_false, Bool.and_false, Bool.false_eq_true, if_false]
    rw [if_neg (by norm_num), if_neg (by norm_num), pointAtT_add _ hT, hpt, zero_add, show 2 * π * (1 / 2) = π by ring]
    intro h
    have := congrArg Pt.x h
    simp [ellipse] at this
    norm_num at this

/-- the middle of an arc of the unit circle between two opposite points at most half a turn apart is as far from the middle of its ends
as the sagitta -/
theorem middle_near {c p q : Pt ℝ} {r t w : ℝ} (hp : p = ⟨r, 0⟩) (hq : q = ⟨-r, 0⟩)
    (h1 : p = ellipse c 1 1 0 t) (h2 : q = ellipse c 1 1 0 (t + w)) (hw : |w| ≤ π) :
    ∃ x y κ, x ^ 2 + y ^ 2 = 1 ∧ 0 ≤ κ ∧ κ ^ 2 = 1 - r ^ 2 ∧ ellipse c 1 1 0 (t + w * (1 / 2)) = ⟨(1 - κ) * x, (1 - κ) * y⟩ := by
  obtain ⟨m, hm⟩ : ∃ m, m = t + w * (1 / 2) := ⟨_, rfl⟩
  obtain ⟨v, hv⟩ : ∃ v, v = w * (1 / 2) := ⟨_, rfl⟩
  have hc : 0 ≤ cos v := by
    apply cos_nonneg_of_neg_pi_div_two_le_of_le
    · rw [hv]; linarith [(abs_le.1 hw).1]
    · rw [hv]; linarith [(abs_le.1 hw).2]
  rw [show t = m - v by rw [hm, hv]; ring] at h1
  rw [show t + w = m + v by rw [hm, hv]; ring] at h2
  rw [hp] at h1
  rw [hq] at h2
  have e1 := congrArg Pt.x h1
  have e2 := congrArg Pt.y h1
  have e3 := congrArg Pt.x h2
  have e4 := congrArg Pt.y h2
  simp only [ellipse, cos_zero, sin_zero, cos_sub, cos_add, sin_sub, sin_add] at e1 e2 e3 e4
  have hM := cos_sq_sin_sq m
  have hV := cos_sq_sin_sq v
  have cx : c.x = -(cos v * cos m) := by linear_combination (-1 / 2) * (e1 + e3)
  have cy : c.y = -(cos v * sin m) := by linear_combination (-1 / 2) * (e2 + e4)
  refine ⟨cos m, sin m, cos v, hM, hc, ?_, ?_⟩
  · have f1 : r = sin m * sin v := by linear_combination (1 / 2) * (e1 - e3)
    have f2 : 0 = cos m * sin v := by linear_combination (-1 / 2) * (e2 - e4)
    rw [f1]
    linear_combination hV + sin v ^ 2 * hM + cos m * sin v * f2
  · rw [← hm]
    ext
    · simp only [ellipse, cos_zero, sin_zero, cx]; ring
    · simp only [ellipse, cos_zero, sin_zero, cy]; ring

/-- points at different distances from the origin -/
theorem dist_ge {x y x' y' ρ σ : ℝ} (h : x ^ 2 + y ^ 2 = 1) (h' : x' ^ 2 + y' ^ 2 = 1) (hρ : 0 ≤ ρ) (hσ : ρ ≤ σ) :
    σ - ρ ≤ Spec.dist ⟨ρ * x, ρ * y⟩ ⟨σ * x', σ * y'⟩ := by
  unfold Spec.dist
  apply Real.le_sqrt_of_sq_le
  have hd : x * x' + y * y' ≤ 1 := by nlinarith [sq_nonneg (x - x'), sq_nonneg (y - y')]
  have : 0 ≤ ρ * σ * (1 - (x * x' + y * y')) := mul_nonneg (mul_nonneg hρ (hρ.trans hσ)) (by linarith)
  have e : (σ * x' - ρ * x) ^ 2 + (σ * y' - ρ * y) ^ 2 = (σ - ρ) ^ 2 + 2 * (ρ * σ * (1 - (x * x' + y * y'))) := by
    linear_combination σ ^ 2 * h' + ρ ^ 2 * h
  rw [e]
  linarith

/-- C167 is about the parameters before they are rounded. With radii printed with 6 digits the arc read back may be off by much more than
the sixth digit: for half a circle of radius 0.9999996, which is printed as 1, by more than 0.0008. (The ends are printed exactly.) -/
theorem C167_digits_wrong : ∃ (a : ArcData ℝ) (p q : Pt ℝ) (b : ArcData ℝ),
    FollowsEllipse (point false p q a) p q a.center (rx a) (ry a) 0 a.sweep ∧ a.sweep = π ∧ (svgArgs a).rx = 9999996 / 10 ^ 7 ∧
    (svgArgs a).ry = 9999996 / 10 ^ 7 ∧ (svgArgs a).rot = 0 ∧ Print.fmtG 6 (9999996 / 10 ^ 7) = ['1'] ∧ Print.fmtG 6 0 = ['0'] ∧
    svgCtor p (some 1) (some 1) (some 0) (some (svgArgs a).large) (some (svgArgs a).sweep) q = .ok b ∧
    8 / 10 ^ 4 ≤ Spec.dist (point true p q b (1 / 2)) (point false p q a (1 / 2)) := by
  have hpi := pi_pos
  obtain ⟨r, hr⟩ : ∃ r : ℝ, r = 9999996 / 10 ^ 7 := ⟨_, rfl⟩
  have r0 : 0 < r := by rw [hr]; norm_num
  have hx : rx (upright ⟨0, 0⟩ r r π) = r := upright_rx r0
  have hy : ry (upright ⟨0, 0⟩ r r π) = r := upright_ry r0
  have hsw : (upright ⟨0, 0⟩ r r π).sweep = π := rfl
  have hrot : rotation (upright ⟨0, 0⟩ r r π) = 0 := by
    unfold rotation angle atan2 upright
    simp only [sub_zero, zero_add]
    exact Complex.arg_ofReal_of_nonneg r0.le
  have hpt := fun t => upright_pointAtT (c := ⟨0, 0⟩) (w := π) r0 r0 t
  have hp : (⟨r, 0⟩ : Pt ℝ) = ellipse ⟨0, 0⟩ r r 0 0 := by ext <;> simp [ellipse]
  have hq : (⟨-r, 0⟩ : Pt ℝ) = ellipse ⟨0, 0⟩ r r 0 (0 + π) := by ext <;> simp [ellipse]
  have hf : FollowsEllipse (point false ⟨r, 0⟩ ⟨-r, 0⟩ (upright ⟨0, 0⟩ r r π)) ⟨r, 0⟩ ⟨-r, 0⟩ ⟨0, 0⟩ r r 0 π :=
    follows_given (by rw [hx]; exact r0) (by rw [hy]; exact r0) hpt (by rw [hsw]; exact hpi.ne') hp hq
  have hpq : (⟨r, 0⟩ : Pt ℝ).eq ⟨-r, 0⟩ = false := by
    rw [hr]; norm_num [Pt.eq, err]
  have hlarge : (svgArgs (upright ⟨0, 0⟩ r r π)).large = false := by
    simp only [svgArgs, hsw, tau, abs_of_pos hpi]
    exact decide_eq_false (by linarith)
  refine ⟨upright ⟨0, 0⟩ r r π, ⟨r, 0⟩, ⟨-r, 0⟩,
    svgParameterize ⟨r, 0⟩ 1 1 0 false (svgArgs (upright ⟨0, 0⟩ r r π)).sweep ⟨-r, 0⟩, ?_, hsw, hx.trans hr, hy.trans hr, ?_, ?_, ?_, ?_, ?_⟩
  · rw [hx, hy]; exact hf
  · simp only [svgArgs, hrot, Angle.asDegrees]; norm_num
  · decide +kernel
  · decide +kernel
  · unfold svgCtor
    rw [if_neg (by simp [hpq]), hlarge]
    rfl
  · obtain ⟨c, k, t, w, hk, hd, h0, h1, -, -, -, -, hsmall⟩ :=
      C78_arc (p := ⟨r, 0⟩) (q := ⟨-r, 0⟩) 0 false (svgArgs (upright ⟨0, 0⟩ r r π)).sweep hpq one_pos one_pos
    have r1 : r ^ 2 ≤ 1 := by rw [hr]; norm_num
    have k1 : k = 1 := by
      refine le_antisymm (hk.2.2 1 le_rfl ⟨⟨0, √(1 - r ^ 2)⟩, ?_, ?_⟩) hk.1
      · simp only [OnEllipse, rad]
        norm_num
        rw [Real.sq_sqrt (by linarith)]; ring
      · simp only [OnEllipse, rad]
        norm_num
        rw [Real.sq_sqrt (by linarith)]; ring
    subst k1
    simp only [one_mul, show rad 0 = 0 by simp [rad]] at hd
    have e0 := hd 0 le_rfl zero_le_one
    have e1 := hd 1 zero_le_one le_rfl
    rw [h0, mul_zero, add_zero] at e0
    rw [h1, mul_one] at e1
    obtain ⟨x, y, κ, hxy, κ0, hκ, hmid⟩ := middle_near rfl rfl e0 e1 (hsmall rfl)
    obtain ⟨-, -, t', ht'⟩ := hf
    rw [hd (1 / 2) (by norm_num) (by norm_num), hmid, ht' (1 / 2) (by norm_num) (by norm_num)]
    have e : ellipse ⟨0, 0⟩ r r 0 (t' + π * (1 / 2)) = ⟨r * cos (t' + π * (1 / 2)), r * sin (t' + π * (1 / 2))⟩ := by
      ext <;> simp [ellipse]
    rw [e]
    have hκ1 : 88 / 10 ^ 5 ≤ κ := by
      by_contra hlt
      push Not at hlt
      have : κ ^ 2 < (88 / 10 ^ 5) ^ 2 := by nlinarith
      rw [hκ, hr] at this
      norm_num at this
    have hκ2 : κ ≤ 1 := by
      nlinarith [sq_nonneg r]
    have := dist_ge hxy (cos_sq_sin_sq (t' + π * (1 / 2))) (ρ := 1 - κ) (σ := r) (by linarith) (by rw [hr]; norm_num at hκ1 ⊢; linarith)
    refine le_trans ?_ this
    rw [hr]
    norm_num at hκ1 ⊢
    linarith

end Svgio.Arc
