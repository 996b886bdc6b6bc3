import Verif.Props.ArcBox
import Verif.Props.CurveLength
import Mathlib.MeasureTheory.Integral.IntervalIntegral.FundThmCalculus

/-!
C87: the length of an arc.
-/

namespace Svgio.Arc

open Real Spec
open Svgio.Props (Smooth bisection_smooth)

/-- the speed of an ellipse with radii `r` and `s` -/
noncomputable def speed (r s t : ℝ) : ℝ := √(r ^ 2 * sin t ^ 2 + s ^ 2 * cos t ^ 2)

theorem speed_continuous (r s : ℝ) : Continuous (speed r s) := by
  unfold speed
  fun_prop

/-- an arc that runs along its ellipse has a continuous derivative -/
noncomputable def smoothArc {a : ArcData ℝ} {f : ℝ → Pt ℝ} {T : ℝ} (hf : ∀ u, f u = pointAtT a (T + a.sweep * u)) : Smooth f :=
  have hin : ∀ u, HasDerivAt (fun t => T + a.sweep * t) a.sweep u := fun u => by
    simpa using ((hasDerivAt_id u).const_mul a.sweep).const_add T
  { dx := fun u => rx a * cos (rotation a) * (-sin (T + a.sweep * u) * a.sweep) -
      ry a * sin (rotation a) * (cos (T + a.sweep * u) * a.sweep)
    dy := fun u => rx a * sin (rotation a) * (-sin (T + a.sweep * u) * a.sweep) +
      ry a * cos (rotation a) * (cos (T + a.sweep * u) * a.sweep)
    hx := fun u => by
      have h := (((hin u).cos.const_mul (rx a * cos (rotation a))).sub ((hin u).sin.const_mul (ry a * sin (rotation a)))).const_add a.center.x
      refine h.congr_of_eventuallyEq (Filter.Eventually.of_forall fun t => ?_)
      simp only [hf, pointAtT, Pi.sub_apply]
      ring
    hy := fun u => by
      have h := (((hin u).cos.const_mul (rx a * sin (rotation a))).add ((hin u).sin.const_mul (ry a * cos (rotation a)))).const_add a.center.y
      refine h.congr_of_eventuallyEq (Filter.Eventually.of_forall fun t => ?_)
      simp only [hf, pointAtT, Pi.add_apply]
      ring
    cx := by fun_prop
    cy := by fun_prop }

/-- the length of an arc as an integral over the parameter of the ellipse -/
theorem arcLength_ellipse {a : ArcData ℝ} {f : ℝ → Pt ℝ} {T : ℝ} (hf : ∀ u, f u = pointAtT a (T + a.sweep * u)) :
    arcLength f = |∫ t in T..T + a.sweep, speed (rx a) (ry a) t| := by
  unfold arcLength
  rw [(smoothArc hf).arc]
  have e : ∀ u, √((smoothArc hf).dx u ^ 2 + (smoothArc hf).dy u ^ 2) = |a.sweep| * speed (rx a) (ry a) (T + a.sweep * u) := by
    intro u
    unfold speed
    rw [← sqrt_sq_eq_abs, ← sqrt_mul (sq_nonneg _)]
    congr 1
    simp only [smoothArc]
    have := cos_sq_add_sin_sq (rotation a)
    linear_combination (a.sweep ^ 2 * (rx a ^ 2 * sin (T + a.sweep * u) ^ 2 + ry a ^ 2 * cos (T + a.sweep * u) ^ 2)) * this
  simp only [e]
  rw [intervalIntegral.integral_const_mul]
  have hsub := intervalIntegral.smul_integral_comp_add_mul (a := 0) (b := 1) (speed (rx a) (ry a)) a.sweep T
  simp only [mul_zero, add_zero, mul_one, smul_eq_mul] at hsub
  rw [← hsub, abs_mul]
  congr 1
  symm
  apply abs_of_nonneg
  apply intervalIntegral.integral_nonneg zero_le_one
  intro u _
  exact sqrt_nonneg _

/-- the elliptic integral of the code is the length -/
theorem exact_eq {r s : ℝ} (hs : 0 < s) (T w : ℝ) :
    s * |ellipeinc (T + w) (1 - (r / s) ^ 2) - ellipeinc T (1 - (r / s) ^ 2)| = |∫ t in T..T + w, speed r s t| := by
  unfold ellipeinc
  have hc : Continuous fun t => √(1 - (1 - (r / s) ^ 2) * sin t ^ 2) := by fun_prop
  rw [intervalIntegral.integral_interval_sub_left (hc.intervalIntegrable _ _) (hc.intervalIntegrable _ _)]
  rw [← abs_of_pos hs, ← abs_mul, abs_of_pos hs, ← intervalIntegral.integral_const_mul]
  congr 1
  apply intervalIntegral.integral_congr
  intro t _
  simp only [speed]
  have e : s * √(1 - (1 - (r / s) ^ 2) * sin t ^ 2) = √(s ^ 2) * √(1 - (1 - (r / s) ^ 2) * sin t ^ 2) := by
    rw [sqrt_sq hs.le]
  rw [e, ← sqrt_mul (sq_nonneg _)]
  congr 1
  have := cos_sq_add_sin_sq t
  field_simp
  linear_combination (-s ^ 2) * this

/-- the speed lies between the radii -/
theorem speed_near {r s : ℝ} (hr : 0 < r) (hs : 0 < s) (t : ℝ) : |speed r s t - r| ≤ |r - s| := by
  have h1 : min r s ≤ speed r s t := by
    unfold speed
    apply le_sqrt_of_sq_le
    have := cos_sq_add_sin_sq t
    have a1 : min r s ^ 2 ≤ r ^ 2 := pow_le_pow_left₀ (lt_min hr hs).le (min_le_left _ _) 2
    have a2 : min r s ^ 2 ≤ s ^ 2 := pow_le_pow_left₀ (lt_min hr hs).le (min_le_right _ _) 2
    nlinarith [sq_nonneg (sin t), sq_nonneg (cos t)]
  have h2 : speed r s t ≤ max r s := by
    unfold speed
    apply sqrt_le_iff.2
    refine ⟨hr.le.trans (le_max_left _ _), ?_⟩
    have := cos_sq_add_sin_sq t
    have a1 : r ^ 2 ≤ max r s ^ 2 := pow_le_pow_left₀ hr.le (le_max_left _ _) 2
    have a2 : s ^ 2 ≤ max r s ^ 2 := pow_le_pow_left₀ hs.le (le_max_right _ _) 2
    nlinarith [sq_nonneg (sin t), sq_nonneg (cos t)]
  rcases le_total r s with h | h
  · rw [min_eq_left h] at h1
    rw [max_eq_right h] at h2
    rw [abs_of_nonneg (by linarith), abs_of_nonpos (by linarith)]
    linarith
  · rw [min_eq_right h] at h1
    rw [max_eq_left h] at h2
    rw [abs_of_nonpos (by linarith), abs_of_nonneg (by linarith)]
    linarith

theorem circle_near {r s : ℝ} (hr : 0 < r) (hs : 0 < s) (T w : ℝ) :
    |(|r * w| - |∫ t in T..T + w, speed r s t|)| ≤ |r - s| * |w| := by
  have h1 : r * w = ∫ _ in T..T + w, r := by
    rw [intervalIntegral.integral_const, smul_eq_mul]; ring
  rw [h1]
  refine (abs_abs_sub_abs_le_abs_sub _ _).trans ?_
  rw [← intervalIntegral.integral_sub (by simp) ((speed_continuous r s).intervalIntegrable _ _)]
  have := intervalIntegral.norm_integral_le_of_norm_le_const (a := T) (b := T + w) (f := fun t => r - speed r s t) (C := |r - s|)
    (fun t _ => by rw [norm_eq_abs, abs_sub_comm]; exact speed_near hr hs t)
  simpa using this

/-- C87: the length of an arc whose ends are on its ellipse. With scipy it is the length of the curve, except that an ellipse whose radii
differ by less than 1e-12 is taken for a circle; this is exact for circles, and otherwise off by less than 1e-12 for each radian. Without
scipy it is found by bisection: this succeeds with enough nested calls, and gives at most the length of the curve, and at least the
length of the polygon with `2 ^ (min_depth + 1)` corners on the curve. -/
theorem C87_length {a : ArcData ℝ} (ha : 0 < rx a) (hb : 0 < ry a) {start stop : Pt ℝ} {t : ℝ}
    (h1 : start = ellipse a.center (rx a) (ry a) (rotation a) t)
    (h2 : stop = ellipse a.center (rx a) (ry a) (rotation a) (t + a.sweep)) {isAngle : Bool} (hw : sweepIsZero isAngle a.sweep = false)
    {error : ℝ} (he : 0 < error) (minDepth : ℕ) :
    (∀ scipy fuel, |rx a - ry a| < 1 / 10 ^ 12 → ∃ L, length scipy isAngle fuel error minDepth start stop a = .ok L ∧
      |L - arcLength (point isAngle start stop a)| ≤ |rx a - ry a| * |a.sweep|) ∧
    (∀ fuel, 1 / 10 ^ 12 ≤ |rx a - ry a| →
      length true isAngle fuel error minDepth start stop a = .ok (arcLength (point isAngle start stop a))) ∧
    (1 / 10 ^ 12 ≤ |rx a - ry a| → (∃ n, ∀ fuel, n ≤ fuel → ∃ L, length false isAngle fuel error minDepth start stop a = .ok L) ∧
      ∀ fuel L, length false isAngle fuel error minDepth start stop a = .ok L →
        L ≤ arcLength (point isAngle start stop a) ∧ polygonLength (point isAngle start stop a) 0 1 (2 ^ (minDepth + 1)) ≤ L) := by
  have hp := point_wave ha hb h1 h2 hw
  have hlen := arcLength_ellipse hp
  refine ⟨fun scipy fuel hd => ?_, fun fuel hd => ?_, fun hd => ?_⟩
  · refine ⟨|rx a * a.sweep|, ?_, ?_⟩
    · unfold length
      rw [hw, if_neg (by simp)]
      simp only
      rw [if_pos (show |rx a - ry a| < err from hd)]
    · rw [hlen]
      exact circle_near ha hb _ _
  · unfold length exactLength
    rw [hw, if_neg (by simp)]
    simp only
    rw [if_neg (show ¬ |rx a - ry a| < err from not_lt.2 hd), if_neg hb.ne']
    simp only [if_true]
    rw [exact_eq hb, hlen]
  · have hl : ∀ fuel, length false isAngle fuel error minDepth start stop a =
        Seg.lineLength (point isAngle start stop a) fuel 0 1 error minDepth := by
      intro fuel
      unfold length
      rw [hw, if_neg (by simp)]
      simp only
      rw [if_neg (show ¬ |rx a - ry a| < err from not_lt.2 hd), if_neg (by simp)]
    simp only [hl]
    have := bisection_smooth (smoothArc hp) error he minDepth
    exact ⟨this.1, fun fuel L h => ⟨(this.2 fuel L h).1, (this.2 fuel L h).2.1⟩⟩

/-- the length of an arc of a circle -/
theorem C87_circle {a : ArcData ℝ} (ha : 0 < rx a) (hab : rx a = ry a) {start stop : Pt ℝ} {t : ℝ}
    (h1 : start = ellipse a.center (rx a) (ry a) (rotation a) t)
    (h2 : stop = ellipse a.center (rx a) (ry a) (rotation a) (t + a.sweep)) {isAngle : Bool} (hw : sweepIsZero isAngle a.sweep = false)
    (scipy : Bool) (fuel : ℕ) (error : ℝ) (minDepth : ℕ) :
    length scipy isAngle fuel error minDepth start stop a = .ok (rx a * |a.sweep|) ∧
    arcLength (point isAngle start stop a) = rx a * |a.sweep| := by
  have hp := point_wave ha (hab ▸ ha) h1 h2 hw
  have hlen := arcLength_ellipse hp
  have hn := circle_near ha (hab ▸ ha) (endT a start) a.sweep
  rw [← hlen, hab, sub_self, abs_zero, zero_mul, ← hab] at hn
  have := abs_nonpos_iff.1 hn
  rw [abs_mul, abs_of_pos ha] at this
  refine ⟨?_, by linarith⟩
  unfold length
  rw [hw, if_neg (by simp)]
  simp only
  rw [if_pos (show |rx a - ry a| < err by rw [hab, sub_self, abs_zero]; unfold err; positivity), abs_mul, abs_of_pos ha]

/-- C87 fails for a full turn given as an `Angle`, which the code takes for no turn. -/
theorem C87_full_turn_wrong (scipy : Bool) (fuel : ℕ) (error : ℝ) (minDepth : ℕ) : length scipy true fuel error minDepth ⟨1, 0⟩ ⟨1, 0⟩
    { center := ⟨0, 0⟩, prx := ⟨1, 0⟩, pry := ⟨0, 1⟩, sweep := 2 * π } = .ok 0 := by
  have hpi := pi_pos
  unfold length
  rw [if_pos]
  have : (2 * π) / tau = 1 := by unfold tau; field_simp
  simp only [sweepIsZero, if_true, Angle.eq, Angle.pyMod, this]
  simp [tau]

/-- C87 fails for an arc with a radius of 0, which SVG draws as a line: its length is 0. -/
theorem C87_flat_wrong (scipy : Bool) (fuel : ℕ) (error : ℝ) (minDepth : ℕ) : length scipy true fuel error minDepth ⟨1, 0⟩ ⟨0, 0⟩
    (svgParameterize ⟨1, 0⟩ 0 1 0 false false ⟨0, 0⟩) = .ok 0 := by
  have h1 : svgParameterize ⟨1, 0⟩ 0 1 0 false false ⟨0, 0⟩ = { center := ⟨1, 0⟩, prx := ⟨1, 0⟩, pry := ⟨1, 0⟩, sweep := 0 } := by
    unfold svgParameterize
    rw [if_pos (by right; left; rfl)]
  rw [h1]
  unfold length
  rw [if_pos]
  simp [sweepIsZero, Angle.eq]

/-- a quarter of an ellipse meets the hypotheses of C87 -/
example : ∃ (a : ArcData ℝ) (start stop : Pt ℝ) (t : ℝ), 0 < rx a ∧ 0 < ry a ∧
    start = ellipse a.center (rx a) (ry a) (rotation a) t ∧ stop = ellipse a.center (rx a) (ry a) (rotation a) (t + a.sweep) ∧
    sweepIsZero false a.sweep = false ∧ 1 / 10 ^ 12 ≤ |rx a - ry a| := by
  have hpi := pi_pos
  have e1 : rx { center := ⟨0, 0⟩, prx := ⟨2, 0⟩, pry := ⟨0, 1⟩, sweep := π / 2 } = 2 := by
    rw [rx_eq, show ((2 : ℝ) - 0) ^ 2 + (0 - 0) ^ 2 = 2 ^ 2 by norm_num, sqrt_sq (by norm_num)]
  have e2 : ry { center := ⟨0, 0⟩, prx := ⟨2, 0⟩, pry := ⟨0, 1⟩, sweep := π / 2 } = 1 := by
    rw [ry_eq]; norm_num
  refine ⟨{ center := ⟨0, 0⟩, prx := ⟨2, 0⟩, pry := ⟨0, 1⟩, sweep := π / 2 }, _, _, 0, ?_, ?_, rfl, rfl, ?_, ?_⟩
  · rw [e1]; norm_num
  · rw [e2]; norm_num
  · simp [sweepIsZero, hpi.ne']
  · rw [e1, e2]; norm_num

end Svgio.Arc
