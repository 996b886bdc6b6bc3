import Verif.Model.Arc
import Verif.Spec.Arc
import Mathlib.Tactic.FieldSimp
import Mathlib.Tactic.LinearCombination
import Mathlib.Tactic.Linarith

/-!
Lemmas about the parameter of a point of an ellipse.
-/

namespace Svgio.Arc

open Real

theorem atan2_cos (x y : ℝ) : √(x ^ 2 + y ^ 2) * cos (atan2 y x) = x := by
  have h := Complex.norm_mul_cos_arg ⟨x, y⟩
  rw [Complex.norm_eq_sqrt_sq_add_sq] at h
  exact h

theorem atan2_sin (x y : ℝ) : √(x ^ 2 + y ^ 2) * sin (atan2 y x) = y := by
  have h := Complex.norm_mul_sin_arg ⟨x, y⟩
  rw [Complex.norm_eq_sqrt_sq_add_sq] at h
  exact h

/-- two unit vectors in the same direction are equal -/
theorem same_dir {x y u v k l : ℝ} (h1 : x ^ 2 + y ^ 2 = 1) (h2 : u ^ 2 + v ^ 2 = 1) (hk : 0 < k) (hl : 0 < l)
    (hx : k * x = l * u) (hy : k * y = l * v) : x = u ∧ y = v := by
  have hkl : k = l := by
    have : k ^ 2 = l ^ 2 := by linear_combination -k ^ 2 * h1 + l ^ 2 * h2 + (k * x + l * u) * hx + (k * y + l * v) * hy
    nlinarith
  subst hkl
  exact ⟨mul_left_cancel₀ hk.ne' hx, mul_left_cancel₀ hk.ne' hy⟩

theorem cos_sq_sin_sq (t : ℝ) : cos t ^ 2 + sin t ^ 2 = 1 := cos_sq_add_sin_sq t

theorem pyMod_range (x : ℝ) : 0 ≤ Angle.pyMod x tau ∧ Angle.pyMod x tau < tau ∧ ∃ n : ℤ, x = Angle.pyMod x tau + n * (2 * π) := by
  have ht : 0 < tau := by unfold tau; positivity
  unfold Angle.pyMod
  have h1 := Int.floor_le (x / tau)
  have h2 := Int.lt_floor_add_one (x / tau)
  rw [le_div_iff₀ ht] at h1
  rw [div_lt_iff₀ ht] at h2
  refine ⟨by linarith, by linarith, ⌊x / tau⌋, ?_⟩
  unfold tau
  ring

/-- the parameter found for an angle: its direction is that of `(b cos θ, a sin θ)` -/
theorem ellipseT_spec {a b : ℝ} (ha : 0 < a) (hb : 0 < b) (θ : ℝ) :
    ∃ k, 0 < k ∧ k * cos (ellipseT a b θ) = b * cos θ ∧ k * sin (ellipseT a b θ) = a * sin θ := by
  obtain ⟨m0, m1, n, hn⟩ := pyMod_range |θ|
  set m := Angle.pyMod |θ| tau with hm
  have hcos : cos θ = cos m := by rw [← cos_abs θ, hn, cos_add_int_mul_two_pi]
  have hsin : sin |θ| = sin m := by rw [hn, sin_add_int_mul_two_pi]
  have hpi := pi_pos
  have e14 : tau / 4 = π / 2 := by unfold tau; ring
  have e34 : 3 * (tau / 4) = 3 * (π / 2) := by unfold tau; ring
  have e12 : tau / 2 = π := by unfold tau; ring
  have hdef : ellipseT a b θ = if 3 * (π / 2) ≥ m ∧ m > π / 2 then scaledAtan a b θ + π else scaledAtan a b θ := by
    unfold ellipseT
    simp only [← hm, e14, e12]
  rw [hdef]
  by_cases h0 : cos θ = 0
  · have hs : scaledAtan a b θ = if 0 < θ then π / 2 else -(π / 2) := by
      unfold scaledAtan
      rw [if_pos ⟨h0, ha.ne'⟩]
    have hsabs : sin θ = (if 0 < θ then sin m else -sin m) := by
      split_ifs with hp
      · rw [← hsin, abs_of_pos hp]
      · rw [← hsin, abs_of_nonpos (not_lt.mp hp), sin_neg, neg_neg]
    have hm2 : m = π / 2 ∨ m = 3 * (π / 2) := by
      rw [hcos, cos_eq_zero_iff] at h0
      obtain ⟨j, hj⟩ := h0
      have ht : tau = 2 * π := rfl
      have j0 : 0 ≤ j := by
        by_contra hc
        have : j ≤ -1 := by omega
        have : (j : ℝ) ≤ -1 := by exact_mod_cast this
        nlinarith
      have j1 : j ≤ 1 := by
        by_contra hc
        have : 2 ≤ j := by omega
        have : (2 : ℝ) ≤ j := by exact_mod_cast this
        nlinarith
      have : j = 0 ∨ j = 1 := by omega
      rcases this with rfl | rfl
      · left; rw [hj]; push_cast; ring
      · right; rw [hj]; push_cast; ring
    rw [hs, h0, hsabs]
    have s32 : sin (3 * (π / 2)) = -1 := by
      have : 3 * (π / 2) = π / 2 + π := by ring
      rw [this, sin_add_pi, sin_pi_div_two]
    rcases hm2 with h | h <;> rw [h]
    · rw [if_neg (by intro hc; linarith [hc.2])]
      refine ⟨a, ha, ?_, ?_⟩ <;> split_ifs <;> simp
    · rw [if_pos ⟨le_refl _, by linarith⟩, s32]
      refine ⟨a, ha, ?_, ?_⟩ <;> split_ifs <;> simp [cos_add_pi, sin_add_pi]
  · have hs : scaledAtan a b θ = atan2 (a * tan θ) b := by
      unfold scaledAtan
      rw [if_neg (fun hc => h0 hc.1)]
    rw [hs]
    have hc := atan2_cos b (a * tan θ)
    have hsn := atan2_sin b (a * tan θ)
    have hr : 0 < √(b ^ 2 + (a * tan θ) ^ 2) := by positivity
    have htan : tan θ * cos θ = sin θ := tan_mul_cos h0
    set r := √(b ^ 2 + (a * tan θ) ^ 2)
    by_cases hneg : 3 * (π / 2) ≥ m ∧ m > π / 2
    · rw [if_pos hneg, cos_add_pi, sin_add_pi]
      have hlt : cos θ < 0 := by
        rcases lt_or_eq_of_le (show cos θ ≤ 0 by
          rw [hcos]; exact cos_nonpos_of_pi_div_two_le_of_le hneg.2.le (by linarith [hneg.1])) with h | h
        · exact h
        · exact absurd h h0
      refine ⟨r * -cos θ, mul_pos hr (by linarith), ?_, ?_⟩
      · linear_combination cos θ * hc
      · linear_combination cos θ * hsn + a * htan
    · rw [if_neg hneg]
      have hgt : 0 < cos θ := by
        rcases lt_or_eq_of_le (show 0 ≤ cos θ by
          rw [hcos]
          by_cases hm1 : m ≤ π / 2
          · exact cos_nonneg_of_neg_pi_div_two_le_of_le (by linarith) hm1
          · have h32 : 3 * (π / 2) < m := by
              by_contra hc2
              exact hneg ⟨not_lt.mp hc2, not_le.mp hm1⟩
            have ht : tau = 2 * π := rfl
            rw [show m = (m - 2 * π) + 2 * π by ring, cos_add_two_pi]
            exact cos_nonneg_of_neg_pi_div_two_le_of_le (by linarith) (by linarith)) with h | h
        · exact h
        · exact absurd h.symm h0
      refine ⟨r * cos θ, mul_pos hr hgt, ?_, ?_⟩
      · linear_combination cos θ * hc
      · linear_combination cos θ * hsn + a * htan

theorem rx_eq (a : ArcData ℝ) : rx a = √((a.prx.x - a.center.x) ^ 2 + (a.prx.y - a.center.y) ^ 2) := by
  unfold rx Pt.distance
  congr 1
  ring

theorem ry_eq (a : ArcData ℝ) : ry a = √((a.pry.x - a.center.x) ^ 2 + (a.pry.y - a.center.y) ^ 2) := by
  unfold ry Pt.distance
  congr 1
  ring

theorem rx_cos (a : ArcData ℝ) : rx a * cos (rotation a) = a.prx.x - a.center.x := by
  rw [rx_eq]; exact atan2_cos _ _

theorem rx_sin (a : ArcData ℝ) : rx a * sin (rotation a) = a.prx.y - a.center.y := by
  rw [rx_eq]; exact atan2_sin _ _

/-- a point in the direction of the ellipse's point at `s`: both angles give back `s` -/
theorem angle_dir {a : ArcData ℝ} (ha : 0 < rx a) (hb : 0 < ry a) {p : Pt ℝ} {s l : ℝ} (hl : 0 < l)
    (hx : p.x - a.center.x = l * ((pointAtT a s).x - a.center.x))
    (hy : p.y - a.center.y = l * ((pointAtT a s).y - a.center.y)) :
    ∃ ρ, 0 < ρ ∧ ρ * cos (angleAtPoint a p - rotation a) = l * (rx a * cos s) ∧
      ρ * sin (angleAtPoint a p - rotation a) = l * (ry a * sin s) := by
  have h1 := atan2_cos (p.x - a.center.x) (p.y - a.center.y)
  have h2 := atan2_sin (p.x - a.center.x) (p.y - a.center.y)
  have hr := cos_sq_sin_sq (rotation a)
  have hs := cos_sq_sin_sq s
  have ex : (pointAtT a s).x - a.center.x = rx a * cos s * cos (rotation a) - ry a * sin s * sin (rotation a) := by
    simp only [pointAtT]; ring
  have ey : (pointAtT a s).y - a.center.y = rx a * cos s * sin (rotation a) + ry a * sin s * cos (rotation a) := by
    simp only [pointAtT]; ring
  rw [ex] at hx
  rw [ey] at hy
  refine ⟨√((p.x - a.center.x) ^ 2 + (p.y - a.center.y) ^ 2), ?_, ?_, ?_⟩
  · rw [hx, hy]
    apply Real.sqrt_pos.mpr
    have : (l * (rx a * cos s * cos (rotation a) - ry a * sin s * sin (rotation a))) ^ 2 +
        (l * (rx a * cos s * sin (rotation a) + ry a * sin s * cos (rotation a))) ^ 2 =
        l ^ 2 * ((rx a * cos s) ^ 2 + (ry a * sin s) ^ 2) := by
      linear_combination l ^ 2 * ((rx a * cos s) ^ 2 + (ry a * sin s) ^ 2) * hr
    rw [this]
    apply mul_pos (by positivity)
    by_cases hc : cos s = 0
    · have : sin s ≠ 0 := by intro h; rw [hc, h] at hs; norm_num at hs
      positivity
    · positivity
  · rw [cos_sub, angleAtPoint, angle]
    linear_combination cos (rotation a) * (h1 + hx) + sin (rotation a) * (h2 + hy) + l * rx a * cos s * hr
  · rw [sin_sub, angleAtPoint, angle]
    linear_combination cos (rotation a) * (h2 + hy) - sin (rotation a) * (h1 + hx) + l * ry a * sin s * hr

theorem tAtPoint_dir {a : ArcData ℝ} (ha : 0 < rx a) (hb : 0 < ry a) {p : Pt ℝ} {s l : ℝ} (hl : 0 < l)
    (hx : p.x - a.center.x = l * ((pointAtT a s).x - a.center.x))
    (hy : p.y - a.center.y = l * ((pointAtT a s).y - a.center.y)) :
    cos (tAtPoint a p) = cos s ∧ sin (tAtPoint a p) = sin s := by
  obtain ⟨ρ, hρ, h1, h2⟩ := angle_dir ha hb hl hx hy
  obtain ⟨k, hk, h3, h4⟩ := ellipseT_spec ha hb (angleAtPoint a p - rotation a)
  unfold tAtPoint
  refine same_dir (k := ρ * k) (l := rx a * ry a * l) (cos_sq_sin_sq _) (cos_sq_sin_sq _) (by positivity) (by positivity) ?_ ?_
  · linear_combination ρ * h3 + ry a * h1
  · linear_combination ρ * h4 + rx a * h2

theorem pointAtT_congr (a : ArcData ℝ) {s t : ℝ} (h1 : cos s = cos t) (h2 : sin s = sin t) : pointAtT a s = pointAtT a t := by
  unfold pointAtT
  rw [h1, h2]

theorem pointAtAngle_dir {a : ArcData ℝ} (ha : 0 < rx a) (hb : 0 < ry a) {p : Pt ℝ} {s l : ℝ} (hl : 0 < l)
    (hx : p.x - a.center.x = l * ((pointAtT a s).x - a.center.x))
    (hy : p.y - a.center.y = l * ((pointAtT a s).y - a.center.y)) :
    pointAtAngle a (angleAtPoint a p) = pointAtT a s := by
  unfold pointAtAngle
  split_ifs with h
  · obtain ⟨ρ, hρ, h1, h2⟩ := angle_dir ha hb hl hx hy
    rw [← h] at h2
    have := same_dir (k := ρ) (l := l * rx a) (cos_sq_sin_sq (angleAtPoint a p - rotation a)) (cos_sq_sin_sq s) hρ
      (by positivity) (by linear_combination h1) (by linear_combination h2)
    exact pointAtT_congr a this.1 this.2
  · have := tAtPoint_dir ha hb hl hx hy
    exact pointAtT_congr a this.1 this.2

/-- `get_start_t` of a start in the direction of the ellipse's point at `s` is `s` up to full turns -/
theorem endT_dir {a : ArcData ℝ} (ha : 0 < rx a) (hb : 0 < ry a) {p : Pt ℝ} {s l : ℝ} (hl : 0 < l)
    (hx : p.x - a.center.x = l * ((pointAtT a s).x - a.center.x))
    (hy : p.y - a.center.y = l * ((pointAtT a s).y - a.center.y)) :
    cos (endT a p) = cos s ∧ sin (endT a p) = sin s := by
  unfold endT
  rw [pointAtAngle_dir ha hb hl hx hy]
  exact tAtPoint_dir ha hb one_pos (by ring) (by ring)

theorem endT_pointAtT {a : ArcData ℝ} (ha : 0 < rx a) (hb : 0 < ry a) (s : ℝ) :
    cos (endT a (pointAtT a s)) = cos s ∧ sin (endT a (pointAtT a s)) = sin s :=
  endT_dir ha hb one_pos (by ring) (by ring)

/-- the parameter plus anything -/
theorem pointAtT_add (a : ArcData ℝ) {s t : ℝ} (h : cos s = cos t ∧ sin s = sin t) (w : ℝ) :
    pointAtT a (s + w) = pointAtT a (t + w) := by
  apply pointAtT_congr
  · rw [cos_add, cos_add, h.1, h.2]
  · rw [sin_add, sin_add, h.1, h.2]

/-- a point on the ellipse given by equation has a parameter -/
theorem exists_param {x y : ℝ} (h : x ^ 2 + y ^ 2 = 1) : ∃ t, cos t = x ∧ sin t = y := by
  refine ⟨atan2 y x, ?_, ?_⟩
  · have := atan2_cos x y
    rw [h, Real.sqrt_one, one_mul] at this
    exact this
  · have := atan2_sin x y
    rw [h, Real.sqrt_one, one_mul] at this
    exact this

end Svgio.Arc
