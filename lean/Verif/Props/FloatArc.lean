import Verif.Model.FloatArc
import Verif.Props.FloatLength
import Mathlib.Analysis.SpecialFunctions.Trigonometric.Bounds

/-! C151: points of arcs computed with floats. -/

namespace Svgio.Props
open Spec Flt

/-- the point at the parameter `t` of the ellipse with centre `c`, radii `rx` and `ry`, turned by `φ` -/
noncomputable def ellipsePoint (c : Pt ℚ) (rx ry φ t : ℝ) : ℝ × ℝ :=
  (c.x + rx * Real.cos t * Real.cos φ - ry * Real.sin t * Real.sin φ, c.y + rx * Real.cos t * Real.sin φ + ry * Real.sin t * Real.cos φ)

/-- `φ` is the direction from `c` to `p` -/
def Direction (c p : Pt ℚ) (φ : ℝ) : Prop := (p.x : ℝ) - c.x = dist c p * Real.cos φ ∧ (p.y : ℝ) - c.y = dist c p * Real.sin φ

/-- the coordinates are doubles -/
def DoublePt (p : Pt ℚ) : Prop := IsDouble p.x ∧ IsDouble p.y

/-- the three points of an arc have doubles as coordinates -/
def DoubleArc (a : ArcData ℚ) : Prop := DoublePt a.center ∧ DoublePt a.prx ∧ DoublePt a.pry

theorem rdR (q : ℚ) : |((roundDouble q : ℚ) : ℝ) - q| ≤ |(q : ℝ)| / 2 ^ 53 + 1 / 2 ^ 536 := by
  have h := (Rat.cast_le (K := ℝ)).2 (roundDouble_err q)
  push_cast at h
  refine h.trans ?_
  have : (1 : ℝ) / 2 ^ 1074 ≤ 1 / 2 ^ 536 := by
    apply one_div_le_one_div_of_le (by positivity)
    exact pow_le_pow_right₀ (by norm_num) (by norm_num)
  linarith

theorem near_prod {x x0 y y0 A B e f : ℝ} (h : |x - x0| ≤ e) (h' : |y - y0| ≤ f) (hx : |x0| ≤ A) (hy : |y0| ≤ B) :
    |x * y - x0 * y0| ≤ A * f + B * e + e * f := by
  have e1 : x * y - x0 * y0 = x0 * (y - y0) + y0 * (x - x0) + (x - x0) * (y - y0) := by ring
  have he : 0 ≤ e := (abs_nonneg _).trans h
  have hA : 0 ≤ A := (abs_nonneg _).trans hx
  have hB : 0 ≤ B := (abs_nonneg _).trans hy
  rw [e1]
  refine (abs_add_le _ _).trans (add_le_add ((abs_add_le _ _).trans (add_le_add ?_ ?_)) ?_)
  · rw [abs_mul]; exact mul_le_mul hx h' (abs_nonneg _) hA
  · rw [abs_mul]; exact mul_le_mul hy h (abs_nonneg _) hB
  · rw [abs_mul]; exact mul_le_mul h h' (abs_nonneg _) he

/-- a rounded number near `y` -/
theorem near_round {q : ℚ} {y B e : ℝ} (h : |(q : ℝ) - y| ≤ e) (hy : |y| ≤ B) :
    |((roundDouble q : ℚ) : ℝ) - y| ≤ e + (B + e) / 2 ^ 53 + 1 / 2 ^ 536 := by
  have h1 := rdR q
  have h2 : |(q : ℝ)| ≤ B + e := by
    have := abs_add_le ((q : ℝ) - y) y
    rw [sub_add_cancel] at this
    linarith
  have h3 := abs_add_le ((roundDouble q : ℚ) - (q : ℝ)) ((q : ℝ) - y)
  rw [sub_add_sub_cancel] at h3
  have h4 : |(q : ℝ)| / 2 ^ 53 ≤ (B + e) / 2 ^ 53 := by gcongr
  linarith

/-- the direction of a vector of which both coordinates have a small relative error -/
theorem direction_near {x y x' y' : ℝ} (hn : (x : ℝ) ≠ 0 ∨ y ≠ 0) (hx : |x' - x| ≤ |x| / 2 ^ 53) (hy : |y' - y| ≤ |y| / 2 ^ 53) :
    |Real.cos (Complex.arg ⟨x', y'⟩) - Real.cos (Complex.arg ⟨x, y⟩)| ≤ 3 / 2 ^ 53 ∧
      |Real.sin (Complex.arg ⟨x', y'⟩) - Real.sin (Complex.arg ⟨x, y⟩)| ≤ 3 / 2 ^ 53 := by
  set z : ℂ := ⟨x, y⟩ with hz
  set z' : ℂ := ⟨x', y'⟩ with hz'
  have z0 : z ≠ 0 := by
    intro h
    have h1 := congrArg Complex.re h
    have h2 := congrArg Complex.im h
    simp only [hz, Complex.zero_re, Complex.zero_im] at h1 h2
    tauto
  have n0 : 0 < ‖z‖ := norm_pos_iff.2 z0
  have hd : ‖z' - z‖ ≤ ‖z‖ / 2 ^ 53 := by
    have e1 : ‖z' - z‖ ^ 2 = (x' - x) ^ 2 + (y' - y) ^ 2 := by
      rw [Complex.sq_norm, Complex.normSq_apply]
      simp only [hz, hz', Complex.sub_re, Complex.sub_im]
      ring
    have e2 : ‖z‖ ^ 2 = x ^ 2 + y ^ 2 := by
      rw [Complex.sq_norm, Complex.normSq_apply]
      simp only [hz]
      ring
    refine le_of_sq_le_sq ?_ (by positivity)
    rw [e1, div_pow, e2]
    have a1 : (x' - x) ^ 2 ≤ (|x| / 2 ^ 53) ^ 2 := by rw [← sq_abs (x' - x)]; gcongr
    have a2 : (y' - y) ^ 2 ≤ (|y| / 2 ^ 53) ^ 2 := by rw [← sq_abs (y' - y)]; gcongr
    rw [div_pow, sq_abs] at a1 a2
    rw [add_div]
    linarith
  have hn' : |‖z'‖ - ‖z‖| ≤ ‖z‖ / 2 ^ 53 := (abs_norm_sub_norm_le _ _).trans hd
  have n1 : ‖z‖ * (1 - 1 / 2 ^ 53) ≤ ‖z'‖ := by linarith [(abs_le.1 hn').1]
  have n2 : 0 < ‖z'‖ := lt_of_lt_of_le (mul_pos n0 (by norm_num)) n1
  have z0' : z' ≠ 0 := norm_pos_iff.1 n2
  have key : ∀ u u' : ℝ, |u| ≤ ‖z‖ → |u' - u| ≤ |u| / 2 ^ 53 → |u' / ‖z'‖ - u / ‖z‖| ≤ 3 / 2 ^ 53 := by
    intro u u' h1 h2
    have e : u' / ‖z'‖ - u / ‖z‖ = ((u' - u) * ‖z‖ + u * (‖z‖ - ‖z'‖)) / (‖z‖ * ‖z'‖) := by
      field_simp
      ring
    rw [e, abs_div, abs_of_pos (mul_pos n0 n2), div_le_iff₀ (mul_pos n0 n2)]
    have b1 : |(u' - u) * ‖z‖| ≤ ‖z‖ / 2 ^ 53 * ‖z‖ := by
      rw [abs_mul, abs_of_pos n0]
      gcongr
      exact h2.trans (by gcongr)
    have b2 : |u * (‖z‖ - ‖z'‖)| ≤ ‖z‖ * (‖z‖ / 2 ^ 53) := by
      rw [abs_mul, abs_sub_comm]
      gcongr
    have b3 := abs_add_le ((u' - u) * ‖z‖) (u * (‖z‖ - ‖z'‖))
    have b4 : ‖z‖ * (‖z‖ * (1 - 1 / 2 ^ 53)) ≤ ‖z‖ * ‖z'‖ := by gcongr
    have b5 : 0 ≤ ‖z‖ * ‖z‖ := by positivity
    nlinarith
  rw [Complex.cos_arg z0, Complex.cos_arg z0', Complex.sin_arg, Complex.sin_arg]
  exact ⟨key _ _ (Complex.abs_re_le_norm z) hx, key _ _ (Complex.abs_im_le_norm z) hy⟩

/-- the direction `Point.angle` finds, seen through cosine and sine -/
theorem angle_near (T : FloatTrig) {c p : Pt ℚ} (hc : DoublePt c) (hp : DoublePt p) (hne : p ≠ c) {φ : ℝ} (hφ : Direction c p φ) :
    |Real.cos (angle doubles T c p) - Real.cos φ| ≤ 11 / 2 ^ 53 ∧ |Real.sin (angle doubles T c p) - Real.sin φ| ≤ 11 / 2 ^ 53 := by
  obtain ⟨h1, h2⟩ := hφ
  have hd : dist c p = ‖(⟨(p.x : ℝ) - c.x, (p.y : ℝ) - c.y⟩ : ℂ)‖ := by
    rw [dist_comm', Complex.norm_def, Complex.normSq_apply, dist]
    congr 1
    ring
  have hn : (p.x : ℝ) - c.x ≠ 0 ∨ (p.y : ℝ) - c.y ≠ 0 := by
    by_contra hh
    push Not at hh
    refine hne ?_
    have a : (p.x : ℝ) = c.x := by linarith [hh.1]
    have b : (p.y : ℝ) = c.y := by linarith [hh.2]
    cases p; cases c
    simp only [Rat.cast_inj] at a b
    rw [a, b]
  have hx : |((roundDouble (p.x - c.x) : ℚ) : ℝ) - ((p.x : ℝ) - c.x)| ≤ |(p.x : ℝ) - c.x| / 2 ^ 53 := by
    have h := (Rat.cast_le (K := ℝ)).2 (sub_rel hp.1 hc.1)
    push_cast at h
    exact h
  have hy : |((roundDouble (p.y - c.y) : ℚ) : ℝ) - ((p.y : ℝ) - c.y)| ≤ |(p.y : ℝ) - c.y| / 2 ^ 53 := by
    have h := (Rat.cast_le (K := ℝ)).2 (sub_rel hp.2 hc.2)
    push_cast at h
    exact h
  obtain ⟨k1, k2⟩ := direction_near hn hx hy
  have z0 : (⟨(p.x : ℝ) - c.x, (p.y : ℝ) - c.y⟩ : ℂ) ≠ 0 := by
    intro h
    have i1 := congrArg Complex.re h
    have i2 := congrArg Complex.im h
    simp only [Complex.zero_re, Complex.zero_im] at i1 i2
    tauto
  have n0 := norm_pos_iff.2 z0
  rw [hd] at h1 h2
  have e1 : Real.cos (Complex.arg ⟨(p.x : ℝ) - c.x, (p.y : ℝ) - c.y⟩) = Real.cos φ := by
    rw [Complex.cos_arg z0, div_eq_iff n0.ne', mul_comm]
    exact h1
  have e2 : Real.sin (Complex.arg ⟨(p.x : ℝ) - c.x, (p.y : ℝ) - c.y⟩) = Real.sin φ := by
    rw [Complex.sin_arg, div_eq_iff n0.ne', mul_comm]
    exact h2
  rw [e1] at k1
  rw [e2] at k2
  have ha := T.atan2_err (roundDouble (p.y - c.y)) (roundDouble (p.x - c.x))
  have l1 := (Real.abs_cos_sub_cos_le (angle doubles T c p) _).trans ha
  have l2 := (Real.abs_sin_sub_sin_le (angle doubles T c p) _).trans ha
  have t1 := abs_sub_le (Real.cos (angle doubles T c p)) _ _ |>.trans (add_le_add l1 k1)
  have t2 := abs_sub_le (Real.sin (angle doubles T c p)) _ _ |>.trans (add_le_add l2 k2)
  exact ⟨t1.trans (by norm_num), t2.trans (by norm_num)⟩

/-- one product `r * trig * trig` of `point_at_t` -/
theorem term_near {R0 : ℚ} {r : ℝ} {u v : ℚ} {u0 v0 : ℝ} (hr : 0 ≤ r) (hR : |(R0 : ℝ) - r| ≤ r * (9 / 2 ^ 53) + 1 / 2 ^ 536)
    (hu : |(u : ℝ) - u0| ≤ 2 / 2 ^ 53) (hv : |(v : ℝ) - v0| ≤ 13 / 2 ^ 53) (hu0 : |u0| ≤ 1) (hv0 : |v0| ≤ 1) :
    |((roundDouble (roundDouble (R0 * u) * v) : ℚ) : ℝ) - r * u0 * v0| ≤ r * (28 / 2 ^ 53) + 4 * (1 / 2 ^ 536) := by
  have w0 : (0 : ℝ) ≤ 1 / 2 ^ 536 := by positivity
  have b1 : |r * u0| ≤ r := by
    rw [abs_mul, abs_of_nonneg hr]
    exact mul_le_of_le_one_right hr hu0
  have b2 : |r * u0 * v0| ≤ r := by
    rw [abs_mul]
    exact (mul_le_of_le_one_right (abs_nonneg _) hv0).trans b1
  have s1 := near_prod hR hu (abs_of_nonneg hr).le hu0
  have s2 := near_round (q := R0 * u) (by push_cast; exact s1) b1
  have s3 := near_prod s2 hv b1 hv0
  have s4 := near_round (q := roundDouble (R0 * u) * v) (by push_cast; exact s3) b2
  refine s4.trans ?_
  generalize (1 : ℝ) / 2 ^ 536 = w at *
  have : 0 ≤ r * 1 := by linarith
  norm_num1
  linarith

/-- the sum of the centre and two products -/
theorem sum_near {c : ℚ} {u v : ℚ} {u0 v0 r s : ℝ} (hr : |u0| ≤ r) (hs : |v0| ≤ s)
    (hu : |(u : ℝ) - u0| ≤ r * (28 / 2 ^ 53) + 4 * (1 / 2 ^ 536)) (hv : |(v : ℝ) - v0| ≤ s * (28 / 2 ^ 53) + 4 * (1 / 2 ^ 536)) :
    |((roundDouble (roundDouble (c + u) + v) : ℚ) : ℝ) - (c + u0 + v0)| ≤ (|(c : ℝ)| + r + s) / 2 ^ 48 + 1 / 2 ^ 532 := by
  have w0 : (0 : ℝ) ≤ 1 / 2 ^ 536 := by positivity
  have b1 : |(c : ℝ) + u0| ≤ |(c : ℝ)| + r := (abs_add_le _ _).trans (by linarith)
  have b2 : |(c : ℝ) + u0 + v0| ≤ |(c : ℝ)| + r + s := (abs_add_le _ _).trans (by linarith)
  have s1 := near_round (q := c + u) (y := c + u0) (e := r * (28 / 2 ^ 53) + 4 * (1 / 2 ^ 536)) (by
    push_cast
    rw [add_sub_add_left_eq_sub]
    exact hu) b1
  have s3 := (abs_add_le _ _).trans (add_le_add s1 hv)
  rw [← add_sub_add_comm, ← Rat.cast_add] at s3
  have s2 := near_round s3 b2
  refine s2.trans ?_
  have e : (1 : ℝ) / 2 ^ 532 = 16 * (1 / 2 ^ 536) := by
    rw [show (2 : ℝ) ^ 536 = 2 ^ 532 * 16 by rw [show (16 : ℝ) = 2 ^ 4 by norm_num, ← pow_add]]
    rw [div_mul_eq_div_div]
    ring
  rw [e]
  have r0 : 0 ≤ r := (abs_nonneg _).trans hr
  have s0 : 0 ≤ s := (abs_nonneg _).trans hs
  have c0 := abs_nonneg (c : ℝ)
  generalize (1 : ℝ) / 2 ^ 536 = w at *
  generalize |(c : ℝ)| = k at *
  norm_num1
  linarith

/-- **C151**: `arc.point_at_t(t)` with floats: both coordinates are off by at most `(|centre| + rx + ry) / 2^48`, up to numbers too small to
matter. `ellipsePoint` is the ellipse SVG speaks of. -/
theorem C151_ellipse (T : FloatTrig) (R : FloatRoot) {a : ArcData ℚ} (h : DoubleArc a) (hne : a.prx ≠ a.center) {φ : ℝ}
    (hφ : Direction a.center a.prx φ) (t : ℚ) :
    |((pointAtT doubles T R a t).x : ℝ) - (ellipsePoint a.center (dist a.center a.prx) (dist a.center a.pry) φ t).1| ≤
        (|(a.center.x : ℝ)| + dist a.center a.prx + dist a.center a.pry) / 2 ^ 48 + 1 / 2 ^ 532 ∧
      |((pointAtT doubles T R a t).y : ℝ) - (ellipsePoint a.center (dist a.center a.prx) (dist a.center a.pry) φ t).2| ≤
        (|(a.center.y : ℝ)| + dist a.center a.prx + dist a.center a.pry) / 2 ^ 48 + 1 / 2 ^ 532 := by
  obtain ⟨n1, n2⟩ := angle_near T h.1 h.2.1 hne hφ
  have hc := T.cos_err (rotation doubles T a)
  have hs := T.sin_err (rotation doubles T a)
  have rc : |(T.cos (rotation doubles T a) : ℝ) - Real.cos φ| ≤ 13 / 2 ^ 53 :=
    (abs_sub_le _ _ _).trans ((add_le_add hc n1).trans (by norm_num))
  have rs : |(T.sin (rotation doubles T a) : ℝ) - Real.sin φ| ≤ 13 / 2 ^ 53 :=
    (abs_sub_le _ _ _).trans ((add_le_add hs n2).trans (by norm_num))
  have tc : |(T.cos t : ℝ) - Real.cos t| ≤ 2 / 2 ^ 53 := (T.cos_err t).trans (by norm_num)
  have ts : |(T.sin t : ℝ) - Real.sin t| ≤ 2 / 2 ^ 53 := (T.sin_err t).trans (by norm_num)
  have hx := distance_err R h.1 h.2.1
  have hy := distance_err R h.1 h.2.2
  have dx : 0 ≤ dist a.center a.prx := Real.sqrt_nonneg _
  have dy : 0 ≤ dist a.center a.pry := Real.sqrt_nonneg _
  have le : ∀ {r u v : ℝ}, 0 ≤ r → |u| ≤ 1 → |v| ≤ 1 → |r * u * v| ≤ r := by
    intro r u v hr hu hv
    rw [abs_mul, abs_mul, abs_of_nonneg hr]
    exact (mul_le_of_le_one_right (by positivity) hv).trans (mul_le_of_le_one_right hr hu)
  have p1 := term_near dx hx tc rc (Real.abs_cos_le_one _) (Real.abs_cos_le_one _)
  have p2 := term_near dy hy ts rs (Real.abs_sin_le_one _) (Real.abs_sin_le_one _)
  have p3 := term_near dx hx tc rs (Real.abs_cos_le_one _) (Real.abs_sin_le_one _)
  have p4 := term_near dy hy ts rc (Real.abs_sin_le_one _) (Real.abs_cos_le_one _)
  constructor
  · have p2' := p2
    rw [← abs_neg] at p2'
    have := sum_near (c := a.center.x) (v := -roundDouble (roundDouble (ry doubles R a * T.sin t) * T.sin (rotation doubles T a)))
      (v0 := -(dist a.center a.pry * Real.sin t * Real.sin φ)) (s := dist a.center a.pry)
      (le dx (Real.abs_cos_le_one (t : ℝ)) (Real.abs_cos_le_one φ)) (by
        rw [abs_neg]; exact le dy (Real.abs_sin_le_one (t : ℝ)) (Real.abs_sin_le_one φ)) p1 (by
        push_cast
        rw [neg_sub_neg, ← neg_sub]
        exact p2')
    rw [← sub_eq_add_neg, ← sub_eq_add_neg] at this
    exact this
  · exact sum_near (c := a.center.y) (le dx (Real.abs_cos_le_one (t : ℝ)) (Real.abs_sin_le_one φ))
      (le dy (Real.abs_sin_le_one (t : ℝ)) (Real.abs_cos_le_one φ)) p3 p4

/-- an upright ellipse about (1, 2) with the radii 3 and 2 meets the hypotheses -/
example : DoubleArc { center := ⟨1, 2⟩, prx := ⟨4, 2⟩, pry := ⟨1, 4⟩, sweep := 1 } ∧ (⟨4, 2⟩ : Pt ℚ) ≠ ⟨1, 2⟩ ∧ Direction ⟨1, 2⟩ ⟨4, 2⟩ 0 := by
  have k : ∀ n : ℤ, |n| ≤ 2 ^ 53 → IsDouble n := fun n h => ⟨n, 0, by simp, h, by norm_num⟩
  have h1 : IsDouble 1 := by simpa using k 1 (by norm_num)
  have h2 : IsDouble 2 := by simpa using k 2 (by norm_num)
  have h4 : IsDouble 4 := by simpa using k 4 (by norm_num)
  refine ⟨⟨⟨h1, h2⟩, ⟨h4, h2⟩, h1, h4⟩, by decide, ?_⟩
  have : dist (⟨1, 2⟩ : Pt ℚ) ⟨4, 2⟩ = 3 := by
    unfold dist
    rw [show ∀ x : ℝ, x = 3 ^ 2 → Real.sqrt x = 3 from fun x h => by rw [h, Real.sqrt_sq (by norm_num)]]
    norm_num
  unfold Direction
  rw [this]
  norm_num

end Svgio.Props
