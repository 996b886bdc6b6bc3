import Verif.Props.FloatSvgArc
import Verif.Props.FloatArcFollow

/-!
C164: the points of arcs built from SVG parameters with floats.
-/

namespace Svgio.Props

open Svgio.Flt Dir

namespace SvgArcFloat

theorem scale_scale_le {r q r' q' e : ℝ} (h1 : |r' - r| ≤ e) (h2 : |q' - q| ≤ e) (z : ℂ) : ‖scale r' q' z - scale r q z‖ ≤ e * ‖z‖ := by
  have e0 : 0 ≤ e := (abs_nonneg _).trans h1
  have k : scale r' q' z - scale r q z = scale (r' - r) (q' - q) z := by
    apply Complex.ext <;> simp [scale] <;> ring
  rw [k]
  refine le_of_sq_le_sq ?_ (by positivity)
  rw [scale_norm_sq, mul_pow, norm_sq, mul_add]
  have a1 : (r' - r) ^ 2 ≤ e ^ 2 := sq_le_sq' (by linarith [(abs_le.1 h1).1]) (abs_le.1 h1).2
  have a2 : (q' - q) ^ 2 ≤ e ^ 2 := sq_le_sq' (by linarith [(abs_le.1 h2).1]) (abs_le.1 h2).2
  gcongr

/-- two ellipses with the same centre that are near to each other: points reached by the same sweep are near to each other too -/
theorem follow_core {N C r q r' q' l θ φ t s : ℝ} (w : ℝ) (r0 : 0 < r) (q0 : 0 < q) (rN : r ≤ N) (qN : q ≤ N) (hC : C ≤ 2 ^ 13)
    (c1 : N ≤ C * r) (c2 : N ≤ C * q) (r0' : 0 ≤ r') (q0' : 0 ≤ q') (l0 : 0 < l)
    (h1 : ‖(r' : ℂ) * unit φ - r * unit θ‖ ≤ 2 * (N / 2 ^ 38)) (h2 : |q' - q| ≤ 2 * (N / 2 ^ 38))
    (h3 : ‖(l : ℂ) * (unit φ * scale r' q' (unit s)) - unit θ * scale r q (unit t)‖ ≤ N / 2 ^ 38) :
    ‖unit φ * scale r' q' (unit (s + w)) - unit θ * scale r q (unit (t + w))‖ ≤ C ^ 2 * N / 2 ^ 31 := by
  have N0 : 0 < N := r0.trans_le rN
  have C1 : 1 ≤ C := by
    by_contra h
    nlinarith
  have small : ∀ {m : ℝ}, 0 < m → N ≤ C * m → N / 2 ^ 38 ≤ m / 2 ^ 25 := by
    intro m m0 h
    rw [div_le_div_iff₀ (by norm_num) (by norm_num)]
    nlinarith
  have e1 := small r0 c1
  have e2 := small q0 c2
  -- the radii and the direction of the axis
  have hr : |r' - r| ≤ 2 * (N / 2 ^ 38) := by
    have := (abs_norm_sub_norm_le ((r' : ℂ) * unit φ) (r * unit θ)).trans h1
    rwa [norm_mul, norm_mul, unit_norm, unit_norm, mul_one, mul_one, Complex.norm_real, Complex.norm_real, Real.norm_of_nonneg r0',
      Real.norm_of_nonneg r0.le] at this
  have hu : ‖unit φ - unit θ‖ ≤ 4 * (C / 2 ^ 38) := by
    refine (direction_lip (ρ := 2 * (C / 2 ^ 38)) r0 r0' (h1.trans ?_)).trans (by linarith)
    have : N / 2 ^ 38 ≤ C * r / 2 ^ 38 := by gcongr
    linarith [show C * r / 2 ^ 38 = C / 2 ^ 38 * r by ring]
  -- the two ellipses
  have near : ∀ α : ℝ, ‖unit φ * scale r' q' (unit α) - unit θ * scale r q (unit α)‖ ≤ 6 * (C * N / 2 ^ 38) := by
    intro α
    have k : unit φ * scale r' q' (unit α) - unit θ * scale r q (unit α) =
        unit φ * (scale r' q' (unit α) - scale r q (unit α)) + (unit φ - unit θ) * scale r q (unit α) := by ring
    rw [k]
    refine (norm_add_le _ _).trans ?_
    rw [norm_mul, norm_mul, unit_norm, one_mul]
    have k1 := scale_scale_le hr h2 (unit α)
    have k2 := scale_le r0.le q0.le rN qN (unit α)
    rw [unit_norm, mul_one] at k1 k2
    have k3 : ‖unit φ - unit θ‖ * ‖scale r q (unit α)‖ ≤ 4 * (C / 2 ^ 38) * N := by gcongr
    have k4 : N / 2 ^ 38 ≤ C * N / 2 ^ 38 := by
      gcongr
      nlinarith
    linarith [show 4 * (C / 2 ^ 38) * N = 4 * (C * N / 2 ^ 38) by ring]
  -- the parameters
  have hp : ‖unit s - unit t‖ ≤ 16 * (C ^ 2 / 2 ^ 38) := by
    obtain ⟨m, m0, mr, mq, mC⟩ : ∃ m : ℝ, 0 < m ∧ m ≤ r ∧ m ≤ q ∧ N ≤ C * m := by
      rcases le_total r q with h | h
      · exact ⟨r, r0, le_rfl, h, c1⟩
      · exact ⟨q, q0, h, le_rfl, c2⟩
    have em := small m0 mC
    have g : ‖unit φ * scale r' q' ((l : ℂ) * unit s - unit t)‖ ≤ 7 * (C * N / 2 ^ 38) := by
      have k : unit φ * scale r' q' ((l : ℂ) * unit s - unit t) = ((l : ℂ) * (unit φ * scale r' q' (unit s)) - unit θ * scale r q (unit t)) -
          (unit φ * scale r' q' (unit t) - unit θ * scale r q (unit t)) := by
        have : scale r' q' ((l : ℂ) * unit s - unit t) = l * scale r' q' (unit s) - scale r' q' (unit t) := by
          apply Complex.ext <;> simp [scale] <;> ring
        rw [this]
        ring
      rw [k]
      refine (norm_sub_le _ _).trans ((add_le_add h3 (near t)).trans ?_)
      have k4 : N / 2 ^ 38 ≤ C * N / 2 ^ 38 := by
        gcongr
        nlinarith
      linarith
    rw [norm_mul, unit_norm, one_mul] at g
    have a1 : 9 / 10 * m ≤ r' := by
      have := (abs_le.1 hr).1
      norm_num1 at *
      linarith
    have a2 : 9 / 10 * m ≤ q' := by
      have := (abs_le.1 h2).1
      norm_num1 at *
      linarith
    have g2 := (le_scale (by positivity) a1 a2 _).trans g
    have g3 : ‖(l : ℂ) * unit s - (1 : ℝ) * unit t‖ ≤ 8 * (C ^ 2 / 2 ^ 38) * 1 := by
      rw [Complex.ofReal_one, one_mul, mul_one]
      refine le_of_mul_le_mul_left (g2.trans ?_) (show (0 : ℝ) < 9 / 10 * m by positivity)
      have : C * N / 2 ^ 38 ≤ C * (C * m) / 2 ^ 38 := by gcongr
      have p : 0 ≤ C ^ 2 / 2 ^ 38 * m := by positivity
      linarith [show C * (C * m) / 2 ^ 38 = C ^ 2 / 2 ^ 38 * m by ring]
    exact (direction_lip one_pos l0.le g3).trans (by linarith)
  have hw : ‖unit (s + w) - unit (t + w)‖ ≤ 16 * (C ^ 2 / 2 ^ 38) := by
    have := unit_add_le s w t w
    rw [sub_self, norm_zero, add_zero] at this
    exact this.trans hp
  have k : unit φ * scale r' q' (unit (s + w)) - unit θ * scale r q (unit (t + w)) =
      unit φ * scale r' q' (unit (s + w) - unit (t + w)) + (unit φ * scale r' q' (unit (t + w)) - unit θ * scale r q (unit (t + w))) := by
    rw [← scale_sub]
    ring
  rw [k]
  refine (norm_add_le _ _).trans ?_
  rw [norm_mul, unit_norm, one_mul]
  have b1 : r' ≤ 2 * N := by
    have := (abs_le.1 hr).2
    norm_num1 at *
    linarith
  have b2 : q' ≤ 2 * N := by
    have := (abs_le.1 h2).2
    norm_num1 at *
    linarith
  have k1 := scale_le r0' q0' b1 b2 (unit (s + w) - unit (t + w))
  have k2 : 2 * N * ‖unit (s + w) - unit (t + w)‖ ≤ 2 * N * (16 * (C ^ 2 / 2 ^ 38)) := by gcongr
  have k3 := near (t + w)
  have k4 : C * N / 2 ^ 38 ≤ C ^ 2 * N / 2 ^ 38 := by
    gcongr
    nlinarith
  have k5 : 2 * N * (16 * (C ^ 2 / 2 ^ 38)) = 32 * (C ^ 2 * N / 2 ^ 38) := by ring
  have k6 : C ^ 2 * N / 2 ^ 31 = 128 * (C ^ 2 * N / 2 ^ 38) := by ring
  have k7 : 0 ≤ C ^ 2 * N / 2 ^ 38 := by positivity
  linarith

/-- the vector from one point to another -/
noncomputable def vec (c p : Pt ℚ) : ℂ := ⟨(p.x : ℝ) - c.x, (p.y : ℝ) - c.y⟩

theorem dist_vec (c p : Pt ℚ) : Props.dist c p = ‖vec c p‖ := by
  rw [dist_comm', Complex.norm_def, Complex.normSq_apply, Props.dist, vec]
  congr 1
  ring

theorem direction_vec (c p : Pt ℚ) : Direction c p (Complex.arg (vec c p)) :=
  direction_arg (z := vec c p) rfl rfl (norm_nonneg _) (unit_arg _).symm

theorem within_vec {e r q θ t : ℝ} {c p : Pt ℚ} (h : Within e p (Spec.ellipse (pt c) r q θ t)) :
    ‖vec c p - unit θ * scale r q (unit t)‖ ≤ e + e := by
  refine norm_le_of (le_trans (le_of_eq ?_) h.1) (le_trans (le_of_eq ?_) h.2)
  · congr 1
    simp [vec, Spec.ellipse, pt, scale, unit]
    ring
  · congr 1
    simp [vec, Spec.ellipse, pt, scale, unit]
    ring

theorem point_vec (c : Pt ℚ) (r q θ t : ℝ) : (⟨(ellipsePoint c r q θ t).1, (ellipsePoint c r q θ t).2⟩ : Pt ℝ) = Spec.ellipse (pt c) r q θ t := by
  simp only [ellipsePoint, Spec.ellipse, pt]
  congr 1 <;> ring

theorem vec_within {e r q θ t r' q' φ s : ℝ} {c : Pt ℚ} (h : ‖unit φ * scale r' q' (unit s) - unit θ * scale r q (unit t)‖ ≤ e) :
    |(ellipsePoint c r' q' φ s).1 - (Spec.ellipse (pt c) r q θ t).x| ≤ e ∧ |(ellipsePoint c r' q' φ s).2 - (Spec.ellipse (pt c) r q θ t).y| ≤ e := by
  have h1 := (Complex.abs_re_le_norm _).trans h
  have h2 := (Complex.abs_im_le_norm _).trans h
  refine ⟨le_trans (le_of_eq ?_) h1, le_trans (le_of_eq ?_) h2⟩
  · congr 1
    simp [ellipsePoint, Spec.ellipse, pt, scale, unit]
    ring
  · congr 1
    simp [ellipsePoint, Spec.ellipse, pt, scale, unit]
    ring

theorem low_400 : (1 : ℝ) / 2 ^ 400 ≤ 9 / 10 * (1 / 2 ^ 100) := by
  have : (1 : ℝ) / 2 ^ 400 ≤ 1 / 2 ^ 101 := one_div_le_one_div_of_le (by positivity) (pow_le_pow_right₀ (by norm_num) (by norm_num))
  exact this.trans (by norm_num)

theorem room {X N C r r' : ℝ} (C0 : 0 ≤ C) (r0 : 0 < r) (h : 9 / 10 * r ≤ r') (hX : X ≤ 31 / 10 * N) (c : N ≤ C * r) : X ≤ 4 * C * r' := by
  have h1 : C * (9 / 10 * r) ≤ C * r' := by gcongr
  have h2 : 0 ≤ C * r := by positivity
  nlinarith

theorem sum_room {X N C : ℝ} (C2 : 2 ≤ C) (N0 : 0 < N) (hX : X ≤ 31 / 10 * N) :
    (4 * C) ^ 3 * X / 2 ^ 43 + C ^ 2 * N / 2 ^ 31 ≤ C ^ 3 * N / 2 ^ 31 := by
  have b1 : (4 * C) ^ 3 * X ≤ (4 * C) ^ 3 * (31 / 10 * N) := by gcongr
  have b2 : 2 * (C ^ 2 * N) ≤ C ^ 3 * N := by
    have : 0 ≤ C ^ 2 * N := by positivity
    nlinarith
  have b3 : (4 * C) ^ 3 * (31 / 10 * N) = 64 * 31 / 10 * (C ^ 3 * N) := by ring
  rw [b3] at b1
  have b4 : 0 ≤ C ^ 3 * N := by positivity
  generalize (4 * C) ^ 3 * X = y at *
  generalize C ^ 3 * N = y3 at *
  generalize C ^ 2 * N = y2 at *
  norm_num1 at *
  linarith

/-- an arc whose axes and start are near to those of an ellipse follows another ellipse, which stays near to it -/
theorem frame_near {a : ArcData ℚ} {start : Pt ℚ}
    {M C r q θ t : ℝ} (mx : |(start.x : ℝ)| ≤ M) (my : |(start.y : ℝ)| ≤ M) (rl : 1 / 2 ^ 100 ≤ r) (ql : 1 / 2 ^ 100 ≤ q) (hC : C ≤ 2 ^ 13)
    (c1 : M + r + q ≤ C * r) (c2 : M + r + q ≤ C * q)
    (a1 : Within ((M + r + q) / 2 ^ 38) a.prx (Spec.ellipse (pt a.center) r q θ 0))
    (a2 : Within ((M + r + q) / 2 ^ 38) a.pry (Spec.ellipse (pt a.center) r q θ (Real.pi / 2)))
    (a3 : Within ((M + r + q) / 2 ^ 39) start (Spec.ellipse (pt a.center) r q θ t)) :
    ∃ φ s0 l : ℝ, Direction a.center a.prx φ ∧ 0 < l ∧
      (start.x : ℝ) - a.center.x = l * ((ellipsePoint a.center (Props.dist a.center a.prx) (Props.dist a.center a.pry) φ s0).1 - a.center.x) ∧
      (start.y : ℝ) - a.center.y = l * ((ellipsePoint a.center (Props.dist a.center a.prx) (Props.dist a.center a.pry) φ s0).2 - a.center.y) ∧
      1 / 2 ^ 400 ≤ Props.dist a.center a.prx ∧ 1 / 2 ^ 400 ≤ Props.dist a.center a.pry ∧
      |(a.center.x : ℝ)| + |(a.center.y : ℝ)| + Props.dist a.center a.prx + Props.dist a.center a.pry ≤ 4 * C * Props.dist a.center a.prx ∧
      |(a.center.x : ℝ)| + |(a.center.y : ℝ)| + Props.dist a.center a.prx + Props.dist a.center a.pry ≤ 4 * C * Props.dist a.center a.pry ∧
      |(a.center.x : ℝ)| + |(a.center.y : ℝ)| + Props.dist a.center a.prx + Props.dist a.center a.pry ≤ 31 / 10 * (M + r + q) ∧ 2 ≤ C ∧ 0 < M + r + q ∧
      ∀ w : ℝ, |(ellipsePoint a.center (Props.dist a.center a.prx) (Props.dist a.center a.pry) φ (s0 + w)).1 - (Spec.ellipse (pt a.center) r q θ (t + w)).x| ≤
          C ^ 2 * (M + r + q) / 2 ^ 31 ∧
        |(ellipsePoint a.center (Props.dist a.center a.prx) (Props.dist a.center a.pry) φ (s0 + w)).2 - (Spec.ellipse (pt a.center) r q θ (t + w)).y| ≤
          C ^ 2 * (M + r + q) / 2 ^ 31 := by
  have M0 := (abs_nonneg _).trans mx
  have r0 : 0 < r := lt_of_lt_of_le (by positivity) rl
  have q0 : 0 < q := lt_of_lt_of_le (by positivity) ql
  have e1 := within_vec a1
  have e2 := within_vec a2
  have e3 := within_vec a3
  have z1 : unit θ * scale r q (unit 0) = r * unit θ := by
    apply Complex.ext <;> simp [scale, unit] <;> ring
  have z2 : ‖unit θ * scale r q (unit (Real.pi / 2))‖ = q := by
    have : scale r q (unit (Real.pi / 2)) = q * Complex.I := by apply Complex.ext <;> simp [scale, unit]
    rw [norm_mul, this, unit_norm, norm_mul, Complex.norm_I, Complex.norm_real, Real.norm_of_nonneg q0.le]
    ring
  have z3 : ‖unit θ * scale r q (unit t)‖ ≤ r + q := by
    have := scale_le r0.le q0.le (show r ≤ r + q by linarith) (show q ≤ r + q by linarith) (unit t)
    rwa [norm_mul, unit_norm, one_mul, ← mul_one (r + q), ← unit_norm t]
  set N := M + r + q with hN
  have N0 : 0 < N := by linarith
  have C2 : 2 ≤ C := by
    by_contra hc
    nlinarith
  have small : ∀ {m : ℝ}, 0 < m → N ≤ C * m → N / 2 ^ 38 ≤ m / 2 ^ 25 := by
    intro m m0 h
    rw [div_le_div_iff₀ (by norm_num) (by norm_num)]
    nlinarith
  have s1 := small r0 c1
  have s2 := small q0 c2
  set r' := Props.dist a.center a.prx with hr'
  set q' := Props.dist a.center a.pry with hq'
  set φ := Complex.arg (vec a.center a.prx) with hφ
  have h1 : ‖(r' : ℂ) * unit φ - r * unit θ‖ ≤ 2 * (N / 2 ^ 38) := by
    rw [hr', dist_vec, hφ, unit_arg, ← z1]
    exact e1.trans (by linarith)
  have hr : |r' - r| ≤ 2 * (N / 2 ^ 38) := by
    have := (abs_norm_sub_norm_le (vec a.center a.prx) (unit θ * scale r q (unit 0))).trans e1
    rw [z1, norm_mul, unit_norm, mul_one, Complex.norm_real, Real.norm_of_nonneg r0.le, ← dist_vec] at this
    exact this.trans (by linarith)
  have hq : |q' - q| ≤ 2 * (N / 2 ^ 38) := by
    have := (abs_norm_sub_norm_le (vec a.center a.pry) (unit θ * scale r q (unit (Real.pi / 2)))).trans e2
    rw [z2, ← dist_vec] at this
    exact this.trans (by linarith)
  have r0' : 9 / 10 * r ≤ r' := by
    have := (abs_le.1 hr).1
    norm_num1 at *
    linarith
  have q0' : 9 / 10 * q ≤ q' := by
    have := (abs_le.1 hq).1
    norm_num1 at *
    linarith
  have hcs : start ≠ a.center := by
    intro e
    have v : vec a.center start = 0 := by
      rw [e]
      apply Complex.ext <;> simp [vec]
    rw [v, zero_sub, norm_neg, norm_mul, unit_norm, one_mul] at e3
    rcases le_total r q with g | g
    · have := (le_scale r0.le le_rfl g (unit t)).trans e3
      rw [unit_norm] at this
      norm_num1 at *
      linarith
    · have := (le_scale q0.le g le_rfl (unit t)).trans e3
      rw [unit_norm] at this
      norm_num1 at *
      linarith
  obtain ⟨s0, l, l0, lx, ly⟩ := parameter_exists (a := r') (b := q') φ (by linarith) (by linarith) hcs
  have hv : vec a.center start = (l : ℂ) * (unit φ * scale r' q' (unit s0)) := by
    rw [← ellipse_offset a.center]
    apply Complex.ext
    · rw [Complex.re_ofReal_mul]
      exact lx
    · rw [Complex.im_ofReal_mul]
      exact ly
  have k3 : ‖(l : ℂ) * (unit φ * scale r' q' (unit s0)) - unit θ * scale r q (unit t)‖ ≤ N / 2 ^ 38 := by
    rw [← hv]
    exact e3.trans (by linarith)
  have core := fun w : ℝ => follow_core w r0 q0 (by linarith) (by linarith) hC c1 c2 (by linarith) (by linarith) l0 h1 hq k3
  -- the size of the centre
  have vs : ‖vec a.center start‖ ≤ r + q + N / 2 ^ 38 := by
    have := norm_sub_norm_le (vec a.center start) (unit θ * scale r q (unit t))
    linarith
  have cx : |(a.center.x : ℝ)| ≤ M + (r + q + N / 2 ^ 38) := by
    have b1 := (Complex.abs_re_le_norm (vec a.center start)).trans vs
    have b2 := abs_sub_abs_le_abs_sub (a.center.x : ℝ) start.x
    rw [abs_sub_comm] at b2
    have b3 : (vec a.center start).re = (start.x : ℝ) - a.center.x := rfl
    rw [b3] at b1
    linarith
  have cy : |(a.center.y : ℝ)| ≤ M + (r + q + N / 2 ^ 38) := by
    have b1 := (Complex.abs_im_le_norm (vec a.center start)).trans vs
    have b2 := abs_sub_abs_le_abs_sub (a.center.y : ℝ) start.y
    rw [abs_sub_comm] at b2
    have b3 : (vec a.center start).im = (start.y : ℝ) - a.center.y := rfl
    rw [b3] at b1
    linarith
  have tot : |(a.center.x : ℝ)| + |(a.center.y : ℝ)| + r' + q' ≤ 31 / 10 * N := by
    have b1 := (abs_le.1 hr).2
    have b2 := (abs_le.1 hq).2
    clear e1 e2 e3 core h1 hr hq k3 vs
    norm_num1 at *
    linarith
  have low := low_400
  have hCr := room (by linarith) r0 r0' tot c1
  have hCq := room (by linarith) q0 q0' tot c2
  exact ⟨φ, s0, l, direction_vec a.center a.prx, l0, lx, ly, by linarith, by linarith, hCr, hCq, tot, C2, N0, fun w => vec_within (c := a.center) (core w)⟩

/-- the points of an arc whose axes and start are near to those of an ellipse -/
theorem points_near (T : FloatTrig) (R : FloatRoot) (isAngle : Bool) {a : ArcData ℚ} (h : DoubleArc a) {start stop : Pt ℚ} (hs : DoublePt start)
    {M C r q θ t : ℝ} (mx : |(start.x : ℝ)| ≤ M) (my : |(start.y : ℝ)| ≤ M) (rl : 1 / 2 ^ 100 ≤ r) (ql : 1 / 2 ^ 100 ≤ q) (hC : C ≤ 2 ^ 13)
    (c1 : M + r + q ≤ C * r) (c2 : M + r + q ≤ C * q)
    (a1 : Within ((M + r + q) / 2 ^ 38) a.prx (Spec.ellipse (pt a.center) r q θ 0))
    (a2 : Within ((M + r + q) / 2 ^ 38) a.pry (Spec.ellipse (pt a.center) r q θ (Real.pi / 2)))
    (a3 : Within ((M + r + q) / 2 ^ 39) start (Spec.ellipse (pt a.center) r q θ t)) (hw : |a.sweep| ≤ 7) (hne : Flt.eq doubles start stop = false)
    {p : ℚ} (p0 : 0 < p) (p1 : p < 1) :
    Within (C ^ 3 * (M + r + q) / 2 ^ 31) (arcPoint doubles T R isAngle start stop a p) (Spec.ellipse (pt a.center) r q θ (t + a.sweep * p)) := by
  obtain ⟨φ, s0, l, hφ, l0, lx, ly, low1, low2, hCr, hCq, tot, C2, N0, core⟩ := frame_near mx my rl ql hC c1 c2 a1 a2 a3
  obtain ⟨f1, f2⟩ := C151_follows T R isAngle h hφ hs l0 lx ly low1 low2 hCr hCq hw p0 p1 (stop := stop)
    (by rw [hne]; simp)
  obtain ⟨g1, g2⟩ := core (a.sweep * p)
  have fin := sum_room C2 N0 tot
  exact ⟨(abs_sub_le _ _ _).trans ((add_le_add f1 g1).trans fin), (abs_sub_le _ _ _).trans ((add_le_add f2 g2).trans fin)⟩

theorem enlarged {M C rx ry s r q n : ℝ} (rx0 : 0 < rx) (ry0 : 0 < ry) (s0 : 0 < s) (M0 : 0 ≤ M) (C0 : 0 ≤ C) (hC : C ≤ 2 ^ 12)
    (hr : |r - rx * s| ≤ rx * s / 2 ^ 51) (hq : |q - ry * s| ≤ ry * s / 2 ^ 51)
    (hs : |s ^ 2 - max 1 n| ≤ (C / 2 ^ 41 + C ^ 2 / 2 ^ 86 + 1 / 2 ^ 47) * max 1 n) (c1 : M + rx + ry ≤ C * rx) (c2 : M + rx + ry ≤ C * ry) :
    M + r + q ≤ 9 / 8 * C * r ∧ M + r + q ≤ 9 / 8 * C * q ∧ rx / 2 ≤ r ∧ ry / 2 ≤ q := by
  have n1 : (1 : ℝ) ≤ max 1 n := le_max_left _ _
  have k : C / 2 ^ 41 + C ^ 2 / 2 ^ 86 + 1 / 2 ^ 47 ≤ 1 / 2 ^ 28 := by
    have : C ^ 2 ≤ 2 ^ 12 * 2 ^ 12 := by nlinarith
    norm_num1 at *
    linarith
  have s2 : 99 / 100 ≤ s ^ 2 := by
    have := (abs_le.1 hs).1
    have k2 : (C / 2 ^ 41 + C ^ 2 / 2 ^ 86 + 1 / 2 ^ 47) * max 1 n ≤ 1 / 2 ^ 28 * max 1 n := by gcongr
    norm_num1 at *
    linarith
  have s1 : 99 / 100 ≤ s := by nlinarith
  have p1 : 0 < rx * s := by positivity
  have p2 : 0 < ry * s := by positivity
  have ms : 99 / 100 * M ≤ M * s := by nlinarith
  have g1 : (M + rx + ry) * s ≤ C * rx * s := by gcongr
  have g2 : (M + rx + ry) * s ≤ C * ry * s := by gcongr
  obtain ⟨r1, r2⟩ := abs_le.1 hr
  obtain ⟨q1, q2⟩ := abs_le.1 hq
  have u1 : r ≤ 101 / 100 * (rx * s) := by norm_num1 at *; linarith
  have u2 : q ≤ 101 / 100 * (ry * s) := by norm_num1 at *; linarith
  have v1 : 99 / 100 * (rx * s) ≤ r := by norm_num1 at *; linarith
  have v2 : 99 / 100 * (ry * s) ≤ q := by norm_num1 at *; linarith
  have w1 : C * (99 / 100 * (rx * s)) ≤ C * r := by gcongr
  have w2 : C * (99 / 100 * (ry * s)) ≤ C * q := by gcongr
  have x1 : 0 ≤ C * (rx * s) := by positivity
  have x2 : 0 ≤ C * (ry * s) := by positivity
  have ms0 : 0 ≤ M * s := by positivity
  clear hr hq hs k s2 r1 r2 q1 q2 c1 c2
  refine ⟨?_, ?_, ?_, ?_⟩
  · linarith
  · linarith
  · nlinarith
  · nlinarith

end SvgArcFloat

open SvgArcFloat

/-- **C164**, the points of arcs built from SVG parameters, with floats: there is an ellipse, turned by the rotation and with radii enlarged
by the same factor as little as possible, that passes the start and, after the sweep, the end; the point at each position of the arc is
the one of the ellipse at this part of the sweep, up to `C^3 / 2^30` of the size. `C` says how flat the ellipse is and how far from the
origin. The first and the last point are exactly the start and the end. -/
theorem C164_points (T : FloatTrig) (hT : ∀ x, Spec.IsDouble (T.cos x) ∧ Spec.IsDouble (T.sin x)) (R : FloatSqrt) (A : FloatAcos) (Q : FloatRoot)
    {start stop : Pt ℚ} {rx ry rotation M C : ℚ} (large sweep : Bool) (hd : DoublePt start)
    (h : Flt.eq doubles start stop = false) (hs : SizeAtMost M start) (he : SizeAtMost M stop) (hM : M ≤ 2 ^ 64)
    (rl : 1 / 2 ^ 64 ≤ rx) (ru : rx ≤ 2 ^ 64) (ql : 1 / 2 ^ 64 ≤ ry) (qu : ry ≤ 2 ^ 64) (hr : |rotation| ≤ 720)
    (hC : C ≤ 2 ^ 12) (c1 : M + rx + ry ≤ C * rx) (c2 : M + rx + ry ≤ C * ry) :
    ∃ (a : ArcData ℚ) (r q s t : ℝ), svgParameterize doubles T R A start rx ry rotation large sweep stop = .ok a ∧
      |r - rx * s| ≤ rx * s / 2 ^ 51 ∧ |q - ry * s| ≤ ry * s / 2 ^ 51 ∧ 0 < s ∧
      |s ^ 2 - max 1 (need start stop rx ry rotation)| ≤ 1 / 2 ^ 28 * max 1 (need start stop rx ry rotation) ∧
      Within ((M + r + q) / 2 ^ 39) start (Spec.ellipse (pt a.center) r q (SvgArcFloat.angle rotation) t) ∧
      Within ((M + r + q) / 2 ^ 39 + (r + q) / 2 ^ 14) stop (Spec.ellipse (pt a.center) r q (SvgArcFloat.angle rotation) (t + a.sweep)) ∧
      (∀ p : ℚ, 0 < p → p < 1 → Within (C ^ 3 * (M + r + q) / 2 ^ 30) (arcPoint doubles T Q true start stop a p)
        (Spec.ellipse (pt a.center) r q (SvgArcFloat.angle rotation) (t + a.sweep * p))) ∧
      arcPoint doubles T Q true start stop a 0 = start ∧ arcPoint doubles T Q true start stop a 1 = stop := by
  have rx0 : 0 < rx := lt_of_lt_of_le (by positivity) rl
  have ry0 : 0 < ry := lt_of_lt_of_le (by positivity) ql
  have M0 : 0 ≤ M := (abs_nonneg _).trans hs.1
  obtain ⟨a, r, q, s, t, ok, r0, q0, s0, a1, a2, a3, a4, nr, nq, ns, -, sw, -⟩ :=
    C163_arc T hT R A large sweep h hs he hM rl ru ql qu hr (k := C) (by linarith) (by linarith)
  have da : DoubleArc a := by
    obtain ⟨dx, dy, x, y, r, q, s, c, cx, cy, δ, o, B⟩ := built T R A large sweep h hs he hM rl ru ql qu hr
    obtain rfl : a = native doubles T o r q rotation δ := Except.ok.inj (ok.symm.trans B.ok)
    exact ⟨B.oDouble, ⟨roundDouble_isDouble _, roundDouble_isDouble _⟩, roundDouble_isDouble _, roundDouble_isDouble _⟩
  have C0 : 0 ≤ C := by
    by_contra hc
    nlinarith
  have rx0' : (0 : ℝ) < rx := by exact_mod_cast rx0
  have ry0' : (0 : ℝ) < ry := by exact_mod_cast ry0
  have M0' : (0 : ℝ) ≤ M := by exact_mod_cast M0
  have C0' : (0 : ℝ) ≤ C := by exact_mod_cast C0
  have hC' : (C : ℝ) ≤ 2 ^ 12 := by exact_mod_cast hC
  obtain ⟨b1, b2, b3, b4⟩ := enlarged rx0' ry0' s0 M0' C0' hC' nr nq ns (by exact_mod_cast c1) (by exact_mod_cast c2)
  have rl' := (Rat.cast_le (K := ℝ)).2 rl
  have ql' := (Rat.cast_le (K := ℝ)).2 ql
  push_cast at rl' ql'
  have low : (1 : ℝ) / 2 ^ 100 ≤ 1 / 2 ^ 64 / 2 := by norm_num
  have hw : |a.sweep| ≤ 7 := by
    have := Real.pi_lt_d2
    have h7 : |(a.sweep : ℝ)| ≤ 7 := by norm_num1 at *; linarith
    exact_mod_cast h7
  refine ⟨a, r, q, s, t, ok, nr, nq, s0, ns.trans ?_, a3, a4, ?_, (C151_ends T Q true a start stop).1, (C151_ends T Q true a start stop).2 (by simp [h])⟩
  · have n1 : (0 : ℝ) ≤ max 1 (need start stop rx ry rotation) := zero_le_one.trans (le_max_left _ _)
    refine mul_le_mul_of_nonneg_right ?_ n1
    have : (C : ℝ) ^ 2 ≤ 2 ^ 12 * 2 ^ 12 := by nlinarith
    norm_num1 at *
    linarith
  · intro p p0 p1
    obtain ⟨f1, f2⟩ := points_near T Q true da hd (C := 9 / 8 * C) (by exact_mod_cast hs.1) (by exact_mod_cast hs.2) (by linarith) (by linarith)
      (by linarith) b1 b2 a1 a2 a3 hw h p0 p1
    have fin : (9 / 8 * (C : ℝ)) ^ 3 * (M + r + q) / 2 ^ 31 ≤ C ^ 3 * (M + r + q) / 2 ^ 30 := by
      have : (0 : ℝ) ≤ C ^ 3 * (M + r + q) := by positivity
      have e : (9 / 8 * (C : ℝ)) ^ 3 * (M + r + q) = 729 / 512 * (C ^ 3 * (M + r + q)) := by ring
      rw [e]
      linarith
    exact ⟨f1.trans fin, f2.trans fin⟩

/-- the example of C163 meets the further hypotheses: a quarter of a circle, flatness 3 -/
example : DoublePt ⟨100, 0⟩ ∧ (3 : ℚ) ≤ 2 ^ 12 ∧ (100 + 100 + 100 : ℚ) ≤ 3 * 100 :=
  ⟨⟨by have := isDouble_int (n := 100) (by norm_num); simpa using this, isDouble_zero⟩, by norm_num, by norm_num⟩

end Svgio.Props
