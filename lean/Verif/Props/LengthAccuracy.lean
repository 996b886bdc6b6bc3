import Verif.Props.CurveLength
import Verif.Props.ArcLength
import Verif.Model.SegLength
import Mathlib.Analysis.SpecialFunctions.Trigonometric.Bounds

/-!
C158: how accurate the lengths found by bisection are.
-/

namespace Svgio.Props

open Svgio Spec Seg

namespace LengthAccuracy

theorem unit_exists (x y : ℝ) : ∃ p q : ℝ, p ^ 2 + q ^ 2 = 1 ∧ x * p + y * q = Real.sqrt (x ^ 2 + y ^ 2) := by
  rcases eq_or_ne (x ^ 2 + y ^ 2) 0 with h | h
  · have hx : x = 0 := by nlinarith [sq_nonneg x, sq_nonneg y]
    have hy : y = 0 := by nlinarith [sq_nonneg x, sq_nonneg y]
    exact ⟨1, 0, by norm_num, by simp [hx, hy]⟩
  · have hpos : 0 < x ^ 2 + y ^ 2 := lt_of_le_of_ne (by positivity) (Ne.symm h)
    have hr : 0 < Real.sqrt (x ^ 2 + y ^ 2) := Real.sqrt_pos.2 hpos
    have hs := Real.sq_sqrt hpos.le
    refine ⟨x / Real.sqrt (x ^ 2 + y ^ 2), y / Real.sqrt (x ^ 2 + y ^ 2), ?_, ?_⟩
    · rw [div_pow, div_pow, hs, ← add_div, div_self h]
    · rw [mul_div_assoc', mul_div_assoc', ← add_div, div_eq_iff hr.ne']
      nlinarith

theorem dot_le {p q : ℝ} (h : p ^ 2 + q ^ 2 = 1) (x y : ℝ) : x * p + y * q ≤ Real.sqrt (x ^ 2 + y ^ 2) := by
  apply Real.le_sqrt_of_sq_le
  nlinarith [sq_nonneg (x * q - y * p)]

theorem norm_triangle (x y u v : ℝ) : Real.sqrt (x ^ 2 + y ^ 2) ≤ Real.sqrt (u ^ 2 + v ^ 2) + Real.sqrt ((x - u) ^ 2 + (y - v) ^ 2) := by
  have := dst_triangle ⟨x, y⟩ ⟨u, v⟩ ⟨0, 0⟩
  simp only [dst, sqDist, sub_zero] at this
  linarith

/-- if the speed is nearly the speed in one direction, the curve is nearly as short as its chord -/
theorem arc_le_chord {f : ℝ → Pt ℝ} (h : Smooth f) {a b p q c : ℝ} (hab : a ≤ b) (hu : p ^ 2 + q ^ 2 = 1)
    (hc : ∀ t ∈ Set.Icc a b, Real.sqrt (h.dx t ^ 2 + h.dy t ^ 2) ≤ h.dx t * p + h.dy t * q + c) :
    arcLengthOn f a b ≤ dst (f a) (f b) + c * (b - a) := by
  rw [h.arc]
  have hcx := h.cx
  have hcy := h.cy
  have ix : ∫ t in a..b, h.dx t = (f b).x - (f a).x :=
    intervalIntegral.integral_eq_sub_of_hasDerivAt (fun t _ => h.hx t) (h.cx.intervalIntegrable a b)
  have iy : ∫ t in a..b, h.dy t = (f b).y - (f a).y :=
    intervalIntegral.integral_eq_sub_of_hasDerivAt (fun t _ => h.hy t) (h.cy.intervalIntegrable a b)
  have h1 : ∫ t in a..b, Real.sqrt (h.dx t ^ 2 + h.dy t ^ 2) ≤ ∫ t in a..b, (h.dx t * p + h.dy t * q + c) := by
    apply intervalIntegral.integral_mono_on hab (h.cont.intervalIntegrable a b)
    · apply Continuous.intervalIntegrable; fun_prop
    · exact hc
  have h2 : ∫ t in a..b, (h.dx t * p + h.dy t * q + c) = ((f b).x - (f a).x) * p + ((f b).y - (f a).y) * q + c * (b - a) := by
    rw [intervalIntegral.integral_add (by apply Continuous.intervalIntegrable; fun_prop) (by simp),
      intervalIntegral.integral_add (by apply Continuous.intervalIntegrable; fun_prop) (by apply Continuous.intervalIntegrable; fun_prop),
      intervalIntegral.integral_mul_const, intervalIntegral.integral_mul_const, ix, iy, intervalIntegral.integral_const, smul_eq_mul]
    ring
  have h3 := dot_le hu ((f b).x - (f a).x) ((f b).y - (f a).y)
  have h4 : dst (f a) (f b) = Real.sqrt (((f b).x - (f a).x) ^ 2 + ((f b).y - (f a).y) ^ 2) := by
    simp only [dst, sqDist]; congr 1; ring
  rw [h4]
  linarith

/-- the velocity changes by at most `K` for each unit of the parameter -/
def Bent {f : ℝ → Pt ℝ} (h : Smooth f) (K : ℝ) : Prop :=
  ∀ s t, 0 ≤ s → s ≤ 1 → 0 ≤ t → t ≤ 1 → Real.sqrt ((h.dx t - h.dx s) ^ 2 + (h.dy t - h.dy s) ^ 2) ≤ K * |t - s|

theorem mid_abs {a b t : ℝ} (h1 : a ≤ t) (h2 : t ≤ b) : |t - (a + b) / 2| ≤ (b - a) / 2 := by
  rw [abs_le]; constructor <;> linarith

/-- the curve is longer than its chord by at most `K` times the square of the step -/
theorem defect_any {f : ℝ → Pt ℝ} {h : Smooth f} {K : ℝ} (hK : 0 ≤ K) (hb : Bent h K) {a b : ℝ} (ha : 0 ≤ a) (hab : a ≤ b) (hb1 : b ≤ 1) :
    arcLengthOn f a b ≤ dst (f a) (f b) + K * (b - a) ^ 2 := by
  set m := (a + b) / 2 with hm
  obtain ⟨p, q, hu, hpq⟩ := unit_exists (h.dx m) (h.dy m)
  have := arc_le_chord h (c := K * (b - a)) hab hu fun t ht => by
    have h1 := hb m t (by rw [hm]; linarith) (by rw [hm]; linarith) (ha.trans ht.1) (ht.2.trans hb1)
    have h2 : K * |t - m| ≤ K * ((b - a) / 2) := mul_le_mul_of_nonneg_left (mid_abs ht.1 ht.2) hK
    have h3 := norm_triangle (h.dx t) (h.dy t) (h.dx m) (h.dy m)
    have h4 := dot_le (p := -p) (q := -q) (by linarith [hu]) (h.dx t - h.dx m) (h.dy t - h.dy m)
    nlinarith
  linarith [sq (b - a), mul_assoc K (b - a) (b - a)]

/-- the speed against the speed in the direction of another velocity -/
theorem speed_dot {x y u v p q s d : ℝ} (hu : p ^ 2 + q ^ 2 = 1) (hpq : u * p + v * q = Real.sqrt (u ^ 2 + v ^ 2)) (hs : 0 < s)
    (h1 : s ≤ Real.sqrt (x ^ 2 + y ^ 2)) (h2 : s ≤ Real.sqrt (u ^ 2 + v ^ 2)) (hd : Real.sqrt ((x - u) ^ 2 + (y - v) ^ 2) ≤ d) (hds : d ≤ s) :
    Real.sqrt (x ^ 2 + y ^ 2) ≤ x * p + y * q + d ^ 2 / s := by
  set w := Real.sqrt (x ^ 2 + y ^ 2) with hw
  have hw2 : w ^ 2 = x ^ 2 + y ^ 2 := Real.sq_sqrt (by positivity)
  have hw0 : 0 < w := lt_of_lt_of_le hs h1
  have hd0 : 0 ≤ d := (Real.sqrt_nonneg _).trans hd
  -- u, v is parallel to p, q
  have hcross : u * q - v * p = 0 := by
    have e := congrArg (· ^ 2) hpq
    simp only [Real.sq_sqrt (show 0 ≤ u ^ 2 + v ^ 2 by positivity)] at e
    have : (u * q - v * p) ^ 2 = 0 := by
      have : (u * q - v * p) ^ 2 = (u ^ 2 + v ^ 2) * (p ^ 2 + q ^ 2) - (u * p + v * q) ^ 2 := by ring
      rw [this, hu, e]; ring
    exact pow_eq_zero_iff (two_ne_zero) |>.1 this
  have hdd : (x - u) ^ 2 + (y - v) ^ 2 ≤ d ^ 2 := by
    rw [← Real.sqrt_le_left hd0]; exact hd
  have hx2 : (x * q - y * p) ^ 2 ≤ d ^ 2 := by
    have e : x * q - y * p = (x - u) * q - (y - v) * p := by linarith
    have e2 : ((x - u) * q - (y - v) * p) ^ 2 = ((x - u) ^ 2 + (y - v) ^ 2) * (p ^ 2 + q ^ 2) - ((x - u) * p + (y - v) * q) ^ 2 := by ring
    rw [e, e2, hu]
    nlinarith [sq_nonneg ((x - u) * p + (y - v) * q)]
  have hdot : 0 ≤ x * p + y * q := by
    have h4 := dot_le (p := -p) (q := -q) (by linarith [hu]) (x - u) (y - v)
    nlinarith
  have e3 : w ^ 2 - (x * p + y * q) ^ 2 = (x * q - y * p) ^ 2 := by
    rw [hw2]
    have : (x * q - y * p) ^ 2 = (x ^ 2 + y ^ 2) * (p ^ 2 + q ^ 2) - (x * p + y * q) ^ 2 := by ring
    rw [this, hu]; ring
  -- (w - z) (w + z) ≤ d²
  have e4 : (w - (x * p + y * q)) * s ≤ d ^ 2 := by
    have hwz : 0 ≤ w - (x * p + y * q) := by
      have := dot_le hu x y
      rw [← hw] at this; linarith
    have : (w - (x * p + y * q)) * s ≤ (w - (x * p + y * q)) * (w + (x * p + y * q)) := mul_le_mul_of_nonneg_left (by linarith) hwz
    nlinarith
  have := (le_div_iff₀ hs).2 e4
  linarith

/-- where the speed is at least `s`, the curve is longer than its chord by at most a multiple of the cube of the step -/
theorem defect_regular {f : ℝ → Pt ℝ} {h : Smooth f} {K s : ℝ} (hK : 0 ≤ K) (hb : Bent h K) (hs : 0 < s)
    (hsp : ∀ t, 0 ≤ t → t ≤ 1 → s ≤ Real.sqrt (h.dx t ^ 2 + h.dy t ^ 2)) {a b : ℝ} (ha : 0 ≤ a) (hab : a ≤ b) (hb1 : b ≤ 1)
    (hstep : K * (b - a) ≤ 2 * s) : arcLengthOn f a b ≤ dst (f a) (f b) + K ^ 2 / (4 * s) * (b - a) ^ 3 := by
  set m := (a + b) / 2 with hm
  have hm0 : 0 ≤ m := by rw [hm]; linarith
  have hm1 : m ≤ 1 := by rw [hm]; linarith
  obtain ⟨p, q, hu, hpq⟩ := unit_exists (h.dx m) (h.dy m)
  have := arc_le_chord h (c := (K * ((b - a) / 2)) ^ 2 / s) hab hu fun t ht => by
    have h1 := hb m t hm0 hm1 (ha.trans ht.1) (ht.2.trans hb1)
    have h2 : K * |t - m| ≤ K * ((b - a) / 2) := mul_le_mul_of_nonneg_left (mid_abs ht.1 ht.2) hK
    exact speed_dot hu hpq hs (hsp t (ha.trans ht.1) (ht.2.trans hb1)) (hsp m hm0 hm1) (h1.trans h2) (by linarith)
  refine this.trans (le_of_eq ?_)
  field_simp
  ring

/-- the polygon, from the bound for one chord -/
theorem polygon_any {f : ℝ → Pt ℝ} (h : Smooth f) {K : ℝ}
    (hd : ∀ a b, 0 ≤ a → a ≤ b → b ≤ 1 → arcLengthOn f a b ≤ dst (f a) (f b) + K * (b - a) ^ 2) :
    ∀ (k : ℕ) (a b : ℝ), 0 ≤ a → a ≤ b → b ≤ 1 → arcLengthOn f a b ≤ polygonLength f a b (2 ^ k) + K * (b - a) ^ 2 / 2 ^ k
  | 0, a, b, ha, hab, hb => by
    have : polygonLength f a b (2 ^ 0) = dst (f a) (f b) := by
      simp only [polygonLength, pow_zero, Finset.sum_range_one, dst]
      congr 3 <;> · push_cast; ring
    rw [this]
    simpa using hd a b ha hab hb
  | k + 1, a, b, ha, hab, hb => by
    rw [pow_succ, mul_comm (2 ^ k) 2, polygon_halves _ _ _ _ (by positivity), ← arc_add h a ((a + b) / 2) b]
    have h1 := polygon_any h hd k a ((a + b) / 2) ha (by linarith) (by linarith)
    have h2 := polygon_any h hd k ((a + b) / 2) b (by linarith) (by linarith) hb
    have e : K * ((a + b) / 2 - a) ^ 2 / 2 ^ k + K * (b - (a + b) / 2) ^ 2 / 2 ^ k = K * (b - a) ^ 2 / 2 ^ (k + 1) := by
      rw [pow_succ]; field_simp; ring
    linarith

theorem polygon_regular {f : ℝ → Pt ℝ} (h : Smooth f) {Q r : ℝ}
    (hd : ∀ a b, 0 ≤ a → a ≤ b → b ≤ 1 → b - a ≤ r → arcLengthOn f a b ≤ dst (f a) (f b) + Q * (b - a) ^ 3) :
    ∀ (k : ℕ) (a b : ℝ), 0 ≤ a → a ≤ b → b ≤ 1 → b - a ≤ r * 2 ^ k →
      arcLengthOn f a b ≤ polygonLength f a b (2 ^ k) + Q * (b - a) ^ 3 / 4 ^ k
  | 0, a, b, ha, hab, hb, hr => by
    have : polygonLength f a b (2 ^ 0) = dst (f a) (f b) := by
      simp only [polygonLength, pow_zero, Finset.sum_range_one, dst]
      congr 3 <;> · push_cast; ring
    rw [this]
    simpa using hd a b ha hab hb (by simpa using hr)
  | k + 1, a, b, ha, hab, hb, hr => by
    have hr' : (b - a) / 2 ≤ r * 2 ^ k := by rw [pow_succ] at hr; linarith
    rw [pow_succ 2, mul_comm (2 ^ k) 2, polygon_halves _ _ _ _ (by positivity), ← arc_add h a ((a + b) / 2) b]
    have h1 := polygon_regular h hd k a ((a + b) / 2) ha (by linarith) (by linarith) (by linarith)
    have h2 := polygon_regular h hd k ((a + b) / 2) b (by linarith) (by linarith) hb (by linarith)
    have e : Q * ((a + b) / 2 - a) ^ 3 / 4 ^ k + Q * (b - (a + b) / 2) ^ 3 / 4 ^ k = Q * (b - a) ^ 3 / 4 ^ (k + 1) := by
      rw [pow_succ 4]; field_simp; ring
    linarith

theorem bisection_any {f : ℝ → Pt ℝ} (h : Smooth f) {K : ℝ} (hK : 0 ≤ K) (hb : Bent h K) {error : ℝ} (he : 0 < error) {minDepth fuel : ℕ} {L : ℝ}
    (hL : lineLength f fuel 0 1 error minDepth = .ok L) : arcLength f - K / 2 ^ (minDepth + 1) ≤ L ∧ L ≤ arcLength f := by
  obtain ⟨h1, h2, -⟩ := (bisection_smooth h error he minDepth).2 fuel L hL
  have h3 := polygon_any h (fun a b ha hab hb1 => defect_any hK hb ha hab hb1) (minDepth + 1) 0 1 le_rfl zero_le_one le_rfl
  simp only [sub_zero, one_pow, mul_one] at h3
  refine ⟨?_, h1⟩
  unfold arcLength
  linarith

theorem bisection_regular {f : ℝ → Pt ℝ} (h : Smooth f) {K s : ℝ} (hK : 0 ≤ K) (hb : Bent h K) (hs : 0 < s)
    (hsp : ∀ t, 0 ≤ t → t ≤ 1 → s ≤ Real.sqrt (h.dx t ^ 2 + h.dy t ^ 2)) {error : ℝ} (he : 0 < error) {minDepth fuel : ℕ} {L : ℝ}
    (hdepth : K ≤ 2 * s * 2 ^ (minDepth + 1))
    (hL : lineLength f fuel 0 1 error minDepth = .ok L) : arcLength f - K ^ 2 / (4 * s) / 4 ^ (minDepth + 1) ≤ L ∧ L ≤ arcLength f := by
  obtain ⟨h1, h2, -⟩ := (bisection_smooth h error he minDepth).2 fuel L hL
  refine ⟨?_, h1⟩
  rcases hK.eq_or_lt with h0 | h0
  · have h3 := polygon_any h (fun a b ha hab hb1 => defect_any hK hb ha hab hb1) (minDepth + 1) 0 1 le_rfl zero_le_one le_rfl
    rw [← h0] at h3 ⊢
    simp only [sub_zero, one_pow, mul_one, zero_div] at h3
    unfold arcLength
    simp
    linarith
  · have h3 := polygon_regular h (r := 2 * s / K) (fun a b ha hab hb1 hr => defect_regular hK hb hs hsp ha hab hb1
      (by rw [le_div_iff₀ h0] at hr; linarith)) (minDepth + 1) 0 1 le_rfl zero_le_one le_rfl
      (by rw [sub_zero, div_mul_eq_mul_div, le_div_iff₀ h0, one_mul]; exact hdepth)
    simp only [sub_zero, one_pow, mul_one] at h3
    unfold arcLength
    linarith

/-- the velocity of a cubic curve -/
theorem bent_cubic (a b c d : Pt ℝ) {D : ℝ} (h1 : Real.sqrt ((a.x - 2 * b.x + c.x) ^ 2 + (a.y - 2 * b.y + c.y) ^ 2) ≤ D)
    (h2 : Real.sqrt ((b.x - 2 * c.x + d.x) ^ 2 + (b.y - 2 * c.y + d.y) ^ 2) ≤ D) : Bent (smooth_bezier3 a b c d) (6 * D) := by
  intro s t hs0 hs1 ht0 ht1
  have hD : 0 ≤ D := (Real.sqrt_nonneg _).trans h1
  set r := (s + t) / 2 with hr
  have hr0 : 0 ≤ r := by rw [hr]; linarith
  have hr1 : 0 ≤ 1 - r := by rw [hr]; linarith
  have ex : (smooth_bezier3 a b c d).dx t - (smooth_bezier3 a b c d).dx s =
      6 * (t - s) * ((1 - r) * (a.x - 2 * b.x + c.x) + r * (b.x - 2 * c.x + d.x)) := by
    simp only [smooth_bezier3, hr]; ring
  have ey : (smooth_bezier3 a b c d).dy t - (smooth_bezier3 a b c d).dy s =
      6 * (t - s) * ((1 - r) * (a.y - 2 * b.y + c.y) + r * (b.y - 2 * c.y + d.y)) := by
    simp only [smooth_bezier3, hr]; ring
  rw [ex, ey]
  rw [Real.sqrt_le_left hD] at h1 h2
  generalize a.x - 2 * b.x + c.x = u1 at *
  generalize a.y - 2 * b.y + c.y = u2 at *
  generalize b.x - 2 * c.x + d.x = v1 at *
  generalize b.y - 2 * c.y + d.y = v2 at *
  have habs : |t - s| ^ 2 = (t - s) ^ 2 := sq_abs _
  rw [Real.sqrt_le_left (by positivity)]
  have hconv : ((1 - r) * u1 + r * v1) ^ 2 + ((1 - r) * u2 + r * v2) ^ 2 ≤ D ^ 2 := by
    have : ((1 - r) * u1 + r * v1) ^ 2 + ((1 - r) * u2 + r * v2) ^ 2 =
        (1 - r) * (u1 ^ 2 + u2 ^ 2) + r * (v1 ^ 2 + v2 ^ 2) - r * (1 - r) * ((u1 - v1) ^ 2 + (u2 - v2) ^ 2) := by ring
    rw [this]
    have g1 := mul_le_mul_of_nonneg_left h1 hr1
    have g2 := mul_le_mul_of_nonneg_left h2 hr0
    have g3 : 0 ≤ r * (1 - r) * ((u1 - v1) ^ 2 + (u2 - v2) ^ 2) := by positivity
    nlinarith
  calc (6 * (t - s) * ((1 - r) * u1 + r * v1)) ^ 2 + (6 * (t - s) * ((1 - r) * u2 + r * v2)) ^ 2 =
        36 * (t - s) ^ 2 * (((1 - r) * u1 + r * v1) ^ 2 + ((1 - r) * u2 + r * v2) ^ 2) := by ring
    _ ≤ 36 * (t - s) ^ 2 * D ^ 2 := mul_le_mul_of_nonneg_left hconv (by positivity)
    _ = (6 * D * |t - s|) ^ 2 := by rw [mul_pow, habs]; ring

/-- the velocity of an arc -/
theorem bent_arc {a : ArcData ℝ} {f : ℝ → Pt ℝ} {T : ℝ} (hf : ∀ u, f u = Arc.pointAtT a (T + a.sweep * u)) {R : ℝ}
    (h1 : |Arc.rx a| ≤ R) (h2 : |Arc.ry a| ≤ R) : Bent (Arc.smoothArc hf) (R * a.sweep ^ 2) := by
  intro s t _ _ _ _
  have hR : 0 ≤ R := (abs_nonneg _).trans h1
  rw [Real.sqrt_le_left (by positivity)]
  simp only [Arc.smoothArc]
  generalize Arc.rx a = r1 at *
  generalize Arc.ry a = r2 at *
  have hr1 : r1 ^ 2 ≤ R ^ 2 := sq_le_sq' (abs_le.1 h1).1 (abs_le.1 h1).2
  have hr2 : r2 ^ 2 ≤ R ^ 2 := sq_le_sq' (abs_le.1 h2).1 (abs_le.1 h2).2
  have hcs := Real.cos_sq_add_sin_sq (Arc.rotation a)
  generalize Real.cos (Arc.rotation a) = C at *
  generalize Real.sin (Arc.rotation a) = S at *
  have hcos : (Real.sin (T + a.sweep * t) - Real.sin (T + a.sweep * s)) ^ 2 + (Real.cos (T + a.sweep * t) - Real.cos (T + a.sweep * s)) ^ 2 ≤
      (a.sweep * (t - s)) ^ 2 := by
    have g := Real.one_sub_sq_div_two_le_cos (x := a.sweep * (t - s))
    have e : a.sweep * (t - s) = (T + a.sweep * t) - (T + a.sweep * s) := by ring
    rw [e] at g ⊢
    rw [Real.cos_sub] at g
    nlinarith [Real.cos_sq_add_sin_sq (T + a.sweep * t), Real.cos_sq_add_sin_sq (T + a.sweep * s)]
  generalize hα : Real.sin (T + a.sweep * t) - Real.sin (T + a.sweep * s) = α at *
  generalize hβ : Real.cos (T + a.sweep * t) - Real.cos (T + a.sweep * s) = β at *
  have habs : |t - s| ^ 2 = (t - s) ^ 2 := sq_abs _
  calc _ = a.sweep ^ 2 * (r1 ^ 2 * α ^ 2 + r2 ^ 2 * β ^ 2) * (C ^ 2 + S ^ 2) := by rw [← hα, ← hβ]; ring
    _ ≤ a.sweep ^ 2 * (R ^ 2 * (a.sweep * (t - s)) ^ 2) := by
      rw [hcs, mul_one]
      apply mul_le_mul_of_nonneg_left _ (sq_nonneg _)
      calc r1 ^ 2 * α ^ 2 + r2 ^ 2 * β ^ 2 ≤ R ^ 2 * α ^ 2 + R ^ 2 * β ^ 2 :=
            add_le_add (mul_le_mul_of_nonneg_right hr1 (sq_nonneg _)) (mul_le_mul_of_nonneg_right hr2 (sq_nonneg _))
        _ = R ^ 2 * (α ^ 2 + β ^ 2) := by ring
        _ ≤ _ := mul_le_mul_of_nonneg_left hcos (sq_nonneg _)
    _ = (R * a.sweep ^ 2 * |t - s|) ^ 2 := by rw [mul_pow _ |t - s|, habs]; ring

theorem speed_arc {a : ArcData ℝ} {f : ℝ → Pt ℝ} {T : ℝ} (hf : ∀ u, f u = Arc.pointAtT a (T + a.sweep * u)) {r : ℝ} (hr : 0 ≤ r)
    (h1 : r ≤ Arc.rx a) (h2 : r ≤ Arc.ry a) (t : ℝ) :
    r * |a.sweep| ≤ Real.sqrt ((Arc.smoothArc hf).dx t ^ 2 + (Arc.smoothArc hf).dy t ^ 2) := by
  apply Real.le_sqrt_of_sq_le
  simp only [Arc.smoothArc]
  have hr1 : r ^ 2 ≤ Arc.rx a ^ 2 := pow_le_pow_left₀ hr h1 2
  have hr2 : r ^ 2 ≤ Arc.ry a ^ 2 := pow_le_pow_left₀ hr h2 2
  generalize Arc.rx a = r1 at *
  generalize Arc.ry a = r2 at *
  have hcs := Real.cos_sq_add_sin_sq (Arc.rotation a)
  have hcs2 := Real.cos_sq_add_sin_sq (T + a.sweep * t)
  generalize Real.cos (Arc.rotation a) = C at *
  generalize Real.sin (Arc.rotation a) = S at *
  generalize Real.cos (T + a.sweep * t) = c at *
  generalize Real.sin (T + a.sweep * t) = σ at *
  calc (r * |a.sweep|) ^ 2 = a.sweep ^ 2 * (r ^ 2 * (c ^ 2 + σ ^ 2)) := by rw [mul_pow, sq_abs, hcs2]; ring
    _ ≤ a.sweep ^ 2 * (r1 ^ 2 * σ ^ 2 + r2 ^ 2 * c ^ 2) := by
      apply mul_le_mul_of_nonneg_left _ (sq_nonneg _)
      nlinarith [mul_le_mul_of_nonneg_right hr1 (sq_nonneg σ), mul_le_mul_of_nonneg_right hr2 (sq_nonneg c)]
    _ = a.sweep ^ 2 * (r1 ^ 2 * σ ^ 2 + r2 ^ 2 * c ^ 2) * (C ^ 2 + S ^ 2) := by rw [hcs, mul_one]
    _ = _ := by ring

theorem cubic_line (p c d q : Pt ℝ) : (fun t => (⟨cubicAt p.x c.x d.x q.x t, cubicAt p.y c.y d.y q.y t⟩ : Pt ℝ)) = bezier3 p c d q := by
  funext t
  simp only [bezier3, bezier2, between, cubicAt, Pt.mk.injEq]
  constructor <;> ring

end LengthAccuracy

open LengthAccuracy

/-- C158: without scipy, `length(error, min_depth)` of a cubic curve is never too large, and too small by at most 3·D / 2^min_depth, if
the second differences of its four points are at most `D` long; with the default min_depth of 5 this is less than D / 10. -/
theorem C158_cubic {s : Seg ℝ} {p c d q : Pt ℝ} (hk : s.kind = .cubic (some c) (some d)) (hp : s.start = some p) (hq : s.stop = some q) {D : ℝ}
    (h1 : Real.sqrt ((p.x - 2 * c.x + d.x) ^ 2 + (p.y - 2 * c.y + d.y) ^ 2) ≤ D)
    (h2 : Real.sqrt ((c.x - 2 * d.x + q.x) ^ 2 + (c.y - 2 * d.y + q.y) ^ 2) ≤ D) {error : ℝ} (he : 0 < error) (minDepth : ℕ) :
    (∃ n, ∀ fuel, n ≤ fuel → ∃ L, s.length none fuel error minDepth = .ok L) ∧
    ∀ fuel L, s.length none fuel error minDepth = .ok L →
      arcLength (bezier3 p c d q) - 3 * D / 2 ^ minDepth ≤ L ∧ L ≤ arcLength (bezier3 p c d q) := by
  have e : ∀ fuel, s.length none fuel error minDepth = lineLength (bezier3 p c d q) fuel 0 1 error minDepth := by
    intro fuel
    rcases s with ⟨k, st, sp, r, sm⟩
    simp only at hk hp hq
    subst hk hp hq
    simp only [Seg.length, cubicLength]
    rw [cubic_line]
  simp only [e]
  refine ⟨(bisection_smooth (smooth_bezier3 p c d q) error he minDepth).1, fun fuel L hL => ?_⟩
  have hD : 0 ≤ D := (Real.sqrt_nonneg _).trans h1
  have := bisection_any _ (by positivity) (bent_cubic p c d q h1 h2) he hL
  rwa [show 6 * D / 2 ^ (minDepth + 1) = 3 * D / 2 ^ minDepth by rw [pow_succ]; field_simp; ring] at this

/-- C158: if moreover the curve nowhere moves slower than `v`, and min_depth is not too small for that, then the error falls to a
quarter when min_depth grows by one. -/
theorem C158_cubic_fast {s : Seg ℝ} {p c d q : Pt ℝ} (hk : s.kind = .cubic (some c) (some d)) (hp : s.start = some p) (hq : s.stop = some q)
    {D v : ℝ} (h1 : Real.sqrt ((p.x - 2 * c.x + d.x) ^ 2 + (p.y - 2 * c.y + d.y) ^ 2) ≤ D)
    (h2 : Real.sqrt ((c.x - 2 * d.x + q.x) ^ 2 + (c.y - 2 * d.y + q.y) ^ 2) ≤ D) (hv : 0 < v)
    (h3 : ∀ t, 0 ≤ t → t ≤ 1 → v ≤ Real.sqrt (deriv (fun t => (bezier3 p c d q t).x) t ^ 2 + deriv (fun t => (bezier3 p c d q t).y) t ^ 2))
    {error : ℝ} (he : 0 < error) {minDepth : ℕ} (hm : 3 * D ≤ 2 * v * 2 ^ minDepth) (fuel : ℕ) (L : ℝ)
    (hL : s.length none fuel error minDepth = .ok L) :
    arcLength (bezier3 p c d q) - 9 * D ^ 2 / (4 * v) / 4 ^ minDepth ≤ L ∧ L ≤ arcLength (bezier3 p c d q) := by
  rcases s with ⟨k, st, sp, r, sm⟩
  simp only at hk hp hq
  subst hk hp hq
  simp only [Seg.length, cubicLength] at hL
  rw [cubic_line] at hL
  have hD : 0 ≤ D := (Real.sqrt_nonneg _).trans h1
  have := bisection_regular (smooth_bezier3 p c d q) (K := 6 * D) (by positivity) (bent_cubic p c d q h1 h2) hv (fun t h0 h1 => by
    have := h3 t h0 h1
    rwa [((smooth_bezier3 p c d q).hx t).deriv, ((smooth_bezier3 p c d q).hy t).deriv] at this) he
    (by rw [pow_succ]; linarith) hL
  rwa [show (6 * D) ^ 2 / (4 * v) / 4 ^ (minDepth + 1) = 9 * D ^ 2 / (4 * v) / 4 ^ minDepth by rw [pow_succ]; field_simp; ring] at this

/-- C158: the length of an arc of an ellipse found without scipy is never too large, and too small by at most R·sweep² / 2^(min_depth + 1);
if min_depth is not too small, by at most R²·|sweep|³ / (r · 4^(min_depth + 2)). `R` and `r` are the larger and the smaller radius. -/
theorem C158_arc {a : ArcData ℝ} (ha : 0 < Arc.rx a) (hb : 0 < Arc.ry a) {start stop : Pt ℝ} {t : ℝ}
    (h1 : start = ellipse a.center (Arc.rx a) (Arc.ry a) (Arc.rotation a) t)
    (h2 : stop = ellipse a.center (Arc.rx a) (Arc.ry a) (Arc.rotation a) (t + a.sweep)) {isAngle : Bool}
    (hw : Arc.sweepIsZero isAngle a.sweep = false) {error : ℝ} (he : 0 < error) (minDepth : ℕ) (hd : 1 / 10 ^ 12 ≤ |Arc.rx a - Arc.ry a|)
    (fuel : ℕ) (L : ℝ) (hL : Arc.length false isAngle fuel error minDepth start stop a = .ok L) :
    (arcLength (Arc.point isAngle start stop a) - max (Arc.rx a) (Arc.ry a) * a.sweep ^ 2 / 2 ^ (minDepth + 1) ≤ L ∧
      L ≤ arcLength (Arc.point isAngle start stop a)) ∧
    (max (Arc.rx a) (Arc.ry a) * |a.sweep| ≤ min (Arc.rx a) (Arc.ry a) * 2 ^ (minDepth + 2) →
      arcLength (Arc.point isAngle start stop a) -
        max (Arc.rx a) (Arc.ry a) ^ 2 * |a.sweep| ^ 3 / (min (Arc.rx a) (Arc.ry a) * 4 ^ (minDepth + 2)) ≤ L) := by
  have hp := Arc.point_wave ha hb h1 h2 hw
  have hL' : lineLength (Arc.point isAngle start stop a) fuel 0 1 error minDepth = .ok L := by
    unfold Arc.length at hL
    rw [hw, if_neg (by simp)] at hL
    simp only at hL
    rwa [if_neg (show ¬ |Arc.rx a - Arc.ry a| < Svgio.err from not_lt.2 hd), if_neg (by simp)] at hL
  have hR : 0 < max (Arc.rx a) (Arc.ry a) := lt_max_of_lt_left ha
  have hr : 0 < min (Arc.rx a) (Arc.ry a) := lt_min ha hb
  have hbent := bent_arc hp (R := max (Arc.rx a) (Arc.ry a)) (by rw [abs_of_pos ha]; exact le_max_left _ _) (by rw [abs_of_pos hb]; exact le_max_right _ _)
  refine ⟨bisection_any _ (by positivity) hbent he hL', fun hm => ?_⟩
  have hsw : a.sweep ≠ 0 := Arc.sweep_ne hw
  have hsw' : 0 < |a.sweep| := abs_pos.2 hsw
  have hsq : a.sweep ^ 2 = |a.sweep| ^ 2 := (sq_abs _).symm
  have := (bisection_regular _ (s := min (Arc.rx a) (Arc.ry a) * |a.sweep|) (by positivity) hbent (by positivity)
    (fun u _ _ => speed_arc hp hr.le (min_le_left _ _) (min_le_right _ _) u) he (by
      rw [hsq, sq, ← mul_assoc]
      have := mul_le_mul_of_nonneg_right hm hsw'.le
      refine this.trans (le_of_eq ?_)
      rw [pow_succ 2 (minDepth + 1)]; ring) hL').1
  refine le_trans (le_of_eq ?_) this
  congr 1
  rw [hsq, pow_succ 4 (minDepth + 1)]
  generalize max (Arc.rx a) (Arc.ry a) = R at *
  generalize min (Arc.rx a) (Arc.ry a) = r at *
  generalize |a.sweep| = w at *
  field_simp

/-- a curve like the letter S: its middle is in the middle of its chord -/
def sCurve : Seg ℝ := { kind := .cubic (some ⟨1, 3⟩) (some ⟨2, -3⟩), start := some ⟨0, 0⟩, stop := some ⟨3, 0⟩ }

/-- C158, against the code: `error` does not bound the error. Whatever it is, with min_depth = 0 the length of this curve is said to be 3,
though the curve is longer than 4. -/
theorem C158_error_wrong (error : ℝ) (he : 0 < error) (fuel : ℕ) :
    sCurve.length none (fuel + 1) error 0 = .ok 3 ∧ 4 < arcLength (bezier3 (⟨0, 0⟩ : Pt ℝ) ⟨1, 3⟩ ⟨2, -3⟩ ⟨3, 0⟩) := by
  constructor
  · simp only [sCurve, Seg.length, cubicLength]
    have hc := cubic_line (⟨0, 0⟩ : Pt ℝ) ⟨1, 3⟩ ⟨2, -3⟩ ⟨3, 0⟩
    simp only at hc
    rw [hc]
    have e0 : bezier3 (⟨0, 0⟩ : Pt ℝ) ⟨1, 3⟩ ⟨2, -3⟩ ⟨3, 0⟩ 0 = ⟨0, 0⟩ := by simp [bezier3, bezier2, between]
    have e1 : bezier3 (⟨0, 0⟩ : Pt ℝ) ⟨1, 3⟩ ⟨2, -3⟩ ⟨3, 0⟩ 1 = ⟨3, 0⟩ := by simp [bezier3, bezier2, between]
    have em : bezier3 (⟨0, 0⟩ : Pt ℝ) ⟨1, 3⟩ ⟨2, -3⟩ ⟨3, 0⟩ ((0 + 1) / 2) = ⟨3 / 2, 0⟩ := by
      simp only [bezier3, bezier2, between, Pt.mk.injEq]; constructor <;> norm_num
    unfold lineLength segmentLength
    simp only [e0, e1, em]
    have root : ∀ r x : ℝ, 0 ≤ r → x = r ^ 2 → Real.sqrt x = r := fun r x h e => by rw [e, Real.sqrt_sq h]
    have n1 : Pt.norm (Pt.sub (⟨3, 0⟩ : Pt ℝ) ⟨0, 0⟩) = 3 := by
      simp only [Pt.norm, Pt.sub]; exact root 3 _ (by norm_num) (by norm_num)
    have n2 : Pt.norm (Pt.sub (⟨3 / 2, 0⟩ : Pt ℝ) ⟨0, 0⟩) = 3 / 2 := by
      simp only [Pt.norm, Pt.sub]; exact root (3 / 2) _ (by norm_num) (by norm_num)
    have n3 : Pt.norm (Pt.sub (⟨3, 0⟩ : Pt ℝ) ⟨3 / 2, 0⟩) = 3 / 2 := by
      simp only [Pt.norm, Pt.sub]; exact root (3 / 2) _ (by norm_num) (by norm_num)
    rw [n1, n2, n3, if_neg (by norm_num; exact he.le)]
    norm_num
  · have sm := smooth_bezier3 (⟨0, 0⟩ : Pt ℝ) ⟨1, 3⟩ ⟨2, -3⟩ ⟨3, 0⟩
    have key : ∀ u v : ℝ, u ≤ v → dst (bezier3 (⟨0, 0⟩ : Pt ℝ) ⟨1, 3⟩ ⟨2, -3⟩ ⟨3, 0⟩ u) (bezier3 (⟨0, 0⟩ : Pt ℝ) ⟨1, 3⟩ ⟨2, -3⟩ ⟨3, 0⟩ v) ≤
      arcLengthOn (bezier3 (⟨0, 0⟩ : Pt ℝ) ⟨1, 3⟩ ⟨2, -3⟩ ⟨3, 0⟩) u v := fun u v h => chord_le sm h
    have k1 := key 0 (1 / 4) (by norm_num)
    have k2 := key (1 / 4) (3 / 4) (by norm_num)
    have k3 := key (3 / 4) 1 (by norm_num)
    have a1 := arc_add sm 0 (1 / 4) (3 / 4)
    have a2 := arc_add sm 0 (3 / 4) 1
    unfold arcLength
    have v0 : bezier3 (⟨0, 0⟩ : Pt ℝ) ⟨1, 3⟩ ⟨2, -3⟩ ⟨3, 0⟩ 0 = ⟨0, 0⟩ := by simp [bezier3, bezier2, between]
    have v1 : bezier3 (⟨0, 0⟩ : Pt ℝ) ⟨1, 3⟩ ⟨2, -3⟩ ⟨3, 0⟩ 1 = ⟨3, 0⟩ := by simp [bezier3, bezier2, between]
    have vq : bezier3 (⟨0, 0⟩ : Pt ℝ) ⟨1, 3⟩ ⟨2, -3⟩ ⟨3, 0⟩ (1 / 4) = ⟨3 / 4, 27 / 32⟩ := by
      simp only [bezier3, bezier2, between, Pt.mk.injEq]; constructor <;> norm_num
    have vr : bezier3 (⟨0, 0⟩ : Pt ℝ) ⟨1, 3⟩ ⟨2, -3⟩ ⟨3, 0⟩ (3 / 4) = ⟨9 / 4, -27 / 32⟩ := by
      simp only [bezier3, bezier2, between, Pt.mk.injEq]; constructor <;> norm_num
    rw [v0, vq] at k1
    rw [vq, vr] at k2
    rw [vr, v1] at k3
    have d1 : 11 / 10 ≤ dst (⟨0, 0⟩ : Pt ℝ) ⟨3 / 4, 27 / 32⟩ := by
      simp only [dst, sqDist]; apply Real.le_sqrt_of_sq_le; norm_num
    have d2 : 22 / 10 ≤ dst (⟨3 / 4, 27 / 32⟩ : Pt ℝ) ⟨9 / 4, -27 / 32⟩ := by
      simp only [dst, sqDist]; apply Real.le_sqrt_of_sq_le; norm_num
    have d3 : 11 / 10 ≤ dst (⟨9 / 4, -27 / 32⟩ : Pt ℝ) ⟨3, 0⟩ := by
      simp only [dst, sqDist]; apply Real.le_sqrt_of_sq_le; norm_num
    linarith

/-- the hypotheses hold for a curve like the letter S, which moves at a speed of at least 3; with the default min_depth of 5 its length is
right up to 6 / 100 -/
example (fuel : ℕ) (L : ℝ) (hL : sCurve.length none fuel (1 / 10 ^ 12) 5 = .ok L) :
    arcLength (bezier3 (⟨0, 0⟩ : Pt ℝ) ⟨1, 3⟩ ⟨2, -3⟩ ⟨3, 0⟩) - 6 / 100 ≤ L ∧ L ≤ arcLength (bezier3 (⟨0, 0⟩ : Pt ℝ) ⟨1, 3⟩ ⟨2, -3⟩ ⟨3, 0⟩) := by
  have := C158_cubic_fast (s := sCurve) (D := 9) (v := 3) rfl rfl rfl
    (by rw [Real.sqrt_le_left (by norm_num)]; norm_num) (by rw [Real.sqrt_le_left (by norm_num)]; norm_num) (by norm_num) (fun t _ _ => by
      rw [((smooth_bezier3 _ _ _ _).hx t).deriv]
      apply Real.le_sqrt_of_sq_le
      have : (smooth_bezier3 (⟨0, 0⟩ : Pt ℝ) ⟨1, 3⟩ ⟨2, -3⟩ ⟨3, 0⟩).dx t = 3 := by simp only [smooth_bezier3]; ring
      rw [this]
      nlinarith [sq_nonneg (deriv (fun t => (bezier3 (⟨0, 0⟩ : Pt ℝ) ⟨1, 3⟩ ⟨2, -3⟩ ⟨3, 0⟩ t).y) t)])
    (error := 1 / 10 ^ 12) (by norm_num) (minDepth := 5) (by norm_num) fuel L hL
  refine ⟨le_trans ?_ this.1, this.2⟩
  norm_num1
  linarith

/-- a quarter of an ellipse meets the hypotheses of C158_arc, even with min_depth = 0 -/
example : ∃ (a : ArcData ℝ) (start stop : Pt ℝ) (t : ℝ), 0 < Arc.rx a ∧ 0 < Arc.ry a ∧
    start = ellipse a.center (Arc.rx a) (Arc.ry a) (Arc.rotation a) t ∧
    stop = ellipse a.center (Arc.rx a) (Arc.ry a) (Arc.rotation a) (t + a.sweep) ∧ Arc.sweepIsZero false a.sweep = false ∧
    1 / 10 ^ 12 ≤ |Arc.rx a - Arc.ry a| ∧ max (Arc.rx a) (Arc.ry a) * |a.sweep| ≤ min (Arc.rx a) (Arc.ry a) * 2 ^ (0 + 2) := by
  have hpi := Real.pi_pos
  have hpi4 := Real.pi_le_four
  have e1 : Arc.rx { center := ⟨0, 0⟩, prx := ⟨2, 0⟩, pry := ⟨0, 1⟩, sweep := Real.pi / 2 } = 2 := by
    rw [Arc.rx_eq, show ((2 : ℝ) - 0) ^ 2 + (0 - 0) ^ 2 = 2 ^ 2 by norm_num, Real.sqrt_sq (by norm_num)]
  have e2 : Arc.ry { center := ⟨0, 0⟩, prx := ⟨2, 0⟩, pry := ⟨0, 1⟩, sweep := Real.pi / 2 } = 1 := by
    rw [Arc.ry_eq]; norm_num
  refine ⟨{ center := ⟨0, 0⟩, prx := ⟨2, 0⟩, pry := ⟨0, 1⟩, sweep := Real.pi / 2 }, _, _, 0, ?_, ?_, rfl, rfl, ?_, ?_, ?_⟩
  · rw [e1]; norm_num
  · rw [e2]; norm_num
  · simp [Arc.sweepIsZero, hpi.ne']
  · rw [e1, e2]; norm_num
  · rw [e1, e2, abs_of_pos (by positivity)]; norm_num; linarith

end Svgio.Props
