import Verif.Props.FloatSvgArcFrame
import Verif.Props.FloatBox
import Verif.Spec.Arc

/-!
C163: arcs built from SVG parameters with floats.
-/

namespace Svgio.Props

open Svgio.Flt Svgio.Scaled

namespace SvgArcFloat

theorem tiny_le : (1 : ℚ) / 2 ^ 1074 ≤ 1 / 2 ^ 100 :=
  one_div_le_one_div_of_le (by positivity) (pow_le_pow_right₀ (by norm_num) (by norm_num))

/-- the angle in radians -/
theorem radians_near {d : ℚ} (h : |d| ≤ 720) : |(radians doubles d : ℝ) - d * Real.pi / 180| ≤ 1 / 2 ^ 47 := by
  unfold radians
  rw [tau_half]
  have k1 := abs_le.1 (doubles.err (tau / 2 / 180))
  have ht := tiny_le
  generalize doubles.fl (tau / 2 / 180) = k at *
  have hη : (0 : ℚ) ≤ 1 / 2 ^ 1074 := by positivity
  rw [abs_of_nonneg (by norm_num [tau])] at k1
  have kk : |k - tau / 360| ≤ 1 / 2 ^ 58 := by
    generalize (1 : ℚ) / 2 ^ 1074 = η at *
    norm_num [tau] at k1 ht ⊢
    rw [abs_le]
    constructor <;> linarith
  have ku : |k| ≤ 1 / 57 := by
    have := abs_le.1 kk
    norm_num [tau] at this
    rw [abs_le]
    constructor <;> linarith
  have h1 : |doubles.fl (d * k) - d * k| ≤ 1 / 2 ^ 49 := by
    refine (doubles.err _).trans ?_
    have : |d * k| ≤ 720 * (1 / 57) := by rw [abs_mul]; exact mul_le_mul h ku (abs_nonneg _) (by norm_num)
    generalize (1 : ℚ) / 2 ^ 1074 = η at *
    norm_num at this ht ⊢
    linarith
  have h2 : |d * k - d * (tau / 360)| ≤ 720 * (1 / 2 ^ 58) := by
    rw [← mul_sub, abs_mul]; exact mul_le_mul h kk (abs_nonneg _) (by norm_num)
  have h3 : |((doubles.fl (d * k) : ℚ) : ℝ) - d * ((tau : ℚ) / 360 : ℝ)| ≤ 1 / 2 ^ 49 + 720 * (1 / 2 ^ 58) := by
    have := (abs_sub_le _ _ _).trans (add_le_add h1 h2)
    have := (Rat.cast_le (K := ℝ)).2 this
    push_cast at this
    exact this
  have h4 := tau_near
  have hd : |(d : ℝ)| ≤ 720 := by have := (Rat.cast_le (K := ℝ)).2 h; push_cast at this; exact this
  have h5 : |(d : ℝ) * ((tau : ℚ) / 360 : ℝ) - d * Real.pi / 180| ≤ 720 * (1 / 2 ^ 51) / 360 := by
    rw [show (d : ℝ) * ((tau : ℚ) / 360 : ℝ) - d * Real.pi / 180 = d * (((tau : ℚ) : ℝ) - 2 * Real.pi) / 360 by ring, abs_div, abs_mul,
      abs_of_pos (show (0 : ℝ) < 360 by norm_num)]
    refine div_le_div_of_nonneg_right (mul_le_mul hd (h4.trans (by norm_num)) (abs_nonneg _) (by norm_num)) (by norm_num)
  refine (abs_sub_le _ _ _).trans ((add_le_add h3 h5).trans (by norm_num))

theorem trig_near (T : FloatTrig) {d : ℚ} (h : |d| ≤ 720) :
    |(T.cos (radians doubles d) : ℝ) - Real.cos (d * Real.pi / 180)| ≤ 1 / 2 ^ 46 ∧
      |(T.sin (radians doubles d) : ℝ) - Real.sin (d * Real.pi / 180)| ≤ 1 / 2 ^ 46 := by
  have e := radians_near h
  constructor
  · refine (abs_sub_le _ _ _).trans ((add_le_add (T.cos_err _) ((Real.abs_cos_sub_cos_le _ _).trans e)).trans (by norm_num))
  · refine (abs_sub_le _ _ _).trans ((add_le_add (T.sin_err _) ((Real.abs_sin_sub_sin_le _ _).trans e)).trans (by norm_num))

/-- a half of a difference or a sum -/
theorem half_near {a b M : ℚ} (ha : |a| ≤ M) (hb : |b| ≤ M) (hM : 1 / 2 ^ 60 ≤ M) :
    Nr M 6 ((a - b) / 2) (doubles.fl (doubles.fl (a - b) / 2)) ∧ Nr M 6 ((a + b) / 2) (doubles.fl (doubles.fl (a + b) / 2)) := by
  have ha' := abs_le.1 ha
  have hb' := abs_le.1 hb
  have M0 := low_pos hM
  have go : ∀ {c : ℚ}, |c| ≤ 2 * M → Nr M 6 (c / 2) (doubles.fl (doubles.fl c / 2)) := by
    intro c hc
    have n1 := round_self doubles hc (a := 60) (by linarith) (by norm_num)
    have n2 := n1.div_exact (show (0 : ℚ) < 2 by norm_num)
    rw [mul_div_cancel_left₀ _ (by norm_num : (2 : ℚ) ≠ 0)] at n2
    have := n2.round doubles (by norm_num) (by norm_num) (low_le 1000 hM (by norm_num))
    norm_num at this
    exact this
  exact ⟨go (by rw [abs_le]; constructor <;> linarith), go (by rw [abs_le]; constructor <;> linarith)⟩

/-- a sum of two products -/
theorem row_near (F : FloatRounding) {a b c d M : ℚ} (ha : |a| ≤ 101 / 100) (hb : |b| ≤ 101 / 100) (hc : |c| ≤ M) (hd : |d| ≤ M) (hM : 1 / 2 ^ 70 ≤ M) :
    Nr (3 * M) 9 (a * c + b * d) (F.fl (F.fl (a * c) + F.fl (b * d))) ∧
      Nr (3 * M) 9 (a * c - b * d) (F.fl (F.fl (a * c) - F.fl (b * d))) := by
  have M0 := low_pos hM
  have p : ∀ {a c : ℚ}, |a| ≤ 101 / 100 → |c| ≤ M → |a * c| ≤ 101 / 100 * M := fun h h' => by
    rw [abs_mul]; exact mul_le_mul h h' (abs_nonneg _) (by norm_num)
  have l : (1 : ℚ) / 2 ^ 1000 ≤ 3 * M := (low_le 1000 hM (by norm_num)).trans (by linarith)
  have r : ∀ {a c : ℚ}, |a| ≤ 101 / 100 → |c| ≤ M → Nr (3 * M) 3 (a * c) (F.fl (a * c)) := by
    intro a c h h'
    have := (nr_self (v := a * c) (Z := 3 * M) ((p h h').trans (by linarith))).round F le_rfl (by norm_num) l
    simpa using this
  have h1 := abs_le.1 (p ha hc)
  have h2 := abs_le.1 (p hb hd)
  constructor
  · have := ((r ha hc).add (r hb hd) (by rw [abs_le]; constructor <;> linarith)).round F (by norm_num) (by norm_num) l
    norm_num at this
    exact this
  · have := ((r ha hc).sub (r hb hd) (by rw [abs_le]; constructor <;> linarith)).round F (by norm_num) (by norm_num) l
    norm_num at this
    exact this

/-- where `==` tells two points apart, half of the difference is not tiny -/
theorem apart_low {p q : Pt ℚ} (h : Flt.eq doubles p q = false) :
    1 / 2 ^ 41 ≤ |doubles.fl (doubles.fl (p.x - q.x) / 2)| ∨ 1 / 2 ^ 41 ≤ |doubles.fl (doubles.fl (p.y - q.y) / 2)| := by
  have ht := tiny_le
  have e := abs_le.1 (doubles.err Svgio.err)
  have lo : (99 : ℚ) / 10 ^ 14 ≤ doubles.fl Svgio.err := by
    rw [abs_of_pos (by norm_num [Svgio.err])] at e
    generalize (1 : ℚ) / 2 ^ 1074 = η at *
    generalize doubles.fl Svgio.err = g at *
    norm_num [Svgio.err] at e ht ⊢
    linarith
  have go : ∀ {z : ℚ}, doubles.fl Svgio.err < |z| → 1 / 2 ^ 41 ≤ |doubles.fl (z / 2)| := by
    intro z hz
    have h1 := doubles.err (z / 2)
    have h2 : |z / 2| ≤ |doubles.fl (z / 2) - z / 2| + |doubles.fl (z / 2)| := by
      have := abs_sub (doubles.fl (z / 2)) (doubles.fl (z / 2) - z / 2)
      rw [sub_sub_cancel] at this
      linarith
    rw [abs_div, abs_of_pos (show (0 : ℚ) < 2 by norm_num)] at h1 h2
    generalize (1 : ℚ) / 2 ^ 1074 = η at *
    generalize |doubles.fl (z / 2) - z / 2| = w at *
    generalize |doubles.fl (z / 2)| = v at *
    generalize |z| = y at *
    norm_num at h1 h2 ht lo hz ⊢
    linarith
  rw [Flt.eq, Bool.and_eq_false_iff, decide_eq_false_iff_not, decide_eq_false_iff_not, not_le, not_le] at h
  exact h.imp go go

/-- a turned vector is not tiny -/
theorem turned_low {C S dx dy x y : ℚ} (hC : |C| ≤ 101 / 100) (hS : |S| ≤ 101 / 100) (hn : 99 / 100 ≤ C * C + S * S)
    (h : 1 / 2 ^ 41 ≤ |dx| ∨ 1 / 2 ^ 41 ≤ |dy|) (ex : x = doubles.fl (doubles.fl (C * dx) + doubles.fl (S * dy)))
    (ey : y = doubles.fl (doubles.fl (-S * dx) + doubles.fl (C * dy))) : 1 / 2 ^ 43 ≤ |x| ∨ 1 / 2 ^ 43 ≤ |y| := by
  have key : ∀ {D : ℚ}, 1 / 2 ^ 41 ≤ D → |dx| ≤ D → |dy| ≤ D → D ^ 2 ≤ dx ^ 2 + dy ^ 2 → 1 / 2 ^ 43 ≤ |x| ∨ 1 / 2 ^ 43 ≤ |y| := by
    intro D hD h1 h2 h3
    have D0 := low_pos hD
    have n1 := (row_near doubles hC hS h1 h2 (low_le 70 hD (by norm_num))).1.1
    have n2 := (row_near doubles (a := -S) (b := C) (by rwa [abs_neg]) hC h1 h2 (low_le 70 hD (by norm_num))).1.1
    rw [← ex] at n1
    rw [← ey] at n2
    by_contra hc
    rw [not_or, not_le, not_le] at hc
    have small : ∀ {x a : ℚ}, |x - a| ≤ 9 * (1 / 2 ^ 53) * (3 * D) → |x| < 1 / 2 ^ 43 → |a| ≤ 1 / 3 * D := by
      intro x a h1 h2
      have := abs_sub x (x - a)
      rw [sub_sub_cancel] at this
      norm_num at h1 h2 hD
      linarith
    have s1 := pow_le_pow_left₀ (abs_nonneg _) (small n1 hc.1) 2
    have s2 := pow_le_pow_left₀ (abs_nonneg _) (small n2 hc.2) 2
    rw [sq_abs] at s1 s2
    have id : (C * dx + S * dy) ^ 2 + (-S * dx + C * dy) ^ 2 = (C * C + S * S) * (dx ^ 2 + dy ^ 2) := by ring
    have : 99 / 100 * D ^ 2 ≤ (C * C + S * S) * (dx ^ 2 + dy ^ 2) := mul_le_mul hn h3 (by positivity) (by linarith)
    have : 0 < D ^ 2 := by positivity
    nlinarith
  have sx := sq_nonneg dx
  have sy := sq_nonneg dy
  rcases le_total |dx| |dy| with g | g
  · refine key (h.elim (fun h => h.trans g) id) g le_rfl ?_
    rw [sq_abs]; linarith
  · refine key (h.elim id (fun h => h.trans g)) le_rfl g ?_
    rw [sq_abs]; linarith

/-- the cosine and the sine as fractions -/
theorem trig_rat (T : FloatTrig) {d : ℚ} (h : |d| ≤ 720) :
    |T.cos (radians doubles d)| ≤ 101 / 100 ∧ |T.sin (radians doubles d)| ≤ 101 / 100 ∧
      99 / 100 ≤ T.cos (radians doubles d) * T.cos (radians doubles d) + T.sin (radians doubles d) * T.sin (radians doubles d) := by
  obtain ⟨h1, h2⟩ := trig_near T h
  generalize T.cos (radians doubles d) = C at *
  generalize T.sin (radians doubles d) = S at *
  have c1 := Real.abs_cos_le_one (d * Real.pi / 180)
  have s1 := Real.abs_sin_le_one (d * Real.pi / 180)
  have cs := Real.cos_sq_add_sin_sq (d * Real.pi / 180)
  generalize Real.cos (d * Real.pi / 180) = c at *
  generalize Real.sin (d * Real.pi / 180) = s at *
  have size : ∀ {C c : ℝ}, |C - c| ≤ 1 / 2 ^ 46 → |c| ≤ 1 → |C| ≤ 101 / 100 ∧ c ^ 2 - 1 / 2 ^ 40 ≤ C * C := by
    intro C c h h'
    have a := abs_le.1 h
    have b := abs_le.1 h'
    norm_num at a
    refine ⟨by rw [abs_le]; constructor <;> linarith, ?_⟩
    have : |C * C - c ^ 2| ≤ 1 / 2 ^ 46 * 3 := by
      rw [show C * C - c ^ 2 = (C - c) * (C + c) by ring, abs_mul]
      exact mul_le_mul h (by rw [abs_le]; constructor <;> linarith) (abs_nonneg _) (by norm_num)
    have := (abs_le.1 this).1
    norm_num at this ⊢
    linarith
  obtain ⟨a1, a2⟩ := size h1 c1
  obtain ⟨b1, b2⟩ := size h2 s1
  refine ⟨?_, ?_, ?_⟩
  · rw [← Rat.cast_le (K := ℝ)]; push_cast; exact a1
  · rw [← Rat.cast_le (K := ℝ)]; push_cast; exact b1
  · rw [← Rat.cast_le (K := ℝ)]; push_cast
    norm_num at a2 b2 ⊢
    linarith

/-- what the code computes, in fractions -/
structure Built (T : FloatTrig) (R : FloatSqrt) (A : FloatAcos) (start stop : Pt ℚ) (rx ry rotation M : ℚ) (large sweep : Bool)
    (dx dy x y r q s c cx cy δ : ℚ) (o : Pt ℚ) : Prop where
  ok : svgParameterize doubles T R A start rx ry rotation large sweep stop = .ok (native doubles T o r q rotation δ)
  ndx : Nr M 6 ((start.x - stop.x) / 2) dx
  ndy : Nr M 6 ((start.y - stop.y) / 2) dy
  nx : Nr (6 * M) 9 (T.cos (radians doubles rotation) * dx + T.sin (radians doubles rotation) * dy) x
  ny : Nr (6 * M) 9 (-T.sin (radians doubles rotation) * dx + T.cos (radians doubles rotation) * dy) y
  frame : Frame r q x y
  s0 : 0 < s
  sEnough : |s ^ 2 - max 1 (rho rx ry x y)| ≤ 40 / 2 ^ 53 * max 1 (rho rx ry x y)
  nr : Nr (rx * s) 3 (rx * s) r
  nq : Nr (ry * s) 3 (ry * s) q
  cOk : |rho r q x y * (1 + c ^ 2) - 1| ≤ 400 / 2 ^ 53
  cSign : if large = sweep then c ≤ 0 else 0 ≤ c
  seen : Seen doubles r q x y c cx cy
  ox : Nr (20 * (M + r + q)) 30 (T.cos (radians doubles rotation) * cx - T.sin (radians doubles rotation) * cy + (start.x + stop.x) / 2) o.x
  oy : Nr (20 * (M + r + q)) 30 (T.sin (radians doubles rotation) * cx + T.cos (radians doubles rotation) * cy + (start.y + stop.y) / 2) o.y
  oDouble : DoublePt o
  turn : if sweep then 0 ≤ δ ∧ δ ≤ 360 else -360 ≤ δ ∧ δ ≤ 0
  half : 1 / 2 ^ 30 ≤ rho r q x y → (0 ≤ c → (if sweep then δ else δ + 360) ≤ 180 + 1 / 2 ^ 9) ∧
    (c ≤ 0 → 180 - 1 / 2 ^ 9 ≤ if sweep then δ else δ + 360)
  reached : Reached (rho r q x y) c δ

theorem size_low {start stop : Pt ℚ} {M : ℚ} (hs : SizeAtMost M start) (he : SizeAtMost M stop)
    (low : 1 / 2 ^ 41 ≤ |doubles.fl (doubles.fl (start.x - stop.x) / 2)| ∨ 1 / 2 ^ 41 ≤ |doubles.fl (doubles.fl (start.y - stop.y) / 2)|) :
    1 / 2 ^ 60 ≤ M := by
  by_contra hc
  rw [not_le] at hc
  have := abs_nonneg start.x
  obtain ⟨a1, a2⟩ := hs
  obtain ⟨b1, b2⟩ := he
  have ht := tiny_le
  have M0 : 0 ≤ M := by linarith
  have go : ∀ {a b : ℚ}, |a| ≤ M → |b| ≤ M → ¬1 / 2 ^ 41 ≤ |doubles.fl (doubles.fl (a - b) / 2)| := by
    intro a b ha hb hle
    have h1 : |a - b| ≤ 2 * M := (abs_sub a b).trans (by linarith)
    have up : ∀ z : ℚ, |doubles.fl z| ≤ 2 * |z| + 1 / 2 ^ 100 := by
      intro z
      have h1 := doubles.err z
      have h2 := abs_add_le (doubles.fl z - z) z
      rw [sub_add_cancel] at h2
      have := abs_nonneg z
      generalize (1 : ℚ) / 2 ^ 1074 = η at *
      generalize |doubles.fl z - z| = w at *
      generalize |doubles.fl z| = v at *
      generalize |z| = y at *
      norm_num at h1 ht ⊢
      linarith
    have u1 := up (a - b)
    have u2 := up (doubles.fl (a - b) / 2)
    rw [abs_div, abs_of_pos (show (0 : ℚ) < 2 by norm_num)] at u2
    generalize |doubles.fl (doubles.fl (a - b) / 2)| = w at *
    generalize |doubles.fl (a - b)| = v at *
    generalize |a - b| = y at *
    norm_num at u1 u2 h1 hc hle
    linarith
  rcases low with l | l
  · exact go a1 b1 l
  · exact go a2 b2 l

theorem half_size {M v x : ℚ} (h : Nr M 6 v x) (M0 : 0 < M) : |x| ≤ 11 / 10 * M := by
  have := abs_add_le (x - v) v
  rw [sub_add_cancel] at this
  have h1 := h.1
  have h2 := h.2
  generalize |x - v| = w at *
  generalize |v| = w' at *
  norm_num at h1
  linarith

theorem turned_size {M a b x dx dy : ℚ} (M0 : 0 < M) (hM : M ≤ 2 ^ 64) (ha : |a| ≤ 101 / 100) (hb : |b| ≤ 101 / 100) (hx1 : |dx| ≤ 11 / 10 * M)
    (hy1 : |dy| ≤ 11 / 10 * M) (hx : Nr (6 * M) 9 (a * dx + b * dy) x) : |x| ≤ 2 ^ 66 := by
  have h1 : |a * dx| ≤ 101 / 100 * (11 / 10 * M) := by rw [abs_mul]; exact mul_le_mul ha hx1 (abs_nonneg _) (by norm_num)
  have h2 : |b * dy| ≤ 101 / 100 * (11 / 10 * M) := by rw [abs_mul]; exact mul_le_mul hb hy1 (abs_nonneg _) (by norm_num)
  have h3 := abs_add_le (a * dx) (b * dy)
  have h4 := abs_add_le (x - (a * dx + b * dy)) (a * dx + b * dy)
  rw [sub_add_cancel] at h4
  have h5 := hx.1
  generalize |x - (a * dx + b * dy)| = w at *
  generalize |a * dx + b * dy| = w1 at *
  generalize |a * dx| = w2 at *
  generalize |b * dy| = w3 at *
  generalize |x| = w4 at *
  norm_num at h5 h1 h2 hM ⊢
  linarith

theorem mid_near {M r q v w a b : ℚ} (M0 : 0 < M) (rl : 1 / 2 ^ 66 ≤ r) (q0 : 0 < q) (hv : Nr (3 * (4 * (r + q))) 9 v a) (hw : Nr M 6 w b) :
    Nr (20 * (M + r + q)) 30 (v + w) (doubles.fl (a + b)) := by
  have r0 := low_pos rl
  have G0 : 1 / 2 ^ 1000 ≤ 20 * (M + r + q) := (low_le 1000 rl (by norm_num)).trans (by linarith)
  have a1 := hv.mono (Z' := 20 * (M + r + q)) le_rfl (by linarith) (by norm_num)
  have a2 := hw.mono (Z' := 20 * (M + r + q)) le_rfl (by linarith) (by norm_num)
  have := (a1.add a2 ((abs_add_le _ _).trans (by linarith [hv.2, hw.2]))).round doubles (by norm_num) (by norm_num) G0
  exact this.mono (by norm_num) le_rfl (by norm_num)

/-- the vector from the middle to the start, turned -/
theorem turn_ok {C S M dx dy x y : ℚ} (hC : |C| ≤ 101 / 100) (hS : |S| ≤ 101 / 100) (Ml : 1 / 2 ^ 60 ≤ M) (hM : M ≤ 2 ^ 64)
    (hx : |dx| ≤ 11 / 10 * M) (hy : |dy| ≤ 11 / 10 * M) (ex : x = doubles.fl (doubles.fl (C * dx) + doubles.fl (S * dy)))
    (ey : y = doubles.fl (doubles.fl (-S * dx) + doubles.fl (C * dy))) :
    Nr (6 * M) 9 (C * dx + S * dy) x ∧ Nr (6 * M) 9 (-S * dx + C * dy) y ∧ |x| ≤ 2 ^ 66 ∧ |y| ≤ 2 ^ 66 := by
  have M0 := low_pos Ml
  have l : 1 / 2 ^ 70 ≤ 2 * M := low_le 70 (a := 60) (by linarith) (by norm_num)
  have hS' : |-S| ≤ 101 / 100 := by rwa [abs_neg]
  have xrow := (row_near doubles hC hS (M := 2 * M) (hx.trans (by linarith)) (hy.trans (by linarith)) l).1
  have yrow := (row_near doubles hS' hC (M := 2 * M) (hx.trans (by linarith)) (hy.trans (by linarith)) l).1
  rw [← ex, show 3 * (2 * M) = 6 * M by ring] at xrow
  rw [← ey, show 3 * (2 * M) = 6 * M by ring] at yrow
  exact ⟨xrow, yrow, turned_size M0 hM hC hS hx hy xrow, turned_size M0 hM hS' hC hx hy yrow⟩

theorem built (T : FloatTrig) (R : FloatSqrt) (A : FloatAcos) {start stop : Pt ℚ} {rx ry rotation M : ℚ} (large sweep : Bool)
    (h : Flt.eq doubles start stop = false) (hs : SizeAtMost M start) (he : SizeAtMost M stop) (hM : M ≤ 2 ^ 64)
    (rl : 1 / 2 ^ 64 ≤ rx) (ru : rx ≤ 2 ^ 64) (ql : 1 / 2 ^ 64 ≤ ry) (qu : ry ≤ 2 ^ 64) (hr : |rotation| ≤ 720) :
    ∃ dx dy x y r q s c cx cy δ o, Built T R A start stop rx ry rotation M large sweep dx dy x y r q s c cx cy δ o := by
  obtain ⟨hC, hS, hn⟩ := trig_rat T hr
  have low := apart_low h
  have Ml := size_low hs he low
  have M0 := low_pos Ml
  obtain ⟨nx1, nx2⟩ := half_near hs.1 he.1 Ml
  obtain ⟨ny1, ny2⟩ := half_near hs.2 he.2 Ml
  have hne : ¬(Flt.eq doubles start stop = true ∨ rx = 0 ∨ ry = 0) := by
    rintro (g | g | g)
    · rw [h] at g; exact Bool.false_ne_true g
    · exact (low_pos rl).ne' g
    · exact (low_pos ql).ne' g
  obtain ⟨C, eC⟩ : ∃ C, C = T.cos (radians doubles rotation) := ⟨_, rfl⟩
  obtain ⟨S, eS⟩ : ∃ S, S = T.sin (radians doubles rotation) := ⟨_, rfl⟩
  obtain ⟨dx, ex⟩ : ∃ dx, dx = doubles.fl (doubles.fl (start.x - stop.x) / 2) := ⟨_, rfl⟩
  obtain ⟨dy, ey⟩ : ∃ dy, dy = doubles.fl (doubles.fl (start.y - stop.y) / 2) := ⟨_, rfl⟩
  obtain ⟨x, exx⟩ : ∃ x, x = doubles.fl (doubles.fl (C * dx) + doubles.fl (S * dy)) := ⟨_, rfl⟩
  obtain ⟨y, eyy⟩ : ∃ y, y = doubles.fl (doubles.fl (-S * dx) + doubles.fl (C * dy)) := ⟨_, rfl⟩
  rw [← eC, ← eS] at hn
  rw [← eC] at hC
  rw [← eS] at hS
  rw [← ex] at nx1 low
  rw [← ey] at ny1 low
  have apart := turned_low hC hS hn low exx eyy
  obtain ⟨xrow, yrow, xs, ys⟩ := turn_ok hC hS Ml hM (half_size nx1 M0) (half_size ny1 M0) exx eyy
  obtain ⟨r, q, s, e1, s0, s1, nr, nq, fr⟩ := radii_ok doubles R rl ru ql qu xs ys apart
  obtain ⟨c, e2, c1, c2⟩ := centre_ok doubles R fr large sweep
  obtain ⟨cx, cy, sn⟩ := seen_ok doubles fr c1
  have r0 := low_pos fr.rl
  have q0 := low_pos fr.ql
  have hρ : rho r q x y = x / r * (x / r) + y / q * (y / q) := by unfold rho; rw [div_mul_div_comm, div_mul_div_comm]
  obtain ⟨δ, e3, t1, t2, t3⟩ := delta_ok R A (X := x / r) (Y := y / q) (by rw [← hρ]; exact c1) sn.ux.2 sn.uy.2 sn.vx.2 sn.vy.2 sweep
  rw [← hρ] at t2 t3
  have orow := fun a b (ha : |a| ≤ 101 / 100) (hb : |b| ≤ 101 / 100) => row_near doubles ha hb (M := 4 * (r + q)) (c := cx) (d := cy)
    (sn.cx3.trans (by linarith)) (sn.cy3.trans (by linarith)) (low_le 70 (a := 66) (by linarith [fr.rl]) (by norm_num))
  refine ⟨dx, dy, x, y, r, q, s, c, cx, cy, δ, ⟨doubles.fl (doubles.fl (doubles.fl (C * cx) - doubles.fl (S * cy)) + doubles.fl (doubles.fl (start.x + stop.x) / 2)),
      doubles.fl (doubles.fl (doubles.fl (S * cx) + doubles.fl (C * cy)) + doubles.fl (doubles.fl (start.y + stop.y) / 2))⟩, ?_, nx1, ny1,
    by rw [← eC, ← eS]; exact xrow, by rw [← eC, ← eS]; exact yrow, fr, s0, s1, nr, nq, c1, c2, sn,
    by rw [← eC, ← eS]; exact mid_near M0 fr.rl q0 (orow C S hC hS).2 nx2, by rw [← eC, ← eS]; exact mid_near M0 fr.rl q0 (orow S C hS hC).1 ny2,
    ⟨roundDouble_isDouble _, roundDouble_isDouble _⟩, t1, t2, t3⟩
  unfold svgParameterize
  rw [if_neg hne]
  simp only [← eC, ← eS, ← ex, ← ey, ← exx, ← eyy, e1, e2, sn.ecx, sn.ecy, sn.eux, sn.euy, sn.evx, sn.evy, e3, bind, Except.bind, pure, Except.pure]

/-- a turned vector, with and without rounding -/
theorem row_real {A B a b dx dy hx hy x M : ℝ} (hA : |A - a| ≤ 1 / 2 ^ 46) (hB : |B - b| ≤ 1 / 2 ^ 46) (ha : |a| ≤ 1) (hb : |b| ≤ 1)
    (h1 : |dx - hx| ≤ 6 * (1 / 2 ^ 53) * M) (h2 : |hx| ≤ M) (h3 : |dy - hy| ≤ 6 * (1 / 2 ^ 53) * M) (h4 : |hy| ≤ M)
    (h5 : |x - (A * dx + B * dy)| ≤ 9 * (1 / 2 ^ 53) * (6 * M)) : |x - (a * hx + b * hy)| ≤ M / 2 ^ 44 := by
  have go : ∀ {A a d h : ℝ}, |A - a| ≤ 1 / 2 ^ 46 → |a| ≤ 1 → |d - h| ≤ 6 * (1 / 2 ^ 53) * M → |h| ≤ M →
      |A * d - a * h| ≤ M * (1 / 2 ^ 53) * 142 := by
    intro A a d h hA ha h1 h2
    have M0 : 0 ≤ M := (abs_nonneg _).trans h2
    have b1 : |(A - a) * h| ≤ 1 / 2 ^ 46 * M := by rw [abs_mul]; exact mul_le_mul hA h2 (abs_nonneg _) (by positivity)
    have b2 : |A * (d - h)| ≤ 2 * (6 * (1 / 2 ^ 53) * M) := by
      rw [abs_mul]
      refine mul_le_mul ?_ h1 (abs_nonneg _) (by norm_num)
      have := abs_add_le (A - a) a
      rw [sub_add_cancel] at this
      norm_num at hA
      linarith
    have := abs_add_le ((A - a) * h) (A * (d - h))
    rw [show (A - a) * h + A * (d - h) = A * d - a * h by ring] at this
    refine this.trans ((add_le_add b1 b2).trans ?_)
    norm_num
    linarith
  have M0 : 0 ≤ M := (abs_nonneg _).trans h2
  have b1 := go hA ha h1 h2
  have b2 := go hB hb h3 h4
  rw [show x - (a * hx + b * hy) = (x - (A * dx + B * dy)) + ((A * dx - a * hx) + (B * dy - b * hy)) by ring]
  refine (abs_add_le _ _).trans ((add_le_add h5 ((abs_add_le _ _).trans (add_le_add b1 b2))).trans ?_)
  norm_num
  linarith

/-- one coordinate of a point seen from the centre, in the frame of the ellipse -/
theorem seen_real {C S c s cx cy hx hy mx my ox oy x y M r q : ℝ} (hC : |C - c| ≤ 1 / 2 ^ 46) (hS : |S - s| ≤ 1 / 2 ^ 46)
    (hcs : c ^ 2 + s ^ 2 = 1) (M0 : 0 ≤ M) (r0 : 0 ≤ r) (q0 : 0 ≤ q)
    (h1 : |x - (c * hx + s * hy)| ≤ M / 2 ^ 44) (h2 : |y - (-s * hx + c * hy)| ≤ M / 2 ^ 44) (h3 : |cx| ≤ 4 * r) (h4 : |cy| ≤ 4 * q)
    (h5 : |ox - (C * cx - S * cy + mx)| ≤ 30 * (1 / 2 ^ 53) * (20 * (M + r + q)))
    (h6 : |oy - (S * cx + C * cy + my)| ≤ 30 * (1 / 2 ^ 53) * (20 * (M + r + q))) :
    |(hx + mx - ox) * c + (hy + my - oy) * s - (x - cx)| ≤ (M + r + q) / 2 ^ 41 ∧
      |-(hx + mx - ox) * s + (hy + my - oy) * c - (y - cy)| ≤ (M + r + q) / 2 ^ 41 := by
  have c1 : |c| ≤ 1 := by rw [← sq_le_one_iff_abs_le_one]; linarith [sq_nonneg s]
  have s1 : |s| ≤ 1 := by rw [← sq_le_one_iff_abs_le_one]; linarith [sq_nonneg c]
  have mul1 : ∀ {a b e : ℝ}, |a| ≤ e → |b| ≤ 1 → |a * b| ≤ e := by
    intro a b e h h'
    rw [abs_mul]
    exact (mul_le_mul h h' (abs_nonneg _) ((abs_nonneg _).trans h)).trans (by rw [mul_one])
  have mul2 : ∀ {a b e f : ℝ}, |a| ≤ e → |b| ≤ f → |a * b| ≤ e * f := by
    intro a b e f h h'
    rw [abs_mul]
    exact mul_le_mul h h' (abs_nonneg _) ((abs_nonneg _).trans h)
  have k1 : |(C - c) * c + (S - s) * s| ≤ 1 / 2 ^ 45 := (abs_add_le _ _).trans ((add_le_add (mul1 hC c1) (mul1 hS s1)).trans (by norm_num))
  have k2 : |(S - s) * c - (C - c) * s| ≤ 1 / 2 ^ 45 := (abs_sub _ _).trans ((add_le_add (mul1 hS c1) (mul1 hC s1)).trans (by norm_num))
  have a1 := abs_le.1 (mul1 h5 c1)
  have a2 := abs_le.1 (mul1 h6 s1)
  have a3 := abs_le.1 (mul1 h5 s1)
  have a4 := abs_le.1 (mul1 h6 c1)
  have b1 := abs_le.1 (mul2 h3 k1)
  have b2 := abs_le.1 (mul2 h4 k2)
  have b3 := abs_le.1 (mul2 h3 k2)
  have b4 := abs_le.1 (mul2 h4 k1)
  have h1' := abs_le.1 h1
  have h2' := abs_le.1 h2
  constructor
  · rw [show (hx + mx - ox) * c + (hy + my - oy) * s - (x - cx) =
      -(x - (c * hx + s * hy)) - (ox - (C * cx - S * cy + mx)) * c - (oy - (S * cx + C * cy + my)) * s -
        cx * ((C - c) * c + (S - s) * s) + cy * ((S - s) * c - (C - c) * s) by linear_combination (-cx) * hcs, abs_le]
    generalize x - (c * hx + s * hy) = v1 at *
    generalize (ox - (C * cx - S * cy + mx)) * c = v2 at *
    generalize (oy - (S * cx + C * cy + my)) * s = v3 at *
    generalize cx * ((C - c) * c + (S - s) * s) = v4 at *
    generalize cy * ((S - s) * c - (C - c) * s) = v5 at *
    norm_num at a1 a2 b1 b2 h1' ⊢
    constructor <;> linarith
  · rw [show -(hx + mx - ox) * s + (hy + my - oy) * c - (y - cy) =
      -(y - (-s * hx + c * hy)) + (ox - (C * cx - S * cy + mx)) * s - (oy - (S * cx + C * cy + my)) * c -
        cx * ((S - s) * c - (C - c) * s) - cy * ((C - c) * c + (S - s) * s) by linear_combination (-cy) * hcs, abs_le]
    generalize y - (-s * hx + c * hy) = v1 at *
    generalize (ox - (C * cx - S * cy + mx)) * s = v2 at *
    generalize (oy - (S * cx + C * cy + my)) * c = v3 at *
    generalize cx * ((S - s) * c - (C - c) * s) = v4 at *
    generalize cy * ((C - c) * c + (S - s) * s) = v5 at *
    norm_num at a3 a4 b3 b4 h2' ⊢
    constructor <;> linarith

/-- a pair that almost is on the unit circle almost is the cosine and the sine of an angle -/
theorem angle_exists {a b : ℝ} (h : |a ^ 2 + b ^ 2 - 1| ≤ 400 / 2 ^ 53) :
    ∃ t, |a - Real.cos t| ≤ 500 / 2 ^ 53 ∧ |b - Real.sin t| ≤ 500 / 2 ^ 53 ∧ |a| ≤ 101 / 100 ∧ |b| ≤ 101 / 100 := by
  have h' := abs_le.1 h
  norm_num at h'
  have small : ∀ {a b : ℝ}, a ^ 2 + b ^ 2 ≤ 1 + 1 / 100 → |a| ≤ 101 / 100 := by
    intro a b h
    refine abs_le_of_sq_le_sq ?_ (by norm_num)
    have := sq_nonneg b
    norm_num at h ⊢
    linarith
  have n2 : ‖(⟨a, b⟩ : ℂ)‖ ^ 2 = a ^ 2 + b ^ 2 := by rw [Complex.sq_norm, Complex.normSq_mk]; ring
  have n0 := norm_nonneg (⟨a, b⟩ : ℂ)
  have hz : (⟨a, b⟩ : ℂ) ≠ 0 := by
    intro hz
    rw [hz, norm_zero] at n2
    norm_num at n2
    linarith
  have hc := Complex.cos_arg hz
  have hs := Complex.sin_arg (⟨a, b⟩ : ℂ)
  have np : 0 < ‖(⟨a, b⟩ : ℂ)‖ := norm_pos_iff.2 hz
  simp only at hc hs
  generalize ‖(⟨a, b⟩ : ℂ)‖ = n at *
  have nn : |n - 1| ≤ 400 / 2 ^ 53 := by
    have : |n - 1| ≤ |n ^ 2 - 1| := by
      rw [show n ^ 2 - 1 = (n - 1) * (n + 1) by ring, abs_mul]
      refine le_mul_of_one_le_right (abs_nonneg _) ?_
      rw [abs_of_pos (by linarith)]
      linarith
    rw [n2] at this
    exact this.trans h
  have go : ∀ {a c : ℝ}, c = a / n → |c| ≤ 1 → |a - c| ≤ 500 / 2 ^ 53 := by
    intro a c h h1
    have : a - c = (n - 1) * c := by rw [h]; field_simp
    rw [this, abs_mul]
    refine (mul_le_mul nn h1 (abs_nonneg _) (by norm_num)).trans (by norm_num)
  refine ⟨Complex.arg ⟨a, b⟩, go hc (Real.abs_cos_le_one _), go hs (Real.abs_sin_le_one _), small (b := b) (by linarith), small (b := a) (by linarith)⟩

theorem close_ellipse {o p : Pt ℝ} {r q φ t e f : ℝ} (h1 : |(p.x - o.x) * Real.cos φ + (p.y - o.y) * Real.sin φ - r * Real.cos t| ≤ e)
    (h2 : |-(p.x - o.x) * Real.sin φ + (p.y - o.y) * Real.cos φ - q * Real.sin t| ≤ f) :
    |p.x - (Spec.ellipse o r q φ t).x| ≤ e + f ∧ |p.y - (Spec.ellipse o r q φ t).y| ≤ e + f := by
  have hcs := Real.cos_sq_add_sin_sq φ
  have c1 := Real.abs_cos_le_one φ
  have s1 := Real.abs_sin_le_one φ
  simp only [Spec.ellipse]
  generalize Real.cos φ = c at *
  generalize Real.sin φ = s at *
  generalize Real.cos t = a at *
  generalize Real.sin t = b at *
  have mul1 : ∀ {a b e : ℝ}, |a| ≤ e → |b| ≤ 1 → |a * b| ≤ e := by
    intro a b e h h'
    rw [abs_mul]
    exact (mul_le_mul h h' (abs_nonneg _) ((abs_nonneg _).trans h)).trans (by rw [mul_one])
  constructor
  · rw [show p.x - (o.x + (r * a * c - q * b * s)) = ((p.x - o.x) * c + (p.y - o.y) * s - r * a) * c -
      (-(p.x - o.x) * s + (p.y - o.y) * c - q * b) * s by linear_combination (-(p.x - o.x)) * hcs]
    exact (abs_sub _ _).trans (add_le_add (mul1 h1 c1) (mul1 h2 s1))
  · rw [show p.y - (o.y + (r * a * s + q * b * c)) = ((p.x - o.x) * c + (p.y - o.y) * s - r * a) * s +
      (-(p.x - o.x) * s + (p.y - o.y) * c - q * b) * c by linear_combination (-(p.y - o.y)) * hcs]
    exact (abs_add_le _ _).trans (add_le_add (mul1 h1 s1) (mul1 h2 c1))

theorem axis_real {P w r a b W e : ℝ} (r0 : 0 < r) (h1 : |P - w| ≤ W / 2 ^ 41) (h2 : |w / r - a| ≤ 9 * (1 / 2 ^ 53) * 5) (h3 : |a - b| ≤ e) :
    |P - r * b| ≤ W / 2 ^ 41 + r * (45 / 2 ^ 53 + e) := by
  have e1 : w - r * b = r * ((w / r - a) + (a - b)) := by field_simp; ring
  have h4 : |w - r * b| ≤ r * (45 / 2 ^ 53 + e) := by
    rw [e1, abs_mul, abs_of_pos r0]
    refine mul_le_mul_of_nonneg_left ((abs_add_le _ _).trans (add_le_add (h2.trans (by norm_num)) h3)) r0.le
  exact (abs_sub_le _ w _).trans (add_le_add h1 h4)

/-- going from the start by the sweep leads to the end -/
theorem turn_real {X Y k ρ t Δ : ℝ} (eρ : ρ = X * X + Y * Y) (hK : |ρ * (1 + k ^ 2) - 1| ≤ 400 / 2 ^ 53)
    (h1 : |X - k * Y - Real.cos t| ≤ 500 / 2 ^ 53) (h2 : |Y + k * X - Real.sin t| ≤ 500 / 2 ^ 53) (h3 : |X - k * Y| ≤ 101 / 100)
    (h4 : |Y + k * X| ≤ 101 / 100) (h5 : |-X - k * Y| ≤ 101 / 100) (h6 : |-Y + k * X| ≤ 101 / 100)
    (hc : |Real.cos Δ - ρ * (k ^ 2 - 1)| ≤ 11 / 10 * (1 / 2 ^ 16)) (hs : |Real.sin Δ - 2 * k * ρ| ≤ 11 / 10 * (1 / 2 ^ 16)) :
    |-X - k * Y - Real.cos (t + Δ)| ≤ 9 / 10 * (1 / 2 ^ 14) ∧ |-Y + k * X - Real.sin (t + Δ)| ≤ 9 / 10 * (1 / 2 ^ 14) := by
  have cΔ := Real.abs_cos_le_one Δ
  have sΔ := Real.abs_sin_le_one Δ
  rw [Real.cos_add, Real.sin_add]
  generalize Real.cos Δ = C at *
  generalize Real.sin Δ = S at *
  generalize Real.cos t = ct at *
  generalize Real.sin t = st at *
  have mul2 : ∀ {a b e f : ℝ}, |a| ≤ e → |b| ≤ f → |a * b| ≤ e * f := by
    intro a b e f h h'
    rw [abs_mul]
    exact mul_le_mul h h' (abs_nonneg _) ((abs_nonneg _).trans h)
  have a1 := abs_le.1 (mul2 h1 cΔ)
  have a2 := abs_le.1 (mul2 h2 sΔ)
  have a3 := abs_le.1 (mul2 h2 cΔ)
  have a4 := abs_le.1 (mul2 h1 sΔ)
  have b1 := abs_le.1 (mul2 h3 hc)
  have b2 := abs_le.1 (mul2 h4 hs)
  have b3 := abs_le.1 (mul2 h4 hc)
  have b4 := abs_le.1 (mul2 h3 hs)
  have d1 := abs_le.1 (mul2 h5 hK)
  have d2 := abs_le.1 (mul2 h6 hK)
  constructor
  · rw [show -X - k * Y - (ct * C - st * S) = (X - k * Y - ct) * C - (Y + k * X - st) * S - (X - k * Y) * (C - ρ * (k ^ 2 - 1)) +
      (Y + k * X) * (S - 2 * k * ρ) - (-X - k * Y) * (ρ * (1 + k ^ 2) - 1) by ring, abs_le]
    generalize (X - k * Y - ct) * C = v1 at *
    generalize (Y + k * X - st) * S = v2 at *
    generalize (X - k * Y) * (C - ρ * (k ^ 2 - 1)) = v3 at *
    generalize (Y + k * X) * (S - 2 * k * ρ) = v4 at *
    generalize (-X - k * Y) * (ρ * (1 + k ^ 2) - 1) = v5 at *
    norm_num at a1 a2 b1 b2 d1 ⊢
    constructor <;> linarith
  · rw [show -Y + k * X - (st * C + ct * S) = (Y + k * X - st) * C + (X - k * Y - ct) * S - (Y + k * X) * (C - ρ * (k ^ 2 - 1)) -
      (X - k * Y) * (S - 2 * k * ρ) - (-Y + k * X) * (ρ * (1 + k ^ 2) - 1) by ring, abs_le]
    generalize (X - k * Y - ct) * S = v1 at *
    generalize (Y + k * X - st) * C = v2 at *
    generalize (X - k * Y) * (S - 2 * k * ρ) = v3 at *
    generalize (Y + k * X) * (C - ρ * (k ^ 2 - 1)) = v4 at *
    generalize (-Y + k * X) * (ρ * (1 + k ^ 2) - 1) = v5 at *
    norm_num at a3 a4 b3 b4 d2 ⊢
    constructor <;> linarith

/-- a size of an ellipse computed in a frame that is slightly off -/
theorem size_real {a b x y hx hy k M : ℝ} (a0 : 0 < a) (b0 : 0 < b) (k0 : 0 ≤ k) (ka : M ≤ k * a) (kb : M ≤ k * b)
    (h1 : |x - hx| ≤ M / 2 ^ 44) (h2 : |y - hy| ≤ M / 2 ^ 44) :
    |x * x / (a * a) + y * y / (b * b) - ((hx / a) ^ 2 + (hy / b) ^ 2)| ≤
      (k / 2 ^ 42 + k ^ 2 / 2 ^ 87) * max 1 ((hx / a) ^ 2 + (hy / b) ^ 2) := by
  have one : ∀ {a x hx : ℝ}, 0 < a → M ≤ k * a → |x - hx| ≤ M / 2 ^ 44 → |x / a - hx / a| ≤ k / 2 ^ 44 := by
    intro a x hx a0 ka h
    rw [← sub_div, abs_div, abs_of_pos a0, div_le_iff₀ a0]
    refine h.trans ?_
    rw [div_mul_eq_mul_div]
    gcongr
  have e1 := one a0 ka h1
  have e2 := one b0 kb h2
  rw [show x * x / (a * a) = (x / a) ^ 2 by rw [div_pow, sq, sq], show y * y / (b * b) = (y / b) ^ 2 by rw [div_pow, sq, sq]]
  generalize x / a = u at *
  generalize y / b = v at *
  generalize hx / a = p at *
  generalize hy / b = q at *
  have m1 := le_max_left 1 (p ^ 2 + q ^ 2)
  have m2 := le_max_right 1 (p ^ 2 + q ^ 2)
  generalize max 1 (p ^ 2 + q ^ 2) = m at *
  have pm : |p| ≤ m := abs_le_of_sq_le_sq (by nlinarith [sq_nonneg q]) (by linarith)
  have qm : |q| ≤ m := abs_le_of_sq_le_sq (by nlinarith [sq_nonneg p]) (by linarith)
  have sq : ∀ {u p : ℝ}, |u - p| ≤ k / 2 ^ 44 → |p| ≤ m → |u ^ 2 - p ^ 2| ≤ (k / 2 ^ 43 + k ^ 2 / 2 ^ 88) * m := by
    intro u p h1 h2
    have b1 : |2 * p * (u - p)| ≤ 2 * m * (k / 2 ^ 44) := by
      rw [abs_mul, abs_mul, abs_two]
      gcongr
    have b2 : |(u - p) ^ 2| ≤ (k / 2 ^ 44) ^ 2 * m := by
      rw [abs_pow]
      exact (pow_le_pow_left₀ (abs_nonneg _) h1 2).trans (le_mul_of_one_le_right (by positivity) m1)
    rw [show u ^ 2 - p ^ 2 = 2 * p * (u - p) + (u - p) ^ 2 by ring]
    refine (abs_add_le _ _).trans ((add_le_add b1 b2).trans (le_of_eq ?_))
    ring
  have f1 := sq e1 pm
  have f2 := sq e2 qm
  rw [show u ^ 2 + v ^ 2 - (p ^ 2 + q ^ 2) = (u ^ 2 - p ^ 2) + (v ^ 2 - q ^ 2) by ring]
  refine (abs_add_le _ _).trans ((add_le_add f1 f2).trans (le_of_eq ?_))
  ring

/-- a point as a pair of real numbers -/
def pt (p : Pt ℚ) : Pt ℝ := ⟨p.x, p.y⟩

/-- a computed point is at most `e` away from `v`, in each coordinate -/
def Within (e : ℝ) (p : Pt ℚ) (v : Pt ℝ) : Prop := |(p.x : ℝ) - v.x| ≤ e ∧ |(p.y : ℝ) - v.y| ≤ e

/-- the point halfway -/
noncomputable def middle (p q : Pt ℚ) : Pt ℝ := ⟨((p.x : ℝ) + q.x) / 2, ((p.y : ℝ) + q.y) / 2⟩

/-- degrees as an angle -/
noncomputable def angle (d : ℚ) : ℝ := d * Real.pi / 180

theorem nr_real {Z k v x : ℚ} (h : Nr Z k v x) : |(x : ℝ) - (v : ℝ)| ≤ k * (1 / 2 ^ 53) * Z ∧ |(v : ℝ)| ≤ Z := by
  have h1 := (Rat.cast_le (K := ℝ)).2 h.1
  have h2 := (Rat.cast_le (K := ℝ)).2 h.2
  push_cast at h1 h2
  exact ⟨h1, h2⟩

section
variable {T : FloatTrig} {R : FloatSqrt} {A : FloatAcos} {start stop : Pt ℚ} {rx ry rotation M : ℚ} {large sweep : Bool}
  {dx dy x y r q s c cx cy δ : ℚ} {o : Pt ℚ}

/-- the half chord in the frame of the ellipse -/
theorem Built.chord (B : Built T R A start stop rx ry rotation M large sweep dx dy x y r q s c cx cy δ o) (hr : |rotation| ≤ 720) :
    |(x : ℝ) - (Real.cos (angle rotation) * ((start.x - stop.x) / 2) + Real.sin (angle rotation) * ((start.y - stop.y) / 2))| ≤ M / 2 ^ 44 ∧
      |(y : ℝ) - (-Real.sin (angle rotation) * ((start.x - stop.x) / 2) + Real.cos (angle rotation) * ((start.y - stop.y) / 2))| ≤ M / 2 ^ 44 := by
  obtain ⟨hC, hS⟩ := trig_near T hr
  have ndx := nr_real B.ndx
  have ndy := nr_real B.ndy
  have nx := (nr_real B.nx).1
  have ny := (nr_real B.ny).1
  push_cast at ndx ndy nx ny
  unfold angle
  have c1 := Real.abs_cos_le_one (rotation * Real.pi / 180)
  have s1 := Real.abs_sin_le_one (rotation * Real.pi / 180)
  refine ⟨row_real hC hS c1 s1 ndx.1 ndx.2 ndy.1 ndy.2 nx, row_real ?_ hC (by rwa [abs_neg]) c1 ndx.1 ndx.2 ndy.1 ndy.2 ny⟩
  rw [← neg_sub', abs_neg]; exact hS

theorem double_neg_le {d : ℚ} : (0 ≤ d → 0 ≤ degrees doubles d) ∧ (d ≤ 0 → degrees doubles d ≤ 0) := by
  unfold degrees
  constructor
  · intro h
    have h1 : 0 ≤ doubles.fl (tau * d) := roundDouble_nonneg (mul_nonneg (by norm_num [tau]) h)
    exact roundDouble_nonneg (by linarith)
  · intro h
    have r0 : roundDouble 0 = 0 := roundDouble_zero
    have h1 : doubles.fl (tau * d) ≤ roundDouble 0 := roundDouble_mono (mul_nonpos_of_nonneg_of_nonpos (by norm_num [tau]) h)
    rw [r0] at h1
    have h2 : doubles.fl (doubles.fl (tau * d) / 360) ≤ roundDouble 0 := roundDouble_mono (by linarith)
    rwa [r0] at h2

/-- the sweep in radians -/
theorem sweep_near {δ : ℚ} (h : |δ| ≤ 360) : |(degrees doubles δ : ℝ) - δ * Real.pi / 180| ≤ 1 / 2 ^ 47 := by
  have h1 := (C152_units δ).1
  have h2 := (Rat.cast_le (K := ℝ)).2 h
  push_cast at h2
  have small : (1 : ℝ) / 2 ^ 535 ≤ 1 / 2 ^ 50 := one_div_le_one_div_of_le (by positivity) (pow_le_pow_right₀ (by norm_num) (by norm_num))
  rw [show 2 * Real.pi * (δ : ℝ) / 360 = δ * Real.pi / 180 by ring] at h1
  refine h1.trans ?_
  generalize (1 : ℝ) / 2 ^ 535 = η at *
  norm_num at small ⊢
  linarith

theorem Built.size (B : Built T R A start stop rx ry rotation M large sweep dx dy x y r q s c cx cy δ o) : |δ| ≤ 360 := by
  have := B.turn
  rw [abs_le]
  split_ifs at this
  · exact ⟨by linarith [this.1], this.2⟩
  · exact ⟨this.1, by linarith [this.2]⟩

/-- the ends -/
theorem Built.ends (B : Built T R A start stop rx ry rotation M large sweep dx dy x y r q s c cx cy δ o) (hr : |rotation| ≤ 720) :
    ∃ t, Within ((M + r + q) / 2 ^ 39) start (Spec.ellipse (pt o) r q (angle rotation) t) ∧
      Within ((M + r + q) / 2 ^ 39 + (r + q) / 2 ^ 14) stop (Spec.ellipse (pt o) r q (angle rotation) (t + degrees doubles δ)) := by
  obtain ⟨hC', hS'⟩ := trig_near T hr
  have hC : |(T.cos (radians doubles rotation) : ℝ) - Real.cos (angle rotation)| ≤ 1 / 2 ^ 46 := hC'
  have hS : |(T.sin (radians doubles rotation) : ℝ) - Real.sin (angle rotation)| ≤ 1 / 2 ^ 46 := hS'
  obtain ⟨k1, k2⟩ := B.chord hr
  have M0 : 0 ≤ (M : ℝ) := (abs_nonneg _).trans (nr_real B.ndx).2
  have r0 : 0 < (r : ℝ) := by exact_mod_cast low_pos B.frame.rl
  have q0 : 0 < (q : ℝ) := by exact_mod_cast low_pos B.frame.ql
  have cx3 := (Rat.cast_le (K := ℝ)).2 B.seen.cx3
  have cy3 := (Rat.cast_le (K := ℝ)).2 B.seen.cy3
  have ox := (nr_real B.ox).1
  have oy := (nr_real B.oy).1
  have ux := (nr_real B.seen.ux.1).1
  have uy := (nr_real B.seen.uy.1).1
  have vx := (nr_real B.seen.vx.1).1
  have vy := (nr_real B.seen.vy.1).1
  have hK := (Rat.cast_le (K := ℝ)).2 B.cOk
  have ρq : rho r q x y = x / r * (x / r) + y / q * (y / q) := by unfold rho; rw [div_mul_div_comm, div_mul_div_comm]
  have hR := reached_trig (by rw [ρq]; exact add_nonneg (mul_self_nonneg _) (mul_self_nonneg _)) B.cOk B.reached
  have hsw := sweep_near B.size
  have eρ : (rho r q x y : ℝ) = (x / r : ℝ) * (x / r) + (y / q : ℝ) * (y / q) := by rw [ρq]; push_cast; ring
  push_cast at cx3 cy3 ox oy ux uy vx vy hK
  generalize (rho r q x y : ℝ) = ρ at *
  have hcs : Real.cos (angle rotation) ^ 2 + Real.sin (angle rotation) ^ 2 = 1 := Real.cos_sq_add_sin_sq _
  obtain ⟨s1, s2⟩ := seen_real hC hS hcs M0 r0.le q0.le k1 k2 cx3 cy3 ox oy
  obtain ⟨e1, e2⟩ := seen_real (x := -x) (y := -y) (hx := -((start.x - stop.x) / 2)) (hy := -((start.y - stop.y) / 2)) hC hS hcs M0 r0.le q0.le
    (by rw [← abs_neg]; refine le_of_eq_of_le ?_ k1; congr 1; ring) (by rw [← abs_neg]; refine le_of_eq_of_le ?_ k2; congr 1; ring) cx3 cy3 ox oy
  rw [show ((start.x : ℝ) - stop.x) / 2 + (start.x + stop.x) / 2 = start.x by ring, show ((start.y : ℝ) - stop.y) / 2 + (start.y + stop.y) / 2 = start.y by ring] at s1 s2
  rw [show -(((start.x : ℝ) - stop.x) / 2) + (start.x + stop.x) / 2 = stop.x by ring, show -(((start.y : ℝ) - stop.y) / 2) + (start.y + stop.y) / 2 = stop.y by ring] at e1 e2
  have unit : (x / r - c * (y / q) : ℝ) ^ 2 + (y / q + c * (x / r) : ℝ) ^ 2 = ρ * (1 + c ^ 2) := by rw [eρ]; ring
  have unit' : (-(x / r) - c * (y / q) : ℝ) ^ 2 + (-(y / q) + c * (x / r) : ℝ) ^ 2 = ρ * (1 + c ^ 2) := by rw [eρ]; ring
  obtain ⟨t, t1, t2, t3, t4⟩ := angle_exists (a := x / r - c * (y / q)) (b := y / q + c * (x / r)) (by rw [unit]; exact hK)
  obtain ⟨-, -, -, t5, t6⟩ := angle_exists (a := -(x / r) - c * (y / q)) (b := -(y / q) + c * (x / r)) (by rw [unit']; exact hK)
  have cΔ : |Real.cos (degrees doubles δ) - ρ * (c ^ 2 - 1)| ≤ 11 / 10 * (1 / 2 ^ 16) :=
    (abs_sub_le _ _ _).trans ((add_le_add ((Real.abs_cos_sub_cos_le _ _).trans hsw) hR.1).trans (by norm_num))
  have sΔ : |Real.sin (degrees doubles δ) - 2 * c * ρ| ≤ 11 / 10 * (1 / 2 ^ 16) :=
    (abs_sub_le _ _ _).trans ((add_le_add ((Real.abs_sin_sub_sin_le _ _).trans hsw) hR.2).trans (by norm_num))
  obtain ⟨v1, v2⟩ := turn_real eρ hK t1 t2 t3 t4 t5 t6 cΔ sΔ
  have a1 := close_ellipse (o := pt o) (p := pt start) (axis_real r0 s1 ux t1) (axis_real q0 s2 uy t2)
  have a2 := close_ellipse (o := pt o) (p := pt stop) (axis_real r0 e1 vx v1) (axis_real q0 e2 vy v2)
  refine ⟨t, ?_, ?_⟩
  · refine ⟨a1.1.trans ?_, a1.2.trans ?_⟩ <;> · norm_num; linarith
  · refine ⟨a2.1.trans ?_, a2.2.trans ?_⟩ <;> · norm_num; linarith

/-- a point turned about the centre -/
theorem turn_axis (hT : ∀ x, Spec.IsDouble (T.cos x) ∧ Spec.IsDouble (T.sin x)) (hr : |rotation| ≤ 720) (ho : DoublePt o) {v : Pt ℚ} {a b W : ℝ}
    (Wl : 1 / 2 ^ 66 ≤ W) (ox : |(o.x : ℝ)| ≤ 21 * W) (oy : |(o.y : ℝ)| ≤ 21 * W) (ha : |a| ≤ W) (hb : |b| ≤ W)
    (hx : |(v.x : ℝ) - (o.x + a)| ≤ W / 2 ^ 48) (hy : |(v.y : ℝ) - (o.y + b)| ≤ W / 2 ^ 48) :
    |((pointInMatrixSpace doubles (postRotate doubles T Mat.identity (degrees doubles rotation) o.x o.y) v).x : ℝ) -
        (o.x + (a * Real.cos (angle rotation) - b * Real.sin (angle rotation)))| ≤ W / 2 ^ 38 ∧
      |((pointInMatrixSpace doubles (postRotate doubles T Mat.identity (degrees doubles rotation) o.x o.y) v).y : ℝ) -
        (o.y + (a * Real.sin (angle rotation) + b * Real.cos (angle rotation)))| ≤ W / 2 ^ 38 := by
  have e := (C152_turn T (hT (degrees doubles rotation)).1 (hT (degrees doubles rotation)).2 ho v).1
  obtain ⟨h1, h2⟩ := C152_degrees T (hT (degrees doubles rotation)).1 (hT (degrees doubles rotation)).2 ho v
  rw [e] at h1 h2
  rw [show (Mat.identity : Mat ℚ) = unchanged from rfl]
  generalize pointInMatrixSpace doubles (postRotate doubles T unchanged (degrees doubles rotation) o.x o.y) v = P at *
  have hr' := (Rat.cast_le (K := ℝ)).2 hr
  push_cast at hr'
  have W0 : 0 < W := lt_of_lt_of_le (by positivity) Wl
  have small : (1 : ℝ) / 2 ^ 1068 ≤ W / 2 ^ 60 := by
    have : (1 : ℝ) / 2 ^ 1068 ≤ 1 / 2 ^ 66 / 2 ^ 60 := by
      rw [div_div, ← pow_add]
      exact one_div_le_one_div_of_le (by positivity) (pow_le_pow_right₀ (by norm_num) (by norm_num))
    exact this.trans (by gcongr)
  have vx : |(v.x : ℝ)| ≤ 23 * W := by
    have := abs_add_le ((v.x : ℝ) - (o.x + a)) (o.x + a)
    rw [sub_add_cancel] at this
    have := abs_add_le (o.x : ℝ) a
    norm_num at hx
    linarith
  have vy : |(v.y : ℝ)| ≤ 23 * W := by
    have := abs_add_le ((v.y : ℝ) - (o.y + b)) (o.y + b)
    rw [sub_add_cancel] at this
    have := abs_add_le (o.y : ℝ) b
    norm_num at hy
    linarith
  have tot : (|(v.x : ℝ)| + |(v.y : ℝ)| + 4 * (|(o.x : ℝ)| + |(o.y : ℝ)|)) * (1 / 2 ^ 49 + |(rotation : ℝ)| / 2 ^ 57) + 1 / 2 ^ 1068 ≤
      214 * W * (1 / 2 ^ 49 + 720 / 2 ^ 57) + W / 2 ^ 60 := by
    refine add_le_add (mul_le_mul (by linarith) (by gcongr) (by positivity) (by positivity)) small
  have h1' := h1.trans tot
  have h2' := h2.trans tot
  rw [show 2 * Real.pi * (rotation : ℝ) / 360 = angle rotation by unfold angle; ring] at h1' h2'
  simp only [turned] at h1' h2'
  have c1 := Real.abs_cos_le_one (angle rotation)
  have s1 := Real.abs_sin_le_one (angle rotation)
  generalize Real.cos (angle rotation) = c at *
  generalize Real.sin (angle rotation) = s at *
  have mul1 : ∀ {a b e : ℝ}, |a| ≤ e → |b| ≤ 1 → |a * b| ≤ e := by
    intro a b e h h'
    rw [abs_mul]
    exact (mul_le_mul h h' (abs_nonneg _) ((abs_nonneg _).trans h)).trans (by rw [mul_one])
  have m1 := abs_le.1 (mul1 hx c1)
  have m2 := abs_le.1 (mul1 hx s1)
  have m3 := abs_le.1 (mul1 hy c1)
  have m4 := abs_le.1 (mul1 hy s1)
  have h1'' := abs_le.1 h1'
  have h2'' := abs_le.1 h2'
  constructor
  · rw [show (P.x : ℝ) - (o.x + (a * c - b * s)) = (P.x - (o.x + (v.x - o.x) * c - (v.y - o.y) * s)) + ((v.x : ℝ) - (o.x + a)) * c -
      ((v.y : ℝ) - (o.y + b)) * s by ring, abs_le]
    generalize (P.x : ℝ) - (o.x + (v.x - o.x) * c - (v.y - o.y) * s) = w1 at *
    generalize ((v.x : ℝ) - (o.x + a)) * c = w2 at *
    generalize ((v.y : ℝ) - (o.y + b)) * s = w3 at *
    norm_num at h1'' m1 m4 ⊢
    constructor <;> linarith
  · rw [show (P.y : ℝ) - (o.y + (a * s + b * c)) = (P.y - (o.y + (v.x - o.x) * s + (v.y - o.y) * c)) + ((v.x : ℝ) - (o.x + a)) * s +
      ((v.y : ℝ) - (o.y + b)) * c by ring, abs_le]
    generalize (P.y : ℝ) - (o.y + (v.x - o.x) * s + (v.y - o.y) * c) = w1 at *
    generalize ((v.x : ℝ) - (o.x + a)) * s = w2 at *
    generalize ((v.y : ℝ) - (o.y + b)) * c = w3 at *
    norm_num at h2'' m2 m3 ⊢
    constructor <;> linarith

/-- the axes -/
theorem Built.axes (B : Built T R A start stop rx ry rotation M large sweep dx dy x y r q s c cx cy δ o)
    (hT : ∀ x, Spec.IsDouble (T.cos x) ∧ Spec.IsDouble (T.sin x)) (hr : |rotation| ≤ 720) :
    Within ((M + r + q) / 2 ^ 38) (native doubles T o r q rotation δ).prx (Spec.ellipse (pt o) r q (angle rotation) 0) ∧
      Within ((M + r + q) / 2 ^ 38) (native doubles T o r q rotation δ).pry (Spec.ellipse (pt o) r q (angle rotation) (Real.pi / 2)) := by
  have M0 : 0 ≤ (M : ℝ) := (abs_nonneg _).trans (nr_real B.ndx).2
  have rl := (Rat.cast_le (K := ℝ)).2 B.frame.rl
  have ql := (Rat.cast_le (K := ℝ)).2 B.frame.ql
  push_cast at rl ql
  have r0 : 0 < (r : ℝ) := lt_of_lt_of_le (by positivity) rl
  have q0 : 0 < (q : ℝ) := lt_of_lt_of_le (by positivity) ql
  have size : ∀ {v x : ℚ}, Nr (20 * (M + r + q)) 30 v x → |(x : ℝ)| ≤ 21 * (M + r + q) := by
    intro v x h
    obtain ⟨h1, h2⟩ := nr_real h
    have := abs_add_le ((x : ℝ) - v) v
    rw [sub_add_cancel] at this
    push_cast at h1 h2
    generalize |(x : ℝ) - v| = w1 at *
    generalize |(v : ℝ)| = w2 at *
    norm_num at h1
    linarith
  have ox := size B.ox
  have oy := size B.oy
  have Wl : 1 / 2 ^ 66 ≤ ((M : ℝ) + r + q) := by linarith
  have small : ((1 / 2 ^ 1074 : ℚ) : ℝ) ≤ ((M : ℝ) + r + q) / 2 ^ 60 := by
    have : (1 : ℝ) / 2 ^ 1074 ≤ 1 / 2 ^ 66 / 2 ^ 60 := by
      rw [div_div, ← pow_add]
      exact one_div_le_one_div_of_le (by positivity) (pow_le_pow_right₀ (by norm_num) (by norm_num))
    push_cast
    exact this.trans (by gcongr)
  have out : ∀ {p a : ℚ}, |(p : ℝ)| ≤ 21 * (M + r + q) → |(a : ℝ)| ≤ M + r + q → |(doubles.fl (p + a) : ℝ) - (p + a)| ≤ (M + r + q) / 2 ^ 48 := by
    intro p a h1 h2
    have h := (Rat.cast_le (K := ℝ)).2 (doubles.err (p + a))
    rw [Rat.cast_add] at h
    push_cast at small
    push_cast at h
    have := abs_add_le (p : ℝ) a
    refine h.trans ?_
    generalize (1 : ℝ) / 2 ^ 1074 = η at *
    generalize |(p : ℝ) + a| = w at *
    norm_num at small ⊢
    linarith
  have ra : |(r : ℝ)| ≤ (M : ℝ) + r + q := by rw [abs_of_pos r0]; linarith
  have qa : |(q : ℝ)| ≤ (M : ℝ) + r + q := by rw [abs_of_pos q0]; linarith
  have z : |(0 : ℝ)| ≤ (M : ℝ) + r + q := by rw [abs_zero]; linarith
  have same : ∀ p : ℝ, |p - (p + 0)| ≤ ((M : ℝ) + r + q) / 2 ^ 48 := fun p => by rw [add_zero, sub_self, abs_zero]; positivity
  have a1 := turn_axis hT hr B.oDouble (v := ⟨doubles.fl (o.x + r), o.y⟩) (a := r) (b := 0) Wl ox oy ra z (out ox ra) (same _)
  have a2 := turn_axis hT hr B.oDouble (v := ⟨o.x, doubles.fl (o.y + q)⟩) (a := 0) (b := q) Wl ox oy z qa (same _) (out oy qa)
  unfold Within Spec.ellipse
  simp only [Real.cos_zero, Real.sin_zero, Real.cos_pi_div_two, Real.sin_pi_div_two, mul_one, mul_zero, zero_mul, sub_zero, add_zero, zero_sub, zero_add] at a1 a2 ⊢
  exact ⟨a1, a2⟩

/-- how far the ellipse around the middle of the chord is from the start: above 1 if the radii are too small -/
noncomputable def need (start stop : Pt ℚ) (rx ry rotation : ℚ) : ℝ :=
  Spec.level (middle start stop) rx ry (angle rotation) (pt start)

theorem Built.need (B : Built T R A start stop rx ry rotation M large sweep dx dy x y r q s c cx cy δ o) (hr : |rotation| ≤ 720) {k : ℚ}
    (rx0 : 0 < rx) (ry0 : 0 < ry) (k1 : M ≤ k * rx) (k2 : M ≤ k * ry) :
    |(rho rx ry x y : ℝ) - SvgArcFloat.need start stop rx ry rotation| ≤
      (k / 2 ^ 42 + k ^ 2 / 2 ^ 87) * max 1 (SvgArcFloat.need start stop rx ry rotation) := by
  obtain ⟨h1, h2⟩ := B.chord hr
  have M0 : 0 ≤ (M : ℝ) := (abs_nonneg _).trans (nr_real B.ndx).2
  have a0 : 0 < (rx : ℝ) := by exact_mod_cast rx0
  have b0 : 0 < (ry : ℝ) := by exact_mod_cast ry0
  have k1' := (Rat.cast_le (K := ℝ)).2 k1
  have k2' := (Rat.cast_le (K := ℝ)).2 k2
  push_cast at k1' k2'
  have k0 : 0 ≤ (k : ℝ) := by
    by_contra hk
    rw [not_le] at hk
    have := mul_neg_of_neg_of_pos hk a0
    linarith
  have h := size_real a0 b0 k0 k1' k2' h1 h2
  have e : (rho rx ry x y : ℝ) = x * x / (rx * rx) + y * y / (ry * ry) := by unfold rho; push_cast; ring
  rw [e, SvgArcFloat.need, Spec.level]
  simp only [middle, pt]
  rw [show ((start.x : ℝ) - (start.x + stop.x) / 2) = (start.x - stop.x) / 2 by ring, show ((start.y : ℝ) - (start.y + stop.y) / 2) = (start.y - stop.y) / 2 by ring]
  rw [show ((start.x : ℝ) - stop.x) / 2 * Real.cos (angle rotation) + (start.y - stop.y) / 2 * Real.sin (angle rotation) =
    Real.cos (angle rotation) * ((start.x - stop.x) / 2) + Real.sin (angle rotation) * ((start.y - stop.y) / 2) by ring,
    show -(((start.x : ℝ) - stop.x) / 2) * Real.sin (angle rotation) + (start.y - stop.y) / 2 * Real.cos (angle rotation) =
    -Real.sin (angle rotation) * ((start.x - stop.x) / 2) + Real.cos (angle rotation) * ((start.y - stop.y) / 2) by ring]
  exact h

/-- the radii are enlarged just enough -/
theorem Built.enough (B : Built T R A start stop rx ry rotation M large sweep dx dy x y r q s c cx cy δ o) (hr : |rotation| ≤ 720) {k : ℚ}
    (rx0 : 0 < rx) (ry0 : 0 < ry) (k1 : M ≤ k * rx) (k2 : M ≤ k * ry) :
    |(s : ℝ) ^ 2 - max 1 (SvgArcFloat.need start stop rx ry rotation)| ≤
      (k / 2 ^ 41 + k ^ 2 / 2 ^ 86 + 1 / 2 ^ 47) * max 1 (SvgArcFloat.need start stop rx ry rotation) := by
  have h := B.need hr rx0 ry0 k1 k2
  have hs := (Rat.cast_le (K := ℝ)).2 B.sEnough
  push_cast at hs
  generalize SvgArcFloat.need start stop rx ry rotation = L at *
  generalize (rho rx ry x y : ℝ) = ρ at *
  have hm := (abs_max_sub_max_le_abs ρ L 1).trans h
  rw [max_comm ρ, max_comm L] at hm
  have m1 := le_max_left 1 L
  generalize max 1 L = m at *
  generalize max 1 ρ = m' at *
  generalize eE : (k : ℝ) / 2 ^ 42 + k ^ 2 / 2 ^ 87 = E at *
  have e2 : (k : ℝ) / 2 ^ 41 + k ^ 2 / 2 ^ 86 + 1 / 2 ^ 47 = 2 * E + 1 / 2 ^ 47 := by rw [← eE]; ring
  rw [e2]
  have hm' := abs_le.1 hm
  have Em : 0 ≤ E * m := (abs_nonneg _).trans hm
  refine (abs_sub_le _ m' _).trans ((add_le_add hs hm).trans ?_)
  rw [add_mul, mul_assoc 2]
  norm_num
  linarith

/-- unless the chord is very short, it is not short for the radii found -/
theorem Built.flags (B : Built T R A start stop rx ry rotation M large sweep dx dy x y r q s c cx cy δ o) (hr : |rotation| ≤ 720) {k : ℚ}
    (rx0 : 0 < rx) (ry0 : 0 < ry) (k1 : M ≤ k * rx) (k2 : M ≤ k * ry) (kk : k ≤ 2 ^ 12)
    (hL : 1 / 2 ^ 28 ≤ SvgArcFloat.need start stop rx ry rotation) : 1 / 2 ^ 30 ≤ rho r q x y := by
  have h := B.need hr rx0 ry0 k1 k2
  have M0 : 0 ≤ M := (abs_nonneg _).trans B.ndx.2
  have k0 : 0 ≤ (k : ℝ) := by
    have : 0 ≤ k := by
      by_contra hk
      rw [not_le] at hk
      have := mul_neg_of_neg_of_pos hk rx0
      linarith
    exact_mod_cast this
  have kk' := (Rat.cast_le (K := ℝ)).2 kk
  push_cast at kk'
  have E1 : (k : ℝ) / 2 ^ 42 + k ^ 2 / 2 ^ 87 ≤ 1 / 2 ^ 29 := by
    have : (k : ℝ) ^ 2 ≤ (2 ^ 12) ^ 2 := pow_le_pow_left₀ k0 kk' 2
    norm_num at this kk' ⊢
    linarith
  have low : (1 / 2 ^ 29 : ℝ) ≤ rho rx ry x y := by
    generalize SvgArcFloat.need start stop rx ry rotation = L at *
    generalize (rho rx ry x y : ℝ) = ρ at *
    have h' := h.trans (mul_le_mul_of_nonneg_right E1 (le_trans zero_le_one (le_max_left _ _)))
    have := (abs_le.1 h').1
    rcases le_total 1 L with g | g
    · rw [max_eq_right g] at this
      norm_num at this ⊢
      linarith
    · rw [max_eq_left g] at this
      norm_num at this hL ⊢
      linarith
  have low' : 1 / 2 ^ 29 ≤ rho rx ry x y := by
    rw [← Rat.cast_le (K := ℝ)]
    push_cast
    exact low
  have hs := (abs_le.1 B.sEnough).2
  have m1 := le_max_left 1 (rho rx ry x y)
  have s0 := B.s0
  have rr : ∀ {a r : ℚ}, 0 < a → 0 < r → Nr (a * s) 3 (a * s) r → r * r ≤ a * a * (101 / 100 * max 1 (rho rx ry x y)) := by
    intro a r a0 r0 h
    have := (abs_le.1 h.1).2
    have as := mul_pos a0 s0
    have : r ≤ a * s * (1001 / 1000) := by norm_num at this; linarith
    have h2 : r * r ≤ a * s * (1001 / 1000) * (a * s * (1001 / 1000)) := mul_le_mul this this r0.le (by positivity)
    have h3 : s ^ 2 ≤ 1001 / 1000 * max 1 (rho rx ry x y) := by norm_num at hs; linarith
    have h4 : a * a * s ^ 2 ≤ a * a * (1001 / 1000 * max 1 (rho rx ry x y)) := mul_le_mul_of_nonneg_left h3 (mul_pos a0 a0).le
    have h5 : 0 < a * a * max 1 (rho rx ry x y) := mul_pos (mul_pos a0 a0) (by linarith)
    calc r * r ≤ (1001 / 1000) ^ 2 * (a * a * s ^ 2) := by refine h2.trans (le_of_eq ?_); ring
      _ ≤ (1001 / 1000) ^ 2 * (a * a * (1001 / 1000 * max 1 (rho rx ry x y))) := by gcongr
      _ ≤ a * a * (101 / 100 * max 1 (rho rx ry x y)) := by norm_num; linarith
  have r0 := low_pos B.frame.rl
  have q0 := low_pos B.frame.ql
  have key : rho rx ry x y / (101 / 100 * max 1 (rho rx ry x y)) ≤ rho r q x y := by
    have p1 := rr rx0 r0 B.nr
    have p2 := rr ry0 q0 B.nq
    have g0 : 0 < 101 / 100 * max 1 (rho rx ry x y) := by linarith
    generalize 101 / 100 * max 1 (rho rx ry x y) = g at *
    unfold rho
    rw [add_div, div_div, div_div]
    exact add_le_add (div_le_div_of_nonneg_left (mul_self_nonneg _) (mul_pos r0 r0) p1) (div_le_div_of_nonneg_left (mul_self_nonneg _) (mul_pos q0 q0) p2)
  refine le_trans ?_ key
  generalize rho rx ry x y = ρ at *
  rcases le_total 1 ρ with g | g
  · rw [max_eq_right g, le_div_iff₀ (by linarith)]
    norm_num
    linarith
  · rw [max_eq_left g, le_div_iff₀ (by norm_num)]
    norm_num at low' ⊢
    linarith

end

end SvgArcFloat

open SvgArcFloat

/-- C163, arcs built from SVG parameters with floats: for different ends, radii and coordinates of ordinary sizes and a rotation of
at most two turns nothing is raised; the axes found almost are the axes of an ellipse turned by the rotation, the start almost is on
it, and going on by the sweep leads almost to the end; both radii are enlarged by the same factor, almost the least possible one. The
sweep has the direction asked for, and unless the chord is very short it is at least or at most half a turn as asked for. -/
theorem C163_arc (T : FloatTrig) (hT : ∀ x, Spec.IsDouble (T.cos x) ∧ Spec.IsDouble (T.sin x)) (R : FloatSqrt) (A : FloatAcos)
    {start stop : Pt ℚ} {rx ry rotation M k : ℚ} (large sweep : Bool)
    (h : Flt.eq doubles start stop = false) (hs : SizeAtMost M start) (he : SizeAtMost M stop) (hM : M ≤ 2 ^ 64)
    (rl : 1 / 2 ^ 64 ≤ rx) (ru : rx ≤ 2 ^ 64) (ql : 1 / 2 ^ 64 ≤ ry) (qu : ry ≤ 2 ^ 64) (hr : |rotation| ≤ 720)
    (k1 : M ≤ k * rx) (k2 : M ≤ k * ry) :
    ∃ (a : ArcData ℚ) (r q s t : ℝ), svgParameterize doubles T R A start rx ry rotation large sweep stop = .ok a ∧ 0 < r ∧ 0 < q ∧ 0 < s ∧
      Within ((M + r + q) / 2 ^ 38) a.prx (Spec.ellipse (pt a.center) r q (angle rotation) 0) ∧
      Within ((M + r + q) / 2 ^ 38) a.pry (Spec.ellipse (pt a.center) r q (angle rotation) (Real.pi / 2)) ∧
      Within ((M + r + q) / 2 ^ 39) start (Spec.ellipse (pt a.center) r q (angle rotation) t) ∧
      Within ((M + r + q) / 2 ^ 39 + (r + q) / 2 ^ 14) stop (Spec.ellipse (pt a.center) r q (angle rotation) (t + a.sweep)) ∧
      |r - rx * s| ≤ rx * s / 2 ^ 51 ∧ |q - ry * s| ≤ ry * s / 2 ^ 51 ∧
      |s ^ 2 - max 1 (need start stop rx ry rotation)| ≤ (k / 2 ^ 41 + k ^ 2 / 2 ^ 86 + 1 / 2 ^ 47) * max 1 (need start stop rx ry rotation) ∧
      (if sweep then 0 ≤ a.sweep else a.sweep ≤ 0) ∧ |(a.sweep : ℝ)| ≤ 2 * Real.pi + 1 / 2 ^ 47 ∧
      (k ≤ 2 ^ 12 → 1 / 2 ^ 28 ≤ need start stop rx ry rotation →
        if large then Real.pi - 1 / 2 ^ 14 ≤ |(a.sweep : ℝ)| else |(a.sweep : ℝ)| ≤ Real.pi + 1 / 2 ^ 14) := by
  obtain ⟨dx, dy, x, y, r, q, s, c, cx, cy, δ, o, B⟩ := built T R A large sweep h hs he hM rl ru ql qu hr
  obtain ⟨t, t1, t2⟩ := B.ends hr
  obtain ⟨a1, a2⟩ := B.axes hT hr
  have rx0 := low_pos rl
  have ry0 := low_pos ql
  have nr := (nr_real B.nr).1
  have nq := (nr_real B.nq).1
  have rs0 : 0 < (rx : ℝ) * s := by exact_mod_cast mul_pos rx0 B.s0
  have qs0 : 0 < (ry : ℝ) * s := by exact_mod_cast mul_pos ry0 B.s0
  push_cast at nr nq
  have sw := sweep_near B.size
  have esw : (native doubles T o r q rotation δ).sweep = degrees doubles δ := rfl
  have sz := (Rat.cast_le (K := ℝ)).2 B.size
  push_cast at sz
  have p2 := Real.pi_lt_d20
  have p0 := Real.pi_pos
  refine ⟨_, r, q, s, t, B.ok, by exact_mod_cast low_pos B.frame.rl, by exact_mod_cast low_pos B.frame.ql, by exact_mod_cast B.s0, a1, a2, t1, t2,
    nr.trans (by norm_num; linarith), nq.trans (by norm_num; linarith), B.enough hr rx0 ry0 k1 k2, ?_, ?_, ?_⟩
  · rw [esw]
    have := B.turn
    split_ifs at this ⊢
    · exact double_neg_le.1 this.1
    · exact double_neg_le.2 this.2
  · rw [esw]
    have h1 := abs_add_le ((degrees doubles δ : ℝ) - δ * Real.pi / 180) (δ * Real.pi / 180)
    rw [sub_add_cancel] at h1
    have h2 : |(δ : ℝ) * Real.pi / 180| ≤ 2 * Real.pi := by
      rw [abs_div, abs_mul, abs_of_pos p0, abs_of_pos (show (0 : ℝ) < 180 by norm_num), div_le_iff₀ (by norm_num)]
      nlinarith
    linarith
  · intro kk hL
    rw [esw]
    obtain ⟨f1, f2⟩ := B.half (B.flags hr rx0 ry0 k1 k2 kk hL)
    have cs := B.cSign
    have tn := B.turn
    have sw' := abs_le.1 sw
    have up : ∀ {d : ℚ}, d ≤ 180 + 1 / 2 ^ 9 → (d : ℝ) * Real.pi / 180 ≤ Real.pi + 9 / 10 * (1 / 2 ^ 14) := by
      intro d hd
      have hd' := (Rat.cast_le (K := ℝ)).2 hd
      push_cast at hd'
      have := mul_le_mul_of_nonneg_right hd' p0.le
      norm_num at this p2 ⊢
      linarith
    have dn : ∀ {d : ℚ}, 180 - 1 / 2 ^ 9 ≤ d → Real.pi - 9 / 10 * (1 / 2 ^ 14) ≤ (d : ℝ) * Real.pi / 180 := by
      intro d hd
      have hd' := (Rat.cast_le (K := ℝ)).2 hd
      push_cast at hd'
      have := mul_le_mul_of_nonneg_right hd' p0.le
      norm_num at this p2 ⊢
      linarith
    cases sweep <;> cases large <;> simp only [Bool.false_eq_true, if_true, if_false, reduceCtorEq] at *
    · have h1 := up (d := -δ) (by linarith [f2 cs])
      have h2 : (degrees doubles δ : ℝ) ≤ 0 := by exact_mod_cast double_neg_le.2 tn.2
      rw [abs_of_nonpos h2]
      push_cast at h1
      norm_num at h1 sw' ⊢
      linarith
    · have h1 := dn (d := -δ) (by linarith [f1 cs])
      have h2 : (degrees doubles δ : ℝ) ≤ 0 := by exact_mod_cast double_neg_le.2 tn.2
      rw [abs_of_nonpos h2]
      push_cast at h1
      norm_num at h1 sw' ⊢
      linarith
    · have h1 := up (f1 cs)
      have h2 : 0 ≤ (degrees doubles δ : ℝ) := by exact_mod_cast double_neg_le.1 tn.1
      rw [abs_of_nonneg h2]
      norm_num at h1 sw' ⊢
      linarith
    · have h1 := dn (f2 cs)
      have h2 : 0 ≤ (degrees doubles δ : ℝ) := by exact_mod_cast double_neg_le.1 tn.1
      rw [abs_of_nonneg h2]
      norm_num at h1 sw' ⊢
      linarith

namespace SvgArcFloat

theorem acos_exists : ∃ A : FloatAcos, A.acos 1 = 0 := by
  choose f hf using fun x : ℚ => rat_near (Real.arccos x) (show (0 : ℝ) < 1 / 2 ^ 51 by positivity)
  refine ⟨⟨fun x => if x = 1 then 0 else max 0 (f x), fun x => ?_, fun x _ _ => ?_⟩, by simp⟩
  · split_ifs
    · exact le_rfl
    · exact le_max_left _ _
  · split_ifs with h
    · rw [h]
      norm_num
    · have h0 := Real.arccos_nonneg (x : ℝ)
      have h1 := abs_le.1 (hf x)
      rw [Rat.cast_max, Rat.cast_zero, abs_le]
      rcases le_total 0 (f x : ℝ) with g | g
      · rw [max_eq_right g]; exact h1
      · rw [max_eq_left g]; constructor <;> linarith

theorem trig_zero : ∃ T : FloatTrig, (∀ x, Spec.IsDouble (T.cos x) ∧ Spec.IsDouble (T.sin x)) ∧ T.cos 0 = 1 ∧ T.sin 0 = 0 := by
  obtain ⟨T, hT, -⟩ := double_trig
  refine ⟨{ T with
    cos := fun x => if x = 0 then 1 else T.cos x
    sin := fun x => if x = 0 then 0 else T.sin x
    cos_err := fun x => ?_
    sin_err := fun x => ?_ }, fun x => ?_, by simp, by simp⟩
  · split_ifs with h
    · rw [h]; norm_num
    · exact T.cos_err x
  · split_ifs with h
    · rw [h]; norm_num
    · exact T.sin_err x
  · dsimp only
    split_ifs
    · exact ⟨isDouble_int (n := 1) (by norm_num), isDouble_zero⟩
    · exact hT x

theorem double_small {d : ℚ} (h : Spec.IsDouble d) (h' : |d| < 1 / 2 ^ 1074) : d = 0 := by
  obtain ⟨k, m, rfl, -, hm⟩ := h
  by_contra hc
  have k0 : k ≠ 0 := fun hk => hc (by rw [hk, Int.cast_zero, zero_mul])
  have k1 : (1 : ℚ) ≤ |(k : ℚ)| := by exact_mod_cast Int.one_le_abs k0
  have m1 : (2 : ℚ) ^ (-1074 : ℤ) ≤ 2 ^ m := zpow_le_zpow_right₀ (by norm_num) hm
  have e : (2 : ℚ) ^ (-1074 : ℤ) = 1 / 2 ^ 1074 := by rw [zpow_neg, one_div]; rfl
  have mp : (0 : ℚ) < 2 ^ m := by positivity
  rw [e] at m1
  rw [abs_mul, abs_of_pos mp] at h'
  have : (2 : ℚ) ^ m ≤ |(k : ℚ)| * 2 ^ m := le_mul_of_one_le_left mp.le k1
  exact absurd (m1.trans this) (not_le.2 h')

/-- there is no double between 1 and its neighbours -/
theorem double_one {d : ℚ} (h : Spec.IsDouble d) (h1 : 1 - 1 / 2 ^ 54 ≤ d) (h2 : d ≤ 1 + 1 / 2 ^ 54) : d = 1 := by
  obtain ⟨k, m, rfl, hk, -⟩ := h
  rcases le_or_gt (-53) m with hm | hm
  · obtain ⟨n, hn⟩ := Int.eq_ofNat_of_zero_le (show 0 ≤ m + 53 by linarith)
    have em : (2 : ℚ) ^ m = 2 ^ n / 2 ^ 53 := by
      rw [show m = (n : ℤ) - 53 by omega, zpow_sub₀ (by norm_num), zpow_natCast]; rfl
    rw [em, ← mul_div_assoc] at h1 h2 ⊢
    rw [le_div_iff₀ (by positivity)] at h1
    rw [div_le_iff₀ (by positivity)] at h2
    have a1 : ((2 ^ 53 - 1 : ℤ) : ℚ) < ((k * 2 ^ n : ℤ) : ℚ) := by
      push_cast
      refine lt_of_lt_of_le ?_ h1
      norm_num
    have a2 : ((k * 2 ^ n : ℤ) : ℚ) < ((2 ^ 53 + 1 : ℤ) : ℚ) := by
      push_cast
      refine lt_of_le_of_lt h2 ?_
      norm_num
    have b1 := Int.cast_lt.1 a1
    have b2 := Int.cast_lt.1 a2
    have b3 : k * 2 ^ n = 2 ^ 53 := by omega
    rw [div_eq_one_iff_eq (by positivity)]
    exact_mod_cast b3
  · have m1 : (2 : ℚ) ^ m ≤ 2 ^ (-54 : ℤ) := zpow_le_zpow_right₀ (by norm_num) (by omega)
    have e54 : (2 : ℚ) ^ (-54 : ℤ) = 1 / 2 ^ 54 := by rw [zpow_neg, one_div]; rfl
    rw [e54] at m1
    have k1 : (k : ℚ) ≤ 2 ^ 53 := by exact_mod_cast (abs_le.1 hk).2
    have mp : (0 : ℚ) < 2 ^ m := by positivity
    have : (k : ℚ) * 2 ^ m ≤ 2 ^ 53 * (1 / 2 ^ 54) := mul_le_mul k1 m1 mp.le (by positivity)
    norm_num at this h1
    linarith

theorem near_one {x : ℚ} (h : |1 - x| ≤ 1 / 2 ^ 55) : roundDouble x = 1 := by
  have one : Spec.IsDouble 1 := isDouble_int (n := 1) (by norm_num)
  have near := abs_le.1 ((roundDouble_nearest x one).trans h)
  have h' := abs_le.1 h
  refine double_one (roundDouble_isDouble x) ?_ ?_ <;> norm_num at near h' ⊢ <;> linarith

theorem far_ne {a : ℚ} (h : 1 / 2 ^ 27 ≤ |a|) (ha : Spec.IsDouble a) (y : ℚ) : Flt.eq doubles ⟨0, y⟩ ⟨a, y⟩ = false := by
  have h1 : doubles.fl (0 - a) = -a := by rw [zero_sub]; exact roundDouble_double (double_neg ha)
  have h2 := (abs_le.1 (doubles.err Svgio.err)).2
  have ht := tiny_le
  simp only [Flt.eq]
  rw [h1, Bool.and_eq_false_iff]
  refine Or.inl (decide_eq_false ?_)
  rw [not_le, abs_neg]
  refine lt_of_lt_of_le ?_ h
  generalize (1 : ℚ) / 2 ^ 1074 = η at *
  generalize doubles.fl Svgio.err = g at *
  norm_num [Svgio.err] at h2 ht ⊢
  linarith

/-- the steps of the code -/
theorem steps (F : FloatRounding) (T : FloatTrig) (R : FloatSqrt) (A : FloatAcos) {start stop : Pt ℚ} {rx ry rotation : ℚ} {large sweep : Bool}
    {C S dx dy x y xx yy r q c cx cy ux uy vx vy δ : ℚ} (hne : ¬(Flt.eq F start stop = true ∨ rx = 0 ∨ ry = 0))
    (eC : T.cos (radians F rotation) = C) (eS : T.sin (radians F rotation) = S) (edx : F.fl (F.fl (start.x - stop.x) / 2) = dx)
    (edy : F.fl (F.fl (start.y - stop.y) / 2) = dy) (ex : F.fl (F.fl (C * dx) + F.fl (S * dy)) = x)
    (ey : F.fl (F.fl (-S * dx) + F.fl (C * dy)) = y) (exx : F.fl (x * x) = xx) (eyy : F.fl (y * y) = yy) (e1 : svgRadii F R rx ry xx yy = .ok (r, q))
    (e2 : centreFactor F R r q xx yy large sweep = .ok c) (ecx : Flt.div F (F.fl (F.fl (c * r) * y)) q = .ok cx)
    (ecy : Flt.div F (F.fl (F.fl (-c * q) * x)) r = .ok cy) (eux : Flt.div F (F.fl (x - cx)) r = .ok ux) (euy : Flt.div F (F.fl (y - cy)) q = .ok uy)
    (evx : Flt.div F (F.fl (-x - cx)) r = .ok vx) (evy : Flt.div F (F.fl (-y - cy)) q = .ok vy)
    (e3 : deltaDegrees F R A ux uy vx vy sweep = .ok δ) :
    ∃ o, svgParameterize F T R A start rx ry rotation large sweep stop = .ok (native F T o r q rotation δ) := by
  refine ⟨⟨F.fl (F.fl (F.fl (C * cx) - F.fl (S * cy)) + F.fl (F.fl (start.x + stop.x) / 2)),
      F.fl (F.fl (F.fl (S * cx) + F.fl (C * cy)) + F.fl (F.fl (start.y + stop.y) / 2))⟩, ?_⟩
  unfold svgParameterize
  rw [if_neg hne]
  simp only [eC, eS, edx, edy, ex, ey, exx, eyy, e1, e2, ecx, ecy, eux, euy, evx, evy, e3, bind, Except.bind, pure, Except.pure]

/-- the numbers in `C163_lost_wrong` -/
theorem lost_values {T : FloatTrig} {R : FloatSqrt} {A : FloatAcos} (hc : T.cos 0 = 1) (hs : T.sin 0 = 0) (hq : R.sqrt (2 ^ 56) = 2 ^ 28)
    (h1 : R.sqrt 1 = 1) (ha : A.acos 1 = 0) :
    ∃ a, svgParameterize doubles T R A ⟨0, 0⟩ 1 1 0 true true ⟨1 / 2 ^ 27, 0⟩ = .ok a ∧ a.sweep = 0 := by
  have D : ∀ (k : ℤ) (n : ℕ), |k| ≤ 2 ^ 53 → n ≤ 1074 → Spec.IsDouble (k / 2 ^ n) := fun k n hk hn =>
    ⟨k, -n, by rw [zpow_neg, zpow_natCast, div_eq_mul_inv], hk, by omega⟩
  have E : ∀ {v w : ℚ}, v = w → Spec.IsDouble w → doubles.fl v = w := fun h hw => by rw [h]; exact roundDouble_double hw
  have i0 : Spec.IsDouble 0 := isDouble_zero
  have i1 : Spec.IsDouble 1 := isDouble_int (n := 1) (by norm_num)
  have im1 : Spec.IsDouble (-1) := double_neg i1
  have d : ∀ n : ℕ, n ≤ 1074 → Spec.IsDouble (1 / 2 ^ n) := fun n hn => by simpa using D 1 n (by norm_num) hn
  have h0 : radians doubles 0 = 0 := by unfold radians; exact E (by ring) i0
  have e1 : doubles.fl (0 - 1 / 2 ^ 27) = -(1 / 2 ^ 27) := E (by ring) (double_neg (d 27 (by norm_num)))
  have e2 : doubles.fl (-(1 / 2 ^ 27) / 2) = -(1 / 2 ^ 28) := E (by norm_num) (double_neg (d 28 (by norm_num)))
  have e3 : doubles.fl (0 - 0) = 0 := E (by ring) i0
  have e4 : doubles.fl (0 / 2) = 0 := E (by ring) i0
  have e5 : doubles.fl (1 * -(1 / 2 ^ 28)) = -(1 / 2 ^ 28) := E (by ring) (double_neg (d 28 (by norm_num)))
  have e6 : doubles.fl (0 * 0) = 0 := E (by ring) i0
  have e7 : doubles.fl (-(1 / 2 ^ 28) + 0) = -(1 / 2 ^ 28) := E (by ring) (double_neg (d 28 (by norm_num)))
  have e8 : doubles.fl (-(1 / 2 ^ 28) * -(1 / 2 ^ 28)) = 1 / 2 ^ 56 := E (by norm_num) (d 56 (by norm_num))
  have e9 : doubles.fl (-0 * -(1 / 2 ^ 28)) = 0 := E (by ring) i0
  have e10 : doubles.fl (1 * 0) = 0 := E (by ring) i0
  have e11 : doubles.fl (0 + 0) = 0 := E (by ring) i0
  have f1 : doubles.fl (1 * 1) = 1 := E (by ring) i1
  have f2 : doubles.fl (1 / 2 ^ 56 / 1) = 1 / 2 ^ 56 := E (by ring) (d 56 (by norm_num))
  have f3 : doubles.fl (0 / 1) = 0 := E (by ring) i0
  have f4 : doubles.fl (1 / 2 ^ 56 + 0) = 1 / 2 ^ 56 := E (by ring) (d 56 (by norm_num))
  have rad : svgRadii doubles R 1 1 (1 / 2 ^ 56) 0 = .ok (1, 1) := by
    simp only [svgRadii, f1, Flt.div, if_neg (one_ne_zero (α := ℚ)), f2, f3, f4, bind, Except.bind, pure, Except.pure]
    rw [if_neg (by norm_num)]
  have g1 : doubles.fl (1 * (1 / 2 ^ 56)) = 1 / 2 ^ 56 := E (by ring) (d 56 (by norm_num))
  have g2 : doubles.fl (doubles.fl (1 - 0) - 1 / 2 ^ 56) = 1 := by
    rw [show doubles.fl (1 - 0) = 1 from E (by ring) i1]
    exact near_one (by norm_num)
  have g3 : doubles.fl (0 + 1 / 2 ^ 56) = 1 / 2 ^ 56 := E (by ring) (d 56 (by norm_num))
  have g4 : doubles.fl (1 / (1 / 2 ^ 56)) = 2 ^ 56 := E (by norm_num) ⟨1, 56, by norm_num, by norm_num, by norm_num⟩
  have cen : centreFactor doubles R 1 1 (1 / 2 ^ 56) 0 true true = .ok (-2 ^ 28) := by
    simp only [centreFactor, f1, e10, g1, g2, g3, Flt.div, if_neg (show (1 : ℚ) / 2 ^ 56 ≠ 0 by norm_num), g4, bind, Except.bind, pure, Except.pure]
    rw [abs_of_pos (by norm_num), hq]
    simp only [if_true]
  have b28 : Spec.IsDouble (2 ^ 28) := ⟨1, 28, by norm_num, by norm_num, by norm_num⟩
  have cx : Flt.div doubles (doubles.fl (doubles.fl (-2 ^ 28 * 1) * 0)) 1 = .ok 0 := by
    rw [show doubles.fl (-2 ^ 28 * 1) = -2 ^ 28 from E (by ring) (double_neg b28), show doubles.fl (-2 ^ 28 * 0) = 0 from E (by ring) i0, Flt.div,
      if_neg one_ne_zero, f3]
  have cy : Flt.div doubles (doubles.fl (doubles.fl (- -2 ^ 28 * 1) * -(1 / 2 ^ 28))) 1 = .ok (-1) := by
    rw [show doubles.fl (- -2 ^ 28 * 1) = 2 ^ 28 from E (by ring) b28, show doubles.fl (2 ^ 28 * -(1 / 2 ^ 28)) = -1 from E (by norm_num) im1, Flt.div,
      if_neg one_ne_zero, show doubles.fl (-1 / 1) = -1 from E (by ring) im1]
  have ux : Flt.div doubles (doubles.fl (-(1 / 2 ^ 28) - 0)) 1 = .ok (-(1 / 2 ^ 28)) := by
    rw [show doubles.fl (-(1 / 2 ^ 28) - 0) = -(1 / 2 ^ 28) from E (by ring) (double_neg (d 28 (by norm_num))), Flt.div, if_neg one_ne_zero,
      show doubles.fl (-(1 / 2 ^ 28) / 1) = -(1 / 2 ^ 28) from E (by ring) (double_neg (d 28 (by norm_num)))]
  have uy : Flt.div doubles (doubles.fl (0 - -1)) 1 = .ok 1 := by
    rw [show doubles.fl (0 - -1) = 1 from E (by ring) i1, Flt.div, if_neg one_ne_zero, show doubles.fl (1 / 1) = 1 from E (by ring) i1]
  have vx : Flt.div doubles (doubles.fl (- -(1 / 2 ^ 28) - 0)) 1 = .ok (1 / 2 ^ 28) := by
    rw [show doubles.fl (- -(1 / 2 ^ 28) - 0) = 1 / 2 ^ 28 from E (by ring) (d 28 (by norm_num)), Flt.div, if_neg one_ne_zero,
      show doubles.fl (1 / 2 ^ 28 / 1) = 1 / 2 ^ 28 from E (by ring) (d 28 (by norm_num))]
  have vy : Flt.div doubles (doubles.fl (-0 - -1)) 1 = .ok 1 := by
    rw [show doubles.fl (-0 - -1) = 1 from E (by ring) i1, Flt.div, if_neg one_ne_zero, show doubles.fl (1 / 1) = 1 from E (by ring) i1]
  have sum : doubles.fl (1 / 2 ^ 56 + 1) = 1 := by
    exact near_one (by norm_num)
  have del : deltaDegrees doubles R A (-(1 / 2 ^ 28)) 1 (1 / 2 ^ 28) 1 true = .ok 0 := by
    have k1 : doubles.fl (1 / 2 ^ 28 * (1 / 2 ^ 28)) = 1 / 2 ^ 56 := E (by norm_num) (d 56 (by norm_num))
    have k2 : doubles.fl (-(1 / 2 ^ 28) * (1 / 2 ^ 28)) = -(1 / 2 ^ 56) := E (by norm_num) (double_neg (d 56 (by norm_num)))
    have k3 : doubles.fl (-(1 / 2 ^ 56) + 1) = 1 := near_one (by norm_num)
    have k4 : doubles.fl (1 / 1) = 1 := E (by ring) i1
    have k5 : toDegrees doubles 0 = 0 := by unfold toDegrees; exact E (by ring) i0
    have k6 : pyMod doubles 0 360 = 0 := by unfold pyMod; rw [if_pos le_rfl, mod_small le_rfl (by norm_num)]
    simp only [deltaDegrees, e8, f1, sum, h1, k1, k2, k3, Flt.div, if_neg (one_ne_zero (α := ℚ)), k4, bind, Except.bind, pure, Except.pure, gt_iff_lt, lt_irrefl,
      if_false, if_true]
    rw [if_neg (show ¬(1 : ℚ) < -1 by norm_num), ha, k5, neg_zero, ite_self, k6]
  obtain ⟨o, ho⟩ := steps doubles T R A (start := ⟨0, 0⟩) (stop := ⟨1 / 2 ^ 27, 0⟩) (rx := 1) (ry := 1) (rotation := 0) (large := true) (sweep := true)
    (C := 1) (S := 0) (dx := -(1 / 2 ^ 28)) (dy := 0) (x := -(1 / 2 ^ 28)) (y := 0)
    (by
      rintro (g | g | g)
      · rw [far_ne (by rw [abs_of_pos (by norm_num)]) (d 27 (by norm_num)) 0] at g; exact Bool.false_ne_true g
      · exact one_ne_zero g
      · exact one_ne_zero g) (by rw [h0]; exact hc) (by rw [h0]; exact hs) (by rw [e1]; exact e2) (by rw [e3]; exact e4) (by rw [e5, e6]; exact e7)
    (by rw [e9, e10]; exact e11) e8 e6 rad cen cx cy ux uy vx vy del
  refine ⟨_, ho, ?_⟩
  have : (native doubles T o 1 1 0 0).sweep = degrees doubles 0 := rfl
  rw [this, degrees, show doubles.fl (tau * 0) = 0 from E (by ring) i0]
  exact E (by ring) i0

end SvgArcFloat

/-- a quarter of a circle meets the hypotheses -/
example : ∃ (T : FloatTrig) (_ : FloatSqrt) (_ : FloatAcos), (∀ x, Spec.IsDouble (T.cos x) ∧ Spec.IsDouble (T.sin x)) ∧
    Flt.eq doubles ⟨100, 0⟩ ⟨0, 100⟩ = false ∧ SizeAtMost 100 ⟨100, 0⟩ ∧ SizeAtMost 100 ⟨0, 100⟩ ∧ (100 : ℚ) ≤ 1 * 100 ∧ (1 : ℚ) ≤ 2 ^ 12 ∧
    1 / 2 ^ 28 ≤ need ⟨100, 0⟩ ⟨0, 100⟩ 100 100 30 := by
  obtain ⟨T, hT, -⟩ := double_trig
  obtain ⟨S, -⟩ := sqrt_exists
  obtain ⟨A, -⟩ := acos_exists
  refine ⟨T, S, A, hT, ?_, by simp [SizeAtMost], by simp [SizeAtMost], by norm_num, by norm_num, ?_⟩
  · have h1 : doubles.fl (100 - 0) = 100 := by have := doubles.exact 100 (by norm_num); push_cast at this; rw [sub_zero]; exact this
    have h2 := (abs_le.1 (doubles.err Svgio.err)).2
    have ht := tiny_le
    simp only [Flt.eq]
    rw [h1, Bool.and_eq_false_iff]
    refine Or.inl (decide_eq_false ?_)
    rw [not_le, abs_of_pos (show (0 : ℚ) < 100 by norm_num)]
    generalize (1 : ℚ) / 2 ^ 1074 = η at *
    generalize doubles.fl Svgio.err = g at *
    norm_num [Svgio.err] at h2 ht ⊢
    linarith
  · unfold need Spec.level middle pt
    have hcs := Real.cos_sq_add_sin_sq (angle 30)
    generalize Real.cos (angle 30) = c at *
    generalize Real.sin (angle 30) = s at *
    norm_num
    nlinarith [sq_nonneg (c - s), sq_nonneg (c + s)]

/-- C163, arcs without extent: equal ends or a radius of zero raise nothing, whatever the other parameters are, and give an arc that is
a single point, the start. -/
theorem C163_flat (T : FloatTrig) (R : FloatSqrt) (A : FloatAcos) {start stop : Pt ℚ} {rx ry : ℚ} (rotation : ℚ) (large sweep : Bool)
    (h : start = stop ∨ rx = 0 ∨ ry = 0) : ∃ a : ArcData ℚ, svgParameterize doubles T R A start rx ry rotation large sweep stop = .ok a ∧
      a.center = start ∧ a.prx = start ∧ a.pry = start ∧ a.sweep = 0 := by
  refine ⟨_, if_pos ?_, rfl, rfl, rfl, rfl⟩
  rcases h with rfl | h | h
  · refine Or.inl ?_
    have e0 := fl_zero doubles
    have e1 : 0 ≤ doubles.fl Svgio.err := roundDouble_nonneg (by norm_num [Svgio.err])
    simp [Flt.eq, e0, e1]
  · exact Or.inr (Or.inl h)
  · exact Or.inr (Or.inr h)

example : (⟨3, 4⟩ : Pt ℚ) = ⟨5, 6⟩ ∨ (0 : ℚ) = 0 ∨ (7 : ℚ) = 0 := Or.inr (Or.inl rfl)

/-- **C163**, where it fails: radii of `2 ^ -600` divide by zero. -/
theorem C163_tiny_wrong (T : FloatTrig) (R : FloatSqrt) (A : FloatAcos) (large sweep : Bool) :
    svgParameterize doubles T R A ⟨0, 0⟩ (1 / 2 ^ 600) (1 / 2 ^ 600) 0 large sweep ⟨1, 0⟩ = .error .zeroDivisionError := by
  have z : doubles.fl (1 / 2 ^ 600 * (1 / 2 ^ 600)) = 0 := by
    have h := roundDouble_nearest (1 / 2 ^ 600 * (1 / 2 ^ 600)) isDouble_zero
    refine double_small (roundDouble_isDouble _) ?_
    have h2 := abs_add_le (roundDouble (1 / 2 ^ 600 * (1 / 2 ^ 600)) - 1 / 2 ^ 600 * (1 / 2 ^ 600)) (1 / 2 ^ 600 * (1 / 2 ^ 600))
    rw [sub_add_cancel] at h2
    have e : (1 : ℚ) / 2 ^ 600 * (1 / 2 ^ 600) = 1 / 2 ^ 1074 * (1 / 2 ^ 126) := by
      rw [one_div_mul_one_div, one_div_mul_one_div, ← pow_add, ← pow_add]
    have p : (0 : ℚ) < 1 / 2 ^ 1074 := by positivity
    rw [e] at h h2 ⊢
    change |roundDouble (1 / 2 ^ 1074 * (1 / 2 ^ 126))| < _
    generalize (1 : ℚ) / 2 ^ 1074 = η at *
    rw [zero_sub, abs_neg, abs_of_pos (show 0 < η * (1 / 2 ^ 126) by positivity)] at h
    rw [abs_of_pos (show 0 < η * (1 / 2 ^ 126) by positivity)] at h2
    generalize |roundDouble (η * (1 / 2 ^ 126)) - η * (1 / 2 ^ 126)| = w1 at *
    generalize |roundDouble (η * (1 / 2 ^ 126))| = w2 at *
    norm_num at h h2 ⊢
    linarith
  have hne : ¬(Flt.eq doubles ⟨0, 0⟩ ⟨1, 0⟩ = true ∨ (1 : ℚ) / 2 ^ 600 = 0 ∨ (1 : ℚ) / 2 ^ 600 = 0) := by
    have h1 : (1 : ℚ) / 2 ^ 600 ≠ 0 := by positivity
    rintro (g | g | g)
    · rw [far_ne (a := 1) (by norm_num) (by have := isDouble_int (n := 1) (by norm_num); simpa using this) 0] at g; exact Bool.false_ne_true g
    · exact h1 g
    · exact h1 g
  unfold svgParameterize
  rw [if_neg hne]
  simp only [svgRadii, z, Flt.div, if_true, bind, Except.bind]

/-- **C163**, where it fails: of a circle with radius 1 that is almost full (the ends are `2 ^ -27` apart, and the larger arc is asked
for) nothing is left; the sweep found is 0. -/
theorem C163_lost_wrong : ∃ (T : FloatTrig) (R : FloatSqrt) (A : FloatAcos) (a : ArcData ℚ),
    svgParameterize doubles T R A ⟨0, 0⟩ 1 1 0 true true ⟨1 / 2 ^ 27, 0⟩ = .ok a ∧ a.sweep = 0 := by
  obtain ⟨T, -, hc, hs⟩ := trig_zero
  obtain ⟨S, hS⟩ := sqrt_exists
  obtain ⟨A, hA⟩ := acos_exists
  obtain ⟨a, h⟩ := lost_values hc hs (by have := hS (2 ^ 28); rw [show (((2 ^ 28 : ℕ) : ℚ)) = 2 ^ 28 by norm_num, ← pow_mul] at this; exact this)
    (by have := hS 1; push_cast at this; rw [one_pow] at this; exact this) hA
  exact ⟨T, S, A, a, h⟩

end Svgio.Props
