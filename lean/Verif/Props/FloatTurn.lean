import Verif.Model.FloatTurn
import Verif.Props.FloatArcFollow

/-! C152: scaling, turning and skewing about a point, with floats. -/

namespace Svgio.Props
open Spec Flt

/-- the point `v` turned about `c` by the angle `θ` -/
noncomputable def turned (c v : Pt ℚ) (θ : ℝ) : ℝ × ℝ :=
  (c.x + (v.x - c.x) * Real.cos θ - (v.y - c.y) * Real.sin θ, c.y + (v.x - c.x) * Real.sin θ + (v.y - c.y) * Real.cos θ)

/-- the point `v` skewed about `c` by the angles `α` along x and `β` along y -/
noncomputable def skewed (c v : Pt ℚ) (α β : ℝ) : ℝ × ℝ := (v.x + (v.y - c.y) * Real.tan α, v.y + (v.x - c.x) * Real.tan β)

/-- the point `v` scaled about `c` -/
def scaled (c v : Pt ℚ) (sx sy : ℚ) : Pt ℚ := ⟨c.x + sx * (v.x - c.x), c.y + sy * (v.y - c.y)⟩

/-- the matrix that does nothing -/
def unchanged : Mat ℚ := ⟨1, 0, 0, 1, 0, 0⟩

/-- the matrix `preAbout` and `postAbout` build on the identity -/
def aboutMat (t : Mat ℚ) (x y : ℚ) : Mat ℚ :=
  ⟨t.a, t.b, t.c, t.d, dot3 doubles t.a (-x) t.c (-y) x 1, dot3 doubles t.b (-x) t.d (-y) y 1⟩

theorem preAbout_flt {a b c d x y : ℚ} (ha : IsDouble a) (hb : IsDouble b) (hc : IsDouble c) (hd : IsDouble d) (hx : IsDouble x) (hy : IsDouble y) :
    preAbout doubles unchanged ⟨a, b, c, d, 0, 0⟩ x y = aboutMat ⟨a, b, c, d, 0, 0⟩ x y := by
  have hf : doubles.fl = roundDouble := rfl
  have r0 : roundDouble 0 = 0 := roundDouble_double isDouble_zero
  have r1 : roundDouble 1 = 1 := roundDouble_double (isDouble_int (n := 1) (by norm_num))
  have ra := roundDouble_double ha
  have rb := roundDouble_double hb
  have rc := roundDouble_double hc
  have rd := roundDouble_double hd
  have rx := roundDouble_double hx
  have ry := roundDouble_double hy
  rw [preAbout]
  split
  · rename_i h
    obtain ⟨rfl, rfl⟩ := h
    simp [preCat, multiply, dot3, hf, unchanged, aboutMat, r0, r1, ra, rb, rc, rd]
  · simp [preTranslate, preCat, multiply, dot3, hf, unchanged, aboutMat, Mat.translate, r0, r1, ra, rb, rc, rd, rx, ry]

theorem postAbout_flt {a b c d x y : ℚ} (ha : IsDouble a) (hb : IsDouble b) (hc : IsDouble c) (hd : IsDouble d) (hx : IsDouble x) (hy : IsDouble y) :
    postAbout doubles unchanged ⟨a, b, c, d, 0, 0⟩ x y = aboutMat ⟨a, b, c, d, 0, 0⟩ x y := by
  have hf : doubles.fl = roundDouble := rfl
  have r0 : roundDouble 0 = 0 := roundDouble_double isDouble_zero
  have r1 : roundDouble 1 = 1 := roundDouble_double (isDouble_int (n := 1) (by norm_num))
  have ra := roundDouble_double ha
  have rb := roundDouble_double hb
  have rc := roundDouble_double hc
  have rd := roundDouble_double hd
  have rx := roundDouble_double hx
  have ry := roundDouble_double hy
  have rx' := roundDouble_double (double_neg hx)
  have ry' := roundDouble_double (double_neg hy)
  have ri : ∀ q, roundDouble (roundDouble q) = roundDouble q := fun q => roundDouble_double (roundDouble_isDouble q)
  rw [postAbout]
  split
  · rename_i h
    obtain ⟨rfl, rfl⟩ := h
    simp [postCat, multiply, dot3, hf, unchanged, aboutMat, r0, r1, ra, rb, rc, rd]
  · simp only [postTranslate, postCat, multiply, dot3, hf, unchanged, aboutMat, Mat.translate, r0, r1, ra, rb, rc, rd, rx, ry, rx', ry', ri, mul_zero, zero_mul,
      mul_one, one_mul, add_zero, zero_add]

theorem postRotate_flt (T : FloatTrig) {θ x y : ℚ} (hc : IsDouble (T.cos θ)) (hs : IsDouble (T.sin θ)) (hx : IsDouble x) (hy : IsDouble y) :
    postRotate doubles T unchanged θ x y = aboutMat (rotate T θ) x y := by
  have h := postAbout_flt hc hs (double_neg hs) hc hx hy
  rw [postAbout] at h
  rw [postRotate]
  by_cases h0 : x = 0 ∧ y = 0
  · rw [if_pos h0] at h ⊢
    exact h
  · rw [if_neg h0] at h ⊢
    have hf : doubles.fl = roundDouble := rfl
    have r0 : roundDouble 0 = 0 := roundDouble_double isDouble_zero
    have ri : ∀ q, roundDouble (roundDouble q) = roundDouble q := fun q => roundDouble_double (roundDouble_isDouble q)
    change postCat doubles unchanged (postTranslate doubles (postCat doubles (postTranslate doubles unchanged (-x) (-y)) (rotate T θ)) x y) = _
    rw [show rotate T θ = ⟨T.cos θ, T.sin θ, -T.sin θ, T.cos θ, 0, 0⟩ from rfl, h]
    simp only [postCat, multiply, dot3, hf, unchanged, aboutMat, r0, ri, roundDouble_double hc, roundDouble_double hs, roundDouble_double (double_neg hs), mul_zero, zero_mul,
      mul_one, one_mul, add_zero, zero_add]

/-- the matrix from `aboutMat` moves a point as the exact one does, up to the rounding -/
theorem about_err {a b c d x y : ℚ} (v : Pt ℚ) :
    |(pointInMatrixSpace doubles (aboutMat ⟨a, b, c, d, 0, 0⟩ x y) v).x - (x + a * (v.x - x) + c * (v.y - y))| ≤
        (|v.x * a| + |v.y * c| + 3 * (|a * x| + |c * y| + |x|)) / 2 ^ 51 + 1 / 2 ^ 1068 ∧
      |(pointInMatrixSpace doubles (aboutMat ⟨a, b, c, d, 0, 0⟩ x y) v).y - (y + b * (v.x - x) + d * (v.y - y))| ≤
        (|v.x * b| + |v.y * d| + 3 * (|b * x| + |d * y| + |y|)) / 2 ^ 51 + 1 / 2 ^ 1068 := by
  have h := C122_transform doubles (aboutMat ⟨a, b, c, d, 0, 0⟩ x y) v
  obtain ⟨η, e1, e2, h0, hη⟩ := eta
  have e3 : (1 : ℚ) / 2 ^ 1068 = 64 * η := by
    rw [show (64 : ℚ) * η = 4 * (16 * η) by ring, ← e2, show 1070 = 1068 + 2 from rfl, pow_add]
    field_simp
    norm_num
  have hfl := doubles.err
  rw [e1] at hfl
  rw [e2] at h
  rw [e3]
  have key : ∀ a c x y z : ℚ, |dot3 doubles a (-x) c (-y) z 1 - (z - a * x - c * y)| ≤ (|a * x| + |c * y| + |z|) / 2 ^ 51 + 16 * η := by
    intro a c x y z
    have k := term_err h0 hη hfl (-x) (-y) z a c
    rw [one_mul] at k
    have e : z - a * x - c * y = a * -x + c * -y + z := by ring
    rw [dot3, mul_one, e]
    rw [show |a * x| = |a * -x| by rw [mul_neg, abs_neg], show |c * y| = |c * -y| by rw [mul_neg, abs_neg]]
    exact k
  have step : ∀ p q E E0 S r : ℚ, |r - (p + q + E)| ≤ (|p| + |q| + |E|) / 2 ^ 51 + 16 * η → |E - E0| ≤ S / 2 ^ 51 + 16 * η → |E0| ≤ S →
      |r - (p + q + E0)| ≤ (|p| + |q| + 3 * S) / 2 ^ 51 + 64 * η := by
    intro p q E E0 S r k1 k2 k3
    have k4 : |E| ≤ S + (S / 2 ^ 51 + 16 * η) := by
      have := abs_add_le (E - E0) E0
      rw [sub_add_cancel] at this
      linarith
    have k5 := abs_add_le (r - (p + q + E)) (E - E0)
    rw [show r - (p + q + E) + (E - E0) = r - (p + q + E0) by ring] at k5
    have S0 : 0 ≤ S := (abs_nonneg _).trans k3
    linarith
  have b3 : ∀ a c x y z : ℚ, |z - a * x - c * y| ≤ |a * x| + |c * y| + |z| := by
    intro a c x y z
    have := abs_sub (z - a * x) (c * y)
    have := abs_sub z (a * x)
    linarith
  obtain ⟨h1, h2⟩ := h
  have kx := key a c x y x
  have ky := key b d x y y
  rw [show (aboutMat ⟨a, b, c, d, 0, 0⟩ x y).pointInMatrixSpace v =
    ⟨v.x * a + v.y * c + 1 * dot3 doubles a (-x) c (-y) x 1, v.x * b + v.y * d + 1 * dot3 doubles b (-x) d (-y) y 1⟩ from rfl] at h1 h2
  simp only [show (aboutMat ⟨a, b, c, d, 0, 0⟩ x y).a = a from rfl, show (aboutMat ⟨a, b, c, d, 0, 0⟩ x y).b = b from rfl,
    show (aboutMat ⟨a, b, c, d, 0, 0⟩ x y).c = c from rfl, show (aboutMat ⟨a, b, c, d, 0, 0⟩ x y).d = d from rfl,
    show (aboutMat ⟨a, b, c, d, 0, 0⟩ x y).e = dot3 doubles a (-x) c (-y) x 1 from rfl,
    show (aboutMat ⟨a, b, c, d, 0, 0⟩ x y).f = dot3 doubles b (-x) d (-y) y 1 from rfl, one_mul] at h1 h2
  generalize pointInMatrixSpace doubles (aboutMat ⟨a, b, c, d, 0, 0⟩ x y) v = R at *
  generalize dot3 doubles a (-x) c (-y) x 1 = E at *
  generalize dot3 doubles b (-x) d (-y) y 1 = G at *
  have s1 := step _ _ _ _ _ _ h1 kx (b3 a c x y x)
  have s2 := step _ _ _ _ _ _ h2 ky (b3 b d x y y)
  rw [show v.x * a + v.y * c + (x - a * x - c * y) = x + a * (v.x - x) + c * (v.y - y) by ring] at s1
  rw [show v.x * b + v.y * d + (y - b * x - d * y) = y + b * (v.x - x) + d * (v.y - y) by ring] at s2
  exact ⟨s1, s2⟩

/-- C152: scaling about a point with floats: `pre_scale` and `post_scale` of a new matrix give the same matrix, and each coordinate of a point is off by
at most a few roundings of the terms -/
theorem C152_scale {sx sy : ℚ} {c : Pt ℚ} (hx : IsDouble sx) (hy : IsDouble sy) (hc : DoublePt c) (v : Pt ℚ) :
    preScale doubles unchanged sx sy c.x c.y = postScale doubles unchanged sx sy c.x c.y ∧
      |(pointInMatrixSpace doubles (preScale doubles unchanged sx sy c.x c.y) v).x - (scaled c v sx sy).x| ≤
        (|sx * v.x| + 3 * (|sx * c.x| + |c.x|)) / 2 ^ 51 + 1 / 2 ^ 1068 ∧
      |(pointInMatrixSpace doubles (preScale doubles unchanged sx sy c.x c.y) v).y - (scaled c v sx sy).y| ≤
        (|sy * v.y| + 3 * (|sy * c.y| + |c.y|)) / 2 ^ 51 + 1 / 2 ^ 1068 := by
  have e1 : preScale doubles unchanged sx sy c.x c.y = aboutMat ⟨sx, 0, 0, sy, 0, 0⟩ c.x c.y :=
    preAbout_flt hx isDouble_zero isDouble_zero hy hc.1 hc.2
  have e2 : postScale doubles unchanged sx sy c.x c.y = aboutMat ⟨sx, 0, 0, sy, 0, 0⟩ c.x c.y :=
    postAbout_flt hx isDouble_zero isDouble_zero hy hc.1 hc.2
  obtain ⟨h1, h2⟩ := about_err (a := sx) (b := 0) (c := 0) (d := sy) (x := c.x) (y := c.y) v
  rw [e1, e2]
  refine ⟨rfl, ?_, ?_⟩
  · simp only [zero_mul, mul_zero, abs_zero, add_zero] at h1
    rw [mul_comm sx v.x]
    exact h1
  · simp only [zero_mul, mul_zero, abs_zero, add_zero, zero_add] at h2
    rw [mul_comm sy v.y]
    exact h2

theorem abs_turn {u w C S : ℝ} (h : |C| ≤ 1) (h' : |S| ≤ 1) : |u * C - w * S| ≤ |u| + |w| ∧ |u * S + w * C| ≤ |u| + |w| := by
  have a1 : |u * C| ≤ |u| := by rw [abs_mul]; exact mul_le_of_le_one_right (abs_nonneg _) h
  have a2 : |w * S| ≤ |w| := by rw [abs_mul]; exact mul_le_of_le_one_right (abs_nonneg _) h'
  have a3 : |u * S| ≤ |u| := by rw [abs_mul]; exact mul_le_of_le_one_right (abs_nonneg _) h'
  have a4 : |w * C| ≤ |w| := by rw [abs_mul]; exact mul_le_of_le_one_right (abs_nonneg _) h
  exact ⟨(abs_sub _ _).trans (add_le_add a1 a2), (abs_add_le _ _).trans (add_le_add a3 a4)⟩

theorem one_coord {p q C S x y u w z r η : ℝ} (hc : |p - C| ≤ 1 / 2 ^ 52) (hs : |q - S| ≤ 1 / 2 ^ 52) (hC : |C| ≤ 1) (hS : |S| ≤ 1)
    (hz : |z| ≤ |x| + |y|) (h : |r - (z + p * (u - x) + q * (w - y))| ≤ (|u * p| + |w * q| + 3 * (|p * x| + |q * y| + |z|)) / 2 ^ 51 + η) :
    |r - (z + C * (u - x) + S * (w - y))| ≤ (|u| + |w| + 4 * (|x| + |y|)) / 2 ^ 50 + η := by
  have P : |p| ≤ 101 / 100 := by
    have := abs_add_le (p - C) C
    rw [sub_add_cancel] at this
    norm_num at *
    linarith
  have Q : |q| ≤ 101 / 100 := by
    have := abs_add_le (q - S) S
    rw [sub_add_cancel] at this
    norm_num at *
    linarith
  have b : ∀ {k m : ℝ}, |m| ≤ 101 / 100 → |k * m| ≤ |k| * (101 / 100) := by
    intro k m hm
    rw [abs_mul]
    gcongr
  have b1 := b (k := u) P
  have b2 := b (k := w) Q
  have b3 := b (k := x) P
  have b4 := b (k := y) Q
  rw [mul_comm x p] at b3
  rw [mul_comm y q] at b4
  have d1 : |(p - C) * (u - x)| ≤ 1 / 2 ^ 52 * (|u| + |x|) := by rw [abs_mul]; gcongr; exact abs_sub _ _
  have d2 : |(q - S) * (w - y)| ≤ 1 / 2 ^ 52 * (|w| + |y|) := by rw [abs_mul]; gcongr; exact abs_sub _ _
  have k1 := abs_add_le (r - (z + p * (u - x) + q * (w - y))) ((p - C) * (u - x) + (q - S) * (w - y))
  have k2 := abs_add_le ((p - C) * (u - x)) ((q - S) * (w - y))
  rw [show r - (z + p * (u - x) + q * (w - y)) + ((p - C) * (u - x) + (q - S) * (w - y)) = r - (z + C * (u - x) + S * (w - y)) by ring] at k1
  have u0 := abs_nonneg u
  have w0 := abs_nonneg w
  have x0 := abs_nonneg x
  have y0 := abs_nonneg y
  norm_num1 at *
  linarith

theorem about_errR {a b c d x y : ℚ} (v : Pt ℚ) :
    |((pointInMatrixSpace doubles (aboutMat ⟨a, b, c, d, 0, 0⟩ x y) v).x : ℝ) - (x + a * (v.x - x) + c * (v.y - y))| ≤
        (|(v.x : ℝ) * a| + |(v.y : ℝ) * c| + 3 * (|(a : ℝ) * x| + |(c : ℝ) * y| + |(x : ℝ)|)) / 2 ^ 51 + 1 / 2 ^ 1068 ∧
      |((pointInMatrixSpace doubles (aboutMat ⟨a, b, c, d, 0, 0⟩ x y) v).y : ℝ) - (y + b * (v.x - x) + d * (v.y - y))| ≤
        (|(v.x : ℝ) * b| + |(v.y : ℝ) * d| + 3 * (|(b : ℝ) * x| + |(d : ℝ) * y| + |(y : ℝ)|)) / 2 ^ 51 + 1 / 2 ^ 1068 := by
  obtain ⟨h1, h2⟩ := about_err (a := a) (b := b) (c := c) (d := d) (x := x) (y := y) v
  generalize pointInMatrixSpace doubles (aboutMat ⟨a, b, c, d, 0, 0⟩ x y) v = R at *
  have g1 := (Rat.cast_le (K := ℝ)).2 h1
  have g2 := (Rat.cast_le (K := ℝ)).2 h2
  push_cast at g1 g2
  exact ⟨g1, g2⟩

/-- C152: turning about a point with floats: `pre_rotate` and `post_rotate` of a new matrix give the same matrix, and it moves every point to within a few
roundings of where the exact turn about that point takes it -/
theorem C152_turn (T : FloatTrig) {θ : ℚ} {c : Pt ℚ} (hC : IsDouble (T.cos θ)) (hS : IsDouble (T.sin θ)) (hc : DoublePt c) (v : Pt ℚ) :
    preRotate doubles T unchanged θ c.x c.y = postRotate doubles T unchanged θ c.x c.y ∧
      |((pointInMatrixSpace doubles (preRotate doubles T unchanged θ c.x c.y) v).x : ℝ) - (turned c v θ).1| ≤
        (|(v.x : ℝ)| + |(v.y : ℝ)| + 4 * (|(c.x : ℝ)| + |(c.y : ℝ)|)) / 2 ^ 50 + 1 / 2 ^ 1068 ∧
      |((pointInMatrixSpace doubles (preRotate doubles T unchanged θ c.x c.y) v).y : ℝ) - (turned c v θ).2| ≤
        (|(v.x : ℝ)| + |(v.y : ℝ)| + 4 * (|(c.x : ℝ)| + |(c.y : ℝ)|)) / 2 ^ 50 + 1 / 2 ^ 1068 := by
  have e1 : preRotate doubles T unchanged θ c.x c.y = aboutMat (rotate T θ) c.x c.y := preAbout_flt hC hS (double_neg hS) hC hc.1 hc.2
  have e2 := postRotate_flt T hC hS hc.1 hc.2
  rw [e1, e2]
  refine ⟨rfl, ?_⟩
  obtain ⟨h1, h2⟩ := about_errR (a := T.cos θ) (b := T.sin θ) (c := -T.sin θ) (d := T.cos θ) (x := c.x) (y := c.y) v
  rw [show rotate T θ = ⟨T.cos θ, T.sin θ, -T.sin θ, T.cos θ, 0, 0⟩ from rfl]
  generalize pointInMatrixSpace doubles (aboutMat ⟨T.cos θ, T.sin θ, -T.sin θ, T.cos θ, 0, 0⟩ c.x c.y) v = R at *
  have c1 := T.cos_err θ
  have s1 := T.sin_err θ
  have s2 : |((-T.sin θ : ℚ) : ℝ) - -Real.sin θ| ≤ 1 / 2 ^ 52 := by
    push_cast
    rw [← neg_sub_neg, abs_sub_comm] at s1
    exact s1
  have m1 := Real.abs_cos_le_one (θ : ℝ)
  have m2 := Real.abs_sin_le_one (θ : ℝ)
  have x0 := abs_nonneg (c.x : ℝ)
  have y0 := abs_nonneg (c.y : ℝ)
  have k1 := one_coord c1 s2 m1 (by rw [abs_neg]; exact m2) (by linarith) h1
  have k2 := one_coord s1 c1 m2 m1 (by linarith) h2
  rw [turned]
  constructor
  · rw [show (c.x : ℝ) + (v.x - c.x) * Real.cos θ - (v.y - c.y) * Real.sin θ = c.x + Real.cos θ * (v.x - c.x) + -Real.sin θ * (v.y - c.y) by ring]
    exact k1
  · rw [show (c.y : ℝ) + (v.x - c.x) * Real.sin θ + (v.y - c.y) * Real.cos θ = c.y + Real.sin θ * (v.x - c.x) + Real.cos θ * (v.y - c.y) by ring]
    exact k2

theorem tau_near : |((tau : ℚ) : ℝ) - 2 * Real.pi| ≤ 1 / 2 ^ 51 * (5625 / 10000) := by
  rw [tauR, abs_le]
  have := Real.pi_gt_d20
  have := Real.pi_lt_d20
  norm_num at *
  constructor <;> linarith

/-- C152: the angles of degrees, gradians and turns, with floats -/
theorem C152_units (d : ℚ) :
    |(degrees doubles d : ℝ) - 2 * Real.pi * d / 360| ≤ |(d : ℝ)| / 2 ^ 57 + 1 / 2 ^ 535 ∧
      |(gradians doubles d : ℝ) - 2 * Real.pi * d / 400| ≤ |(d : ℝ)| / 2 ^ 57 + 1 / 2 ^ 535 ∧
      |(turns doubles d : ℝ) - 2 * Real.pi * d| ≤ |(d : ℝ)| / 2 ^ 49 + 1 / 2 ^ 535 := by
  have t := tau_near
  have p1 := Real.pi_gt_d20
  have p2 := Real.pi_lt_d20
  have hd := abs_nonneg (d : ℝ)
  have k0 : |((tau * d : ℚ) : ℝ) - 2 * Real.pi * d| ≤ |(d : ℝ)| * (1 / 2 ^ 51 * (5625 / 10000)) := by
    push_cast
    rw [← sub_mul, abs_mul, mul_comm]
    gcongr
  have b0 : |2 * Real.pi * d| ≤ |(d : ℝ)| * (62832 / 10000) := by
    rw [abs_mul, abs_of_pos (show 0 < 2 * Real.pi by positivity), mul_comm]
    gcongr
    linarith
  have k1 := near_round k0 b0
  have e : (1 : ℝ) / 2 ^ 535 = 2 * (1 / 2 ^ 536) := by
    rw [show 536 = 535 + 1 from rfl, pow_add]
    field_simp
  have n0 : (0 : ℝ) ≤ 1 / 2 ^ 536 := by positivity
  rw [e]
  have frac : ∀ n : ℕ, 0 < n → |((roundDouble (tau * d) / n : ℚ) : ℝ) - 2 * Real.pi * d / n| ≤
      (|(d : ℝ)| * (1 / 2 ^ 51 * (5625 / 10000)) + (|(d : ℝ)| * (62832 / 10000) + |(d : ℝ)| * (1 / 2 ^ 51 * (5625 / 10000))) / 2 ^ 53 + 1 / 2 ^ 536) / n := by
    intro n hn
    have : (0 : ℝ) < n := by exact_mod_cast hn
    push_cast
    rw [← sub_div, abs_div, abs_of_pos this]
    gcongr
  have fb : ∀ n : ℕ, 0 < n → |2 * Real.pi * (d : ℝ) / n| ≤ |(d : ℝ)| * (62832 / 10000) / n := by
    intro n hn
    have : (0 : ℝ) < n := by exact_mod_cast hn
    rw [abs_div, abs_of_pos this]
    gcongr
  refine ⟨?_, ?_, ?_⟩
  · have f := near_round (frac 360 (by norm_num)) (fb 360 (by norm_num))
    refine le_trans (show _ ≤ _ from f) ?_
    generalize (1 : ℝ) / 2 ^ 536 = η at *
    norm_num1 at *
    linarith
  · have f := near_round (frac 400 (by norm_num)) (fb 400 (by norm_num))
    refine le_trans (show _ ≤ _ from f) ?_
    generalize (1 : ℝ) / 2 ^ 536 = η at *
    norm_num1 at *
    linarith
  · refine le_trans (show _ ≤ _ from k1) ?_
    generalize (1 : ℝ) / 2 ^ 536 = η at *
    norm_num1 at *
    linarith

/-- turning by nearly the same angle -/
theorem turned_near (c v : Pt ℚ) {θ φ e : ℝ} (h : |θ - φ| ≤ e) :
    |(turned c v θ).1 - (turned c v φ).1| ≤ (|(v.x : ℝ)| + |(v.y : ℝ)| + (|(c.x : ℝ)| + |(c.y : ℝ)|)) * e ∧
      |(turned c v θ).2 - (turned c v φ).2| ≤ (|(v.x : ℝ)| + |(v.y : ℝ)| + (|(c.x : ℝ)| + |(c.y : ℝ)|)) * e := by
  have k1 : |Real.cos θ - Real.cos φ| ≤ e := (Real.abs_cos_sub_cos_le _ _).trans h
  have k2 : |Real.sin θ - Real.sin φ| ≤ e := (Real.abs_sin_sub_sin_le _ _).trans h
  have e0 : 0 ≤ e := (abs_nonneg _).trans h
  have m : ∀ {a b q : ℝ}, |q| ≤ e → |(a - b) * q| ≤ (|a| + |b|) * e := by
    intro a b q hq
    rw [abs_mul]
    have := abs_sub a b
    gcongr
  simp only [turned]
  constructor
  · have := abs_sub (((v.x : ℝ) - c.x) * (Real.cos θ - Real.cos φ)) (((v.y : ℝ) - c.y) * (Real.sin θ - Real.sin φ))
    have a1 := m (a := v.x) (b := c.x) k1
    have a2 := m (a := v.y) (b := c.y) k2
    rw [show (c.x : ℝ) + (v.x - c.x) * Real.cos θ - (v.y - c.y) * Real.sin θ - (c.x + (v.x - c.x) * Real.cos φ - (v.y - c.y) * Real.sin φ) =
      ((v.x : ℝ) - c.x) * (Real.cos θ - Real.cos φ) - ((v.y : ℝ) - c.y) * (Real.sin θ - Real.sin φ) by ring]
    linarith
  · have := abs_add_le (((v.x : ℝ) - c.x) * (Real.sin θ - Real.sin φ)) (((v.y : ℝ) - c.y) * (Real.cos θ - Real.cos φ))
    have a1 := m (a := v.x) (b := c.x) k2
    have a2 := m (a := v.y) (b := c.y) k1
    rw [show (c.y : ℝ) + (v.x - c.x) * Real.sin θ + (v.y - c.y) * Real.cos θ - (c.y + (v.x - c.x) * Real.sin φ + (v.y - c.y) * Real.cos φ) =
      ((v.x : ℝ) - c.x) * (Real.sin θ - Real.sin φ) + ((v.y : ℝ) - c.y) * (Real.cos θ - Real.cos φ) by ring]
    linarith

/-- C152: the transform `rotate(d, x, y)` with floats: every point goes to within a small distance of where a turn by `d` degrees about `x, y` takes it -/
theorem C152_degrees (T : FloatTrig) {d : ℚ} {c : Pt ℚ} (hC : IsDouble (T.cos (degrees doubles d))) (hS : IsDouble (T.sin (degrees doubles d)))
    (hc : DoublePt c) (v : Pt ℚ) :
    |((pointInMatrixSpace doubles (preRotate doubles T unchanged (degrees doubles d) c.x c.y) v).x : ℝ) - (turned c v (2 * Real.pi * d / 360)).1| ≤
        (|(v.x : ℝ)| + |(v.y : ℝ)| + 4 * (|(c.x : ℝ)| + |(c.y : ℝ)|)) * (1 / 2 ^ 49 + |(d : ℝ)| / 2 ^ 57) + 1 / 2 ^ 1068 ∧
      |((pointInMatrixSpace doubles (preRotate doubles T unchanged (degrees doubles d) c.x c.y) v).y : ℝ) - (turned c v (2 * Real.pi * d / 360)).2| ≤
        (|(v.x : ℝ)| + |(v.y : ℝ)| + 4 * (|(c.x : ℝ)| + |(c.y : ℝ)|)) * (1 / 2 ^ 49 + |(d : ℝ)| / 2 ^ 57) + 1 / 2 ^ 1068 := by
  obtain ⟨-, h1, h2⟩ := C152_turn T hC hS hc v
  obtain ⟨k1, k2⟩ := turned_near c v (C152_units d).1
  generalize pointInMatrixSpace doubles (preRotate doubles T unchanged (degrees doubles d) c.x c.y) v = R at *
  generalize turned c v (degrees doubles d) = P at *
  generalize turned c v (2 * Real.pi * d / 360) = Q at *
  have small : (1 : ℝ) / 2 ^ 535 ≤ 1 / 2 ^ 50 := by
    apply one_div_le_one_div_of_le (by positivity)
    exact pow_le_pow_right₀ (by norm_num) (by norm_num)
  have x0 := abs_nonneg (c.x : ℝ)
  have y0 := abs_nonneg (c.y : ℝ)
  have u0 := abs_nonneg (v.x : ℝ)
  have w0 := abs_nonneg (v.y : ℝ)
  have d0 : 0 ≤ |(d : ℝ)| / 2 ^ 57 := by positivity
  generalize |(c.x : ℝ)| = X at *
  generalize |(c.y : ℝ)| = Y at *
  generalize |(v.x : ℝ)| = U at *
  generalize |(v.y : ℝ)| = W at *
  generalize |(d : ℝ)| / 2 ^ 57 = D at *
  have big : (U + W + (X + Y)) * (D + 1 / 2 ^ 535) ≤ (U + W + 4 * (X + Y)) * (D + 1 / 2 ^ 50) := by
    gcongr
    linarith
  have e : (U + W + 4 * (X + Y)) * (1 / 2 ^ 49 + D) = (U + W + 4 * (X + Y)) / 2 ^ 50 + (U + W + 4 * (X + Y)) * (D + 1 / 2 ^ 50) := by ring
  rw [e]
  generalize (1 : ℝ) / 2 ^ 1068 = η at *
  constructor
  · have := abs_add_le ((R.x : ℝ) - P.1) (P.1 - Q.1)
    rw [sub_add_sub_cancel] at this
    linarith
  · have := abs_add_le ((R.y : ℝ) - P.2) (P.2 - Q.2)
    rw [sub_add_sub_cancel] at this
    linarith

/-- C152: turning there and back with floats returns to the point, up to the rounding -/
theorem C152_back (T : FloatTrig) {θ : ℚ} {c : Pt ℚ} (hC : IsDouble (T.cos θ)) (hS : IsDouble (T.sin θ)) (hC' : IsDouble (T.cos (-θ)))
    (hS' : IsDouble (T.sin (-θ))) (hc : DoublePt c) (v w z : Pt ℚ)
    (hw : w = pointInMatrixSpace doubles (preRotate doubles T unchanged θ c.x c.y) v)
    (hz : z = pointInMatrixSpace doubles (preRotate doubles T unchanged (-θ) c.x c.y) w) :
    |(z.x : ℝ) - v.x| ≤ (|(v.x : ℝ)| + |(v.y : ℝ)| + 4 * (|(c.x : ℝ)| + |(c.y : ℝ)|)) / 2 ^ 47 + 1 / 2 ^ 1066 ∧
      |(z.y : ℝ) - v.y| ≤ (|(v.x : ℝ)| + |(v.y : ℝ)| + 4 * (|(c.x : ℝ)| + |(c.y : ℝ)|)) / 2 ^ 47 + 1 / 2 ^ 1066 := by
  obtain ⟨-, h1, h2⟩ := C152_turn T hC hS hc v
  obtain ⟨-, g1, g2⟩ := C152_turn T hC' hS' hc w
  rw [← hw] at h1 h2
  rw [← hz] at g1 g2
  clear hw hz
  have e : (1 : ℝ) / 2 ^ 1066 = 4 * (1 / 2 ^ 1068) := by
    rw [show 1068 = 1066 + 2 from rfl, pow_add]
    field_simp
    norm_num
  rw [e]
  have n0 : (0 : ℝ) ≤ 1 / 2 ^ 1068 := by positivity
  have m1 := Real.abs_cos_le_one (θ : ℝ)
  have m2 := Real.abs_sin_le_one (θ : ℝ)
  have py := Real.cos_sq_add_sin_sq (θ : ℝ)
  rw [turned, show (((-θ : ℚ) : ℝ)) = -(θ : ℝ) by push_cast; rfl, Real.cos_neg, Real.sin_neg] at g1 g2
  rw [turned] at h1 h2
  simp only at h1 h2 g1 g2
  generalize Real.cos (θ : ℝ) = C at *
  generalize Real.sin (θ : ℝ) = S at *
  generalize (1 : ℝ) / 2 ^ 1068 = η at *
  obtain ⟨t1, t2⟩ := abs_turn (u := (v.x : ℝ) - c.x) (w := v.y - c.y) m1 m2
  have i1 := abs_sub (v.x : ℝ) c.x
  have i2 := abs_sub (v.y : ℝ) c.y
  set V := |(v.x : ℝ)| + |(v.y : ℝ)| with hV
  set X := |(c.x : ℝ)| with hX
  set Y := |(c.y : ℝ)| with hY
  have V0 : 0 ≤ V := by positivity
  have X0 : 0 ≤ X := by positivity
  have Y0 : 0 ≤ Y := by positivity
  have w1 : |(w.x : ℝ)| ≤ X + (V + (X + Y)) + ((V + 4 * (X + Y)) / 2 ^ 50 + η) := by
    have a := abs_add_le ((w.x : ℝ) - (c.x + (v.x - c.x) * C - (v.y - c.y) * S)) (c.x + ((v.x - c.x) * C - (v.y - c.y) * S))
    rw [show (w.x : ℝ) - (c.x + (v.x - c.x) * C - (v.y - c.y) * S) + (c.x + ((v.x - c.x) * C - (v.y - c.y) * S)) = w.x by ring] at a
    have b := abs_add_le (c.x : ℝ) ((v.x - c.x) * C - (v.y - c.y) * S)
    linarith
  have w2 : |(w.y : ℝ)| ≤ Y + (V + (X + Y)) + ((V + 4 * (X + Y)) / 2 ^ 50 + η) := by
    have a := abs_add_le ((w.y : ℝ) - (c.y + (v.x - c.x) * S + (v.y - c.y) * C)) (c.y + ((v.x - c.x) * S + (v.y - c.y) * C))
    rw [show (w.y : ℝ) - (c.y + (v.x - c.x) * S + (v.y - c.y) * C) + (c.y + ((v.x - c.x) * S + (v.y - c.y) * C)) = w.y by ring] at a
    have b := abs_add_le (c.y : ℝ) ((v.x - c.x) * S + (v.y - c.y) * C)
    linarith
  set ex := (w.x : ℝ) - (c.x + (v.x - c.x) * C - (v.y - c.y) * S) with hex
  set ey := (w.y : ℝ) - (c.y + (v.x - c.x) * S + (v.y - c.y) * C) with hey
  obtain ⟨r1, r2⟩ := abs_turn (u := ey) (w := -ex) m1 m2
  obtain ⟨r3, r4⟩ := abs_turn (u := ex) (w := -ey) m1 m2
  rw [abs_neg] at r1 r2 r3 r4
  constructor
  · have a := abs_add_le ((z.x : ℝ) - (c.x + (w.x - c.x) * C - (w.y - c.y) * -S)) (ex * C - -ey * S)
    have e2 : (z.x : ℝ) - (c.x + (w.x - c.x) * C - (w.y - c.y) * -S) + (ex * C - -ey * S) = z.x - v.x := by
      rw [hex, hey]
      linear_combination ((c.x : ℝ) - v.x) * py
    rw [e2] at a
    linarith
  · have a := abs_add_le ((z.y : ℝ) - (c.y + (w.x - c.x) * -S + (w.y - c.y) * C)) (ey * C - -(-ex) * S)
    have e2 : (z.y : ℝ) - (c.y + (w.x - c.x) * -S + (w.y - c.y) * C) + (ey * C - -(-ex) * S) = z.y - v.y := by
      rw [hex, hey]
      linear_combination ((c.y : ℝ) - v.y) * py
    rw [e2] at a
    have r5 := abs_sub (ey * C) (ex * S)
    have r6 : |ey * C| ≤ |ey| := by rw [abs_mul]; exact mul_le_of_le_one_right (abs_nonneg _) m1
    have r7 : |ex * S| ≤ |ex| := by rw [abs_mul]; exact mul_le_of_le_one_right (abs_nonneg _) m2
    rw [neg_neg] at a
    linarith

theorem skew_coord {q t u w y r η : ℝ} (ht : |q - t| ≤ |t| / 2 ^ 52) {x : ℝ}
    (h : |r - (x + 1 * (u - x) + q * (w - y))| ≤ (|u * 1| + |w * q| + 3 * (|1 * x| + |q * y| + |x|)) / 2 ^ 51 + η) :
    |r - (u + (w - y) * t)| ≤ (|u| + |t * w| + 4 * (|x| + |t * y|)) / 2 ^ 50 + η := by
  have Q : |q| ≤ |t| * (101 / 100) := by
    have := abs_add_le (q - t) t
    rw [sub_add_cancel] at this
    have t0 := abs_nonneg t
    norm_num1 at *
    linarith
  have b2 : |w * q| ≤ |t| * |w| * (101 / 100) := by
    rw [abs_mul]
    calc |w| * |q| ≤ |w| * (|t| * (101 / 100)) := by gcongr
      _ = _ := by ring
  have b4 : |q * y| ≤ |t| * |y| * (101 / 100) := by
    rw [abs_mul]
    calc |q| * |y| ≤ |t| * (101 / 100) * |y| := by gcongr
      _ = _ := by ring
  have d2 : |(q - t) * (w - y)| ≤ |t| / 2 ^ 52 * (|w| + |y|) := by rw [abs_mul]; gcongr; exact abs_sub _ _
  have k1 := abs_add_le (r - (x + 1 * (u - x) + q * (w - y))) ((q - t) * (w - y))
  rw [show r - (x + 1 * (u - x) + q * (w - y)) + (q - t) * (w - y) = r - (u + (w - y) * t) by ring] at k1
  rw [abs_mul t w, abs_mul t y]
  rw [mul_one, show |1 * x| = |x| by rw [one_mul]] at h
  have e : |t| / 2 ^ 52 * (|w| + |y|) = (|t| * |w| + |t| * |y|) / 2 ^ 52 := by ring
  rw [e] at d2
  have u0 := abs_nonneg u
  have x0 := abs_nonneg x
  have tw : 0 ≤ |t| * |w| := by positivity
  have ty : 0 ≤ |t| * |y| := by positivity
  norm_num1 at *
  linarith

/-- C152: skewing about a point with floats -/
theorem C152_skew (T : FloatTrig) {α β : ℚ} {c : Pt ℚ} (hA : IsDouble (T.tan α)) (hB : IsDouble (T.tan β)) (hc : DoublePt c) (v : Pt ℚ) :
    preSkew doubles T unchanged α β c.x c.y = postSkew doubles T unchanged α β c.x c.y ∧
      |((pointInMatrixSpace doubles (preSkew doubles T unchanged α β c.x c.y) v).x : ℝ) - (skewed c v α β).1| ≤
        (|(v.x : ℝ)| + |Real.tan α * v.y| + 4 * (|(c.x : ℝ)| + |Real.tan α * c.y|)) / 2 ^ 50 + 1 / 2 ^ 1068 ∧
      |((pointInMatrixSpace doubles (preSkew doubles T unchanged α β c.x c.y) v).y : ℝ) - (skewed c v α β).2| ≤
        (|(v.y : ℝ)| + |Real.tan β * v.x| + 4 * (|(c.y : ℝ)| + |Real.tan β * c.x|)) / 2 ^ 50 + 1 / 2 ^ 1068 := by
  have d1 : IsDouble 1 := isDouble_int (n := 1) (by norm_num)
  have e1 : preSkew doubles T unchanged α β c.x c.y = aboutMat (skew T α β) c.x c.y := preAbout_flt d1 hB hA d1 hc.1 hc.2
  have e2 : postSkew doubles T unchanged α β c.x c.y = aboutMat (skew T α β) c.x c.y := postAbout_flt d1 hB hA d1 hc.1 hc.2
  rw [e1, e2]
  refine ⟨rfl, ?_⟩
  obtain ⟨h1, h2⟩ := about_errR (a := 1) (b := T.tan β) (c := T.tan α) (d := 1) (x := c.x) (y := c.y) v
  rw [show skew T α β = ⟨1, T.tan β, T.tan α, 1, 0, 0⟩ from rfl]
  generalize pointInMatrixSpace doubles (aboutMat ⟨1, T.tan β, T.tan α, 1, 0, 0⟩ c.x c.y) v = R at *
  rw [Rat.cast_one] at h1 h2
  refine ⟨skew_coord (T.tan_err α) h1, skew_coord (T.tan_err β) ?_⟩
  refine le_trans (le_of_eq ?_) (h2.trans (le_of_eq ?_))
  · congr 1
    ring
  · ring

/-- trigonometric functions that give doubles, as the theorems assume, exist: skews by the angles 0 and 1 included -/
theorem double_trig : ∃ T : FloatTrig, (∀ x, IsDouble (T.cos x) ∧ IsDouble (T.sin x)) ∧ IsDouble (T.tan 0) ∧ IsDouble (T.tan 1) := by
  obtain ⟨T⟩ := trig_exists
  have near : ∀ {r : ℝ}, |r| ≤ 1 → ∃ q : ℚ, IsDouble q ∧ |(q : ℝ) - r| ≤ 1 / 2 ^ 52 := by
    intro r hr
    obtain ⟨q, hq⟩ := rat_near r (show (0 : ℝ) < 1 / 2 ^ 54 by positivity)
    refine ⟨roundDouble q, roundDouble_isDouble q, (near_round hq hr).trans ?_⟩
    have : (1 : ℝ) / 2 ^ 536 ≤ 1 / 2 ^ 56 := by
      apply one_div_le_one_div_of_le (by positivity)
      exact pow_le_pow_right₀ (by norm_num) (by norm_num)
    generalize (1 : ℝ) / 2 ^ 536 = η at *
    norm_num1 at *
    linarith
  choose f hf hf' using fun x : ℚ => near (Real.abs_cos_le_one x)
  choose g hg hg' using fun x : ℚ => near (Real.abs_sin_le_one x)
  have t1 : 1 ≤ Real.tan 1 := (Real.lt_tan (by norm_num) (by linarith [Real.pi_gt_three])).le
  obtain ⟨q, hq⟩ := rat_near (Real.tan 1) (show (0 : ℝ) < 1 / 2 ^ 54 by positivity)
  have hq' := near_round hq le_rfl
  have small : (1 : ℝ) / 2 ^ 536 ≤ 1 / 2 ^ 56 := by
    apply one_div_le_one_div_of_le (by positivity)
    exact pow_le_pow_right₀ (by norm_num) (by norm_num)
  have hr : |((roundDouble q : ℚ) : ℝ) - Real.tan 1| ≤ |Real.tan 1| / 2 ^ 52 := by
    refine hq'.trans ?_
    rw [abs_of_pos (lt_of_lt_of_le one_pos t1)]
    generalize (1 : ℝ) / 2 ^ 536 = η at *
    norm_num1 at *
    linarith
  refine ⟨{ T with cos := f, sin := g, tan := fun x => if x = 1 then roundDouble q else T.tan x, cos_err := hf', sin_err := hg', tan_err := ?_ },
    fun x => ⟨hf x, hg x⟩, ?_, ?_⟩
  · intro x
    by_cases hx : x = 1
    · rw [if_pos hx, hx, Rat.cast_one]
      exact hr
    · rw [if_neg hx]
      exact T.tan_err x
  · have h := T.tan_err 0
    simp only [Rat.cast_zero, Real.tan_zero, abs_zero, zero_div, sub_zero] at h
    have : T.tan 0 = 0 := by
      have := abs_eq_zero.1 (le_antisymm h (abs_nonneg _))
      exact_mod_cast this
    show IsDouble (if (0 : ℚ) = 1 then roundDouble q else T.tan 0)
    rw [if_neg (by norm_num), this]
    exact isDouble_zero
  · show IsDouble (if (1 : ℚ) = 1 then roundDouble q else T.tan 1)
    rw [if_pos rfl]
    exact roundDouble_isDouble q

/-- a turn by 30 degrees about (1, 2), and its way back, meet the hypotheses -/
example : ∃ (T : FloatTrig) (c : Pt ℚ), IsDouble (T.cos (degrees doubles 30)) ∧ IsDouble (T.sin (degrees doubles 30)) ∧
    IsDouble (T.cos (-degrees doubles 30)) ∧ IsDouble (T.sin (-degrees doubles 30)) ∧ IsDouble (T.tan 0) ∧ IsDouble (T.tan 1) ∧ DoublePt c ∧ c.x = 1 ∧ c.y = 2 := by
  obtain ⟨T, h, h0, h1⟩ := double_trig
  exact ⟨T, ⟨1, 2⟩, (h _).1, (h _).2, (h _).1, (h _).2, h0, h1, ⟨isDouble_int (n := 1) (by norm_num), isDouble_int (n := 2) (by norm_num)⟩, rfl, rfl⟩

end Svgio.Props
