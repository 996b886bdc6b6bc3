import Verif.Props.FloatEnds

/-!
C122: how far points computed with floats are from the exact ones.
-/

namespace Svgio.Props

open Svgio.Flt Spec

section
variable {fl : ℚ → ℚ} {η : ℚ} (hfl : ∀ x, |fl x - x| ≤ |x| / 2 ^ 53 + η)
include hfl

theorem near_fl {x y B e : ℚ} (h : |x - y| ≤ e) (hy : |y| ≤ B) : |fl x - y| ≤ e + (B + e) / 2 ^ 53 + η := by
  have hx : |x| ≤ B + e := by
    have : x = y + (x - y) := by ring
    rw [this]
    exact (abs_add_le _ _).trans (by linarith)
  have h1 : |fl x - x| ≤ (B + e) / 2 ^ 53 + η := (hfl x).trans (by gcongr)
  have e1 : fl x - y = (fl x - x) + (x - y) := by ring
  rw [e1]
  exact (abs_add_le _ _).trans (by linarith)

/-- a factor that is off by `e`, times a coordinate that is exact -/
theorem near_scale {w w0 x B e A : ℚ} (h : |w - w0| ≤ e) (hw : |w0| ≤ A) (hx : |x| ≤ B) :
    |fl (w * x) - w0 * x| ≤ e * B + (A * B + e * B) / 2 ^ 53 + η := by
  have he : 0 ≤ e := (abs_nonneg _).trans h
  have hA : 0 ≤ A := (abs_nonneg _).trans hw
  have h1 : |w * x - w0 * x| ≤ e * B := by
    rw [← sub_mul, abs_mul]
    exact mul_le_mul h hx (abs_nonneg _) he
  have h2 : |w0 * x| ≤ A * B := by
    rw [abs_mul]
    exact mul_le_mul hw hx (abs_nonneg _) hA
  exact near_fl hfl h1 h2

end

theorem near_mul {x x0 y y0 A B e f : ℚ} (h : |x - x0| ≤ e) (h' : |y - y0| ≤ f) (hx : |x0| ≤ A) (hy : |y0| ≤ B) :
    |x * y - x0 * y0| ≤ e * B + A * f + e * f := by
  have e1 : x * y - x0 * y0 = (x - x0) * y0 + x0 * (y - y0) + (x - x0) * (y - y0) := by ring
  have he : 0 ≤ e := (abs_nonneg _).trans h
  have hA : 0 ≤ A := (abs_nonneg _).trans hx
  rw [e1]
  refine (abs_add_le _ _).trans (add_le_add ((abs_add_le _ _).trans (add_le_add ?_ ?_)) ?_) <;> rw [abs_mul]
  · exact mul_le_mul h hy (abs_nonneg _) he
  · exact mul_le_mul hx h' (abs_nonneg _) hA
  · exact mul_le_mul h h' (abs_nonneg _) he

theorem near_add {x x0 y y0 e f : ℚ} (h : |x - x0| ≤ e) (h' : |y - y0| ≤ f) : |x + y - (x0 + y0)| ≤ e + f := by
  have e1 : x + y - (x0 + y0) = (x - x0) + (y - y0) := by ring
  rw [e1]
  exact (abs_add_le _ _).trans (add_le_add h h')

theorem near_self (x : ℚ) : |x - x| ≤ 0 := by simp

theorem eta : ∃ η : ℚ, 1 / 2 ^ 1074 = η ∧ 1 / 2 ^ 1070 = 16 * η ∧ 0 ≤ η ∧ η ≤ 1 / 2 ^ 100 := by
  refine ⟨_, rfl, ?_, by positivity, tiny⟩
  rw [show 1074 = 1070 + 4 from rfl, pow_add]
  field_simp
  norm_num

theorem term_err {fl : ℚ → ℚ} {η : ℚ} (h0 : 0 ≤ η) (hη : η ≤ 1 / 2 ^ 100) (hfl : ∀ x, |fl x - x| ≤ |x| / 2 ^ 53 + η) (a b c x y : ℚ) :
    |fl (fl (fl (x * a) + fl (y * b)) + fl (1 * c)) - (x * a + y * b + 1 * c)| ≤ (|x * a| + |y * b| + |c|) / 2 ^ 51 + 16 * η := by
  have h1 := hfl (x * a)
  have h2 := hfl (y * b)
  have h3 := hfl (1 * c)
  rw [one_mul] at h3 ⊢
  generalize x * a = p at *
  generalize y * b = q at *
  have k := near_fl hfl (near_add h1 h2) (abs_add_le p q)
  have hb : |p + q + c| ≤ |p| + |q| + |c| := (abs_add_le _ _).trans (add_le_add (abs_add_le _ _) le_rfl)
  have k2 := near_fl hfl (near_add k h3) hb
  refine k2.trans ?_
  have p0 := abs_nonneg p
  have q0 := abs_nonneg q
  have c0 := abs_nonneg c
  linarith

/-- C122: with floats, each coordinate of a transformed point differs from the exact one by at most four roundings of the sizes of the
terms it is the sum of -/
theorem C122_transform (F : FloatRounding) (m : Mat ℚ) (v : Pt ℚ) :
    |(Flt.pointInMatrixSpace F m v).x - (m.pointInMatrixSpace v).x| ≤ (|v.x * m.a| + |v.y * m.c| + |m.e|) / 2 ^ 51 + 1 / 2 ^ 1070 ∧
    |(Flt.pointInMatrixSpace F m v).y - (m.pointInMatrixSpace v).y| ≤ (|v.x * m.b| + |v.y * m.d| + |m.f|) / 2 ^ 51 + 1 / 2 ^ 1070 := by
  obtain ⟨η, e1, e2, h0, hη⟩ := eta
  have hfl := F.err
  rw [e1] at hfl
  rw [e2]
  exact ⟨term_err h0 hη hfl _ _ _ _ _, term_err h0 hη hfl _ _ _ _ _⟩

theorem unit_le {t : ℚ} (h0 : 0 ≤ t) (h1 : t ≤ 1) : |t| ≤ 1 := by rw [abs_of_nonneg h0]; exact h1

theorem line_err {fl : ℚ → ℚ} {η B a b t : ℚ} (h0 : 0 ≤ η) (hη : η ≤ 1 / 2 ^ 100) (hfl : ∀ x, |fl x - x| ≤ |x| / 2 ^ 53 + η)
    (ha : |a| ≤ B) (hb : |b| ≤ B) (ht0 : 0 ≤ t) (ht1 : t ≤ 1) :
    |fl (fl (t * fl (b - a)) + a) - (t * (b - a) + a)| ≤ B / 2 ^ 47 + 16 * η := by
  have hB : 0 ≤ B := (abs_nonneg _).trans ha
  have hd : |b - a| ≤ 2 * B := (abs_sub _ _).trans (by linarith)
  have k1 := near_fl hfl (near_self (b - a)) hd
  have k2 := near_mul (near_self t) k1 (unit_le ht0 ht1) hd
  have k3 := near_fl hfl k2 (show |t * (b - a)| ≤ 2 * B by
    rw [abs_mul, abs_of_nonneg ht0]
    nlinarith [abs_nonneg (b - a)])
  have k4 := near_fl hfl (near_add k3 (near_self a)) (show |t * (b - a) + a| ≤ 3 * B by
    refine (abs_add_le _ _).trans ?_
    rw [abs_mul, abs_of_nonneg ht0]
    nlinarith [abs_nonneg (b - a)])
  refine k4.trans ?_
  linarith

theorem quad_err {fl : ℚ → ℚ} {pow : ℚ → ℕ → ℚ} {η B x0 x1 x2 t : ℚ} (h0 : 0 ≤ η) (hη : η ≤ 1 / 2 ^ 100)
    (hfl : ∀ x, |fl x - x| ≤ |x| / 2 ^ 53 + η) (hpow : ∀ x n, |pow x n - x ^ n| ≤ |x ^ n| / 2 ^ 52 + η)
    (hx0 : |x0| ≤ B) (hx1 : |x1| ≤ B) (hx2 : |x2| ≤ B) (ht0 : 0 ≤ t) (ht1 : t ≤ 1) :
    |fl (fl (fl (pow (fl (1 - t)) 2 * x0) + fl (fl (2 * fl (fl (1 - t) * t)) * x1)) + fl (pow t 2 * x2)) -
      ((1 - t) ^ 2 * x0 + 2 * ((1 - t) * t) * x1 + t ^ 2 * x2)| ≤ B / 2 ^ 47 + 16 * η := by
  have hB : 0 ≤ B := (abs_nonneg _).trans hx0
  have hn0 : 0 ≤ 1 - t := by linarith
  have hn : |1 - t| ≤ 1 := unit_le hn0 (by linarith)
  have ht : |t| ≤ 1 := unit_le ht0 ht1
  have kn : |fl (1 - t) - (1 - t)| ≤ 101 / 100 / 2 ^ 53 := (near_fl hfl (near_self (1 - t)) hn).trans (by linarith)
  generalize fl (1 - t) = n at *
  have ksq : |n ^ 2 - (1 - t) ^ 2| ≤ 203 / 100 / 2 ^ 53 := by
    rw [sq, sq]
    exact (near_mul kn kn hn hn).trans (by norm_num)
  have hsq : |(1 - t) ^ 2| ≤ 1 := by rw [abs_pow]; exact pow_le_one₀ (abs_nonneg _) hn
  have hts : |t ^ 2| ≤ 1 := by rw [abs_pow]; exact pow_le_one₀ (abs_nonneg _) ht
  have knn : |n ^ 2| ≤ 101 / 100 := by
    have : n ^ 2 = (n ^ 2 - (1 - t) ^ 2) + (1 - t) ^ 2 := by ring
    rw [this]
    exact (abs_add_le _ _).trans (by linarith)
  have k2 : |pow n 2 - (1 - t) ^ 2| ≤ 41 / 10 / 2 ^ 53 := by
    have : pow n 2 - (1 - t) ^ 2 = (pow n 2 - n ^ 2) + (n ^ 2 - (1 - t) ^ 2) := by ring
    rw [this]
    refine (abs_add_le _ _).trans ?_
    have := hpow n 2
    linarith
  have kt : |pow t 2 - t ^ 2| ≤ 21 / 10 / 2 ^ 53 := (hpow t 2).trans (by linarith)
  generalize pow n 2 = n2 at *
  generalize pow t 2 = t2 at *
  have hnt : |(1 - t) * t| ≤ 1 := by rw [abs_mul]; exact mul_le_one₀ hn (abs_nonneg _) ht
  have knt : |fl (n * t) - (1 - t) * t| ≤ 205 / 100 / 2 ^ 53 :=
    (near_fl hfl (near_mul kn (near_self t) hn ht) hnt).trans (by linarith)
  generalize fl (n * t) = nt at *
  have h2nt : |2 * ((1 - t) * t)| ≤ 1 := by
    rw [abs_of_nonneg (by positivity)]
    nlinarith [sq_nonneg (1 - 2 * t)]
  have k2nt : |fl (2 * nt) - 2 * ((1 - t) * t)| ≤ 52 / 10 / 2 ^ 53 :=
    (near_fl hfl (near_mul (near_self 2) knt (show |(2 : ℚ)| ≤ 2 by norm_num) hnt) h2nt).trans (by linarith)
  generalize fl (2 * nt) = m at *
  have s0 := near_scale hfl k2 hsq hx0
  have s1 := near_scale hfl k2nt h2nt hx1
  have s2 := near_scale hfl kt hts hx2
  have b0 : |(1 - t) ^ 2 * x0| ≤ B := by rw [abs_mul]; nlinarith [abs_nonneg x0]
  have b1 : |2 * ((1 - t) * t) * x1| ≤ B := by rw [abs_mul]; nlinarith [abs_nonneg x1]
  have b2 : |t ^ 2 * x2| ≤ B := by rw [abs_mul]; nlinarith [abs_nonneg x2]
  have b01 : |(1 - t) ^ 2 * x0 + 2 * ((1 - t) * t) * x1| ≤ 2 * B := (abs_add_le _ _).trans (by linarith)
  have b012 : |(1 - t) ^ 2 * x0 + 2 * ((1 - t) * t) * x1 + t ^ 2 * x2| ≤ 3 * B := (abs_add_le _ _).trans (by linarith)
  have a1 := near_fl hfl (near_add s0 s1) b01
  have a2 := near_fl hfl (near_add a1 s2) b012
  refine a2.trans ?_
  linarith

theorem cubic_err {fl : ℚ → ℚ} {pow : ℚ → ℕ → ℚ} {η B x0 x1 x2 x3 t : ℚ} (h0 : 0 ≤ η) (hη : η ≤ 1 / 2 ^ 100)
    (hfl : ∀ x, |fl x - x| ≤ |x| / 2 ^ 53 + η) (hpow : ∀ x n, |pow x n - x ^ n| ≤ |x ^ n| / 2 ^ 52 + η)
    (hx0 : |x0| ≤ B) (hx1 : |x1| ≤ B) (hx2 : |x2| ≤ B) (hx3 : |x3| ≤ B) (ht0 : 0 ≤ t) (ht1 : t ≤ 1) :
    |fl (fl (fl (pow (fl (1 - t)) 3 * x0) + fl (3 * fl (fl (fl (fl (fl (1 - t) * fl (1 - t)) * t) * x1) + fl (fl (fl (t * t) * fl (1 - t)) * x2)))) +
        fl (pow t 3 * x3)) -
      ((1 - t) ^ 3 * x0 + 3 * ((1 - t) * (1 - t) * t * x1 + t * t * (1 - t) * x2) + t ^ 3 * x3)| ≤ B / 2 ^ 47 + 16 * η := by
  have hB : 0 ≤ B := (abs_nonneg _).trans hx0
  have hn0 : 0 ≤ 1 - t := by linarith
  have hn : |1 - t| ≤ 1 := unit_le hn0 (by linarith)
  have ht : |t| ≤ 1 := unit_le ht0 ht1
  have kn : |fl (1 - t) - (1 - t)| ≤ 101 / 100 / 2 ^ 53 := (near_fl hfl (near_self (1 - t)) hn).trans (by linarith)
  generalize fl (1 - t) = n at *
  have hnn : |(1 - t) * (1 - t)| ≤ 1 := by rw [abs_mul]; exact mul_le_one₀ hn (abs_nonneg _) hn
  have htt : |t * t| ≤ 1 := by rw [abs_mul]; exact mul_le_one₀ ht (abs_nonneg _) ht
  have ksq : |n * n - (1 - t) * (1 - t)| ≤ 203 / 100 / 2 ^ 53 := (near_mul kn kn hn hn).trans (by norm_num)
  have kcu : |n ^ 3 - (1 - t) ^ 3| ≤ 306 / 100 / 2 ^ 53 := by
    have e : ∀ y : ℚ, y ^ 3 = y * y * y := by intro y; ring
    rw [e, e]
    exact (near_mul ksq kn hnn hn).trans (by norm_num)
  have hcu : |(1 - t) ^ 3| ≤ 1 := by rw [abs_pow]; exact pow_le_one₀ (abs_nonneg _) hn
  have htc : |t ^ 3| ≤ 1 := by rw [abs_pow]; exact pow_le_one₀ (abs_nonneg _) ht
  have knnn : |n ^ 3| ≤ 101 / 100 := by
    have : n ^ 3 = (n ^ 3 - (1 - t) ^ 3) + (1 - t) ^ 3 := by ring
    rw [this]
    exact (abs_add_le _ _).trans (by linarith)
  have k3 : |pow n 3 - (1 - t) ^ 3| ≤ 52 / 10 / 2 ^ 53 := by
    have : pow n 3 - (1 - t) ^ 3 = (pow n 3 - n ^ 3) + (n ^ 3 - (1 - t) ^ 3) := by ring
    rw [this]
    refine (abs_add_le _ _).trans ?_
    have := hpow n 3
    linarith
  have kt : |pow t 3 - t ^ 3| ≤ 21 / 10 / 2 ^ 53 := (hpow t 3).trans (by linarith)
  generalize pow n 3 = n3 at *
  generalize pow t 3 = t3 at *
  have ktt : |fl (t * t) - t * t| ≤ 101 / 100 / 2 ^ 53 := (near_fl hfl (near_self (t * t)) htt).trans (by linarith)
  have knn : |fl (n * n) - (1 - t) * (1 - t)| ≤ 31 / 10 / 2 ^ 53 := (near_fl hfl ksq hnn).trans (by linarith)
  generalize fl (t * t) = tt at *
  generalize fl (n * n) = nn at *
  have hnnt : |(1 - t) * (1 - t) * t| ≤ 1 := by rw [abs_mul]; exact mul_le_one₀ hnn (abs_nonneg _) ht
  have httn : |t * t * (1 - t)| ≤ 1 := by rw [abs_mul]; exact mul_le_one₀ htt (abs_nonneg _) hn
  have knnt : |fl (nn * t) - (1 - t) * (1 - t) * t| ≤ 42 / 10 / 2 ^ 53 :=
    (near_fl hfl (near_mul knn (near_self t) hnn ht) hnnt).trans (by linarith)
  have kttn : |fl (tt * n) - t * t * (1 - t)| ≤ 32 / 10 / 2 ^ 53 :=
    (near_fl hfl (near_mul ktt kn htt hn) httn).trans (by linarith)
  generalize fl (nn * t) = nnt at *
  generalize fl (tt * n) = ttn at *
  have s0 := near_scale hfl k3 hcu hx0
  have s1 := near_scale hfl knnt hnnt hx1
  have s2 := near_scale hfl kttn httn hx2
  have s3 := near_scale hfl kt htc hx3
  have b0 : |(1 - t) ^ 3 * x0| ≤ B := by rw [abs_mul]; nlinarith [abs_nonneg x0]
  have b3 : |t ^ 3 * x3| ≤ B := by rw [abs_mul]; nlinarith [abs_nonneg x3]
  have hq : (1 - t) * t ≤ 1 / 4 := by nlinarith [sq_nonneg (1 - 2 * t)]
  have b12 : |(1 - t) * (1 - t) * t * x1 + t * t * (1 - t) * x2| ≤ B / 4 := by
    refine (abs_add_le _ _).trans ?_
    rw [abs_mul, abs_mul (t * t * (1 - t)), abs_of_nonneg (show 0 ≤ (1 - t) * (1 - t) * t by positivity),
      abs_of_nonneg (show 0 ≤ t * t * (1 - t) by positivity)]
    have c1 : (1 - t) * (1 - t) * t * |x1| ≤ (1 - t) * (1 - t) * t * B := by gcongr
    have c2 : t * t * (1 - t) * |x2| ≤ t * t * (1 - t) * B := by gcongr
    have c3 : (1 - t) * (1 - t) * t * B + t * t * (1 - t) * B = (1 - t) * t * B := by ring
    have c4 : (1 - t) * t * B ≤ 1 / 4 * B := by gcongr
    linarith
  have a12 := near_fl hfl (near_add s1 s2) b12
  have b312 : |3 * ((1 - t) * (1 - t) * t * x1 + t * t * (1 - t) * x2)| ≤ B := by
    rw [abs_mul, abs_of_pos (by norm_num : (0 : ℚ) < 3)]
    linarith
  have a312 := near_fl hfl (near_mul (near_self 3) a12 (show |(3 : ℚ)| ≤ 3 by norm_num) b12) b312
  have b01 : |(1 - t) ^ 3 * x0 + 3 * ((1 - t) * (1 - t) * t * x1 + t * t * (1 - t) * x2)| ≤ 2 * B := (abs_add_le _ _).trans (by linarith)
  have b012 : |(1 - t) ^ 3 * x0 + 3 * ((1 - t) * (1 - t) * t * x1 + t * t * (1 - t) * x2) + t ^ 3 * x3| ≤ 3 * B :=
    (abs_add_le _ _).trans (by linarith)
  have a1 := near_fl hfl (near_add s0 a312) b01
  have a2 := near_fl hfl (near_add a1 s3) b012
  refine a2.trans ?_
  linarith

theorem interp_err {fl : ℚ → ℚ} {η B a b t : ℚ} (h0 : 0 ≤ η) (hη : η ≤ 1 / 2 ^ 100) (hfl : ∀ x, |fl x - x| ≤ |x| / 2 ^ 53 + η)
    (ha : |a| ≤ B) (hb : |b| ≤ B) (ht0 : 0 ≤ t) (ht1 : t ≤ 1) :
    |(if t ≤ 0 then a else if 1 ≤ t then b else fl (fl (fl (b - a) * t) + a)) - Seg.interp a b t| ≤ B / 2 ^ 47 + 16 * η := by
  have hB : 0 ≤ B := (abs_nonneg _).trans ha
  unfold Seg.interp
  split_ifs
  · rw [sub_self, abs_zero]; positivity
  · rw [sub_self, abs_zero]; positivity
  · rw [mul_comm (fl (b - a))]
    exact line_err h0 hη hfl ha hb ht0 ht1

/-- both coordinates of a point that is there are at most `B` in size -/
def AtMost (B : ℚ) (p : Option (Pt ℚ)) : Prop := ∀ q, p = some q → |q.x| ≤ B ∧ |q.y| ≤ B

/-- all coordinates of the start, the end and the control points are at most `B` in size -/
def SegAtMost (B : ℚ) (s : Seg ℚ) : Prop := AtMost B s.start ∧ AtMost B s.stop ∧
  (∀ c, s.kind = .quad c → AtMost B c) ∧ (∀ c d, s.kind = .cubic c d → AtMost B c ∧ AtMost B d)

/-- `p` and `q` differ by at most `e` in each coordinate -/
def Off (e : ℚ) (p q : Pt ℚ) : Prop := |p.x - q.x| ≤ e ∧ |p.y - q.y| ≤ e

/-- C122: with floats, a point of a line, quadratic or cubic curve is, at every position from 0 to 1, off from the exact point by at most
one part in 2^47 of the largest coordinate of the points of the segment, with numpy or without; floats and exact numbers fail on the same
segments -/
theorem C122_point (F : FloatRounding) (P : FloatPow) (numpy : Bool) {B : ℚ} {s : Seg ℚ} (hs : SegAtMost B s) {t : ℚ} (h0 : 0 ≤ t)
    (h1 : t ≤ 1) :
    (∀ p, s.point numpy t = .ok p → ∃ q, Flt.point F P numpy s t = .ok q ∧ Off (B / 2 ^ 47 + 1 / 2 ^ 1070) q p) ∧
    (∀ e, s.point numpy t = .error e ↔ Flt.point F P numpy s t = .error e) := by
  obtain ⟨η, e1, e2, hη0, hη⟩ := eta
  have hfl := F.err
  have hpow := P.err
  rw [e1] at hfl hpow
  rw [e2]
  obtain ⟨kind, start, stop, rel, smooth⟩ := s
  obtain ⟨b1, b2, b3, b4⟩ := hs
  simp only at b1 b2 b3 b4
  have line : ∀ p q, start = some p → stop = some q → Off (B / 2 ^ 47 + 16 * η) (Flt.linearAt F numpy p q t) (Seg.linearAt numpy p q t) := by
    rintro p q hp hq
    obtain ⟨p1, p2⟩ := b1 p hp
    obtain ⟨q1, q2⟩ := b2 q hq
    cases numpy
    · exact ⟨line_err hη0 hη hfl p1 q1 h0 h1, line_err hη0 hη hfl p2 q2 h0 h1⟩
    · exact ⟨interp_err hη0 hη hfl p1 q1 h0 h1, interp_err hη0 hη hfl p2 q2 h0 h1⟩
  cases kind with
  | move =>
    cases stop with
    | none => exact ⟨fun p hp => (by cases hp), fun e => Iff.rfl⟩
    | some q =>
      obtain ⟨q1, q2⟩ := b2 q rfl
      have hB : 0 ≤ B := (abs_nonneg _).trans q1
      refine ⟨fun p hp => ⟨q, rfl, ?_⟩, fun e => Iff.rfl⟩
      cases hp
      constructor <;> rw [sub_self, abs_zero] <;> positivity
  | line =>
    cases start with
    | none => cases stop <;> exact ⟨fun p hp => (by cases hp), fun e => Iff.rfl⟩
    | some a =>
      cases stop with
      | none => exact ⟨fun p hp => (by cases hp), fun e => Iff.rfl⟩
      | some b =>
        refine ⟨fun p hp => ⟨_, rfl, ?_⟩, fun e => ⟨fun h => (by cases h), fun h => (by cases h)⟩⟩
        cases hp
        exact line a b rfl rfl
  | close =>
    cases start with
    | none => cases stop <;> exact ⟨fun p hp => (by cases hp), fun e => Iff.rfl⟩
    | some a =>
      cases stop with
      | none => exact ⟨fun p hp => (by cases hp), fun e => Iff.rfl⟩
      | some b =>
        refine ⟨fun p hp => ⟨_, rfl, ?_⟩, fun e => ⟨fun h => (by cases h), fun h => (by cases h)⟩⟩
        cases hp
        exact line a b rfl rfl
  | quad c =>
    cases start with
    | none => cases stop <;> cases c <;> exact ⟨fun p hp => (by cases hp), fun e => Iff.rfl⟩
    | some a =>
      cases c with
      | none => cases stop <;> exact ⟨fun p hp => (by cases hp), fun e => Iff.rfl⟩
      | some c =>
        cases stop with
        | none => exact ⟨fun p hp => (by cases hp), fun e => Iff.rfl⟩
        | some b =>
          refine ⟨fun p hp => ⟨_, rfl, ?_⟩, fun e => ⟨fun h => (by cases h), fun h => (by cases h)⟩⟩
          cases hp
          have ba := b1 a rfl
          have bb := b2 b rfl
          have bc := b3 _ rfl c rfl
          exact ⟨quad_err hη0 hη hfl hpow ba.1 bc.1 bb.1 h0 h1, quad_err hη0 hη hfl hpow ba.2 bc.2 bb.2 h0 h1⟩
  | cubic c d =>
    cases start with
    | none => cases stop <;> cases c <;> cases d <;> exact ⟨fun p hp => (by cases hp), fun e => Iff.rfl⟩
    | some a =>
      cases c with
      | none => cases stop <;> cases d <;> exact ⟨fun p hp => (by cases hp), fun e => Iff.rfl⟩
      | some c =>
        cases d with
        | none => cases stop <;> exact ⟨fun p hp => (by cases hp), fun e => Iff.rfl⟩
        | some d =>
          cases stop with
          | none => exact ⟨fun p hp => (by cases hp), fun e => Iff.rfl⟩
          | some b =>
            refine ⟨fun p hp => ⟨_, rfl, ?_⟩, fun e => ⟨fun h => (by cases h), fun h => (by cases h)⟩⟩
            cases hp
            have ba := b1 a rfl
            have bb := b2 b rfl
            have bc := (b4 _ _ rfl).1 c rfl
            have bd := (b4 _ _ rfl).2 d rfl
            exact ⟨cubic_err hη0 hη hfl hpow ba.1 bc.1 bd.1 bb.1 h0 h1, cubic_err hη0 hη hfl hpow ba.2 bc.2 bd.2 bb.2 h0 h1⟩
  | arc a => exact ⟨fun p hp => (by cases hp), fun e => Iff.rfl⟩

/-- C122: for coordinates up to 128 the difference is within the tolerance with which the library compares points -/
theorem C122_equal (F : FloatRounding) (P : FloatPow) (numpy : Bool) {s : Seg ℚ} (hs : SegAtMost 128 s) {t : ℚ} (h0 : 0 ≤ t)
    (h1 : t ≤ 1) {p : Pt ℚ} (hp : s.point numpy t = .ok p) :
    ∃ q, Flt.point F P numpy s t = .ok q ∧ |q.x - p.x| ≤ 1 / 10 ^ 12 ∧ |q.y - p.y| ≤ 1 / 10 ^ 12 := by
  obtain ⟨q, hq, o1, o2⟩ := (C122_point F P numpy hs h0 h1).1 p hp
  obtain ⟨η, e1, e2, hη0, hη⟩ := eta
  rw [e2] at o1 o2
  exact ⟨q, hq, o1.trans (by linarith), o2.trans (by linarith)⟩

example : SegAtMost 128 ⟨.cubic (some ⟨1, 2⟩) (some ⟨-3, 4⟩), some ⟨1 / 2, 0⟩, some ⟨7, 100⟩, false, true⟩ := by
  refine ⟨?_, ?_, by simp, ?_⟩
  · rintro q ⟨⟩; constructor <;> norm_num
  · rintro q ⟨⟩; constructor <;> norm_num
  · rintro c d ⟨⟩
    constructor
    · rintro q ⟨⟩; constructor <;> norm_num
    · rintro q ⟨⟩; constructor <;> norm_num [abs_le]

end Svgio.Props
