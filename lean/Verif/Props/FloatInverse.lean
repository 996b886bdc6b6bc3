import Verif.Props.FloatProduct
import Verif.Props.Matrix

/-!
C137: the inverse of a transform with floats.
-/

namespace Svgio.Spec

/-- how much is lost in the determinant: `|ad| + |cb|` over the determinant; 1 for rotations and scalings -/
def detLoss (m : Mat ℚ) : ℚ := (|m.a * m.d| + |m.c * m.b|) / |m.a * m.d - m.c * m.b|

/-- the size of the inverse, with each entry as the sum of its terms without their signs, and not less than 1 -/
def inverseSize (m : Mat ℚ) : ℚ :=
  max 1 (max ((|m.d| + |m.c| + (|m.c * m.f| + |m.e * m.d|)) / |m.a * m.d - m.c * m.b|)
    ((|m.b| + |m.a| + (|m.b * m.e| + |m.a * m.f|)) / |m.a * m.d - m.c * m.b|))

/-- no entry is so large, and the determinant not so small, that numbers could underflow -/
def Moderate (m : Mat ℚ) : Prop := (∀ x ∈ [m.a, m.b, m.c, m.d, m.e, m.f], |x| ≤ 2 ^ 100) ∧ 1 / 2 ^ 100 ≤ |m.a * m.d - m.c * m.b|

end Svgio.Spec

namespace Svgio.Props

open Svgio.Flt Spec

theorem eta900 : ∃ η : ℚ, 1 / 2 ^ 1074 = η ∧ 0 ≤ η ∧ η ≤ 1 / 2 ^ 900 := by
  refine ⟨_, rfl, by positivity, ?_⟩
  gcongr
  · norm_num
  · norm_num

section
variable {fl : ℚ → ℚ} {η : ℚ} (h0 : 0 ≤ η) (hη : η ≤ 1 / 2 ^ 900) (hfl : ∀ x, |fl x - x| ≤ |x| / 2 ^ 53 + η)
include h0 hη hfl

/-- a difference of two products -/
theorem diff_err (p q : ℚ) : |fl (fl p - fl q) - (p - q)| ≤ (|p| + |q|) / 2 ^ 51 + 4 * η := by
  have h1 := hfl p
  have h2 := hfl q
  have h3 : |fl p - fl q - (p - q)| ≤ (|p| / 2 ^ 53 + η) + (|q| / 2 ^ 53 + η) := by
    have e : fl p - fl q - (p - q) = (fl p - p) - (fl q - q) := by ring
    rw [e]
    exact (abs_sub _ _).trans (add_le_add h1 h2)
  have k := near_fl hfl h3 (abs_sub p q)
  have p0 := abs_nonneg p
  have q0 := abs_nonneg q
  linarith

/-- the reciprocal of the determinant -/
theorem recip_err {D det κ : ℚ} (hD : D ≠ 0) (hX : 1 / 2 ^ 300 ≤ |1 / D|) (hκ1 : 1 ≤ κ) (hκ : κ ≤ 2 ^ 40)
    (h : |det - D| ≤ κ / 2 ^ 50 * |D|) : det ≠ 0 ∧ |fl (1 / det) - 1 / D| ≤ κ * (3 / 2) / 2 ^ 50 * |1 / D| := by
  have hD' : 0 < |D| := abs_pos.mpr hD
  have hα : κ / 2 ^ 50 ≤ 1 / 2 ^ 10 := by
    rw [div_le_div_iff₀ (by positivity) (by positivity)]
    linarith
  have hα0 : 0 ≤ κ / 2 ^ 50 := by positivity
  have hdet : (1 - κ / 2 ^ 50) * |D| ≤ |det| := by
    have e : |D| ≤ |det| + |det - D| := by
      have := abs_sub det (det - D)
      rwa [sub_sub_cancel] at this
    linarith
  have hne : det ≠ 0 := by
    intro h
    rw [h, abs_zero] at hdet
    nlinarith
  refine ⟨hne, ?_⟩
  have hx : |1 / det - 1 / D| ≤ κ * (101 / 100) / 2 ^ 50 * |1 / D| := by
    have e : 1 / det - 1 / D = (D - det) / det * (1 / D) := by field_simp
    rw [e, abs_mul]
    refine mul_le_mul_of_nonneg_right ?_ (abs_nonneg _)
    rw [abs_div, div_le_iff₀ (abs_pos.mpr hne), abs_sub_comm]
    refine h.trans ?_
    have : κ * (101 / 100) / 2 ^ 50 * ((1 - κ / 2 ^ 50) * |D|) ≤ κ * (101 / 100) / 2 ^ 50 * |det| :=
      mul_le_mul_of_nonneg_left hdet (by positivity)
    refine le_trans ?_ this
    have : κ / 2 ^ 50 * |D| * 1 ≤ κ / 2 ^ 50 * |D| * (101 / 100 * (1 - κ / 2 ^ 50)) :=
      mul_le_mul_of_nonneg_left (by linarith) (by positivity)
    linarith
  have k := near_fl hfl hx le_rfl
  have X0 := abs_nonneg (1 / D)
  have hκX : |1 / D| ≤ κ * |1 / D| := le_mul_of_one_le_left X0 hκ1
  refine k.trans ?_
  have : κ * (101 / 100) / 2 ^ 50 * |1 / D| ≤ |1 / D| := by
    have : κ * (101 / 100) / 2 ^ 50 ≤ 1 := by linarith
    exact mul_le_of_le_one_left X0 this
  have hη' : η ≤ |1 / D| / 2 ^ 60 := by
    have : (1 : ℚ) / 2 ^ 900 ≤ 1 / 2 ^ 300 / 2 ^ 60 := by
      rw [div_div, ← pow_add]
      gcongr
      · norm_num
      · norm_num
    linarith
  linarith

/-- one of the first four entries -/
theorem entry1_err {x i X κ : ℚ} (hκ1 : 1 ≤ κ) (hκ : κ ≤ 2 ^ 40) (hi : |i - X| ≤ κ * (3 / 2) / 2 ^ 50 * |X|) :
    |fl (x * i) - x * X| ≤ κ * 2 / 2 ^ 50 * (|x| * |X|) + η := by
  have h1 : |x * i - x * X| ≤ κ * (3 / 2) / 2 ^ 50 * (|x| * |X|) := by
    rw [← mul_sub, abs_mul]
    calc |x| * |i - X| ≤ |x| * (κ * (3 / 2) / 2 ^ 50 * |X|) := mul_le_mul_of_nonneg_left hi (abs_nonneg _)
      _ = _ := by ring
  have k := near_fl hfl h1 (abs_mul x X).le
  have Y0 : 0 ≤ |x| * |X| := by positivity
  have hκY : |x| * |X| ≤ κ * (|x| * |X|) := le_mul_of_one_le_left Y0 hκ1
  have : κ * (3 / 2) / 2 ^ 50 * (|x| * |X|) ≤ |x| * |X| := mul_le_of_le_one_left Y0 (by linarith)
  refine k.trans ?_
  linarith

/-- one of the last two entries -/
theorem entry2_err {p q i X κ : ℚ} (hX : |X| ≤ 2 ^ 100) (hκ1 : 1 ≤ κ) (hκ : κ ≤ 2 ^ 40) (hi : |i - X| ≤ κ * (3 / 2) / 2 ^ 50 * |X|) :
    |fl (fl (fl p - fl q) * i) - (p - q) * X| ≤ κ * 3 / 2 ^ 50 * ((|p| + |q|) * |X|) + 1 / 2 ^ 700 := by
  have h1 := diff_err h0 hη hfl p q
  generalize fl (fl p - fl q) = g at h1
  have h2 := near_mul h1 hi (abs_sub p q) (le_refl |X|)
  have Z0 : 0 ≤ |p| + |q| := by positivity
  have hb : |(p - q) * X| ≤ (|p| + |q|) * |X| := by
    rw [abs_mul]
    exact mul_le_mul_of_nonneg_right (abs_sub p q) (abs_nonneg _)
  have k := near_fl hfl h2 hb
  refine k.trans ?_
  have Y0 : 0 ≤ (|p| + |q|) * |X| := by positivity
  have hκY : (|p| + |q|) * |X| ≤ κ * ((|p| + |q|) * |X|) := le_mul_of_one_le_left Y0 hκ1
  have hκZ : κ * (3 / 2) / 2 ^ 50 * ((|p| + |q|) * |X|) ≤ 1 / 2 ^ 9 * ((|p| + |q|) * |X|) :=
    mul_le_mul_of_nonneg_right (by linarith) Y0
  have hηX : η * |X| ≤ 1 / 2 ^ 800 := by
    calc η * |X| ≤ 1 / 2 ^ 900 * 2 ^ 100 := by gcongr
      _ = 1 / 2 ^ 800 := by rw [show 900 = 800 + 100 from rfl, pow_add]; field_simp
  have hηX0 : 0 ≤ η * |X| := by positivity
  have hκη : κ * (3 / 2) / 2 ^ 50 * (η * |X|) ≤ 1 / 2 ^ 9 * (η * |X|) := mul_le_mul_of_nonneg_right (by linarith) hηX0
  have t1 : (1 : ℚ) / 2 ^ 900 ≤ 1 / 2 ^ 700 / 2 ^ 10 := by
    rw [div_div, ← pow_add]
    gcongr
    · norm_num
    · norm_num
  have t2 : (1 : ℚ) / 2 ^ 800 ≤ 1 / 2 ^ 700 / 2 ^ 10 := by
    rw [div_div, ← pow_add]
    gcongr
    · norm_num
    · norm_num
  generalize (1 : ℚ) / 2 ^ 700 = T at *
  generalize (1 : ℚ) / 2 ^ 800 = T8 at *
  generalize (1 : ℚ) / 2 ^ 900 = T9 at *
  have e : ((|p| + |q|) / 2 ^ 51 + 4 * η) * |X| + (|p| + |q|) * (κ * (3 / 2) / 2 ^ 50 * |X|) +
      ((|p| + |q|) / 2 ^ 51 + 4 * η) * (κ * (3 / 2) / 2 ^ 50 * |X|) =
      ((|p| + |q|) * |X|) / 2 ^ 51 + 4 * (η * |X|) + κ * (3 / 2) / 2 ^ 50 * ((|p| + |q|) * |X|) +
        (κ * (3 / 2) / 2 ^ 50 * ((|p| + |q|) * |X|)) / 2 ^ 51 + 4 * (κ * (3 / 2) / 2 ^ 50 * (η * |X|)) := by ring
  rw [e]
  generalize (|p| + |q|) * |X| = Y at *
  generalize η * |X| = V at *
  linarith

end

theorem row_inv {x y p q X N : ℚ} (h : (|x| + |y| + (|p| + |q|)) * |X| ≤ N) : |x * X| + |y * X| + |(p - q) * X| ≤ N := by
  rw [abs_mul, abs_mul, abs_mul]
  have : |p - q| * |X| ≤ (|p| + |q|) * |X| := mul_le_mul_of_nonneg_right (abs_sub p q) (abs_nonneg _)
  linarith

theorem row_inv_err {x y z x' y' p q X N κ η : ℚ} (hκ1 : 1 ≤ κ) (hN : 1 ≤ N) (hη : η ≤ 1 / 2 ^ 900)
    (h : (|x| + |y| + (|p| + |q|)) * |X| ≤ N) (h1 : |x' - x * X| ≤ κ * 2 / 2 ^ 50 * (|x| * |X|) + η)
    (h2 : |y' - y * X| ≤ κ * 2 / 2 ^ 50 * (|y| * |X|) + η) (h3 : |z - (p - q) * X| ≤ κ * 3 / 2 ^ 50 * ((|p| + |q|) * |X|) + 1 / 2 ^ 700) :
    |x' - x * X| + |y' - y * X| + |z - (p - q) * X| ≤ κ * 4 / 2 ^ 50 * N := by
  have t1 : (1 : ℚ) / 2 ^ 900 ≤ 1 / 2 ^ 60 := by
    gcongr
    · norm_num
    · norm_num
  have t2 : (1 : ℚ) / 2 ^ 700 ≤ 1 / 2 ^ 60 := by
    gcongr
    · norm_num
    · norm_num
  have k1 : κ * ((|x| + |y| + (|p| + |q|)) * |X|) ≤ κ * N := mul_le_mul_of_nonneg_left h (by linarith)
  have k2 : 1 ≤ κ * N := by nlinarith
  have k3 : 0 ≤ κ * (|x| * |X|) := by positivity
  have k4 : 0 ≤ κ * (|y| * |X|) := by positivity
  generalize (1 : ℚ) / 2 ^ 700 = T at *
  generalize (1 : ℚ) / 2 ^ 900 = T9 at *
  linarith

/-- the exact inverse -/
def exactInverse (m : Mat ℚ) : Mat ℚ :=
  let X := 1 / (m.a * m.d - m.c * m.b)
  ⟨m.d * X, -m.b * X, -m.c * X, m.a * X, (m.c * m.f - m.e * m.d) * X, (m.b * m.e - m.a * m.f) * X⟩

theorem exactInverse_back (m : Mat ℚ) (h : m.a * m.d - m.c * m.b ≠ 0) (v : Pt ℚ) :
    (exactInverse m).pointInMatrixSpace (m.pointInMatrixSpace v) = v := by
  obtain ⟨x, y⟩ := v
  simp only [exactInverse, Mat.pointInMatrixSpace]
  congr 1 <;> field_simp <;> ring

theorem inverseF_err (F : FloatRounding) (m : Mat ℚ) (hm : Moderate m) (hκ : detLoss m ≤ 2 ^ 40) :
    ∃ r, Flt.inverse F m = (r, .ok ()) ∧ Sized (inverseSize m) (exactInverse m) ∧
      Apart (detLoss m * 4 / 2 ^ 50 * inverseSize m) r (exactInverse m) ∧ 1 ≤ detLoss m := by
  obtain ⟨η, e1, h0, hη⟩ := eta900
  have hfl := F.err
  rw [e1] at hfl
  obtain ⟨he, hd⟩ := hm
  have ha := he m.a (by simp)
  have hb := he m.b (by simp)
  have hc := he m.c (by simp)
  have hd' := he m.d (by simp)
  have hD0 : 0 < |m.a * m.d - m.c * m.b| := lt_of_lt_of_le (by positivity) hd
  have hD : m.a * m.d - m.c * m.b ≠ 0 := abs_pos.mp hD0
  have hκ1 : 1 ≤ detLoss m := by
    unfold detLoss
    rw [one_le_div hD0]
    exact abs_sub _ _
  have hdet := diff_err h0 hη hfl (m.a * m.d) (m.c * m.b)
  have hκD : |m.a * m.d| + |m.c * m.b| = detLoss m * |m.a * m.d - m.c * m.b| := by
    unfold detLoss
    field_simp
  rw [hκD] at hdet
  have hDle : |m.a * m.d - m.c * m.b| ≤ 2 ^ 201 := by
    refine (abs_sub _ _).trans ?_
    rw [abs_mul, abs_mul]
    have k1 : |m.a| * |m.d| ≤ 2 ^ 100 * 2 ^ 100 := by gcongr
    have k2 : |m.c| * |m.b| ≤ 2 ^ 100 * 2 ^ 100 := by gcongr
    norm_num at k1 k2 ⊢
    linarith
  have hX1 : 1 / 2 ^ 300 ≤ |1 / (m.a * m.d - m.c * m.b)| := by
    rw [abs_div, abs_one]
    gcongr
    refine hDle.trans ?_
    gcongr
    · norm_num
    · norm_num
  have hX2 : |1 / (m.a * m.d - m.c * m.b)| ≤ 2 ^ 100 := by
    rw [abs_div, abs_one, div_le_iff₀ hD0]
    rw [div_le_iff₀ (by positivity)] at hd
    linarith
  have hdet' : |F.fl (F.fl (m.a * m.d) - F.fl (m.c * m.b)) - (m.a * m.d - m.c * m.b)| ≤
      detLoss m / 2 ^ 50 * |m.a * m.d - m.c * m.b| := by
    refine hdet.trans ?_
    have : (1 : ℚ) / 2 ^ 900 ≤ 1 / 2 ^ 100 / 2 ^ 60 := by
      rw [div_div, ← pow_add]
      gcongr
      · norm_num
      · norm_num
    have : |m.a * m.d - m.c * m.b| ≤ detLoss m * |m.a * m.d - m.c * m.b| := le_mul_of_one_le_left hD0.le hκ1
    generalize |m.a * m.d - m.c * m.b| = D at *
    generalize detLoss m = κ at *
    linarith
  obtain ⟨hne, hi⟩ := recip_err h0 hη hfl hD hX1 hκ1 hκ hdet'
  refine ⟨_, by simp only [Flt.inverse, if_neg hne]; rfl, ?_, ?_, hκ1⟩
  · have hX : |1 / (m.a * m.d - m.c * m.b)| = 1 / |m.a * m.d - m.c * m.b| := by rw [abs_div, abs_one]
    refine ⟨le_max_left _ _, row_inv ?_, row_inv ?_⟩
    · rw [abs_neg, hX, mul_one_div]
      exact (le_max_left _ _).trans (le_max_right _ _)
    · rw [abs_neg, hX, mul_one_div]
      exact (le_max_right _ _).trans (le_max_right _ _)
  · have hX : |1 / (m.a * m.d - m.c * m.b)| = 1 / |m.a * m.d - m.c * m.b| := by rw [abs_div, abs_one]
    refine ⟨row_inv_err hκ1 (le_max_left _ _) hη ?_ (entry1_err h0 hη hfl hκ1 hκ hi) (entry1_err h0 hη hfl hκ1 hκ hi)
        (entry2_err h0 hη hfl hX2 hκ1 hκ hi),
      row_inv_err hκ1 (le_max_left _ _) hη ?_ (entry1_err h0 hη hfl hκ1 hκ hi) (entry1_err h0 hη hfl hκ1 hκ hi)
        (entry2_err h0 hη hfl hX2 hκ1 hκ hi)⟩
    · rw [abs_neg, hX, mul_one_div]
      exact (le_max_left _ _).trans (le_max_right _ _)
    · rw [abs_neg, hX, mul_one_div]
      exact (le_max_right _ _).trans (le_max_right _ _)

/-- **C137.** With floats, a transform is inverted if its determinant is not lost in rounding, and moving a point by it and back gives a
point that is off by at most one part in 2^46 of the sizes of the transform, its inverse and the point, times the loss in the
determinant. -/
theorem C137_back (F : FloatRounding) (m : Mat ℚ) (hm : Moderate m) (hκ : detLoss m ≤ 2 ^ 40) (v : Pt ℚ) :
    ∃ w, Flt.pointInInverseSpace F m (Flt.pointInMatrixSpace F m v) = .ok w ∧
      Off (detLoss m * (matSize m * inverseSize m * ptSize v) / 2 ^ 46) w v := by
  obtain ⟨r, hr, hs, hap, hκ1⟩ := inverseF_err F m hm hκ
  have hD : m.a * m.d - m.c * m.b ≠ 0 := abs_pos.mp (lt_of_lt_of_le (by positivity) hm.2)
  have h1 := point_err F (sized_matSize m) (sized_ptSize v)
  have h2 := ptSized_off (ptSized_mul (sized_matSize m) (sized_ptSize v)) h1
  have h3 := off_trans (point_err F (sized_apart hs hap) h2) (off_trans (off_apart hap h2) (off_point hs h1))
  rw [exactInverse_back m hD] at h3
  refine ⟨_, by simp only [Flt.pointInInverseSpace, hr]; rfl, ?_⟩
  have hA := (sized_matSize m).1
  have hN := hs.1
  have hV := (sized_ptSize v).1
  generalize matSize m = A at *
  generalize inverseSize m = N at *
  generalize ptSize v = V at *
  generalize detLoss m = κ at *
  have b : ulp * ((N + κ * 4 / 2 ^ 50 * N) * (A * V + ulp * (A * V))) +
      (κ * 4 / 2 ^ 50 * N * (A * V + ulp * (A * V)) + N * (ulp * (A * V))) ≤ κ * (A * N * V) / 2 ^ 46 := by
    have hANV : 0 ≤ A * N * V := by positivity
    have e : ulp * ((N + κ * 4 / 2 ^ 50 * N) * (A * V + ulp * (A * V))) +
        (κ * 4 / 2 ^ 50 * N * (A * V + ulp * (A * V)) + N * (ulp * (A * V))) =
        (ulp * (1 + κ * 4 / 2 ^ 50) * (1 + ulp) + κ * 4 / 2 ^ 50 * (1 + ulp) + ulp) * (A * N * V) := by ring
    rw [e, show κ * (A * N * V) / 2 ^ 46 = κ / 2 ^ 46 * (A * N * V) by ring]
    refine mul_le_mul_of_nonneg_right ?_ hANV
    unfold ulp
    linarith
  exact ⟨h3.1.trans b, h3.2.trans b⟩

/-- C137: a transform with determinant 0 is refused with floats as well, and stays as it was. -/
theorem C137_singular (F : FloatRounding) (m : Mat ℚ) (h : m.a * m.d = m.c * m.b) (v : Pt ℚ) :
    Flt.inverse F m = (m, .error .zeroDivisionError) ∧ Flt.pointInInverseSpace F m v = .error .zeroDivisionError := by
  have hi : Flt.inverse F m = (m, .error .zeroDivisionError) := by
    unfold Flt.inverse
    simp only [h, sub_self, fl_zero, if_true]
  exact ⟨hi, by unfold Flt.pointInInverseSpace; rw [hi]⟩

example : (⟨3, 6, 1, 2, 5, 7⟩ : Mat ℚ).a * 2 = 1 * 6 := by norm_num

/-- why the determinant must not be lost in rounding: with doubles, this matrix of whole numbers, of determinant -1, is refused -/
theorem C137_lost_wrong : ∃ m : Mat ℚ, FloatMat doubles m ∧ m.a * m.d - m.c * m.b = -1 ∧
    Flt.inverse doubles m = (m, .error .zeroDivisionError) :=
  ⟨⟨2 ^ 27 + 1, 2 ^ 27, 2 ^ 27, 2 ^ 27 - 1, 0, 0⟩, by unfold FloatMat; decide +kernel, by norm_num, by decide +kernel⟩

/-- a rotation by the angle with cosine 3/5 times a scaling, with a shift, meets the conditions, and nothing is lost -/
example : Moderate ⟨6, 8, -8, 6, 100, -50⟩ ∧ detLoss ⟨6, 8, -8, 6, 100, -50⟩ = 1 ∧ inverseSize ⟨6, 8, -8, 6, 100, -50⟩ = 557 / 50 := by
  refine ⟨⟨?_, ?_⟩, ?_, ?_⟩
  · intro x hx
    simp only [List.mem_cons, List.not_mem_nil, or_false] at hx
    rcases hx with rfl | rfl | rfl | rfl | rfl | rfl <;> norm_num [abs_of_neg, abs_of_nonneg]
  · norm_num [abs_of_nonneg]
  · norm_num [detLoss, abs_of_neg, abs_of_nonneg]
  · norm_num [inverseSize, abs_of_neg, abs_of_nonneg]

end Svgio.Props
