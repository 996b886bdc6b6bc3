import Verif.Model.FloatTransformText
import Verif.Spec.TransformCost
import Verif.Props.Transform
import Verif.Props.FloatProduct
import Verif.Props.FloatTurn
import Verif.Props.FloatUnits

/-!
C162: transform lists read from text and computed with floats.
-/

namespace Svgio.Props

open Svgio.Flt Spec

namespace FloatList

/-- the same matrix, with real entries -/
def toR (m : Mat ℚ) : Mat ℝ := ⟨m.a, m.b, m.c, m.d, m.e, m.f⟩

/-- one rounding -/
noncomputable def u : ℝ := 1 / 2 ^ 50

theorem u_pos : 0 < u := by unfold u; positivity

theorem u_ulp : ((ulp : ℚ) : ℝ) = u := by unfold ulp u; norm_num

/-- a matrix computed with floats, near to an exact one of the size `A` -/
def Close (A t : ℝ) (m : Mat ℚ) (R : Mat ℝ) : Prop := Sized A R ∧ 0 ≤ t ∧ Apart (A * (Real.exp t - 1)) (toR m) R

theorem exp_ge (t : ℝ) : t ≤ Real.exp t - 1 := by linarith [Real.add_one_le_exp t]

theorem apart_mono {e f : ℝ} {m n : Mat ℝ} (h : Apart e m n) (hef : e ≤ f) : Apart f m n := ⟨h.1.trans hef, h.2.trans hef⟩

theorem close_of {A t : ℝ} {m : Mat ℚ} {R : Mat ℝ} (hs : Sized A R) (ht : 0 ≤ t) (h : Apart (A * t) (toR m) R) : Close A t m R :=
  ⟨hs, ht, apart_mono h (mul_le_mul_of_nonneg_left (exp_ge t) (zero_le_one.trans hs.1))⟩

theorem close_mono {A t t' : ℝ} {m : Mat ℚ} {R : Mat ℝ} (h : Close A t m R) (ht : t ≤ t') : Close A t' m R := by
  refine ⟨h.1, h.2.1.trans ht, apart_mono h.2.2 (mul_le_mul_of_nonneg_left ?_ (zero_le_one.trans h.1.1))⟩
  have := Real.exp_le_exp.2 ht
  linarith

theorem close_size {A t : ℝ} {m : Mat ℚ} {R : Mat ℝ} (h : Close A t m R) : Sized (A * Real.exp t) (toR m) := by
  have := sized_apart h.1 h.2.2
  rwa [show A + A * (Real.exp t - 1) = A * Real.exp t by ring] at this

theorem matSize_le {A : ℝ} {m : Mat ℚ} (h : Sized A (toR m)) : ((matSize m : ℚ) : ℝ) ≤ A := by
  unfold matSize
  push_cast
  exact max_le h.1 (max_le h.2.1 h.2.2)

theorem apart_cast {e : ℚ} {m n : Mat ℚ} (h : Apart e m n) : Apart (e : ℝ) (toR m) (toR n) := by
  have h1 := (Rat.cast_le (K := ℝ)).2 h.1
  have h2 := (Rat.cast_le (K := ℝ)).2 h.2
  push_cast at h1 h2
  exact ⟨h1, h2⟩

theorem toR_mul (m n : Mat ℚ) : toR (Mat.multiply m n) = Mat.multiply (toR m) (toR n) := by
  simp only [toR, Mat.multiply]
  push_cast
  rfl

theorem close_mul (F : FloatRounding) {A B t s : ℝ} {m n : Mat ℚ} {R T : Mat ℝ} (hn : Close B s n T) (hm : Close A t m R) :
    Close (B * A) (s + t + u) (Flt.multiply F n m) (Mat.multiply T R) := by
  have sm := close_size hm
  have sn := close_size hn
  have hA := zero_le_one.trans hm.1.1
  have hB := zero_le_one.trans hn.1.1
  have p1 := apart_cast (product_err F (sized_matSize n) (sized_matSize m))
  rw [toR_mul] at p1
  push_cast at p1
  rw [u_ulp] at p1
  have hu := u_pos
  have m0 : (0 : ℝ) ≤ ((matSize m : ℚ) : ℝ) := by
    have := zero_le_one.trans (sized_matSize m).1
    exact_mod_cast this
  have k : u * (((matSize n : ℚ) : ℝ) * ((matSize m : ℚ) : ℝ)) ≤ u * (B * Real.exp s * (A * Real.exp t)) := by
    refine mul_le_mul_of_nonneg_left (mul_le_mul (matSize_le sn) (matSize_le sm) m0 ?_) hu.le
    positivity
  have p := apart_trans (apart_mono p1 k) (apart_trans (apart_left hn.2.2 sm) (apart_right hn.1 hm.2.2))
  refine ⟨sized_mul hn.1 hm.1, by linarith [hn.2.1, hm.2.1], apart_mono p ?_⟩
  have e : u * (B * Real.exp s * (A * Real.exp t)) + (B * (Real.exp s - 1) * (A * Real.exp t) + B * (A * (Real.exp t - 1))) =
      B * A * ((1 + u) * Real.exp (s + t) - 1) := by rw [Real.exp_add]; ring
  rw [e]
  refine mul_le_mul_of_nonneg_left ?_ (mul_nonneg hB hA)
  rw [Real.exp_add (s + t) u]
  have h1 := exp_ge u
  have h2 := Real.exp_pos (s + t)
  nlinarith

theorem one_mul_mat (m : Mat ℝ) : Mat.multiply ⟨1, 0, 0, 1, 0, 0⟩ m = m := by
  simp [Mat.multiply]

/-- a factor that rounding has made the identity is left out -/
theorem close_skip {A B t s : ℝ} {m : Mat ℚ} {R T : Mat ℝ} (hn : Close B s ⟨1, 0, 0, 1, 0, 0⟩ T) (hm : Close A t m R) :
    Close (B * A) (s + t) m (Mat.multiply T R) := by
  have sm := close_size hm
  have p := apart_trans (apart_left hn.2.2 sm) (apart_right hn.1 hm.2.2)
  have i : toR ⟨1, 0, 0, 1, 0, 0⟩ = ⟨1, 0, 0, 1, 0, 0⟩ := by simp [toR]
  rw [i, one_mul_mat] at p
  refine ⟨sized_mul hn.1 hm.1, by linarith [hn.2.1, hm.2.1], apart_mono p (le_of_eq ?_)⟩
  rw [Real.exp_add]
  ring

/-! ### one function -/

/-- `k` roundings of a number -/
def Near (k : ℝ) (y : ℚ) (x : ℝ) : Prop := |(y : ℝ) - x| ≤ k * u * (|x| + 1)

theorem near_neg {k : ℝ} {y : ℚ} {x : ℝ} (h : Near k y x) : Near k (-y) (-x) := by
  unfold Near at *
  push_cast
  rw [show -(y : ℝ) - -x = -(y - x) by ring, abs_neg, abs_neg]
  exact h

theorem near_zero {k : ℝ} (hk : 0 ≤ k) : Near k 0 0 := by
  unfold Near
  have := u_pos
  simp
  positivity

theorem close_translate {x y : ℚ} {X Y : ℝ} (hx : Near 3 x X) (hy : Near 3 y Y) :
    Close (1 + |X| + |Y|) (3 * u) (Mat.translate x y) (Mat.translate X Y) := by
  have := abs_nonneg X
  have := abs_nonneg Y
  have := u_pos
  refine close_of ⟨by linarith, ?_, ?_⟩ (by linarith) ⟨?_, ?_⟩
  · simp [Mat.translate]
  · simp [Mat.translate]
  · have e : |(toR (Mat.translate x y)).a - (Mat.translate X Y).a| + |(toR (Mat.translate x y)).c - (Mat.translate X Y).c| +
        |(toR (Mat.translate x y)).e - (Mat.translate X Y).e| = |(x : ℝ) - X| := by simp [toR, Mat.translate]
    rw [e]
    unfold Near at hx
    nlinarith
  · have e : |(toR (Mat.translate x y)).b - (Mat.translate X Y).b| + |(toR (Mat.translate x y)).d - (Mat.translate X Y).d| +
        |(toR (Mat.translate x y)).f - (Mat.translate X Y).f| = |(y : ℝ) - Y| := by simp [toR, Mat.translate]
    rw [e]
    unfold Near at hy
    nlinarith

theorem close_preTranslate (F : FloatRounding) {A t : ℝ} {m : Mat ℚ} {R : Mat ℝ} (hm : Close A t m R) {x y : ℚ} {X Y : ℝ} (hx : Near 3 x X)
    (hy : Near 3 y Y) : Close ((1 + |X| + |Y|) * A) (t + 4 * u) (preTranslate F m x y) (Mat.multiply (Mat.translate X Y) R) := by
  have := close_mul F (close_translate hx hy) hm
  rw [show 3 * u + t + u = t + 4 * u by ring] at this
  exact this

/-- a transform about a pivot -/
theorem close_about (F : FloatRounding) {A B t s : ℝ} {m n : Mat ℚ} {R T : Mat ℝ} (hm : Close A t m R) (hn : Close B s n T) {x y : ℚ} {X Y : ℝ}
    (hx : Near 3 x X) (hy : Near 3 y Y) (he : T.e = 0) (hf : T.f = 0) :
    ∃ R', Close (B * (1 + |X| + |Y|) ^ 2 * A) (t + (s + 9 * u)) (preAbout F m n x y) R' ∧
      ∀ p, R'.pointInMatrixSpace p = R.pointInMatrixSpace (about T.a T.b T.c T.d X Y p) := by
  have hu := u_pos
  refine ⟨Mat.multiply (Mat.translate (-X) (-Y)) (Mat.multiply T (Mat.multiply (Mat.translate X Y) R)), ?_, fun p => ?_⟩
  · have es : B * (1 + |X| + |Y|) ^ 2 * A = (1 + |-X| + |-Y|) * (B * ((1 + |X| + |Y|) * A)) := by rw [abs_neg, abs_neg]; ring
    rw [es]
    by_cases h : x = 0 ∧ y = 0
    · rw [preAbout, if_pos h]
      obtain ⟨rfl, rfl⟩ := h
      have h1 := close_skip (close_translate hx hy) hm
      have h2 := close_mul F hn h1
      have h3 := close_translate (near_neg hx) (near_neg hy)
      rw [neg_zero] at h3
      have h4 := close_skip h3 h2
      exact close_mono h4 (by linarith)
    · rw [preAbout, if_neg h]
      have h1 := close_preTranslate F hm hx hy
      have h2 := close_mul F hn h1
      have h3 := close_preTranslate F h2 (near_neg hx) (near_neg hy)
      exact close_mono h3 (by linarith)
  · rw [point_multiply, point_multiply, point_multiply]
    congr 1
    simp only [Mat.pointInMatrixSpace, Mat.translate, about, he, hf]
    congr 1 <;> ring

/-! ### parameters -/

theorem u_eq : u = 8 * (1 / 2 ^ 53) := by unfold u; norm_num

theorem least_small : (1 : ℝ) / 2 ^ 1074 ≤ 1 / 2 ^ 60 := by
  apply one_div_le_one_div_of_le (by positivity)
  exact pow_le_pow_right₀ (by norm_num) (by norm_num)

theorem least_small' : (1 : ℝ) / 2 ^ 535 ≤ 1 / 2 ^ 60 := by
  apply one_div_le_one_div_of_le (by positivity)
  exact pow_le_pow_right₀ (by norm_num) (by norm_num)

theorem fl_errR (F : FloatRounding) (q : ℚ) : |((F.fl q : ℚ) : ℝ) - q| ≤ |(q : ℝ)| / 2 ^ 53 + 1 / 2 ^ 60 := by
  have h := (Rat.cast_le (K := ℝ)).2 (F.err q)
  push_cast at h
  exact h.trans (add_le_add le_rfl least_small)

theorem near_fl (F : FloatRounding) (q : ℚ) : Near (1 / 8) (F.fl q) q := by
  have h := fl_errR F q
  unfold Near
  rw [u_eq]
  have := abs_nonneg (q : ℝ)
  norm_num at *
  linarith

theorem near_mono {k l : ℝ} {y : ℚ} {x : ℝ} (h : Near k y x) (hkl : k ≤ l) : Near l y x := by
  unfold Near at *
  refine h.trans ?_
  have := u_pos
  gcongr

theorem floatParam_num (F : FloatRounding) {n : List Char} (hn : IsNumber n) : Flt.floatParam F n = .ok (F.fl (floatVal n)) := by
  simp [Flt.floatParam, Props.floatOf_number hn, Except.map]

/-- `y` is a product of rounded numbers, rounded -/
theorem near_product (F : FloatRounding) {q c : ℚ} {d : ℚ} (h1 : 1 ≤ c) (h2 : c ≤ 16) (hd : |d - c| ≤ |c| * 2 / 2 ^ 53) :
    Near 3 (F.fl (F.fl q * d)) ((q : ℝ) * c) := by
  have c1 : (1 : ℝ) ≤ c := by exact_mod_cast h1
  have c2 : (c : ℝ) ≤ 16 := by exact_mod_cast h2
  have hdR := (Rat.cast_le (K := ℝ)).2 hd
  push_cast at hdR
  have hq := fl_errR F q
  have hp := fl_errR F (F.fl q * d)
  push_cast at hp
  unfold Near
  rw [u_eq]
  generalize ((F.fl (F.fl q * d) : ℚ) : ℝ) = y at *
  generalize ((F.fl q : ℚ) : ℝ) = a at *
  generalize (d : ℝ) = d at *
  generalize (q : ℝ) = q at *
  generalize (c : ℝ) = c at *
  have c0 : |c| = c := abs_of_nonneg (by linarith)
  rw [c0] at hdR
  have hdn : |d| ≤ c * (1 + 1 / 2 ^ 52) := by
    have := abs_add_le c (d - c)
    rw [add_sub_cancel, c0] at this
    linarith
  have han : |a| ≤ |q| * (1 + 1 / 2 ^ 53) + 1 / 2 ^ 60 := by
    have := abs_add_le q (a - q)
    rw [add_sub_cancel] at this
    linarith
  have e1 : |a * d| ≤ (|q| * (1 + 1 / 2 ^ 53) + 1 / 2 ^ 60) * (c * (1 + 1 / 2 ^ 52)) := by
    rw [abs_mul]
    exact mul_le_mul han hdn (abs_nonneg _) (by positivity)
  have e2 : |a * d - q * c| ≤ (|q| / 2 ^ 53 + 1 / 2 ^ 60) * (c * (1 + 1 / 2 ^ 52)) + |q| * (c * 2 / 2 ^ 53) := by
    rw [show a * d - q * c = (a - q) * d + q * (d - c) by ring]
    refine (abs_add_le _ _).trans ?_
    rw [abs_mul, abs_mul]
    exact add_le_add (mul_le_mul hq hdn (abs_nonneg _) (by positivity)) (mul_le_mul_of_nonneg_left hdR (abs_nonneg _))
  have e3 := abs_sub_le y (a * d) (q * c)
  rw [abs_mul q c, c0]
  have hqc : 0 ≤ |q| * c := by positivity
  norm_num at *
  nlinarith

theorem lengthParam_near (F : FloatRounding) {p : Param} {x : ℝ} (hn : IsNumber p.1) (h : pixels p = some x) :
    ∃ y, Flt.lengthParam F (p.1 ++ p.2) = .ok y ∧ Near 3 y x := by
  obtain ⟨n, w⟩ := p
  simp only [pixels] at h
  split at h
  · rename_i hu
    injection h with h
    subst h
    refine ⟨F.fl (floatVal n), ?_, near_mono (near_fl F (floatVal n)) (by norm_num)⟩
    rcases hu with rfl | rfl
    · have := LMat.ofString_param hn (u := "".toList) (by decide)
      simp only [Flt.lengthParam, this]
      rfl
    · have := LMat.ofString_param hn (u := "px".toList) (by decide)
      simp only [Flt.lengthParam, this]
      rfl
  · split at h
    · rename_i hu; subst hu
      injection h with h
      subst h
      refine ⟨F.fl (F.fl (floatVal n) * F.fl Len.cPt), ?_, ?_⟩
      · have := LMat.ofString_param hn (u := "pt".toList) (by decide)
        simp only [Flt.lengthParam, this]
        rfl
      · have := near_product F (q := floatVal n) (c := Len.cPt) (d := F.fl Len.cPt) (by norm_num [Len.cPt]) (by norm_num [Len.cPt]) (FloatUnits.pt_err F)
        have e : ((Len.cPt : ℚ) : ℝ) = 13333 / 10000 := by norm_num [Len.cPt]
        rw [e] at this
        exact this
    · split at h
      · rename_i hu; subst hu
        injection h with h
        subst h
        refine ⟨F.fl (F.fl (floatVal n) * 16), ?_, ?_⟩
        · have := LMat.ofString_param hn (u := "pc".toList) (by decide)
          simp only [Flt.lengthParam, this]
          rfl
        · have := near_product F (q := floatVal n) (c := 16) (d := 16) (by norm_num) (by norm_num) (by norm_num)
          push_cast at this
          exact this
      · simp at h

/-- an angle: `k` times a number that was rounded a few times -/
theorem near_angle {q d : ℝ} {y : ℚ} {k r : ℝ} (hk : 0 < k) (hk7 : k ≤ 7) (hr : r ≤ k / 2 ^ 51) (hd : |d - q| ≤ |q| * 3 / 2 ^ 53 + 3 / 2 ^ 60)
    (hy : |(y : ℝ) - k * d| ≤ |d| * r + 1 / 2 ^ 535) : Near 1 y (k * q) := by
  have hl := least_small'
  unfold Near
  rw [u_eq]
  generalize (1 : ℝ) / 2 ^ 535 = z at *
  generalize (y : ℝ) = y at *
  have hdn : |d| ≤ |q| * (1 + 3 / 2 ^ 53) + 3 / 2 ^ 60 := by
    have := abs_add_le q (d - q)
    rw [add_sub_cancel] at this
    linarith
  have e1 : |d| * r ≤ (|q| * (1 + 3 / 2 ^ 53) + 3 / 2 ^ 60) * (k / 2 ^ 51) :=
    (mul_le_mul_of_nonneg_left hr (abs_nonneg _)).trans (mul_le_mul_of_nonneg_right hdn (by positivity))
  have e2 : |k * d - k * q| ≤ k * (|q| * 3 / 2 ^ 53 + 3 / 2 ^ 60) := by
    rw [← mul_sub, abs_mul, abs_of_pos hk]
    exact mul_le_mul_of_nonneg_left hd hk.le
  have e3 := abs_sub_le y (k * d) (k * q)
  rw [abs_mul, abs_of_pos hk]
  have : 0 ≤ k * |q| := by positivity
  norm_num at *
  nlinarith

theorem angleParse_eq (F : FloatRounding) (t : List Char) (h : IsNumber t) :
    angleParse F (t ++ "deg".toList) = .ok (degrees F (F.fl (floatVal t))) ∧
    angleParse F (t ++ "grad".toList) = .ok (gradians F (F.fl (floatVal t))) ∧
    angleParse F (t ++ "rad".toList) = .ok (F.fl (floatVal t)) ∧
    angleParse F (t ++ "turn".toList) = .ok (turns F (F.fl (floatVal t))) ∧
    angleParse F (t ++ ['%']) = .ok (turns F (F.fl (F.fl (floatVal t) / 100))) ∧
    angleParse F t = .ok (degrees F (F.fl (floatVal t))) := by
  have dn : ∀ {d : Char}, IsDigit d → d ≠ 'g' ∧ d ≠ 'd' ∧ d ≠ 'n' ∧ d ≠ '%' := by
    intro d hd
    refine ⟨?_, ?_, ?_, ?_⟩ <;> rintro rfl <;> revert hd <;> unfold IsDigit <;> decide
  have fp : ∀ {s : List Char}, Angle.floatOf s = .ok (floatVal t) → Flt.floatParam F s = .ok (F.fl (floatVal t)) := by
    intro s hs
    simp [Flt.floatParam, hs, Except.map]
  refine ⟨?_, ?_, ?_, ?_, ?_, ?_⟩
  · obtain ⟨r, d, hd, e1, e2⟩ := parse_lower h "deg".toList ['d', 'e', 'g'] (lower_unit (by decide) (by decide))
    have := take_front (r ++ [d]) ['d', 'e', 'g']
    simp only [angleParse, e1, Angle.beforeSuffix, List.suffix_append, if_true, this, fp e2]
    rfl
  · obtain ⟨r, d, hd, e1, e2⟩ := parse_lower h "grad".toList ['g', 'r', 'a', 'd'] (lower_unit (by decide) (by decide))
    have := take_front (r ++ [d]) ['g', 'r', 'a', 'd']
    have n1 : ¬ ['d', 'e', 'g'] <:+ (r ++ [d]) ++ ['g', 'r', 'a', 'd'] := by
      rw [suffix_rev]; simp [List.cons_prefix_cons]
    simp only [angleParse, e1, Angle.beforeSuffix, List.suffix_append, if_true, if_neg n1, this, fp e2]
    rfl
  · obtain ⟨r, d, hd, e1, e2⟩ := parse_lower h "rad".toList ['r', 'a', 'd'] (lower_unit (by decide) (by decide))
    have := take_front (r ++ [d]) ['r', 'a', 'd']
    have n1 : ¬ ['d', 'e', 'g'] <:+ (r ++ [d]) ++ ['r', 'a', 'd'] := by
      rw [suffix_rev]; simp [List.cons_prefix_cons]
    have n2 : ¬ ['g', 'r', 'a', 'd'] <:+ (r ++ [d]) ++ ['r', 'a', 'd'] := by
      rw [suffix_rev]; simp [List.cons_prefix_cons, (dn hd).1.symm]
    simp only [angleParse, e1, Angle.beforeSuffix, List.suffix_append, if_true, if_neg n1, if_neg n2, this, fp e2]
  · obtain ⟨r, d, hd, e1, e2⟩ := parse_lower h "turn".toList ['t', 'u', 'r', 'n'] (lower_unit (by decide) (by decide))
    have := take_front (r ++ [d]) ['t', 'u', 'r', 'n']
    have n1 : ¬ ['d', 'e', 'g'] <:+ (r ++ [d]) ++ ['t', 'u', 'r', 'n'] := by
      rw [suffix_rev]; simp [List.cons_prefix_cons]
    have n2 : ¬ ['g', 'r', 'a', 'd'] <:+ (r ++ [d]) ++ ['t', 'u', 'r', 'n'] := by
      rw [suffix_rev]; simp [List.cons_prefix_cons]
    have n3 : ¬ ['r', 'a', 'd'] <:+ (r ++ [d]) ++ ['t', 'u', 'r', 'n'] := by
      rw [suffix_rev]; simp [List.cons_prefix_cons]
    simp only [angleParse, e1, Angle.beforeSuffix, List.suffix_append, if_true, if_neg n1, if_neg n2, if_neg n3, this, fp e2]
    rfl
  · obtain ⟨r, d, hd, e1, e2⟩ := parse_lower h ['%'] ['%'] (by decide)
    have := take_front (r ++ [d]) ['%']
    have n1 : ¬ ['d', 'e', 'g'] <:+ (r ++ [d]) ++ ['%'] := by
      rw [suffix_rev]; simp [List.cons_prefix_cons]
    have n2 : ¬ ['g', 'r', 'a', 'd'] <:+ (r ++ [d]) ++ ['%'] := by
      rw [suffix_rev]; simp [List.cons_prefix_cons]
    have n3 : ¬ ['r', 'a', 'd'] <:+ (r ++ [d]) ++ ['%'] := by
      rw [suffix_rev]; simp [List.cons_prefix_cons]
    have n4 : ¬ ['t', 'u', 'r', 'n'] <:+ (r ++ [d]) ++ ['%'] := by
      rw [suffix_rev]; simp [List.cons_prefix_cons]
    simp only [angleParse, e1, Angle.beforeSuffix, List.suffix_append, if_true, if_neg n1, if_neg n2, if_neg n3, if_neg n4, this, fp e2]
    rfl
  · obtain ⟨r, d, hd, e1, e2⟩ := parse_lower h [] [] rfl
    rw [List.append_nil, List.append_nil] at e1
    obtain ⟨d1, d2, d3, d4⟩ := dn hd
    have n1 : ¬ ['d', 'e', 'g'] <:+ (r ++ [d]) := by
      rw [suffix_rev]; simp [List.cons_prefix_cons, d1.symm]
    have n2 : ¬ ['g', 'r', 'a', 'd'] <:+ (r ++ [d]) := by
      rw [suffix_rev]; simp [List.cons_prefix_cons, d2.symm]
    have n3 : ¬ ['r', 'a', 'd'] <:+ (r ++ [d]) := by
      rw [suffix_rev]; simp [List.cons_prefix_cons, d2.symm]
    have n4 : ¬ ['t', 'u', 'r', 'n'] <:+ (r ++ [d]) := by
      rw [suffix_rev]; simp [List.cons_prefix_cons, d3.symm]
    have n5 : ¬ ['%'] <:+ (r ++ [d]) := by
      rw [suffix_rev]; simp [List.cons_prefix_cons, d4.symm]
    simp only [angleParse, e1, Angle.beforeSuffix, if_neg n1, if_neg n2, if_neg n3, if_neg n4, if_neg n5, fp e2]
    rfl

theorem angleParse_near {p : Param} {θ : ℝ} (hn : IsNumber p.1) (h : Spec.angle p = some θ) :
    ∃ y, angleParse doubles (p.1 ++ p.2) = .ok y ∧ Near 1 y θ := by
  obtain ⟨n, w⟩ := p
  obtain ⟨p1, p2, p3, p4, p5, p6⟩ := angleParse_eq doubles n hn
  have pi3 := Real.pi_gt_d6
  have pi4 := Real.pi_lt_d6
  have hd : |((doubles.fl (floatVal n) : ℚ) : ℝ) - (floatVal n : ℚ)| ≤ |((floatVal n : ℚ) : ℝ)| * 3 / 2 ^ 53 + 3 / 2 ^ 60 := by
    refine (fl_errR doubles (floatVal n)).trans ?_
    have := abs_nonneg ((floatVal n : ℚ) : ℝ)
    generalize |((floatVal n : ℚ) : ℝ)| = z at *
    norm_num
    linarith
  have deg : Near 1 (degrees doubles (doubles.fl (floatVal n))) (num n / 360 * (2 * Real.pi)) := by
    have := near_angle (k := 2 * Real.pi / 360) (r := 1 / 2 ^ 57) (by positivity) (by linarith) (by linarith) hd
      (y := degrees doubles (doubles.fl (floatVal n)))
      (by have := (C152_units (doubles.fl (floatVal n))).1
          rw [show 2 * Real.pi / 360 * ((doubles.fl (floatVal n) : ℚ) : ℝ) = 2 * Real.pi * ((doubles.fl (floatVal n) : ℚ) : ℝ) / 360 by ring, mul_one_div]
          exact this)
    rw [show num n / 360 * (2 * Real.pi) = 2 * Real.pi / 360 * ((floatVal n : ℚ) : ℝ) by simp only [num]; ring]
    exact this
  simp only [Spec.angle] at h
  split at h
  · rename_i hu
    injection h with h
    subst h
    rcases hu with rfl | rfl
    · refine ⟨_, ?_, deg⟩
      show angleParse doubles (n ++ []) = _
      rw [List.append_nil]
      exact p6
    · exact ⟨_, p1, deg⟩
  · split at h
    · rename_i hu; subst hu
      injection h with h
      subst h
      refine ⟨_, p2, ?_⟩
      have := near_angle (k := 2 * Real.pi / 400) (r := 1 / 2 ^ 57) (by positivity) (by linarith) (by linarith) hd
        (y := gradians doubles (doubles.fl (floatVal n)))
        (by have := (C152_units (doubles.fl (floatVal n))).2.1
            rw [show 2 * Real.pi / 400 * ((doubles.fl (floatVal n) : ℚ) : ℝ) = 2 * Real.pi * ((doubles.fl (floatVal n) : ℚ) : ℝ) / 400 by ring, mul_one_div]
            exact this)
      rw [show num n / 400 * (2 * Real.pi) = 2 * Real.pi / 400 * ((floatVal n : ℚ) : ℝ) by simp only [num]; ring]
      exact this
    · split at h
      · rename_i hu; subst hu
        injection h with h
        subst h
        exact ⟨_, p3, near_mono (near_fl doubles (floatVal n)) (by norm_num)⟩
      · split at h
        · rename_i hu; subst hu
          injection h with h
          subst h
          refine ⟨_, p4, ?_⟩
          have := near_angle (k := 2 * Real.pi) (r := 1 / 2 ^ 49) (by positivity) (by linarith) (by linarith) hd
            (y := turns doubles (doubles.fl (floatVal n)))
            (by have := (C152_units (doubles.fl (floatVal n))).2.2
                rw [mul_one_div]
                exact this)
          rw [show num n * (2 * Real.pi) = 2 * Real.pi * ((floatVal n : ℚ) : ℝ) by simp only [num]; ring]
          exact this
        · split at h
          · rename_i hu; subst hu
            injection h with h
            subst h
            refine ⟨_, p5, ?_⟩
            have h2 := fl_errR doubles (floatVal n)
            have h3 := fl_errR doubles (doubles.fl (floatVal n) / 100)
            have hd' : |((doubles.fl (doubles.fl (floatVal n) / 100) : ℚ) : ℝ) - (floatVal n : ℚ) / 100| ≤ |((floatVal n : ℚ) : ℝ) / 100| * 3 / 2 ^ 53 + 3 / 2 ^ 60 := by
              push_cast at h3
              generalize ((doubles.fl (doubles.fl (floatVal n) / 100) : ℚ) : ℝ) = y at *
              generalize ((doubles.fl (floatVal n) : ℚ) : ℝ) = d at *
              generalize ((floatVal n : ℚ) : ℝ) = q at *
              have e1 : |d| ≤ |q| + |d - q| := by
                have := abs_add_le q (d - q)
                rwa [add_sub_cancel] at this
              have e2 := abs_sub_le y (d / 100) (q / 100)
              have e3 : |d / 100 - q / 100| = |d - q| / 100 := by rw [← sub_div, abs_div, abs_of_pos (by norm_num : (0 : ℝ) < 100)]
              have e4 : |d / 100| = |d| / 100 := by rw [abs_div, abs_of_pos (by norm_num : (0 : ℝ) < 100)]
              have e5 : |q / 100| = |q| / 100 := by rw [abs_div, abs_of_pos (by norm_num : (0 : ℝ) < 100)]
              rw [e3] at e2
              rw [e4] at h3
              rw [e5]
              have := abs_nonneg q
              norm_num at *
              linarith
            have := near_angle (k := 2 * Real.pi) (r := 1 / 2 ^ 49) (by positivity) (by linarith) (by linarith) hd'
              (y := turns doubles (doubles.fl (doubles.fl (floatVal n) / 100)))
              (by have := (C152_units (doubles.fl (doubles.fl (floatVal n) / 100))).2.2
                  rw [mul_one_div]
                  exact this)
            rw [show num n / 100 * (2 * Real.pi) = 2 * Real.pi * (((floatVal n : ℚ) : ℝ) / 100) by simp only [num]; ring]
            exact this
          · simp at h

/-! ### transforms -/

theorem close_rotate (T : FloatTrig) {y : ℚ} {θ : ℝ} (h : Near 1 y θ) : Close 2 (u * (2 + |θ|)) (Flt.rotate T y) (Mat.rotate θ) := by
  have hu := u_pos
  have := abs_nonneg θ
  have c1 := T.cos_err y
  have s1 := T.sin_err y
  have c2 := (Real.abs_cos_sub_cos_le (y : ℝ) θ).trans h
  have s2 := (Real.abs_sin_sub_sin_le (y : ℝ) θ).trans h
  have c3 := abs_sub_le (T.cos y : ℝ) (Real.cos y) (Real.cos θ)
  have s3 := abs_sub_le (T.sin y : ℝ) (Real.sin y) (Real.sin θ)
  have c4 := Real.abs_cos_le_one θ
  have s4 := Real.abs_sin_le_one θ
  have hk : (1 : ℝ) / 2 ^ 52 = u / 4 := by unfold u; norm_num
  rw [hk] at c1 s1
  have e1 : |-(T.sin y : ℝ) - -Real.sin θ| = |(T.sin y : ℝ) - Real.sin θ| := by
    rw [← abs_neg]; congr 1; ring
  refine close_of ⟨by norm_num, ?_, ?_⟩ (by positivity) ⟨?_, ?_⟩
  · simp only [Mat.rotate, abs_neg, abs_zero]; linarith
  · simp only [Mat.rotate, abs_zero]; linarith
  · simp only [toR, Flt.rotate, Mat.rotate]
    push_cast
    rw [e1, sub_self, abs_zero]
    nlinarith
  · simp only [toR, Flt.rotate, Mat.rotate]
    push_cast
    rw [sub_self, abs_zero]
    nlinarith

theorem close_scale {A s t : ℝ} {x y : ℚ} (hA : 1 ≤ A) (hs : |s| ≤ A) (ht : |t| ≤ A) (hx : Near (1 / 8) x s) (hy : Near (1 / 8) y t) :
    Close A u ⟨x, 0, 0, y, 0, 0⟩ ⟨s, 0, 0, t, 0, 0⟩ := by
  have hu := u_pos
  unfold Near at hx hy
  refine close_of ⟨hA, by simpa using hs, by simpa using ht⟩ hu.le ⟨?_, ?_⟩
  · simp only [toR, Rat.cast_zero, sub_self, abs_zero, add_zero]
    nlinarith
  · simp only [toR, Rat.cast_zero, sub_self, abs_zero, add_zero, zero_add]
    nlinarith

theorem close_matrix {A B C D X Y : ℝ} {a b c d x y : ℚ} (ha : Near (1 / 8) a A) (hb : Near (1 / 8) b B) (hc : Near (1 / 8) c C)
    (hd : Near (1 / 8) d D) (hx : Near (1 / 8) x X) (hy : Near (1 / 8) y Y) :
    Close (1 + (|A| + (|B| + (|C| + (|D| + (|X| + |Y|)))))) u ⟨a, b, c, d, x, y⟩ ⟨A, B, C, D, X, Y⟩ := by
  have hu := u_pos
  unfold Near at *
  have := abs_nonneg A
  have := abs_nonneg B
  have := abs_nonneg C
  have := abs_nonneg D
  have := abs_nonneg X
  have := abs_nonneg Y
  refine close_of ⟨by linarith, by simp only; linarith, by simp only; linarith⟩ hu.le ⟨?_, ?_⟩
  · simp only [toR]
    nlinarith [mul_nonneg hu.le ‹0 ≤ |A|›, mul_nonneg hu.le ‹0 ≤ |B|›, mul_nonneg hu.le ‹0 ≤ |C|›, mul_nonneg hu.le ‹0 ≤ |D|›, mul_nonneg hu.le ‹0 ≤ |X|›, mul_nonneg hu.le ‹0 ≤ |Y|›]
  · simp only [toR]
    nlinarith [mul_nonneg hu.le ‹0 ≤ |A|›, mul_nonneg hu.le ‹0 ≤ |B|›, mul_nonneg hu.le ‹0 ≤ |C|›, mul_nonneg hu.le ‹0 ≤ |D|›, mul_nonneg hu.le ‹0 ≤ |X|›, mul_nonneg hu.le ‹0 ≤ |Y|›]

/-- the tangent of a rounded angle -/
theorem tan_near (T : FloatTrig) {y : ℚ} {θ : ℝ} (h : Near 1 y θ) (hc : Real.cos θ ≠ 0) (hb : 4 * ((1 + |θ|) * (1 + |Real.tan θ|)) ≤ 2 ^ 48) :
    |(T.tan y : ℝ) - Real.tan θ| ≤ (1 + |Real.tan θ|) * (u * (1 + 4 * ((1 + |θ|) * (1 + |Real.tan θ|)))) := by
  have hu := u_pos
  have ht := T.tan_err y
  have hk : |Real.tan (y : ℝ)| / 2 ^ 52 = |Real.tan (y : ℝ)| * (u / 4) := by unfold u; ring
  rw [hk] at ht
  unfold Near at h
  rw [one_mul, add_comm |θ| 1] at h
  have c1 : 1 ≤ |Real.cos θ| * (1 + |Real.tan θ|) := by
    have e : |Real.cos θ| * (1 + |Real.tan θ|) = |Real.cos θ| + |Real.sin θ| := by
      rw [mul_add, mul_one, ← abs_mul, mul_comm (Real.cos θ), Real.tan_mul_cos hc]
    rw [e]
    have s1 := Real.sin_sq_add_cos_sq θ
    rw [← sq_abs, ← sq_abs (Real.cos θ)] at s1
    nlinarith [Real.abs_cos_le_one θ, Real.abs_sin_le_one θ, abs_nonneg (Real.cos θ), abs_nonneg (Real.sin θ)]
  have hcp : 0 < |Real.cos θ| := abs_pos.2 hc
  have hδ : u * (1 + |θ|) * (1 + |Real.tan θ|) ≤ 1 / 16 := by
    have : u * (4 * ((1 + |θ|) * (1 + |Real.tan θ|))) ≤ u * 2 ^ 48 := mul_le_mul_of_nonneg_left hb hu.le
    have e : u * 2 ^ 48 = 1 / 4 := by unfold u; norm_num
    rw [e] at this
    linarith
  have hT : 0 ≤ |Real.tan θ| := abs_nonneg _
  have hδc : u * (1 + |θ|) ≤ |Real.cos θ| / 16 := by
    have h1 : u * (1 + |θ|) * 1 ≤ u * (1 + |θ|) * (|Real.cos θ| * (1 + |Real.tan θ|)) := mul_le_mul_of_nonneg_left c1 (by positivity)
    have h2 : u * (1 + |θ|) * (1 + |Real.tan θ|) * |Real.cos θ| ≤ 1 / 16 * |Real.cos θ| := mul_le_mul_of_nonneg_right hδ hcp.le
    linarith
  have hcy : 15 / 16 * |Real.cos θ| ≤ |Real.cos (y : ℝ)| := by
    have h1 := (Real.abs_cos_sub_cos_le (y : ℝ) θ).trans h
    have h2 := abs_sub_abs_le_abs_sub (Real.cos θ) (Real.cos (y : ℝ))
    rw [abs_sub_comm] at h2
    linarith
  have hcy0 : Real.cos (y : ℝ) ≠ 0 := by
    intro h0
    rw [h0, abs_zero] at hcy
    linarith
  have hD : |Real.tan (y : ℝ) - Real.tan θ| ≤ 16 / 15 * (u * (1 + |θ|)) * (1 + |Real.tan θ|) ^ 2 := by
    have e : Real.tan (y : ℝ) - Real.tan θ = Real.sin (y - θ) / (Real.cos y * Real.cos θ) := by
      rw [Real.tan_eq_sin_div_cos, Real.tan_eq_sin_div_cos, div_sub_div _ _ hcy0 hc, Real.sin_sub]
    rw [e, abs_div, abs_mul, div_le_iff₀ (by positivity)]
    have s1 : |Real.sin (y - θ)| ≤ u * (1 + |θ|) := (Real.abs_sin_le_abs).trans h
    have k : 1 ≤ |Real.cos θ| ^ 2 * (1 + |Real.tan θ|) ^ 2 := by
      rw [← mul_pow]
      exact one_le_pow₀ c1
    calc |Real.sin (y - θ)| ≤ u * (1 + |θ|) * 1 := by linarith
      _ ≤ u * (1 + |θ|) * (|Real.cos θ| ^ 2 * (1 + |Real.tan θ|) ^ 2) := mul_le_mul_of_nonneg_left k (by positivity)
      _ = 16 / 15 * (u * (1 + |θ|)) * (1 + |Real.tan θ|) ^ 2 * (15 / 16 * |Real.cos θ| * |Real.cos θ|) := by ring
      _ ≤ 16 / 15 * (u * (1 + |θ|)) * (1 + |Real.tan θ|) ^ 2 * (|Real.cos (y : ℝ)| * |Real.cos θ|) := by gcongr
  have h3 := abs_sub_le (T.tan y : ℝ) (Real.tan y) (Real.tan θ)
  have h4 : |Real.tan (y : ℝ)| ≤ |Real.tan θ| + |Real.tan (y : ℝ) - Real.tan θ| := by
    have := abs_add_le (Real.tan θ) (Real.tan (y : ℝ) - Real.tan θ)
    rwa [add_sub_cancel] at this
  have u1 : u ≤ 1 := by unfold u; norm_num
  have hD0 := abs_nonneg (Real.tan (y : ℝ) - Real.tan θ)
  have hW : 0 ≤ u * (1 + |θ|) * (1 + |Real.tan θ|) ^ 2 := by positivity
  generalize |Real.tan (y : ℝ) - Real.tan θ| = D at *
  generalize |Real.tan (y : ℝ)| = Y at *
  generalize |Real.tan θ| = τ at *
  generalize |(T.tan y : ℝ) - Real.tan θ| = G at *
  generalize |θ| = w at *
  have e1 : Y * (u / 4) ≤ (τ + D) * (u / 4) := mul_le_mul_of_nonneg_right h4 (by positivity)
  have e2 : D * (u / 4) ≤ D * (1 / 4) := mul_le_mul_of_nonneg_left (by linarith) hD0
  have e3 : (1 + τ) * (u * (1 + 4 * ((1 + w) * (1 + τ)))) = u * (1 + τ) + 4 * (u * (1 + w) * (1 + τ) ^ 2) := by ring
  have e4 : 16 / 15 * (u * (1 + w)) * (1 + τ) ^ 2 = 16 / 15 * (u * (1 + w) * (1 + τ) ^ 2) := by ring
  rw [e3]
  rw [e4] at hD
  have e5 : 0 ≤ u * τ := by positivity
  linarith

theorem close_skew {α β κ l : ℝ} {x y : ℚ} (hκ : 0 ≤ κ) (hl : 0 ≤ l) (hx : |(x : ℝ) - Real.tan α| ≤ (1 + |Real.tan α|) * (u * (1 + κ)))
    (hy : |(y : ℝ) - Real.tan β| ≤ (1 + |Real.tan β|) * (u * (1 + l))) :
    Close (1 + (|Real.tan α| + |Real.tan β|)) (u * (1 + (κ + l))) ⟨1, y, x, 1, 0, 0⟩ (Mat.skew α β) := by
  have hu := u_pos
  have hα := abs_nonneg (Real.tan α)
  have hβ := abs_nonneg (Real.tan β)
  refine close_of ⟨by linarith, ?_, ?_⟩ (by positivity) ⟨?_, ?_⟩
  · simp only [Mat.skew, abs_one, abs_zero]; linarith
  · simp only [Mat.skew, abs_one, abs_zero]; linarith
  · simp only [toR, Mat.skew, Rat.cast_one, Rat.cast_zero, sub_self, abs_zero, add_zero, zero_add]
    refine hx.trans (mul_le_mul (by linarith) (mul_le_mul_of_nonneg_left (by linarith) hu.le) (by positivity) (by positivity))
  · simp only [toR, Mat.skew, Rat.cast_one, Rat.cast_zero, sub_self, abs_zero, add_zero]
    refine hy.trans (mul_le_mul (by linarith) (mul_le_mul_of_nonneg_left (by linarith) hu.le) (by positivity) (by positivity))

theorem tan_zero_near (T : FloatTrig) : |(T.tan 0 : ℝ) - Real.tan 0| ≤ (1 + |Real.tan 0|) * (u * (1 + 0)) := by
  have h := T.tan_err 0
  have hu := u_pos
  rw [Rat.cast_zero, Real.tan_zero, abs_zero, zero_div] at h
  rw [Real.tan_zero, abs_zero]
  linarith

/-! ### one function of the list -/

theorem pivot_near (F : FloatRounding) {ps : List Param} {X Y : ℝ} (h : Pivot pixels pixels ps X Y) (hp : ∀ p ∈ ps, IsNumber p.1 ∧ p.2 ∈ unitTexts)
    (m n : Mat ℚ) : ∃ x y, Flt.pivot F m n (LMat.texts ps) = .ok (preAbout F m n x y) ∧ Near 3 x X ∧ Near 3 y Y ∧ 1 + reach ps = 1 + |X| + |Y| := by
  cases h with
  | none => exact ⟨0, 0, rfl, near_zero (by norm_num), near_zero (by norm_num), by simp [reach]⟩
  | @x p x hx =>
    obtain ⟨a, ha, na⟩ := lengthParam_near F (hp p (by simp)).1 hx
    refine ⟨a, 0, ?_, na, near_zero (by norm_num), by simp [reach, hx]⟩
    simp only [LMat.texts, List.map_cons, List.map_nil, Flt.pivot, ha, bind, Except.bind, pure, Except.pure]
  | @xy p q x y hx hy =>
    obtain ⟨a, ha, na⟩ := lengthParam_near F (hp p (by simp)).1 hx
    obtain ⟨b, hb, nb⟩ := lengthParam_near F (hp q (by simp)).1 hy
    refine ⟨a, b, ?_, na, nb, by simp [reach, hx, hy, add_assoc]⟩
    simp only [LMat.texts, List.map_cons, List.map_nil, Flt.pivot, ha, hb, bind, Except.bind, pure, Except.pure]

theorem growth_matrix (ps : List Param) : growth ("matrix".toList, ps) = 1 + absSum ps := by rw [growth, if_pos rfl]

theorem growth_translate {n : List Char} (hn : n = "translate".toList ∨ n = "translatex".toList ∨ n = "translatey".toList) (ps : List Param) :
    growth (n, ps) = 1 + reach ps := by
  have h1 : n ≠ "matrix".toList := by rcases hn with rfl | rfl | rfl <;> decide
  rw [growth, if_neg h1, if_pos hn]

theorem growth_scale {n : List Char} (hn : n = "scale".toList ∨ n = "scalex".toList ∨ n = "scaley".toList) (ps : List Param) :
    growth (n, ps) = (1 + absSum (ps.take 2)) * (1 + reach (ps.drop 2)) ^ 2 := by
  have h1 : n ≠ "matrix".toList := by rcases hn with rfl | rfl | rfl <;> decide
  have h2 : ¬ (n = "translate".toList ∨ n = "translatex".toList ∨ n = "translatey".toList) := by rcases hn with rfl | rfl | rfl <;> decide
  rw [growth, if_neg h1, if_neg h2, if_pos hn]

theorem growth_rotate (ps : List Param) : growth ("rotate".toList, ps) = 2 * (1 + reach (ps.drop 1)) ^ 2 := by
  rw [growth]
  dsimp only
  rw [if_neg (by decide), if_neg (by decide), if_neg (by decide), if_pos rfl]

theorem growth_skew {n : List Char} (hn : n = "skew".toList ∨ n = "skewx".toList ∨ n = "skewy".toList) (ps : List Param) :
    growth (n, ps) = (1 + ((skewAngles n ps).1.map fun p => |Real.tan ((Spec.angle p).getD 0)|).sum) * (1 + reach (skewAngles n ps).2) ^ 2 := by
  have h1 : n ≠ "matrix".toList := by rcases hn with rfl | rfl | rfl <;> decide
  have h2 : ¬ (n = "translate".toList ∨ n = "translatex".toList ∨ n = "translatey".toList) := by rcases hn with rfl | rfl | rfl <;> decide
  have h3 : ¬ (n = "scale".toList ∨ n = "scalex".toList ∨ n = "scaley".toList) := by rcases hn with rfl | rfl | rfl <;> decide
  have h4 : n ≠ "rotate".toList := by rcases hn with rfl | rfl | rfl <;> decide
  rw [growth, if_neg h1, if_neg h2, if_neg h3, if_neg h4]

theorem roundings_plain {n : List Char} (h1 : n ≠ "rotate".toList) (h2 : ¬ (n = "skew".toList ∨ n = "skewx".toList ∨ n = "skewy".toList)) (ps : List Param) :
    roundings (n, ps) = 10 := by rw [roundings, if_neg h1, if_neg h2]

theorem roundings_skew {n : List Char} (hn : n = "skew".toList ∨ n = "skewx".toList ∨ n = "skewy".toList) (ps : List Param) :
    roundings (n, ps) = 10 + 4 * ((skewAngles n ps).1.map fun p => (1 + |(Spec.angle p).getD 0|) * (1 + |Real.tan ((Spec.angle p).getD 0)|)).sum := by
  have h4 : n ≠ "rotate".toList := by rcases hn with rfl | rfl | rfl <;> decide
  rw [roundings, if_neg h4, if_pos hn]

theorem step_near (T : FloatTrig) {A t : ℝ} {m : Mat ℚ} {R : Mat ℝ} (hm : Close A t m R) {f : List Char × List Param} {φ : Pt ℝ → Pt ℝ}
    (h : Acts pixels pixels f φ) (hp : ∀ p ∈ f.2, IsNumber p.1 ∧ p.2 ∈ unitTexts) (hk : Skewable f) (hc : roundings f ≤ 2 ^ 48) :
    ∃ m' R', Flt.step doubles T m f.1 (LMat.texts f.2) = .ok m' ∧ Close (growth f * A) (t + roundings f * u) m' R' ∧
      ∀ p, R'.pointInMatrixSpace p = R.pointInMatrixSpace (φ p) := by
  have hu := u_pos
  have hrot : ∀ θ x y q, about (Mat.rotate θ).a (Mat.rotate θ).b (Mat.rotate θ).c (Mat.rotate θ).d x y q = rotateAbout θ x y q := by
    intro θ x y q; ext <;> simp [about, rotateAbout, Mat.rotate] <;> ring
  have hskew : ∀ α β x y q, about (Mat.skew α β).a (Mat.skew α β).b (Mat.skew α β).c (Mat.skew α β).d x y q = skewAbout α β x y q := by
    intro α β x y q; ext <;> simp [about, skewAbout, Mat.skew] <;> ring
  have hscale : ∀ s t x y q : _, about s 0 0 t x y q = scaleAbout (K := ℝ) s t x y q := by
    intro s t x y q; ext <;> simp [about, scaleAbout]
  have z3 : Near 3 0 0 := near_zero (by norm_num)
  have one8 : Near (1 / 8) 1 1 := by unfold Near; norm_num; positivity
  have plain : ∀ n x, pixels (n, []) = some x → x = num n := by
    intro n x hx
    have : pixels (n, []) = some (num n) := by simp [pixels]
    rw [this] at hx
    injection hx with hx
    exact hx.symm
  cases h with
  | @matrix a b c d e f x y hx hy =>
    have fa := floatParam_num doubles (hp (a, []) (by simp)).1
    have fb := floatParam_num doubles (hp (b, []) (by simp)).1
    have fc := floatParam_num doubles (hp (c, []) (by simp)).1
    have fd := floatParam_num doubles (hp (d, []) (by simp)).1
    have fe := floatParam_num doubles (hp (e, []) (by simp)).1
    have ff := floatParam_num doubles (hp (f, []) (by simp)).1
    simp only at fa fb fc fd fe ff
    obtain rfl := plain _ _ hx
    obtain rfl := plain _ _ hy
    have k := close_mul doubles (close_matrix (near_fl doubles (floatVal a)) (near_fl doubles (floatVal b)) (near_fl doubles (floatVal c))
      (near_fl doubles (floatVal d)) (near_fl doubles (floatVal e)) (near_fl doubles (floatVal f))) hm
    refine ⟨preCat doubles m ⟨doubles.fl (floatVal a), doubles.fl (floatVal b), doubles.fl (floatVal c), doubles.fl (floatVal d),
      doubles.fl (floatVal e), doubles.fl (floatVal f)⟩, Mat.multiply ⟨num a, num b, num c, num d, num e, num f⟩ R, ?_,
      close_mono (t := u + t + u) ?_ ?_, fun p => ?_⟩
    · simp [Flt.step, LMat.texts, List.mapM_cons, fa, fb, fc, fd, fe, ff, bind, Except.bind, pure, Except.pure]
    · rw [growth_matrix]
      have e : 1 + absSum [(a, []), (b, []), (c, []), (d, []), (e, []), (f, [])] = 1 + (|num a| + (|num b| + (|num c| + (|num d| + (|num e| + |num f|))))) := by
        simp [absSum]
      rw [e]
      exact k
    · rw [roundings_plain (by decide) (by decide)]; linarith
    · rw [point_multiply]
      congr 1
      ext <;> simp [Mat.pointInMatrixSpace] <;> ring
  | @translate ps x y h hne =>
    have e4 : t + 4 * u ≤ t + roundings ("translate".toList, ps) * u := by rw [roundings_plain (by decide) (by decide)]; linarith
    have fin : ∀ (X Y : ℝ) p, (Mat.multiply (Mat.translate X Y) R).pointInMatrixSpace p = R.pointInMatrixSpace ⟨p.x + X, p.y + Y⟩ := by
      intro X Y p
      rw [point_multiply]
      congr 1
      ext <;> simp [Mat.pointInMatrixSpace, Mat.translate]
    cases h with
    | none => exact absurd rfl hne
    | @x p x hx =>
      obtain ⟨a, ha, na⟩ := lengthParam_near doubles (hp p (by simp)).1 hx
      refine ⟨preTranslate doubles m a 0, _, ?_, close_mono ?_ e4, fin x 0⟩
      · simp [Flt.step, LMat.texts, ha, bind, Except.bind, pure, Except.pure]
      · have := close_preTranslate doubles hm na z3
        rw [growth_translate (by decide)]
        rw [show 1 + reach [p] = 1 + |x| + |0| by simp [reach, hx]]
        exact this
    | @xy p q x y hx hy =>
      obtain ⟨a, ha, na⟩ := lengthParam_near doubles (hp p (by simp)).1 hx
      obtain ⟨b, hb, nb⟩ := lengthParam_near doubles (hp q (by simp)).1 hy
      refine ⟨preTranslate doubles m a b, _, ?_, close_mono ?_ e4, fin x y⟩
      · simp [Flt.step, LMat.texts, ha, hb, bind, Except.bind, pure, Except.pure]
      · have := close_preTranslate doubles hm na nb
        rw [growth_translate (by decide)]
        rw [show 1 + reach [p, q] = 1 + |x| + |y| by simp [reach, hx, hy, add_assoc]]
        exact this
  | @translateX p x hx =>
    obtain ⟨a, ha, na⟩ := lengthParam_near doubles (hp p (by simp)).1 hx
    refine ⟨preTranslate doubles m a 0, Mat.multiply (Mat.translate x 0) R, ?_, close_mono (t := t + 4 * u) ?_ ?_, fun p => ?_⟩
    · simp [Flt.step, LMat.texts, ha, bind, Except.bind, pure, Except.pure]
    · have := close_preTranslate doubles hm na z3
      rw [growth_translate (by decide)]
      rw [show 1 + reach [p] = 1 + |x| + |0| by simp [reach, hx]]
      exact this
    · rw [roundings_plain (by decide) (by decide)]; linarith
    · rw [point_multiply]
      congr 1
      ext <;> simp [Mat.pointInMatrixSpace, Mat.translate]
  | @translateY p y hy =>
    obtain ⟨a, ha, na⟩ := lengthParam_near doubles (hp p (by simp)).1 hy
    refine ⟨preTranslate doubles m 0 a, Mat.multiply (Mat.translate 0 y) R, ?_, close_mono (t := t + 4 * u) ?_ ?_, fun p => ?_⟩
    · simp [Flt.step, LMat.texts, ha, bind, Except.bind, pure, Except.pure]
    · have := close_preTranslate doubles hm z3 na
      rw [growth_translate (by decide)]
      rw [show 1 + reach [p] = 1 + |0| + |y| by simp [reach, hy]]
      exact this
    · rw [roundings_plain (by decide) (by decide)]; linarith
    · rw [point_multiply]
      congr 1
      ext <;> simp [Mat.pointInMatrixSpace, Mat.translate]
  | @scale s =>
    have fs := floatParam_num doubles (hp (s, []) (by simp)).1
    simp only at fs
    have a0 := abs_nonneg (num s)
    have k := close_scale (A := 1 + |num s|) (s := num s) (t := num s) (by linarith) (by linarith) (by linarith) (near_fl doubles (floatVal s)) (near_fl doubles (floatVal s))
    obtain ⟨R', h1, h2⟩ := close_about doubles hm k z3 z3 rfl rfl
    refine ⟨_, R', ?_, close_mono (t := t + (u + 9 * u)) (m := preScale doubles m (doubles.fl (floatVal s)) (doubles.fl (floatVal s)) 0 0) ?_ ?_, fun p => ?_⟩
    · simp [Flt.step, LMat.texts, fs, bind, Except.bind, pure, Except.pure]
    · rw [growth_scale (by decide)]
      rw [show (1 + absSum ([((s, []) : Param)].take 2)) * (1 + reach ([((s, []) : Param)].drop 2)) ^ 2 = (1 + |num s|) * (1 + |0| + |0|) ^ 2 by simp [absSum, reach]]
      exact h1
    · rw [roundings_plain (by decide) (by decide)]; linarith
    · rw [h2, hscale]
  | @scaleXY s r ps x y h hu' =>
    have fs := floatParam_num doubles (hp (s, []) (by simp)).1
    have ft := floatParam_num doubles (hp (r, []) (by simp)).1
    simp only at fs ft
    have a0 := abs_nonneg (num s)
    have b0 := abs_nonneg (num r)
    have k := close_scale (A := 1 + (|num s| + |num r|)) (s := num s) (t := num r) (by linarith) (by linarith) (by linarith) (near_fl doubles (floatVal s)) (near_fl doubles (floatVal r))
    have er : t + (u + 9 * u) ≤ t + roundings ("scale".toList, (s, []) :: (r, []) :: ps) * u := by
      rw [roundings_plain (by decide) (by decide)]; linarith
    have eg : growth ("scale".toList, (s, []) :: (r, []) :: ps) = (1 + (|num s| + |num r|)) * (1 + reach ps) ^ 2 := by
      rw [growth_scale (by decide)]; simp [absSum]
    rw [eg]
    cases h with
    | none =>
      obtain ⟨R', h1, h2⟩ := close_about doubles hm k z3 z3 rfl rfl
      refine ⟨preScale doubles m (doubles.fl (floatVal s)) (doubles.fl (floatVal r)) 0 0, R', ?_, close_mono ?_ er, fun p => by rw [h2, hscale]⟩
      · simp [Flt.step, LMat.texts, fs, ft, bind, Except.bind, pure, Except.pure]
      · rw [show 1 + reach [] = 1 + |0| + |0| by simp [reach]]
        exact h1
    | @x p x hx =>
      obtain ⟨n, w⟩ := p
      obtain rfl : w = [] := hu' (n, w) (by simp)
      have fn := floatParam_num doubles (hp (n, []) (by simp)).1
      simp only at fn
      obtain rfl := plain _ _ hx
      obtain ⟨R', h1, h2⟩ := close_about doubles hm k (near_mono (near_fl doubles (floatVal n)) (by norm_num)) z3 rfl rfl
      refine ⟨preScale doubles m (doubles.fl (floatVal s)) (doubles.fl (floatVal r)) (doubles.fl (floatVal n)) 0, R', ?_, close_mono ?_ er, fun p => by rw [h2, hscale]; rfl⟩
      · simp [Flt.step, LMat.texts, fs, ft, fn, bind, Except.bind, pure, Except.pure]
      · rw [show 1 + reach [(n, [])] = 1 + |num n| + |0| by simp [reach, hx]]
        exact h1
    | @xy p q x y hx hy =>
      obtain ⟨n, w⟩ := p
      obtain ⟨k', w'⟩ := q
      obtain rfl : w = [] := hu' (n, w) (by simp)
      obtain rfl : w' = [] := hu' (k', w') (by simp)
      have fn := floatParam_num doubles (hp (n, []) (by simp)).1
      have fk := floatParam_num doubles (hp (k', []) (by simp)).1
      simp only at fn fk
      obtain rfl := plain _ _ hx
      obtain rfl := plain _ _ hy
      obtain ⟨R', h1, h2⟩ := close_about doubles hm k (near_mono (near_fl doubles (floatVal n)) (by norm_num)) (near_mono (near_fl doubles (floatVal k')) (by norm_num)) rfl rfl
      refine ⟨preScale doubles m (doubles.fl (floatVal s)) (doubles.fl (floatVal r)) (doubles.fl (floatVal n)) (doubles.fl (floatVal k')), R', ?_, close_mono ?_ er, fun p => by rw [h2, hscale]; rfl⟩
      · simp [Flt.step, LMat.texts, fs, ft, fn, fk, bind, Except.bind, pure, Except.pure]
      · rw [show 1 + reach [(n, []), (k', [])] = 1 + |num n| + |num k'| by simp [reach, hx, hy, add_assoc]]
        exact h1
  | @scaleX s =>
    have fs := floatParam_num doubles (hp (s, []) (by simp)).1
    simp only at fs
    have a0 := abs_nonneg (num s)
    have k := close_scale (A := 1 + |num s|) (s := num s) (t := 1) (by linarith) (by linarith) (by rw [abs_one]; linarith) (near_fl doubles (floatVal s)) one8
    obtain ⟨R', h1, h2⟩ := close_about doubles hm k z3 z3 rfl rfl
    refine ⟨_, R', ?_, close_mono (t := t + (u + 9 * u)) (m := preScale doubles m (doubles.fl (floatVal s)) 1 0 0) ?_ ?_, fun p => ?_⟩
    · simp [Flt.step, LMat.texts, fs, bind, Except.bind, pure, Except.pure]
    · rw [growth_scale (by decide)]
      rw [show (1 + absSum ([((s, []) : Param)].take 2)) * (1 + reach ([((s, []) : Param)].drop 2)) ^ 2 = (1 + |num s|) * (1 + |0| + |0|) ^ 2 by simp [absSum, reach]]
      exact h1
    · rw [roundings_plain (by decide) (by decide)]; linarith
    · rw [h2, hscale]
  | @scaleY s =>
    have fs := floatParam_num doubles (hp (s, []) (by simp)).1
    simp only at fs
    have a0 := abs_nonneg (num s)
    have k := close_scale (A := 1 + |num s|) (s := 1) (t := num s) (by linarith) (by rw [abs_one]; linarith) (by linarith) one8 (near_fl doubles (floatVal s))
    obtain ⟨R', h1, h2⟩ := close_about doubles hm k z3 z3 rfl rfl
    refine ⟨_, R', ?_, close_mono (t := t + (u + 9 * u)) (m := preScale doubles m 1 (doubles.fl (floatVal s)) 0 0) ?_ ?_, fun p => ?_⟩
    · simp [Flt.step, LMat.texts, fs, bind, Except.bind, pure, Except.pure]
    · rw [growth_scale (by decide)]
      rw [show (1 + absSum ([((s, []) : Param)].take 2)) * (1 + reach ([((s, []) : Param)].drop 2)) ^ 2 = (1 + |num s|) * (1 + |0| + |0|) ^ 2 by simp [absSum, reach]]
      exact h1
    · rw [roundings_plain (by decide) (by decide)]; linarith
    · rw [h2, hscale]
  | @rotate a ps θ x y ha hpv =>
    obtain ⟨b, hb, nb⟩ := angleParse_near (hp a (by simp)).1 ha
    obtain ⟨x', y', h1, nx, ny, hr⟩ := pivot_near doubles hpv (fun p h => hp p (by simp [h])) m (Flt.rotate T b)
    obtain ⟨R', h2, h3⟩ := close_about doubles hm (close_rotate T nb) nx ny rfl rfl
    refine ⟨preAbout doubles m (Flt.rotate T b) x' y', R', ?_, close_mono (t := t + (u * (2 + |θ|) + 9 * u)) ?_ ?_, fun p => by rw [h3, hrot]⟩
    · simp only [LMat.texts] at h1
      simp [Flt.step, LMat.texts, hb, bind, Except.bind, h1]
    · rw [growth_rotate]
      simp only [List.drop_succ_cons, List.drop_zero]
      rw [hr]
      exact h2
    · rw [roundings, if_pos rfl]
      simp only [List.take_succ_cons, List.take_zero, List.map_cons, List.map_nil, List.sum_cons, List.sum_nil, ha, Option.getD_some]
      linarith
  | @skew a b ps α β x y ha hb hpv =>
    have hα := hk (Or.inl rfl) a (by simp [skewAngles]) α ha
    have hβ := hk (Or.inl rfl) b (by simp [skewAngles]) β hb
    have ec : roundings ("skew".toList, a :: b :: ps) = 10 + 4 * ((1 + |α|) * (1 + |Real.tan α|) + (1 + |β|) * (1 + |Real.tan β|)) := by
      rw [roundings_skew (by decide)]
      simp [skewAngles, ha, hb]
    have eg : growth ("skew".toList, a :: b :: ps) = (1 + (|Real.tan α| + |Real.tan β|)) * (1 + reach ps) ^ 2 := by
      rw [growth_skew (by decide)]
      simp [skewAngles, ha, hb]
    rw [ec] at hc ⊢
    rw [eg]
    have p1 : 0 ≤ 4 * ((1 + |α|) * (1 + |Real.tan α|)) := by positivity
    have p2 : 0 ≤ 4 * ((1 + |β|) * (1 + |Real.tan β|)) := by positivity
    obtain ⟨a', ha', na⟩ := angleParse_near (hp a (by simp)).1 ha
    obtain ⟨b', hb', nb⟩ := angleParse_near (hp b (by simp)).1 hb
    obtain ⟨x', y', h1, nx, ny, hr⟩ := pivot_near doubles hpv (fun p h => hp p (by simp [h])) m (Flt.skew T a' b')
    obtain ⟨R', h2, h3⟩ := close_about doubles hm (close_skew p1 p2 (tan_near T na hα (by linarith)) (tan_near T nb hβ (by linarith))) nx ny rfl rfl
    rw [← hr] at h2
    refine ⟨preAbout doubles m (Flt.skew T a' b') x' y', R', ?_, close_mono h2 (by linarith), fun p => by rw [h3, hskew]⟩
    · simp only [LMat.texts] at h1
      simp [Flt.step, LMat.texts, ha', hb', bind, Except.bind, h1]
  | @skewX a ps α x y ha hpv =>
    have hα := hk (Or.inr (Or.inl rfl)) a (by simp [skewAngles]) α ha
    have ec : roundings ("skewx".toList, a :: ps) = 10 + 4 * ((1 + |α|) * (1 + |Real.tan α|)) := by
      rw [roundings_skew (by decide)]
      simp [skewAngles, ha]
    have eg : growth ("skewx".toList, a :: ps) = (1 + (|Real.tan α| + |Real.tan 0|)) * (1 + reach ps) ^ 2 := by
      rw [growth_skew (by decide)]
      simp [skewAngles, ha]
    rw [ec] at hc ⊢
    rw [eg]
    have p1 : 0 ≤ 4 * ((1 + |α|) * (1 + |Real.tan α|)) := by positivity
    obtain ⟨a', ha', na⟩ := angleParse_near (hp a (by simp)).1 ha
    obtain ⟨x', y', h1, nx, ny, hr⟩ := pivot_near doubles hpv (fun p h => hp p (by simp [h])) m (Flt.skew T a' 0)
    obtain ⟨R', h2, h3⟩ := close_about doubles hm (close_skew p1 le_rfl (tan_near T na hα (by linarith)) (tan_zero_near T)) nx ny rfl rfl
    rw [← hr] at h2
    refine ⟨preAbout doubles m (Flt.skew T a' 0) x' y', R', ?_, close_mono h2 (by linarith), fun p => by rw [h3, hskew]⟩
    · simp only [LMat.texts] at h1
      simp [Flt.step, LMat.texts, ha', bind, Except.bind, h1]
  | @skewY a ps β x y hb hpv =>
    have hβ := hk (Or.inr (Or.inr rfl)) a (by simp [skewAngles]) β hb
    have ec : roundings ("skewy".toList, a :: ps) = 10 + 4 * ((1 + |β|) * (1 + |Real.tan β|)) := by
      rw [roundings_skew (by decide)]
      simp [skewAngles, hb]
    have eg : growth ("skewy".toList, a :: ps) = (1 + (|Real.tan 0| + |Real.tan β|)) * (1 + reach ps) ^ 2 := by
      rw [growth_skew (by decide)]
      simp [skewAngles, hb]
    rw [ec] at hc ⊢
    rw [eg]
    have p1 : 0 ≤ 4 * ((1 + |β|) * (1 + |Real.tan β|)) := by positivity
    obtain ⟨a', ha', na⟩ := angleParse_near (hp a (by simp)).1 hb
    obtain ⟨x', y', h1, nx, ny, hr⟩ := pivot_near doubles hpv (fun p h => hp p (by simp [h])) m (Flt.skew T 0 a')
    obtain ⟨R', h2, h3⟩ := close_about doubles hm (close_skew le_rfl p1 (tan_zero_near T) (tan_near T na hβ (by linarith))) nx ny rfl rfl
    rw [← hr] at h2
    refine ⟨preAbout doubles m (Flt.skew T 0 a') x' y', R', ?_, close_mono h2 (by linarith), fun p => by rw [h3, hskew]⟩
    · simp only [LMat.texts] at h1
      simp [Flt.step, LMat.texts, ha', bind, Except.bind, h1]

/-! ### the whole list -/

theorem roundings_ge (f : List Char × List Param) : 10 ≤ roundings f := by
  unfold roundings
  split
  · have : 0 ≤ ((f.2.take 1).map fun p => |(Spec.angle p).getD 0|).sum := by
      apply List.sum_nonneg
      intro x hx
      obtain ⟨p, -, rfl⟩ := List.mem_map.1 hx
      positivity
    linarith
  · split
    · have : 0 ≤ ((skewAngles f.1 f.2).1.map fun p => (1 + |(Spec.angle p).getD 0|) * (1 + |Real.tan ((Spec.angle p).getD 0)|)).sum := by
        apply List.sum_nonneg
        intro x hx
        obtain ⟨p, -, rfl⟩ := List.mem_map.1 hx
        positivity
      linarith
    · exact le_rfl

theorem sum_ge (fs : List (List Char × List Param)) : 0 ≤ (fs.map roundings).sum := by
  apply List.sum_nonneg
  intro x hx
  obtain ⟨f, -, rfl⟩ := List.mem_map.1 hx
  linarith [roundings_ge f]

theorem run_near (T : FloatTrig) {fs : List (List Char × List Param)} {φs : List (Pt ℝ → Pt ℝ)} (h : List.Forall₂ (Acts pixels pixels) fs φs) :
    ∀ {A t : ℝ} {m : Mat ℚ} {R : Mat ℝ}, Close A t m R → (∀ f ∈ fs, ∀ p ∈ f.2, IsNumber p.1 ∧ p.2 ∈ unitTexts) → (∀ f ∈ fs, Skewable f) →
      (fs.map roundings).sum ≤ 2 ^ 48 →
      ∃ m' R', (fs.map (fun f => (f.1, LMat.texts f.2))).foldlM (fun m f => Flt.step doubles T m f.1 f.2) m = .ok m' ∧
        Close ((fs.map growth).prod * A) (t + (fs.map roundings).sum * u) m' R' ∧ ∀ p, R'.pointInMatrixSpace p = R.pointInMatrixSpace (compose φs p) := by
  induction h with
  | nil =>
    intro A t m R hm _ _ _
    exact ⟨m, R, rfl, by simpa using hm, fun _ => rfl⟩
  | @cons f φ fs φs hf hfs ih =>
    intro A t m R hm hp hk hc
    rw [List.map_cons, List.sum_cons] at hc
    have s0 := sum_ge fs
    have r0 := roundings_ge f
    obtain ⟨m1, R1, h1, g1, p1⟩ := step_near T hm hf (hp f (by simp)) (hk f (by simp)) (by linarith)
    obtain ⟨m2, R2, h2, g2, p2⟩ := ih g1 (fun f hf => hp f (by simp [hf])) (fun f hf => hk f (by simp [hf])) (by linarith)
    refine ⟨m2, R2, ?_, ?_, fun p => ?_⟩
    · rw [List.map_cons, List.foldlM_cons]
      simp only [h1, bind, Except.bind]
      exact h2
    · rw [List.map_cons, List.map_cons, List.prod_cons, List.sum_cons]
      rw [show growth f * (fs.map growth).prod * A = (fs.map growth).prod * (growth f * A) by ring,
        show t + (roundings f + (fs.map roundings).sum) * u = t + roundings f * u + (fs.map roundings).sum * u by ring]
      exact g2
    · rw [p2, p1]; rfl

theorem close_identity : Close 1 0 Mat.identity Mat.identity := by
  refine close_of ⟨le_rfl, ?_, ?_⟩ le_rfl ⟨?_, ?_⟩ <;> simp [Mat.identity, toR]

theorem exp_le_two {t : ℝ} (h0 : 0 ≤ t) (h : t ≤ 1 / 2) : Real.exp t - 1 ≤ 2 * t := by
  have h1 := Real.add_one_le_exp (-t)
  rw [Real.exp_neg] at h1
  have h2 := Real.exp_pos t
  have h3 : (-t + 1) * Real.exp t ≤ 1 := by
    have := mul_le_mul_of_nonneg_right h1 h2.le
    rwa [inv_mul_cancel₀ h2.ne'] at this
  nlinarith

/-- one coordinate of a point moved by two matrices -/
theorem coord_near {x y p q t p' q' t' e B : ℝ} (hB : 1 ≤ B) (hx : |x| ≤ B) (hy : |y| ≤ B) (h : |p - p'| + |q - q'| + |t - t'| ≤ e) :
    |x * p + y * q + 1 * t - (x * p' + y * q' + 1 * t')| ≤ e * B := by
  have e1 : x * p + y * q + 1 * t - (x * p' + y * q' + 1 * t') = x * (p - p') + y * (q - q') + (t - t') := by ring
  rw [e1]
  have k1 : |x * (p - p')| ≤ |p - p'| * B := by rw [abs_mul, mul_comm]; gcongr
  have k2 : |y * (q - q')| ≤ |q - q'| * B := by rw [abs_mul, mul_comm]; gcongr
  have k3 : |t - t'| ≤ |t - t'| * B := le_mul_of_one_le_right (abs_nonneg _) hB
  have k4 : (|p - p'| + |q - q'| + |t - t'|) * B ≤ e * B := by gcongr
  have := abs_add_le (x * (p - p') + y * (q - q')) (t - t')
  have := abs_add_le (x * (p - p')) (y * (q - q'))
  linarith

theorem point_near {A t : ℝ} {m : Mat ℚ} {R : Mat ℝ} (hm : Close A t m R) (h : t + u ≤ 1 / 2) (v : Pt ℚ) :
    |((Flt.pointInMatrixSpace doubles m v).x : ℝ) - (R.pointInMatrixSpace ⟨v.x, v.y⟩).x| ≤ 2 * (t + u) * (A * (ptSize v : ℚ)) ∧
      |((Flt.pointInMatrixSpace doubles m v).y : ℝ) - (R.pointInMatrixSpace ⟨v.x, v.y⟩).y| ≤ 2 * (t + u) * (A * (ptSize v : ℚ)) := by
  have hu := u_pos
  obtain ⟨hB, hx, hy⟩ := sized_ptSize v
  have hBR : (1 : ℝ) ≤ (ptSize v : ℚ) := by exact_mod_cast hB
  have hxR : |(v.x : ℝ)| ≤ (ptSize v : ℚ) := by exact_mod_cast hx
  have hyR : |(v.y : ℝ)| ≤ (ptSize v : ℚ) := by exact_mod_cast hy
  obtain ⟨f1, f2⟩ := point_err doubles (sized_matSize m) (sized_ptSize v)
  have g1 := (Rat.cast_le (K := ℝ)).2 f1
  have g2 := (Rat.cast_le (K := ℝ)).2 f2
  simp only [Mat.pointInMatrixSpace] at g1 g2 ⊢
  push_cast at g1 g2
  rw [u_ulp] at g1 g2
  have k1 := coord_near hBR hxR hyR hm.2.2.1
  have k2 := coord_near hBR hxR hyR hm.2.2.2
  simp only [toR] at k1 k2
  have hs := matSize_le (close_size hm)
  have hA := zero_le_one.trans hm.1.1
  have e1 : u * (((matSize m : ℚ) : ℝ) * ((ptSize v : ℚ) : ℝ)) ≤ u * (A * Real.exp t * ((ptSize v : ℚ) : ℝ)) := by gcongr
  have hAB : 0 ≤ A * ((ptSize v : ℚ) : ℝ) := by positivity
  have e2 : u * (A * Real.exp t * ((ptSize v : ℚ) : ℝ)) + A * (Real.exp t - 1) * ((ptSize v : ℚ) : ℝ) ≤ 2 * (t + u) * (A * ((ptSize v : ℚ) : ℝ)) := by
    have h3 := exp_le_two (by linarith [hm.2.1] : 0 ≤ t + u) h
    rw [Real.exp_add] at h3
    have h4 := exp_ge u
    have h5 := Real.exp_pos t
    have h6 : (1 + u) * Real.exp t - 1 ≤ 2 * (t + u) := by nlinarith
    have := mul_le_mul_of_nonneg_right h6 hAB
    linarith
  constructor
  · refine (abs_sub_le _ (v.x * m.a + v.y * m.c + 1 * m.e : ℝ) _).trans ?_
    exact (add_le_add (g1.trans e1) k1).trans e2
  · refine (abs_sub_le _ (v.x * m.b + v.y * m.d + 1 * m.f : ℝ) _).trans ?_
    exact (add_le_add (g2.trans e1) k2).trans e2

end FloatList

open FloatList in
/-- C162: a transform list read from text with floats moves points as its functions one after the other do exactly, up to an error that
grows with the number of functions, their angles and how much they enlarge. -/
theorem C162_list (T : FloatTrig) (fs : List (List Char × List Param)) (φs : List (Pt ℝ → Pt ℝ)) (s : List Char)
    (hs : FunctionsText fs (s.map Char.toLower)) (h : List.Forall₂ (Acts pixels pixels) fs φs) (hk : ∀ f ∈ fs, Skewable f)
    (hc : (fs.map roundings).sum ≤ 2 ^ 48) :
    ∃ M : Mat ℚ, ofTransform doubles T s = .ok M ∧ ∀ v : Pt ℚ,
      |((Flt.pointInMatrixSpace doubles M v).x : ℝ) - (compose φs ⟨v.x, v.y⟩).x| ≤ (1 + (fs.map roundings).sum) / 2 ^ 49 * (fs.map growth).prod * (ptSize v : ℚ) ∧
      |((Flt.pointInMatrixSpace doubles M v).y : ℝ) - (compose φs ⟨v.x, v.y⟩).y| ≤ (1 + (fs.map roundings).sum) / 2 ^ 49 * (fs.map growth).prod * (ptSize v : ℚ) := by
  obtain ⟨M, R, h1, h2, h3⟩ := run_near T h close_identity (LMat.functionsText_numbers hs) hk hc
  refine ⟨M, ?_, fun v => ?_⟩
  · rw [ofTransform, Transform.functions_found hs rfl]
    exact h1
  · have hs0 := sum_ge fs
    have k := point_near h2 (by unfold u; norm_num at *; linarith) v
    rw [h3, identity_apply] at k
    have e : 2 * (0 + (fs.map roundings).sum * u + u) * ((fs.map growth).prod * 1 * ((ptSize v : ℚ) : ℝ)) =
        (1 + (fs.map roundings).sum) / 2 ^ 49 * (fs.map growth).prod * ((ptSize v : ℚ) : ℝ) := by unfold u; ring
    rwa [e] at k

/-- a text in mixed case with lengths, an angle, a pivot and a skew -/
example : ∃ fs φs, FunctionsText fs ("Translate(10,2pt) rotate(.5turn 1 2) skewX(0)".toList.map Char.toLower) ∧
    List.Forall₂ (Acts pixels pixels) fs φs ∧ (∀ f ∈ fs, Skewable f) ∧ (fs.map roundings).sum ≤ 2 ^ 48 ∧ fs.length = 3 := by
  have n : ∀ t ∈ ["10".toList, "2".toList, ".5".toList, "1".toList, "0".toList], IsNumber t := by
    intro t ht
    have : ∀ t ∈ ["10".toList, "2".toList, ".5".toList, "1".toList, "0".toList], matchFloat t = some (t, []) := by decide +kernel
    exact (matchFloat_sound (this t ht)).2
  have z : num "0".toList = 0 := by
    have : floatVal "0".toList = 0 := by decide +kernel
    rw [num, this]; simp
  have hf : num ".5".toList = 1 / 2 := by
    have : floatVal ".5".toList = 1 / 2 := by decide +kernel
    rw [num, this]; norm_num
  have a0 : Spec.angle ("0".toList, []) = some 0 := by rw [Spec.angle, if_pos (by decide), z]; simp
  have a1 : Spec.angle (".5".toList, "turn".toList) = some (1 / 2 * (2 * Real.pi)) := by
    rw [Spec.angle, if_neg (by decide), if_neg (by decide), if_neg (by decide), if_pos (by decide), hf]
  refine ⟨[("translate".toList, [("10".toList, []), ("2".toList, "pt".toList)]),
    ("rotate".toList, [(".5".toList, "turn".toList), ("1".toList, []), ("2".toList, [])]), ("skewx".toList, [("0".toList, [])])],
    [_, _, _], ?_, .cons (.translate (.xy (by simp [pixels]; rfl) (by simp [pixels]; rfl)) (by simp))
      (.cons (.rotate a1 (.xy (by simp [pixels]; rfl) (by simp [pixels]; rfl))) (.cons (.skewX a0 .none) .nil)), ?_, ?_, rfl⟩
  · have p1 : ParamsText [("10".toList, []), ("2".toList, "pt".toList)] "10,2pt".toList :=
      .cons (sep := []) (ws := []) (u := []) (rest := ",2pt".toList) (by simp [Separators]) (n _ (by simp))
        (by simp [Spaces]) (by decide) (stops_of_head (by simp [NumChar, IsDigit]))
        (.cons (sep := [',']) (ws := []) (u := "pt".toList) (rest := []) (by simp [Separators]) (n _ (by simp))
          (by simp [Spaces]) (by decide) (stops_of_head (by simp [NumChar, IsDigit]))
          (.nil (by simp [Separators])))
    have p2 : ParamsText [(".5".toList, "turn".toList), ("1".toList, []), ("2".toList, [])] ".5turn 1 2".toList :=
      .cons (sep := []) (ws := []) (u := "turn".toList) (rest := " 1 2".toList) (by simp [Separators]) (n _ (by simp))
        (by simp [Spaces]) (by decide) (stops_of_head (by simp [NumChar, IsDigit]))
        (.cons (sep := [' ']) (ws := []) (u := []) (rest := " 2".toList) (by simp [Separators]) (n _ (by simp))
          (by simp [Spaces]) (by decide) (stops_of_head (by simp [NumChar, IsDigit]))
          (.cons (sep := [' ']) (ws := []) (u := []) (rest := []) (by simp [Separators]) (n _ (by simp))
            (by simp [Spaces]) (by decide) (stops_of_head (by simp [NumChar, IsDigit]))
            (.nil (by simp [Separators]))))
    have p3 : ParamsText [("0".toList, [])] "0".toList :=
      .cons (sep := []) (ws := []) (u := []) (rest := []) (by simp [Separators]) (n _ (by simp))
        (by simp [Spaces]) (by decide) (stops_of_head (by simp [NumChar, IsDigit])) (.nil (by simp [Separators]))
    exact .cons (sep := []) (ws := []) (by simp [Separators]) (by decide) (by simp [Spaces]) p1 (by simp)
      (.cons (sep := [' ']) (ws := []) (by simp [Separators]) (by decide) (by simp [Spaces]) p2 (by simp)
        (.cons (sep := [' ']) (ws := []) (by simp [Separators]) (by decide) (by simp [Spaces]) p3 (by simp)
          (.nil (by simp [Separators]))))
  · intro f hfm
    simp only [List.mem_cons, List.not_mem_nil, or_false] at hfm
    rcases hfm with rfl | rfl | rfl
    · intro hn; exact absurd hn (by decide)
    · intro hn; exact absurd hn (by decide)
    · intro _ p hp θ hθ
      have : p = ("0".toList, []) := by simpa [skewAngles] using hp
      subst this
      rw [a0] at hθ
      injection hθ with hθ
      rw [← hθ, Real.cos_zero]
      exact one_ne_zero
  · have r1 : roundings ("translate".toList, [("10".toList, []), ("2".toList, "pt".toList)]) = 10 := FloatList.roundings_plain (by decide) (by decide) _
    have r2 : roundings ("rotate".toList, [(".5".toList, "turn".toList), ("1".toList, []), ("2".toList, [])]) = 11 + |1 / 2 * (2 * Real.pi)| := by
      rw [roundings, if_pos rfl]
      simp only [List.take_succ_cons, List.take_zero, List.map_cons, List.map_nil, List.sum_cons, List.sum_nil, a1, Option.getD_some, add_zero]
    have r3 : roundings ("skewx".toList, [("0".toList, [])]) = 14 := by
      rw [FloatList.roundings_skew (by decide)]
      simp only [skewAngles, if_neg (show "skewx".toList ≠ "skew".toList by decide), List.take_succ_cons, List.take_zero, List.map_cons, List.map_nil, List.sum_cons,
        List.sum_nil, a0, Option.getD_some, add_zero, Real.tan_zero, abs_zero]
      norm_num
    simp only [List.map_cons, List.map_nil, List.sum_cons, List.sum_nil, r1, r2, r3]
    have := Real.pi_lt_d6
    have := Real.pi_pos
    rw [abs_of_pos (by positivity)]
    norm_num
    linarith

/-- **C162**, where it fails: in CSS a missing second angle of `skew` is zero, so that `skew(45)` moves `(0, 1)` to `(1, 1)`. The code
ignores such a function. -/
theorem C162_skew_one_wrong (T : FloatTrig) : ofTransform doubles T "skew(45)".toList = .ok Mat.identity := by
  have h : Transform.functions "skew(45)".toList = [("skew".toList, ["45".toList])] := by decide +kernel
  rw [ofTransform, h]
  rfl

end Svgio.Props
