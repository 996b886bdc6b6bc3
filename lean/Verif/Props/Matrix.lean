import Verif.Spec.Affine
import Mathlib.Tactic.Ring
import Mathlib.Tactic.FieldSimp
import Mathlib.Tactic.LinearCombination
import Mathlib.Tactic.NormNum

/-!
C25 to C29: matrices act as affine maps, compose, invert, and fix their pivots.
-/

namespace Svgio.Props

open Svgio Spec Mat Matrix

variable {K : Type} [Field K] [LinearOrder K]

omit [LinearOrder K] in
theorem hom_inj {m n : Mat K} (h : hom m = hom n) : m = n := by
  have e := fun i j => congrFun (congrFun h i) j
  ext
  · simpa [hom] using e 0 0
  · simpa [hom] using e 1 0
  · simpa [hom] using e 0 1
  · simpa [hom] using e 1 1
  · simpa [hom] using e 0 2
  · simpa [hom] using e 1 2

omit [LinearOrder K] in
theorem hom_multiply (m s : Mat K) : hom (multiply m s) = hom s * hom m := by
  ext i j
  fin_cases i <;> fin_cases j <;>
    simp [hom, multiply, Matrix.mul_apply, Fin.sum_univ_three]

omit [LinearOrder K] in
theorem homPt_apply (m : Mat K) (p : Pt K) : homPt (pointInMatrixSpace m p) = hom m *ᵥ homPt p := by
  ext i
  fin_cases i <;>
    simp [hom, homPt, pointInMatrixSpace, Matrix.mulVec, dotProduct, Fin.sum_univ_three, mul_comm]

omit [LinearOrder K] in
theorem point_multiply (m s : Mat K) (p : Pt K) :
    pointInMatrixSpace (multiply m s) p = pointInMatrixSpace s (pointInMatrixSpace m p) := by
  ext <;> simp [pointInMatrixSpace, multiply] <;> ring

omit [LinearOrder K] in
/-- **C25**. A matrix acts on a point as the product `[a c e; b d f; 0 0 1] [x; y; 1]`. A product `A * B`, by
`*`, `@`, `*=`, `@=`, `post_cat`, the reflected operator, or `pre_cat` in the opposite order, applies `A` and
then `B`. `transform_point` acts like `point * matrix`, and `transform_vector` maps the difference of two points to
the difference of their images. -/
theorem C25_product (A B : Mat K) (p q : Pt K) :
    homPt (pointInMatrixSpace A p) = hom A *ᵥ homPt p ∧
    hom (matmul A B) = hom B * hom A ∧
    (∀ M ∈ [matmul A B, imatmul A B, postCat A B, preCat B A, rmatmul B A],
      pointInMatrixSpace M p = pointInMatrixSpace B (pointInMatrixSpace A p)) ∧
    transformPoint A p = pointInMatrixSpace A p ∧
    transformVector A ⟨q.x - p.x, q.y - p.y⟩ =
      ⟨(pointInMatrixSpace A q).x - (pointInMatrixSpace A p).x,
       (pointInMatrixSpace A q).y - (pointInMatrixSpace A p).y⟩ ∧
    transformVector A p = pointInMatrixSpace (vector A) p := by
  refine ⟨homPt_apply A p, hom_multiply A B, ?_, rfl, ?_, ?_⟩
  · intro M hM
    have : M = multiply A B := by
      simp only [List.mem_cons, List.not_mem_nil, or_false] at hM
      rcases hM with h | h | h | h | h <;> exact h
    rw [this, point_multiply]
  · ext <;> simp [transformVector, pointInMatrixSpace] <;> ring
  · ext <;> simp [transformVector, pointInMatrixSpace, vector]

/-- a translation followed by a scaling -/
example : pointInMatrixSpace (matmul (translate 1 2) (scale 3 none)) (⟨1, 1⟩ : Pt ℚ) = ⟨6, 9⟩ := by
  simp [pointInMatrixSpace, matmul, imatmul, multiply, translate, scale]; norm_num

/-- **C26**. The product is associative with `Matrix()` as its unit on both sides, `is_identity()` is true of
that matrix only, and determinants multiply; the determinant is that of the 3x3 matrix. -/
theorem C26_monoid (A B C : Mat K) :
    matmul (matmul A B) C = matmul A (matmul B C) ∧
    matmul identity A = A ∧ matmul A identity = A ∧
    (isIdentity A = true ↔ ∀ p : Pt K, pointInMatrixSpace A p = p) ∧
    (isIdentity A = true ↔ A = identity) ∧
    determinant (matmul A B) = determinant A * determinant B ∧
    determinant A = (hom A).det := by
  have hid : isIdentity A = true ↔ A = identity := by
    constructor
    · intro h
      simp only [isIdentity, Bool.and_eq_true, decide_eq_true_eq] at h
      obtain ⟨⟨⟨⟨⟨h1, h2⟩, h3⟩, h4⟩, h5⟩, h6⟩ := h
      ext <;> simp [identity, *]
    · rintro rfl; simp [isIdentity, identity]
  refine ⟨?_, ?_, ?_, ?_, hid, ?_, ?_⟩
  · apply hom_inj
    simp only [matmul, imatmul, hom_multiply, Matrix.mul_assoc]
  · ext <;> simp [matmul, imatmul, multiply, identity]
  · ext <;> simp [matmul, imatmul, multiply, identity]
  · rw [hid]
    constructor
    · rintro rfl p; ext <;> simp [pointInMatrixSpace, identity]
    · intro h
      have h0 := h ⟨0, 0⟩
      have h1 := h ⟨1, 0⟩
      have h2 := h ⟨0, 1⟩
      simp only [pointInMatrixSpace, Pt.mk.injEq] at h0 h1 h2
      obtain ⟨h01, h02⟩ := h0
      obtain ⟨h11, h12⟩ := h1
      obtain ⟨h21, h22⟩ := h2
      ext <;> simp only [identity]
      · linear_combination h11 - h01
      · linear_combination h12 - h02
      · linear_combination h21 - h01
      · linear_combination h22 - h02
      · linear_combination h01
      · linear_combination h02
  · simp [matmul, imatmul, multiply, determinant]; ring
  · simp [determinant, hom, Matrix.det_fin_three]

theorem inverse_ok {A : Mat K} (h : determinant A ≠ 0) :
    ∃ R, inverse A = (R, .ok ()) ∧ matmul A R = identity ∧ matmul R A = identity := by
  have h' : A.a * A.d - A.c * A.b ≠ 0 := h
  have hi : (1 / (A.a * A.d - A.c * A.b)) * (A.a * A.d - A.c * A.b) = 1 := one_div_mul_cancel h'
  refine ⟨_, by simp only [inverse]; rw [if_neg h'], ?_, ?_⟩ <;>
    generalize 1 / (A.a * A.d - A.c * A.b) = i at hi <;> ext <;>
    simp only [matmul, imatmul, multiply, identity]
  · linear_combination hi
  · ring
  · ring
  · linear_combination hi
  · ring
  · ring
  · linear_combination hi
  · ring
  · ring
  · linear_combination hi
  · linear_combination (-A.e) * hi
  · linear_combination (-A.f) * hi

theorem inverse_err {A : Mat K} (h : determinant A = 0) : inverse A = (A, .error .zeroDivisionError) := by
  have h' : A.a * A.d - A.c * A.b = 0 := h
  simp only [inverse]; rw [if_pos h']

/-- **C27**. With a determinant other than 0, `~A` is the two-sided inverse, `point_in_inverse_space` undoes
`point_in_matrix_space` and the other way round, `A.inverse()` turns `A` itself into the same matrix, and neither
`~A` nor `point_in_inverse_space` changes `A`. With determinant 0 all three raise ZeroDivisionError and leave `A`
unchanged. -/
theorem C27_inverse (A : Mat K) (p : Pt K) :
    (determinant A ≠ 0 → ∃ R, invert A = (A, .ok R) ∧ inverse A = (R, .ok ()) ∧
      matmul A R = identity ∧ matmul R A = identity ∧
      pointInInverseSpace A (pointInMatrixSpace A p) = (A, .ok p) ∧
      ∃ q, pointInInverseSpace A p = (A, .ok q) ∧ pointInMatrixSpace A q = p) ∧
    (determinant A = 0 → invert A = (A, .error .zeroDivisionError) ∧
      inverse A = (A, .error .zeroDivisionError) ∧
      pointInInverseSpace A p = (A, .error .zeroDivisionError)) := by
  constructor
  · intro h
    obtain ⟨R, h1, h2, h3⟩ := inverse_ok h
    have hp : ∀ p : Pt K, pointInMatrixSpace identity p = p := fun p => by
      ext <;> simp [pointInMatrixSpace, identity]
    refine ⟨R, by simp [invert, h1], h1, h2, h3, ?_, pointInMatrixSpace R p, by simp [pointInInverseSpace, h1], ?_⟩
    · have := point_multiply A R p
      rw [show multiply A R = identity from h2, hp] at this
      simp [pointInInverseSpace, h1, ← this]
    · have := point_multiply R A p
      rw [show multiply R A = identity from h3, hp] at this
      exact this.symm
  · intro h
    have := inverse_err h
    simp [invert, pointInInverseSpace, this]

/-- a shear with a translation has determinant 1 -/
example : determinant (⟨1, 0, 2, 1, 5, 7⟩ : Mat ℚ) ≠ 0 := by norm_num [determinant]
/-- a projection is not invertible -/
example : determinant (⟨1, 0, 0, 0, 5, 7⟩ : Mat ℚ) = 0 := by norm_num [determinant]

theorem postAbout_apply (m t : Mat K) (x y : Option K) (p : Pt K) (he : t.e = 0) (hf : t.f = 0) :
    pointInMatrixSpace (postAbout m t x y) p =
      about t.a t.b t.c t.d (x.getD 0) (y.getD 0) (pointInMatrixSpace m p) := by
  simp only [postAbout]
  split
  · rename_i h
    rw [h.1, h.2, postCat, imatmul, point_multiply]
    ext <;> simp [pointInMatrixSpace, about, he, hf, mul_comm]
  · simp only [postTranslate, postCat, imatmul, point_multiply]
    ext <;> simp [pointInMatrixSpace, about, translate, he, hf] <;> ring

theorem preAbout_apply (m t : Mat K) (x y : Option K) (p : Pt K) (he : t.e = 0) (hf : t.f = 0) :
    pointInMatrixSpace (preAbout m t x y) p =
      pointInMatrixSpace m (about t.a t.b t.c t.d (x.getD 0) (y.getD 0) p) := by
  simp only [preAbout]
  split
  · rename_i h
    rw [h.1, h.2, preCat, point_multiply]
    congr 1
    ext <;> simp [pointInMatrixSpace, about, he, hf, mul_comm]
  · simp only [preTranslate, preCat, point_multiply]
    congr 1
    ext <;> simp [pointInMatrixSpace, about, translate, he, hf] <;> ring

theorem postRotate_eq (m : Mat ℝ) (θ : ℝ) (x y : Option ℝ) (p : Pt ℝ) :
    pointInMatrixSpace (postRotate m θ x y) p =
      pointInMatrixSpace (postAbout m (rotate θ) x y) p := by
  simp only [postRotate, postAbout]
  split
  · rfl
  · simp only [postTranslate, postCat, imatmul, point_multiply]
    ext <;> simp [pointInMatrixSpace, identity]

/-- **C28**, scaling. For all pivots, also 0 and None, `post_scale`, `post_scale_x`, `post_scale_y` apply the
matrix and then the scaling about the pivot; the `pre_` forms apply the scaling about the pivot first. A missing
`sy` is `sx`. -/
theorem C28_scale (m : Mat K) (sx : K) (sy x y : Option K) (p : Pt K) :
    let X := x.getD 0; let Y := y.getD 0
    pointInMatrixSpace (postScale m sx sy x y) p = scaleAbout sx (sy.getD sx) X Y (pointInMatrixSpace m p) ∧
    pointInMatrixSpace (preScale m sx sy x y) p = pointInMatrixSpace m (scaleAbout sx (sy.getD sx) X Y p) ∧
    pointInMatrixSpace (postScaleX m sx x y) p = scaleAbout sx 1 X Y (pointInMatrixSpace m p) ∧
    pointInMatrixSpace (preScaleX m sx x y) p = pointInMatrixSpace m (scaleAbout sx 1 X Y p) ∧
    pointInMatrixSpace (postScaleY m sx x y) p = scaleAbout 1 sx X Y (pointInMatrixSpace m p) ∧
    pointInMatrixSpace (preScaleY m sx x y) p = pointInMatrixSpace m (scaleAbout 1 sx X Y p) ∧
    scaleAbout sx (sy.getD sx) X Y ⟨X, Y⟩ = ⟨X, Y⟩ := by
  intro X Y
  refine ⟨?_, ?_, ?_, ?_, ?_, ?_, ?_⟩
  · rw [postScale, postAbout_apply _ _ _ _ _ rfl rfl]; ext <;> simp [about, scaleAbout, scale, X, Y]
  · rw [preScale, preAbout_apply _ _ _ _ _ rfl rfl]; congr 1; ext <;> simp [about, scaleAbout, scale, X, Y]
  · rw [postScaleX, postScale, postAbout_apply _ _ _ _ _ rfl rfl]; ext <;> simp [about, scaleAbout, scale, X, Y]
  · rw [preScaleX, preScale, preAbout_apply _ _ _ _ _ rfl rfl]
    congr 1; ext <;> simp [about, scaleAbout, scale, X, Y]
  · rw [postScaleY, postScale, postAbout_apply _ _ _ _ _ rfl rfl]; ext <;> simp [about, scaleAbout, scale, X, Y]
  · rw [preScaleY, preScale, preAbout_apply _ _ _ _ _ rfl rfl]
    congr 1; ext <;> simp [about, scaleAbout, scale, X, Y]
  · ext <;> simp [scaleAbout]

/-- **C28**, rotating and skewing, for all pivots, also 0 and None. -/
theorem C28_angles (m : Mat ℝ) (α β : ℝ) (x y : Option ℝ) (p : Pt ℝ) :
    let X := x.getD 0; let Y := y.getD 0
    pointInMatrixSpace (postRotate m α x y) p = rotateAbout α X Y (pointInMatrixSpace m p) ∧
    pointInMatrixSpace (preRotate m α x y) p = pointInMatrixSpace m (rotateAbout α X Y p) ∧
    pointInMatrixSpace (postSkew m α β x y) p = skewAbout α β X Y (pointInMatrixSpace m p) ∧
    pointInMatrixSpace (preSkew m α β x y) p = pointInMatrixSpace m (skewAbout α β X Y p) ∧
    pointInMatrixSpace (postSkewX m α x y) p = skewAbout α 0 X Y (pointInMatrixSpace m p) ∧
    pointInMatrixSpace (preSkewX m α x y) p = pointInMatrixSpace m (skewAbout α 0 X Y p) ∧
    pointInMatrixSpace (postSkewY m β x y) p = skewAbout 0 β X Y (pointInMatrixSpace m p) ∧
    pointInMatrixSpace (preSkewY m β x y) p = pointInMatrixSpace m (skewAbout 0 β X Y p) ∧
    rotateAbout α X Y ⟨X, Y⟩ = ⟨X, Y⟩ ∧ skewAbout α β X Y ⟨X, Y⟩ = ⟨X, Y⟩ := by
  intro X Y
  have hr : ∀ q, about (rotate α).a (rotate α).b (rotate α).c (rotate α).d X Y q = rotateAbout α X Y q := by
    intro q; ext <;> simp [about, rotateAbout, rotate] <;> ring
  have hs : ∀ α β q, about (skew α β).a (skew α β).b (skew α β).c (skew α β).d X Y q = skewAbout α β X Y q := by
    intro α β q; ext <;> simp [about, skewAbout, skew] <;> ring
  refine ⟨?_, ?_, ?_, ?_, ?_, ?_, ?_, ?_, ?_, ?_⟩
  · rw [postRotate_eq, postAbout_apply _ _ _ _ _ rfl rfl, hr]
  · rw [preRotate, preAbout_apply _ _ _ _ _ rfl rfl, hr]
  · rw [postSkew, postAbout_apply _ _ _ _ _ rfl rfl, hs]
  · rw [preSkew, preAbout_apply _ _ _ _ _ rfl rfl, hs]
  · rw [postSkewX, postSkew, postAbout_apply _ _ _ _ _ rfl rfl, hs]
  · rw [preSkewX, preSkew, preAbout_apply _ _ _ _ _ rfl rfl, hs]
  · rw [postSkewY, postSkew, postAbout_apply _ _ _ _ _ rfl rfl, hs]
  · rw [preSkewY, preSkew, preAbout_apply _ _ _ _ _ rfl rfl, hs]
  · ext <;> simp [rotateAbout]
  · ext <;> simp [skewAbout]

/-- **C29**. Rotations keep distances and signed areas, add up, and are inverted by the opposite angle; the full
turn is the identity. -/
theorem C29_rotate (α β : ℝ) (p q r : Pt ℝ) :
    dist2 (pointInMatrixSpace (rotate α) p) (pointInMatrixSpace (rotate α) q) = dist2 p q ∧
    area2 (pointInMatrixSpace (rotate α) p) (pointInMatrixSpace (rotate α) q) (pointInMatrixSpace (rotate α) r) =
      area2 p q r ∧
    matmul (rotate α) (rotate β) = rotate (α + β) ∧
    invert (rotate α) = (rotate α, .ok (rotate (-α))) ∧
    rotate 0 = identity ∧ rotate (α + 2 * Real.pi) = rotate α ∧
    pointInMatrixSpace (rotate (Real.pi / 2)) ⟨1, 0⟩ = ⟨0, 1⟩ := by
  have hcs := Real.cos_sq_add_sin_sq α
  refine ⟨?_, ?_, ?_, ?_, ?_, ?_, ?_⟩
  · simp only [dist2, pointInMatrixSpace, rotate]
    linear_combination ((p.x - q.x) ^ 2 + (p.y - q.y) ^ 2) * hcs
  · simp only [area2, pointInMatrixSpace, rotate]
    linear_combination ((q.x - p.x) * (r.y - p.y) - (q.y - p.y) * (r.x - p.x)) * hcs
  · ext <;> simp [matmul, imatmul, multiply, rotate, Real.cos_add, Real.sin_add] <;> ring
  · have hd : (rotate α).a * (rotate α).d - (rotate α).c * (rotate α).b = 1 := by
      simp only [rotate]; linear_combination hcs
    have : inverse (rotate α) = (rotate (-α), .ok ()) := by
      simp only [inverse]
      rw [hd, if_neg one_ne_zero]
      congr 1
      ext <;> simp [rotate]
    simp [invert, this]
  · ext <;> simp [rotate, identity]
  · ext <;> simp [rotate]
  · ext <;> simp [rotate, pointInMatrixSpace]

end Svgio.Props
