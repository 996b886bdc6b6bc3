import Verif.Model.PointOps
import Verif.Spec.Geom
import Mathlib.Analysis.SpecialFunctions.Complex.Arg

/-!
C99: points, pairs and numbers as vectors; C100: powers of points.
-/

namespace Svgio.Props
open Spec

/-- the point that an operand stands for: itself, a pair, a complex number, or a number on the x axis -/
inductive Denotes {K : Type} [Zero K] : Pt.Operand K → Pt K → Prop
  | point (p : Pt K) : Denotes (.point p) p
  | pair (x y : K) : Denotes (.seq [x, y]) ⟨x, y⟩
  | cplx (x y : K) : Denotes (.cplx x y) ⟨x, y⟩
  | num (x : K) : Denotes (.num x) ⟨x, 0⟩

/-- an operand that stands for no point: a list of fewer than two numbers, or something else -/
inductive NoPoint {K : Type} : Pt.Operand K → Prop
  | short {l : List K} (h : l.length < 2) : NoPoint (.seq l)
  | other : NoPoint .other

variable {K : Type} [Field K] [LinearOrder K]

/-- **C99**: with a point, a pair, a complex number or a number as the other operand, `+` and `-` are those of vectors, on both sides
and in place, and `*` is the product of complex numbers; `==` compares with the point that the operand stands for. -/
theorem C99_vectors (p : Pt K) {o : Pt.Operand K} {v : Pt K} (h : Denotes o v) :
    p.addOp o = .ok ⟨p.x + v.x, p.y + v.y⟩ ∧ p.iaddOp o = .ok ⟨p.x + v.x, p.y + v.y⟩ ∧
    p.subOp o = .ok ⟨p.x - v.x, p.y - v.y⟩ ∧ p.isubOp o = .ok ⟨p.x - v.x, p.y - v.y⟩ ∧
    p.rsubOp o = .ok ⟨v.x - p.x, v.y - p.y⟩ ∧
    p.mulOp o = .ok ⟨p.x * v.x - p.y * v.y, p.x * v.y + p.y * v.x⟩ ∧ p.imulOp o = .ok ⟨p.x * v.x - p.y * v.y, p.x * v.y + p.y * v.x⟩ ∧
    Pt.ofOperand o = .ok v ∧ (p.eqOp o = true ↔ |p.x - v.x| ≤ 1 / 10 ^ 12 ∧ |p.y - v.y| ≤ 1 / 10 ^ 12) := by
  have e : ∀ q : Pt K, p.eq q = true ↔ |p.x - q.x| ≤ 1 / 10 ^ 12 ∧ |p.y - q.y| ≤ 1 / 10 ^ 12 := by
    intro q; simp [Pt.eq, err]
  cases h <;> exact ⟨rfl, rfl, rfl, rfl, rfl, rfl, rfl, rfl, e _⟩

example : Denotes (.num 3 : Pt.Operand ℚ) ⟨3, 0⟩ := .num 3

omit [LinearOrder K] in
/-- **C99**: with anything else, `+`, `-` and `*` raise TypeError. -/
theorem C99_type_error [LinearOrder K] (p : Pt K) {o : Pt.Operand K} (h : NoPoint o) :
    p.addOp o = .error .typeError ∧ p.iaddOp o = .error .typeError ∧ p.subOp o = .error .typeError ∧ p.isubOp o = .error .typeError ∧
    p.rsubOp o = .error .typeError ∧ p.mulOp o = .error .typeError ∧ p.imulOp o = .error .typeError ∧ p.eqOp o = false := by
  cases h with
  | other => exact ⟨rfl, rfl, rfl, rfl, rfl, rfl, rfl, rfl⟩
  | @short l h =>
    match l, h with
    | [], _ => exact ⟨rfl, rfl, rfl, rfl, rfl, rfl, rfl, rfl⟩
    | [_], _ => exact ⟨rfl, rfl, rfl, rfl, rfl, rfl, rfl, rfl⟩
    | _ :: _ :: _, h => simp at h

/-- **C99**: adding and taking away the same operand gives the point back, and a point times its conjugate is the square of its
distance from the origin. -/
theorem C99_laws [IsStrictOrderedRing K] (p : Pt K) {o : Pt.Operand K} {v : Pt K} (h : Denotes o v) :
    (p.addOp o).bind (fun q => q.subOp o) = .ok p ∧ (p.subOp o).bind (fun q => q.addOp o) = .ok p ∧
    (p.subOp o).bind (fun q => (p.rsubOp o).bind fun r => q.addOp (.point r)) = .ok ⟨0, 0⟩ ∧
    p.mulOp (.point p.conjugate) = .ok ⟨sqDist p ⟨0, 0⟩, 0⟩ := by
  obtain ⟨h1, -, h3, -, h5, -⟩ := C99_vectors p h
  refine ⟨?_, ?_, ?_, ?_⟩
  · rw [h1]; show Pt.subOp _ o = _; rw [(C99_vectors _ h).2.2.1]; congr 1; ext <;> simp
  · rw [h3]; show Pt.addOp _ o = _; rw [(C99_vectors _ h).1]; congr 1; ext <;> simp
  · rw [h3, h5]; show Pt.addOp _ (.point _) = _; rw [(C99_vectors _ (.point _)).1]; congr 1; ext <;> simp
  · rw [(C99_vectors _ (.point _)).2.2.2.2.2.1]; congr 1; ext <;> simp [Pt.conjugate, sqDist] <;> ring

/-- **C99**: `point *= matrix` and `matrix_transform` move the point as the matrix says. -/
theorem C99_matrix (p : Pt K) (m : Mat K) :
    p.imulMat m = ⟨m.a * p.x + m.c * p.y + m.e, m.b * p.x + m.d * p.y + m.f⟩ := by
  unfold Pt.imulMat Mat.pointInMatrixSpace
  ext <;> simp <;> ring

/-- **C99**, items: a point is the sequence of its two coordinates. -/
theorem C99_items (p : Pt K) :
    p.getItem 0 = .ok p.x ∧ p.getItem 1 = .ok p.y ∧ (∀ i, i ≠ 0 → i ≠ 1 → p.getItem i = .error .indexError) ∧
    ∀ i v, (i = 0 ∨ i = 1) → ∃ q, p.setItem i v = .ok q ∧ q.getItem i = .ok v ∧ ∀ j, j ≠ i → q.getItem j = p.getItem j := by
  refine ⟨rfl, rfl, fun i h0 h1 => by simp [Pt.getItem, h0, h1], ?_⟩
  rintro i v (rfl | rfl)
  · exact ⟨{ p with x := v }, rfl, rfl, fun j hj => by simp [Pt.getItem, hj]⟩
  · refine ⟨{ p with y := v }, rfl, rfl, fun j hj => by simp [Pt.getItem, hj]⟩

/-! ### C100 -/

theorem pyRoundR_near (x : ℝ) : |(Pt.pyRoundR x : ℝ) - x| ≤ 1 / 2 := by
  have h1 := Int.floor_le x
  have h2 := Int.lt_floor_add_one x
  unfold Pt.pyRoundR
  split_ifs <;> rw [abs_le] <;> push_cast <;> constructor <;> linarith

theorem re_part (r s : ℝ) : ((r : ℂ) + (s : ℂ) * Complex.I).re = r := by simp

theorem im_part (r s : ℝ) : ((r : ℂ) + (s : ℂ) * Complex.I).im = s := by simp

/-- **C100**, partial: for a point right of the y axis, the coordinates of `point ** n` are those of the power of the complex number,
rounded to integers. Full statement: `point ** n` is the power of the complex number, for all points. It is false: see
`C100_zero_wrong`, `C100_left_wrong` and `C100_round_wrong`. -/
theorem C100_power_partial {p : Pt ℝ} (hp : 0 < p.x) (n : ℕ) : ∃ q, p.powNat n = .ok q ∧
    |q.x - (((p.x : ℂ) + p.y * Complex.I) ^ n).re| ≤ 1 / 2 ∧ |q.y - (((p.x : ℂ) + p.y * Complex.I) ^ n).im| ≤ 1 / 2 := by
  have hx : ¬ p.x = 0 := hp.ne'
  set a := Real.arctan (p.y / p.x) with ha
  have hn : 0 < Pt.norm p := Real.sqrt_pos.mpr (by positivity)
  have hs : Real.sqrt (1 + (p.y / p.x) ^ 2) = Pt.norm p / p.x := by
    unfold Pt.norm
    rw [show 1 + (p.y / p.x) ^ 2 = (p.x ^ 2 + p.y ^ 2) / p.x ^ 2 by field_simp, Real.sqrt_div (by positivity), Real.sqrt_sq hp.le]
  have hc : Pt.norm p * Real.cos a = p.x := by
    rw [ha, Real.cos_arctan, hs]; field_simp
  have hsn : Pt.norm p * Real.sin a = p.y := by
    rw [ha, Real.sin_arctan, hs]; field_simp
  have key : ((p.x : ℂ) + p.y * Complex.I) ^ n = ((Pt.norm p ^ n * Real.cos (a * n) : ℝ) : ℂ) + ((Pt.norm p ^ n * Real.sin (a * n) : ℝ) : ℂ) * Complex.I := by
    have : (p.x : ℂ) + p.y * Complex.I = (Pt.norm p : ℂ) * (Complex.cos a + Complex.sin a * Complex.I) := by
      rw [← hc, ← hsn]; push_cast; ring
    rw [this, mul_pow, Complex.cos_add_sin_mul_I_pow]
    push_cast
    rw [mul_comm (n : ℂ)]; ring
  refine ⟨⟨Pt.pyRoundR (Pt.norm p ^ n * Real.cos (a * n)), Pt.pyRoundR (Pt.norm p ^ n * Real.sin (a * n))⟩, ?_, ?_, ?_⟩
  · unfold Pt.powNat Pt.argz
    rw [if_neg hx]
  · rw [key, re_part]; exact pyRoundR_near _
  · rw [key, im_part]; exact pyRoundR_near _

example : 0 < (⟨3, 4⟩ : Pt ℝ).x := by norm_num

/-- Powers of points on the y axis raise ZeroDivisionError. -/
theorem C100_zero_wrong (y : ℝ) (n : ℕ) : Pt.powNat ⟨0, y⟩ n = .error .zeroDivisionError := by
  unfold Pt.powNat Pt.argz
  rw [if_pos rfl]

theorem pyRoundR_int (n : ℤ) : Pt.pyRoundR n = n := by
  unfold Pt.pyRoundR; simp

/-- The first power of a point on the left is the point on the other side of the origin. -/
theorem C100_left_wrong (n : ℕ) (hn : 0 < n) : Pt.powNat ⟨-n, 0⟩ 1 = .ok ⟨n, 0⟩ := by
  unfold Pt.powNat Pt.argz
  have : (n : ℝ) ≠ 0 := by positivity
  rw [if_neg (by simpa using this)]
  have h : Pt.norm ⟨-(n : ℝ), 0⟩ = n := by
    unfold Pt.norm; simp
  have e1 := pyRoundR_int n
  have e2 := pyRoundR_int 0
  push_cast at e1 e2
  simp [h, e1, e2]

/-- The first power of 1/2 is 0. -/
theorem C100_round_wrong : Pt.powNat ⟨1 / 2, 0⟩ 1 = .ok ⟨0, 0⟩ := by
  unfold Pt.powNat Pt.argz
  rw [if_neg (by norm_num)]
  have h : Pt.norm ⟨1 / 2, 0⟩ = 1 / 2 := by
    unfold Pt.norm
    rw [show (1 / 2 : ℝ) ^ 2 + 0 ^ 2 = (1 / 2) ^ 2 by ring, Real.sqrt_sq (by norm_num)]
  have f : ⌊(1 / 2 : ℝ)⌋ = 0 := by norm_num
  have e1 : Pt.pyRoundR (1 / 2) = 0 := by unfold Pt.pyRoundR; rw [f]; norm_num
  have e2 := pyRoundR_int 0
  push_cast at e2
  simp only [h, zero_div, Real.arctan_zero, zero_mul, Real.cos_zero, Real.sin_zero, pow_one, mul_one, mul_zero, e1, e2, Int.cast_zero]

end Svgio.Props
