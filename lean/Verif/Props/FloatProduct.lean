import Verif.Props.FloatError
import Verif.Props.SegGeom
import Verif.Model.FloatTransform
import Verif.Spec.Product

/-!
C136: products of transforms, and transformed curves, with floats.
-/

namespace Svgio.Props

open Svgio.Flt Spec

/-- one rounding of a product of matrices -/
def ulp : ℚ := 1 / 2 ^ 50

theorem ulp_pos : 0 < ulp := by unfold ulp; positivity

/-- rows of a matrix are at most `A` in size, and so is 1 -/
def Sized {K : Type} [Field K] [LinearOrder K] (A : K) (m : Mat K) : Prop := 1 ≤ A ∧ |m.a| + |m.c| + |m.e| ≤ A ∧ |m.b| + |m.d| + |m.f| ≤ A

/-- rows of two matrices differ by at most `e` -/
def Apart {K : Type} [Field K] [LinearOrder K] (e : K) (m n : Mat K) : Prop :=
  |m.a - n.a| + |m.c - n.c| + |m.e - n.e| ≤ e ∧ |m.b - n.b| + |m.d - n.d| + |m.f - n.f| ≤ e

def PtSized {K : Type} [Field K] [LinearOrder K] (A : K) (v : Pt K) : Prop := 1 ≤ A ∧ |v.x| ≤ A ∧ |v.y| ≤ A

theorem sized_matSize (m : Mat ℚ) : Sized (matSize m) m :=
  ⟨le_max_left _ _, (le_max_left _ _).trans (le_max_right _ _), (le_max_right _ _).trans (le_max_right _ _)⟩

theorem sized_ptSize (v : Pt ℚ) : PtSized (ptSize v) v :=
  ⟨le_max_left _ _, (le_max_left _ _).trans (le_max_right _ _), (le_max_right _ _).trans (le_max_right _ _)⟩

section
variable {K : Type} [Field K] [LinearOrder K] [IsStrictOrderedRing K]

/-- one row of a product -/
theorem row_le {A B p q t a c e b d f : K} (hA : 1 ≤ A) (h1 : |a| + |c| + |e| ≤ A) (h2 : |b| + |d| + |f| ≤ A) (hB : |p| + |q| + |t| ≤ B) :
    |p| * |a| + |q| * |b| + (|p| * |c| + |q| * |d|) + (|p| * |e| + |q| * |f| + |t|) ≤ A * B := by
  have hp := abs_nonneg p
  have hq := abs_nonneg q
  have ht := abs_nonneg t
  have k1 : |p| * (|a| + |c| + |e|) ≤ |p| * A := by gcongr
  have k2 : |q| * (|b| + |d| + |f|) ≤ |q| * A := by gcongr
  have k3 : |t| * 1 ≤ |t| * A := by gcongr
  have k4 : A * (|p| + |q| + |t|) ≤ A * B := by gcongr
  linarith

theorem row_abs {A B p q t a c e b d f : K} (hA : 1 ≤ A) (h1 : |a| + |c| + |e| ≤ A) (h2 : |b| + |d| + |f| ≤ A) (hB : |p| + |q| + |t| ≤ B) :
    |p * a + q * b + t * 0| + |p * c + q * d + t * 0| + |p * e + q * f + t * 1| ≤ A * B := by
  refine le_trans ?_ (row_le hA h1 h2 hB)
  rw [mul_zero, add_zero, add_zero, mul_one]
  refine add_le_add (add_le_add ?_ ?_) ?_
  · exact (abs_add_le _ _).trans (by rw [abs_mul, abs_mul])
  · exact (abs_add_le _ _).trans (by rw [abs_mul, abs_mul])
  · exact (abs_add_le _ _).trans (add_le_add ((abs_add_le _ _).trans (by rw [abs_mul, abs_mul])) le_rfl)

theorem sized_mul {A B : K} {m s : Mat K} (hm : Sized A m) (hs : Sized B s) : Sized (A * B) (Mat.multiply m s) := by
  obtain ⟨hA, m1, m2⟩ := hm
  obtain ⟨hB, s1, s2⟩ := hs
  exact ⟨by nlinarith, row_abs hA m1 m2 s1, row_abs hA m1 m2 s2⟩

end

theorem entry_err {fl : ℚ → ℚ} {η : ℚ} (h0 : 0 ≤ η) (hη : η ≤ 1 / 2 ^ 100) (hfl : ∀ x, |fl x - x| ≤ |x| / 2 ^ 53 + η) (p q r s t u : ℚ) :
    |fl (fl (fl (p * q) + fl (r * s)) + fl (t * u)) - (p * q + r * s + t * u)| ≤ (|p| * |q| + |r| * |s| + |t * u|) / 2 ^ 51 + 16 * η := by
  have h := term_err h0 hη hfl q s (t * u) p r
  rw [one_mul] at h
  rwa [abs_mul, abs_mul] at h

/-- a product with floats differs from the exact product of the same matrices by one rounding -/
theorem product_err (F : FloatRounding) {A B : ℚ} {m s : Mat ℚ} (hm : Sized A m) (hs : Sized B s) :
    Apart (ulp * (A * B)) (Flt.multiply F m s) (Mat.multiply m s) := by
  obtain ⟨hA, m1, m2⟩ := hm
  obtain ⟨hB, s1, s2⟩ := hs
  obtain ⟨η, e1, e2, h0, hη⟩ := eta
  have hfl := F.err
  rw [e1] at hfl
  have hAB : 1 ≤ A * B := by nlinarith
  have key : ∀ {p q t : ℚ}, |p| + |q| + |t| ≤ B →
      |F.fl (F.fl (F.fl (p * m.a) + F.fl (q * m.b)) + F.fl (t * 0)) - (p * m.a + q * m.b + t * 0)| +
      |F.fl (F.fl (F.fl (p * m.c) + F.fl (q * m.d)) + F.fl (t * 0)) - (p * m.c + q * m.d + t * 0)| +
      |F.fl (F.fl (F.fl (p * m.e) + F.fl (q * m.f)) + F.fl (t * 1)) - (p * m.e + q * m.f + t * 1)| ≤ ulp * (A * B) := by
    intro p q t h
    have k1 := entry_err h0 hη hfl p m.a q m.b t 0
    have k2 := entry_err h0 hη hfl p m.c q m.d t 0
    have k3 := entry_err h0 hη hfl p m.e q m.f t 1
    have k := row_le hA m1 m2 h
    rw [mul_zero, abs_zero, add_zero] at k1 k2
    rw [mul_one] at k3
    refine (add_le_add (add_le_add (by simpa using k1) (by simpa using k2)) (by simpa using k3)).trans ?_
    unfold ulp
    linarith
  exact ⟨key s1, key s2⟩

section
variable {K : Type} [Field K] [LinearOrder K] [IsStrictOrderedRing K]

theorem apart_trans {e f : K} {l m n : Mat K} (h : Apart e l m) (h' : Apart f m n) : Apart (e + f) l n := by
  obtain ⟨h1, h2⟩ := h
  obtain ⟨g1, g2⟩ := h'
  constructor
  · have a := abs_sub_le l.a m.a n.a
    have c := abs_sub_le l.c m.c n.c
    have e := abs_sub_le l.e m.e n.e
    linarith
  · have a := abs_sub_le l.b m.b n.b
    have c := abs_sub_le l.d m.d n.d
    have e := abs_sub_le l.f m.f n.f
    linarith

theorem sized_apart {A e : K} {m n : Mat K} (hn : Sized A n) (h : Apart e m n) : Sized (A + e) m := by
  obtain ⟨hA, n1, n2⟩ := hn
  obtain ⟨h1, h2⟩ := h
  have he : 0 ≤ e := le_trans (by positivity) h1
  have k : ∀ x y : K, |x| ≤ |y| + |x - y| := by
    intro x y
    have := abs_add_le y (x - y)
    rwa [add_sub_cancel] at this
  refine ⟨by linarith, ?_, ?_⟩
  · have a := k m.a n.a
    have c := k m.c n.c
    have e := k m.e n.e
    linarith
  · have a := k m.b n.b
    have c := k m.d n.d
    have e := k m.f n.f
    linarith

/-- one row: the same second matrix, first matrices that differ -/
theorem row_left {e B p q t : K} {m n : Mat K} (h : Apart e m n) (hB : |p| + |q| + |t| ≤ B) :
    |p * m.a + q * m.b + t * 0 - (p * n.a + q * n.b + t * 0)| + |p * m.c + q * m.d + t * 0 - (p * n.c + q * n.d + t * 0)| +
      |p * m.e + q * m.f + t * 1 - (p * n.e + q * n.f + t * 1)| ≤ e * B := by
  obtain ⟨h1, h2⟩ := h
  have he : 0 ≤ e := le_trans (by positivity) h1
  have hp := abs_nonneg p
  have hq := abs_nonneg q
  have ht := abs_nonneg t
  have k : ∀ x y x' y' u : K, |p * x + q * y + u - (p * x' + q * y' + u)| ≤ |p| * |x - x'| + |q| * |y - y'| := by
    intro x y x' y' u
    have : p * x + q * y + u - (p * x' + q * y' + u) = p * (x - x') + q * (y - y') := by ring
    rw [this]
    exact (abs_add_le _ _).trans (by rw [abs_mul, abs_mul])
  have k1 : |p| * (|m.a - n.a| + |m.c - n.c| + |m.e - n.e|) ≤ |p| * e := by gcongr
  have k2 : |q| * (|m.b - n.b| + |m.d - n.d| + |m.f - n.f|) ≤ |q| * e := by gcongr
  have k3 : (|p| + |q|) * e ≤ B * e := mul_le_mul_of_nonneg_right (by linarith) he
  have := k m.a m.b n.a n.b (t * 0)
  have := k m.c m.d n.c n.d (t * 0)
  have := k m.e m.f n.e n.f (t * 1)
  linarith

theorem apart_left {e B : K} {m n s : Mat K} (h : Apart e m n) (hs : Sized B s) :
    Apart (e * B) (Mat.multiply m s) (Mat.multiply n s) := ⟨row_left h hs.2.1, row_left h hs.2.2⟩

/-- one row: the same first matrix, second matrices that differ -/
theorem row_right {e A p q t p' q' t' : K} {m : Mat K} (hm : Sized A m) (h : |p - p'| + |q - q'| + |t - t'| ≤ e) :
    |p * m.a + q * m.b + t * 0 - (p' * m.a + q' * m.b + t' * 0)| + |p * m.c + q * m.d + t * 0 - (p' * m.c + q' * m.d + t' * 0)| +
      |p * m.e + q * m.f + t * 1 - (p' * m.e + q' * m.f + t' * 1)| ≤ A * e := by
  have k := row_abs hm.1 hm.2.1 hm.2.2 h
  refine le_trans (le_of_eq ?_) k
  congr 1
  · congr 1 <;> congr 1 <;> ring
  · congr 1; ring

theorem apart_right {e A : K} {m s s' : Mat K} (hm : Sized A m) (h : Apart e s s') :
    Apart (A * e) (Mat.multiply m s) (Mat.multiply m s') := ⟨row_right hm h.1, row_right hm h.2⟩

end

/-- the exact product -/
def exact : Product → Mat ℚ
  | .one m => m
  | .times l r => Mat.multiply (exact l) (exact r)

theorem sizes_append (l r : List (Mat ℚ)) : sizes (l ++ r) = sizes l * sizes r := by simp [sizes]

theorem sized_exact : ∀ p : Product, Sized (sizes p.factors) (exact p)
  | .one m => by
    have : sizes (Product.one m).factors = matSize m := by simp [sizes, Product.factors]
    rw [this]
    exact sized_matSize m
  | .times l r => by
    rw [Product.factors, sizes_append]
    exact sized_mul (sized_exact l) (sized_exact r)

theorem factors_pos : ∀ p : Product, 0 < p.factors.length
  | .one _ => by simp [Product.factors]
  | .times l r => by
    rw [Product.factors, List.length_append]
    exact Nat.add_pos_left (factors_pos l) _

theorem apart_exact (F : FloatRounding) : ∀ p : Product,
    Apart (((1 + ulp) ^ (p.factors.length - 1) - 1) * sizes p.factors) (p.floats F) (exact p)
  | .one m => by simp [Product.factors, Product.floats, exact, Apart]
  | .times l r => by
    have hl := apart_exact F l
    have hr := apart_exact F r
    have sl := sized_exact l
    have sr := sized_exact r
    have pl := factors_pos l
    have pr := factors_pos r
    rw [Product.factors, sizes_append, List.length_append]
    rw [show l.factors.length + r.factors.length - 1 = (l.factors.length - 1) + (r.factors.length - 1) + 1 by omega]
    generalize l.factors.length - 1 = i at *
    generalize r.factors.length - 1 = j at *
    generalize sizes l.factors = A at *
    generalize sizes r.factors = B at *
    have fl := sized_apart sl hl
    have fr := sized_apart sr hr
    have h := apart_trans (product_err F fl fr) (apart_trans (apart_left hl fr) (apart_right sl hr))
    rw [Product.floats, exact]
    have e : ulp * ((A + ((1 + ulp) ^ i - 1) * A) * (B + ((1 + ulp) ^ j - 1) * B)) +
        (((1 + ulp) ^ i - 1) * A * (B + ((1 + ulp) ^ j - 1) * B) + A * (((1 + ulp) ^ j - 1) * B)) =
        ((1 + ulp) ^ (i + j + 1) - 1) * (A * B) := by
      rw [pow_succ, pow_add]
      ring
    rwa [e] at h

/-- a point with floats differs from the exact one by one rounding -/
theorem point_err (F : FloatRounding) {A B : ℚ} {m : Mat ℚ} {v : Pt ℚ} (hm : Sized A m) (hv : PtSized B v) :
    Off (ulp * (A * B)) (Flt.pointInMatrixSpace F m v) (m.pointInMatrixSpace v) := by
  obtain ⟨hA, m1, m2⟩ := hm
  obtain ⟨hB, v1, v2⟩ := hv
  obtain ⟨η, e1, e2, h0, hη⟩ := eta
  have hAB : 1 ≤ A * B := by nlinarith
  have key : ∀ {p q t : ℚ}, |p| + |q| + |t| ≤ A → (|v.x * p| + |v.y * q| + |t|) / 2 ^ 51 + 16 * η ≤ ulp * (A * B) := by
    intro p q t h
    have hp := abs_nonneg p
    have hq := abs_nonneg q
    have ht := abs_nonneg t
    have k1 : |v.x * p| ≤ |p| * B := by rw [abs_mul, mul_comm]; gcongr
    have k2 : |v.y * q| ≤ |q| * B := by rw [abs_mul, mul_comm]; gcongr
    have k3 : |t| ≤ |t| * B := le_mul_of_one_le_right ht hB
    have k4 : (|p| + |q| + |t|) * B ≤ A * B := by gcongr
    unfold ulp
    linarith
  have h := C122_transform F m v
  rw [e2] at h
  exact ⟨h.1.trans (key m1), h.2.trans (key m2)⟩

theorem ptSized_mul {A B : ℚ} {m : Mat ℚ} {v : Pt ℚ} (hm : Sized A m) (hv : PtSized B v) : PtSized (A * B) (m.pointInMatrixSpace v) := by
  obtain ⟨hA, m1, m2⟩ := hm
  obtain ⟨hB, v1, v2⟩ := hv
  have key : ∀ {p q t : ℚ}, |p| + |q| + |t| ≤ A → |v.x * p + v.y * q + 1 * t| ≤ A * B := by
    intro p q t h
    have hp := abs_nonneg p
    have hq := abs_nonneg q
    have ht := abs_nonneg t
    have k1 : |v.x * p| ≤ |p| * B := by rw [abs_mul, mul_comm]; gcongr
    have k2 : |v.y * q| ≤ |q| * B := by rw [abs_mul, mul_comm]; gcongr
    have k3 : |t| ≤ |t| * B := le_mul_of_one_le_right ht hB
    have k4 : (|p| + |q| + |t|) * B ≤ A * B := by gcongr
    rw [one_mul]
    have := abs_add_le (v.x * p + v.y * q) t
    have := abs_add_le (v.x * p) (v.y * q)
    linarith
  exact ⟨by nlinarith, key m1, key m2⟩

theorem ptSized_off {A e : ℚ} {p q : Pt ℚ} (hq : PtSized A q) (h : Off e p q) : PtSized (A + e) p := by
  obtain ⟨hA, q1, q2⟩ := hq
  obtain ⟨h1, h2⟩ := h
  have he : 0 ≤ e := (abs_nonneg _).trans h1
  have k : ∀ x y : ℚ, |x| ≤ |y| + |x - y| := by
    intro x y
    have := abs_add_le y (x - y)
    rwa [add_sub_cancel] at this
  exact ⟨by linarith, (k _ _).trans (add_le_add q1 h1), (k _ _).trans (add_le_add q2 h2)⟩

theorem off_trans {e f : ℚ} {p q r : Pt ℚ} (h : Off e p q) (h' : Off f q r) : Off (e + f) p r :=
  ⟨(abs_sub_le _ _ _).trans (add_le_add h.1 h'.1), (abs_sub_le _ _ _).trans (add_le_add h.2 h'.2)⟩

/-- two matrices that differ, the same point -/
theorem off_apart {e B : ℚ} {m n : Mat ℚ} {v : Pt ℚ} (h : Apart e m n) (hv : PtSized B v) :
    Off (e * B) (m.pointInMatrixSpace v) (n.pointInMatrixSpace v) := by
  obtain ⟨hB, v1, v2⟩ := hv
  have key : ∀ {p q t p' q' t' : ℚ}, |p - p'| + |q - q'| + |t - t'| ≤ e →
      |v.x * p + v.y * q + 1 * t - (v.x * p' + v.y * q' + 1 * t')| ≤ e * B := by
    intro p q t p' q' t' h
    have e1 : v.x * p + v.y * q + 1 * t - (v.x * p' + v.y * q' + 1 * t') = v.x * (p - p') + v.y * (q - q') + (t - t') := by ring
    rw [e1]
    have k1 : |v.x * (p - p')| ≤ |p - p'| * B := by rw [abs_mul, mul_comm]; gcongr
    have k2 : |v.y * (q - q')| ≤ |q - q'| * B := by rw [abs_mul, mul_comm]; gcongr
    have k3 : |t - t'| ≤ |t - t'| * B := le_mul_of_one_le_right (abs_nonneg _) hB
    have k4 : (|p - p'| + |q - q'| + |t - t'|) * B ≤ e * B := by gcongr
    have := abs_add_le (v.x * (p - p') + v.y * (q - q')) (t - t')
    have := abs_add_le (v.x * (p - p')) (v.y * (q - q'))
    linarith
  exact ⟨key h.1, key h.2⟩

/-- the same matrix, two points that differ -/
theorem off_point {e A : ℚ} {m : Mat ℚ} {p q : Pt ℚ} (hm : Sized A m) (h : Off e p q) :
    Off (A * e) (m.pointInMatrixSpace p) (m.pointInMatrixSpace q) := by
  obtain ⟨h1, h2⟩ := h
  have he : 0 ≤ e := (abs_nonneg _).trans h1
  have key : ∀ {a b t : ℚ}, |a| + |b| + |t| ≤ A → |p.x * a + p.y * b + 1 * t - (q.x * a + q.y * b + 1 * t)| ≤ A * e := by
    intro a b t hA
    have e1 : p.x * a + p.y * b + 1 * t - (q.x * a + q.y * b + 1 * t) = (p.x - q.x) * a + (p.y - q.y) * b := by ring
    rw [e1]
    have k1 : |(p.x - q.x) * a| ≤ e * |a| := by rw [abs_mul]; gcongr
    have k2 : |(p.y - q.y) * b| ≤ e * |b| := by rw [abs_mul]; gcongr
    have k4 : e * (|a| + |b| + |t|) ≤ e * A := by gcongr
    have := abs_add_le ((p.x - q.x) * a) ((p.y - q.y) * b)
    have := mul_nonneg he (abs_nonneg t)
    linarith
  exact ⟨key hm.2.1, key hm.2.2⟩

theorem moved_cons (m : Mat ℚ) (ms : List (Mat ℚ)) (v : Pt ℚ) : moved (m :: ms) v = moved ms (m.pointInMatrixSpace v) := by
  rw [moved]
  congr 1
  simp only [Mat.pointInMatrixSpace]
  congr 1 <;> ring

theorem moved_append : ∀ (l r : List (Mat ℚ)) (v : Pt ℚ), moved (l ++ r) v = moved r (moved l v)
  | [], _, _ => rfl
  | m :: l, r, v => by rw [List.cons_append, moved, moved, moved_append l r]

theorem exact_moved : ∀ (p : Product) (v : Pt ℚ), (exact p).pointInMatrixSpace v = moved p.factors v
  | .one m, v => by rw [Product.factors, moved_cons]; rfl
  | .times l r, v => by
    rw [Product.factors, moved_append, ← exact_moved l, ← exact_moved r, exact]
    simp only [Mat.pointInMatrixSpace, Mat.multiply]
    congr 1 <;> ring

theorem one_by_one (F : FloatRounding) : ∀ (ms : List (Mat ℚ)) {B d : ℚ} {v w : Pt ℚ}, PtSized B v → Off (d * B) w v → 0 ≤ d →
    Off (((1 + d) * (1 + ulp) ^ ms.length - 1) * (sizes ms * B)) (movedFloats F ms w) (moved ms v)
  | [], B, d, v, w, hv, hw, _ => by
    simpa [sizes, moved, movedFloats] using hw
  | m :: ms, B, d, v, w, hv, hw, hd => by
    have hm := sized_matSize m
    have hB : 0 ≤ B := zero_le_one.trans hv.1
    have u0 := ulp_pos
    have s0 : 0 ≤ matSize m := zero_le_one.trans hm.1
    have h1 := off_trans (point_err F hm (ptSized_off hv hw)) (off_point hm hw)
    have e1 : ulp * (matSize m * (B + d * B)) + matSize m * (d * B) = ((1 + d) * (1 + ulp) - 1) * (matSize m * B) := by ring
    rw [e1] at h1
    have d0 : 0 ≤ (1 + d) * (1 + ulp) - 1 := by nlinarith
    have h2 := one_by_one F ms (ptSized_mul hm hv) h1 d0
    rw [moved_cons, movedFloats]
    have e2 : ((1 + ((1 + d) * (1 + ulp) - 1)) * (1 + ulp) ^ ms.length - 1) * (sizes ms * (matSize m * B)) =
        ((1 + d) * (1 + ulp) ^ (m :: ms).length - 1) * (sizes (m :: ms) * B) := by
      simp only [sizes, List.map_cons, List.prod_cons, List.length_cons, pow_succ]
      ring
    rwa [e2] at h2

theorem pow_ulp : ∀ n : ℕ, n ≤ 2 ^ 49 → (1 + ulp) ^ n - 1 ≤ n / 2 ^ 49
  | 0, _ => by simp
  | n + 1, h => by
    have ih := pow_ulp n (by omega)
    have hn : (n : ℚ) ≤ 2 ^ 49 := by exact_mod_cast (by omega : n ≤ 2 ^ 49)
    have u0 := ulp_pos
    rw [pow_succ]
    push_cast
    have : ((1 + ulp) ^ n - 1) * (1 + ulp) ≤ n / 2 ^ 49 * (1 + ulp) := by gcongr
    have : (n : ℚ) / 2 ^ 49 * ulp ≤ 1 * ulp := by
      gcongr
      rw [div_le_one (by positivity)]
      exact hn
    have hu : ulp = 1 / 2 ^ 50 := rfl
    linarith

/-- **C136.** With floats, a point moved by a product of transforms, multiplied in any order of brackets, and a point moved by the same
transforms one after the other are both off from the exact point by at most one part in 2^49 for each transform, of the sizes of the
transforms multiplied with the size of the point. -/
theorem C136_product (F : FloatRounding) (p : Product) (h : p.factors.length ≤ 2 ^ 49) (v : Pt ℚ) :
    Off (p.factors.length / 2 ^ 49 * (sizes p.factors * ptSize v)) (Flt.pointInMatrixSpace F (p.floats F) v) (moved p.factors v) ∧
    Off (p.factors.length / 2 ^ 49 * (sizes p.factors * ptSize v)) (movedFloats F p.factors v) (moved p.factors v) := by
  have hv := sized_ptSize v
  have hs := sized_exact p
  have h0 : 0 ≤ sizes p.factors * ptSize v := mul_nonneg (zero_le_one.trans hs.1) (zero_le_one.trans hv.1)
  have hb := mul_le_mul_of_nonneg_right (pow_ulp _ h) h0
  have weaken : ∀ {q r : Pt ℚ}, Off (((1 + ulp) ^ p.factors.length - 1) * (sizes p.factors * ptSize v)) q r →
      Off (p.factors.length / 2 ^ 49 * (sizes p.factors * ptSize v)) q r := fun k => ⟨k.1.trans hb, k.2.trans hb⟩
  refine ⟨weaken ?_, weaken ?_⟩
  · have ha := apart_exact F p
    have k := off_trans (point_err F (sized_apart hs ha) hv) (off_apart ha hv)
    rw [exact_moved] at k
    have e : ulp * ((sizes p.factors + ((1 + ulp) ^ (p.factors.length - 1) - 1) * sizes p.factors) * ptSize v) +
        ((1 + ulp) ^ (p.factors.length - 1) - 1) * sizes p.factors * ptSize v =
        ((1 + ulp) ^ p.factors.length - 1) * (sizes p.factors * ptSize v) := by
      conv_rhs => rw [show p.factors.length = (p.factors.length - 1) + 1 by have := factors_pos p; omega, pow_succ]
      ring
    rwa [e] at k
  · have k := one_by_one F p.factors (d := 0) hv (w := v) (by simp [Off]) le_rfl
    simpa using k

/-! ### curves -/

theorem abs_weight_le {w x d : ℚ} (hw : 0 ≤ w) (h : |x| ≤ d) : |w * x| ≤ w * d := by
  rw [abs_mul, abs_of_nonneg hw]
  exact mul_le_mul_of_nonneg_left h hw

theorem lip1 {d x y x' y' t : ℚ} (hx : |x - x'| ≤ d) (hy : |y - y'| ≤ d) (h0 : 0 ≤ t) (h1 : t ≤ 1) :
    |t * (y - x) + x - (t * (y' - x') + x')| ≤ d := by
  have e : t * (y - x) + x - (t * (y' - x') + x') = (1 - t) * (x - x') + t * (y - y') := by ring
  rw [e]
  refine (abs_add_le _ _).trans ?_
  rw [abs_mul, abs_mul, abs_of_nonneg h0, abs_of_nonneg (by linarith : 0 ≤ 1 - t)]
  have k1 : (1 - t) * |x - x'| ≤ (1 - t) * d := mul_le_mul_of_nonneg_left hx (by linarith)
  have k2 : t * |y - y'| ≤ t * d := mul_le_mul_of_nonneg_left hy h0
  linarith

theorem lip_interp {d x y x' y' t : ℚ} (hx : |x - x'| ≤ d) (hy : |y - y'| ≤ d) (h0 : 0 ≤ t) (h1 : t ≤ 1) :
    |Seg.interp x y t - Seg.interp x' y' t| ≤ d := by
  unfold Seg.interp
  split_ifs
  · exact hx
  · exact hy
  · exact lip1 hx hy h0 h1

theorem lip2 {d x y z x' y' z' t : ℚ} (hx : |x - x'| ≤ d) (hy : |y - y'| ≤ d) (hz : |z - z'| ≤ d) (h0 : 0 ≤ t) (h1 : t ≤ 1) :
    |Seg.quadAt x y z t - Seg.quadAt x' y' z' t| ≤ d := by
  have n0 : 0 ≤ 1 - t := by linarith
  have e : Seg.quadAt x y z t - Seg.quadAt x' y' z' t = (1 - t) ^ 2 * (x - x') + 2 * ((1 - t) * t) * (y - y') + t ^ 2 * (z - z') := by
    simp only [Seg.quadAt]; ring
  rw [e]
  refine (abs_add_le _ _).trans ((add_le_add (abs_add_le _ _) le_rfl).trans ?_)
  have k1 := abs_weight_le (by positivity : 0 ≤ (1 - t) ^ 2) hx
  have k2 := abs_weight_le (by positivity : 0 ≤ 2 * ((1 - t) * t)) hy
  have k3 := abs_weight_le (by positivity : 0 ≤ t ^ 2) hz
  linarith

theorem lip3 {d x y z w x' y' z' w' t : ℚ} (hx : |x - x'| ≤ d) (hy : |y - y'| ≤ d) (hz : |z - z'| ≤ d) (hw : |w - w'| ≤ d) (h0 : 0 ≤ t)
    (h1 : t ≤ 1) : |Seg.cubicAt x y z w t - Seg.cubicAt x' y' z' w' t| ≤ d := by
  have n0 : 0 ≤ 1 - t := by linarith
  have e : Seg.cubicAt x y z w t - Seg.cubicAt x' y' z' w' t =
      (1 - t) ^ 3 * (x - x') + 3 * ((1 - t) ^ 2 * t) * (y - y') + 3 * ((1 - t) * t ^ 2) * (z - z') + t ^ 3 * (w - w') := by
    simp only [Seg.cubicAt]; ring
  rw [e]
  refine (abs_add_le _ _).trans ((add_le_add ((abs_add_le _ _).trans (add_le_add (abs_add_le _ _) le_rfl)) le_rfl).trans ?_)
  have k1 := abs_weight_le (by positivity : 0 ≤ (1 - t) ^ 3) hx
  have k2 := abs_weight_le (by positivity : 0 ≤ 3 * ((1 - t) ^ 2 * t)) hy
  have k3 := abs_weight_le (by positivity : 0 ≤ 3 * ((1 - t) * t ^ 2)) hz
  have k4 := abs_weight_le (by positivity : 0 ≤ t ^ 3) hw
  linarith

theorem lip_line (numpy : Bool) {d t : ℚ} {p q p' q' : Pt ℚ} (hp : Off d p p') (hq : Off d q q') (h0 : 0 ≤ t) (h1 : t ≤ 1) :
    Off d (Seg.linearAt numpy p q t) (Seg.linearAt numpy p' q' t) := by
  cases numpy
  · exact ⟨lip1 hp.1 hq.1 h0 h1, lip1 hp.2 hq.2 h0 h1⟩
  · exact ⟨lip_interp hp.1 hq.1 h0 h1, lip_interp hp.2 hq.2 h0 h1⟩

/-- the exact curve of the points moved with floats is close to the one of the points moved exactly -/
theorem lip_seg (F : FloatRounding) (numpy : Bool) {d t : ℚ} {m : Mat ℚ} {s : Seg ℚ} (h0 : 0 ≤ t) (h1 : t ≤ 1)
    (hd : ∀ q, s.start = some q ∨ s.stop = some q ∨ s.kind = .quad (some q) ∨ (∃ c, s.kind = .cubic (some q) c ∨ s.kind = .cubic c (some q)) →
      Off d (Flt.pointInMatrixSpace F m q) (m.pointInMatrixSpace q)) {p : Pt ℚ} (hp : (Seg.imul m s).point numpy t = .ok p) :
    ∃ q, (Flt.imul F m s).point numpy t = .ok q ∧ Off d q p := by
  obtain ⟨kind, start, stop, rel, smooth⟩ := s
  cases kind with
  | move =>
    cases stop with
    | none => cases hp
    | some b =>
      cases hp
      exact ⟨_, rfl, hd b (Or.inr (Or.inl rfl))⟩
  | line =>
    cases start with
    | none => cases stop <;> cases hp
    | some a =>
      cases stop with
      | none => cases hp
      | some b =>
        cases hp
        exact ⟨_, rfl, lip_line numpy (hd a (Or.inl rfl)) (hd b (Or.inr (Or.inl rfl))) h0 h1⟩
  | close =>
    cases start with
    | none => cases stop <;> cases hp
    | some a =>
      cases stop with
      | none => cases hp
      | some b =>
        cases hp
        exact ⟨_, rfl, lip_line numpy (hd a (Or.inl rfl)) (hd b (Or.inr (Or.inl rfl))) h0 h1⟩
  | quad c =>
    cases start with
    | none => cases stop <;> cases c <;> cases hp
    | some a =>
      cases c with
      | none => cases stop <;> cases hp
      | some c =>
        cases stop with
        | none => cases hp
        | some b =>
          cases hp
          have ha := hd a (Or.inl rfl)
          have hb := hd b (Or.inr (Or.inl rfl))
          have hc := hd c (Or.inr (Or.inr (Or.inl rfl)))
          exact ⟨_, rfl, lip2 ha.1 hc.1 hb.1 h0 h1, lip2 ha.2 hc.2 hb.2 h0 h1⟩
  | cubic c e =>
    cases start with
    | none => cases stop <;> cases c <;> cases e <;> cases hp
    | some a =>
      cases c with
      | none => cases stop <;> cases e <;> cases hp
      | some c =>
        cases e with
        | none => cases stop <;> cases hp
        | some e =>
          cases stop with
          | none => cases hp
          | some b =>
            cases hp
            have ha := hd a (Or.inl rfl)
            have hb := hd b (Or.inr (Or.inl rfl))
            have hc := hd c (Or.inr (Or.inr (Or.inr ⟨_, Or.inl rfl⟩)))
            have he := hd e (Or.inr (Or.inr (Or.inr ⟨_, Or.inr rfl⟩)))
            exact ⟨_, rfl, lip3 ha.1 hc.1 he.1 hb.1 h0 h1, lip3 ha.2 hc.2 he.2 hb.2 h0 h1⟩
  | arc a => cases hp

theorem seg_bound (F : FloatRounding) {A B : ℚ} {m : Mat ℚ} {s : Seg ℚ} (hm : Sized A m) (hB : 1 ≤ B) (hs : SegAtMost B s) :
    SegAtMost ((1 + ulp) * (A * B)) (Flt.imul F m s) := by
  have one : ∀ {o : Option (Pt ℚ)}, AtMost B o → AtMost ((1 + ulp) * (A * B)) (o.map (Flt.pointInMatrixSpace F m)) := by
    rintro o h q hq
    rw [Option.map_eq_some_iff] at hq
    obtain ⟨r, rfl, rfl⟩ := hq
    have hr : PtSized B r := ⟨hB, h r rfl⟩
    have k := ptSized_off (ptSized_mul hm hr) (point_err F hm hr)
    rw [show A * B + ulp * (A * B) = (1 + ulp) * (A * B) by ring] at k
    exact k.2
  obtain ⟨kind, start, stop, rel, smooth⟩ := s
  obtain ⟨b1, b2, b3, b4⟩ := hs
  refine ⟨one b1, one b2, ?_, ?_⟩
  · intro c hc
    cases kind <;> simp only [Flt.imul, reduceCtorEq] at hc
    cases hc
    exact one (b3 _ rfl)
  · intro c d hc
    cases kind <;> simp only [Flt.imul, reduceCtorEq] at hc
    cases hc
    exact ⟨one (b4 _ _ rfl).1, one (b4 _ _ rfl).2⟩

/-- **C136.** With floats, a point of a transformed line, quadratic or cubic curve is, at every position from 0 to 1, off from the exactly
transformed exact point of the curve by at most one part in 2^46 of the size of the transform times the largest coordinate (or 1), with
numpy or without. -/
theorem C136_segment (F : FloatRounding) (P : FloatPow) (numpy : Bool) {B : ℚ} {s : Seg ℚ} (hB : 1 ≤ B) (hs : SegAtMost B s) (m : Mat ℚ)
    {t : ℚ} (h0 : 0 ≤ t) (h1 : t ≤ 1) {p : Pt ℚ} (hp : s.point numpy t = .ok p) :
    ∃ q, Flt.point F P numpy (Flt.mul F s m) t = .ok q ∧ Off (matSize m * B / 2 ^ 46) q (moved [m] p) := by
  have hm := sized_matSize m
  have hn : NoArc s := by
    intro a ha
    obtain ⟨kind, start, stop, rel, smooth⟩ := s
    simp only at ha
    subst ha
    cases hp
  have ht := (C57_transform numpy s hn m t).2.1
  rw [hp] at ht
  have hd : ∀ q, s.start = some q ∨ s.stop = some q ∨ s.kind = .quad (some q) ∨
      (∃ c, s.kind = .cubic (some q) c ∨ s.kind = .cubic c (some q)) →
      Off (ulp * (matSize m * B)) (Flt.pointInMatrixSpace F m q) (m.pointInMatrixSpace q) := by
    intro q hq
    refine point_err F hm ⟨hB, ?_⟩
    rcases hq with h | h | h | ⟨c, h | h⟩
    · exact hs.1 q h
    · exact hs.2.1 q h
    · exact hs.2.2.1 _ h q rfl
    · exact (hs.2.2.2 _ _ h).1 q rfl
    · exact (hs.2.2.2 _ _ h).2 q rfl
  obtain ⟨q, hq, hoff⟩ := lip_seg F numpy h0 h1 hd ht
  obtain ⟨r, hr, hroff⟩ := (C122_point F P numpy (seg_bound F hm hB hs) h0 h1).1 q hq
  refine ⟨r, ?_, ?_⟩
  · rw [← hr]
    obtain ⟨kind, start, stop, rel, smooth⟩ := s
    cases kind <;> rfl
  · have k := off_trans hroff hoff
    rw [moved_cons, moved]
    obtain ⟨η, e1, e2, h0, hη⟩ := eta
    rw [e2] at k
    have hAB : 1 ≤ matSize m * B := by nlinarith [hm.1]
    have : (1 + ulp) * (matSize m * B) / 2 ^ 47 + 16 * η + ulp * (matSize m * B) ≤ matSize m * B / 2 ^ 46 := by
      unfold ulp
      linarith
    exact ⟨k.1.trans this, k.2.trans this⟩

/-- a rotation by the angle with cosine 3/5, a scaling and a shift, with two ways of setting brackets -/
example : (Product.times (.times (.one ⟨3 / 5, 4 / 5, -4 / 5, 3 / 5, 0, 0⟩) (.one ⟨2, 0, 0, 2, 0, 0⟩)) (.one ⟨1, 0, 0, 1, 10, 20⟩)).factors =
    (Product.times (.one ⟨3 / 5, 4 / 5, -4 / 5, 3 / 5, 0, 0⟩) (.times (.one ⟨2, 0, 0, 2, 0, 0⟩) (.one ⟨1, 0, 0, 1, 10, 20⟩))).factors := rfl

example : sizes [⟨3 / 5, 4 / 5, -4 / 5, 3 / 5, 0, 0⟩, ⟨2, 0, 0, 2, 0, 0⟩] = 14 / 5 := by
  norm_num [sizes, matSize, abs_of_nonneg, abs_of_neg]

end Svgio.Props
