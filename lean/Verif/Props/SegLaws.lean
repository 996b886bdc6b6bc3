import Verif.Props.QuadLength
import Verif.Props.Matrix
import Verif.Props.SegGeom
import Verif.Props.CurveLength
import Verif.Model.SegLength

/-!
Laws of transforming and reversing segments: products of transforms (C107) and lengths under similarities and
reversal (C108).
-/

namespace Svgio.Props

open Svgio Svgio.Spec Svgio.Seg

/-! ### C107 transforms of segments compose -/

section
variable {K : Type} [Field K] [LinearOrder K] [IsStrictOrderedRing K]

/-- two segments of the same class with the same points, the same sweep if they are arcs, and the same flag `relative` -/
def SameSeg (s o : Seg K) : Prop := s.kind = o.kind ∧ s.start = o.start ∧ s.stop = o.stop ∧ s.relative = o.relative

omit [LinearOrder K] [IsStrictOrderedRing K] in
theorem mapsTo_matmul (A B : Mat K) (p : Pt K) :
    B.pointInMatrixSpace (A.pointInMatrixSpace p) = (A.matmul B).pointInMatrixSpace p := by
  simp only [Mat.pointInMatrixSpace, Mat.matmul, Mat.imatmul, Mat.multiply]
  congr 1 <;> ring

omit [LinearOrder K] [IsStrictOrderedRing K] in
theorem map_matmul (A B : Mat K) (p : Option (Pt K)) :
    (p.map A.pointInMatrixSpace).map B.pointInMatrixSpace = p.map (A.matmul B).pointInMatrixSpace := by
  cases p with
  | none => rfl
  | some p => simp only [Option.map, mapsTo_matmul]

/-- the sign that `*=` gives to the sweep of an arc -/
theorem imulArc_sweep' (m : Mat K) (a : ArcData K) :
    (imulArc m a).sweep = if (m.a < 0 ↔ m.d < 0) then a.sweep else -a.sweep := by
  unfold imulArc
  by_cases h1 : m.a < 0 <;> by_cases h2 : m.d < 0 <;> simp [h1, h2]

/-- the two signs of the diagonal do not differ -/
def Even (m : Mat K) : Prop := m.a < 0 ↔ m.d < 0

theorem imulArc_imulArc (A B : Mat K) (a : ArcData K) (h : Even (A.matmul B) ↔ (Even A ↔ Even B)) :
    imulArc B (imulArc A a) = imulArc (A.matmul B) a := by
  have e : (imulArc B (imulArc A a)).sweep = (imulArc (A.matmul B) a).sweep := by
    rw [imulArc_sweep', imulArc_sweep', imulArc_sweep']
    unfold Even at h
    by_cases h1 : A.a < 0 ↔ A.d < 0 <;> by_cases h2 : B.a < 0 ↔ B.d < 0
    · rw [if_pos h1, if_pos h2, if_pos (h.2 (iff_of_true h1 h2))]
    · rw [if_pos h1, if_neg h2, if_neg fun x => h2 ((h.1 x).1 h1)]
    · rw [if_neg h1, if_pos h2, if_neg fun x => h1 ((h.1 x).2 h2)]
    · rw [if_neg h1, if_neg h2, if_pos (h.2 (iff_of_false h1 h2)), neg_neg]
  have x : ∀ u v : ArcData K, u.center = v.center → u.prx = v.prx → u.pry = v.pry → u.sweep = v.sweep → u = v := by
    rintro ⟨_, _, _, _⟩ ⟨_, _, _, _⟩ h1 h2 h3 h4
    simp only at h1 h2 h3 h4
    rw [h1, h2, h3, h4]
  exact x _ _ (mapsTo_matmul A B _) (mapsTo_matmul A B _) (mapsTo_matmul A B _) e

theorem imul_imul (A B : Mat K) (s : Seg K) (h : NoArc s ∨ (Even (A.matmul B) ↔ (Even A ↔ Even B))) :
    imul B (imul A s) = imul (A.matmul B) s := by
  obtain ⟨k, p, q, r, sm⟩ := s
  cases k with
  | arc a =>
    rcases h with h | h
    · exact absurd rfl (h a)
    · simp only [imul, map_matmul, imulArc_imulArc A B a h]
  | _ => simp only [imul, map_matmul]

theorem copySeg_imul (A : Mat K) (s : Seg K) : Path.copySeg (imul A (Path.copySeg s)) = imul A (Path.copySeg s) := by
  obtain ⟨k, p, q, r, sm⟩ := s
  cases k <;> rfl

theorem noArc_copySeg {s : Seg K} (h : NoArc s) : NoArc (Path.copySeg s) := h

theorem even_diagonal {A B : Mat K} (h : A.b = 0 ∧ A.c = 0 ∧ B.b = 0 ∧ B.c = 0 ∧ A.a * A.d ≠ 0 ∧ B.a * B.d ≠ 0) :
    Even (A.matmul B) ↔ (Even A ↔ Even B) := by
  obtain ⟨h1, h2, h3, h4, h5, h6⟩ := h
  have a1 := lt_or_gt_of_ne (left_ne_zero_of_mul h5)
  have a2 := lt_or_gt_of_ne (right_ne_zero_of_mul h5)
  have b1 := lt_or_gt_of_ne (left_ne_zero_of_mul h6)
  have b2 := lt_or_gt_of_ne (right_ne_zero_of_mul h6)
  simp only [Even, Mat.matmul, Mat.imatmul, Mat.multiply, h1, h2, h3, h4, mul_zero, zero_mul, add_zero, zero_add]
  rcases a1 with a1 | a1 <;> rcases a2 with a2 | a2 <;> rcases b1 with b1 | b1 <;> rcases b2 with b2 | b2 <;>
    simp [mul_neg_iff, a1, a2, b1, b2, a1.not_gt, a2.not_gt, b1.not_gt, b2.not_gt]

theorem even_turn {A B : Mat K} (h : A.a = A.d ∧ A.b = -A.c ∧ B.a = B.d ∧ B.b = -B.c) :
    Even (A.matmul B) ↔ (Even A ↔ Even B) := by
  obtain ⟨h1, h2, h3, h4⟩ := h
  have e : (A.matmul B).a = (A.matmul B).d := by
    simp only [Mat.matmul, Mat.imatmul, Mat.multiply, h1, h2, h3, h4]; ring
  simp only [Even, e, h1, h3]

/-- **C107**: transforming a segment by `A` and then by `B` is transforming it by the product `A * B`, for new segments and in
place; the identity changes nothing; the inverse undoes a transform. Lines, moves, closes and Bézier curves, with or without
missing points; arcs when both transforms are made of scalings along the axes and translations, or both of rotations, scalings
by one factor and translations. -/
theorem C107_compose_partial (s : Seg K) (A B : Mat K)
    (h : NoArc s ∨ (A.b = 0 ∧ A.c = 0 ∧ B.b = 0 ∧ B.c = 0 ∧ A.a * A.d ≠ 0 ∧ B.a * B.d ≠ 0) ∨
      (A.a = A.d ∧ A.b = -A.c ∧ B.a = B.d ∧ B.b = -B.c)) :
    (s.mul A).mul B = s.mul (A.matmul B) ∧ imul B (imul A s) = imul (A.matmul B) s ∧
    SameSeg (s.mul Mat.identity) s ∧ imul Mat.identity s = s ∧
    ∀ R, A.invert = (A, .ok R) → SameSeg ((s.mul A).mul R) s ∧ imul R (imul A s) = s := by
  have idp : ∀ p : Option (Pt K), p.map (Mat.pointInMatrixSpace Mat.identity) = p := by
    intro p
    cases p with
    | none => rfl
    | some p => simp [Mat.pointInMatrixSpace, Mat.identity]
  have ids : ∀ s : Seg K, imul Mat.identity s = s := by
    intro s
    obtain ⟨k, p, q, r, sm⟩ := s
    cases k with
    | arc a =>
      obtain ⟨c, x, y, w⟩ := a
      simp only [imul, idp]
      simp [imulArc, Mat.pointInMatrixSpace, Mat.identity, not_lt.2 (zero_le_one (α := K))]
    | _ => simp only [imul, idp]
  have same : ∀ s : Seg K, SameSeg (Path.copySeg s) s := fun s => ⟨rfl, rfl, rfl, rfl⟩
  have ev : NoArc s ∨ (Even (A.matmul B) ↔ (Even A ↔ Even B)) := by
    rcases h with h | h | h
    · exact .inl h
    · exact .inr (even_diagonal h)
    · exact .inr (even_turn h)
  refine ⟨?_, imul_imul A B s ev, ?_, ids s, fun R hR => ?_⟩
  · unfold Seg.mul
    rw [copySeg_imul, imul_imul A B _ (ev.imp_left noArc_copySeg)]
  · unfold Seg.mul; rw [ids]; exact same s
  · have hd : A.determinant ≠ 0 := by
      intro h0
      rw [((C27_inverse A ⟨0, 0⟩).2 h0).1] at hR
      cases hR
    obtain ⟨R', e1, -, e2, -, -⟩ := (C27_inverse A ⟨0, 0⟩).1 hd
    rw [e1] at hR
    cases hR
    have er : NoArc s ∨ (Even (A.matmul R) ↔ (Even A ↔ Even R)) := by
      have hR : R = ⟨A.d * (1 / A.determinant), -A.b * (1 / A.determinant), -A.c * (1 / A.determinant),
          A.a * (1 / A.determinant), (A.c * A.f - A.e * A.d) * (1 / A.determinant),
          (A.b * A.e - A.a * A.f) * (1 / A.determinant)⟩ := by
        have : ¬ (A.a * A.d - A.c * A.b = 0) := hd
        simp only [Mat.invert, Mat.inverse, if_neg this] at e1
        cases e1
        rfl
      have hi : 1 / A.determinant ≠ 0 := one_div_ne_zero hd
      rcases h with h | h | h
      · exact .inl h
      · refine .inr (even_diagonal ⟨h.1, h.2.1, ?_, ?_, h.2.2.2.2.1, ?_⟩) <;> rw [hR] <;> simp only [h.1, h.2.1]
        · simp
        · simp
        · exact mul_ne_zero (mul_ne_zero (right_ne_zero_of_mul h.2.2.2.2.1) hi)
            (mul_ne_zero (left_ne_zero_of_mul h.2.2.2.2.1) hi)
      · refine .inr (even_turn ⟨h.1, h.2.1, ?_, ?_⟩) <;> rw [hR] <;> simp only [h.1, h.2.1]
        ring
    constructor
    · unfold Seg.mul
      rw [copySeg_imul, imul_imul A R _ (er.imp_left noArc_copySeg), e2, ids]
      exact same s
    · rw [imul_imul A R _ er, e2, ids]

/-- a cubic curve turned and moved; an arc turned -/
example : (Seg.mul ⟨.cubic (some ⟨0, 1⟩) (some ⟨1, 1⟩), some ⟨0, 0⟩, some ⟨1, 0⟩, true, false⟩
    (⟨0, 1, -1, 0, 5, 5⟩ : Mat ℚ)).stop = some ⟨5, 6⟩ := by decide +kernel

/-- C107 is false of arcs in general: a quarter turn followed by exchanging left and right changes the sign of the sweep, the
product of the two transforms does not. -/
theorem C107_arc_wrong : ∃ (a : ArcData ℚ) (A B : Mat ℚ), A.determinant ≠ 0 ∧ B.determinant ≠ 0 ∧ a.sweep ≠ 0 ∧
    ∀ p q : Option (Pt ℚ), ∀ r sm : Bool,
      (Seg.mul (Seg.mul ⟨.arc a, p, q, r, sm⟩ A) B).kind ≠ (Seg.mul ⟨.arc a, p, q, r, sm⟩ (A.matmul B)).kind := by
  refine ⟨⟨⟨0, 0⟩, ⟨1, 0⟩, ⟨0, 1⟩, 1⟩, ⟨0, 1, -1, 0, 0, 0⟩, ⟨-1, 0, 0, 1, 0, 0⟩, by decide +kernel, by decide +kernel,
    by decide +kernel, fun p q r sm => ?_⟩
  simp only [Seg.mul, Path.copySeg, imul]
  decide +kernel

end

/-! ### C108 lengths of segments -/

/-- distances are multiplied by `k` -/
def Similarity (m : Mat ℝ) (k : ℝ) : Prop :=
  0 ≤ k ∧ ∀ p q : Pt ℝ, sqDist (m.pointInMatrixSpace p) (m.pointInMatrixSpace q) = k ^ 2 * sqDist p q

theorem sim_coeffs {m : Mat ℝ} {k : ℝ} (h : Similarity m k) :
    m.a ^ 2 + m.b ^ 2 = k ^ 2 ∧ m.c ^ 2 + m.d ^ 2 = k ^ 2 ∧ m.a * m.c + m.b * m.d = 0 := by
  have h1 := h.2 ⟨1, 0⟩ ⟨0, 0⟩
  have h2 := h.2 ⟨0, 1⟩ ⟨0, 0⟩
  have h3 := h.2 ⟨1, 1⟩ ⟨0, 0⟩
  simp only [sqDist, Mat.pointInMatrixSpace] at h1 h2 h3
  refine ⟨by linear_combination h1, by linear_combination h2, by linear_combination (h3 - h1 - h2) / 2⟩

/-- the square of the length of the image of a vector -/
theorem sim_sq {m : Mat ℝ} {k : ℝ} (h : Similarity m k) (x y : ℝ) :
    (x * m.a + y * m.c) ^ 2 + (x * m.b + y * m.d) ^ 2 = k ^ 2 * (x ^ 2 + y ^ 2) := by
  obtain ⟨h1, h2, h3⟩ := sim_coeffs h
  linear_combination x ^ 2 * h1 + y ^ 2 * h2 + 2 * x * y * h3

theorem sim_sqrt {m : Mat ℝ} {k : ℝ} (h : Similarity m k) (x y : ℝ) :
    Real.sqrt ((x * m.a + y * m.c) ^ 2 + (x * m.b + y * m.d) ^ 2) = k * Real.sqrt (x ^ 2 + y ^ 2) := by
  rw [sim_sq h, Real.sqrt_mul (sq_nonneg k), Real.sqrt_sq h.1]

theorem sim_norm {m : Mat ℝ} {k : ℝ} (h : Similarity m k) (p q : Pt ℝ) :
    Pt.norm ((m.pointInMatrixSpace p).sub (m.pointInMatrixSpace q)) = k * Pt.norm (p.sub q) := by
  rw [norm_sub, norm_sub, dst, dst, h.2, Real.sqrt_mul (sq_nonneg k), Real.sqrt_sq h.1]

theorem sim_linear {m : Mat ℝ} {k : ℝ} (h : Similarity m k) (s : Seg ℝ) :
    linearLength (imul m s) = k * linearLength s := by
  have e : ∀ p q : Pt ℝ, Pt.distance p q = Pt.norm (p.sub q) := by
    intro p q; simp only [Pt.distance, Pt.norm, Pt.sub]; congr 1; ring
  obtain ⟨kd, a, b, r, sm⟩ := s
  cases a <;> cases b <;> simp only [linearLength, imul, Option.map, mul_zero]
  rw [e, e, sim_norm h]

theorem sim_quad {m : Mat ℝ} {k : ℝ} (h : Similarity m k) (p c q : Pt ℝ) :
    arcLength (bezier2 (m.pointInMatrixSpace p) (m.pointInMatrixSpace c) (m.pointInMatrixSpace q)) =
      k * arcLength (bezier2 p c q) := by
  rw [arcLength_bezier2, arcLength_bezier2, ← intervalIntegral.integral_const_mul]
  apply intervalIntegral.integral_congr
  intro t _
  have := sim_sqrt h (2 * (p.x - 2 * c.x + q.x) * t + 2 * (c.x - p.x)) (2 * (p.y - 2 * c.y + q.y) * t + 2 * (c.y - p.y))
  simp only [Mat.pointInMatrixSpace]
  calc _ = _ := by congr 1; ring
    _ = _ := this
    _ = _ := by congr 2; ring

theorem quadLength_rigid {m : Mat ℝ} (h : Similarity m 1) (p c q : Pt ℝ) :
    quadLength (m.pointInMatrixSpace p) (m.pointInMatrixSpace c) (m.pointInMatrixSpace q) = quadLength p c q := by
  obtain ⟨h1, h2, h3⟩ := sim_coeffs h
  have dot : ∀ x y z w : ℝ, (x * m.a + y * m.c) * (z * m.a + w * m.c) + (x * m.b + y * m.d) * (z * m.b + w * m.d) =
      x * z + y * w := by
    intro x y z w
    linear_combination x * z * h1 + y * w * h2 + (x * w + y * z) * h3
  have ha : ((m.pointInMatrixSpace p).sub (Pt.smul 2 (m.pointInMatrixSpace c))).add (m.pointInMatrixSpace q) =
      ⟨(p.x - 2 * c.x + q.x) * m.a + (p.y - 2 * c.y + q.y) * m.c, (p.x - 2 * c.x + q.x) * m.b + (p.y - 2 * c.y + q.y) * m.d⟩ := by
    simp only [Pt.sub, Pt.smul, Pt.add, Mat.pointInMatrixSpace]
    congr 1 <;> ring
  have hb : Pt.smul 2 ((m.pointInMatrixSpace c).sub (m.pointInMatrixSpace p)) =
      ⟨(2 * (c.x - p.x)) * m.a + (2 * (c.y - p.y)) * m.c, (2 * (c.x - p.x)) * m.b + (2 * (c.y - p.y)) * m.d⟩ := by
    simp only [Pt.sub, Pt.smul, Mat.pointInMatrixSpace]
    congr 1 <;> ring
  have ha' : (p.sub (Pt.smul 2 c)).add q = ⟨p.x - 2 * c.x + q.x, p.y - 2 * c.y + q.y⟩ := by
    simp only [Pt.sub, Pt.smul, Pt.add]
    congr 1 <;> ring
  have hb' : Pt.smul 2 (c.sub p) = ⟨2 * (c.x - p.x), 2 * (c.y - p.y)⟩ := by
    simp only [Pt.sub, Pt.smul]
    congr 1 <;> ring
  have sq : ∀ x y : ℝ, (x * m.a + y * m.c) ^ 2 + (x * m.b + y * m.d) ^ 2 = x ^ 2 + y ^ 2 := by
    intro x y; rw [sim_sq h]; ring
  simp only [quadLength, ha, hb, ha', hb', Pt.norm, sq, dot]

theorem sim_cubicAt (m : Mat ℝ) (p c d q : Pt ℝ) (t : ℝ) :
    (⟨cubicAt (m.pointInMatrixSpace p).x (m.pointInMatrixSpace c).x (m.pointInMatrixSpace d).x (m.pointInMatrixSpace q).x t,
      cubicAt (m.pointInMatrixSpace p).y (m.pointInMatrixSpace c).y (m.pointInMatrixSpace d).y (m.pointInMatrixSpace q).y t⟩ :
        Pt ℝ) =
      m.pointInMatrixSpace ⟨cubicAt p.x c.x d.x q.x t, cubicAt p.y c.y d.y q.y t⟩ := by
  simp only [cubicAt, Mat.pointInMatrixSpace]
  congr 1 <;> ring

theorem sim_speed {m : Mat ℝ} {k : ℝ} (h : Similarity m k) (p c d q : Pt ℝ) :
    cubicSpeed (m.pointInMatrixSpace p) (m.pointInMatrixSpace c) (m.pointInMatrixSpace d) (m.pointInMatrixSpace q) =
      fun t => k * cubicSpeed p c d q t := by
  funext t
  have := sim_sqrt h (3 * (c.x - p.x) * (1 - t) ^ 2 + 6 * (d.x - c.x) * (1 - t) * t + 3 * (q.x - d.x) * t ^ 2)
    (3 * (c.y - p.y) * (1 - t) ^ 2 + 6 * (d.y - c.y) * (1 - t) * t + 3 * (q.y - d.y) * t ^ 2)
  simp only [cubicSpeed, Mat.pointInMatrixSpace]
  calc _ = _ := by congr 1; ring
    _ = _ := this

theorem sim_segment {m : Mat ℝ} {k : ℝ} (h : Similarity m k) (hk : 0 < k) (f : ℝ → Pt ℝ) (error : ℝ) (n : ℕ) :
    ∀ (fuel : ℕ) (a b : ℝ) (p q : Pt ℝ) (depth : ℕ),
      segmentLength (fun t => m.pointInMatrixSpace (f t)) (k * error) n fuel a b (m.pointInMatrixSpace p)
        (m.pointInMatrixSpace q) depth = (segmentLength f error n fuel a b p q depth).map (k * ·) := by
  intro fuel
  induction fuel with
  | zero => intros; rfl
  | succ fuel ih =>
    intro a b p q depth
    simp only [segmentLength, sim_norm h]
    have e : k * Pt.norm ((f ((a + b) / 2)).sub p) + k * Pt.norm (q.sub (f ((a + b) / 2))) - k * Pt.norm (q.sub p) =
        k * (Pt.norm ((f ((a + b) / 2)).sub p) + Pt.norm (q.sub (f ((a + b) / 2))) - Pt.norm (q.sub p)) := by ring
    have c : (k * Pt.norm ((f ((a + b) / 2)).sub p) + k * Pt.norm (q.sub (f ((a + b) / 2))) - k * Pt.norm (q.sub p) >
        k * error ∨ depth < n) ↔
        (Pt.norm ((f ((a + b) / 2)).sub p) + Pt.norm (q.sub (f ((a + b) / 2))) - Pt.norm (q.sub p) > error ∨ depth < n) := by
      rw [e, gt_iff_lt, mul_lt_mul_iff_right₀ hk]
    by_cases hc : Pt.norm ((f ((a + b) / 2)).sub p) + Pt.norm (q.sub (f ((a + b) / 2))) - Pt.norm (q.sub p) > error ∨ depth < n
    · rw [if_pos (c.2 hc), if_pos hc, ih, ih]
      cases h1 : segmentLength f error n fuel a ((a + b) / 2) p (f ((a + b) / 2)) (depth + 1) with
      | error x => rfl
      | ok u =>
        cases h2 : segmentLength f error n fuel ((a + b) / 2) b (f ((a + b) / 2)) q (depth + 1) with
        | error x => rfl
        | ok v =>
          change Except.ok (k * u + k * v) = Except.ok (k * (u + v))
          rw [mul_add]
    · rw [if_neg (fun x => hc (c.1 x)), if_neg hc]
      change Except.ok _ = Except.ok (k * (_ + _))
      rw [mul_add]

/-- **C108**, rigid motions: turning, moving or mirroring a segment does not change its length, whatever integrates the
cubic curves. -/
theorem C108_rigid (scipy : Option ((ℝ → ℝ) → ℝ → ℝ)) (fuel : ℕ) (error : ℝ) (minDepth : ℕ) (s : Seg ℝ) (m : Mat ℝ)
    (h : Similarity m 1) :
    Seg.length scipy fuel error minDepth (s.mul m) = Seg.length scipy fuel error minDepth s := by
  obtain ⟨k, a, b, r, sm⟩ := s
  cases k with
  | move => rfl
  | line | close =>
    have := sim_linear h (Path.copySeg ⟨.line, a, b, r, sm⟩)
    rw [one_mul] at this
    exact congrArg Except.ok this
  | quad c =>
    cases a <;> cases b <;> cases c <;> try rfl
    exact congrArg Except.ok (quadLength_rigid h _ _ _)
  | cubic c d =>
    cases a <;> cases b <;> cases c <;> cases d <;> try rfl
    simp only [Seg.mul, Path.copySeg, imul, Seg.length, Option.map, cubicLength]
    cases scipy with
    | some I =>
      simp only [sim_speed h, one_mul]
    | none =>
      simp only [sim_cubicAt, lineLength]
      have := sim_segment h one_pos
      simp only [one_mul] at this
      rw [this]
      cases segmentLength _ error minDepth fuel 0 1 _ _ 0 <;> rfl
  | arc a => rfl

/-- a quarter turn with a translation is a rigid motion -/
example : Similarity ⟨0, 1, -1, 0, 5, 7⟩ 1 :=
  ⟨zero_le_one, fun p q => by simp only [sqDist, Mat.pointInMatrixSpace]; ring⟩

/-- **C108**, similarities: when all distances are multiplied by `k`, so are the lengths. For lines exactly; for quadratic
curves up to 10⁻¹⁰ for each of the two lengths, which is the accuracy of the formula; for cubic curves without scipy exactly
when the tolerance is multiplied too; with scipy, the integrated function is multiplied by `k`. -/
theorem C108_scale (fuel : ℕ) (error : ℝ) (minDepth : ℕ) (m : Mat ℝ) (k : ℝ) (h : Similarity m k) (a b c d : Pt ℝ)
    (r sm : Bool) (scipy : Option ((ℝ → ℝ) → ℝ → ℝ)) (I : (ℝ → ℝ) → ℝ → ℝ) :
    (∀ kd ∈ [Kind.line, Kind.close], ∃ L, Seg.length scipy fuel error minDepth ⟨kd, some a, some d, r, sm⟩ = .ok L ∧
      Seg.length scipy fuel error minDepth (Seg.mul ⟨kd, some a, some d, r, sm⟩ m) = .ok (k * L)) ∧
    (∃ L L', Seg.length scipy fuel error minDepth ⟨.quad (some b), some a, some d, r, sm⟩ = .ok L ∧
      Seg.length scipy fuel error minDepth (Seg.mul ⟨.quad (some b), some a, some d, r, sm⟩ m) = .ok L' ∧
      |L' - k * L| < (1 + k) / 10 ^ 10) ∧
    (0 < k → Seg.length none fuel (k * error) minDepth (Seg.mul ⟨.cubic (some b) (some c), some a, some d, r, sm⟩ m) =
      (Seg.length none fuel error minDepth ⟨.cubic (some b) (some c), some a, some d, r, sm⟩).map (k * ·)) ∧
    (∃ f, Seg.length (some I) fuel error minDepth ⟨.cubic (some b) (some c), some a, some d, r, sm⟩ = .ok (I f error) ∧
      Seg.length (some I) fuel error minDepth (Seg.mul ⟨.cubic (some b) (some c), some a, some d, r, sm⟩ m) =
        .ok (I (fun t => k * f t) error)) := by
  refine ⟨fun kd hk => ?_, ?_, fun hk => ?_, ?_⟩
  · refine ⟨linearLength ⟨.line, some a, some d, r, sm⟩, ?_, ?_⟩
    · simp only [List.mem_cons, List.not_mem_nil, or_false] at hk
      rcases hk with rfl | rfl <;> rfl
    · rw [← sim_linear h]
      simp only [List.mem_cons, List.not_mem_nil, or_false] at hk
      rcases hk with rfl | rfl <;> rfl
  · refine ⟨_, _, rfl, rfl, ?_⟩
    have h1 := (C76_length a b d).1
    have h2 := (C76_length (m.pointInMatrixSpace a) (m.pointInMatrixSpace b) (m.pointInMatrixSpace d)).1
    rw [sim_quad h] at h2
    generalize quadLength (m.pointInMatrixSpace a) (m.pointInMatrixSpace b) (m.pointInMatrixSpace d) = x at *
    generalize quadLength a b d = y at *
    generalize arcLength (bezier2 a b d) = z at *
    have hk := h.1
    have h3 : |k * (y - z)| ≤ k * (1 / 10 ^ 10) := by
      rw [abs_mul, abs_of_nonneg hk]
      exact mul_le_mul_of_nonneg_left h1.le hk
    rw [show x - k * y = (x - k * z) - k * (y - z) by ring]
    have h4 := abs_sub (x - k * z) (k * (y - z))
    have h5 : (1 + k) / 10 ^ 10 = 1 / 10 ^ 10 + k * (1 / 10 ^ 10) := by ring
    linarith
  · simp only [Seg.mul, Path.copySeg, imul, Seg.length, Option.map, cubicLength, lineLength, sim_cubicAt]
    exact sim_segment h hk _ _ _ _ _ _ _ _ _
  · refine ⟨cubicSpeed a b c d, rfl, ?_⟩
    simp only [Seg.mul, Path.copySeg, imul, Seg.length, Option.map, cubicLength, sim_speed h]

/-- doubling -/
example : Similarity ⟨2, 0, 0, 2, 0, 0⟩ 2 :=
  ⟨zero_le_two, fun p q => by simp only [sqDist, Mat.pointInMatrixSpace]; ring⟩

theorem bezier2_reverse (p c q : Pt ℝ) : arcLength (bezier2 q c p) = arcLength (bezier2 p c q) := by
  rw [arcLength_bezier2, arcLength_bezier2]
  have := intervalIntegral.integral_comp_sub_left (a := 0) (b := 1) (fun t : ℝ =>
    Real.sqrt (4 * ((p.x - 2 * c.x + q.x) ^ 2 + (p.y - 2 * c.y + q.y) ^ 2) * t ^ 2 +
      4 * ((p.x - 2 * c.x + q.x) * (2 * (c.x - p.x)) + (p.y - 2 * c.y + q.y) * (2 * (c.y - p.y))) * t +
      ((2 * (c.x - p.x)) ^ 2 + (2 * (c.y - p.y)) ^ 2))) 1
  rw [sub_self, sub_zero] at this
  rw [← this]
  apply intervalIntegral.integral_congr
  intro t _
  simp only
  congr 1
  ring

theorem norm_symm (p q : Pt ℝ) : Pt.norm (p.sub q) = Pt.norm (q.sub p) := by
  simp only [Pt.norm, Pt.sub]; congr 1; ring

theorem segment_error (f : ℝ → Pt ℝ) (error : ℝ) (n : ℕ) : ∀ (fuel : ℕ) (a b : ℝ) (p q : Pt ℝ) (depth : ℕ) (x : PyErr),
    segmentLength f error n fuel a b p q depth = .error x → x = .recursionError := by
  intro fuel
  induction fuel with
  | zero => intro a b p q depth x h; cases h; rfl
  | succ fuel ih =>
    intro a b p q depth x h
    simp only [segmentLength] at h
    split at h
    · cases h1 : segmentLength f error n fuel a ((a + b) / 2) p (f ((a + b) / 2)) (depth + 1) with
      | error y => rw [h1] at h; cases h; exact ih _ _ _ _ _ _ h1
      | ok u =>
        cases h2 : segmentLength f error n fuel ((a + b) / 2) b (f ((a + b) / 2)) q (depth + 1) with
        | error y => rw [h1, h2] at h; cases h; exact ih _ _ _ _ _ _ h2
        | ok v => rw [h1, h2] at h; cases h
    · cases h

theorem segment_reverse (f : ℝ → Pt ℝ) (error : ℝ) (n : ℕ) : ∀ (fuel : ℕ) (a b : ℝ) (p q : Pt ℝ) (depth : ℕ),
    segmentLength (fun t => f (1 - t)) error n fuel (1 - b) (1 - a) q p depth =
      segmentLength f error n fuel a b p q depth := by
  intro fuel
  induction fuel with
  | zero => intros; rfl
  | succ fuel ih =>
    intro a b p q depth
    have em : (1 - b + (1 - a)) / 2 = 1 - (a + b) / 2 := by ring
    have e2 : 1 - (1 - (a + b) / 2) = (a + b) / 2 := by ring
    simp only [segmentLength, em, e2, ih]
    rw [norm_symm p q, norm_symm p (f ((a + b) / 2)), norm_symm (f ((a + b) / 2)) q,
      add_comm (Pt.norm (q.sub (f ((a + b) / 2)))) (Pt.norm ((f ((a + b) / 2)).sub p))]
    split
    · cases h1 : segmentLength f error n fuel a ((a + b) / 2) p (f ((a + b) / 2)) (depth + 1) with
      | error x =>
        cases h2 : segmentLength f error n fuel ((a + b) / 2) b (f ((a + b) / 2)) q (depth + 1) with
        | error y =>
          rw [segment_error _ _ _ _ _ _ _ _ _ _ h1, segment_error _ _ _ _ _ _ _ _ _ _ h2]
        | ok v => rfl
      | ok u =>
        cases h2 : segmentLength f error n fuel ((a + b) / 2) b (f ((a + b) / 2)) q (depth + 1) with
        | error y => rfl
        | ok v =>
          change Except.ok (v + u) = Except.ok (u + v)
          rw [add_comm]
    · rfl

/-- **C108**, reversal: a reversed segment is as long as the segment. For lines and for cubic curves without scipy exactly; for
quadratic curves up to 2 · 10⁻¹⁰, the accuracy of the formula; with scipy, the integrated function is read from 1 to 0. -/
theorem C108_reverse (fuel : ℕ) (error : ℝ) (minDepth : ℕ) (a b c d : Pt ℝ)
    (r sm : Bool) (scipy : Option ((ℝ → ℝ) → ℝ → ℝ)) (I : (ℝ → ℝ) → ℝ → ℝ) :
    (∀ kd ∈ [Kind.line, Kind.close], Seg.length scipy fuel error minDepth (Seg.reverse ⟨kd, some a, some d, r, sm⟩) =
      Seg.length scipy fuel error minDepth ⟨kd, some a, some d, r, sm⟩) ∧
    (∃ L L', Seg.length scipy fuel error minDepth ⟨.quad (some b), some a, some d, r, sm⟩ = .ok L ∧
      Seg.length scipy fuel error minDepth (Seg.reverse ⟨.quad (some b), some a, some d, r, sm⟩) = .ok L' ∧
      |L' - L| < 2 / 10 ^ 10) ∧
    Seg.length none fuel error minDepth (Seg.reverse ⟨.cubic (some b) (some c), some a, some d, r, sm⟩) =
      Seg.length none fuel error minDepth ⟨.cubic (some b) (some c), some a, some d, r, sm⟩ ∧
    (∃ f, Seg.length (some I) fuel error minDepth ⟨.cubic (some b) (some c), some a, some d, r, sm⟩ = .ok (I f error) ∧
      Seg.length (some I) fuel error minDepth (Seg.reverse ⟨.cubic (some b) (some c), some a, some d, r, sm⟩) =
        .ok (I (fun t => f (1 - t)) error)) := by
  refine ⟨fun kd hk => ?_, ?_, ?_, ?_⟩
  · have : Pt.distance a d = Pt.distance d a := by simp only [Pt.distance]; congr 1; ring
    simp only [List.mem_cons, List.not_mem_nil, or_false] at hk
    rcases hk with rfl | rfl <;> exact congrArg Except.ok this
  · refine ⟨_, _, rfl, rfl, ?_⟩
    have h1 := (C76_length a b d).1
    have h2 := (C76_length d b a).1
    rw [bezier2_reverse] at h2
    generalize quadLength d b a = x at *
    generalize quadLength a b d = y at *
    generalize arcLength (bezier2 a b d) = z at *
    have := abs_sub (x - z) (y - z)
    rw [show x - y = (x - z) - (y - z) by ring]
    linarith
  · simp only [Seg.reverse, Seg.length, cubicLength, lineLength]
    have e : ∀ x0 x1 x2 x3 t : ℝ, cubicAt x3 x2 x1 x0 t = cubicAt x0 x1 x2 x3 (1 - t) := by
      intros; simp only [cubicAt]; ring
    have := segment_reverse (fun t => (⟨cubicAt a.x b.x c.x d.x t, cubicAt a.y b.y c.y d.y t⟩ : Pt ℝ)) error minDepth fuel 0 1
      ⟨cubicAt a.x b.x c.x d.x 0, cubicAt a.y b.y c.y d.y 0⟩ ⟨cubicAt a.x b.x c.x d.x 1, cubicAt a.y b.y c.y d.y 1⟩ 0
    simp only [sub_self, sub_zero] at this
    rw [← this]
    have ef : (fun t => (⟨cubicAt d.x c.x b.x a.x t, cubicAt d.y c.y b.y a.y t⟩ : Pt ℝ)) =
        fun t => ⟨cubicAt a.x b.x c.x d.x (1 - t), cubicAt a.y b.y c.y d.y (1 - t)⟩ := by
      funext t
      rw [e a.x b.x c.x d.x, e a.y b.y c.y d.y]
    have e0 := congrFun ef 0
    have e1 := congrFun ef 1
    simp only [sub_self, sub_zero] at e0 e1
    rw [ef, e0, e1]
  · refine ⟨cubicSpeed a b c d, rfl, ?_⟩
    simp only [Seg.reverse, Seg.length, cubicLength]
    have : cubicSpeed d c b a = fun t => cubicSpeed a b c d (1 - t) := by
      funext t
      simp only [cubicSpeed]
      congr 1
      ring
    rw [this]

/-- **C108**, scipy: the function that is integrated is the speed of the curve, so that an integrator that is within `error` of
the integral gives a length within `error` of the length of the curve. -/
theorem C108_scipy (I : (ℝ → ℝ) → ℝ → ℝ) (fuel : ℕ) (error : ℝ) (minDepth : ℕ) (a b c d : Pt ℝ) (r sm : Bool)
    (hI : ∀ f : ℝ → ℝ, Continuous f → |I f error - ∫ t in (0 : ℝ)..1, f t| ≤ error) :
    ∃ L, Seg.length (some I) fuel error minDepth ⟨.cubic (some b) (some c), some a, some d, r, sm⟩ = .ok L ∧
      |L - arcLength (bezier3 a b c d)| ≤ error := by
  refine ⟨_, rfl, ?_⟩
  have e : arcLength (bezier3 a b c d) = ∫ t in (0 : ℝ)..1, cubicSpeed a b c d t := by
    rw [arcLength, (smooth_bezier3 a b c d).arc]
    apply intervalIntegral.integral_congr
    intro t _
    simp only [cubicSpeed, smooth_bezier3]
    congr 1
    ring
  rw [e]
  apply hI
  unfold cubicSpeed
  fun_prop

/-- the integral itself is such an integrator -/
example : ∀ f : ℝ → ℝ, Continuous f → |(fun g (_ : ℝ) => ∫ t in (0 : ℝ)..1, g t) f 1 - ∫ t in (0 : ℝ)..1, f t| ≤ 1 := by
  intro f _; simp

end Svgio.Props
