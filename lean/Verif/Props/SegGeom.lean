import Verif.Model.SegGeom
import Verif.Spec.Geom
import Mathlib.Tactic.Ring
import Mathlib.Tactic.Linarith
import Mathlib.Tactic.FieldSimp
import Mathlib.Tactic.LinearCombination
import Mathlib.Analysis.Calculus.LocalExtr.Basic
import Mathlib.Analysis.Calculus.Deriv.Pow
import Mathlib.Analysis.Calculus.Deriv.Add
import Mathlib.Analysis.Calculus.Deriv.Mul
import Mathlib.Topology.Order.Compact

/-!
C57 to C60, C64: transforming, reversing and boxing segments; the closest point of a line.
-/

namespace Svgio.Props

open Svgio Spec Seg

section
variable {K : Type} [Field K] [LinearOrder K]

/-- no arc -/
def NoArc (s : Seg K) : Prop := ∀ a, s.kind ≠ .arc a

theorem linearAt_map (numpy : Bool) (m : Mat K) (p q : Pt K) (t : K) :
    linearAt numpy (m.pointInMatrixSpace p) (m.pointInMatrixSpace q) t = m.pointInMatrixSpace (linearAt numpy p q t) := by
  cases numpy
  · simp only [linearAt, Pt.towards, Mat.pointInMatrixSpace, Bool.false_eq_true, if_false]
    congr 1 <;> ring
  · simp only [linearAt, interp, Mat.pointInMatrixSpace, if_true]
    by_cases h : t ≤ 0
    · simp only [if_pos h]
    · by_cases h' : 1 ≤ t
      · simp only [if_neg h, if_pos h']
      · simp only [if_neg h, if_neg h']
        congr 1 <;> ring

/-- **C57.** For moves, lines, closes and Bezier curves, a point of the transformed segment is the transformed point, with or
without numpy; `segment * matrix` keeps the class and the flag `relative`. If the segment lacks a point, both raise. -/
theorem C57_transform (numpy : Bool) (s : Seg K) (hs : NoArc s) (m : Mat K) (t : K) :
    (s.mul m).point numpy t = (s.point numpy t).map m.pointInMatrixSpace ∧
    (imul m s).point numpy t = (s.point numpy t).map m.pointInMatrixSpace ∧ (s.mul m).relative = s.relative := by
  have key : (imul m s).point numpy t = (s.point numpy t).map m.pointInMatrixSpace := by
    obtain ⟨k, a, b, r, sm⟩ := s
    cases k with
    | move => cases b <;> rfl
    | close | line =>
      cases a <;> cases b <;> try rfl
      simp only [imul, point, Option.map, Except.map, linearAt_map]
    | quad c =>
      cases a <;> cases b <;> cases c <;> try rfl
      simp only [imul, point, Option.map, Except.map, quadAt, Mat.pointInMatrixSpace]
      congr 2 <;> ring
    | cubic c d =>
      cases a <;> cases b <;> cases c <;> cases d <;> try rfl
      simp only [imul, point, Option.map, Except.map, cubicAt, Mat.pointInMatrixSpace]
      congr 2 <;> ring
    | arc a' => exact absurd rfl (hs a')
  refine ⟨?_, key, rfl⟩
  rw [← key]
  obtain ⟨k, a, b, r, sm⟩ := s
  cases k <;> rfl

/-- The curves evaluated are the Bezier curves of de Casteljau's construction, and lines are straight. -/
theorem C57_curves (a b c d : Pt K) (numpy r sm : Bool) (t : K) :
    point numpy ⟨.quad (some b), some a, some c, r, sm⟩ t = .ok (bezier2 a b c t) ∧
    point numpy ⟨.cubic (some b) (some c), some a, some d, r, sm⟩ t = .ok (bezier3 a b c d t) ∧
    (0 ≤ t → t ≤ 1 → ∀ k ∈ [Kind.line, Kind.close], point numpy ⟨k, some a, some d, r, sm⟩ t = .ok (between a d t)) := by
  refine ⟨?_, ?_, ?_⟩
  · simp only [point, quadAt, bezier2, between]
    congr 2 <;> ring
  · simp only [point, cubicAt, bezier3, bezier2, between]
    congr 2 <;> ring
  · intro h0 h1 k hk
    have e : linearAt numpy a d t = between a d t := by
      unfold linearAt between
      split
      · simp only [interp]
        by_cases h : t ≤ 0
        · have : t = 0 := le_antisymm h h0
          subst this; simp
        · rw [if_neg h]
          by_cases h' : 1 ≤ t
          · have : t = 1 := le_antisymm h1 h'
            subst this; simp [h]
          · simp only [if_neg h, if_neg h']
            congr 1 <;> ring
      · simp only [Pt.towards]
        congr 1 <;> ring
    simp only [List.mem_cons, List.not_mem_nil, or_false] at hk
    rcases hk with rfl | rfl <;> simp only [point, e]

/-- a curve that meets the hypotheses -/
example : NoArc (⟨.cubic (some ⟨0, 1⟩) (some ⟨1, 1⟩), some ⟨0, 0⟩, some ⟨1, 0⟩, true, false⟩ : Seg ℚ) := by
  intro a h; cases h

variable [IsStrictOrderedRing K]

/-- **C64.** Reversing a line, close or Bezier curve reverses its parameter, with or without numpy; reversing twice restores
every segment, also arcs and moves. -/
theorem C64_reverse (numpy : Bool) (s : Seg K) (t : K) :
    (NoArc s → s.kind ≠ .move → s.reverse.point numpy t = s.point numpy (1 - t)) ∧ s.reverse.reverse = s := by
  constructor
  · intro hs hm
    have lin : ∀ p q : Pt K, linearAt numpy q p t = linearAt numpy p q (1 - t) := by
      intro p q
      cases numpy
      · simp only [linearAt, Pt.towards, Bool.false_eq_true, if_false]
        congr 1 <;> ring
      · have hi : ∀ a b : K, interp b a t = interp a b (1 - t) := by
          intro a b
          simp only [interp]
          by_cases h0 : t ≤ 0
          · rw [if_pos h0]
            have h1 : ¬ (1 - t ≤ 0) := by linarith
            have h2 : 1 ≤ 1 - t := by linarith
            rw [if_neg h1, if_pos h2]
          · rw [if_neg h0]
            by_cases h1 : 1 ≤ t
            · have h2 : 1 - t ≤ 0 := by linarith
              rw [if_pos h1, if_pos h2]
            · have h2 : ¬ (1 - t ≤ 0) := by linarith
              have h3 : ¬ (1 ≤ 1 - t) := by linarith
              rw [if_neg h1, if_neg h2, if_neg h3]; ring
        simp [linearAt, hi]
    obtain ⟨k, a, b, r, sm⟩ := s
    cases k with
    | move => exact absurd rfl hm
    | close | line =>
      cases a <;> cases b <;> try rfl
      simp only [reverse, point, lin]
    | quad c =>
      cases a <;> cases b <;> cases c <;> try rfl
      simp only [reverse, point, quadAt]
      congr 2 <;> ring
    | cubic c d =>
      cases a <;> cases b <;> cases c <;> cases d <;> try rfl
      simp only [reverse, point, cubicAt]
      congr 2 <;> ring
    | arc a' => exact absurd rfl (hs a')
  · obtain ⟨k, a, b, r, sm⟩ := s
    cases k <;> simp [reverse]

/-! ### boxes -/

theorem range_line (a b : K) (f : K → K) (hf : ∀ t, 0 ≤ t → t ≤ 1 → f t = a + t * (b - a)) :
    Range f (min a b) (max a b) := by
  have h0 := hf 0 le_rfl zero_le_one
  have h1 := hf 1 zero_le_one le_rfl
  refine ⟨fun t t0 t1 => ?_, ?_, ?_⟩
  · rw [hf t t0 t1]
    rcases le_total a b with h | h
    · rw [min_eq_left h, max_eq_right h]
      constructor <;> nlinarith
    · rw [min_eq_right h, max_eq_left h]
      constructor <;> nlinarith
  · rcases min_choice a b with h | h
    · exact ⟨0, le_rfl, zero_le_one, by rw [h0, h]; ring⟩
    · exact ⟨1, zero_le_one, le_rfl, by rw [h1, h]; ring⟩
  · rcases max_choice a b with h | h
    · exact ⟨0, le_rfl, zero_le_one, by rw [h0, h]; ring⟩
    · exact ⟨1, zero_le_one, le_rfl, by rw [h1, h]; ring⟩

theorem range_quad (a b c : K) : Range (quadAt a b c) (minOf a (quadExtrema a b c)) (maxOf a (quadExtrema a b c)) := by
  have e : ∀ t, quadAt a b c t = a - 2 * (a - b) * t + (a - 2 * b + c) * t ^ 2 := by intro t; simp only [quadAt]; ring
  have e0 : quadAt a b c 0 = a := by rw [e]; ring
  have e1 : quadAt a b c 1 = c := by rw [e]; ring
  generalize hn : a - b = n at e
  generalize hd : a - 2 * b + c = d at e
  have hc : c = a - 2 * n + d := by rw [← hn, ← hd]; ring
  have touch : ∀ (x : K) (l : List K), (∀ y ∈ x :: l, ∃ t, 0 ≤ t ∧ t ≤ 1 ∧ quadAt a b c t = y) →
      (∃ t, 0 ≤ t ∧ t ≤ 1 ∧ quadAt a b c t = minOf x l) ∧ ∃ t, 0 ≤ t ∧ t ≤ 1 ∧ quadAt a b c t = maxOf x l := by
    intro x l
    induction l generalizing x with
    | nil => intro h; exact ⟨h x (by simp), h x (by simp)⟩
    | cons y l ih =>
      intro h
      refine ⟨(ih (min x y) fun z hz => ?_).1, (ih (max x y) fun z hz => ?_).2⟩
      · rcases List.mem_cons.1 hz with rfl | hz
        · rcases min_choice x y with h' | h' <;> rw [h'] <;> exact h _ (by simp)
        · exact h z (by simp [hz])
      · rcases List.mem_cons.1 hz with rfl | hz
        · rcases max_choice x y with h' | h' <;> rw [h'] <;> exact h _ (by simp)
        · exact h z (by simp [hz])
  unfold quadExtrema
  simp only [hn, hd]
  generalize ht : (if d ≠ 0 then n / d else 1 / 2) = s
  by_cases hs : 0 < s ∧ s < 1
  · rw [if_pos hs]
    obtain ⟨s0, s1⟩ := hs
    refine ⟨fun t t0 t1 => ?_, touch _ _ ?_⟩
    · simp only [minOf, maxOf, List.foldl]
      by_cases hd0 : d = 0
      · have et : quadAt a b c t = a - 2 * n * t := by rw [e, hd0]; ring
        rw [et]
        rw [hd0, add_zero] at hc
        rcases le_total n 0 with h | h
        · exact ⟨(min_le_left _ _).trans ((min_le_left _ _).trans (by nlinarith)),
            le_max_of_le_left (le_max_of_le_right (by rw [hc]; nlinarith))⟩
        · exact ⟨(min_le_left _ _).trans ((min_le_right _ _).trans (by rw [hc]; nlinarith)),
            le_max_of_le_left (le_max_of_le_left (by nlinarith))⟩
      · rw [if_pos hd0] at ht
        have hns : n = s * d := by rw [← ht]; field_simp
        have key : quadAt a b c t = quadAt a b c s + d * (t - s) ^ 2 := by rw [e, e, hns]; ring
        have mid : quadAt a b c t = (1 - t) * a + t * c - d * (t * (1 - t)) := by rw [e, hc]; ring
        have tt : 0 ≤ t * (1 - t) := mul_nonneg t0 (by linarith)
        have cv1 : min a c ≤ (1 - t) * a + t * c := by
          have h1 := min_le_left a c; have h2 := min_le_right a c
          nlinarith [mul_le_mul_of_nonneg_left h1 (sub_nonneg.2 t1), mul_le_mul_of_nonneg_left h2 t0]
        have cv2 : (1 - t) * a + t * c ≤ max a c := by
          have h1 := le_max_left a c; have h2 := le_max_right a c
          nlinarith [mul_le_mul_of_nonneg_left h1 (sub_nonneg.2 t1), mul_le_mul_of_nonneg_left h2 t0]
        rcases le_total d 0 with h | h
        · constructor
          · refine (min_le_left _ _).trans (cv1.trans ?_)
            rw [mid]; nlinarith
          · refine le_max_of_le_right ?_
            rw [key]; nlinarith [sq_nonneg (t - s)]
        · constructor
          · refine (min_le_right _ _).trans ?_
            rw [key]; nlinarith [sq_nonneg (t - s)]
          · refine le_max_of_le_left (le_trans ?_ cv2)
            rw [mid]; nlinarith
    · intro y hy
      simp only [List.mem_cons, List.not_mem_nil, or_false] at hy
      rcases hy with rfl | rfl | rfl
      · exact ⟨0, le_rfl, zero_le_one, e0⟩
      · exact ⟨1, zero_le_one, le_rfl, e1⟩
      · exact ⟨s, s0.le, s1.le, rfl⟩
  · rw [if_neg hs]
    refine ⟨fun t t0 t1 => ?_, touch _ _ ?_⟩
    · simp only [minOf, maxOf, List.foldl]
      have hd0 : d ≠ 0 := by
        intro h0
        rw [h0, if_neg (by simp)] at ht
        apply hs
        rw [← ht]
        constructor <;> [exact half_pos one_pos; exact half_lt_self one_pos]
      rw [if_pos hd0] at ht
      have hns : n = s * d := by rw [← ht]; field_simp
      have fa : quadAt a b c t - a = d * (t * (t - 2 * s)) := by rw [e, hns]; ring
      have fc : c - quadAt a b c t = d * ((1 - t) * (1 + t - 2 * s)) := by rw [e, hc, hns]; ring
      have sgn : (∀ u, 0 ≤ u → u ≤ 1 → 0 ≤ u * (u - 2 * s) ∧ 0 ≤ (1 - u) * (1 + u - 2 * s)) ∨
          (∀ u, 0 ≤ u → u ≤ 1 → u * (u - 2 * s) ≤ 0 ∧ (1 - u) * (1 + u - 2 * s) ≤ 0) := by
        by_cases h : 0 < s
        · have h1 : 1 ≤ s := by by_contra h'; exact hs ⟨h, not_le.1 h'⟩
          right
          intro u u0 u1
          exact ⟨mul_nonpos_of_nonneg_of_nonpos u0 (by linarith),
            mul_nonpos_of_nonneg_of_nonpos (by linarith) (by linarith)⟩
        · left
          intro u u0 u1
          exact ⟨mul_nonneg u0 (by linarith), mul_nonneg (by linarith) (by linarith)⟩
      have both : (a ≤ quadAt a b c t ∧ quadAt a b c t ≤ c) ∨ (quadAt a b c t ≤ a ∧ c ≤ quadAt a b c t) := by
        rcases le_total d 0 with h | h <;> rcases sgn with g | g <;> obtain ⟨g1, g2⟩ := g t t0 t1
        · right; constructor <;> nlinarith
        · left; constructor <;> nlinarith
        · left; constructor <;> nlinarith
        · right; constructor <;> nlinarith
      rcases both with ⟨h1, h2⟩ | ⟨h1, h2⟩
      · exact ⟨(min_le_left _ _).trans h1, le_max_of_le_right h2⟩
      · exact ⟨(min_le_right _ _).trans h2, le_max_of_le_left h1⟩
    · intro y hy
      simp only [List.mem_cons, List.not_mem_nil, or_false] at hy
      rcases hy with rfl | rfl
      · exact ⟨0, le_rfl, zero_le_one, e0⟩
      · exact ⟨1, zero_le_one, le_rfl, e1⟩

/-- **C58.** The box of a quadratic curve holds all its points and each side is touched. -/
theorem C58_tight (a b c : Pt K) :
    TightBox (bezier2 a b c) (quadBBox a b c).xmin (quadBBox a b c).ymin (quadBBox a b c).xmax (quadBBox a b c).ymax := by
  have ex : (fun t => (bezier2 a b c t).x) = quadAt a.x b.x c.x := by
    funext t; simp only [bezier2, between, quadAt]; ring
  have ey : (fun t => (bezier2 a b c t).y) = quadAt a.y b.y c.y := by
    funext t; simp only [bezier2, between, quadAt]; ring
  constructor
  · rw [ex]; exact range_quad _ _ _
  · rw [ey]; exact range_quad _ _ _

/-- a curve whose box is larger than that of its end points -/
example : quadBBox (⟨0, 0⟩ : Pt ℚ) ⟨1, 2⟩ ⟨2, 0⟩ = ⟨0, 0, 2, 1⟩ := by decide +kernel

/-! ### lines -/

/-- **C60**, boxes. The box of a line or close holds all its points and each side is touched. -/
theorem C60_box (a b : Pt K) :
    ∃ x : BBox K, bboxPoints [a, b] = .ok x ∧ TightBox (between a b) x.xmin x.ymin x.xmax x.ymax :=
  ⟨_, rfl, range_line _ _ _ fun _ _ _ => rfl, range_line _ _ _ fun _ _ _ => rfl⟩

theorem closest_key (a b p : Pt K) (hab : a ≠ b) :
    0 < (b.x - a.x) * (b.x - a.x) + (b.y - a.y) * (b.y - a.y) := by
  have : b.x - a.x ≠ 0 ∨ b.y - a.y ≠ 0 := by
    by_contra h
    push Not at h
    exact hab (Pt.ext (by linarith [h.1]) (by linarith [h.2]))
  rcases this with h | h
  · have := mul_self_pos.2 h; nlinarith [mul_self_nonneg (b.y - a.y)]
  · have := mul_self_pos.2 h; nlinarith [mul_self_nonneg (b.x - a.x)]

/-- the square distance from a point of the line, around the foot `u` of the perpendicular -/
theorem sqDist_between (a b p : Pt K) (u : K)
    (hu : u * ((b.x - a.x) * (b.x - a.x) + (b.y - a.y) * (b.y - a.y)) =
      (b.x - a.x) * (p.x - a.x) + (b.y - a.y) * (p.y - a.y)) (s t : K) :
    sqDist p (between a b t) - sqDist p (between a b s) =
      ((b.x - a.x) * (b.x - a.x) + (b.y - a.y) * (b.y - a.y)) * ((t - u) ^ 2 - (s - u) ^ 2) := by
  simp only [sqDist, between]
  linear_combination (2 * t - 2 * s) * hu

omit [IsStrictOrderedRing K] in
theorem linearAt_between (numpy : Bool) (a b : Pt K) (t : K) (h : numpy = false ∨ (0 ≤ t ∧ t ≤ 1)) :
    linearAt numpy a b t = between a b t := by
  rcases h with rfl | ⟨h0, h1⟩
  · simp only [linearAt, Pt.towards, between, Bool.false_eq_true, if_false]
    congr 1 <;> ring
  · have := (C57_curves a b b b numpy true true t).2.2 h0 h1 .line (by simp)
    simpa [point] using this

/-- **C60**, the closest point, for a line that is not a single point. The result is a point of the segment and no other
point of the segment is closer. When bounds are not respected and numpy is not installed, it is a point of the infinite line
and no other point of that line is closer. Missing: lines that are a single point (`C60_degenerate_wrong`) and the infinite
line with numpy (`C60_numpy_wrong`). -/
theorem C60_closest_partial (a b p : Pt K) (hab : a ≠ b) :
    (∀ numpy, ∃ s, 0 ≤ s ∧ s ≤ 1 ∧ closestPoint numpy a b p true = some (between a b s) ∧
      ∀ t, 0 ≤ t → t ≤ 1 → sqDist p (between a b s) ≤ sqDist p (between a b t)) ∧
    ∃ s, closestPoint false a b p false = some (between a b s) ∧
      ∀ t, sqDist p (between a b s) ≤ sqDist p (between a b t) := by
  have hL := closest_key a b p hab
  have sd := fun u hu s t => sqDist_between a b p u hu s t
  simp only [closestPoint]
  generalize (b.x - a.x) * (b.x - a.x) + (b.y - a.y) * (b.y - a.y) = L at *
  generalize (b.x - a.x) * (p.x - a.x) + (b.y - a.y) * (p.y - a.y) = P at *
  have hu : P / L * L = P := div_mul_cancel₀ _ hL.ne'
  generalize P / L = u at *
  simp only [if_neg hL.ne']
  constructor
  · intro numpy
    have hs : ∃ s, s = (if (if u > 1 then 1 else u) < 0 then 0 else (if u > 1 then 1 else u)) ∧ 0 ≤ s ∧ s ≤ 1 := by
      refine ⟨_, rfl, ?_⟩
      by_cases h1 : u > 1
      · rw [if_pos h1, if_neg (not_lt.2 (zero_le_one (α := K)))]; exact ⟨zero_le_one, le_rfl⟩
      · rw [if_neg h1]
        by_cases h0 : u < 0
        · rw [if_pos h0]; exact ⟨le_rfl, zero_le_one⟩
        · rw [if_neg h0]; exact ⟨not_lt.1 h0, not_lt.1 h1⟩
    obtain ⟨s, es, s0, s1⟩ := hs
    refine ⟨s, s0, s1, ?_, ?_⟩
    · simp only [if_true, ← es]
      rw [linearAt_between _ _ _ _ (Or.inr ⟨s0, s1⟩)]
    · intro t t0 t1
      rw [← sub_nonneg, sd u hu]
      apply mul_nonneg hL.le
      rw [es]
      by_cases h1 : u > 1
      · simp only [if_pos h1, if_neg (not_lt.2 (zero_le_one (α := K)))]; nlinarith
      · simp only [if_neg h1]
        by_cases h0 : u < 0
        · rw [if_pos h0]; nlinarith
        · rw [if_neg h0]; nlinarith [sq_nonneg (t - u)]
  · refine ⟨u, ?_, fun t => ?_⟩
    · simp only [Bool.false_eq_true, if_false]
      rw [linearAt_between _ _ _ _ (Or.inl rfl)]
    · rw [← sub_nonneg, sd u hu]
      apply mul_nonneg hL.le
      nlinarith [sq_nonneg (t - u)]

end

/-- a point beside a line -/
example : (⟨0, 0⟩ : Pt ℚ) ≠ ⟨4, 0⟩ ∧ closestPoint true (⟨0, 0⟩ : Pt ℚ) ⟨4, 0⟩ ⟨1, 5⟩ true = some ⟨1, 0⟩ := by decide +kernel

/-- For a line that is a single point the result is the number 0 and not a point. -/
theorem C60_degenerate_wrong {K : Type} [Field K] [LinearOrder K] (numpy respect : Bool) (a p : Pt K) :
    closestPoint numpy a a p respect = none := by
  simp [closestPoint]

/-- With numpy the point of the infinite line is still taken from the segment: another point of the line is closer. -/
theorem C60_numpy_wrong : ∃ (a b p r : Pt ℚ) (t : ℚ), closestPoint true a b p false = some r ∧
    sqDist p (between a b t) < sqDist p r :=
  ⟨⟨0, 0⟩, ⟨1, 0⟩, ⟨2, 1⟩, ⟨1, 0⟩, 2, by decide +kernel⟩

/-! ### cubic curves -/

theorem cubic_hasDeriv (a b c d t : ℝ) : HasDerivAt (cubicAt a b c d)
    (3 * (-(a - 3 * b + 3 * c - d) * t ^ 2 + 2 * (a - 2 * b + c) * t + (b - a))) t := by
  have e : cubicAt a b c d = fun t => -(a - 3 * b + 3 * c - d) * t ^ 3 + 3 * (a - 2 * b + c) * t ^ 2 + 3 * (b - a) * t + a := by
    funext t; simp only [cubicAt]; ring
  rw [e]
  have h1 := (hasDerivAt_pow 3 t).const_mul (-(a - 3 * b + 3 * c - d))
  have h2 := (hasDerivAt_pow 2 t).const_mul (3 * (a - 2 * b + c))
  have h3 := (hasDerivAt_id t).const_mul (3 * (b - a))
  refine (((h1.add h2).add h3).add_const a).congr_deriv ?_
  push_cast
  ring

theorem minOf_le {K : Type} [Field K] [LinearOrder K] (x : K) (l : List K) : ∀ y ∈ x :: l, minOf x l ≤ y ∧ y ≤ maxOf x l := by
  induction l generalizing x with
  | nil => intro y hy; simp at hy; subst hy; exact ⟨le_rfl, le_rfl⟩
  | cons z l ih =>
    intro y hy
    have k1 := ih (min x z) (min x z) (by simp)
    have k2 := ih (max x z) (max x z) (by simp)
    simp only [List.mem_cons] at hy
    rcases hy with rfl | rfl | hy
    · exact ⟨k1.1.trans (min_le_left _ _), (le_max_left _ _).trans k2.2⟩
    · exact ⟨k1.1.trans (min_le_right _ _), (le_max_right _ _).trans k2.2⟩
    · exact ⟨(ih (min x z) y (by simp [hy])).1, (ih (max x z) y (by simp [hy])).2⟩

theorem minOf_mem {K : Type} [Field K] [LinearOrder K] (x : K) (l : List K) : minOf x l ∈ x :: l ∧ maxOf x l ∈ x :: l := by
  induction l generalizing x with
  | nil => simp [minOf, maxOf]
  | cons z l ih =>
    have k1 := (ih (min x z)).1
    have k2 := (ih (max x z)).2
    simp only [List.mem_cons] at k1 k2 ⊢
    constructor
    · rcases k1 with k1 | k1
      · rcases min_choice x z with h | h
        · left; exact k1.trans h
        · right; left; exact k1.trans h
      · right; right; exact k1
    · rcases k2 with k2 | k2
      · rcases max_choice x z with h | h
        · left; exact k2.trans h
        · right; left; exact k2.trans h
      · right; right; exact k2

/-- zeros of the derivative inside the interval are among the extremizers -/
theorem critical_mem {a b c d t : ℝ} (hd : 1 / 10 ^ 12 ≤ |a - 3 * b + 3 * c - d|) (t0 : 0 < t) (t1 : t < 1)
    (ht : -(a - 3 * b + 3 * c - d) * t ^ 2 + 2 * (a - 2 * b + c) * t + (b - a) = 0) : t ∈ extremizers a b c d := by
  have hD : a - 3 * b + 3 * c - d ≠ 0 := by
    intro h; rw [h, abs_zero] at hd; norm_num at hd
  have hdelta : b ^ 2 - (a + b) * c + c ^ 2 + (a - b) * d =
      ((a - 3 * b + 3 * c - d) * t - (a - 2 * b + c)) ^ 2 := by
    linear_combination (a - 3 * b + 3 * c - d) * ht
  simp only [extremizers]
  rw [if_pos hd, if_pos (by rw [hdelta]; positivity), hdelta, Real.sqrt_sq_eq_abs]
  generalize a - 3 * b + 3 * c - d = D at *
  generalize a - 2 * b + c = T at *
  rcases le_total 0 (D * t - T) with h | h
  · rw [abs_of_nonneg h]
    have : (T + (D * t - T)) / D = t := by field_simp; ring
    rw [this, if_pos ⟨t0, t1⟩]
    simp
  · rw [abs_of_nonpos h]
    have : (T - -(D * t - T)) / D = t := by field_simp; ring
    simp only [this, if_pos (And.intro t0 t1)]
    simp

theorem extremizers_range (a b c d : ℝ) : ∀ t ∈ extremizers a b c d, 0 ≤ t ∧ t ≤ 1 := by
  intro t ht
  simp only [extremizers] at ht
  split at ht
  · split at ht
    · simp only [List.mem_append, List.mem_cons, List.not_mem_nil, or_false] at ht
      rcases ht with (rfl | ht) | ht
      · norm_num
      · split at ht
        · rename_i h; simp at ht; subst ht; exact ⟨h.1.le, h.2.le⟩
        · simp at ht
      · split at ht
        · rename_i h; simp at ht; subst ht; exact ⟨h.1.le, h.2.le⟩
        · simp at ht
    · simp at ht; subst ht; norm_num
  · simp at ht; rcases ht with rfl | rfl <;> norm_num

theorem one_mem_extremizers (a b c d : ℝ) : (1 : ℝ) ∈ extremizers a b c d := by
  simp only [extremizers]
  split
  · split <;> simp
  · simp

/-- the coordinate takes both reported bounds -/
theorem touch_cubic (a b c d : ℝ) : (∃ t, 0 ≤ t ∧ t ≤ 1 ∧ cubicAt a b c d t = (realMinMax a b c d).1) ∧
    ∃ t, 0 ≤ t ∧ t ≤ 1 ∧ cubicAt a b c d t = (realMinMax a b c d).2 := by
  constructor
  · have := (minOf_mem (cubicAt a b c d 0) ((extremizers a b c d).map (cubicAt a b c d))).1
    rcases List.mem_cons.1 this with h | h
    · exact ⟨0, le_rfl, zero_le_one, h.symm⟩
    · obtain ⟨t, ht, h⟩ := List.mem_map.1 h
      exact ⟨t, (extremizers_range a b c d t ht).1, (extremizers_range a b c d t ht).2, h⟩
  · have := (minOf_mem (cubicAt a b c d 0) ((extremizers a b c d).map (cubicAt a b c d))).2
    rcases List.mem_cons.1 this with h | h
    · exact ⟨0, le_rfl, zero_le_one, h.symm⟩
    · obtain ⟨t, ht, h⟩ := List.mem_map.1 h
      exact ⟨t, (extremizers_range a b c d t ht).1, (extremizers_range a b c d t ht).2, h⟩

theorem bound_cubic (a b c d s : ℝ) (hs : s = 0 ∨ s ∈ extremizers a b c d) :
    (realMinMax a b c d).1 ≤ cubicAt a b c d s ∧ cubicAt a b c d s ≤ (realMinMax a b c d).2 := by
  refine minOf_le _ _ _ ?_
  rcases hs with rfl | hs
  · simp
  · exact List.mem_cons_of_mem _ (List.mem_map_of_mem hs)

theorem range_cubic (a b c d : ℝ) (hd : 1 / 10 ^ 12 ≤ |a - 3 * b + 3 * c - d|) :
    Range (cubicAt a b c d) (realMinMax a b c d).1 (realMinMax a b c d).2 := by
  have cont : Continuous (cubicAt a b c d) :=
    continuous_iff_continuousAt.2 fun t => (cubic_hasDeriv a b c d t).continuousAt
  have mem : ∀ s, 0 ≤ s → s ≤ 1 → (s ∈ Set.Ioo (0 : ℝ) 1 → deriv (cubicAt a b c d) s = 0) →
      s = 0 ∨ s ∈ extremizers a b c d := by
    intro s s0 s1 hs
    rcases s0.eq_or_lt with h | h
    · exact Or.inl h.symm
    · right
      rcases s1.eq_or_lt with h' | h'
      · rw [h']; exact one_mem_extremizers a b c d
      · refine critical_mem hd h h' ?_
        have := hs ⟨h, h'⟩
        rw [(cubic_hasDeriv a b c d s).deriv] at this
        linarith
  refine ⟨fun t t0 t1 => ⟨?_, ?_⟩, touch_cubic a b c d⟩
  · obtain ⟨s, hs, hmin⟩ := isCompact_Icc.exists_isMinOn (Set.nonempty_Icc.2 (zero_le_one (α := ℝ))) cont.continuousOn
    have := bound_cubic a b c d s
      (mem s hs.1 hs.2 fun hi => (hmin.isLocalMin (Icc_mem_nhds hi.1 hi.2)).deriv_eq_zero)
    exact this.1.trans (hmin ⟨t0, t1⟩)
  · obtain ⟨s, hs, hmax⟩ := isCompact_Icc.exists_isMaxOn (Set.nonempty_Icc.2 (zero_le_one (α := ℝ))) cont.continuousOn
    have := bound_cubic a b c d s
      (mem s hs.1 hs.2 fun hi => (hmax.isLocalMax (Icc_mem_nhds hi.1 hi.2)).deriv_eq_zero)
    exact (hmax ⟨t0, t1⟩).trans this.2

/-- If the inner control values lie between the outer ones, the third difference does not matter. -/
theorem range_cubic_inner (a b c d : ℝ) (hb : min a d ≤ b ∧ b ≤ max a d) (hc : min a d ≤ c ∧ c ≤ max a d) :
    Range (cubicAt a b c d) (realMinMax a b c d).1 (realMinMax a b c d).2 := by
  have b0 := bound_cubic a b c d 0 (Or.inl rfl)
  have b1 := bound_cubic a b c d 1 (Or.inr (one_mem_extremizers a b c d))
  have e0 : cubicAt a b c d 0 = a := by simp [cubicAt]
  have e1 : cubicAt a b c d 1 = d := by simp [cubicAt]
  rw [e0] at b0
  rw [e1] at b1
  have hlo := le_min b0.1 b1.1
  have hhi := max_le b0.2 b1.2
  have la := min_le_left a d
  have ld := min_le_right a d
  have ua := le_max_left a d
  have ud := le_max_right a d
  refine ⟨fun t t0 t1 => ?_, touch_cubic a b c d⟩
  have n0 : 0 ≤ 1 - t := by linarith
  have w0 : 0 ≤ (1 - t) ^ 3 := by positivity
  have w1 : 0 ≤ 3 * ((1 - t) ^ 2 * t) := by positivity
  have w2 : 0 ≤ 3 * ((1 - t) * t ^ 2) := by positivity
  have w3 : 0 ≤ t ^ 3 := by positivity
  have e : ∀ z, cubicAt a b c d t - z = (1 - t) ^ 3 * (a - z) + 3 * ((1 - t) ^ 2 * t) * (b - z) +
      3 * ((1 - t) * t ^ 2) * (c - z) + t ^ 3 * (d - z) := by intro z; simp only [cubicAt]; ring
  constructor
  · refine hlo.trans ?_
    rw [← sub_nonneg, e]
    have := mul_nonneg w0 (sub_nonneg.2 la)
    have := mul_nonneg w1 (sub_nonneg.2 hb.1)
    have := mul_nonneg w2 (sub_nonneg.2 hc.1)
    have := mul_nonneg w3 (sub_nonneg.2 ld)
    linarith
  · refine le_trans ?_ hhi
    rw [← sub_nonpos, e]
    have := mul_nonneg w0 (sub_nonneg.2 ua)
    have := mul_nonneg w1 (sub_nonneg.2 hb.2)
    have := mul_nonneg w2 (sub_nonneg.2 hc.2)
    have := mul_nonneg w3 (sub_nonneg.2 ud)
    nlinarith

/-- Along one axis: the third difference of the coordinates is at least 1e-12, or the inner coordinates lie between the outer
ones. -/
def AxisOk (a b c d : ℝ) : Prop :=
  1 / 10 ^ 12 ≤ |a - 3 * b + 3 * c - d| ∨ ((min a d ≤ b ∧ b ≤ max a d) ∧ (min a d ≤ c ∧ c ≤ max a d))

/-- **C59**, curves with a third difference of at least 1e-12, or inner control points between the end points, along each
axis: the box holds all points and each side is touched. Missing: the other curves, for which it is false (`C59_wrong`). -/
theorem C59_tight_partial (a b c d : Pt ℝ) (hx : AxisOk a.x b.x c.x d.x) (hy : AxisOk a.y b.y c.y d.y) :
    TightBox (bezier3 a b c d) (cubicBBox a b c d).xmin (cubicBBox a b c d).ymin (cubicBBox a b c d).xmax
      (cubicBBox a b c d).ymax := by
  have ex : (fun t => (bezier3 a b c d t).x) = cubicAt a.x b.x c.x d.x := by
    funext t; simp only [bezier3, bezier2, between, cubicAt]; ring
  have ey : (fun t => (bezier3 a b c d t).y) = cubicAt a.y b.y c.y d.y := by
    funext t; simp only [bezier3, bezier2, between, cubicAt]; ring
  constructor
  · rw [ex]; exact hx.elim (range_cubic _ _ _ _) fun h => range_cubic_inner _ _ _ _ h.1 h.2
  · rw [ey]; exact hy.elim (range_cubic _ _ _ _) fun h => range_cubic_inner _ _ _ _ h.1 h.2

/-- **C59**, all curves: each side of the box is touched, so the box is never too large. -/
theorem C59_touched_partial (a b c d : Pt ℝ) :
    (∃ t, 0 ≤ t ∧ t ≤ 1 ∧ (bezier3 a b c d t).x = (cubicBBox a b c d).xmin) ∧
    (∃ t, 0 ≤ t ∧ t ≤ 1 ∧ (bezier3 a b c d t).x = (cubicBBox a b c d).xmax) ∧
    (∃ t, 0 ≤ t ∧ t ≤ 1 ∧ (bezier3 a b c d t).y = (cubicBBox a b c d).ymin) ∧
    ∃ t, 0 ≤ t ∧ t ≤ 1 ∧ (bezier3 a b c d t).y = (cubicBBox a b c d).ymax := by
  have ex : ∀ t, (bezier3 a b c d t).x = cubicAt a.x b.x c.x d.x t := by
    intro t; simp only [bezier3, bezier2, between, cubicAt]; ring
  have ey : ∀ t, (bezier3 a b c d t).y = cubicAt a.y b.y c.y d.y t := by
    intro t; simp only [bezier3, bezier2, between, cubicAt]; ring
  simp only [ex, ey]
  exact ⟨(touch_cubic _ _ _ _).1, (touch_cubic _ _ _ _).2, (touch_cubic _ _ _ _).1, (touch_cubic _ _ _ _).2⟩

/-- C58 to C60 for `segment.bbox()` and `segment.point(t)` -/
theorem C60_bbox (a b c d : Pt ℝ) (numpy r sm : Bool) :
    (∀ k ∈ [Kind.line, Kind.close], ∃ (x : BBox ℝ) (f : ℝ → Pt ℝ), bbox ⟨k, some a, some d, r, sm⟩ = .ok x ∧
      (∀ t, 0 ≤ t → t ≤ 1 → point numpy ⟨k, some a, some d, r, sm⟩ t = .ok (f t)) ∧
      TightBox f x.xmin x.ymin x.xmax x.ymax) ∧
    (∃ (x : BBox ℝ) (f : ℝ → Pt ℝ), bbox ⟨.quad (some b), some a, some d, r, sm⟩ = .ok x ∧
      (∀ t, point numpy ⟨.quad (some b), some a, some d, r, sm⟩ t = .ok (f t)) ∧
      TightBox f x.xmin x.ymin x.xmax x.ymax) ∧
    (AxisOk a.x b.x c.x d.x → AxisOk a.y b.y c.y d.y → ∃ (x : BBox ℝ) (f : ℝ → Pt ℝ),
      bbox ⟨.cubic (some b) (some c), some a, some d, r, sm⟩ = .ok x ∧
      (∀ t, point numpy ⟨.cubic (some b) (some c), some a, some d, r, sm⟩ t = .ok (f t)) ∧
      TightBox f x.xmin x.ymin x.xmax x.ymax) := by
  refine ⟨fun k hk => ?_, ?_, fun hx hy => ?_⟩
  · obtain ⟨x, e, h⟩ := C60_box a d
    refine ⟨x, between a d, ?_, fun t h0 h1 => (C57_curves a b c d numpy r sm t).2.2 h0 h1 k hk, h⟩
    simp only [List.mem_cons, List.not_mem_nil, or_false] at hk
    rcases hk with rfl | rfl <;> exact e
  · exact ⟨_, bezier2 a b d, rfl, fun t => (C57_curves a b d d numpy r sm t).1, C58_tight a b d⟩
  · exact ⟨_, bezier3 a b c d, rfl, fun t => (C57_curves a b c d numpy r sm t).2.1, C59_tight_partial a b c d hx hy⟩

/-- a curve that meets the hypotheses -/
example : AxisOk 0 1 2 3 ∧ AxisOk 0 5 (-5) 0 := by
  constructor
  · right; norm_num
  · left; norm_num

/-- The box of a cubic curve with third difference 0 does not hold the whole curve: it only looks at 0, 1/2 and 1. -/
theorem C59_wrong : ∃ (a b c d : Pt ℝ) (t : ℝ), 0 ≤ t ∧ t ≤ 1 ∧ (cubicBBox a b c d).xmax < (bezier3 a b c d t).x := by
  refine ⟨⟨0, 0⟩, ⟨2 / 3, 0⟩, ⟨1 / 3, 0⟩, ⟨-1, 0⟩, 1 / 3, by norm_num, by norm_num, ?_⟩
  simp only [cubicBBox, realMinMax, extremizers]
  norm_num [bezier3, bezier2, between, maxOf, cubicAt]

end Svgio.Props
