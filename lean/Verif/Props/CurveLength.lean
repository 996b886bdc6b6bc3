import Verif.Model.SegGeom
import Verif.Spec.Geom
import Verif.Props.SegGeom
import Mathlib.Tactic.Ring
import Mathlib.Tactic.Linarith
import Mathlib.Tactic.FieldSimp
import Mathlib.Tactic.LinearCombination
import Mathlib.Tactic.Positivity
import Mathlib.Analysis.SpecialFunctions.Sqrt
import Mathlib.MeasureTheory.Integral.IntervalIntegral.FundThmCalculus

/-!
C77: the length found by bisection.
-/

namespace Svgio.Props

open Svgio Spec Seg

/-- the distance of two points -/
noncomputable def dst (p q : Pt ℝ) : ℝ := Real.sqrt (sqDist p q)

theorem norm_sub (p q : Pt ℝ) : Pt.norm (q.sub p) = dst p q := by
  simp only [Pt.norm, Pt.sub, dst, sqDist]
  congr 1; ring

theorem dst_triangle (p q r : Pt ℝ) : dst p r ≤ dst p q + dst q r := by
  simp only [dst, sqDist]
  generalize hu : p.x - q.x = u
  generalize hv : p.y - q.y = v
  generalize hw : q.x - r.x = w
  generalize hz : q.y - r.y = z
  have e1 : p.x - r.x = u + w := by rw [← hu, ← hw]; ring
  have e2 : p.y - r.y = v + z := by rw [← hv, ← hz]; ring
  rw [e1, e2]
  have h1 := Real.sqrt_nonneg (u ^ 2 + v ^ 2)
  have h2 := Real.sqrt_nonneg (w ^ 2 + z ^ 2)
  have s1 := Real.sq_sqrt (show 0 ≤ u ^ 2 + v ^ 2 by positivity)
  have s2 := Real.sq_sqrt (show 0 ≤ w ^ 2 + z ^ 2 by positivity)
  rw [Real.sqrt_le_left (by positivity)]
  have cs : u * w + v * z ≤ Real.sqrt (u ^ 2 + v ^ 2) * Real.sqrt (w ^ 2 + z ^ 2) := by
    rw [← Real.sqrt_mul (by positivity)]
    apply Real.le_sqrt_of_sq_le
    nlinarith [sq_nonneg (u * z - v * w)]
  nlinarith

/-- a curve with a continuous derivative -/
structure Smooth (f : ℝ → Pt ℝ) where
  /-- the first coordinate's derivative -/
  dx : ℝ → ℝ
  /-- the second coordinate's derivative -/
  dy : ℝ → ℝ
  hx : ∀ t, HasDerivAt (fun u => (f u).x) (dx t) t
  hy : ∀ t, HasDerivAt (fun u => (f u).y) (dy t) t
  cx : Continuous dx
  cy : Continuous dy

theorem Smooth.arc {f : ℝ → Pt ℝ} (h : Smooth f) (a b : ℝ) :
    arcLengthOn f a b = ∫ t in a..b, Real.sqrt (h.dx t ^ 2 + h.dy t ^ 2) := by
  simp only [arcLengthOn, fun t => (h.hx t).deriv, fun t => (h.hy t).deriv]

theorem Smooth.cont {f : ℝ → Pt ℝ} (h : Smooth f) : Continuous fun t => Real.sqrt (h.dx t ^ 2 + h.dy t ^ 2) := by
  have := h.cx
  have := h.cy
  fun_prop

/-- a chord is not longer than the curve -/
theorem chord_le {f : ℝ → Pt ℝ} (h : Smooth f) {a b : ℝ} (hab : a ≤ b) : dst (f a) (f b) ≤ arcLengthOn f a b := by
  rw [h.arc]
  have ix : ∫ t in a..b, h.dx t = (f b).x - (f a).x :=
    intervalIntegral.integral_eq_sub_of_hasDerivAt (fun t _ => h.hx t) (h.cx.intervalIntegrable a b)
  have iy : ∫ t in a..b, h.dy t = (f b).y - (f a).y :=
    intervalIntegral.integral_eq_sub_of_hasDerivAt (fun t _ => h.hy t) (h.cy.intervalIntegrable a b)
  set u := (f b).x - (f a).x
  set v := (f b).y - (f a).y
  have hd : dst (f a) (f b) = Real.sqrt (u ^ 2 + v ^ 2) := by
    simp only [dst, sqDist]
    congr 1
    simp only [u, v]
    ring
  rw [hd]
  set d := Real.sqrt (u ^ 2 + v ^ 2) with hdd
  have d0 : 0 ≤ d := Real.sqrt_nonneg _
  have dd : d ^ 2 = u ^ 2 + v ^ 2 := Real.sq_sqrt (by positivity)
  have hcx := h.cx
  have hcy := h.cy
  have key : d ^ 2 ≤ d * ∫ t in a..b, Real.sqrt (h.dx t ^ 2 + h.dy t ^ 2) := by
    have e : d ^ 2 = ∫ t in a..b, (u * h.dx t + v * h.dy t) := by
      rw [intervalIntegral.integral_add (by apply Continuous.intervalIntegrable; fun_prop)
        (by apply Continuous.intervalIntegrable; fun_prop)]
      rw [intervalIntegral.integral_const_mul, intervalIntegral.integral_const_mul, ix, iy, dd]
      ring
    rw [e, ← intervalIntegral.integral_const_mul]
    apply intervalIntegral.integral_mono_on hab
    · apply Continuous.intervalIntegrable; fun_prop
    · exact (h.cont.const_smul d).intervalIntegrable a b
    · intro t _
      rw [hdd, ← Real.sqrt_mul (by positivity)]
      apply Real.le_sqrt_of_sq_le
      nlinarith [sq_nonneg (u * h.dy t - v * h.dx t)]
  rcases d0.eq_or_lt with h0 | h0
  · rw [← h0]
    apply intervalIntegral.integral_nonneg hab
    intro t _
    exact Real.sqrt_nonneg _
  · nlinarith

theorem arc_add {f : ℝ → Pt ℝ} (h : Smooth f) (a b c : ℝ) :
    arcLengthOn f a b + arcLengthOn f b c = arcLengthOn f a c := by
  rw [h.arc, h.arc, h.arc]
  exact intervalIntegral.integral_add_adjacent_intervals (h.cont.intervalIntegrable _ _) (h.cont.intervalIntegrable _ _)

/-- polygons over two halves -/
theorem polygon_halves (f : ℝ → Pt ℝ) (a b : ℝ) (n : ℕ) (hn : 0 < n) :
    polygonLength f a b (2 * n) = polygonLength f a ((a + b) / 2) n + polygonLength f ((a + b) / 2) b n := by
  have hn' : (n : ℝ) ≠ 0 := by positivity
  simp only [polygonLength]
  rw [two_mul n, Finset.sum_range_add]
  congr 1
  · apply Finset.sum_congr rfl
    intro i _
    congr 3 <;> · push_cast; field_simp; ring
  · apply Finset.sum_congr rfl
    intro i _
    congr 3 <;> · push_cast; field_simp; ring

theorem polygon_two (f : ℝ → Pt ℝ) (a b : ℝ) :
    polygonLength f a b 2 = dst (f a) (f ((a + b) / 2)) + dst (f ((a + b) / 2)) (f b) := by
  simp only [polygonLength, Finset.sum_range_succ, Finset.sum_range_zero, zero_add, dst]
  congr 3 <;> · congr 1; push_cast; ring

/-- doubling the number of corners does not shorten the polygon -/
theorem polygon_mono (f : ℝ → Pt ℝ) : ∀ (k : ℕ) (a b : ℝ), dst (f a) (f b) ≤ polygonLength f a b (2 ^ k)
  | 0, a, b => by
    simp only [polygonLength, pow_zero, Finset.sum_range_one, dst]
    apply le_of_eq
    congr 3 <;> · push_cast; ring
  | k + 1, a, b => by
    rw [pow_succ, mul_comm, polygon_halves _ _ _ _ (by positivity)]
    have h1 := polygon_mono f k a ((a + b) / 2)
    have h2 := polygon_mono f k ((a + b) / 2) b
    have := dst_triangle (f a) (f ((a + b) / 2)) (f b)
    linarith

/-- what every result of the bisection satisfies -/
theorem segmentLength_bounds {f : ℝ → Pt ℝ} (h : Smooth f) (error : ℝ) (md : ℕ) :
    ∀ (fuel : ℕ) (a b : ℝ) (depth : ℕ) (L : ℝ), a ≤ b →
      segmentLength f error md fuel a b (f a) (f b) depth = .ok L →
      polygonLength f a b (2 ^ (md - depth + 1)) ≤ L ∧ L ≤ arcLengthOn f a b
  | 0, a, b, depth, L, _, e => by simp [segmentLength] at e
  | fuel + 1, a, b, depth, L, hab, e => by
    simp only [segmentLength, norm_sub] at e
    have h1 : a ≤ (a + b) / 2 := by linarith
    have h2 : (a + b) / 2 ≤ b := by linarith
    split at e
    · cases e1 : segmentLength f error md fuel a ((a + b) / 2) (f a) (f ((a + b) / 2)) (depth + 1) with
      | error x => rw [e1] at e; cases e
      | ok l1 =>
        cases e2 : segmentLength f error md fuel ((a + b) / 2) b (f ((a + b) / 2)) (f b) (depth + 1) with
        | error x => rw [e1, e2] at e; cases e
        | ok l2 =>
          rw [e1, e2] at e
          have hL : L = l1 + l2 := by cases e; rfl
          obtain ⟨p1, q1⟩ := segmentLength_bounds h error md fuel _ _ _ _ h1 e1
          obtain ⟨p2, q2⟩ := segmentLength_bounds h error md fuel _ _ _ _ h2 e2
          refine ⟨?_, by rw [hL, ← arc_add h a ((a + b) / 2) b]; linarith⟩
          by_cases hd : depth < md
          · have : md - depth + 1 = (md - (depth + 1) + 1) + 1 := by omega
            rw [this, pow_succ, mul_comm, polygon_halves _ _ _ _ (by positivity), hL]
            linarith
          · have e0 : md - depth + 1 = 1 := by omega
            rw [e0, pow_one, polygon_two, hL]
            have g1 := polygon_mono f (md - (depth + 1) + 1) a ((a + b) / 2)
            have g2 := polygon_mono f (md - (depth + 1) + 1) ((a + b) / 2) b
            linarith
    · rename_i hc
      have hL : L = dst (f a) (f ((a + b) / 2)) + dst (f ((a + b) / 2)) (f b) := by cases e; rfl
      have e0 : md - depth + 1 = 1 := by
        have : ¬ depth < md := fun z => hc (Or.inr z)
        omega
      rw [e0, pow_one, polygon_two, hL]
      refine ⟨le_rfl, ?_⟩
      rw [← arc_add h a ((a + b) / 2) b]
      exact add_le_add (chord_le h h1) (chord_le h h2)

/-- it ends, with enough nested calls, when the speed is bounded -/
theorem segmentLength_ends {f : ℝ → Pt ℝ} (M error : ℝ) (md : ℕ)
    (hM : ∀ u v, 0 ≤ u → u ≤ v → v ≤ 1 → dst (f u) (f v) ≤ M * (v - u)) :
    ∀ (fuel : ℕ) (a b : ℝ) (depth : ℕ), 0 ≤ a → a ≤ b → b ≤ 1 → md ≤ depth + fuel → M * (b - a) ≤ error * 2 ^ fuel →
      ∃ L, segmentLength f error md (fuel + 1) a b (f a) (f b) depth = .ok L
  | 0, a, b, depth, h0, hab, h1, hmd, he => by
    simp only [segmentLength, norm_sub]
    rw [if_neg]
    · exact ⟨_, rfl⟩
    · rintro (h | h)
      · have g1 := hM a ((a + b) / 2) h0 (by linarith) (by linarith)
        have g2 := hM ((a + b) / 2) b (by linarith) (by linarith) h1
        have : 0 ≤ dst (f a) (f b) := Real.sqrt_nonneg _
        simp only [pow_zero, mul_one] at he
        linarith
      · omega
  | fuel + 1, a, b, depth, h0, hab, h1, hmd, he => by
    rw [segmentLength]
    simp only [norm_sub]
    split
    · have he' : M * ((b - a) / 2) ≤ error * 2 ^ fuel := by rw [pow_succ] at he; linarith
      obtain ⟨l1, e1⟩ := segmentLength_ends M error md hM fuel a ((a + b) / 2) (depth + 1) h0 (by linarith) (by linarith)
        (by omega) (by rw [show (a + b) / 2 - a = (b - a) / 2 by ring]; exact he')
      obtain ⟨l2, e2⟩ := segmentLength_ends M error md hM fuel ((a + b) / 2) b (depth + 1) (by linarith) (by linarith) h1
        (by omega) (by rw [show b - (a + b) / 2 = (b - a) / 2 by ring]; exact he')
      exact ⟨l1 + l2, by rw [e1, e2]; rfl⟩
    · exact ⟨_, rfl⟩

/-- cubic curves have a continuous derivative -/
noncomputable def smooth_bezier3 (a b c d : Pt ℝ) : Smooth (bezier3 a b c d) :=
  have ex : (fun t => (bezier3 a b c d t).x) = cubicAt a.x b.x c.x d.x := by
    funext t; simp only [bezier3, bezier2, between, cubicAt]; ring
  have ey : (fun t => (bezier3 a b c d t).y) = cubicAt a.y b.y c.y d.y := by
    funext t; simp only [bezier3, bezier2, between, cubicAt]; ring
  { dx := fun t => 3 * (-(a.x - 3 * b.x + 3 * c.x - d.x) * t ^ 2 + 2 * (a.x - 2 * b.x + c.x) * t + (b.x - a.x))
    dy := fun t => 3 * (-(a.y - 3 * b.y + 3 * c.y - d.y) * t ^ 2 + 2 * (a.y - 2 * b.y + c.y) * t + (b.y - a.y))
    hx := fun t => by rw [ex]; exact cubic_hasDeriv _ _ _ _ t
    hy := fun t => by rw [ey]; exact cubic_hasDeriv _ _ _ _ t
    cx := by fun_prop
    cy := by fun_prop }

/-- bisection on a curve with a continuous derivative -/
theorem bisection_smooth {f : ℝ → Pt ℝ} (sm : Smooth f) (error : ℝ) (he : 0 < error) (minDepth : ℕ) :
    (∃ n, ∀ fuel, n ≤ fuel → ∃ L, lineLength f fuel 0 1 error minDepth = .ok L) ∧
    ∀ fuel L, lineLength f fuel 0 1 error minDepth = .ok L →
      L ≤ arcLength f ∧ polygonLength f 0 1 (2 ^ (minDepth + 1)) ≤ L ∧ Real.sqrt (sqDist (f 0) (f 1)) ≤ L := by
  constructor
  · -- a bound on the speed
    obtain ⟨s, _, hs⟩ := isCompact_Icc.exists_isMaxOn (Set.nonempty_Icc.2 (zero_le_one (α := ℝ))) sm.cont.continuousOn
    set M := Real.sqrt (sm.dx s ^ 2 + sm.dy s ^ 2)
    have hM : ∀ u v, 0 ≤ u → u ≤ v → v ≤ 1 → dst (f u) (f v) ≤ M * (v - u) := by
      intro u v u0 uv v1
      refine (chord_le sm uv).trans ?_
      rw [sm.arc]
      have : ∫ t in u..v, Real.sqrt (sm.dx t ^ 2 + sm.dy t ^ 2) ≤ ∫ t in u..v, M := by
        apply intervalIntegral.integral_mono_on uv (sm.cont.intervalIntegrable _ _) (by simp)
        intro t ht
        exact hs ⟨u0.trans ht.1, ht.2.trans v1⟩
      refine this.trans (le_of_eq ?_)
      rw [intervalIntegral.integral_const, smul_eq_mul]; ring
    obtain ⟨k, hk⟩ := pow_unbounded_of_one_lt (M / error) (one_lt_two (α := ℝ))
    refine ⟨max minDepth k + 1, fun fuel hf => ?_⟩
    obtain ⟨n, rfl⟩ : ∃ n, fuel = n + 1 := ⟨fuel - 1, by omega⟩
    have hkn : k ≤ n := (le_max_right minDepth k).trans (by omega)
    have hmn : minDepth ≤ n := (le_max_left minDepth k).trans (by omega)
    refine segmentLength_ends M error minDepth hM n 0 1 0 le_rfl zero_le_one le_rfl (by omega) ?_
    have h1 : (2 : ℝ) ^ k ≤ 2 ^ n := pow_le_pow_right₀ one_le_two hkn
    have h2 := (div_lt_iff₀ he).1 hk
    nlinarith
  · intro fuel L e
    obtain ⟨h1, h2⟩ := segmentLength_bounds sm error minDepth fuel 0 1 0 L zero_le_one e
    exact ⟨h2, h1, (polygon_mono f (minDepth - 0 + 1) 0 1).trans h1⟩

/-- **C77.** The length of a cubic curve found by bisection, without scipy. For a positive `error` there is a depth of
recursion with which it always succeeds. Whenever it succeeds, the result is at most the length of the curve, and at least the
length of the polygon with `2 ^ (min_depth + 1)` corners on the curve; it is therefore at least the distance of the ends. -/
theorem C77_bisection (a b c d : Pt ℝ) (error : ℝ) (he : 0 < error) (minDepth : ℕ) :
    (∃ n, ∀ fuel, n ≤ fuel → ∃ L, lineLength (bezier3 a b c d) fuel 0 1 error minDepth = .ok L) ∧
    ∀ fuel L, lineLength (bezier3 a b c d) fuel 0 1 error minDepth = .ok L →
      L ≤ arcLength (bezier3 a b c d) ∧ polygonLength (bezier3 a b c d) 0 1 (2 ^ (minDepth + 1)) ≤ L ∧
      Real.sqrt (sqDist a d) ≤ L := by
  have := bisection_smooth (smooth_bezier3 a b c d) error he minDepth
  have e0 : bezier3 a b c d 0 = a := by simp [bezier3, bezier2, between]
  have e1 : bezier3 a b c d 1 = d := by simp [bezier3, bezier2, between]
  rwa [e0, e1] at this

end Svgio.Props
