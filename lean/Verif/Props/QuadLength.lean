import Verif.Model.SegGeom
import Verif.Spec.Geom
import Mathlib.Tactic.Ring
import Mathlib.Tactic.Linarith
import Mathlib.Tactic.FieldSimp
import Mathlib.Tactic.LinearCombination
import Mathlib.Tactic.Positivity
import Mathlib.Analysis.SpecialFunctions.Sqrt
import Mathlib.Analysis.SpecialFunctions.Log.Deriv
import Mathlib.MeasureTheory.Integral.IntervalIntegral.FundThmCalculus
import Mathlib.Analysis.SpecialFunctions.Integrals.Basic

/-!
C76: the length of a quadratic curve.
-/

namespace Svgio.Props

open Svgio Spec Seg

/-- where the logarithm is defined at 0, the radicand and the logarithm's argument are positive everywhere after 0 -/
theorem log_arg_pos (A B C : ℝ) (hA : 0 < A) (hC : 0 ≤ C) (hB : B ^ 2 ≤ 4 * A * C)
    (hp : 0 < B + 2 * (Real.sqrt A * Real.sqrt C)) (t : ℝ) (t0 : 0 ≤ t) : 0 < A * t ^ 2 + B * t + C ∧
    0 < 2 * Real.sqrt A * Real.sqrt (A * t ^ 2 + B * t + C) + 2 * A * t + B := by
  set r := Real.sqrt A with hr
  have r0 : 0 < r := Real.sqrt_pos.2 hA
  have rr : r * r = A := Real.mul_self_sqrt hA.le
  set s := Real.sqrt C with hs
  have s0 : 0 ≤ s := Real.sqrt_nonneg C
  have ss : s * s = C := Real.mul_self_sqrt hC
  have e4 : 4 * A * (A * t ^ 2 + B * t + C) = (2 * A * t + B) ^ 2 + (4 * A * C - B ^ 2) := by ring
  by_cases hD : B ^ 2 = 4 * A * C
  · have hB2 : B = 2 * (r * s) := by
      have : (B - 2 * (r * s)) * (B + 2 * (r * s)) = 0 := by
        linear_combination hD - 4 * s * s * rr - 4 * A * ss
      rcases mul_eq_zero.1 this with h | h
      · linarith
      · exact absurd h hp.ne'
    have hB0 : 0 < B := by nlinarith [mul_nonneg r0.le s0]
    have hu : 0 < 2 * A * t + B := by positivity
    have hQ : 0 < A * t ^ 2 + B * t + C := by
      have h1 : 0 < (2 * A * t + B) ^ 2 := by positivity
      rw [hD] at e4
      nlinarith
    exact ⟨hQ, by have := Real.sqrt_nonneg (A * t ^ 2 + B * t + C); nlinarith [mul_nonneg r0.le this]⟩
  · have hD' : 0 < 4 * A * C - B ^ 2 := by
      rcases hB.lt_or_eq with h | h
      · linarith
      · exact absurd h hD
    have hQ : 0 < A * t ^ 2 + B * t + C := by nlinarith [sq_nonneg (2 * A * t + B)]
    refine ⟨hQ, ?_⟩
    have hq := Real.sq_sqrt hQ.le
    have hqp := Real.sqrt_pos.2 hQ
    generalize Real.sqrt (A * t ^ 2 + B * t + C) = q at *
    have : (2 * A * t + B) ^ 2 < (2 * r * q) ^ 2 := by
      have : (2 * r * q) ^ 2 = 4 * A * (A * t ^ 2 + B * t + C) := by rw [← hq]; linear_combination 4 * q ^ 2 * rr
      rw [this, e4]; linarith
    have := abs_lt_of_sq_lt_sq this (by positivity)
    have := (abs_lt.1 this).1
    linarith

/-- the closed form is the integral of `sqrt (A t^2 + B t + C)`, when the logarithm is defined -/
theorem integral_sqrt_quad (A B C : ℝ) (hA : 0 < A) (hC : 0 ≤ C) (hB : B ^ 2 ≤ 4 * A * C)
    (hp : 0 < B + 2 * (Real.sqrt A * Real.sqrt C)) :
    ∫ t in (0 : ℝ)..1, Real.sqrt (A * t ^ 2 + B * t + C) =
      ((2 * A + B) * Real.sqrt (A + B + C) - B * Real.sqrt C) / (4 * A) +
      (4 * A * C - B ^ 2) / (8 * A * Real.sqrt A) *
        (Real.log (2 * Real.sqrt A * Real.sqrt (A + B + C) + 2 * A + B) -
          Real.log (2 * Real.sqrt A * Real.sqrt C + B)) := by
  have key := fun t t0 => log_arg_pos A B C hA hC hB hp t t0
  set r := Real.sqrt A with hr
  have r0 : 0 < r := Real.sqrt_pos.2 hA
  have rr : r * r = A := Real.mul_self_sqrt hA.le
  set s := Real.sqrt C with hs
  have hderiv : ∀ t ∈ Set.uIcc (0 : ℝ) 1, HasDerivAt
      (fun t => (2 * A * t + B) * Real.sqrt (A * t ^ 2 + B * t + C) / (4 * A) +
        (4 * A * C - B ^ 2) / (8 * A * r) * Real.log (2 * r * Real.sqrt (A * t ^ 2 + B * t + C) + 2 * A * t + B))
      (Real.sqrt (A * t ^ 2 + B * t + C)) t := by
    intro t ht
    rw [Set.uIcc_of_le zero_le_one] at ht
    obtain ⟨hQ, hL⟩ := key t ht.1
    have dQ : HasDerivAt (fun t : ℝ => A * t ^ 2 + B * t + C) (2 * A * t + B) t := by
      have h1 := (hasDerivAt_pow 2 t).const_mul A
      have h2 := (hasDerivAt_id t).const_mul B
      refine ((h1.add h2).add_const C).congr_deriv ?_
      push_cast; ring
    have dS := dQ.sqrt hQ.ne'
    have dU : HasDerivAt (fun t : ℝ => 2 * A * t + B) (2 * A) t := by
      refine (((hasDerivAt_id t).const_mul (2 * A)).add_const B).congr_deriv ?_
      ring
    have dL : HasDerivAt (fun t : ℝ => 2 * r * Real.sqrt (A * t ^ 2 + B * t + C) + 2 * A * t + B)
        (2 * r * ((2 * A * t + B) / (2 * Real.sqrt (A * t ^ 2 + B * t + C))) + 2 * A) t := by
      have := (dS.const_mul (2 * r)).add dU
      refine (this.congr_deriv rfl).congr_of_eventuallyEq ?_
      filter_upwards with u
      simp only [Pi.add_apply]
      ring
    have dlog := (dL.log hL.ne').const_mul ((4 * A * C - B ^ 2) / (8 * A * r))
    have dP := (dU.mul dS).div_const (4 * A)
    refine (dP.add dlog).congr_deriv ?_
    have hq := Real.sq_sqrt hQ.le
    have hqp := Real.sqrt_pos.2 hQ
    generalize hqd : Real.sqrt (A * t ^ 2 + B * t + C) = q at *
    have e1 : 2 * r * ((2 * A * t + B) / (2 * q)) + 2 * A = r / q * (2 * r * q + 2 * A * t + B) := by
      rw [← rr]; field_simp; ring
    rw [e1, mul_div_assoc, div_self hL.ne']
    have hC' : C = q ^ 2 - A * t ^ 2 - B * t := by linarith
    rw [hC', ← rr]
    field_simp
    ring
  have hint : IntervalIntegrable (fun t : ℝ => Real.sqrt (A * t ^ 2 + B * t + C)) MeasureTheory.volume 0 1 := by
    apply Continuous.intervalIntegrable
    fun_prop
  rw [intervalIntegral.integral_eq_sub_of_hasDerivAt hderiv hint]
  have z0 : A * (0 : ℝ) ^ 2 + B * 0 + C = C := by ring
  have z1 : A * (1 : ℝ) ^ 2 + B * 1 + C = A + B + C := by ring
  simp only [z0, z1, ← hs]
  simp only [mul_zero, zero_add, mul_one, add_zero]
  ring

/-- `r t - s` in absolute value -/
theorem integral_abs_linear (r s : ℝ) (hr : 0 < r) (hs : 0 ≤ s) :
    ∫ t in (0 : ℝ)..1, |r * t - s| = if r ≤ s then s - r / 2 else (s ^ 2 + (r - s) ^ 2) / (2 * r) := by
  have lin : ∀ u v : ℝ, ∫ t in u..v, (r * t - s) = r * (v ^ 2 - u ^ 2) / 2 - s * (v - u) := by
    intro u v
    rw [intervalIntegral.integral_sub (by apply Continuous.intervalIntegrable; fun_prop)
      (by apply Continuous.intervalIntegrable; fun_prop)]
    rw [intervalIntegral.integral_const_mul, integral_id, intervalIntegral.integral_const, smul_eq_mul]
    ring
  split
  · rename_i h
    have : ∫ t in (0 : ℝ)..1, |r * t - s| = ∫ t in (0 : ℝ)..1, -(r * t - s) := by
      apply intervalIntegral.integral_congr
      intro t ht
      rw [Set.uIcc_of_le zero_le_one] at ht
      exact abs_of_nonpos (by nlinarith [ht.1, ht.2])
    rw [this, intervalIntegral.integral_neg, lin]
    ring
  · rename_i h
    have h : s < r := not_le.1 h
    have k0 : 0 ≤ s / r := by positivity
    have k1 : s / r ≤ 1 := (div_le_one hr).2 h.le
    have ci : ∀ u v : ℝ, IntervalIntegrable (fun t : ℝ => |r * t - s|) MeasureTheory.volume u v := by
      intro u v; apply Continuous.intervalIntegrable; fun_prop
    rw [← intervalIntegral.integral_add_adjacent_intervals (ci 0 (s / r)) (ci (s / r) 1)]
    have e1 : ∫ t in (0 : ℝ)..(s / r), |r * t - s| = ∫ t in (0 : ℝ)..(s / r), -(r * t - s) := by
      apply intervalIntegral.integral_congr
      intro t ht
      rw [Set.uIcc_of_le k0] at ht
      refine abs_of_nonpos ?_
      have := (le_div_iff₀ hr).1 ht.2
      linarith
    have e2 : ∫ t in (s / r)..1, |r * t - s| = ∫ t in (s / r)..1, (r * t - s) := by
      apply intervalIntegral.integral_congr
      intro t ht
      rw [Set.uIcc_of_le k1] at ht
      refine abs_of_nonneg ?_
      have := (div_le_iff₀ hr).1 ht.1
      linarith
    rw [e1, e2, intervalIntegral.integral_neg, lin, lin]
    field_simp
    ring

/-- the length of a Bezier curve with three points -/
theorem arcLength_bezier2 (p c q : Pt ℝ) : arcLength (bezier2 p c q) =
    ∫ t in (0 : ℝ)..1, Real.sqrt (4 * ((p.x - 2 * c.x + q.x) ^ 2 + (p.y - 2 * c.y + q.y) ^ 2) * t ^ 2 +
      4 * ((p.x - 2 * c.x + q.x) * (2 * (c.x - p.x)) + (p.y - 2 * c.y + q.y) * (2 * (c.y - p.y))) * t +
      ((2 * (c.x - p.x)) ^ 2 + (2 * (c.y - p.y)) ^ 2)) := by
  have d : ∀ a b c t : ℝ, deriv (fun u => a + u * (b - a) + u * (b + u * (c - b) - (a + u * (b - a)))) t =
      2 * (a - 2 * b + c) * t + 2 * (b - a) := by
    intro a b c t
    have h1 := (hasDerivAt_pow 2 t).const_mul (a - 2 * b + c)
    have h2 := (hasDerivAt_id t).const_mul (2 * (b - a))
    have h3 := (h1.add h2).add_const a
    have e : (fun u => a + u * (b - a) + u * (b + u * (c - b) - (a + u * (b - a)))) =
        fun u => (a - 2 * b + c) * u ^ 2 + 2 * (b - a) * u + a := by funext u; ring
    rw [e]
    refine (h3.congr_deriv ?_).deriv
    push_cast; ring
  unfold arcLength arcLengthOn
  simp only [bezier2, between]
  apply intervalIntegral.integral_congr
  intro t _
  simp only [d]
  congr 1
  ring

/-- the fallback value, from `|a| = n` and `|b| = m` -/
noncomputable def fallback (n m : ℝ) : ℝ :=
  if n < 1 / 10 ^ 10 then m else if m / n ≥ 2 then m - n else n * ((m / n) ^ 2 / 2 - m / n + 1)

/-- when `a` and `b` point in opposite directions, or one of them is 0 -/
theorem fallback_close (n m : ℝ) (hn : 0 ≤ n) (hm : 0 ≤ m) :
    abs (fallback n m - ∫ t in (0 : ℝ)..1, abs (2 * n * t - m)) < 1 / 10 ^ 10 ∧
    (n = 0 ∨ 1 / 10 ^ 10 ≤ n → fallback n m = ∫ t in (0 : ℝ)..1, |2 * n * t - m|) := by
  rcases hn.eq_or_lt with h0 | h0
  · have e : ∫ t in (0 : ℝ)..1, |2 * n * t - m| = m := by
      rw [← h0]
      simp [abs_of_nonneg hm]
    have f : fallback n m = m := by rw [fallback, if_pos (by rw [← h0]; norm_num)]
    rw [e, f, sub_self, abs_zero]
    exact ⟨by norm_num, fun _ => rfl⟩
  · rw [integral_abs_linear (2 * n) m (by linarith) hm]
    have exact' : 1 / 10 ^ 10 ≤ n → fallback n m = if 2 * n ≤ m then m - 2 * n / 2 else (m ^ 2 + (2 * n - m) ^ 2) / (2 * (2 * n)) := by
      intro h
      rw [fallback, if_neg (not_lt.2 h)]
      by_cases hk : 2 * n ≤ m
      · rw [if_pos hk, if_pos ((le_div_iff₀ h0).2 hk)]; ring
      · rw [if_neg hk, if_neg (fun hh => hk ((le_div_iff₀ h0).1 hh))]
        field_simp
        ring
    by_cases h : n < 1 / 10 ^ 10
    · refine ⟨?_, fun hh => hh.elim (fun z => absurd z h0.ne') (fun z => absurd h (not_lt.2 z))⟩
      rw [fallback, if_pos h]
      refine lt_of_le_of_lt ?_ h
      by_cases hk : 2 * n ≤ m
      · rw [if_pos hk, abs_le]; constructor <;> linarith
      · rw [if_neg hk]
        have hk : m < 2 * n := not_le.1 hk
        have e : m - (m ^ 2 + (2 * n - m) ^ 2) / (2 * (2 * n)) = (4 * n * m - (m ^ 2 + (2 * n - m) ^ 2)) / (4 * n) := by
          field_simp
          ring
        rw [e, abs_le]
        constructor
        · rw [le_div_iff₀ (by linarith)]; nlinarith
        · rw [div_le_iff₀ (by linarith)]; nlinarith
    · have h := not_lt.1 h
      rw [exact' h, sub_self, abs_zero]
      exact ⟨by norm_num, fun _ => rfl⟩

/-- `quadLength` in terms of the components of `a` and `b` -/
theorem quadLength_core (ax ay bx by' A B C : ℝ) (hA : A = 4 * (ax ^ 2 + ay ^ 2)) (hB : B = 4 * (ax * bx + ay * by'))
    (hC : C = bx ^ 2 + by' ^ 2) (L : ℝ)
    (hL : L = if Real.sqrt A = 0 ∨ B / Real.sqrt A + 2 * Real.sqrt C = 0 ∨
        (2 * Real.sqrt A + B / Real.sqrt A + 2 * Real.sqrt (A + B + C)) / (B / Real.sqrt A + 2 * Real.sqrt C) ≤ 0 ∨
        4 * (2 * A * Real.sqrt A) = 0 then fallback (Real.sqrt (ax ^ 2 + ay ^ 2)) (Real.sqrt C)
      else (2 * A * Real.sqrt A * (2 * Real.sqrt (A + B + C)) +
        Real.sqrt A * B * (2 * Real.sqrt (A + B + C) - 2 * Real.sqrt C) +
        (4 * C * A - B ^ 2) * Real.log ((2 * Real.sqrt A + B / Real.sqrt A + 2 * Real.sqrt (A + B + C)) /
          (B / Real.sqrt A + 2 * Real.sqrt C))) / (4 * (2 * A * Real.sqrt A))) :
    |L - ∫ t in (0 : ℝ)..1, Real.sqrt (A * t ^ 2 + B * t + C)| < 1 / 10 ^ 10 ∧
    ((ax = 0 ∧ ay = 0) ∨ 1 / 10 ^ 10 ≤ Real.sqrt (ax ^ 2 + ay ^ 2) →
      L = ∫ t in (0 : ℝ)..1, Real.sqrt (A * t ^ 2 + B * t + C)) := by
  have A0 : 0 ≤ A := by rw [hA]; positivity
  have C0 : 0 ≤ C := by rw [hC]; positivity
  have D0 : B ^ 2 ≤ 4 * A * C := by rw [hA, hB, hC]; nlinarith [sq_nonneg (ax * by' - ay * bx)]
  have hn : Real.sqrt A = 2 * Real.sqrt (ax ^ 2 + ay ^ 2) := by
    rw [hA, Real.sqrt_mul (by norm_num), show (4 : ℝ) = 2 ^ 2 by norm_num, Real.sqrt_sq (by norm_num)]
  have n0 := Real.sqrt_nonneg (ax ^ 2 + ay ^ 2)
  have m0 := Real.sqrt_nonneg C
  have rr := Real.mul_self_sqrt A0
  have ss := Real.mul_self_sqrt C0
  have hz : (ax = 0 ∧ ay = 0) → Real.sqrt (ax ^ 2 + ay ^ 2) = 0 := by
    rintro ⟨h1, h2⟩; rw [h1, h2]; simp
  -- the fallback applies when the speed is `|sqrt A t - sqrt C|`
  have anti : B = -(2 * (Real.sqrt A * Real.sqrt C)) →
      ∫ t in (0 : ℝ)..1, Real.sqrt (A * t ^ 2 + B * t + C) =
        ∫ t in (0 : ℝ)..1, |2 * Real.sqrt (ax ^ 2 + ay ^ 2) * t - Real.sqrt C| := by
    intro h
    apply intervalIntegral.integral_congr
    intro t _
    simp only
    rw [← hn, ← Real.sqrt_sq_eq_abs]
    congr 1
    rw [h]
    linear_combination (-t ^ 2) * rr - ss
  have fb := fallback_close _ _ n0 m0
  have main : B = -(2 * (Real.sqrt A * Real.sqrt C)) →
      L = fallback (Real.sqrt (ax ^ 2 + ay ^ 2)) (Real.sqrt C) →
      |L - ∫ t in (0 : ℝ)..1, Real.sqrt (A * t ^ 2 + B * t + C)| < 1 / 10 ^ 10 ∧
      ((ax = 0 ∧ ay = 0) ∨ 1 / 10 ^ 10 ≤ Real.sqrt (ax ^ 2 + ay ^ 2) →
        L = ∫ t in (0 : ℝ)..1, Real.sqrt (A * t ^ 2 + B * t + C)) := by
    intro h e
    rw [anti h, e]
    exact ⟨fb.1, fun hh => fb.2 (hh.imp_left hz)⟩
  by_cases hA2 : Real.sqrt A = 0
  · rw [if_pos (Or.inl hA2)] at hL
    refine main ?_ hL
    have : A = 0 := by rw [← rr, hA2]; ring
    rw [this] at D0
    have : B = 0 := by nlinarith [sq_nonneg B]
    rw [this, hA2]; ring
  · have r0 : 0 < Real.sqrt A := lt_of_le_of_ne (Real.sqrt_nonneg A) (Ne.symm hA2)
    have Ap : 0 < A := Real.sqrt_pos.1 r0
    have eBA : B / Real.sqrt A + 2 * Real.sqrt C = (B + 2 * (Real.sqrt A * Real.sqrt C)) / Real.sqrt A := by
      field_simp
    by_cases hz2 : B + 2 * (Real.sqrt A * Real.sqrt C) = 0
    · rw [if_pos (Or.inr (Or.inl (by rw [eBA, hz2, zero_div])))] at hL
      exact main (by linarith) hL
    · have hpos : 0 < B + 2 * (Real.sqrt A * Real.sqrt C) := by
        refine lt_of_le_of_ne ?_ (Ne.symm hz2)
        have : |B| ≤ 2 * (Real.sqrt A * Real.sqrt C) := by
          apply abs_le_of_sq_le_sq _ (by positivity)
          calc B ^ 2 ≤ 4 * A * C := D0
            _ = (2 * (Real.sqrt A * Real.sqrt C)) ^ 2 := by
              linear_combination (-4 * Real.sqrt C * Real.sqrt C) * rr - 4 * A * ss
        linarith [(abs_le.1 this).1]
      have hI := integral_sqrt_quad A B C Ap C0 D0 hpos
      have eN : 2 * Real.sqrt A + B / Real.sqrt A + 2 * Real.sqrt (A + B + C) =
          (2 * Real.sqrt A * Real.sqrt (A + B + C) + 2 * A + B) / Real.sqrt A := by
        rw [eq_div_iff hA2]
        field_simp
        linear_combination 2 * rr
      have hN : 0 < 2 * Real.sqrt A * Real.sqrt (A + B + C) + 2 * A + B := by
        have := (log_arg_pos A B C Ap C0 D0 hpos 1 zero_le_one).2
        rw [show A * (1 : ℝ) ^ 2 + B * 1 + C = A + B + C by ring] at this
        linarith
      have hND : (2 * Real.sqrt A + B / Real.sqrt A + 2 * Real.sqrt (A + B + C)) / (B / Real.sqrt A + 2 * Real.sqrt C) =
          (2 * Real.sqrt A * Real.sqrt (A + B + C) + 2 * A + B) / (2 * Real.sqrt A * Real.sqrt C + B) := by
        rw [eN, eBA, div_div_div_cancel_right₀ hA2]
        congr 1; ring
      have hDpos : 0 < 2 * Real.sqrt A * Real.sqrt C + B := by linarith
      rw [if_neg] at hL
      · have : L = ∫ t in (0 : ℝ)..1, Real.sqrt (A * t ^ 2 + B * t + C) := by
          rw [hL, hI, hND, Real.log_div hN.ne' hDpos.ne']
          field_simp
          ring
        rw [← this, sub_self, abs_zero]
        exact ⟨by norm_num, fun _ => rfl⟩
      · rintro (h | h | h | h)
        · exact hA2 h
        · rw [eBA] at h
          rcases div_eq_zero_iff.1 h with h | h
          · exact hz2 h
          · exact hA2 h
        · rw [hND] at h
          exact absurd (div_pos hN hDpos) (not_lt.2 h)
        · have : 0 < 4 * (2 * A * Real.sqrt A) := by positivity
          exact this.ne' h

/-- **C76.** `QuadraticBezier.length()` is the length of the curve, the integral of its speed, up to 1e-10; and it is exact
except when `0 < |start - 2 control + end| < 1e-10`. -/
theorem C76_length (p c q : Pt ℝ) :
    |quadLength p c q - arcLength (bezier2 p c q)| < 1 / 10 ^ 10 ∧
    (((p.x - 2 * c.x + q.x = 0 ∧ p.y - 2 * c.y + q.y = 0) ∨
      1 / 10 ^ 10 ≤ Real.sqrt ((p.x - 2 * c.x + q.x) ^ 2 + (p.y - 2 * c.y + q.y) ^ 2)) →
      quadLength p c q = arcLength (bezier2 p c q)) := by
  rw [arcLength_bezier2]
  have ha : (p.sub (Pt.smul 2 c)).add q = ⟨p.x - 2 * c.x + q.x, p.y - 2 * c.y + q.y⟩ := by
    simp only [Pt.sub, Pt.smul, Pt.add]
    congr 1 <;> ring
  have hb : Pt.smul 2 (c.sub p) = ⟨2 * (c.x - p.x), 2 * (c.y - p.y)⟩ := by
    simp only [Pt.sub, Pt.smul]
    congr 1 <;> ring
  refine quadLength_core _ _ _ _ _ _ _ rfl rfl rfl _ ?_
  simp only [quadLength, ha, hb, Pt.norm, fallback]

/-- a curve that is not straight, to which the exact part applies -/
example : 1 / 10 ^ 10 ≤ Real.sqrt (((0 : ℝ) - 2 * 1 + 2) ^ 2 + ((0 : ℝ) - 2 * 2 + 0) ^ 2) := by
  apply Real.le_sqrt_of_sq_le
  norm_num

/-- **C76**, lines: `length()` is the length of the line. -/
theorem C76_line (a b : Pt ℝ) (k : Kind ℝ) (r sm : Bool) :
    linearLength ⟨k, some a, some b, r, sm⟩ = arcLength (between a b) := by
  have d : ∀ u v t : ℝ, deriv (fun s => u + s * (v - u)) t = v - u := by
    intro u v t
    have h := ((hasDerivAt_id t).mul_const (v - u)).const_add u
    refine (h.congr_deriv ?_).deriv
    ring
  simp only [linearLength, Pt.distance, arcLength, arcLengthOn, between, d, intervalIntegral.integral_const, smul_eq_mul]
  rw [show (1 : ℝ) - 0 = 1 by ring, one_mul]
  congr 1
  ring

end Svgio.Props
