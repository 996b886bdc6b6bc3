import Verif.Model.FloatArcBox
import Verif.Props.FloatArcFollow
import Verif.Props.FloatAngle
import Verif.Props.FloatTurn
import Verif.Props.ArcBox
import Mathlib.Analysis.Real.Pi.Irrational

/-!
C165: the boxes of arcs computed with floats.
-/

namespace Svgio.Props

open Svgio.Flt Dir
open Arc (wave)

namespace ArcBoxFloat

theorem wave_lip (c A B x y : ℝ) : |wave c A B x - wave c A B y| ≤ (|A| + |B|) * |x - y| := by
  have e : wave c A B x - wave c A B y = A * (Real.cos x - Real.cos y) + B * (Real.sin x - Real.sin y) := by
    unfold Arc.wave
    ring
  have h1 := Complex.abs_re_le_norm (unit x - unit y)
  have h2 := Complex.abs_im_le_norm (unit x - unit y)
  have h3 := unit_lip x y
  rw [e]
  refine (abs_add_le _ _).trans ?_
  rw [abs_mul, abs_mul, add_mul]
  exact add_le_add (mul_le_mul_of_nonneg_left (h1.trans h3) (abs_nonneg _)) (mul_le_mul_of_nonneg_left (h2.trans h3) (abs_nonneg _))

/-- the greatest value, by an angle at which the derivative is only almost zero -/
theorem wave_max_near {c A B θ w a ε : ℝ} (hc : |A * Real.sin a - B * Real.cos a| ≤ ε) (hw : w ≠ 0) {t : ℝ} (t0 : 0 ≤ t) (t1 : t ≤ 1) :
    ∃ u, 0 ≤ u ∧ u ≤ 1 ∧ wave c A B (θ + w * t) ≤ wave c A B (θ + w * u) + 4 * ε ∧ (u = 0 ∨ u = 1 ∨ ∃ k : ℤ, θ + w * u = a + k * Real.pi) := by
  set ρ := A * Real.cos a + B * Real.sin a with hρ
  obtain ⟨u, u0, u1, hmax, hu⟩ := Arc.wave_max c (ρ * Real.cos a) (ρ * Real.sin a) θ w one_pos (t0 := a) (by ring) hw
  have sc := Real.sin_sq_add_cos_sq a
  have near : ∀ x, |wave c A B x - wave c (ρ * Real.cos a) (ρ * Real.sin a) x| ≤ 2 * ε := by
    intro x
    have e : wave c A B x - wave c (ρ * Real.cos a) (ρ * Real.sin a) x =
        (A * Real.sin a - B * Real.cos a) * (Real.sin a * Real.cos x - Real.cos a * Real.sin x) := by
      unfold Arc.wave
      rw [hρ]
      linear_combination (-(A * Real.cos x) - B * Real.sin x) * sc
    rw [e, ← Real.sin_sub, abs_mul]
    have := Real.abs_sin_le_one (a - x)
    nlinarith [abs_nonneg (A * Real.sin a - B * Real.cos a), abs_nonneg (Real.sin (a - x))]
  refine ⟨u, u0, u1, ?_, hu⟩
  have h1 := abs_le.1 (near (θ + w * t))
  have h2 := abs_le.1 (near (θ + w * u))
  have h3 := hmax t t0 t1
  linarith [h1.2, h2.1]

/-- the same, with the positions found approximately: one of them, or an end, is almost the greatest value -/
theorem wave_max_found {c A B θ w a ε η : ℝ} (hc : |A * Real.sin a - B * Real.cos a| ≤ ε) (hw : w ≠ 0) (ha : |a| ≤ 2) (hθ : -1 / 10 ≤ θ)
    (hθ' : θ ≤ 6.3) (hw7 : |w| ≤ 6.3) {v : ℤ → ℝ} (hv : ∀ k : ℤ, -4 ≤ k → k ≤ 4 → |w * v k - (a + k * Real.pi - θ)| ≤ η) {t : ℝ} (t0 : 0 ≤ t)
    (t1 : t ≤ 1) :
    ∃ u, 0 ≤ u ∧ u ≤ 1 ∧ wave c A B (θ + w * t) ≤ wave c A B (θ + w * u) + (4 * ε + (|A| + |B|) * η) ∧
      (u = 0 ∨ u = 1 ∨ ∃ k : ℤ, -4 ≤ k ∧ k ≤ 4 ∧ u = v k) := by
  obtain ⟨u, u0, u1, hmax, hu⟩ := wave_max_near (c := c) (θ := θ) hc hw t0 t1
  have ε0 : 0 ≤ ε := (abs_nonneg _).trans hc
  have η0 : 0 ≤ η := (abs_nonneg _).trans (hv 0 (by norm_num) (by norm_num))
  have K0 : 0 ≤ (|A| + |B|) * η := by positivity
  rcases hu with rfl | rfl | ⟨k, hk⟩
  · exact ⟨0, le_rfl, zero_le_one, by linarith, Or.inl rfl⟩
  · exact ⟨1, zero_le_one, le_rfl, by linarith, Or.inr (Or.inl rfl)⟩
  obtain ⟨w1, w2⟩ := abs_le.1 hw7
  obtain ⟨a1, a2⟩ := abs_le.1 ha
  have wu1 : w * u ≤ 6.3 := by nlinarith
  have wu2 : -6.3 ≤ w * u := by nlinarith
  have pl := Real.pi_gt_d2
  have ph := Real.pi_lt_d2
  have k1 : -4 ≤ k := by
    by_contra h
    have : (k : ℝ) ≤ -5 := by exact_mod_cast (by omega : k ≤ -5)
    norm_num1 at *
    nlinarith
  have k2 : k ≤ 4 := by
    by_contra h
    have : (5 : ℝ) ≤ k := by exact_mod_cast (by omega : 5 ≤ k)
    norm_num1 at *
    nlinarith
  have hvk := hv k k1 k2
  have e : a + k * Real.pi - θ = w * u := by linarith
  rw [e] at hvk
  have close : ∀ x, |w * x - w * u| ≤ η → wave c A B (θ + w * u) ≤ wave c A B (θ + w * x) + (|A| + |B|) * η := by
    intro x hx
    have h1 := wave_lip c A B (θ + w * u) (θ + w * x)
    rw [add_sub_add_left_eq_sub, abs_sub_comm (w * u)] at h1
    have h2 := (abs_le.1 (h1.trans (mul_le_mul_of_nonneg_left hx (by positivity)))).2
    linarith
  by_cases g0 : 0 ≤ v k
  · by_cases g1 : v k ≤ 1
    · exact ⟨v k, g0, g1, by linarith [close _ hvk], Or.inr (Or.inr ⟨k, k1, k2, rfl⟩)⟩
    · refine ⟨1, zero_le_one, le_rfl, ?_, Or.inr (Or.inl rfl)⟩
      have : |w * 1 - w * u| ≤ η := by
        refine le_trans ?_ hvk
        rw [← mul_sub, ← mul_sub, abs_mul, abs_mul, abs_of_nonneg (show 0 ≤ 1 - u by linarith), abs_of_nonneg (show 0 ≤ v k - u by linarith)]
        gcongr
        linarith
      linarith [close _ this]
  · refine ⟨0, le_rfl, zero_le_one, ?_, Or.inl rfl⟩
    have : |w * 0 - w * u| ≤ η := by
      refine le_trans ?_ hvk
      rw [← mul_sub, ← mul_sub, abs_mul, abs_mul, abs_of_nonpos (show 0 - u ≤ 0 by linarith), abs_of_nonpos (show v k - u ≤ 0 by linarith)]
      gcongr
      linarith
    linarith [close _ this]

/-- an angle from an arc tangent with small errors -/
theorem crit_atan {A B x a e η : ℝ} (hx : |A * x - B| ≤ e) (ha : |a - Real.arctan x| ≤ η) : |A * Real.sin a - B * Real.cos a| ≤ e + (|A| + |B|) * η := by
  have cp := Real.cos_arctan_pos x
  have ht := Real.tan_arctan x
  rw [Real.tan_eq_sin_div_cos, div_eq_iff cp.ne'] at ht
  have e1 : A * Real.sin (Real.arctan x) - B * Real.cos (Real.arctan x) = (A * x - B) * Real.cos (Real.arctan x) := by rw [ht]; ring
  have e2 : |A * Real.sin (Real.arctan x) - B * Real.cos (Real.arctan x)| ≤ e := by
    rw [e1, abs_mul, abs_of_pos cp]
    have := Real.cos_le_one (Real.arctan x)
    nlinarith [abs_nonneg (A * x - B)]
  have h3 := unit_lip a (Real.arctan x)
  have h1 := (Complex.abs_re_le_norm (unit a - unit (Real.arctan x))).trans (h3.trans ha)
  have h2 := (Complex.abs_im_le_norm (unit a - unit (Real.arctan x))).trans (h3.trans ha)
  have e3 : A * Real.sin a - B * Real.cos a = (A * Real.sin (Real.arctan x) - B * Real.cos (Real.arctan x)) +
      (A * (Real.sin a - Real.sin (Real.arctan x)) - B * (Real.cos a - Real.cos (Real.arctan x))) := by ring
  rw [e3]
  refine (abs_add_le _ _).trans (add_le_add e2 ((abs_sub _ _).trans ?_))
  rw [abs_mul, abs_mul, add_mul]
  exact add_le_add (mul_le_mul_of_nonneg_left h2 (abs_nonneg _)) (mul_le_mul_of_nonneg_left h1 (abs_nonneg _))

theorem tau_low : (6.28 : ℝ) ≤ ((tau : ℚ) : ℝ) := by rw [tauR]; norm_num
theorem tau_high : ((tau : ℚ) : ℝ) ≤ 6.29 := by rw [tauR]; norm_num

/-- `as_degrees`, read back in radians -/
theorem asDegrees_rad (x : ℚ) : |(asDegrees doubles x : ℝ) * Real.pi / 180 - x| ≤ |(x : ℝ)| / 2 ^ 50 + 100 * (1 / 2 ^ 536) := by
  have h1 := rdR (x * 360)
  have h2 := rdR (roundDouble (x * 360) / tau)
  have e0 : asDegrees doubles x = roundDouble (roundDouble (x * 360) / tau) := rfl
  rw [e0]
  have tl := tau_low
  have th := tau_high
  have tn := tau_near
  have w0 : (0 : ℝ) < 1 / 2 ^ 536 := by positivity
  push_cast at h1 h2
  set τ : ℝ := ((tau : ℚ) : ℝ) with hτ
  set r : ℝ := ((roundDouble (x * 360) : ℚ) : ℝ) with hr
  set D : ℝ := ((roundDouble (roundDouble (x * 360) / tau) : ℚ) : ℝ) with hD
  have t0 : 0 < τ := by norm_num1 at *; linarith
  have h3 : |D * τ - r| ≤ |r| / 2 ^ 53 + τ * (1 / 2 ^ 536) := by
    have e : D * τ - r = (D - r / τ) * τ := by field_simp
    have e2 : (|r / τ| / 2 ^ 53 + 1 / 2 ^ 536) * τ = |r| / 2 ^ 53 + τ * (1 / 2 ^ 536) := by
      rw [abs_div, abs_of_pos t0]
      generalize (1 : ℝ) / 2 ^ 536 = w at *
      field_simp
    rw [e, abs_mul, abs_of_pos t0, ← e2]
    exact mul_le_mul_of_nonneg_right h2 t0.le
  clear h2
  generalize (1 : ℝ) / 2 ^ 536 = w at *
  rw [abs_mul, abs_of_pos (show (0 : ℝ) < 360 by norm_num)] at h1
  have r1 : |r| ≤ 361 * |(x : ℝ)| + w := by
    have := abs_sub_abs_le_abs_sub r ((x : ℝ) * 360)
    rw [abs_mul, abs_of_pos (show (0 : ℝ) < 360 by norm_num)] at this
    have := abs_nonneg (x : ℝ)
    norm_num1 at *
    linarith
  have tw : τ * w ≤ 7 * w := by
    have : τ ≤ 7 := by norm_num1 at *; linarith
    gcongr
  have d1 : |D| ≤ 62 * |(x : ℝ)| + 9 * w := by
    have h := abs_sub_abs_le_abs_sub (D * τ) r
    rw [abs_mul, abs_of_pos t0] at h
    have := abs_nonneg D
    have h' : |D| * 6.28 ≤ |D| * τ := by gcongr
    have := abs_nonneg (x : ℝ)
    norm_num1 at *
    linarith
  have d2 : |D * (2 * Real.pi - τ)| ≤ |D| / 2 ^ 51 := by
    rw [abs_mul, abs_sub_comm (2 * Real.pi), div_eq_mul_one_div]
    refine mul_le_mul_of_nonneg_left (tn.trans (by norm_num)) (abs_nonneg _)
  have e : D * Real.pi / 180 - x = ((D * τ - r) + (r - x * 360) + D * (2 * Real.pi - τ)) / 360 := by ring
  rw [e, abs_div, abs_of_pos (show (0 : ℝ) < 360 by norm_num), div_le_iff₀ (by norm_num)]
  refine (abs_add_three _ _ _).trans ?_
  have := abs_nonneg (x : ℝ)
  norm_num1 at *
  linarith

/-- `as_positive_degrees` of the start -/
theorem theta_near {S : ℚ} (hS : |(S : ℝ)| ≤ 48 / 10) : ∃ (n j : ℕ) (th : ℚ), (∀ fuel, n < fuel → asPositiveDegrees doubles fuel S = some th) ∧
    |(th : ℝ) * Real.pi / 180 - (S + j * (2 * Real.pi))| ≤ 1 / 2 ^ 46 ∧ -1 / 10 ≤ (S : ℝ) + j * (2 * Real.pi) ∧ (S : ℝ) + j * (2 * Real.pi) ≤ 6.3 := by
  have h1 := asDegrees_rad S
  have pl := Real.pi_gt_d4
  have ph := Real.pi_lt_d4
  have wt := w_tiny
  set D := asDegrees doubles S with hD
  have low : (-2 : ℝ) ^ 9 ≤ D := by
    by_contra hc
    rw [not_le] at hc
    obtain ⟨h2, -⟩ := abs_le.1 h1
    obtain ⟨s1, -⟩ := abs_le.1 hS
    generalize (1 : ℝ) / 2 ^ 536 = w at *
    generalize Real.pi = P at *
    norm_num1 at *
    nlinarith
  have high : (D : ℝ) ≤ 300 := by
    by_contra hc
    rw [not_le] at hc
    obtain ⟨-, h2⟩ := abs_le.1 h1
    obtain ⟨-, s1⟩ := abs_le.1 hS
    generalize (1 : ℝ) / 2 ^ 536 = w at *
    generalize Real.pi = P at *
    norm_num1 at *
    nlinarith
  have low' : -2 ^ 55 ≤ D := by
    have : (-2 : ℝ) ^ 55 ≤ D := le_trans (by norm_num) low
    have h2 : ((-2 ^ 55 : ℚ) : ℝ) ≤ D := by push_cast; norm_num1 at *; linarith
    exact_mod_cast h2
  obtain ⟨j, n, k1, k2, k3⟩ := C155_positive_partial S low'
  have k2' := (Rat.cast_le (K := ℝ)).2 k2
  push_cast at k2'
  rw [← hD] at k2' k3
  have k4 : (D : ℝ) + 360 * j ≤ 360 := by
    rcases Nat.eq_zero_or_pos j with g | g
    · rw [g]; push_cast; linarith
    · have := (Rat.cast_le (K := ℝ)).2 (k3 g).le
      push_cast at this
      exact this
  have r1 := rdR (D + 360 * j)
  push_cast at r1
  rw [abs_of_nonneg k2'] at r1
  refine ⟨n, j, _, k1, ?_, ?_, ?_⟩
  · have e : ((doubles.fl (D + 360 * j) : ℚ) : ℝ) * Real.pi / 180 - (S + j * (2 * Real.pi)) =
        (((roundDouble (D + 360 * j) : ℚ) : ℝ) - (D + 360 * j)) * (Real.pi / 180) + (D * Real.pi / 180 - S) := by
      change ((roundDouble (D + 360 * j) : ℚ) : ℝ) * Real.pi / 180 - (S + j * (2 * Real.pi)) = _
      ring
    rw [e]
    refine (abs_add_le _ _).trans ?_
    rw [abs_mul, abs_of_pos (show 0 < Real.pi / 180 by positivity)]
    have g : |((roundDouble (D + 360 * j) : ℚ) : ℝ) - (D + 360 * j)| * (Real.pi / 180) ≤ 361 / 2 ^ 53 * (1 / 50) := by
      refine mul_le_mul ?_ (by linarith) (by positivity) (by positivity)
      generalize (1 : ℝ) / 2 ^ 536 = w at *
      norm_num1 at *
      linarith
    generalize (1 : ℝ) / 2 ^ 536 = w at *
    norm_num1 at *
    linarith
  · obtain ⟨h2, h3⟩ := abs_le.1 h1
    have : 0 ≤ ((D : ℝ) + 360 * j) * (Real.pi / 180) := by positivity
    have e : ((D : ℝ) + 360 * j) * (Real.pi / 180) = D * Real.pi / 180 + j * (2 * Real.pi) := by ring
    rw [e] at this
    generalize (1 : ℝ) / 2 ^ 536 = w at *
    generalize (j : ℝ) * (2 * Real.pi) = J at *
    generalize (D : ℝ) * Real.pi / 180 = DD at *
    norm_num1 at *
    linarith
  · obtain ⟨h2, h3⟩ := abs_le.1 h1
    have : ((D : ℝ) + 360 * j) * (Real.pi / 180) ≤ 360 * (Real.pi / 180) := by gcongr
    have e : ((D : ℝ) + 360 * j) * (Real.pi / 180) = D * Real.pi / 180 + j * (2 * Real.pi) := by ring
    rw [e] at this
    generalize (1 : ℝ) / 2 ^ 536 = w at *
    generalize (j : ℝ) * (2 * Real.pi) = J at *
    generalize (D : ℝ) * Real.pi / 180 = DD at *
    norm_num1 at *
    linarith

/-- the factor `360 / tau` -/
theorem factor_near : |((roundDouble (360 / tau) : ℚ) : ℝ) - 180 / Real.pi| ≤ 100 / 2 ^ 53 ∧ 180 / Real.pi ≤ 58 := by
  have tl := tau_low
  have tn := tau_near
  have pl := Real.pi_gt_d4
  have wt := w_tiny
  have p0 := Real.pi_pos
  have t0 : (0 : ℝ) < ((tau : ℚ) : ℝ) := by norm_num1 at *; linarith
  have g : 180 / Real.pi ≤ 58 := by
    rw [div_le_iff₀ p0]
    norm_num1 at *
    linarith
  refine ⟨?_, g⟩
  have h : |((360 / tau : ℚ) : ℝ) - 180 / Real.pi| ≤ 10 / 2 ^ 51 := by
    push_cast
    have e : (360 : ℝ) / ((tau : ℚ) : ℝ) - 180 / Real.pi = (2 * Real.pi - ((tau : ℚ) : ℝ)) * (180 / (((tau : ℚ) : ℝ) * Real.pi)) := by
      field_simp
      ring
    rw [e, abs_mul, abs_sub_comm, abs_of_pos (show 0 < 180 / (((tau : ℚ) : ℝ) * Real.pi) by positivity)]
    have h2 : 180 / (((tau : ℚ) : ℝ) * Real.pi) ≤ 10 := by
      rw [div_le_iff₀ (by positivity)]
      norm_num1 at *
      nlinarith
    calc _ ≤ 1 / 2 ^ 51 * (5625 / 10000) * (10 : ℝ) := by gcongr
      _ ≤ _ := by norm_num
  have := near_round h (abs_of_pos (show 0 < 180 / Real.pi by positivity) ▸ g)
  refine this.trans ?_
  generalize (1 : ℝ) / 2 ^ 536 = w at *
  norm_num1 at *
  linarith

/-- the number divided in `angle_inv` -/
theorem numerator_near {ang th : ℚ} {θ : ℝ} (ha : |(ang : ℝ)| ≤ 2) (hth : |(th : ℝ) * Real.pi / 180 - θ| ≤ 1 / 2 ^ 46) (h1 : -1 / 10 ≤ θ) (h2 : θ ≤ 6.3)
    {k : ℤ} (k1 : -4 ≤ k) (k2 : k ≤ 4) :
    |((roundDouble (roundDouble (roundDouble (ang + roundDouble (tau / 2 * k)) * roundDouble (360 / tau)) - th) : ℚ) : ℝ) -
      (ang + k * Real.pi - θ) * (180 / Real.pi)| ≤ 14000 / 2 ^ 53 := by
  obtain ⟨f1, f2⟩ := factor_near
  have wt := w_tiny
  have pl := Real.pi_gt_d4
  have ph := Real.pi_lt_d4
  have p0 := Real.pi_pos
  have tn := tau_near
  have kR1 : (-4 : ℝ) ≤ k := by exact_mod_cast k1
  have kR2 : (k : ℝ) ≤ 4 := by exact_mod_cast k2
  have kabs : |(k : ℝ)| ≤ 4 := abs_le.2 ⟨kR1, kR2⟩
  have kp : |(k : ℝ) * Real.pi| ≤ 13 := by
    rw [abs_mul, abs_of_pos p0]
    norm_num1 at *
    nlinarith
  have g0 : 0 < 180 / Real.pi := by positivity
  have a1 : |((tau / 2 * k : ℚ) : ℝ) - k * Real.pi| ≤ 2 / 2 ^ 51 := by
    push_cast
    have e : ((tau : ℚ) : ℝ) / 2 * k - k * Real.pi = (((tau : ℚ) : ℝ) - 2 * Real.pi) * (k / 2) := by ring
    rw [e, abs_mul, abs_div, abs_of_pos (show (0 : ℝ) < 2 by norm_num)]
    calc _ ≤ 1 / 2 ^ 51 * (5625 / 10000) * ((4 : ℝ) / 2) := by gcongr
      _ ≤ _ := by norm_num
  have a2 := near_round a1 kp
  set q1 := roundDouble (tau / 2 * k)
  have a3 : |((ang + q1 : ℚ) : ℝ) - (ang + k * Real.pi)| ≤ 23 / 2 ^ 53 := by
    push_cast
    rw [add_sub_add_left_eq_sub]
    refine a2.trans ?_
    generalize (1 : ℝ) / 2 ^ 536 = w at *
    norm_num1 at *
    linarith
  have y2 : |(ang : ℝ) + k * Real.pi| ≤ 15 := (abs_add_le _ _).trans (by linarith)
  have a4 := near_round a3 y2
  set q2 := roundDouble (ang + q1)
  set f := roundDouble (360 / tau)
  have a5 : |(q2 : ℝ) - (ang + k * Real.pi)| ≤ 40 / 2 ^ 53 := by
    refine a4.trans ?_
    generalize (1 : ℝ) / 2 ^ 536 = w at *
    norm_num1 at *
    linarith
  have fb : |(f : ℝ)| ≤ 59 := by
    have := abs_sub_abs_le_abs_sub (f : ℝ) (180 / Real.pi)
    rw [abs_of_pos g0] at this
    norm_num1 at *
    linarith
  have a6 : |((q2 * f : ℚ) : ℝ) - (ang + k * Real.pi) * (180 / Real.pi)| ≤ 4000 / 2 ^ 53 := by
    push_cast
    have e : (q2 : ℝ) * f - (ang + k * Real.pi) * (180 / Real.pi) = (q2 - (ang + k * Real.pi)) * f + (ang + k * Real.pi) * (f - 180 / Real.pi) := by ring
    rw [e]
    refine (abs_add_le _ _).trans ?_
    rw [abs_mul, abs_mul]
    calc _ ≤ 40 / 2 ^ 53 * 59 + 15 * ((100 : ℝ) / 2 ^ 53) := by gcongr
      _ ≤ _ := by norm_num
  have y3 : |((ang : ℝ) + k * Real.pi) * (180 / Real.pi)| ≤ 870 := by
    rw [abs_mul, abs_of_pos g0]
    calc _ ≤ (15 : ℝ) * 58 := by gcongr
      _ ≤ _ := by norm_num
  have a7 := near_round a6 y3
  set q3 := roundDouble (q2 * f)
  have t1 : |(th : ℝ) - θ * (180 / Real.pi)| ≤ 7500 / 2 ^ 53 := by
    have e : (th : ℝ) - θ * (180 / Real.pi) = (th * Real.pi / 180 - θ) * (180 / Real.pi) := by field_simp
    rw [e, abs_mul, abs_of_pos g0]
    calc _ ≤ (1 : ℝ) / 2 ^ 46 * 58 := by gcongr
      _ ≤ _ := by norm_num
  have a8 : |((q3 - th : ℚ) : ℝ) - (ang + k * Real.pi - θ) * (180 / Real.pi)| ≤ 12400 / 2 ^ 53 := by
    push_cast
    have e : (q3 : ℝ) - th - (ang + k * Real.pi - θ) * (180 / Real.pi) = (q3 - (ang + k * Real.pi) * (180 / Real.pi)) - (th - θ * (180 / Real.pi)) := by ring
    rw [e]
    refine (abs_sub _ _).trans ((add_le_add a7 t1).trans ?_)
    generalize (1 : ℝ) / 2 ^ 536 = w at *
    norm_num1 at *
    linarith
  have y4 : |((ang : ℝ) + k * Real.pi - θ) * (180 / Real.pi)| ≤ 1300 := by
    have : |(ang : ℝ) + k * Real.pi - θ| ≤ 22 := by
      refine (abs_sub _ _).trans ?_
      have : |θ| ≤ 6.3 := abs_le.2 ⟨by norm_num1 at *; linarith, h2⟩
      norm_num1 at *
      linarith
    rw [abs_mul, abs_of_pos g0]
    calc _ ≤ (22 : ℝ) * 58 := by gcongr
      _ ≤ _ := by norm_num
  refine (near_round a8 y4).trans ?_
  generalize (1 : ℝ) / 2 ^ 536 = w at *
  norm_num1 at *
  linarith

/-- the positions found -/
theorem position_near {ang th w : ℚ} {θ : ℝ} (ha : |(ang : ℝ)| ≤ 2) (hth : |(th : ℝ) * Real.pi / 180 - θ| ≤ 1 / 2 ^ 46) (h1 : -1 / 10 ≤ θ) (h2 : θ ≤ 6.3)
    (w1 : 1 / 2 ^ 60 ≤ |(w : ℝ)|) (w2 : |(w : ℝ)| ≤ 6.3) {k : ℤ} (k1 : -4 ≤ k) (k2 : k ≤ 4) :
    |(w : ℝ) * angleInv doubles th (asDegrees doubles w) ang k - (ang + k * Real.pi - θ)| ≤ 1 / 2 ^ 41 := by
  have nn := numerator_near ha hth h1 h2 k1 k2
  have d1 := asDegrees_rad w
  have e0 : angleInv doubles th (asDegrees doubles w) ang k =
      roundDouble (roundDouble (roundDouble (roundDouble (ang + roundDouble (tau / 2 * k)) * roundDouble (360 / tau)) - th) / asDegrees doubles w) := by
    unfold angleInv
    rw [tau_half]
    rfl
  rw [e0]
  generalize roundDouble (roundDouble (roundDouble (ang + roundDouble (tau / 2 * k)) * roundDouble (360 / tau)) - th) = q at *
  generalize asDegrees doubles w = d at *
  have hv := rdR (q / d)
  have ws := w_small
  have pl := Real.pi_gt_d4
  have ph := Real.pi_lt_d4
  have p0 := Real.pi_pos
  obtain ⟨-, g58⟩ := factor_near
  have dw : |(d : ℝ) * Real.pi / 180 - w| ≤ |(w : ℝ)| / 2 ^ 49 := by
    refine d1.trans ?_
    have : (1 : ℝ) / 2 ^ 536 ≤ 1 / 2 ^ 60 * (1 / 2 ^ 60) := by
      refine le_trans (one_div_le_one_div_of_le (by positivity) (pow_le_pow_right₀ (by norm_num) (show 120 ≤ 536 by norm_num))) (by norm_num)
    generalize (1 : ℝ) / 2 ^ 536 = W at *
    norm_num1 at *
    linarith
  have wt := w_tiny
  set n := (ang : ℝ) + k * Real.pi - θ with hn
  have nb : |n| ≤ 22 := by
    have kR1 : (-4 : ℝ) ≤ k := by exact_mod_cast k1
    have kR2 : (k : ℝ) ≤ 4 := by exact_mod_cast k2
    obtain ⟨b1, b2⟩ := abs_le.1 ha
    rw [abs_le, hn]
    constructor <;> norm_num1 at * <;> nlinarith
  set v : ℝ := ((roundDouble (q / d) : ℚ) : ℝ) with hvd
  push_cast at hv
  -- in radians
  set X := (q : ℝ) * (Real.pi / 180) with hX
  set Y := (d : ℝ) * (Real.pi / 180) with hY
  have c0 : 0 < Real.pi / 180 := by positivity
  have c1 : Real.pi / 180 ≤ 1 / 50 := by norm_num1 at *; linarith
  have xn : |X - n| ≤ 280 / 2 ^ 53 := by
    have e : X - n = (q - n * (180 / Real.pi)) * (Real.pi / 180) := by
      rw [hX]
      field_simp
    rw [e, abs_mul, abs_of_pos c0]
    calc _ ≤ 14000 / 2 ^ 53 * ((1 : ℝ) / 50) := by gcongr
      _ ≤ _ := by norm_num
  have yw : |Y - w| ≤ |(w : ℝ)| / 2 ^ 49 := by
    have e : Y = (d : ℝ) * Real.pi / 180 := by rw [hY]; ring
    rwa [e]
  have w0 : 0 < |(w : ℝ)| := lt_of_lt_of_le (by positivity) w1
  have y1 : 9 / 10 * |(w : ℝ)| ≤ |Y| := by
    have := abs_sub_abs_le_abs_sub (w : ℝ) Y
    rw [abs_sub_comm] at this
    norm_num1 at *
    linarith
  have y2 : |Y| ≤ 7 := by
    have := abs_sub_abs_le_abs_sub Y (w : ℝ)
    norm_num1 at *
    linarith
  have y0 : Y ≠ 0 := by
    intro h
    rw [h, abs_zero] at y1
    linarith
  have d0 : (d : ℝ) ≠ 0 := by
    intro h
    rw [hY, h, zero_mul] at y0
    exact y0 rfl
  have xy : (q : ℝ) / d = X / Y := by
    rw [hX, hY]
    field_simp
  rw [xy] at hv
  have vy : |v * Y - X| ≤ |X| / 2 ^ 53 + 7 * (1 / 2 ^ 536) := by
    have e : v * Y - X = (v - X / Y) * Y := by field_simp
    rw [e, abs_mul]
    refine (mul_le_mul_of_nonneg_right hv (abs_nonneg Y)).trans ?_
    rw [add_mul, abs_div]
    refine add_le_add (le_of_eq ?_) ?_
    · have := abs_pos.2 y0
      field_simp
    · rw [mul_comm]
      gcongr
  have xb : |X| ≤ 23 := by
    have := abs_sub_abs_le_abs_sub X n
    norm_num1 at *
    linarith
  have vw : |v| * |(w : ℝ)| ≤ 30 := by
    have h3 := abs_sub_abs_le_abs_sub (v * Y) X
    rw [abs_mul] at h3
    have h4 : |v| * (9 / 10 * |(w : ℝ)|) ≤ |v| * |Y| := by gcongr
    generalize (1 : ℝ) / 2 ^ 536 = W at *
    norm_num1 at *
    linarith
  have e : (w : ℝ) * v - n = (v * Y - X) + (X - n) - v * (Y - w) := by ring
  rw [e]
  refine (abs_sub _ _).trans ((add_le_add (abs_add_le _ _) le_rfl).trans ?_)
  have last : |v * (Y - w)| ≤ 30 / 2 ^ 49 := by
    rw [abs_mul]
    calc _ ≤ |v| * (|(w : ℝ)| / 2 ^ 49) := by gcongr
      _ = |v| * |(w : ℝ)| / 2 ^ 49 := by ring
      _ ≤ _ := by gcongr
  generalize (1 : ℝ) / 2 ^ 536 = W at *
  norm_num1 at *
  linarith

/-- the quotient of the radii -/
theorem ratio_near {x y : ℚ} {r q : ℝ} (r0 : 0 < r) (q0 : 0 < q) (hx : |(x : ℝ) - r| ≤ r * (10 / 2 ^ 53)) (hy : |(y : ℝ) - q| ≤ q * (10 / 2 ^ 53)) :
    |r * ((roundDouble (y / x) : ℚ) : ℝ) - q| ≤ q * (30 / 2 ^ 53) + r * (1 / 2 ^ 536) := by
  have h := rdR (y / x)
  push_cast at h
  have x1 : 9 / 10 * r ≤ x := by
    have := (abs_le.1 hx).1
    norm_num1 at *
    linarith
  have x0 : (0 : ℝ) < x := by linarith
  have h2 : |r * ((y : ℝ) / x) - q| ≤ q * (23 / 2 ^ 53) := by
    have e : r * ((y : ℝ) / x) - q = (r * (y - q) - q * (x - r)) / x := by
      field_simp
      ring
    rw [e, abs_div, abs_of_pos x0, div_le_iff₀ x0]
    refine (abs_sub _ _).trans ?_
    rw [abs_mul, abs_mul, abs_of_pos r0, abs_of_pos q0]
    have g1 : r * |(y : ℝ) - q| ≤ r * (q * (10 / 2 ^ 53)) := by gcongr
    have g2 : q * |(x : ℝ) - r| ≤ q * (r * (10 / 2 ^ 53)) := by gcongr
    have g3 : q * (23 / 2 ^ 53) * (9 / 10 * r) ≤ q * (23 / 2 ^ 53) * x := by gcongr
    have g4 : 0 < q * r := by positivity
    norm_num1 at *
    linarith
  have h3 : |r * ((y : ℝ) / x)| ≤ 2 * q := by
    have := abs_sub_abs_le_abs_sub (r * ((y : ℝ) / x)) q
    rw [abs_of_pos q0] at this
    norm_num1 at *
    linarith
  have h4 : |r * ((roundDouble (y / x) : ℚ) : ℝ) - r * ((y : ℝ) / x)| ≤ 2 * q / 2 ^ 53 + r * (1 / 2 ^ 536) := by
    rw [← mul_sub, abs_mul, abs_of_pos r0]
    refine (mul_le_mul_of_nonneg_left h r0.le).trans ?_
    rw [mul_add]
    refine add_le_add ?_ le_rfl
    rw [abs_mul, abs_of_pos r0] at h3
    have : r * (|(y : ℝ) / x| / 2 ^ 53) = r * |(y : ℝ) / x| / 2 ^ 53 := by ring
    rw [this]
    gcongr
  refine (abs_sub_le _ _ _).trans ((add_le_add h4 h2).trans ?_)
  generalize r * ((1 : ℝ) / 2 ^ 536) = W at *
  norm_num1 at *
  linarith

/-- `A` times a rounded quotient or product that is near to `B / A` -/
theorem scaled_near {A B r q P m : ℝ} {y : ℚ} (r0 : 0 < r) (q0 : 0 < q) (hA : |A| ≤ r) (hP : |P - q| ≤ q * (30 / 2 ^ 53) + r * (1 / 2 ^ 536))
    {c : ℝ} (hc : |c| ≤ 1) (hm : |m - c| ≤ 1 / 2 ^ 51) (hy : A * (y : ℝ) = P * m) (hB : B = q * c) :
    |A * ((roundDouble y : ℚ) : ℝ) - B| ≤ (r + q) * (50 / 2 ^ 53) := by
  have h := rdR y
  have wt := w_tiny
  have rw0 : r * (1 / 2 ^ 536) ≤ r * (1 / 2 ^ 53 * (1 / 10)) := by gcongr
  have hP2 : |P| ≤ 2 * q + r * (1 / 2 ^ 536) := by
    have := abs_sub_abs_le_abs_sub P q
    rw [abs_of_pos q0] at this
    norm_num1 at *
    linarith
  have hm2 : |m| ≤ 2 := by
    have := abs_sub_abs_le_abs_sub m c
    norm_num1 at *
    linarith
  have e1 : |A * (y : ℝ) - B| ≤ (2 * q + r * (1 / 2 ^ 536)) * (1 / 2 ^ 51) + (q * (30 / 2 ^ 53) + r * (1 / 2 ^ 536)) := by
    have e : A * (y : ℝ) - B = P * (m - c) + (P - q) * c := by rw [hy, hB]; ring
    rw [e]
    refine (abs_add_le _ _).trans (add_le_add ?_ ?_)
    · rw [abs_mul]
      gcongr
    · rw [abs_mul]
      exact (mul_le_of_le_one_right (abs_nonneg _) hc).trans hP
  have e2 : |A * ((roundDouble y : ℚ) : ℝ) - A * y| ≤ (2 * q + r * (1 / 2 ^ 536)) * 2 / 2 ^ 53 + r * (1 / 2 ^ 536) := by
    rw [← mul_sub, abs_mul]
    refine (mul_le_mul_of_nonneg_left h (abs_nonneg _)).trans ?_
    rw [mul_add]
    refine add_le_add ?_ (by gcongr)
    have : |A| * (|(y : ℝ)| / 2 ^ 53) = |A * (y : ℝ)| / 2 ^ 53 := by rw [abs_mul]; ring
    rw [this, hy, abs_mul]
    gcongr
  refine (abs_sub_le _ _ _).trans ((add_le_add e2 e1).trans ?_)
  generalize r * ((1 : ℝ) / 2 ^ 536) = W at *
  norm_num1 at *
  linarith

theorem rat_cos_ne (x : ℚ) : Real.cos x ≠ 0 := by
  intro h
  obtain ⟨k, hk⟩ := Real.cos_eq_zero_iff.1 h
  have k0 : (2 * (k : ℝ) + 1) ≠ 0 := by exact_mod_cast (by omega : (2 * k + 1 : ℤ) ≠ 0)
  refine irrational_pi ⟨2 * x / (2 * k + 1), ?_⟩
  push_cast
  rw [hk]
  field_simp

theorem rat_sin_ne {x : ℚ} (hx : x ≠ 0) : Real.sin x ≠ 0 := by
  intro h
  obtain ⟨k, hk⟩ := Real.sin_eq_zero_iff.1 h
  have k0 : (k : ℝ) ≠ 0 := by
    intro e
    rw [e, zero_mul] at hk
    exact hx (by exact_mod_cast hk.symm)
  refine irrational_pi ⟨x / k, ?_⟩
  push_cast
  rw [← hk]
  field_simp

theorem atan_bound (N : FloatAtan) (x : ℚ) : |(N.atan x : ℝ)| ≤ 2 := by
  have h := N.err x
  have h2 := Arc.arctan_abs (x : ℝ)
  have := abs_sub_abs_le_abs_sub (N.atan x : ℝ) (Real.arctan x)
  have := Real.pi_lt_d4
  norm_num1 at *
  linarith

theorem quarter_cos : |Real.cos ((tau / 4 : ℚ) : ℝ)| ≤ 1 / 2 ^ 53 := by
  have h := (Complex.abs_re_le_norm (unit ((tau / 4 : ℚ) : ℝ) - unit (Real.pi / 2))).trans (unit_lip _ _)
  have e : (unit ((tau / 4 : ℚ) : ℝ) - unit (Real.pi / 2)).re = Real.cos ((tau / 4 : ℚ) : ℝ) := by
    simp [unit]
  rw [e] at h
  refine h.trans ?_
  have tn := tau_near
  push_cast
  have e2 : ((tau : ℚ) : ℝ) / 4 - Real.pi / 2 = (((tau : ℚ) : ℝ) - 2 * Real.pi) * (1 / 4) := by ring
  rw [e2, abs_mul, abs_of_pos (show (0 : ℝ) < 1 / 4 by norm_num)]
  norm_num1 at *
  linarith

/-- the angles found are almost those of the outermost points of the ellipse, turned by the rotation found -/
theorem angles_found (T : FloatTrig) (h0 : T.sin 0 = 0) (N : FloatAtan) (R : FloatRoot) {a : ArcData ℚ} {r q : ℝ} (r0 : 0 < r) (q0 : 0 < q)
    (hx : |(rx doubles R a : ℝ) - r| ≤ r * (10 / 2 ^ 53)) (hy : |(ry doubles R a : ℝ) - q| ≤ q * (10 / 2 ^ 53)) :
    ∃ x y, boxAngles doubles T N R a = .ok (x, y) ∧ |(x : ℝ)| ≤ 2 ∧ |(y : ℝ)| ≤ 2 ∧
      |r * Real.cos (rotation doubles T a) * Real.sin x - -(q * Real.sin (rotation doubles T a)) * Real.cos x| ≤ (r + q) * (52 / 2 ^ 53) ∧
      |r * Real.sin (rotation doubles T a) * Real.sin y - q * Real.cos (rotation doubles T a) * Real.cos y| ≤ (r + q) * (52 / 2 ^ 53) := by
  unfold boxAngles
  generalize rotation doubles T a = φ at *
  have tq : |((tau / 4 : ℚ) : ℝ)| ≤ 2 := by
    push_cast
    have := tau_low
    have := tau_high
    rw [abs_of_nonneg (by norm_num1 at *; linarith)]
    norm_num1 at *
    linarith
  have qc := quarter_cos
  have le1 : ∀ {z u v e : ℝ}, 0 < z → |u| ≤ e → |v| ≤ 1 → |z * u * v| ≤ z * e := by
    intro z u v e z0 hu hv
    rw [abs_mul, abs_mul, abs_of_pos z0]
    exact (mul_le_of_le_one_right (by positivity) hv).trans (by gcongr)
  have le2 : ∀ {z u v e : ℝ}, 0 < z → |u| ≤ 1 → |v| ≤ e → |z * u * v| ≤ z * e := by
    intro z u v e z0 hu hv
    rw [mul_right_comm]
    exact le1 z0 hv hu
  have s1 := Real.abs_sin_le_one (φ : ℝ)
  have s2 := Real.abs_cos_le_one (φ : ℝ)
  have s3 := Real.abs_sin_le_one ((tau / 4 : ℚ) : ℝ)
  by_cases hc : T.cos φ = 0
  · have e := T.cos_err φ
    rw [hc, Rat.cast_zero, zero_sub, abs_neg] at e
    simp only [if_pos hc, tau_quarter]
    refine ⟨_, _, rfl, tq, by simp, ?_, ?_⟩
    · rw [neg_mul, sub_neg_eq_add]
      refine (abs_add_le _ _).trans ((add_le_add (le1 r0 e s3) (le2 q0 s1 qc)).trans ?_)
      norm_num1 at *
      linarith
    · rw [Rat.cast_zero, Real.sin_zero, Real.cos_zero, mul_zero, zero_sub, abs_neg]
      refine (le1 q0 e (by simp)).trans ?_
      norm_num1 at *
      linarith
  by_cases hs : T.sin φ = 0
  · have e := T.sin_err φ
    rw [hs, Rat.cast_zero, zero_sub, abs_neg] at e
    simp only [if_neg hc, if_pos hs, tau_quarter]
    refine ⟨_, _, rfl, by simp, tq, ?_, ?_⟩
    · rw [Rat.cast_zero, Real.sin_zero, Real.cos_zero, mul_zero, zero_sub, neg_mul, neg_neg]
      refine (le1 q0 e (by simp)).trans ?_
      norm_num1 at *
      linarith
    · refine (abs_sub _ _).trans ((add_le_add (le1 r0 e s3) (le2 q0 s2 qc)).trans ?_)
      norm_num1 at *
      linarith
  have cn := rat_cos_ne φ
  have sn : Real.sin φ ≠ 0 := rat_sin_ne (by rintro rfl; exact hs h0)
  have te := T.tan_err φ
  have tt : Real.cos φ * Real.tan φ = Real.sin φ := by
    rw [Real.tan_eq_sin_div_cos]
    field_simp
  have tan0 : Real.tan φ ≠ 0 := by
    intro h
    rw [h, mul_zero] at tt
    exact sn tt.symm
  have tan1 : 9 / 10 * |Real.tan φ| ≤ |(T.tan φ : ℝ)| := by
    have := abs_sub_abs_le_abs_sub (Real.tan φ) (T.tan φ : ℝ)
    rw [abs_sub_comm] at this
    have := abs_nonneg (Real.tan φ)
    norm_num1 at *
    linarith
  have tanR : (T.tan φ : ℝ) ≠ 0 := by
    intro h
    rw [h, abs_zero] at tan1
    have := abs_pos.2 tan0
    linarith
  have tanQ : T.tan φ ≠ 0 := by exact_mod_cast tanR
  have rxQ : rx doubles R a ≠ 0 := by
    intro h
    rw [h, Rat.cast_zero, zero_sub, abs_neg, abs_of_pos r0] at hx
    norm_num1 at *
    linarith
  have hP := ratio_near r0 q0 hx hy
  set ρ := roundDouble (ry doubles R a / rx doubles R a) with hρ
  have d1 : div doubles (ry doubles R a) (rx doubles R a) = .ok ρ := if_neg rxQ
  have d2 : div doubles ρ (T.tan φ) = .ok (roundDouble (ρ / T.tan φ)) := if_neg tanQ
  simp only [if_neg hc, if_neg hs, d1, d2, bind, Except.bind, pure, Except.pure]
  refine ⟨_, _, rfl, atan_bound N _, atan_bound N _, ?_, ?_⟩
  · have hA : |r * Real.cos φ| ≤ r := by
      rw [abs_mul, abs_of_pos r0]
      exact mul_le_of_le_one_right r0.le s2
    have hBq : |-(q * Real.sin φ)| ≤ q := by
      rw [abs_neg, abs_mul, abs_of_pos q0]
      exact mul_le_of_le_one_right q0.le s1
    have k := scaled_near (A := r * Real.cos φ) (B := -(q * Real.sin φ)) (m := -(Real.cos φ * T.tan φ)) (c := -Real.sin φ) (y := -ρ * T.tan φ) r0 q0 hA hP
      (by rwa [abs_neg]) (by
        rw [neg_sub_neg, abs_sub_comm, ← tt, ← mul_sub, abs_mul]
        refine (mul_le_mul_of_nonneg_left te (abs_nonneg _)).trans ?_
        rw [← mul_div_assoc, ← abs_mul, tt]
        norm_num1 at *
        linarith) (by push_cast; ring) (by ring)
    refine (crit_atan k (N.err _)).trans ?_
    norm_num1 at *
    linarith
  · have hA : |r * Real.sin φ| ≤ r := by
      rw [abs_mul, abs_of_pos r0]
      exact mul_le_of_le_one_right r0.le s1
    have hBq : |q * Real.cos φ| ≤ q := by
      rw [abs_mul, abs_of_pos q0]
      exact mul_le_of_le_one_right q0.le s2
    have k := scaled_near (A := r * Real.sin φ) (B := q * Real.cos φ) (m := Real.sin φ / T.tan φ) (c := Real.cos φ) (y := ρ / T.tan φ) r0 q0 hA hP
      s2 (by
        have e : Real.sin φ / (T.tan φ : ℝ) - Real.cos φ = Real.cos φ * ((Real.tan φ - T.tan φ) / T.tan φ) := by
          rw [← tt]
          field_simp
        rw [e, abs_mul, abs_div]
        refine (mul_le_of_le_one_left (by positivity) s2).trans ?_
        rw [div_le_iff₀ (abs_pos.2 tanR), abs_sub_comm]
        have := abs_nonneg (T.tan φ : ℝ)
        norm_num1 at *
        linarith) (by push_cast; field_simp) rfl
    refine (crit_atan k (N.err _)).trans ?_
    norm_num1 at *
    linarith

/-- one more angle: turned by the direction of the axis itself -/
theorem crit_turn {r q c s c' s' u v e : ℝ} (r0 : 0 < r) (q0 : 0 < q) (hc : |c' - c| ≤ e) (hs : |s' - s| ≤ e) (hu : |u| ≤ 1) (hv : |v| ≤ 1) {m : ℝ}
    (h : |r * c' * u - q * s' * v| ≤ m) : |r * c * u - q * s * v| ≤ m + (r + q) * e := by
  have e1 : r * c * u - q * s * v = (r * c' * u - q * s' * v) - (r * (c' - c) * u - q * (s' - s) * v) := by ring
  rw [e1]
  refine (abs_sub _ _).trans (add_le_add h ((abs_sub _ _).trans ?_))
  rw [abs_mul, abs_mul, abs_mul, abs_mul, abs_of_pos r0, abs_of_pos q0, add_mul]
  have h1 := abs_nonneg (c' - c)
  have h2 := abs_nonneg (s' - s)
  exact add_le_add ((mul_le_of_le_one_right (by positivity) hu).trans (by gcongr)) ((mul_le_of_le_one_right (by positivity) hv).trans (by gcongr))

/-- no computed coordinate is much larger than those the code compares -/
theorem side_max {G : ℚ → ℝ} {c A B s0 S θ e1 e2 ε K : ℝ} {w ang th : ℚ} {j : ℤ} (hG : ∀ p : ℚ, 0 ≤ p → p ≤ 1 → |G p - wave c A B (s0 + w * p)| ≤ e1)
    (hS : ∀ x, |wave c A B (s0 + x) - wave c A B (S + x)| ≤ e2) (hθ : θ = S + j * (2 * Real.pi))
    (hc : |A * Real.sin ang - B * Real.cos ang| ≤ ε) (hK : |A| + |B| ≤ K) (ha : |(ang : ℝ)| ≤ 2) (hth : |(th : ℝ) * Real.pi / 180 - θ| ≤ 1 / 2 ^ 46)
    (h1 : -1 / 10 ≤ θ) (h2 : θ ≤ 6.3) (w1 : 1 / 2 ^ 60 ≤ |(w : ℝ)|) (w2 : |(w : ℝ)| ≤ 6.3) {p : ℚ} (p0 : 0 ≤ p) (p1 : p ≤ 1) :
    ∃ u : ℚ, (u = 0 ∨ u = 1 ∨ u ∈ extremePositions doubles th (asDegrees doubles w) ang) ∧ G p ≤ G u + (2 * e1 + 2 * e2 + 4 * ε + K * (1 / 2 ^ 41)) := by
  have w0 : (w : ℝ) ≠ 0 := by
    intro e
    rw [e, abs_zero] at w1
    norm_num1 at w1
  obtain ⟨u, u0, u1, hu, hp⟩ := wave_max_found (c := c) hc w0 ha h1 h2 w2 (v := fun k => (angleInv doubles th (asDegrees doubles w) ang k : ℝ))
    (fun k k1 k2 => position_near ha hth h1 h2 w1 w2 k1 k2) (t := p) (by exact_mod_cast p0) (by exact_mod_cast p1)
  have hfin : ∀ v : ℚ, (v : ℝ) = u → G p ≤ G v + (2 * e1 + 2 * e2 + 4 * ε + K * (1 / 2 ^ 41)) := by
    intro v hv
    have v0 : 0 ≤ v := by exact_mod_cast hv ▸ u0
    have v1 : v ≤ 1 := by exact_mod_cast hv ▸ u1
    have g1 := (abs_le.1 (hG p p0 p1)).2
    have g2 := (abs_le.1 (hG v v0 v1)).1
    have g3 := (abs_le.1 (hS (w * p))).2
    have g4 := (abs_le.1 (hS (w * v))).1
    have t1 : wave c A B (θ + w * p) = wave c A B (S + w * p) := by
      rw [hθ, add_right_comm, Arc.wave_turn]
    have t2 : wave c A B (θ + w * v) = wave c A B (S + w * v) := by
      rw [hθ, add_right_comm, Arc.wave_turn]
    rw [← hv, t1, t2] at hu
    have g5 : (|A| + |B|) * (1 / 2 ^ 41) ≤ K * (1 / 2 ^ 41) := by gcongr
    linarith
  rcases hp with rfl | rfl | ⟨k, k1, k2, rfl⟩
  · exact ⟨0, Or.inl rfl, hfin 0 (by simp)⟩
  · exact ⟨1, Or.inr (Or.inl rfl), hfin 1 (by simp)⟩
  · refine ⟨_, Or.inr (Or.inr ?_), hfin _ rfl⟩
    unfold extremePositions
    rw [List.mem_filter]
    refine ⟨List.mem_map.2 ⟨k, ?_, rfl⟩, ?_⟩
    · simp only [List.mem_cons, List.not_mem_nil, or_false]
      omega
    · rw [Bool.and_eq_true, decide_eq_true_eq, decide_eq_true_eq]
      exact ⟨by exact_mod_cast u0, by exact_mod_cast u1⟩

/-- one side and the opposite one -/
theorem sides {g : ℚ → ℚ} {c A B s0 S θ e1 e2 ε K : ℝ} {w ang th : ℚ} {j : ℤ}
    (hG : ∀ p : ℚ, 0 ≤ p → p ≤ 1 → |(g p : ℝ) - wave c A B (s0 + w * p)| ≤ e1)
    (hS : ∀ x, |wave c A B (s0 + x) - wave c A B (S + x)| ≤ e2) (hθ : θ = S + j * (2 * Real.pi))
    (hc : |A * Real.sin ang - B * Real.cos ang| ≤ ε) (hK : |A| + |B| ≤ K) (ha : |(ang : ℝ)| ≤ 2) (hth : |(th : ℝ) * Real.pi / 180 - θ| ≤ 1 / 2 ^ 46)
    (h1 : -1 / 10 ≤ θ) (h2 : θ ≤ 6.3) (w1 : 1 / 2 ^ 60 ≤ |(w : ℝ)|) (w2 : |(w : ℝ)| ≤ 6.3) {lo hi : ℚ}
    (hlo : lo = Seg.minOf (g 0) (g 1 :: (extremePositions doubles th (asDegrees doubles w) ang).map g))
    (hhi : hi = Seg.maxOf (g 0) (g 1 :: (extremePositions doubles th (asDegrees doubles w) ang).map g)) :
    (∀ p : ℚ, 0 ≤ p → p ≤ 1 → (lo : ℝ) - (2 * e1 + 2 * e2 + 4 * ε + K * (1 / 2 ^ 41)) ≤ g p ∧
      (g p : ℝ) ≤ hi + (2 * e1 + 2 * e2 + 4 * ε + K * (1 / 2 ^ 41))) ∧
      (∃ p : ℚ, 0 ≤ p ∧ p ≤ 1 ∧ g p = lo) ∧ ∃ p : ℚ, 0 ≤ p ∧ p ≤ 1 ∧ g p = hi := by
  set l := g 1 :: (extremePositions doubles th (asDegrees doubles w) ang).map g with hl
  have mem : ∀ u : ℚ, (u = 0 ∨ u = 1 ∨ u ∈ extremePositions doubles th (asDegrees doubles w) ang) → g u ∈ g 0 :: l := by
    rintro u (rfl | rfl | hu)
    · simp
    · simp [hl]
    · rw [hl]
      exact List.mem_cons_of_mem _ (List.mem_cons_of_mem _ (List.mem_map.2 ⟨u, hu, rfl⟩))
  have back : ∀ y, y ∈ g 0 :: l → ∃ p : ℚ, 0 ≤ p ∧ p ≤ 1 ∧ g p = y := by
    intro y hy
    rw [hl, List.mem_cons, List.mem_cons, List.mem_map] at hy
    rcases hy with rfl | rfl | ⟨u, hu, rfl⟩
    · exact ⟨0, le_rfl, zero_le_one, rfl⟩
    · exact ⟨1, zero_le_one, le_rfl, rfl⟩
    · unfold extremePositions at hu
      have := (List.mem_filter.1 hu).2
      rw [Bool.and_eq_true, decide_eq_true_eq, decide_eq_true_eq] at this
      exact ⟨u, this.1, this.2, rfl⟩
  refine ⟨fun p p0 p1 => ⟨?_, ?_⟩, ?_, ?_⟩
  · obtain ⟨u, hu, hle⟩ := side_max (G := fun p => -(g p : ℝ)) (c := -c) (A := -A) (B := -B) (s0 := s0) (S := S) (e1 := e1) (e2 := e2) (ε := ε) (K := K)
      (fun p p0 p1 => by
        rw [Arc.wave_neg, neg_sub_neg, abs_sub_comm]
        exact hG p p0 p1) (fun x => by
        rw [Arc.wave_neg, Arc.wave_neg, neg_sub_neg, abs_sub_comm]
        exact hS x) hθ (by
        rw [neg_mul, neg_mul, neg_sub_neg, abs_sub_comm]
        exact hc) (by rw [abs_neg, abs_neg]; exact hK) ha hth h1 h2 w1 w2 p0 p1
    have hm : lo ≤ g u := by rw [hlo]; exact (minOf_le _ _ _ (mem u hu)).1
    have : (lo : ℝ) ≤ g u := by exact_mod_cast hm
    linarith
  · obtain ⟨u, hu, hle⟩ := side_max (G := fun p => (g p : ℝ)) hG hS hθ hc hK ha hth h1 h2 w1 w2 p0 p1
    have hm : g u ≤ hi := by rw [hhi]; exact (minOf_le _ _ _ (mem u hu)).2
    have : (g u : ℝ) ≤ hi := by exact_mod_cast hm
    linarith
  · exact back _ (hlo ▸ (minOf_mem (g 0) l).1)
  · exact back _ (hhi ▸ (minOf_mem (g 0) l).2)

theorem wave_unit (c A B x y z : ℝ) {K : ℝ} (hK : |A| + |B| ≤ K) : |wave c A B (x + z) - wave c A B (y + z)| ≤ K * ‖unit y - unit x‖ := by
  have e : wave c A B (x + z) - wave c A B (y + z) = A * (Real.cos (x + z) - Real.cos (y + z)) + B * (Real.sin (x + z) - Real.sin (y + z)) := by
    unfold Arc.wave
    ring
  have h1 := Complex.abs_re_le_norm (unit (x + z) - unit (y + z))
  have h2 := Complex.abs_im_le_norm (unit (x + z) - unit (y + z))
  have h3 := unit_add_le x z y z
  rw [sub_self, norm_zero, add_zero, norm_sub_rev (unit x)] at h3
  have h1' : |Real.cos (x + z) - Real.cos (y + z)| ≤ ‖unit y - unit x‖ := h1.trans h3
  have h2' : |Real.sin (x + z) - Real.sin (y + z)| ≤ ‖unit y - unit x‖ := h2.trans h3
  rw [e]
  refine (abs_add_le _ _).trans ?_
  rw [abs_mul, abs_mul]
  refine le_trans ?_ (mul_le_mul_of_nonneg_right hK (norm_nonneg _))
  rw [add_mul]
  gcongr

end ArcBoxFloat

theorem w_sixty : (1 : ℝ) / 2 ^ 536 ≤ 1 / 2 ^ 70 := one_div_le_one_div_of_le (by positivity) (pow_le_pow_right₀ (by norm_num) (by norm_num))

open ArcBoxFloat in
/-- **C165**: the box of an arc computed with floats. If the two ends are within `D` of the ellipse, all the points the arc computes are in its box, up to
`2 D + C³ N / 2⁴¹`, where `N` is the size of the arc and `C` the quotient of that and the smaller radius; and each side of the box goes through one of them. -/
theorem C165_box (T : FloatTrig) (hT : T.sin 0 = 0) (A : FloatAtan) (R : FloatRoot) (isAngle : Bool) {a : ArcData ℚ} (h : DoubleArc a) {φ : ℝ}
    (hφ : Direction a.center a.prx φ) {start stop : Pt ℚ} (hs : DoublePt start) {s0 l C D N : ℝ} (hl : 0 < l)
    (hx : (start.x : ℝ) - a.center.x = l * ((ellipsePoint a.center (dist a.center a.prx) (dist a.center a.pry) φ s0).1 - a.center.x))
    (hy : (start.y : ℝ) - a.center.y = l * ((ellipsePoint a.center (dist a.center a.prx) (dist a.center a.pry) φ s0).2 - a.center.y))
    (hrx : 1 / 2 ^ 400 ≤ dist a.center a.prx) (hry : 1 / 2 ^ 400 ≤ dist a.center a.pry)
    (hN : N = |(a.center.x : ℝ)| + |(a.center.y : ℝ)| + dist a.center a.prx + dist a.center a.pry)
    (hCx : N ≤ C * dist a.center a.prx) (hCy : N ≤ C * dist a.center a.pry)
    (hw : 1 / 2 ^ 60 ≤ |a.sweep|) (hw' : |a.sweep| ≤ 63 / 10) (hz : sweepIsZero doubles isAngle a.sweep = false)
    (hsx : |(start.x : ℝ) - (ellipsePoint a.center (dist a.center a.prx) (dist a.center a.pry) φ s0).1| ≤ D)
    (hsy : |(start.y : ℝ) - (ellipsePoint a.center (dist a.center a.prx) (dist a.center a.pry) φ s0).2| ≤ D)
    (hex : |(stop.x : ℝ) - (ellipsePoint a.center (dist a.center a.prx) (dist a.center a.pry) φ (s0 + a.sweep)).1| ≤ D)
    (hey : |(stop.y : ℝ) - (ellipsePoint a.center (dist a.center a.prx) (dist a.center a.pry) φ (s0 + a.sweep)).2| ≤ D) :
    ∃ (n : ℕ) (b : Seg.BBox ℚ), (∀ fuel, n < fuel → arcBox doubles fuel T A R isAngle start stop a = .ok b) ∧
      (∀ p : ℚ, 0 ≤ p → p ≤ 1 →
        (b.xmin - (2 * D + C ^ 3 * N / 2 ^ 41) ≤ (arcPoint doubles T R isAngle start stop a p).x ∧
          ((arcPoint doubles T R isAngle start stop a p).x : ℝ) ≤ b.xmax + (2 * D + C ^ 3 * N / 2 ^ 41)) ∧
        (b.ymin - (2 * D + C ^ 3 * N / 2 ^ 41) ≤ (arcPoint doubles T R isAngle start stop a p).y ∧
          ((arcPoint doubles T R isAngle start stop a p).y : ℝ) ≤ b.ymax + (2 * D + C ^ 3 * N / 2 ^ 41))) ∧
      (∃ p : ℚ, 0 ≤ p ∧ p ≤ 1 ∧ (arcPoint doubles T R isAngle start stop a p).x = b.xmin) ∧
      (∃ p : ℚ, 0 ≤ p ∧ p ≤ 1 ∧ (arcPoint doubles T R isAngle start stop a p).x = b.xmax) ∧
      (∃ p : ℚ, 0 ≤ p ∧ p ≤ 1 ∧ (arcPoint doubles T R isAngle start stop a p).y = b.ymin) ∧
      ∃ p : ℚ, 0 ≤ p ∧ p ≤ 1 ∧ (arcPoint doubles T R isAngle start stop a p).y = b.ymax := by
  have q0 : (0 : ℝ) < 1 / 2 ^ 400 := by positivity
  have r0 : 0 < dist a.center a.prx := q0.trans_le hrx
  have t0 : 0 < dist a.center a.pry := q0.trans_le hry
  have hne : a.prx ≠ a.center := by
    intro e
    rw [e] at r0
    simp [dist] at r0
  have D0 : 0 ≤ D := (abs_nonneg _).trans hsx
  have cx := abs_nonneg (a.center.x : ℝ)
  have cy := abs_nonneg (a.center.y : ℝ)
  have hrq : dist a.center a.prx + dist a.center a.pry ≤ N := by linarith
  have C1 : 1 ≤ C := by
    have : 1 * dist a.center a.prx ≤ C * dist a.center a.prx := by linarith
    exact le_of_mul_le_mul_right this r0
  have C2 : 2 ≤ C := by
    rcases le_total (dist a.center a.prx) (dist a.center a.pry) with hh | hh
    · have : 2 * dist a.center a.prx ≤ C * dist a.center a.prx := by linarith
      exact le_of_mul_le_mul_right this r0
    · have : 2 * dist a.center a.pry ≤ C * dist a.center a.pry := by linarith
      exact le_of_mul_le_mul_right this t0
  have N0 : 0 ≤ N := by linarith
  have C8 : 8 * N ≤ C ^ 3 * N := by
    have : (2 : ℝ) ^ 3 ≤ C ^ 3 := by gcongr
    nlinarith
  have hw7 : |a.sweep| ≤ 7 := hw'.trans (by norm_num)
  have hzz : ¬(eq doubles start stop && sweepIsZero doubles isAngle a.sweep) = true := by rw [hz]; simp
  have wl : 1 / 2 ^ 60 ≤ |(a.sweep : ℝ)| := by
    have := (Rat.cast_le (K := ℝ)).2 hw
    push_cast at this
    exact this
  have wh : |(a.sweep : ℝ)| ≤ 6.3 := by
    have := (Rat.cast_le (K := ℝ)).2 hw'
    push_cast at this
    norm_num1 at *
    exact this
  obtain ⟨sn, sb⟩ : ‖unit (startT doubles T R a start) - unit s0‖ ≤ C ^ 3 * (730 / 2 ^ 53) ∧ |(startT doubles T R a start : ℝ)| ≤ 48 / 10 := by
    rcases le_total (dist a.center a.prx) (dist a.center a.pry) with hh | hh
    · exact startT_near T R h hne hφ hs hl hx hy hrx le_rfl hh hN.ge hCx
    · exact startT_near T R h hne hφ hs hl hx hy hry hh le_rfl hN.ge hCy
  obtain ⟨n, j, th, hth, k1, k2, k3⟩ := ArcBoxFloat.theta_near sb
  obtain ⟨x, y, hxy, bx, b_y, ex, ey⟩ := angles_found T hT A R r0 t0 (radius_err R h.1 h.2.1 hrx) (radius_err R h.1 h.2.2 hry)
  obtain ⟨n1, n2⟩ := angle_near T h.1 h.2.1 hne hφ
  have fol := fun {p : ℚ} (p0 : 0 < p) (p1 : p < 1) =>
    C151_follows T R isAngle (stop := stop) h hφ hs hl hx hy hrx hry (hN ▸ hCx) (hN ▸ hCy) hw7 p0 p1 hzz
  obtain ⟨at0, at1⟩ := C151_ends T R isAngle a start stop
  have at1 := at1 (by rw [hz]; simp)
  rw [← hN] at fol
  generalize hr : dist a.center a.prx = r at *
  generalize hq : dist a.center a.pry = q at *
  have s1 := Real.abs_sin_le_one φ
  have s2 := Real.abs_cos_le_one φ
  have wx : ∀ t, (ellipsePoint a.center r q φ t).1 = wave a.center.x (r * Real.cos φ) (-(q * Real.sin φ)) t := by
    intro t
    unfold ellipsePoint Arc.wave
    ring
  have wy : ∀ t, (ellipsePoint a.center r q φ t).2 = wave a.center.y (r * Real.sin φ) (q * Real.cos φ) t := by
    intro t
    unfold ellipsePoint Arc.wave
    ring
  have Kx : |r * Real.cos φ| + |-(q * Real.sin φ)| ≤ N := by
    rw [abs_neg, abs_mul, abs_mul, abs_of_pos r0, abs_of_pos t0]
    have := mul_le_of_le_one_right r0.le s2
    have := mul_le_of_le_one_right t0.le s1
    linarith
  have Ky : |r * Real.sin φ| + |q * Real.cos φ| ≤ N := by
    rw [abs_mul, abs_mul, abs_of_pos r0, abs_of_pos t0]
    have := mul_le_of_le_one_right r0.le s1
    have := mul_le_of_le_one_right t0.le s2
    linarith
  have E43 : 0 ≤ C ^ 3 * N / 2 ^ 43 := by positivity
  have gx : ∀ p : ℚ, 0 ≤ p → p ≤ 1 →
      |((arcPoint doubles T R isAngle start stop a p).x : ℝ) - wave a.center.x (r * Real.cos φ) (-(q * Real.sin φ)) (s0 + a.sweep * p)| ≤
        D + C ^ 3 * N / 2 ^ 43 := by
    intro p p0 p1
    rw [← wx]
    rcases p0.eq_or_lt with rfl | p0
    · rw [at0, Rat.cast_zero, mul_zero, add_zero]
      linarith
    rcases p1.eq_or_lt with rfl | p1
    · rw [at1, Rat.cast_one, mul_one]
      linarith
    · exact (fol p0 p1).1.trans (by linarith)
  have gy : ∀ p : ℚ, 0 ≤ p → p ≤ 1 →
      |((arcPoint doubles T R isAngle start stop a p).y : ℝ) - wave a.center.y (r * Real.sin φ) (q * Real.cos φ) (s0 + a.sweep * p)| ≤
        D + C ^ 3 * N / 2 ^ 43 := by
    intro p p0 p1
    rw [← wy]
    rcases p0.eq_or_lt with rfl | p0
    · rw [at0, Rat.cast_zero, mul_zero, add_zero]
      linarith
    rcases p1.eq_or_lt with rfl | p1
    · rw [at1, Rat.cast_one, mul_one]
      linarith
    · exact (fol p0 p1).2.trans (by linarith)
  have hSS : ∀ c' A' B' z : ℝ, |A'| + |B'| ≤ N →
      |wave c' A' B' (s0 + z) - wave c' A' B' (startT doubles T R a start + z)| ≤ N * (C ^ 3 * (730 / 2 ^ 53)) := by
    intro c' A' B' z hK
    refine (wave_unit c' A' B' _ _ z hK).trans ?_
    gcongr
  have ex' : |r * Real.cos φ * Real.sin x - -(q * Real.sin φ) * Real.cos x| ≤ (r + q) * (52 / 2 ^ 53) + (r + q) * (11 / 2 ^ 53) := by
    have k := crit_turn r0 t0 n1 n2 (Real.abs_sin_le_one x) (v := -Real.cos x) (by rw [abs_neg]; exact Real.abs_cos_le_one x) (by
      refine le_trans (le_of_eq ?_) ex
      congr 1
      unfold rotation
      ring)
    refine le_trans (le_of_eq ?_) k
    congr 1
    ring
  have ey' : |r * Real.sin φ * Real.sin y - q * Real.cos φ * Real.cos y| ≤ (r + q) * (52 / 2 ^ 53) + (r + q) * (11 / 2 ^ 53) :=
    crit_turn r0 t0 n2 n1 (Real.abs_sin_le_one y) (Real.abs_cos_le_one y) ey
  obtain ⟨X, xl, xh⟩ := sides (g := fun p => (arcPoint doubles T R isAngle start stop a p).x) (j := (j : ℤ)) gx (fun z => hSS _ _ _ z Kx) (by push_cast; rfl) ex' Kx bx
    k1 k2 k3 wl wh rfl rfl
  obtain ⟨Y, yl, yh⟩ := sides (g := fun p => (arcPoint doubles T R isAngle start stop a p).y) (j := (j : ℤ)) gy (fun z => hSS _ _ _ z Ky) (by push_cast; rfl) ey' Ky b_y
    k1 k2 k3 wl wh rfl rfl
  simp only [at0, at1] at X xl xh Y yl yh
  have room : 2 * (D + C ^ 3 * N / 2 ^ 43) + 2 * (N * (C ^ 3 * (730 / 2 ^ 53))) + 4 * ((r + q) * (52 / 2 ^ 53) + (r + q) * (11 / 2 ^ 53)) +
      N * (1 / 2 ^ 41) ≤ 2 * D + C ^ 3 * N / 2 ^ 41 := by
    have e : N * (C ^ 3 * (730 / 2 ^ 53)) = C ^ 3 * N * (730 / 2 ^ 53) := by ring
    rw [e]
    generalize C ^ 3 * N = Q at *
    norm_num1 at *
    linarith
  have hd : asDegrees doubles a.sweep ≠ 0 := by
    intro e
    have k := asDegrees_rad a.sweep
    rw [e, Rat.cast_zero, zero_mul, zero_div, zero_sub, abs_neg] at k
    have ws := w_sixty
    generalize (1 : ℝ) / 2 ^ 536 = W at *
    norm_num1 at *
    linarith
  refine ⟨n, ⟨_, _, _, _⟩, fun fuel hf => ?_, fun p p0 p1 => ⟨⟨?_, ?_⟩, ⟨?_, ?_⟩⟩, xl, xh, yl, yh⟩
  · unfold arcBox arcTheta arcDelta
    simp only [hz, hxy, hth fuel hf, if_neg hd, bind, Except.bind, Bool.false_eq_true, if_false]
    rfl
  · exact le_trans (sub_le_sub_left room _) (X p p0 p1).1
  · exact (X p p0 p1).2.trans (add_le_add le_rfl room)
  · exact le_trans (sub_le_sub_left room _) (Y p p0 p1).1
  · exact (Y p p0 p1).2.trans (add_le_add le_rfl room)

/-- the hypotheses are met: a quarter of the circle around (0, 0), whose sweep is the double nearest to it -/
example : ∃ (a : ArcData ℚ) (start stop : Pt ℚ) (φ s0 l C D N : ℝ), DoubleArc a ∧ Direction a.center a.prx φ ∧ DoublePt start ∧ 0 < l ∧
    (start.x : ℝ) - a.center.x = l * ((ellipsePoint a.center (dist a.center a.prx) (dist a.center a.pry) φ s0).1 - a.center.x) ∧
    (start.y : ℝ) - a.center.y = l * ((ellipsePoint a.center (dist a.center a.prx) (dist a.center a.pry) φ s0).2 - a.center.y) ∧
    1 / 2 ^ 400 ≤ dist a.center a.prx ∧ 1 / 2 ^ 400 ≤ dist a.center a.pry ∧
    N = |(a.center.x : ℝ)| + |(a.center.y : ℝ)| + dist a.center a.prx + dist a.center a.pry ∧
    N ≤ C * dist a.center a.prx ∧ N ≤ C * dist a.center a.pry ∧
    1 / 2 ^ 60 ≤ |a.sweep| ∧ |a.sweep| ≤ 63 / 10 ∧ sweepIsZero doubles false a.sweep = false ∧ D < 1 / 2 ^ 52 ∧
    |(start.x : ℝ) - (ellipsePoint a.center (dist a.center a.prx) (dist a.center a.pry) φ s0).1| ≤ D ∧
    |(start.y : ℝ) - (ellipsePoint a.center (dist a.center a.prx) (dist a.center a.pry) φ s0).2| ≤ D ∧
    |(stop.x : ℝ) - (ellipsePoint a.center (dist a.center a.prx) (dist a.center a.pry) φ (s0 + a.sweep)).1| ≤ D ∧
    |(stop.y : ℝ) - (ellipsePoint a.center (dist a.center a.prx) (dist a.center a.pry) φ (s0 + a.sweep)).2| ≤ D := by
  have d : ∀ n : ℤ, |n| ≤ 2 → Spec.IsDouble n := fun n h => isDouble_int (h.trans (by norm_num))
  have d0 : Spec.IsDouble 0 := d 0 (by norm_num)
  have d1 : Spec.IsDouble 1 := d 1 (by norm_num)
  have hx : dist ⟨0, 0⟩ ⟨1, 0⟩ = 1 := by norm_num [dist]
  have hy : dist ⟨0, 0⟩ ⟨0, 1⟩ = 1 := by norm_num [dist]
  have h4 : (1 : ℝ) / 2 ^ 400 ≤ 1 := by
    rw [div_le_one (by positivity)]
    exact one_le_pow₀ (by norm_num)
  have qc := ArcBoxFloat.quarter_cos
  have qs : |Real.sin ((tau / 4 : ℚ) : ℝ) - Real.sin (Real.pi / 2)| ≤ 1 / 2 ^ 53 := by
    have h := (Complex.abs_im_le_norm (unit ((tau / 4 : ℚ) : ℝ) - unit (Real.pi / 2))).trans (unit_lip _ _)
    have e : (unit ((tau / 4 : ℚ) : ℝ) - unit (Real.pi / 2)).im = Real.sin ((tau / 4 : ℚ) : ℝ) - Real.sin (Real.pi / 2) := by simp [unit]
    rw [e] at h
    refine h.trans ?_
    have tn := tau_near
    have e2 : ((tau / 4 : ℚ) : ℝ) - Real.pi / 2 = (((tau : ℚ) : ℝ) - 2 * Real.pi) * (1 / 4) := by
      push_cast
      ring
    rw [e2, abs_mul, abs_of_pos (show (0 : ℝ) < 1 / 4 by norm_num)]
    norm_num1 at *
    linarith
  rw [Real.sin_pi_div_two] at qs
  refine ⟨⟨⟨0, 0⟩, ⟨1, 0⟩, ⟨0, 1⟩, tau / 4⟩, ⟨1, 0⟩, ⟨0, 1⟩, 0, 0, 1, 2, 1 / 2 ^ 53, 2, ⟨⟨d0, d0⟩, ⟨d1, d0⟩, ⟨d0, d1⟩⟩, ?_, ⟨d1, d0⟩, one_pos, ?_, ?_, ?_, ?_, ?_, ?_, ?_, ?_,
    ?_, ?_, ?_, ?_, ?_, ?_, ?_⟩
  · constructor <;> simp [hx]
  · simp [hx, hy, ellipsePoint]
  · simp [hx, hy, ellipsePoint]
  · rw [hx]
    exact h4
  · rw [hy]
    exact h4
  · norm_num [hx, hy]
  · norm_num [hx, hy]
  · norm_num [hx, hy]
  · norm_num [tau, abs_of_pos]
  · norm_num [tau, abs_of_pos]
  · decide +kernel
  · norm_num
  · simp [hx, hy, ellipsePoint]
  · simp [hx, hy, ellipsePoint]
  · rw [hx, hy]
    simpa [ellipsePoint] using qc
  · rw [hx, hy, abs_sub_comm]
    simpa [ellipsePoint] using qs

end Svgio.Props
