import Verif.Model.FloatAngle
import Verif.Props.FloatArc
import Verif.Props.FloatError
import Verif.Props.ColorMeasureFloat

/-! C155: angles with floats. -/

namespace Svgio.Props
open Spec Flt

theorem tau_range : (628318 : ℚ) / 100000 < tau ∧ tau < 628319 / 100000 := by constructor <;> norm_num [tau]

theorem tau_double : IsDouble tau := ⟨884279719003555, -47, by norm_num [tau, zpow_neg], by norm_num, by norm_num⟩

section
variable (F : FloatRounding)

theorem unit_back {c d : ℚ} (h1 : 1 ≤ c) (h2 : c ≤ 400) :
    |F.fl (F.fl (F.fl (F.fl (tau * d) / c) * c) / tau) - d| ≤ |d| * (5 / 2 ^ 53) + 128 * (1 / 2 ^ 1074) := by
  obtain ⟨t1, t2⟩ := tau_range
  generalize tau = τ at *
  obtain ⟨η, e1, -, h0, hη⟩ := eta
  have hfl := F.err
  rw [e1] at hfl ⊢
  have t0 : 0 < τ := by linarith
  have c0 : 0 < c := by linarith
  generalize ha : F.fl (τ * d) = a
  generalize hb : F.fl (a / c) = b
  generalize he : F.fl (b * c) = e
  generalize hg : F.fl (e / τ) = g
  have k1 := hfl (τ * d)
  have k2 := hfl (a / c)
  have k3 := hfl (b * c)
  have k4 := hfl (e / τ)
  rw [ha] at k1
  rw [hb] at k2
  rw [he] at k3
  rw [hg] at k4
  rw [abs_mul, abs_of_pos t0] at k1
  have m2 : |b * c - a| ≤ |a| / 2 ^ 53 + c * η := by
    have : b * c - a = (b - a / c) * c := by field_simp
    rw [this, abs_mul, abs_of_pos c0]
    rw [abs_div, abs_of_pos c0] at k2
    calc |b - a / c| * c ≤ (|a| / c / 2 ^ 53 + η) * c := by gcongr
      _ = _ := by field_simp
  have m4 : |τ * g - e| ≤ |e| / 2 ^ 53 + τ * η := by
    have : τ * g - e = (g - e / τ) * τ := by field_simp
    rw [this, abs_mul, abs_of_pos t0]
    rw [abs_div, abs_of_pos t0] at k4
    calc |g - e / τ| * τ ≤ (|e| / τ / 2 ^ 53 + η) * τ := by gcongr
      _ = _ := by field_simp
  have cη : c * η ≤ 400 * η := by gcongr
  have tη : τ * η ≤ 7 * η := by gcongr; linarith
  have b1 : |a| ≤ τ * |d| + |a - τ * d| := by
    have := abs_add_le (a - τ * d) (τ * d)
    rw [sub_add_cancel, abs_mul, abs_of_pos t0] at this
    linarith
  have b2 : |b * c| ≤ |a| + |b * c - a| := by
    have := abs_add_le (b * c - a) a
    rw [sub_add_cancel] at this
    linarith
  have b3 : |e| ≤ |b * c| + |e - b * c| := by
    have := abs_add_le (e - b * c) (b * c)
    rw [sub_add_cancel] at this
    linarith
  have fin : |τ * g - τ * d| ≤ |τ * g - e| + |e - b * c| + |b * c - a| + |a - τ * d| := by
    have s1 := abs_add_le (τ * g - e) (e - b * c)
    have s2 := abs_add_le (τ * g - e + (e - b * c)) (b * c - a)
    have s3 := abs_add_le (τ * g - e + (e - b * c) + (b * c - a)) (a - τ * d)
    rw [show τ * g - e + (e - b * c) + (b * c - a) + (a - τ * d) = τ * g - τ * d by ring] at s3
    linarith
  rw [← mul_sub, abs_mul, abs_of_pos t0] at fin
  have d0 : 0 ≤ τ * |d| := by positivity
  have key : τ * |g - d| ≤ τ * |d| * (5 / 2 ^ 53) + 450 * η := by
    norm_num1 at *
    linarith
  have e5 : τ * (|d| * (5 / 2 ^ 53) + 128 * η) = τ * |d| * (5 / 2 ^ 53) + 128 * (τ * η) := by ring
  refine le_of_mul_le_mul_left ?_ t0
  rw [e5]
  have : 6 * η ≤ τ * η := by gcongr; linarith
  linarith

/-- **C155**: an angle given in degrees, gradians or turns gives these back, up to five roundings -/
theorem C155_back (d : ℚ) :
    |asDegrees F (degrees F d) - d| ≤ |d| * (5 / 2 ^ 53) + 128 * (1 / 2 ^ 1074) ∧
      |asGradians F (gradians F d) - d| ≤ |d| * (5 / 2 ^ 53) + 128 * (1 / 2 ^ 1074) ∧
      |asTurns F (turns F d) - d| ≤ |d| * (5 / 2 ^ 53) + 128 * (1 / 2 ^ 1074) := by
  refine ⟨unit_back F (by norm_num) (by norm_num), unit_back F (by norm_num) (by norm_num), ?_⟩
  obtain ⟨t1, t2⟩ := tau_range
  unfold asTurns turns
  generalize tau = τ at *
  obtain ⟨η, e1, -, h0, hη⟩ := eta
  have hfl := F.err
  rw [e1] at hfl ⊢
  have t0 : 0 < τ := by linarith
  generalize ha : F.fl (τ * d) = a
  generalize hg : F.fl (a / τ) = g
  have k1 := hfl (τ * d)
  have k4 := hfl (a / τ)
  rw [ha, abs_mul, abs_of_pos t0] at k1
  rw [hg, abs_div, abs_of_pos t0] at k4
  have m4 : |τ * g - a| ≤ |a| / 2 ^ 53 + τ * η := by
    have : τ * g - a = (g - a / τ) * τ := by field_simp
    rw [this, abs_mul, abs_of_pos t0]
    calc |g - a / τ| * τ ≤ (|a| / τ / 2 ^ 53 + η) * τ := by gcongr
      _ = _ := by field_simp
  have tη : 6 * η ≤ τ * η := by gcongr; linarith
  have b1 : |a| ≤ τ * |d| + |a - τ * d| := by
    have := abs_add_le (a - τ * d) (τ * d)
    rw [sub_add_cancel, abs_mul, abs_of_pos t0] at this
    linarith
  have fin := abs_add_le (τ * g - a) (a - τ * d)
  rw [sub_add_sub_cancel, ← mul_sub, abs_mul, abs_of_pos t0] at fin
  have d0 : 0 ≤ τ * |d| := by positivity
  refine le_of_mul_le_mul_left ?_ t0
  rw [show τ * (|d| * (5 / 2 ^ 53) + 128 * η) = τ * |d| * (5 / 2 ^ 53) + 128 * (τ * η) by ring]
  norm_num1 at *
  linarith

end

theorem mod_range (a : ℚ) : 0 ≤ Angle.pyMod a tau ∧ Angle.pyMod a tau < tau := by
  have t0 : 0 < tau := by linarith [tau_range.1]
  have f1 := Int.floor_le (a / tau)
  have f2 := Int.lt_floor_add_one (a / tau)
  rw [le_div_iff₀ t0] at f1
  rw [div_lt_iff₀ t0] at f2
  unfold Angle.pyMod
  constructor <;> linarith

/-- **C155**: `normalized()` with floats is in [0, tau] and differs from the angle by full turns, up to one rounding; it is exact for angles that are
not negative. `tau` is the double. -/
theorem C155_normalized (a : ℚ) :
    0 ≤ normalized doubles a ∧ normalized doubles a ≤ tau ∧ (∃ n : ℤ, |normalized doubles a - (a + n * tau)| ≤ 1 / 2 ^ 50) ∧
      (0 ≤ a → normalized doubles a < tau ∧ ∃ n : ℤ, normalized doubles a = a + n * tau) := by
  unfold normalized pyMod
  by_cases h : 0 ≤ a
  · rw [if_pos h]
    have e : Angle.pyMod a tau = a + ((-⌊a / tau⌋ : ℤ) : ℚ) * tau := by
      unfold Angle.pyMod
      push_cast
      ring
    refine ⟨(mod_range a).1, (mod_range a).2.le, ⟨-⌊a / tau⌋, ?_⟩, fun _ => ⟨(mod_range a).2, _, e⟩⟩
    rw [e]
    exact (abs_nonpos_iff.2 (sub_self _)).trans (by positivity)
  · rw [if_neg h]
    obtain ⟨r0, r1⟩ := mod_range (-a)
    have e : tau - Angle.pyMod (-a) tau = a + ((1 + ⌊-a / tau⌋ : ℤ) : ℚ) * tau := by
      unfold Angle.pyMod
      push_cast
      ring
    simp only
    by_cases hr : Angle.pyMod (-a) tau = 0
    · rw [if_pos hr]
      refine ⟨le_rfl, by linarith [tau_range.1], ⟨⌊-a / tau⌋, ?_⟩, fun h' => absurd h' h⟩
      rw [hr, sub_zero] at e
      push_cast at e
      rw [show (0 : ℚ) - (a + ⌊-a / tau⌋ * tau) = 0 by linarith, abs_zero]
      positivity
    · rw [if_neg hr]
      have n1 : (0 : ℚ) ≤ tau - Angle.pyMod (-a) tau := by linarith
      refine ⟨roundDouble_nonneg n1, ?_, ⟨1 + ⌊-a / tau⌋, ?_⟩, fun h' => absurd h' h⟩
      · have := roundDouble_mono (show tau - Angle.pyMod (-a) tau ≤ tau by linarith)
        rw [roundDouble_double tau_double] at this
        exact this
      · rw [← e]
        refine (doubles.err _).trans ?_
        rw [abs_of_nonneg n1]
        have := tiny
        have t2 := tau_range.2
        generalize (1 : ℚ) / 2 ^ 1074 = η at *
        norm_num1 at *
        linarith

theorem small_err {x : ℚ} (h : |x| ≤ 7) : |doubles.fl x - x| ≤ 1 / 2 ^ 50 := by
  refine (doubles.err _).trans ?_
  have := tiny
  generalize (1 : ℚ) / 2 ^ 1074 = η at *
  norm_num1 at *
  linarith

theorem limit_err : |doubles.fl (1 / 10 ^ 11) - 1 / 10 ^ 11| ≤ 1 / 2 ^ 80 := by
  refine (doubles.err _).trans ?_
  have := tiny
  rw [abs_of_pos (by norm_num)]
  generalize (1 : ℚ) / 2 ^ 1074 = η at *
  norm_num1 at *
  linarith

/-- **C155**: angles that are equal with floats differ by whole turns, up to 1e-11 and the roundings -/
theorem C155_equal {a b : ℚ} (h : angleEq doubles a b = true) : ∃ n : ℤ, |a - b - n * tau| ≤ 1 / 10 ^ 11 + 1 / 2 ^ 47 := by
  obtain ⟨a0, a1, ⟨n, hn⟩, -⟩ := C155_normalized a
  obtain ⟨b0, b1, ⟨m, hm⟩, -⟩ := C155_normalized b
  have h' : |doubles.fl (normalized doubles a - normalized doubles b)| ≤ doubles.fl (1 / 10 ^ 11) := by simpa [angleEq, normalized] using h
  have t := tau_range.2
  have e := small_err (x := normalized doubles a - normalized doubles b) (by rw [abs_le]; constructor <;> linarith)
  have l := limit_err
  refine ⟨m - n, ?_⟩
  push_cast
  rw [sub_mul]
  generalize normalized doubles a = A at *
  generalize normalized doubles b = B at *
  generalize doubles.fl (A - B) = D at *
  generalize doubles.fl (1 / 10 ^ 11) = L at *
  rw [abs_le] at *
  generalize (n : ℚ) * tau = N at *
  generalize (m : ℚ) * tau = M at *
  norm_num1 at *
  constructor <;> linarith

theorem eq_of_near {a b : ℚ} (h : |normalized doubles a - normalized doubles b| ≤ 99 / 10 ^ 13) : angleEq doubles a b = true := by
  have e := small_err (x := normalized doubles a - normalized doubles b) (h.trans (by norm_num))
  have l := limit_err
  have : |doubles.fl (normalized doubles a - normalized doubles b)| ≤ doubles.fl (1 / 10 ^ 11) := by
    generalize normalized doubles a = A at *
    generalize normalized doubles b = B at *
    generalize doubles.fl (A - B) = D at *
    generalize doubles.fl (1 / 10 ^ 11) = L at *
    rw [abs_le] at *
    norm_num1 at *
    constructor <;> linarith
  simpa [angleEq, normalized] using this

/-- **C155**: angles that differ by whole turns up to 9e-12 are equal with floats, if neither is just below a whole turn -/
theorem C155_close_partial {a b : ℚ} (n : ℤ) (h : |a - b - n * tau| ≤ 9 / 10 ^ 12)
    (ha : normalized doubles a ≤ tau - 1 / 10 ^ 11) (hb : normalized doubles b ≤ tau - 1 / 10 ^ 11) : angleEq doubles a b = true := by
  obtain ⟨a0, a1, ⟨k, hk⟩, -⟩ := C155_normalized a
  obtain ⟨b0, b1, ⟨m, hm⟩, -⟩ := C155_normalized b
  apply eq_of_near
  obtain ⟨t1, t2⟩ := tau_range
  have key : |normalized doubles a - normalized doubles b - ((n + k - m : ℤ) : ℚ) * tau| ≤ 9 / 10 ^ 12 + 1 / 2 ^ 49 := by
    push_cast
    rw [sub_mul, add_mul]
    generalize normalized doubles a = A at *
    generalize normalized doubles b = B at *
    rw [abs_le] at *
    norm_num1 at *
    constructor <;> linarith
  have z : n + k - m = 0 := by
    rcases lt_trichotomy (n + k - m) 0 with h1 | h1 | h1
    · exfalso
      have h2 : ((n + k - m : ℤ) : ℚ) ≤ -1 := by exact_mod_cast Int.le_sub_one_of_lt h1
      have h3 : ((n + k - m : ℤ) : ℚ) * tau ≤ -1 * tau := by gcongr
      rw [abs_le] at key
      norm_num1 at *
      linarith [key.2]
    · exact h1
    · exfalso
      have h2 : (1 : ℚ) ≤ ((n + k - m : ℤ) : ℚ) := by exact_mod_cast h1
      have h3 : 1 * tau ≤ ((n + k - m : ℤ) : ℚ) * tau := by gcongr
      rw [abs_le] at key
      norm_num1 at *
      linarith [key.1]
  rw [z, Int.cast_zero, zero_mul, sub_zero] at key
  exact key.trans (by norm_num)

/-- **C155**, false: nine full turns in degrees, eleven full turns, and an angle just below zero are not equal to no turn at all; and 810 degrees are
not orthogonal -/
theorem C155_turns_wrong :
    angleEq doubles (degrees doubles 3240) (degrees doubles 0) = false ∧ angleEq doubles (turns doubles 11) (turns doubles 0) = false ∧
      isOrthogonal doubles (degrees doubles 810) = false ∧ isOrthogonal doubles (degrees doubles 450) = true ∧
      (∃ a : ℚ, IsDouble a ∧ -1 / 10 ^ 15 < a ∧ a < 0 ∧ normalized doubles a = tau ∧ angleEq doubles a 0 = false) := by
  refine ⟨by decide +kernel, by decide +kernel, by decide +kernel, by decide +kernel, -1 / 2 ^ 60, ?_, by norm_num, by norm_num, by decide +kernel, by decide +kernel⟩
  exact ⟨-1, -60, by norm_num [zpow_neg], by norm_num, by norm_num⟩

/-- an angle in degrees, in radians with the double `tau` -/
theorem degrees_near (d : ℚ) : |degrees doubles d - tau * d / 360| ≤ |d| * (1 / 2 ^ 57) + 1 / 2 ^ 90 := by
  obtain ⟨t1, t2⟩ := tau_range
  unfold degrees
  have hfl := doubles.err
  have ht := tiny
  generalize (1 : ℚ) / 2 ^ 1074 = η at *
  generalize ha : doubles.fl (tau * d) = a
  have k1 := hfl (tau * d)
  have k2 := hfl (a / 360)
  rw [ha] at k1
  rw [abs_mul, abs_of_pos (show 0 < tau by linarith)] at k1
  rw [abs_div, abs_of_pos (show (0 : ℚ) < 360 by norm_num)] at k2
  have b1 : |a| ≤ tau * |d| + |a - tau * d| := by
    have := abs_add_le (a - tau * d) (tau * d)
    rw [sub_add_cancel, abs_mul, abs_of_pos (show 0 < tau by linarith)] at this
    linarith
  have s := abs_add_le (doubles.fl (a / 360) - a / 360) ((a - tau * d) / 360)
  rw [show doubles.fl (a / 360) - a / 360 + (a - tau * d) / 360 = doubles.fl (a / 360) - tau * d / 360 by ring, abs_div,
    abs_of_pos (show (0 : ℚ) < 360 by norm_num)] at s
  have d0 := abs_nonneg d
  have e : tau * |d| ≤ 628319 / 100000 * |d| := by gcongr
  generalize tau * |d| = D at *
  generalize doubles.fl (a / 360) = g at *
  generalize |d| = z at *
  norm_num1 at *
  linarith

/-- **C155**: degrees that differ by at most a thousand full turns are equal angles with floats, unless they are almost whole turns -/
theorem C155_turns_partial {d : ℚ} (h1 : 1 / 10 ^ 6 ≤ d) (h2 : d ≤ 360 - 1 / 10 ^ 6) (k : ℤ) (hk : |k| ≤ 1000) :
    angleEq doubles (degrees doubles d) (degrees doubles (d + 360 * k)) = true := by
  obtain ⟨t1, t2⟩ := tau_range
  have t0 : 0 < tau := by linarith
  have hk' : |(k : ℚ)| ≤ 1000 := by exact_mod_cast hk
  have x1 : tau * (1 / 10 ^ 6) / 360 ≤ tau * d / 360 := by gcongr
  have x2 : tau * d / 360 ≤ tau * (360 - 1 / 10 ^ 6) / 360 := by gcongr
  have key : ∀ (D : ℚ) (j : ℤ), D = d + 360 * j → |D| ≤ 361000 → |normalized doubles (degrees doubles D) - tau * d / 360| ≤ 3 / 10 ^ 12 := by
    intro D j hD hb
    have n1 := degrees_near D
    obtain ⟨a0, a1, ⟨n, hn⟩, -⟩ := C155_normalized (degrees doubles D)
    have e : tau * D / 360 = tau * d / 360 + j * tau := by rw [hD]; ring
    rw [e] at n1
    have n2 : |D| * (1 / 2 ^ 57) ≤ 361000 * (1 / 2 ^ 57) := by gcongr
    generalize degrees doubles D = A at *
    generalize normalized doubles A = N at *
    have near : |N - (tau * d / 360 + ((j + n : ℤ) : ℚ) * tau)| ≤ 27 / 10 ^ 13 := by
      push_cast
      rw [add_mul]
      rw [abs_le] at n1 hn ⊢
      norm_num1 at *
      constructor <;> linarith
    have z : j + n = 0 := by
      rcases lt_trichotomy (j + n) 0 with h1 | h1 | h1
      · exfalso
        have h2 : ((j + n : ℤ) : ℚ) ≤ -1 := by exact_mod_cast Int.le_sub_one_of_lt h1
        have h3 : ((j + n : ℤ) : ℚ) * tau ≤ -1 * tau := by gcongr
        rw [abs_le] at near
        norm_num1 at *
        linarith [near.2]
      · exact h1
      · exfalso
        have h2 : (1 : ℚ) ≤ ((j + n : ℤ) : ℚ) := by exact_mod_cast h1
        have h3 : 1 * tau ≤ ((j + n : ℤ) : ℚ) * tau := by gcongr
        rw [abs_le] at near
        norm_num1 at *
        linarith [near.1]
    rw [z, Int.cast_zero, zero_mul, add_zero] at near
    exact near.trans (by norm_num)
  have p1 := key d 0 (by simp) (by rw [abs_le]; constructor <;> linarith)
  have p2 := key (d + 360 * k) k rfl (by
    have := abs_le.1 hk'
    rw [abs_le]; constructor <;> linarith)
  apply eq_of_near
  rw [abs_le] at *
  norm_num1 at *
  constructor <;> linarith

/-- adding 360 to a double below -360 is exact, unless it is huge -/
theorem add_exact {v : ℚ} (h : IsDouble v) (h1 : -2 ^ 55 ≤ v) (h2 : v ≤ -360) : IsDouble (v + 360) := by
  obtain ⟨k, m, rfl, hk, hm⟩ := h
  have habs : |(k : ℚ) * 2 ^ m + 360| ≤ |(k : ℚ) * 2 ^ m| := by
    rw [abs_of_nonpos (show (k : ℚ) * 2 ^ m + 360 ≤ 0 by linarith), abs_of_nonpos (show (k : ℚ) * 2 ^ m ≤ 0 by linarith)]
    linarith
  by_cases h3 : m ≤ 3
  · obtain ⟨j, hj⟩ := Int.eq_ofNat_of_zero_le (show 0 ≤ 3 - m by linarith)
    have e : (k : ℚ) * 2 ^ m + 360 = ((k + 45 * 2 ^ j : ℤ) : ℚ) * 2 ^ m := by
      push_cast
      have : (2 : ℚ) ^ j * 2 ^ m = 8 := by
        rw [← zpow_natCast, ← zpow_add₀ (by norm_num), show (j : ℤ) + m = 3 by omega]
        norm_num
      linear_combination 45 * (-this)
    refine ⟨_, m, e, ?_, hm⟩
    rw [e, abs_mul, abs_mul] at habs
    have := le_of_mul_le_mul_right habs (by positivity)
    have h4 : |k + 45 * 2 ^ j| ≤ |k| := by exact_mod_cast this
    exact h4.trans hk
  · obtain ⟨j, hj⟩ := Int.eq_ofNat_of_zero_le (show 0 ≤ m - 3 by linarith)
    have e : (k : ℚ) * 2 ^ m + 360 = ((k * 2 ^ j + 45 : ℤ) : ℚ) * 2 ^ (3 : ℤ) := by
      push_cast
      have : (2 : ℚ) ^ m = 2 ^ j * 8 := by
        rw [show m = (j : ℤ) + 3 by omega, zpow_add₀ (by norm_num), zpow_natCast]
        norm_num
      rw [this]
      norm_num
      ring
    refine ⟨_, 3, e, ?_, by norm_num⟩
    have h5 : |(k : ℚ) * 2 ^ m + 360| ≤ 2 ^ 55 := by
      rw [abs_le]
      constructor <;> linarith
    rw [e, abs_mul] at h5
    have h6 : |((k * 2 ^ j + 45 : ℤ) : ℚ)| ≤ 2 ^ 53 := by
      rw [show |(2 : ℚ) ^ (3 : ℤ)| = 8 by norm_num] at h5
      norm_num1 at *
      linarith
    exact_mod_cast h6

theorem loop_exact (n : ℕ) : ∀ v : ℚ, IsDouble v → -2 ^ 55 ≤ v → -(360 * n) ≤ v →
    ∃ k : ℕ, (∀ fuel, n < fuel → positiveLoop doubles fuel v = some (doubles.fl (v + 360 * k))) ∧ 0 ≤ v + 360 * k ∧ (0 < k → v + 360 * k < 360) := by
  induction n with
  | zero =>
    intro v hv _ h
    have h0 : 0 ≤ v := by simpa using h
    refine ⟨0, fun fuel hf => ?_, by simpa using h0, fun h => absurd h (lt_irrefl 0)⟩
    obtain ⟨f, rfl⟩ := Nat.exists_eq_succ_of_ne_zero hf.ne'
    rw [positiveLoop, if_neg (not_lt.2 h0)]
    simp only [Nat.cast_zero, mul_zero, add_zero]
    rw [show doubles.fl v = v from roundDouble_double hv]
  | succ n ih =>
    intro v hv h1 h2
    by_cases h0 : 0 ≤ v
    · refine ⟨0, fun fuel hf => ?_, by simpa using h0, fun h => absurd h (lt_irrefl 0)⟩
      obtain ⟨f, rfl⟩ := Nat.exists_eq_succ_of_ne_zero (Nat.ne_of_gt (Nat.lt_of_le_of_lt (Nat.zero_le _) hf))
      rw [positiveLoop, if_neg (not_lt.2 h0)]
      simp only [Nat.cast_zero, mul_zero, add_zero]
      rw [show doubles.fl v = v from roundDouble_double hv]
    · push Not at h0
      push_cast at h2
      by_cases h3 : v ≤ -360
      · have hd := add_exact hv h1 h3
        obtain ⟨k, k1, k2, k3⟩ := ih (v + 360) hd (by linarith) (by linarith)
        refine ⟨k + 1, fun fuel hf => ?_, by push_cast; linarith, fun _ => ?_⟩
        · obtain ⟨f, rfl⟩ := Nat.exists_eq_succ_of_ne_zero (Nat.ne_of_gt (Nat.lt_of_le_of_lt (Nat.zero_le _) hf))
          rw [positiveLoop, if_pos h0, show doubles.fl (v + 360) = v + 360 from roundDouble_double hd, k1 f (by omega)]
          congr 2
          push_cast
          ring
        · rcases Nat.eq_zero_or_pos k with rfl | hk
          · simp only [Nat.cast_zero, mul_zero, add_zero] at k2
            push_cast
            linarith
          · have := k3 hk
            push_cast
            linarith
      · push Not at h3
        refine ⟨1, fun fuel hf => ?_, by push_cast; linarith, fun _ => by push_cast; linarith⟩
        obtain ⟨f, rfl⟩ := Nat.exists_eq_succ_of_ne_zero (Nat.ne_of_gt (Nat.lt_of_le_of_lt (Nat.zero_le _) hf))
        have nn : 0 ≤ doubles.fl (v + 360) := roundDouble_nonneg (by linarith)
        rw [positiveLoop, if_pos h0]
        obtain ⟨g, rfl⟩ : ∃ g, f = g + 1 := ⟨f - 1, by omega⟩
        rw [positiveLoop, if_neg (not_lt.2 nn)]
        norm_num

/-- **C155**: `as_positive_degrees` with floats, for angles above -2^55 degrees: the loop ends, and the result is the number of degrees plus the least
whole number of turns that makes it positive, rounded once -/
theorem C155_positive_partial (a : ℚ) (h : -2 ^ 55 ≤ asDegrees doubles a) :
    ∃ k n : ℕ, (∀ fuel, n < fuel → asPositiveDegrees doubles fuel a = some (doubles.fl (asDegrees doubles a + 360 * k))) ∧
      0 ≤ asDegrees doubles a + 360 * k ∧ (0 < k → asDegrees doubles a + 360 * k < 360) := by
  obtain ⟨n, hn⟩ : ∃ n : ℕ, -(asDegrees doubles a) ≤ n := ⟨⌈-(asDegrees doubles a)⌉₊, Nat.le_ceil _⟩
  obtain ⟨k, k1, k2, k3⟩ := loop_exact n (asDegrees doubles a) (roundDouble_isDouble _) h (by
    have : (0 : ℚ) ≤ n := Nat.cast_nonneg n
    linarith)
  exact ⟨k, n, k1, k2, k3⟩

/-- doubles beyond 2^62 are multiples of 1024 -/
theorem multiple_1024 {d : ℚ} (h : IsDouble d) (hd : 2 ^ 62 ≤ |d|) : ∃ j : ℤ, d = j * 1024 := by
  obtain ⟨k, m, rfl, hk, hm⟩ := h
  have hk' : |(k : ℚ)| ≤ 2 ^ 53 := by exact_mod_cast hk
  rw [abs_mul, abs_of_pos (show (0 : ℚ) < 2 ^ m by positivity)] at hd
  by_cases h10 : 10 ≤ m
  · obtain ⟨j, hj⟩ := Int.eq_ofNat_of_zero_le (show 0 ≤ m - 10 by linarith)
    refine ⟨k * 2 ^ j, ?_⟩
    rw [show m = (j : ℤ) + 10 by omega, zpow_add₀ (by norm_num), zpow_natCast]
    push_cast
    norm_num
    ring
  · have h9 : (2 : ℚ) ^ m ≤ 2 ^ (9 : ℤ) := zpow_le_zpow_right₀ (by norm_num) (by omega)
    have e9 : (2 : ℚ) ^ (9 : ℤ) = 512 := by norm_num
    rw [e9] at h9
    have hp : (0 : ℚ) < 2 ^ m := by positivity
    have a1 : |(k : ℚ)| * 2 ^ m ≤ 2 ^ 53 * 2 ^ m := by gcongr
    have h9' : (2 : ℚ) ^ m = 512 := by
      norm_num1 at *
      linarith
    rw [h9'] at hd ⊢
    have hk2 : |(k : ℚ)| = 2 ^ 53 := by
      norm_num1 at *
      linarith
    rcases abs_eq (by norm_num : (0 : ℚ) ≤ 2 ^ 53) |>.1 hk2 with e | e
    · refine ⟨2 ^ 52, ?_⟩
      rw [e]; norm_num
    · refine ⟨-2 ^ 52, ?_⟩
      rw [e]; norm_num

theorem stuck {v : ℚ} (hv : IsDouble v) (h : v < -2 ^ 62) : doubles.fl (v + 360) = v := by
  have hn : |doubles.fl (v + 360) - (v + 360)| ≤ |v - (v + 360)| := roundDouble_nearest _ hv
  rw [show v - (v + 360) = -360 by ring, abs_neg, abs_of_pos (show (0 : ℚ) < 360 by norm_num)] at hn
  have hd : IsDouble (doubles.fl (v + 360)) := roundDouble_isDouble _
  generalize doubles.fl (v + 360) = w at *
  obtain ⟨w1, w2⟩ := abs_le.1 hn
  obtain ⟨j, hj⟩ := multiple_1024 hv (by rw [abs_of_neg (by linarith)]; linarith)
  have hw : ∃ i : ℤ, w = i * 1024 := by
    apply multiple_1024 hd
    have : (j : ℚ) * 1024 < -2 ^ 62 := hj ▸ h
    have j1 : (j : ℚ) < -2 ^ 52 := by
      norm_num1 at *
      linarith
    have j2 : j < -2 ^ 52 := by exact_mod_cast j1
    have j3 : j ≤ -2 ^ 52 - 1 := by omega
    have j4 : (j : ℚ) ≤ -2 ^ 52 - 1 := by exact_mod_cast j3
    rw [abs_of_neg (by linarith)]
    norm_num1 at *
    linarith
  obtain ⟨i, hi⟩ := hw
  rw [hi, hj] at w1 w2
  have a : (i : ℚ) - j < 1 := by linarith
  have b : (-1 : ℚ) < i - j := by linarith
  have : i = j := by
    have a' : i - j < 1 := by exact_mod_cast a
    have b' : -1 < i - j := by exact_mod_cast b
    omega
  rw [hi, hj, this]

theorem moves {v : ℚ} (h : -2 ^ 62 ≤ v) (h0 : v < 0) : v + 104 ≤ doubles.fl (v + 360) := by
  have hr := abs_sub_round ((v + 360) / 512)
  generalize hj : round ((v + 360) / 512) = j at hr
  have e : |(j : ℚ) * 512 - (v + 360)| ≤ 256 := by
    rw [abs_le] at hr ⊢
    constructor <;> linarith [hr.1, hr.2]
  have hd : IsDouble ((j : ℚ) * 512) := by
    refine ⟨j, 9, by norm_num, ?_, by norm_num⟩
    obtain ⟨e1, e2⟩ := abs_le.1 e
    have l : (-2 ^ 53 - 1 : ℚ) < j := by
      norm_num1 at *
      linarith
    have u : (j : ℚ) < 2 ^ 53 + 1 := by
      norm_num1 at *
      linarith
    have l' : -2 ^ 53 - 1 < j := by exact_mod_cast l
    have u' : j < 2 ^ 53 + 1 := by exact_mod_cast u
    rw [abs_le]
    constructor <;> omega
  have := (roundDouble_nearest (v + 360) hd).trans e
  have := (abs_le.1 this).1
  change v + 104 ≤ roundDouble (v + 360)
  linarith

/-- **C155**: the loop of `as_positive_degrees` ends exactly for angles from -2^62 degrees on; below it never does -/
theorem C155_ends_partial (a : ℚ) : (∃ fuel, asPositiveDegrees doubles fuel a ≠ none) ↔ -2 ^ 62 ≤ asDegrees doubles a := by
  unfold asPositiveDegrees
  have hd : IsDouble (asDegrees doubles a) := roundDouble_isDouble _
  generalize asDegrees doubles a = v at *
  constructor
  · rintro ⟨fuel, hf⟩
    by_contra h
    push Not at h
    apply hf
    induction fuel with
    | zero => rfl
    | succ n ih => rw [positiveLoop, if_pos (by linarith), stuck hd h]; exact ih (by intro h'; rw [positiveLoop, if_pos (by linarith), stuck hd h] at hf; exact hf h')
  · intro h
    obtain ⟨n, hn⟩ : ∃ n : ℕ, -(104 * n) ≤ v := by
      obtain ⟨n, hn⟩ := exists_nat_ge (-v)
      exact ⟨n, by have : (0 : ℚ) ≤ n := Nat.cast_nonneg n; linarith⟩
    refine ⟨n + 1, ?_⟩
    clear hd
    induction n generalizing v with
    | zero =>
      have : 0 ≤ v := by simpa using hn
      rw [positiveLoop, if_neg (not_lt.2 this)]
      exact Option.some_ne_none _
    | succ n ih =>
      rw [positiveLoop]
      split_ifs with h0
      · have m := moves h h0
        push_cast at hn
        exact ih _ (by linarith) (by linarith)
      · exact Option.some_ne_none _

/-- **C155**, false: for an angle of -2^58 radians the loop never ends -/
theorem C155_endless_wrong : IsDouble (-2 ^ 58) ∧ ∀ fuel, asPositiveDegrees doubles fuel (-2 ^ 58) = none := by
  refine ⟨⟨-1, 58, by norm_num, by norm_num, by norm_num⟩, fun fuel => ?_⟩
  by_contra h
  have := (C155_ends_partial (-2 ^ 58)).1 ⟨fuel, h⟩
  revert this
  decide +kernel

/-- **C155**, false: an angle just below zero has 360 positive degrees -/
theorem C155_positive_wrong : ∃ a : ℚ, IsDouble a ∧ a < 0 ∧ ∀ fuel, asPositiveDegrees doubles (fuel + 2) a = some 360 := by
  refine ⟨-1 / 2 ^ 60, ⟨-1, -60, by norm_num [zpow_neg], by norm_num, by norm_num⟩, by norm_num, fun fuel => ?_⟩
  have h1 : asDegrees doubles (-1 / 2 ^ 60) < 0 := by decide +kernel
  have h2 : doubles.fl (asDegrees doubles (-1 / 2 ^ 60) + 360) = 360 := by decide +kernel
  rw [asPositiveDegrees, positiveLoop, if_pos h1, h2, positiveLoop, if_neg (by norm_num)]

/-- two angles that differ by 2⁻³⁸ and a turn -/
example : |(1 + 1 / 2 ^ 38 + tau) - 1 - (1 : ℤ) * tau| ≤ 9 / 10 ^ 12 ∧ normalized doubles (1 + 1 / 2 ^ 38 + tau) ≤ tau - 1 / 10 ^ 11 ∧
    angleEq doubles (1 + 1 / 2 ^ 38 + tau) 1 = true := by
  refine ⟨by norm_num [tau], by decide +kernel, by decide +kernel⟩

/-- 30 degrees and 30 degrees with two turns; -100000 degrees -/
example : angleEq doubles (degrees doubles 30) (degrees doubles (30 + 360 * (2 : ℤ))) = true ∧
    -2 ^ 55 ≤ asDegrees doubles (degrees doubles (-100000)) ∧ normalized doubles 1 ≤ tau - 1 / 10 ^ 11 :=
  ⟨C155_turns_partial (by norm_num) (by norm_num) 2 (by norm_num), by decide +kernel, by decide +kernel⟩

theorem quarter_double : IsDouble (tau / 4) := ⟨884279719003555, -49, by norm_num [tau, zpow_neg], by norm_num, by norm_num⟩

theorem least_double : roundDouble (1 / 2 ^ 1074) = 1 / 2 ^ 1074 :=
  roundDouble_double ⟨1, -1074, by rw [zpow_neg, Int.cast_one, one_mul, one_div]; rfl, by norm_num, le_rfl⟩

/-- **C155**: `is_orthogonal()` of a double says whether it is a whole number of quarters of `tau`, exactly. -/
theorem C155_orthogonal {a : ℚ} (ha : IsDouble a) : isOrthogonal doubles a = true ↔ ∃ n : ℤ, a = n * (tau / 4) := by
  have hq : doubles.fl (tau / 4) = tau / 4 := roundDouble_double quarter_double
  have q0 : 0 < tau / 4 := by linarith [tau_range.1]
  have zero_iff : ∀ x : ℚ, Angle.pyMod x (tau / 4) = 0 ↔ ∃ n : ℤ, x = n * (tau / 4) := by
    intro x
    constructor
    · intro h
      obtain ⟨n, hn⟩ : ∃ n : ℤ, x = Angle.pyMod x (tau / 4) + n * (tau / 4) := ⟨⌊x / (tau / 4)⌋, by unfold Angle.pyMod; ring⟩
      exact ⟨n, by rw [h, zero_add] at hn; exact hn⟩
    · rintro ⟨n, rfl⟩
      unfold Angle.pyMod
      rw [mul_div_cancel_right₀ _ q0.ne', Int.floor_intCast]
      ring
  unfold isOrthogonal
  rw [hq, decide_eq_true_eq]
  unfold Flt.pyMod
  by_cases h0 : 0 ≤ a
  · rw [if_pos h0]
    exact zero_iff a
  · rw [if_neg h0]
    have hneg : (∃ n : ℤ, a = n * (tau / 4)) ↔ ∃ n : ℤ, -a = n * (tau / 4) := by
      constructor <;> rintro ⟨n, h⟩ <;> exact ⟨-n, by push_cast; linarith⟩
    rw [hneg, ← zero_iff]
    simp only
    by_cases hr : Angle.pyMod (-a) (tau / 4) = 0
    · simp [hr]
    · rw [if_neg hr]
      refine ⟨fun h => absurd h ?_, fun h => absurd h hr⟩
      -- the difference is a multiple of the least double
      obtain ⟨n, hn⟩ : ∃ n : ℤ, -a = Angle.pyMod (-a) (tau / 4) + n * (tau / 4) := ⟨⌊-a / (tau / 4)⌋, by unfold Angle.pyMod; ring⟩
      have hlt : Angle.pyMod (-a) (tau / 4) < tau / 4 := by
        have f2 := Int.lt_floor_add_one (-a / (tau / 4))
        rw [div_lt_iff₀ q0] at f2
        unfold Angle.pyMod
        linarith
      have hmul : ∃ j : ℤ, tau / 4 - Angle.pyMod (-a) (tau / 4) = j * (1 / 2 ^ 1074) := by
        obtain ⟨k, m, rfl, -, hm⟩ := ha
        obtain ⟨l, rfl⟩ : ∃ l : ℕ, m = -1074 + l := ⟨(m + 1074).toNat, by omega⟩
        have e1 : (2 : ℚ) ^ (-1074 + (l : ℤ)) = 2 ^ l * (1 / 2 ^ 1074) := by
          rw [zpow_add₀ (by norm_num), zpow_natCast, zpow_neg, mul_comm, one_div]; rfl
        have e2 : tau / 4 = 884279719003555 * 2 ^ 1025 * (1 / 2 ^ 1074) := by
          unfold tau
          rw [show (2 : ℚ) ^ 1074 = 2 ^ 1025 * 2 ^ 49 by rw [← pow_add]]
          have : (2 : ℚ) ^ 1025 ≠ 0 := by positivity
          generalize (2 : ℚ) ^ 1025 = y at *
          field_simp
          norm_num
        refine ⟨884279719003555 * 2 ^ 1025 + k * 2 ^ l + n * (884279719003555 * 2 ^ 1025), ?_⟩
        rw [(show ∀ r x : ℚ, x = r + n * (tau / 4) → tau / 4 - r = tau / 4 - x + n * (tau / 4) from fun r x h => by rw [h]; ring) _ _ hn, e1, e2]
        push_cast
        ring
      obtain ⟨j, hj⟩ := hmul
      have hpos : 0 < tau / 4 - Angle.pyMod (-a) (tau / 4) := by linarith
      rw [hj] at hpos
      have hj0 : 0 < (j : ℚ) := (mul_pos_iff_of_pos_right (by positivity)).1 hpos
      have hj1 : (1 : ℚ) ≤ j := by
        have : 0 < j := by exact_mod_cast hj0
        exact_mod_cast this
      have hge : (1 : ℚ) / 2 ^ 1074 ≤ tau / 4 - Angle.pyMod (-a) (tau / 4) := by
        rw [hj]
        exact le_mul_of_one_le_left (by positivity) hj1
      have := roundDouble_mono hge
      rw [least_double] at this
      have hp : (0 : ℚ) < 1 / 2 ^ 1074 := by positivity
      show roundDouble _ ≠ 0
      exact (lt_of_lt_of_le hp this).ne'

/-- three quarters of a turn backwards -/
example : IsDouble (-3 * (tau / 4)) ∧ isOrthogonal doubles (-3 * (tau / 4)) = true ∧ isOrthogonal doubles 1 = false := by
  refine ⟨⟨-3 * 884279719003555, -49, by norm_num [tau, zpow_neg], by norm_num, by norm_num⟩, by decide +kernel, by decide +kernel⟩

end Svgio.Props
