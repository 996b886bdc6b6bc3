import Verif.Lemmas.Print

/-!
C46: printed coordinates denote the coordinate.
-/

namespace Svgio.Props

open Spec Print

theorem abs_sgVal (x : ℚ) : |sgVal x| = 1 := by unfold sgVal; split <;> norm_num

/-- the decimal exponent of a number is unique -/
theorem decade_unique {y : ℚ} {a b : ℤ} (ha : (10 : ℚ) ^ a ≤ y) (ha' : y < (10 : ℚ) ^ (a + 1)) (hb : (10 : ℚ) ^ b ≤ y)
    (hb' : y < (10 : ℚ) ^ (b + 1)) : a = b := by
  have h1 := (zpow_lt_zpow_iff_right₀ (by norm_num : (1 : ℚ) < 10)).1 (lt_of_le_of_lt ha hb')
  have h2 := (zpow_lt_zpow_iff_right₀ (by norm_num : (1 : ℚ) < 10)).1 (lt_of_le_of_lt hb ha')
  omega

theorem roundExponent_iff (x : ℚ) : RoundExponent (gVal 12 x) ↔
    (x ≠ 0 ∧ ((gDigits 12 |x|).2 < -4 ∨ 12 ≤ (gDigits 12 |x|).2) ∧ ¬ 10 ^ 11 ∣ (gDigits 12 |x|).1 ∧ 10 ∣ (gDigits 12 |x|).2) := by
  by_cases hx : x = 0
  · rw [gVal, if_pos hx]
    constructor
    · rintro ⟨e, -, -, h, -⟩
      rw [abs_zero] at h
      exact absurd h (not_le.2 (by positivity))
    · rintro ⟨h, -⟩; exact absurd hx h
  obtain ⟨h1, h2, -⟩ := gDigits_spec (prec := 12) (by norm_num) (abs_pos.2 hx)
  rw [gVal, if_neg hx]
  generalize gDigits 12 |x| = d at *
  have hy : |sgVal x * ((d.1 : ℚ) * (10 : ℚ) ^ (d.2 - (((12 : ℕ) : ℤ) - 1)))| = (d.1 : ℚ) * (10 : ℚ) ^ (d.2 - 11) := by
    rw [abs_mul, abs_sgVal, one_mul, abs_of_nonneg (by positivity)]
    norm_num
  have e1 : (10 : ℚ) ^ d.2 ≤ (d.1 : ℚ) * (10 : ℚ) ^ (d.2 - 11) := by
    have : (10 : ℚ) ^ d.2 = (10 : ℚ) ^ 11 * (10 : ℚ) ^ (d.2 - 11) := by
      rw [← zpow_natCast, ← zpow_add₀ (by norm_num)]; congr 1; push_cast; ring
    rw [this]
    exact mul_le_mul_of_nonneg_right (by exact_mod_cast h1) (by positivity)
  have e2 : (d.1 : ℚ) * (10 : ℚ) ^ (d.2 - 11) < (10 : ℚ) ^ (d.2 + 1) := by
    have : (10 : ℚ) ^ (d.2 + 1) = (10 : ℚ) ^ 12 * (10 : ℚ) ^ (d.2 - 11) := by
      rw [← zpow_natCast, ← zpow_add₀ (by norm_num)]; congr 1; push_cast; ring
    rw [this]
    exact mul_lt_mul_of_pos_right (by exact_mod_cast h2) (by positivity)
  have e3 : (∃ k : ℤ, sgVal x * ((d.1 : ℚ) * (10 : ℚ) ^ (d.2 - (((12 : ℕ) : ℤ) - 1))) = k * (10 : ℚ) ^ d.2) ↔ 10 ^ 11 ∣ d.1 := by
    have hz : (10 : ℚ) ^ d.2 = (10 : ℚ) ^ 11 * (10 : ℚ) ^ (d.2 - 11) := by
      rw [← zpow_natCast, ← zpow_add₀ (by norm_num)]; congr 1; push_cast; ring
    have hp : (10 : ℚ) ^ (d.2 - 11) ≠ 0 := by positivity
    have hw : d.2 - (((12 : ℕ) : ℤ) - 1) = d.2 - 11 := by norm_num
    rw [hw, hz]
    constructor
    · rintro ⟨k, hk⟩
      have hk2 : sgVal x * (d.1 : ℚ) = k * 10 ^ 11 := by
        apply mul_right_cancel₀ hp; linear_combination hk
      have hk3 := congrArg abs hk2
      rw [abs_mul, abs_sgVal, one_mul, abs_mul, Nat.abs_cast] at hk3
      have hk4 : (d.1 : ℚ) = ((k.natAbs * 10 ^ 11 : ℕ) : ℚ) := by
        rw [hk3]; push_cast
        rw [abs_of_pos (by norm_num : (0 : ℚ) < 10 ^ 11), Nat.cast_natAbs]; push_cast; rfl
      exact ⟨k.natAbs, by rw [mul_comm]; exact_mod_cast hk4⟩
    · rintro ⟨k, hk⟩
      rw [hk]
      unfold sgVal
      split
      · exact ⟨-k, by push_cast; ring⟩
      · exact ⟨k, by push_cast; ring⟩
  constructor
  · rintro ⟨e, h3, h4, h5, h6, h7⟩
    rw [hy] at h5 h6
    have : e = d.2 := decade_unique h5 h6 e1 e2
    subst this
    exact ⟨hx, h3, fun h => h7 (e3.2 h), h4⟩
  · rintro ⟨-, h3, h4, h5⟩
    exact ⟨d.2, h3, h5, by rw [hy]; exact e1, by rw [hy]; exact e2, fun h => h4 (e3.1 h)⟩

/-- C46: a printed coordinate is a number literal, and reading it gives the coordinate rounded to 12 significant digits, except
exactly when the rounded value has an exponent outside of -4 to 11 that ends in the digit 0 and more than one digit.

Partial: for these numbers the printed exponent is shortened, see `C46_exponent_wrong`. -/
theorem C46_coordinate_partial (x : ℚ) : IsNumber (coordText x) ∧
    ∃ y, RoundedTo 12 x y ∧ (floatVal (coordText x) = y ↔ ¬ RoundExponent y) := by
  refine ⟨(coordText_number x).1, gVal 12 x, gVal_rounded (by norm_num) x, ?_⟩
  rw [(coordText_number x).2, roundExponent_iff]

/-- rounding to significant digits has one result -/
theorem roundedTo_unique {prec : ℕ} {x y z : ℚ} (hp : 1 ≤ prec) (h1 : RoundedTo prec x y) (h2 : RoundedTo prec x z) : y = z := by
  rcases h1 with ⟨rfl, rfl⟩ | ⟨j, k, a1, a2, a3, a4, a5⟩
  · rcases h2 with ⟨-, rfl⟩ | ⟨j, k, a1, a2, a3, a4, a5⟩
    · rfl
    · rw [abs_zero] at a1; exact absurd a1 (not_le.2 (by positivity))
  · rcases h2 with ⟨rfl, rfl⟩ | ⟨j', k', b1, b2, b3, b4, b5⟩
    · rw [abs_zero] at a1; exact absurd a1 (not_le.2 (by positivity))
    · have hj : j = j' := by
        have := decade_unique a1 (by rw [show j + prec - 1 + 1 = j + prec by ring]; exact a2) b1
          (by rw [show j' + prec - 1 + 1 = j' + prec by ring]; exact b2)
        omega
      subst hj
      have hpos : (0 : ℚ) < (10 : ℚ) ^ j := by positivity
      have hd : |y - z| ≤ (10 : ℚ) ^ j := by
        calc |y - z| = |(y - x) - (z - x)| := by congr 1; ring
          _ ≤ |y - x| + |z - x| := abs_sub _ _
          _ ≤ _ := by linarith
      have hk : |((k - k' : ℤ) : ℚ)| ≤ 1 := by
        have : y - z = ((k - k' : ℤ) : ℚ) * (10 : ℚ) ^ j := by rw [a3, b3]; push_cast; ring
        rw [this, abs_mul, abs_of_pos hpos] at hd
        exact le_of_mul_le_mul_right (by rwa [one_mul]) hpos
      have hk' : |k - k'| ≤ 1 := by exact_mod_cast hk
      rw [abs_le] at hk'
      by_cases hkk : k = k'
      · rw [a3, b3, hkk]
      · exfalso
        have htie : |y - x| = (10 : ℚ) ^ j / 2 ∧ |z - x| = (10 : ℚ) ^ j / 2 := by
          have hyz : |y - z| = (10 : ℚ) ^ j := by
            have : y - z = ((k - k' : ℤ) : ℚ) * (10 : ℚ) ^ j := by rw [a3, b3]; push_cast; ring
            have h1 : |((k - k' : ℤ) : ℚ)| = 1 := by
              have : k - k' = 1 ∨ k - k' = -1 := by omega
              rcases this with h | h <;> rw [h] <;> norm_num
            rw [this, abs_mul, abs_of_pos hpos, h1, one_mul]
          have : |y - z| ≤ |y - x| + |z - x| := by
            calc |y - z| = |(y - x) - (z - x)| := by congr 1; ring
              _ ≤ |y - x| + |z - x| := abs_sub _ _
          constructor <;> linarith
        have e1 := a5 htie.1
        have e2 := b5 htie.2
        rw [Int.even_iff] at e1 e2
        omega

theorem abs_cast_lt {n : ℤ} (h : |n| < 10 ^ 12) : |(n : ℚ)| < (10 : ℚ) ^ (12 : ℤ) := by
  have h1 : ((|n| : ℤ) : ℚ) < ((10 ^ 12 : ℤ) : ℚ) := Int.cast_lt.2 h
  rw [Int.cast_abs, Int.cast_pow] at h1
  exact h1

/-- Numbers of at most 12 significant digits are not changed by rounding. -/
theorem roundedTo_self {x y : ℚ} (h : TwelveDigits x) (hr : RoundedTo 12 x y) : y = x := by
  rcases hr with ⟨h1, h2⟩ | ⟨j, k, h1, h2, h3, h4, -⟩
  · rw [h1, h2]
  · obtain ⟨i, n, hn, hx⟩ := h
    have hji : j ≤ i := by
      have hlt : (10 : ℚ) ^ (j + (12 : ℕ) - 1) < (10 : ℚ) ^ (i + 12) := by
        refine lt_of_le_of_lt h1 ?_
        rw [hx, abs_mul, abs_of_pos (by positivity : (0 : ℚ) < (10 : ℚ) ^ i), zpow_add₀ (by norm_num), mul_comm]
        refine mul_lt_mul_of_pos_left ?_ (by positivity)
        exact abs_cast_lt hn
      have := (zpow_lt_zpow_iff_right₀ (by norm_num : (1 : ℚ) < 10)).1 hlt
      push_cast at this
      omega
    obtain ⟨t, ht⟩ : ∃ t : ℕ, i = j + t := ⟨(i - j).toNat, by omega⟩
    have hpos : (0 : ℚ) < (10 : ℚ) ^ j := by positivity
    have hx2 : x = ((n * 10 ^ t : ℤ) : ℚ) * (10 : ℚ) ^ j := by
      rw [hx, ht, zpow_add₀ (by norm_num), zpow_natCast]; push_cast; ring
    have hd : |((k - n * 10 ^ t : ℤ) : ℚ)| * (10 : ℚ) ^ j ≤ (10 : ℚ) ^ j / 2 := by
      have : y - x = ((k - n * 10 ^ t : ℤ) : ℚ) * (10 : ℚ) ^ j := by rw [h3, hx2]; push_cast; ring
      rw [this, abs_mul, abs_of_pos hpos] at h4
      exact h4
    have hd2 : |((k - n * 10 ^ t : ℤ) : ℚ)| ≤ 1 / 2 := le_of_mul_le_mul_right (by linarith) hpos
    have hd3 : |k - n * 10 ^ t| < 1 := by
      have : ((|k - n * 10 ^ t| : ℤ) : ℚ) < 1 := by push_cast at hd2 ⊢; linarith
      exact_mod_cast this
    have hd4 : k - n * 10 ^ t = 0 := by
      rw [abs_lt] at hd3; omega
    rw [h3, hx2, show k = n * 10 ^ t by omega]

/-- C46, exact form: a number of at most 12 significant digits that is not printed with a shortened exponent is read back unchanged. -/
theorem C46_exact_partial {x : ℚ} (h : TwelveDigits x) (hr : ¬ RoundExponent x) : floatVal (coordText x) = x := by
  obtain ⟨-, y, h1, h2⟩ := C46_coordinate_partial x
  have := roundedTo_self h h1
  subst this
  exact h2.2 hr

/-- C46 fails: the coordinate 1.5e-10 is printed as "1.5E-1", which is 0.15. -/
theorem C46_exponent_wrong : coordText (15 / 10 ^ 11) = "1.5E-1".toList ∧ floatVal (coordText (15 / 10 ^ 11)) = 15 / 100 := by
  decide +kernel

/-- C46: a point is printed as its coordinates with a comma between them. -/
theorem C46_point (p : Pt ℚ) : ∃ a b, ptText p = a ++ ',' :: b ∧ IsNumber a ∧ IsNumber b ∧
    (TwelveDigits p.x → ¬ RoundExponent p.x → floatVal a = p.x) ∧ (TwelveDigits p.y → ¬ RoundExponent p.y → floatVal b = p.y) :=
  ⟨_, _, rfl, (coordText_number _).1, (coordText_number _).1, C46_exact_partial, C46_exact_partial⟩

/-- coordinates with at most 10 decimals and 12 digits in all -/
theorem decimals_ok {x : ℚ} {j : ℕ} {k : ℤ} (hj : j ≤ 10) (hk : |k| < 10 ^ 12) (hx : x = k / 10 ^ j) :
    TwelveDigits x ∧ ¬ RoundExponent x := by
  have hx2 : x = k * (10 : ℚ) ^ (-(j : ℤ)) := by rw [hx, zpow_neg, zpow_natCast]; ring
  refine ⟨⟨-j, k, hk, hx2⟩, ?_⟩
  rintro ⟨e, h1, ⟨q, hq⟩, h3, h4, h5⟩
  rcases h1 with h1 | h1
  · apply h5
    have : e ≤ -(j : ℤ) := by omega
    by_cases he : e = -(j : ℤ)
    · exact ⟨k, by rw [he]; exact hx2⟩
    · exfalso
      have h0 : k ≠ 0 := by
        rintro rfl
        rw [hx2] at h3
        simp only [Int.cast_zero, zero_mul, abs_zero] at h3
        exact absurd h3 (not_le.2 (by positivity))
      have hk1 : (1 : ℚ) ≤ |(k : ℚ)| := by
        have : (1 : ℤ) ≤ |k| := Int.one_le_abs h0
        exact_mod_cast this
      rw [hx2, abs_mul, abs_of_pos (by positivity : (0 : ℚ) < (10 : ℚ) ^ (-(j : ℤ)))] at h4
      have h6 : (10 : ℚ) ^ (-(j : ℤ)) < (10 : ℚ) ^ (e + 1) :=
        lt_of_le_of_lt (le_mul_of_one_le_left (by positivity) hk1) h4
      have := (zpow_lt_zpow_iff_right₀ (by norm_num : (1 : ℚ) < 10)).1 h6
      omega
  · have h6 : (10 : ℚ) ^ (12 : ℤ) ≤ (10 : ℚ) ^ e := zpow_le_zpow_right₀ (by norm_num) h1
    have h7 : |x| < (10 : ℚ) ^ (12 : ℤ) := by
      rw [hx, abs_div, abs_of_pos (by positivity : (0 : ℚ) < 10 ^ j)]
      have h8 : |(k : ℚ)| < (10 : ℚ) ^ (12 : ℤ) := abs_cast_lt hk
      exact lt_of_le_of_lt (div_le_self (abs_nonneg _) (one_le_pow₀ (by norm_num))) h8
    linarith

example : TwelveDigits (123456 / 10 ^ 3) ∧ ¬ RoundExponent (123456 / 10 ^ 3) := decimals_ok (k := 123456) (j := 3) (by norm_num) (by norm_num) (by norm_num)
example : RoundExponent (15 / 10 ^ 11) := by
  refine ⟨-10, by norm_num, by norm_num, by norm_num [abs_of_pos], by norm_num [abs_of_pos], ?_⟩
  rintro ⟨d, hd⟩
  have : (2 * d : ℚ) = 3 := by norm_num at hd; linarith
  have : (2 * d : ℤ) = 3 := by exact_mod_cast this
  omega
example : coordText (1 / 3) = "0.333333333333".toList := by decide +kernel
example : ptText ⟨-5 / 2, 10 ^ 20⟩ = "-2.5,1E+20".toList := by decide +kernel

end Svgio.Props
