import Verif.Model.Ieee
import Verif.Spec.Ieee

/-!
`roundDouble` is a rounding to doubles.
-/

namespace Svgio

open Spec

theorem pyRound_half (x : ℚ) : |(pyRound x : ℚ) - x| ≤ 1 / 2 := by
  have h1 := Int.floor_le x
  have h2 := Int.lt_floor_add_one x
  unfold pyRound
  rw [abs_le]
  split_ifs <;> push_cast <;> constructor <;> linarith

theorem pyRound_whole (n : ℤ) : pyRound n = n := by
  unfold pyRound
  rw [if_pos (by rw [Int.floor_intCast]; norm_num), Int.floor_intCast]

theorem quantum_pos (x : ℚ) : 0 < quantum x := by unfold quantum; exact zpow_pos (by norm_num) _

theorem roundDouble_err (x : ℚ) : |roundDouble x - x| ≤ |x| / 2 ^ 53 + 1 / 2 ^ 1074 := by
  have hq := quantum_pos x
  have h := pyRound_half (x / quantum x)
  have e : roundDouble x - x = ((pyRound (x / quantum x) : ℚ) - x / quantum x) * quantum x := by
    unfold roundDouble
    field_simp
  rw [e, abs_mul, abs_of_pos hq]
  have h2 : quantum x / 2 ≤ |x| / 2 ^ 53 + 1 / 2 ^ 1074 ∨ x = 0 := by
    by_cases hx : x = 0
    · exact .inr hx
    left
    unfold quantum
    have hl : (2 : ℚ) ^ Int.log 2 |x| ≤ |x| := Int.zpow_log_le_self (by norm_num) (abs_pos.2 hx)
    have hx0 : 0 ≤ |x| / 2 ^ 53 := by positivity
    have hy0 : (0 : ℚ) ≤ 1 / 2 ^ 1074 := by positivity
    rcases le_total (Int.log 2 |x| - 52) (-1074) with hm | hm
    · rw [max_eq_right hm]
      have : (2 : ℚ) ^ (-1074 : ℤ) = 1 / 2 ^ 1074 := by
        rw [zpow_neg, one_div]; norm_cast
      rw [this]
      linarith
    · rw [max_eq_left hm]
      have : (2 : ℚ) ^ (Int.log 2 |x| - 52) = 2 ^ Int.log 2 |x| / 2 ^ 52 := by
        rw [zpow_sub₀ (by norm_num)]; norm_cast
      rw [this]
      have h3 : (2 : ℚ) ^ Int.log 2 |x| / 2 ^ 52 / 2 = 2 ^ Int.log 2 |x| / 2 ^ 53 := by rw [div_div]; norm_num
      rw [h3]
      have : (2 : ℚ) ^ Int.log 2 |x| / 2 ^ 53 ≤ |x| / 2 ^ 53 := by gcongr
      linarith
  rcases h2 with h2 | rfl
  · calc _ ≤ 1 / 2 * quantum x := by gcongr
      _ ≤ _ := by linarith
  · have : (pyRound (0 / quantum 0) : ℚ) = 0 := by
      rw [zero_div]
      exact_mod_cast pyRound_whole 0
    rw [this, zero_div, sub_zero, abs_zero, zero_mul]
    positivity

theorem scaled (k : ℤ) {m M : ℤ} (h : M ≤ m) : (k * 2 ^ m : ℚ) / 2 ^ M = ((k * 2 ^ (m - M).toNat : ℤ) : ℚ) := by
  rw [mul_div_assoc, ← zpow_sub₀ (by norm_num : (2 : ℚ) ≠ 0)]
  push_cast
  congr 1
  rw [← zpow_natCast, Int.toNat_of_nonneg (by omega)]

/-- doubles are not changed -/
theorem roundDouble_double {x : ℚ} (h : IsDouble x) : roundDouble x = x := by
  obtain ⟨k, m, rfl, hk, hm⟩ := h
  by_cases hk0 : k = 0
  · subst hk0
    have : pyRound 0 = 0 := pyRound_whole 0
    simp [roundDouble, this]
  suffices h : ∃ j : ℤ, (k * 2 ^ m : ℚ) / quantum (k * 2 ^ m) = j by
    obtain ⟨j, hj⟩ := h
    have hq := quantum_pos (k * 2 ^ m)
    unfold roundDouble
    rw [hj, pyRound_whole, ← hj]
    field_simp
  have hkq : (0 : ℚ) < |(k : ℚ)| := by
    rw [abs_pos]
    exact_mod_cast hk0
  have hx : |(k * 2 ^ m : ℚ)| = |(k : ℚ)| * 2 ^ m := by
    rw [abs_mul, abs_of_pos (show (0 : ℚ) < 2 ^ m from zpow_pos (by norm_num) _)]
  have hpos : 0 < |(k * 2 ^ m : ℚ)| := by rw [hx]; exact mul_pos hkq (zpow_pos (by norm_num) _)
  unfold quantum
  rcases lt_or_eq_of_le hk with hk | hk
  · have hlt : |(k * 2 ^ m : ℚ)| < ((2 : ℕ) : ℚ) ^ (53 + m) := by
      rw [hx, Nat.cast_ofNat, zpow_add₀ (by norm_num)]
      have h3 : |(k : ℚ)| < 2 ^ (53 : ℤ) := by exact_mod_cast hk
      exact mul_lt_mul_of_pos_right h3 (zpow_pos (by norm_num) _)
    rw [Int.lt_zpow_iff_log_lt (by norm_num) hpos] at hlt
    exact ⟨_, scaled k (by omega)⟩
  · have heq : |(k * 2 ^ m : ℚ)| = ((2 : ℕ) : ℚ) ^ (53 + m) := by
      rw [hx, Nat.cast_ofNat, zpow_add₀ (by norm_num)]
      congr 1
      exact_mod_cast hk
    rw [heq, Int.log_zpow (by norm_num)]
    have hM : max (53 + m - 52) (-1074) = m + 1 := by omega
    rw [hM]
    have h2 : ∃ j : ℤ, k = j * 2 := by
      rcases abs_eq (by positivity) |>.1 hk with rfl | rfl
      · exact ⟨2 ^ 52, by norm_num⟩
      · exact ⟨-2 ^ 52, by norm_num⟩
    obtain ⟨j, rfl⟩ := h2
    refine ⟨j, ?_⟩
    rw [zpow_add₀ (by norm_num)]
    push_cast
    field_simp

theorem quantum_exp (x : ℚ) : ∃ M : ℤ, quantum x = 2 ^ M ∧ -1074 ≤ M ∧ Int.log 2 |x| - 52 ≤ M := ⟨_, rfl, le_max_right _ _, le_max_left _ _⟩

/-- the result is a double -/
theorem roundDouble_isDouble (x : ℚ) : IsDouble (roundDouble x) := by
  obtain ⟨M, hM, h1, h2⟩ := quantum_exp x
  refine ⟨pyRound (x / quantum x), M, by unfold roundDouble; rw [hM], ?_, h1⟩
  have hn := pyRound_half (x / quantum x)
  have hlt : |x / quantum x| < 2 ^ 53 := by
    rw [abs_div, abs_of_pos (quantum_pos x), div_lt_iff₀ (quantum_pos x), hM]
    calc |x| < ((2 : ℕ) : ℚ) ^ (Int.log 2 |x| + 1) := Int.lt_zpow_succ_log_self (by norm_num) _
      _ ≤ ((2 : ℕ) : ℚ) ^ (53 + M) := by
        apply zpow_le_zpow_right₀ (by norm_num)
        omega
      _ = 2 ^ 53 * 2 ^ M := by rw [Nat.cast_ofNat, zpow_add₀ (by norm_num)]; norm_cast
  have h3 : |(pyRound (x / quantum x) : ℚ)| < 2 ^ 53 + 1 := by
    have := abs_sub_abs_le_abs_sub (pyRound (x / quantum x) : ℚ) (x / quantum x)
    linarith
  have h4 : |pyRound (x / quantum x)| < 2 ^ 53 + 1 := by exact_mod_cast h3
  omega

theorem pyRound_nearest (x : ℚ) (j : ℤ) : |(pyRound x : ℚ) - x| ≤ |(j : ℚ) - x| := by
  by_cases h : j = pyRound x
  · rw [h]
  have h1 : (1 : ℚ) ≤ |(j : ℚ) - pyRound x| := by
    have : 1 ≤ |j - pyRound x| := Int.one_le_abs (sub_ne_zero.2 h)
    exact_mod_cast this
  have h2 := pyRound_half x
  have h3 := abs_sub_le (j : ℚ) x (pyRound x)
  rw [abs_sub_comm x] at h3
  linarith

theorem round_multiple (x : ℚ) (j : ℤ) : |roundDouble x - x| ≤ |j * quantum x - x| := by
  have hq := quantum_pos x
  have e : ∀ k : ℚ, k * quantum x - x = (k - x / quantum x) * quantum x := by
    intro k
    field_simp
  unfold roundDouble
  rw [e, e, abs_mul, abs_mul]
  gcongr ?_ * _
  exact pyRound_nearest _ _

/-- no double is nearer -/
theorem roundDouble_nearest (x : ℚ) {d : ℚ} (h : IsDouble d) : |roundDouble x - x| ≤ |d - x| := by
  obtain ⟨k, m, rfl, hk, hm⟩ := h
  have hq := quantum_pos x
  by_cases hx : x = 0
  · subst hx
    have : roundDouble 0 = 0 := roundDouble_double ⟨0, 0, by simp, by simp, by norm_num⟩
    rw [this, sub_zero, abs_zero]
    exact abs_nonneg _
  by_cases hM : max (Int.log 2 |x| - 52) (-1074) ≤ m
  · have := round_multiple x (k * 2 ^ (m - max (Int.log 2 |x| - 52) (-1074)).toNat)
    rwa [← scaled k hM, show (2 : ℚ) ^ max (Int.log 2 |x| - 52) (-1074) = quantum x from rfl, div_mul_cancel₀ _ hq.ne'] at this
  · have hM2 : max (Int.log 2 |x| - 52) (-1074) = Int.log 2 |x| - 52 := by omega
    have hl : (2 : ℚ) ^ Int.log 2 |x| ≤ |x| := Int.zpow_log_le_self (by norm_num) (abs_pos.2 hx)
    have hd : |(k * 2 ^ m : ℚ)| ≤ 2 ^ Int.log 2 |x| := by
      rw [abs_mul, abs_of_pos (show (0 : ℚ) < 2 ^ m from zpow_pos (by norm_num) _)]
      calc |(k : ℚ)| * 2 ^ m ≤ 2 ^ 53 * 2 ^ m := by
            have h3 : |(k : ℚ)| ≤ 2 ^ 53 := by exact_mod_cast hk
            exact mul_le_mul_of_nonneg_right h3 (zpow_nonneg (by norm_num) _)
        _ = 2 ^ (53 + m) := by rw [zpow_add₀ (by norm_num)]; norm_cast
        _ ≤ _ := by
          apply zpow_le_zpow_right₀ (by norm_num)
          omega
    have hmul : (2 : ℚ) ^ 52 * quantum x = 2 ^ Int.log 2 |x| := by
      unfold quantum
      rw [hM2, zpow_sub₀ (by norm_num)]
      have : (2 : ℚ) ^ (52 : ℤ) = 2 ^ 52 := by norm_cast
      rw [this]
      field_simp
    have h1 : |roundDouble x - x| ≤ |x| - 2 ^ Int.log 2 |x| := by
      rcases lt_or_gt_of_ne hx with h | h
      · have := round_multiple x (-2 ^ 52)
        rw [show ((-2 ^ 52 : ℤ) : ℚ) = -2 ^ 52 by norm_cast, neg_mul, hmul] at this
        rw [abs_of_neg h] at hl ⊢ this
        rw [abs_of_nonneg (show 0 ≤ -2 ^ Int.log 2 (-x) - x by linarith)] at this
        linarith
      · have := round_multiple x (2 ^ 52)
        rw [show ((2 ^ 52 : ℤ) : ℚ) = 2 ^ 52 by norm_cast, hmul] at this
        rw [abs_of_pos h] at hl ⊢ this
        rw [abs_of_nonpos (show 2 ^ Int.log 2 x - x ≤ 0 by linarith)] at this
        linarith
    have h2 := abs_sub_abs_le_abs_sub x (k * 2 ^ m : ℚ)
    rw [abs_sub_comm x] at h2
    linarith

theorem isDouble_int {n : ℤ} (h : |n| ≤ 2 ^ 53) : IsDouble n := ⟨n, 0, by simp, h, by norm_num⟩

end Svgio
