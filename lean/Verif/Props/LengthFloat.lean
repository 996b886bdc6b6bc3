import Verif.Lemmas.PrintFloat
import Verif.Lemmas.Ieee

/-!
C127: lengths printed and read with floats.
-/

namespace Svgio.Props

open Spec Print

/-- two floats do not differ by exactly 1e-12 -/
theorem doubles_apart {x z : ℚ} (hx : IsDouble x) (hz : IsDouble z) : |x - z| ≠ 1 / 10 ^ 12 := by
  obtain ⟨k, m, rfl, -, hm⟩ := hx
  obtain ⟨l, n, rfl, -, hn⟩ := hz
  obtain ⟨i, hi⟩ : ∃ i : ℕ, m = i - 1074 := ⟨(m + 1074).toNat, by omega⟩
  obtain ⟨j, hj⟩ : ∃ j : ℕ, n = j - 1074 := ⟨(n + 1074).toNat, by omega⟩
  intro h
  have e : ∀ t : ℕ, (2 : ℚ) ^ ((t : ℤ) - 1074) = 2 ^ t / 2 ^ 1074 := by
    intro t
    rw [zpow_sub₀ (by norm_num), zpow_natCast]
    congr 1
  have h2 : |k * 2 ^ i - l * 2 ^ j| * 5 ^ 12 = 2 ^ 1062 := by
    have h3 : (k : ℚ) * 2 ^ m - l * 2 ^ n = ((k * 2 ^ i - l * 2 ^ j : ℤ) : ℚ) / 2 ^ 1074 := by
      rw [hi, hj, e, e]; push_cast; ring
    rw [h3, abs_div, abs_of_pos (by positivity : (0 : ℚ) < 2 ^ 1074), ← Int.cast_abs, div_eq_div_iff (by positivity) (by positivity),
      one_mul] at h
    have h4 : ((|k * 2 ^ i - l * 2 ^ j| * 5 ^ 12 : ℤ) : ℚ) * 2 ^ 12 = ((2 ^ 1062 : ℤ) : ℚ) * 2 ^ 12 := by
      push_cast at h ⊢
      have h5 : (2 : ℚ) ^ 1062 * 2 ^ 12 = 2 ^ 1074 := by rw [← pow_add]
      rw [h5, ← h, mul_assoc]
      norm_num
    exact_mod_cast mul_right_cancel₀ (by positivity) h4
  have h5 : (2 : ℤ) ^ 1062 % 5 = 0 := by
    rw [← h2]
    exact Int.emod_eq_zero_of_dvd (Dvd.dvd.mul_left (dvd_pow_self 5 (by norm_num)) _)
  exact absurd h5 (by decide +kernel)

theorem lengthStr_congr {x z : ℚ} (h : z < 0 ↔ x < 0) (hu : units12 z = units12 x) : lengthStr z = lengthStr x := by
  have : fmtF12 z = fmtF12 x := by
    unfold fmtF12
    unfold units12 at hu
    simp only [hu, h]
  unfold lengthStr
  rw [this]

/-- C127: a float printed as a length, read back into a float and printed again gives the same text. Negative numbers so small that
they are printed as "-0" are excluded: the float -0.0 that is read is not in the model. -/
theorem C127_same_text {x : ℚ} (hx : IsDouble x) (h : 0 ≤ x ∨ x ≤ -(1 / 10 ^ 12)) :
    lengthStr (roundDouble (floatVal (lengthStr x))) = lengthStr x := by
  have hclose := lengthStr_close x
  have hval := floatVal_lengthStr x
  generalize hy : floatVal (lengthStr x) = y at *
  have hz := roundDouble_nearest y hx
  have hzd := roundDouble_isDouble y
  by_cases hzx : roundDouble y = x
  · rw [hzx]
  by_cases hn : units12 x = 0
  · have hx0 : 0 ≤ x := by
      rcases h with h | h
      · exact h
      · exfalso
        have := units12_close x
        rw [hn, Nat.cast_zero, zero_div, zero_sub, abs_neg, abs_abs] at this
        have h2 := neg_abs_le x
        norm_num at this h h2
        linarith
    rw [hn] at hval
    simp only [Nat.cast_zero, zero_div, mul_zero] at hval
    subst hval
    have h0 : roundDouble 0 = 0 := roundDouble_double ⟨0, 0, by simp, by simp, by norm_num⟩
    rw [h0]
    refine lengthStr_congr ⟨fun h => by linarith, fun h => by linarith⟩ ?_
    rw [hn]; decide +kernel
  have hn1 : (1 : ℚ) ≤ units12 x := by exact_mod_cast Nat.one_le_iff_ne_zero.2 hn
  generalize roundDouble y = z at *
  rw [abs_sub_comm] at hclose
  have hyz : |z - y| < 1 / (2 * 10 ^ 12) := by
    rcases lt_or_eq_of_le (le_trans hz hclose) with h1 | h1
    · exact h1
    · exfalso
      have h2 : |x - y| = 1 / (2 * 10 ^ 12) := le_antisymm hclose (by rw [← h1]; exact hz)
      apply doubles_apart hx hzd
      rcases abs_eq (by norm_num : (0 : ℚ) ≤ 1 / (2 * 10 ^ 12)) |>.1 h1 with h1 | h1 <;>
        rcases abs_eq (by norm_num : (0 : ℚ) ≤ 1 / (2 * 10 ^ 12)) |>.1 h2 with h2 | h2
      · exact absurd (by linarith) hzx
      · rw [show x - z = -(1 / 10 ^ 12) by linarith, abs_neg, abs_of_pos (by norm_num)]
      · rw [show x - z = 1 / 10 ^ 12 by linarith, abs_of_pos (by norm_num)]
      · exact absurd (by linarith) hzx
  have hyz2 := abs_lt.1 hyz
  have hu12 : (1 : ℚ) / 10 ^ 12 ≤ units12 x / 10 ^ 12 := div_le_div_of_nonneg_right hn1 (by positivity)
  generalize hnn : units12 x = n at *
  have hgoal : (z < 0 ↔ x < 0) ∧ |(|z| * 10 ^ 12 - n)| < 1 / 2 := by
    have hu : (n : ℚ) / 10 ^ 12 * 10 ^ 12 = n := by field_simp
    split at hval
    · rename_i hx0
      have hz0 : z < 0 := by norm_num at hyz2 hu12; linarith
      refine ⟨by tauto, ?_⟩
      rw [abs_of_neg hz0, abs_lt]
      norm_num at hyz2 ⊢
      constructor <;> linarith
    · rename_i hx0
      have hz0 : 0 < z := by norm_num at hyz2 hu12; linarith
      refine ⟨⟨fun h => by linarith, fun h => by linarith⟩, ?_⟩
      rw [abs_of_pos hz0, abs_lt]
      norm_num at hyz2 ⊢
      constructor <;> linarith
  exact lengthStr_congr hgoal.1 (by rw [hnn]; exact pyRound_near hgoal.2)

/-- what is excluded in C127 -/
example : lengthStr (-(1 / 10 ^ 13)) = "-0".toList := by decide +kernel

example : IsDouble (1 / 8192) ∧ lengthStr (1 / 8192) = "0.000122070312".toList :=
  ⟨⟨1, -13, by norm_num, by norm_num, by norm_num⟩, by decide +kernel⟩
example : lengthStr (roundDouble (floatVal "0.1".toList)) = "0.1".toList := by decide +kernel

end Svgio.Props
