import Verif.Props.Print
import Verif.Model.Py

/-!
Printing numbers close to a printed number.
-/

namespace Svgio.Print

open Spec Props

/-- The value of a printed coordinate: the digits are those of the coordinate, and the exponent is not one that is shortened. -/
theorem coordText_value {x : ℚ} (hx : x ≠ 0) : ∃ e : ℤ,
    floatVal (coordText x) = sgVal x * ((gDigits 12 |x|).1 * (10 : ℚ) ^ (e - 11)) ∧
      ¬ ((e < -4 ∨ 12 ≤ e) ∧ ¬ 10 ^ 11 ∣ (gDigits 12 |x|).1 ∧ 10 ∣ e) ∧ min (gDigits 12 |x|).2 0 ≤ e := by
  by_cases hre : ((gDigits 12 |x|).2 < -4 ∨ 12 ≤ (gDigits 12 |x|).2) ∧ ¬ 10 ^ 11 ∣ (gDigits 12 |x|).1 ∧ 10 ∣ (gDigits 12 |x|).2
  swap
  · refine ⟨(gDigits 12 |x|).2, ?_, hre, min_le_left _ _⟩
    rw [(coordText_number x).2.2 (fun h => hre h.2), gVal, if_neg hx]
    norm_num
  rcases fmtG_cases (prec := 12) hx with ⟨h1, h2, h⟩ | ⟨h1, h⟩
  · obtain ⟨h3, -⟩ := hre
    push_cast at h2
    omega
  · obtain ⟨ds, e1, e2, e3, e4, e5⟩ := natText_expo (gDigits 12 |x|).2
    obtain ⟨-, hd, -⟩ := hre
    generalize gDigits 12 |x| = d at *
    rw [e1] at h
    have hdot : '.' ∈ fmtG 12 x := by
      rw [h]
      exact List.mem_append_right _ (List.mem_append_left _ ((decText_dot _ _).2 (by simpa using hd)))
    have hct : coordText x = rstripC '.' (rstripC '0' (fmtG 12 x)) := by
      unfold coordText
      simp only
      rw [if_pos hdot]
    obtain ⟨k, hk, -⟩ := rstripC_spec '0' ds
    have hds' : Digits (rstripC '0' ds) := rstripC_digits e2
    have hlast : ∀ c ∈ (rstripC '0' ds).getLast?, c ≠ '0' := rstripC_getLast
    have hct2 : coordText x = sgText x ++ (decText d.1 (12 - 1) ++ 'E' :: (if decide (d.2 < 0) = true then '-' else '+') ::
        rstripC '0' ds) := by
      rw [hct, h]
      have a1 : ∀ a b : List Char, ∀ s : Char, s ≠ '0' → s ≠ '.' → rstripC '.' (rstripC '0' (a ++ (b ++ 'E' :: s :: ds))) =
          a ++ (b ++ 'E' :: s :: rstripC '0' ds) := by
        intro a b s h0 h1
        rw [show a ++ (b ++ 'E' :: s :: ds) = (a ++ b ++ ['E']) ++ s :: ds by simp, rstripC_mid h0, rstripC_mid h1,
          rstripC_last (s := rstripC '0' ds)]
        · simp
        · exact fun c hc => (digit_not_sign (hds' c (List.mem_of_getLast? hc))).2.2.1
      refine a1 _ _ _ ?_ ?_ <;> split <;> decide
    have hv : natVal ds = natVal (rstripC '0' ds) * 10 ^ k := by
      conv_lhs => rw [hk]
      exact natVal_append_zeros _ _
    have hne : d.2.natAbs ≠ 0 := by omega
    have hne2 : natVal (rstripC '0' ds) ≠ 0 := by
      intro h0; rw [h0, zero_mul, e5] at hv; exact hne hv
    have hval := floatVal_expo x (decText_mantissa d.1 (12 - 1)) (decide (d.2 < 0)) hds'
    rw [← hct2, decText_val] at hval
    have hnd : ¬ 10 ∣ natVal (rstripC '0' ds) := by
      intro h10
      rcases List.eq_nil_or_concat (rstripC '0' ds) with hq | ⟨q, b, hq⟩
      · rw [hq] at hne2; exact hne2 rfl
      · rw [List.concat_eq_append] at hq
        rw [hq] at hlast h10 hds'
        have hb : b ≠ '0' := hlast b (by simp)
        rw [natVal_snoc] at h10
        have hbd := hds' b (by simp)
        have hz : digVal b = 0 := by
          have : digVal b < 10 := by
            have h1 := hbd.2
            unfold digVal
            have h2 : b.toNat ≤ '9'.toNat := h1
            have h3 : '9'.toNat = 57 := rfl
            have h4 : '0'.toNat = 48 := rfl
            omega
          omega
        apply hb
        have h1 : '0'.toNat ≤ b.toNat := hbd.1
        unfold digVal at hz
        have : b.toNat = '0'.toNat := by omega
        exact Char.toNat_inj.1 this
    have hle : natVal (rstripC '0' ds) ≤ d.2.natAbs := by
      rw [← e5, hv]
      exact Nat.le_mul_of_pos_right _ (by positivity)
    refine ⟨if decide (d.2 < 0) = true then -(natVal (rstripC '0' ds) : ℤ) else natVal (rstripC '0' ds), ?_, ?_, ?_⟩
    · rw [hval]
      congr 1
      have := expo_val (prec := 12) (by norm_num) d.1
        (if decide (d.2 < 0) = true then -(natVal (rstripC '0' ds) : ℤ) else natVal (rstripC '0' ds))
      rw [this]
      norm_num
    · rintro ⟨-, -, h10⟩
      apply hnd
      split at h10 <;> omega
    · split
      · rename_i h0
        have : d.2 < 0 := by simpa using h0
        omega
      · exact le_trans (min_le_right _ _) (by positivity)

theorem pyRound_near {w : ℚ} {n : ℕ} (hw : |w - n| < 1 / 2) : (pyRound w).toNat = n := by
  have hc := pyRound_close w
  have : |((pyRound w - n : ℤ) : ℚ)| < 1 := by
    push_cast
    calc |(pyRound w : ℚ) - n| = |(pyRound w - w) + (w - n)| := by congr 1; ring
      _ ≤ |(pyRound w : ℚ) - w| + |w - n| := abs_add_le _ _
      _ < 1 := by linarith
  have h3 : |pyRound w - n| < 1 := by exact_mod_cast this
  rw [abs_lt] at h3
  omega

/-- the digits of a number close to a number with so many digits -/
theorem gDigits_near {prec m : ℕ} {e : ℤ} {z : ℚ} (hp : 1 ≤ prec) (h1 : 10 ^ (prec - 1) ≤ m) (h2 : m < 10 ^ prec)
    (hz : |z - m * (10 : ℚ) ^ (e - (prec - 1))| * 20 < (10 : ℚ) ^ (e - (prec - 1))) : gDigits prec z = (m, e) := by
  set j : ℤ := e - (prec - 1) with hj
  have hpos : (0 : ℚ) < (10 : ℚ) ^ j := by positivity
  set b := z / (10 : ℚ) ^ j with hb
  have hzb : z = b * (10 : ℚ) ^ j := by rw [hb]; field_simp
  have hbm : |b - m| * 20 < 1 := by
    have : z - m * (10 : ℚ) ^ j = (b - m) * (10 : ℚ) ^ j := by rw [hzb]; ring
    rw [this, abs_mul, abs_of_pos hpos] at hz
    by_contra hc
    push Not at hc
    have := mul_le_mul_of_nonneg_right hc hpos.le
    linarith
  have hb1 : b - m < 1 / 20 := by have := le_abs_self (b - m); linarith
  have hb2 : -(1 / 20) < b - m := by have := neg_abs_le (b - m); linarith
  have hm1 : (10 : ℚ) ^ (prec - 1) ≤ m := by exact_mod_cast h1
  have hm2 : (m : ℚ) + 1 ≤ 10 ^ prec := by exact_mod_cast h2
  have hpp : (10 : ℚ) ^ prec = 10 * 10 ^ (prec - 1) := by
    rw [← pow_succ']; congr 1; omega
  have hone : (1 : ℚ) ≤ 10 ^ (prec - 1) := one_le_pow₀ (by norm_num)
  have hE : (10 : ℚ) ^ e = 10 ^ (prec - 1) * (10 : ℚ) ^ j := by
    rw [← zpow_natCast, ← zpow_add₀ (by norm_num)]; congr 1; omega
  have hE1 : (10 : ℚ) ^ (e + 1) = 10 ^ prec * (10 : ℚ) ^ j := by
    rw [← zpow_natCast, ← zpow_add₀ (by norm_num)]; congr 1; omega
  have hE0 : (10 : ℚ) ^ (e - 1) = 10 ^ (prec - 1) * (10 : ℚ) ^ j / 10 := by
    rw [zpow_sub₀ (by norm_num), hE]; norm_num
  have hz0 : 0 < z := by
    rw [hzb]; exact mul_pos (by linarith) hpos
  have e1 := Int.zpow_log_le_self (b := 10) (by norm_num) hz0
  have e2 := Int.lt_zpow_succ_log_self (b := 10) (by norm_num) z
  norm_cast at e1 e2
  push_cast at e1 e2
  unfold gDigits
  by_cases hle : (10 : ℚ) ^ e ≤ z
  · have hlt : z < (10 : ℚ) ^ (e + 1) := by
      rw [hE1, hzb]
      exact mul_lt_mul_of_pos_right (by linarith) hpos
    have he : Int.log 10 z = e := decade_unique e1 e2 hle hlt
    simp only [he]
    rw [← hj, ← hb, pyRound_near (w := b) (n := m) (by rw [abs_lt]; constructor <;> linarith), if_neg (by omega)]
  · push Not at hle
    have hge : (10 : ℚ) ^ (e - 1) ≤ z := by
      rw [hE0, hzb]
      have : (10 : ℚ) ^ (prec - 1) / 10 ≤ b := by linarith
      have := mul_le_mul_of_nonneg_right this hpos.le
      linarith
    have he : Int.log 10 z = e - 1 := decade_unique e1 e2 hge (by rw [sub_add_cancel]; exact hle)
    have hbl : b < 10 ^ (prec - 1) := by
      rw [hE, hzb] at hle
      exact lt_of_mul_lt_mul_right hle hpos.le
    have hmm : m = 10 ^ (prec - 1) := by
      have : (m : ℚ) < 10 ^ (prec - 1) + 1 := by linarith
      have : m < 10 ^ (prec - 1) + 1 := by exact_mod_cast this
      omega
    have hdiv : z / (10 : ℚ) ^ (e - 1 - ((prec : ℤ) - 1)) = 10 * b := by
      have : (10 : ℚ) ^ (e - 1 - ((prec : ℤ) - 1)) = (10 : ℚ) ^ j / 10 := by
        rw [show e - 1 - ((prec : ℤ) - 1) = j - 1 by omega, zpow_sub₀ (by norm_num)]; norm_num
      rw [this, hb]; field_simp
    simp only [he]
    rw [hdiv, pyRound_near (w := 10 * b) (n := 10 ^ prec) ?_, if_pos rfl]
    · rw [hmm]; simp
    · push_cast
      rw [hpp, abs_lt]
      rw [hmm] at hb1 hb2
      push_cast at hb1 hb2
      constructor <;> linarith

/-- the number with the digits `m` and the exponent `e` -/
theorem fmtG_near {prec m : ℕ} {e : ℤ} {y z : ℚ} (hp : 1 ≤ prec) (hp2 : prec ≤ 12) (h1 : 10 ^ (prec - 1) ≤ m) (h2 : m < 10 ^ prec)
    (hy : |y| = m * (10 : ℚ) ^ (e - (prec - 1))) (hz : |z - y| ≤ |y| / 10 ^ 14) : fmtG prec z = fmtG prec y := by
  have hpos : (0 : ℚ) < (10 : ℚ) ^ (e - ((prec : ℤ) - 1)) := by positivity
  have hm0 : (0 : ℚ) < m := by
    have : 0 < 10 ^ (prec - 1) := by positivity
    have : 0 < m := by omega
    exact_mod_cast this
  have hy0 : 0 < |y| := by rw [hy]; positivity
  have hyn : y ≠ 0 := abs_pos.1 hy0
  have hd1 : gDigits prec |y| = (m, e) := gDigits_near hp h1 h2 (by rw [hy]; simpa using hpos)
  have hsg : (z < 0 ↔ y < 0) ∧ z ≠ 0 := by
    have h3 : |y| / 10 ^ 14 < |y| := div_lt_self hy0 (by norm_num)
    have h4 := abs_le.1 hz
    rcases lt_or_gt_of_ne hyn with h | h
    · rw [abs_of_neg h] at h3 h4
      have : z < 0 := by linarith
      exact ⟨by tauto, this.ne⟩
    · rw [abs_of_pos h] at h3 h4
      have : 0 < z := by linarith
      exact ⟨⟨fun h => by linarith, fun h => by linarith⟩, this.ne'⟩
  have hd2 : gDigits prec |z| = (m, e) := by
    apply gDigits_near hp h1 h2
    rw [← hy]
    have h3 : |(|z| - |y|)| ≤ |y| / 10 ^ 14 := le_trans (abs_abs_sub_abs_le z y) hz
    have h4 : (m : ℚ) ≤ 10 ^ 12 := by
      have : m ≤ 10 ^ 12 := le_trans h2.le (Nat.pow_le_pow_right (by norm_num) hp2)
      exact_mod_cast this
    have h5 := mul_le_mul_of_nonneg_right h4 hpos.le
    rw [← hy] at h5
    have h6 : |y| / 10 ^ 14 * 20 < (10 : ℚ) ^ (e - ((prec : ℤ) - 1)) := by
      have : |y| / 10 ^ 14 * 20 ≤ 10 ^ 12 * (10 : ℚ) ^ (e - ((prec : ℤ) - 1)) / 10 ^ 14 * 20 := by
        have := div_le_div_of_nonneg_right h5 (by norm_num : (0 : ℚ) ≤ 10 ^ 14)
        linarith
      linarith
    linarith
  unfold fmtG
  rw [if_neg hsg.2, if_neg hyn, hd1, hd2]
  simp only [hsg.1]

/-- Rounding to a float changes numbers that are not tiny by little. -/
theorem fl_close (F : FloatRounding) {y : ℚ} (h : y = 0 ∨ 1 / 10 ^ 300 ≤ |y|) : |F.fl y - y| ≤ |y| / 10 ^ 14 := by
  rcases h with rfl | h
  · have := F.exact 0 (by norm_num)
    rw [Int.cast_zero] at this
    rw [this]; simp
  · have h1 := F.err y
    have h2 : (1 : ℚ) / 2 ^ 1074 ≤ 1 / 10 ^ 300 / 10 ^ 15 := by
      rw [div_div, ← pow_add]
      exact one_div_le_one_div_of_le (by positivity) (by exact_mod_cast (by decide +kernel : 10 ^ (300 + 15) ≤ 2 ^ 1074))
    have h3 : |y| / 2 ^ 53 ≤ |y| / 10 ^ 15 := by
      apply div_le_div_of_nonneg_left (abs_nonneg y) (by norm_num) (by norm_num)
    have h4 := div_le_div_of_nonneg_right h (by norm_num : (0 : ℚ) ≤ 10 ^ 15)
    have h5 : |y| / 10 ^ 14 = 10 * (|y| / 10 ^ 15) := by ring
    have h6 : 0 ≤ |y| / 10 ^ 15 := by positivity
    linarith

end Svgio.Print
