import Verif.Model.Color
import Mathlib.Tactic.Ring
import Mathlib.Tactic.Linarith

/-! Bit-level lemmas on unbounded integers. -/

namespace Svgio

theorem testBit_eq (m : ℤ) (k : ℕ) : Int.testBit m k = decide (m / 2 ^ k % 2 = 1) := by
  cases m with
  | ofNat n =>
    rw [Int.testBit.eq_1, Nat.testBit_eq_decide_div_mod_eq]
    simp only [Int.ofNat_eq_natCast, decide_eq_decide]
    norm_cast
  | negSucc n =>
    rw [Int.testBit.eq_2, Nat.testBit_eq_decide_div_mod_eq]
    rw [show (Int.negSucc n / 2 ^ k : ℤ) = Int.negSucc n >>> k by rw [Int.shiftRight_eq_div_pow]; norm_cast,
      Int.negSucc_shiftRight, Nat.shiftRight_eq_div_pow]
    generalize n / 2 ^ k = q
    rw [Int.negSucc_eq, Bool.eq_iff_iff]
    simp
    omega

theorem int_ext {a b : ℤ} (h : ∀ k, Int.testBit a k = Int.testBit b k) : a = b := by
  have key : ∀ k : ℕ, a % 2 ^ k = b % 2 ^ k := by
    intro k
    induction k with
    | zero => simp [Int.emod_one]
    | succ k ih =>
      have hk := h k
      rw [testBit_eq, testBit_eq, decide_eq_decide] at hk
      have h1 : ∀ x : ℤ, x % 2 ^ (k + 1) = x % 2 ^ k + 2 ^ k * (x / 2 ^ k % 2) := by
        intro x
        have hq : x / 2 ^ (k + 1) = x / 2 ^ k / 2 := by
          rw [Int.ediv_ediv_of_nonneg (by positivity), pow_succ]
        rw [Int.emod_def, Int.emod_def, Int.emod_def (x / 2 ^ k), hq]
        ring
      rw [h1, h1, ih]
      have : a / 2 ^ k % 2 = b / 2 ^ k % 2 := by omega
      rw [this]
  obtain ⟨k, hk⟩ : ∃ k : ℕ, |a - b| < 2 ^ k := by
    refine ⟨(a - b).natAbs, ?_⟩
    have := Nat.lt_two_pow_self (n := (a - b).natAbs)
    zify at this
    exact this
  have h3 : (2 : ℤ) ^ k ∣ a - b := Int.dvd_of_emod_eq_zero (Int.emod_eq_emod_iff_emod_sub_eq_zero.mp (key k))
  have := Int.eq_zero_of_abs_lt_dvd h3 hk
  omega

@[simp] theorem tb_land (a b : ℤ) (k : ℕ) :
    Int.testBit (Int.land a b) k = (Int.testBit a k && Int.testBit b k) := Int.testBit_land a b k

@[simp] theorem tb_lor (a b : ℤ) (k : ℕ) :
    Int.testBit (Int.lor a b) k = (Int.testBit a k || Int.testBit b k) := Int.testBit_lor a b k

@[simp] theorem tb_not (a : ℤ) (k : ℕ) : Int.testBit (~~~a) k = !Int.testBit a k := by
  have : ~~~a = Int.lnot a := by cases a <;> rfl
  rw [this, Int.testBit_lnot]

@[simp] theorem tb_shr (a : ℤ) (s k : ℕ) : Int.testBit (a >>> s) k = Int.testBit a (s + k) := by
  rw [testBit_eq, testBit_eq, Int.shiftRight_eq_div_pow, Int.ediv_ediv_of_nonneg (by positivity)]
  rw [pow_add]
  push_cast
  rfl

theorem tb_shl (a : ℤ) (s k : ℕ) :
    Int.testBit (a <<< s) k = (decide (s ≤ k) && Int.testBit a (k - s)) := by
  rw [testBit_eq, testBit_eq, Int.shiftLeft_eq]
  by_cases h : s ≤ k
  · obtain ⟨j, rfl⟩ := Nat.exists_eq_add_of_le h
    simp only [h, decide_true, Bool.true_and, Nat.add_sub_cancel_left]
    have : a * 2 ^ s / 2 ^ (s + j) = a / 2 ^ j := by
      rw [pow_add, Int.mul_comm a, Int.mul_ediv_mul_of_pos _ _ (by positivity)]
    rw [this]
  · simp only [h, decide_false, Bool.false_and, decide_eq_false_iff_not]
    obtain ⟨j, rfl⟩ := Nat.exists_eq_add_of_le (Nat.le_of_lt (Nat.lt_of_not_le h))
    have hj : 1 ≤ j := by omega
    obtain ⟨i, rfl⟩ := Nat.exists_eq_add_of_le hj
    have : a * 2 ^ (k + (1 + i)) / 2 ^ k = a * 2 ^ i * 2 := by
      rw [show a * 2 ^ (k + (1 + i)) = (a * 2 ^ i * 2) * 2 ^ k by ring]
      exact Int.mul_ediv_cancel _ (by positivity)
    rw [this]
    omega

theorem tb_mask (n k : ℕ) : Int.testBit (2 ^ n - 1) k = decide (k < n) := by
  have : ((2 ^ n - 1 : ℤ)) = ((2 ^ n - 1 : ℕ) : ℤ) := by
    have := Nat.one_le_two_pow (n := n)
    push_cast [this]
    ring
  rw [this]
  change Nat.testBit (2 ^ n - 1) k = _
  rw [Nat.testBit_two_pow_sub_one]

theorem tb_255 (k : ℕ) : Int.testBit 255 k = decide (k < 8) := tb_mask 8 k
theorem tb_24 (k : ℕ) : Int.testBit 0xFFFFFF k = decide (k < 24) := tb_mask 24 k
theorem tb_32 (k : ℕ) : Int.testBit 0xFFFFFFFF k = decide (k < 32) := tb_mask 32 k

theorem tb_maskShl (n s k : ℕ) :
    Int.testBit ((2 ^ n - 1) * 2 ^ s) k = (decide (s ≤ k) && decide (k < s + n)) := by
  rw [← Int.shiftLeft_eq, tb_shl, tb_mask]
  by_cases h : s ≤ k <;> simp [h]
  omega

theorem tb_FF00 (k : ℕ) : Int.testBit 0xFF00 k = (decide (8 ≤ k) && decide (k < 16)) :=
  tb_maskShl 8 8 k
theorem tb_FF0000 (k : ℕ) : Int.testBit 0xFF0000 k = (decide (16 ≤ k) && decide (k < 24)) :=
  tb_maskShl 8 16 k
theorem tb_FF000000 (k : ℕ) : Int.testBit 0xFF000000 k = (decide (24 ≤ k) && decide (k < 32)) :=
  tb_maskShl 8 24 k
theorem tb_FFFFFF00 (k : ℕ) : Int.testBit 0xFFFFFF00 k = (decide (8 ≤ k) && decide (k < 32)) :=
  tb_maskShl 24 8 k

theorem tb_emod (a : ℤ) (n k : ℕ) :
    Int.testBit (a % 2 ^ n) k = (decide (k < n) && Int.testBit a k) := by
  rw [testBit_eq, testBit_eq]
  by_cases h : k < n
  · obtain ⟨j, rfl⟩ := Nat.exists_eq_add_of_lt h
    simp only [h, decide_true, Bool.true_and]
    have : a % 2 ^ (k + j + 1) / 2 ^ k % 2 = a / 2 ^ k % 2 := by
      have e : a % 2 ^ (k + j + 1) = a + 2 ^ k * (-(2 * (2 ^ j * (a / 2 ^ (k + j + 1))))) := by
        rw [Int.emod_def]
        ring
      rw [e, Int.add_mul_ediv_left _ _ (by positivity)]
      omega
    rw [this]
  · simp only [h, decide_false, Bool.false_and, decide_eq_false_iff_not]
    have h0 : 0 ≤ a % 2 ^ n := Int.emod_nonneg _ (by positivity)
    have h1 : a % 2 ^ n < 2 ^ n := Int.emod_lt_of_pos _ (by positivity)
    have h2 : (2:ℤ) ^ n ≤ 2 ^ k := pow_le_pow_right₀ (by norm_num) (by omega)
    rw [Int.ediv_eq_zero_of_lt h0 (by omega)]
    norm_num

theorem land_255 (a : ℤ) : Int.land a 255 = a % 256 := by
  apply int_ext
  intro k
  rw [show (256:ℤ) = 2 ^ 8 by norm_num, tb_emod, tb_land, tb_255, Bool.and_comm]

theorem land_24 (a : ℤ) : Int.land a 0xFFFFFF = a % 2 ^ 24 := by
  apply int_ext; intro k; rw [tb_emod, tb_land, tb_24, Bool.and_comm]

theorem land_32 (a : ℤ) : Int.land a 0xFFFFFFFF = a % 2 ^ 32 := by
  apply int_ext; intro k; rw [tb_emod, tb_land, tb_32, Bool.and_comm]

/-- a number in `0..255` has no bits from 8 on -/
theorem tb_byte {a : ℤ} (h0 : 0 ≤ a) (h1 : a ≤ 255) (k : ℕ) :
    Int.testBit a k = (decide (k < 8) && Int.testBit a k) := by
  conv_lhs => rw [show a = a % 2 ^ 8 by omega]
  rw [tb_emod]

theorem crimp_nonneg (v : ℚ) : 0 ≤ Color.crimp v := by
  unfold Color.crimp
  split_ifs with h1 h2
  · norm_num
  · norm_num
  · exact Int.floor_nonneg.mpr (not_lt.mp h2)

theorem crimp_le (v : ℚ) : Color.crimp v ≤ 255 := by
  unfold Color.crimp
  split_ifs with h1 h2
  · norm_num
  · norm_num
  · have : ⌊v⌋ ≤ ⌊(255:ℚ)⌋ := Int.floor_le_floor (not_lt.mp h1)
    simpa using this

/-- `crimp` is "truncate, then clamp". -/
theorem crimp_eq (v : ℚ) : Color.crimp v = max 0 (min 255 ⌊v⌋) := by
  unfold Color.crimp
  split_ifs with h1 h2
  · have : (255:ℤ) ≤ ⌊v⌋ := Int.le_floor.mpr (by push_cast; exact le_of_lt h1)
    omega
  · have : ⌊v⌋ < 0 := Int.floor_lt.mpr (by push_cast; exact h2)
    omega
  · have h3 : ⌊v⌋ ≤ ⌊(255:ℚ)⌋ := Int.floor_le_floor (not_lt.mp h1)
    have h4 : 0 ≤ ⌊v⌋ := Int.floor_nonneg.mpr (not_lt.mp h2)
    have : ⌊(255:ℚ)⌋ = 255 := by norm_num
    omega

theorem crimp_intCast (n : ℤ) : Color.crimp n = max 0 (min 255 n) := by
  rw [crimp_eq, Int.floor_intCast]

theorem crimp_byte {n : ℤ} (h0 : 0 ≤ n) (h1 : n ≤ 255) : Color.crimp n = n := by
  rw [crimp_intCast]; omega

theorem tb_crimp (v : ℚ) (k : ℕ) :
    Int.testBit (Color.crimp v) k = (decide (k < 8) && Int.testBit (Color.crimp v) k) :=
  tb_byte (crimp_nonneg v) (crimp_le v) k

end Svgio
