import Verif.Lemmas.Bits
import Verif.Spec.Color

/-! Lemmas on the colour model. -/

namespace Svgio
open Svgio.Spec

theorem get_eq_byte (ch : Chan) (v : ℤ) : ch.get (some v) = some (byte ch.pos v) := by
  cases ch <;>
    simp only [Chan.get, Color.red, Color.green, Color.blue, Color.alpha, land_255,
      Int.shiftRight_eq_div_pow, byte, Chan.pos] <;> norm_num

theorem get_none (ch : Chan) : ch.get none = none := by cases ch <;> rfl

theorem set_none (ch : Chan) (x : ℚ) : ch.set none x = .error .valueError := by cases ch <;> rfl

theorem byte_nonneg (i : ℕ) (v : ℤ) : 0 ≤ byte i v := Int.emod_nonneg _ (by norm_num)
theorem byte_le (i : ℕ) (v : ℤ) : byte i v ≤ 255 := by
  have := Int.emod_lt_of_pos (v / 256 ^ i) (b := 256) (by norm_num)
  unfold byte
  omega

theorem tb_byteAt (i : ℕ) (v : ℤ) (k : ℕ) :
    Int.testBit (byte i v) k = (decide (k < 8) && Int.testBit v (8 * i + k)) := by
  have h : byte i v = (v >>> (8 * i)) % 2 ^ 8 := by
    rw [byte, Int.shiftRight_eq_div_pow]
    rw [pow_mul]
    norm_num
  rw [h, tb_emod, tb_shr]

theorem byte_ext {i j : ℕ} {v w : ℤ}
    (h : ∀ k < 8, Int.testBit v (8 * i + k) = Int.testBit w (8 * j + k)) : byte i v = byte j w := by
  apply int_ext
  intro k
  rw [tb_byteAt, tb_byteAt]
  by_cases hk : k < 8
  · simp [hk, h k hk]
  · simp [hk]

theorem set_some (ch : Chan) (v : ℤ) (x : ℚ) :
    ∃ w, ch.set (some v) x = .ok (some w) ∧
      ∀ k, Int.testBit w k = if 8 * ch.pos ≤ k ∧ k < 8 * ch.pos + 8
        then Int.testBit (clamp255 x) (k - 8 * ch.pos) else Int.testBit v k := by
  have hc : ∀ x, Color.crimp x = clamp255 x := crimp_eq
  have h0 := fun j => tb_byte (by rw [← hc]; exact crimp_nonneg x)
    (by rw [← hc]; exact crimp_le x : clamp255 x ≤ 255) j
  cases ch <;> refine ⟨_, rfl, fun k => ?_⟩ <;> rw [hc] <;>
    simp only [tb_lor, tb_land, tb_not, tb_FF000000, tb_FF0000, tb_FF00, tb_255, tb_shl, Chan.pos]
  · rw [h0 (k - 24)]
    by_cases h1 : 24 ≤ k <;> by_cases h2 : k < 32 <;> simp [h1, h2] <;> omega
  · rw [h0 (k - 16)]
    by_cases h1 : 16 ≤ k <;> by_cases h2 : k < 24 <;> simp [h1, h2] <;> omega
  · rw [h0 (k - 8)]
    by_cases h1 : 8 ≤ k <;> by_cases h2 : k < 16 <;> simp [h1, h2] <;> omega
  · rw [h0 k]
    by_cases h2 : k < 8 <;> simp [h2]

theorem byte_clamp (x : ℚ) : byte 0 (clamp255 x) = clamp255 x := by
  unfold byte clamp255
  omega

/-- rounding to nearest finds the integer closer than one half -/
theorem pyRound_near {x : ℚ} {n : ℤ} (h : |x - n| < 1 / 2) : pyRound x = n := by
  rw [abs_lt] at h
  have hf := Int.floor_le x
  have hf' := Int.lt_floor_add_one x
  have h1 : ⌊x⌋ = n ∨ ⌊x⌋ = n - 1 := by
    have h2 : ⌊x⌋ < n + 1 := by
      have : (⌊x⌋ : ℚ) < n + 1 := by linarith
      exact_mod_cast this
    have h3 : n - 1 < ⌊x⌋ + 1 := by
      have : (n - 1 : ℚ) < ⌊x⌋ + 1 := by linarith
      exact_mod_cast this
    omega
  unfold pyRound
  rcases h1 with h1 | h1
  · rw [h1]
    rw [if_pos (by linarith)]
  · rw [h1]
    have h5 : ¬ (x - ((n - 1 : ℤ):ℚ) < 1/2) := by push_cast; linarith
    have h6 : (1/2 < x - ((n - 1 : ℤ):ℚ)) := by push_cast; linarith
    rw [if_neg h5, if_pos h6]
    omega

theorem pyRound_err (x : ℚ) : |(pyRound x : ℚ) - x| ≤ 1 / 2 := by
  have hf := Int.floor_le x
  have hf' := Int.lt_floor_add_one x
  unfold pyRound
  split_ifs <;> rw [abs_le] <;> push_cast <;> constructor <;> linarith

set_option exponentiation.threshold 2000 in
theorem tiny : (1:ℚ) / 2 ^ 1074 ≤ 1 / 2 ^ 60 :=
  one_div_le_one_div_of_le (by positivity) (pow_le_pow_right₀ (by norm_num) (by norm_num))

/-- float error on values of magnitude at most `M` -/
theorem fl_near (F : FloatRounding) {x M : ℚ} (h : |x| ≤ M) :
    |F.fl x - x| ≤ M / 2 ^ 53 + 1 / 2 ^ 60 := by
  have h1 := F.err x
  have h2 : |x| / 2 ^ 53 ≤ M / 2 ^ 53 := div_le_div_of_nonneg_right h (by positivity)
  linarith [tiny]

/-- the float round trip `n -> n / 255.0 -> x * 255.0 -> round` is exact -/
theorem round_trip (F : FloatRounding) {n : ℤ} (h0 : 0 ≤ n) (h1 : n ≤ 255) :
    pyRound (F.fl (F.fl ((n : ℚ) / 255) * 255)) = n := by
  apply pyRound_near
  have q0 : (0:ℚ) ≤ n := by exact_mod_cast h0
  have q1 : (n:ℚ) ≤ 255 := by exact_mod_cast h1
  have ha : |(n:ℚ) / 255| ≤ 1 := by
    rw [abs_of_nonneg (by positivity)]
    linarith
  have e1 := fl_near F ha
  set y := F.fl ((n:ℚ) / 255) with hy
  rw [abs_le] at e1
  have hb : |y * 255| ≤ 256 := by
    rw [abs_le]
    constructor <;> linarith
  have e2 := fl_near F hb
  rw [abs_le] at e2
  rw [abs_lt]
  constructor <;> linarith

theorem round_one (F : FloatRounding) : pyRound (F.fl (1 * 255)) = 255 := by
  have : F.fl ((255:ℤ):ℚ) = (255:ℤ) := F.exact 255 (by norm_num)
  have h2 : F.fl (1 * 255) = (255:ℤ) := by rw [← this]; norm_num
  rw [h2]
  exact pyRound_near (by simp)

theorem round_zero (F : FloatRounding) : pyRound (F.fl (0 * 255)) = 0 := by
  have : F.fl ((0:ℤ):ℚ) = (0:ℤ) := F.exact 0 (by norm_num)
  have h2 : F.fl (0 * 255) = (0:ℤ) := by rw [← this]; norm_num
  rw [h2]
  exact pyRound_near (by simp)

/-- The packed value with four given bytes. -/
theorem pack_bytes {r g b a : ℤ} (hr : 0 ≤ r ∧ r ≤ 255) (hg : 0 ≤ g ∧ g ≤ 255)
    (hb : 0 ≤ b ∧ b ≤ 255) (ha : 0 ≤ a ∧ a ≤ 255) :
    Int.lor (Int.lor (Int.lor (r <<< (24 : ℕ)) (g <<< (16 : ℕ))) (b <<< (8 : ℕ))) a
      = r * 2 ^ 24 + g * 2 ^ 16 + b * 2 ^ 8 + a := by
  have t : ∀ (w : ℤ) (s i : ℕ), i < 8 → Int.testBit w (s + i) = Int.testBit (w / 2 ^ s) i := by
    intro w s i _
    rw [testBit_eq, testBit_eq, Int.ediv_ediv_of_nonneg (by positivity), pow_add]
  apply int_ext
  intro k
  simp only [tb_lor, tb_shl]
  rw [tb_byte hr.1 hr.2 (k - 24), tb_byte hg.1 hg.2 (k - 16), tb_byte hb.1 hb.2 (k - 8),
    tb_byte ha.1 ha.2 k]
  set w := r * 2 ^ 24 + g * 2 ^ 16 + b * 2 ^ 8 + a with hw
  have low : ∀ (x y : ℤ) (i : ℕ), x % 2 ^ 8 = y % 2 ^ 8 → i < 8 → Int.testBit x i = Int.testBit y i := by
    intro x y i h hi
    have h1 := tb_emod x 8 i
    have h2 := tb_emod y 8 i
    rw [h] at h1
    rw [h1] at h2
    simpa [hi] using h2
  rcases lt_or_ge k 8 with h | h
  · have : Int.testBit w k = Int.testBit a k := low _ _ _ (by omega) h
    simp [h, this, show ¬ 24 ≤ k by omega, show ¬ 16 ≤ k by omega, show ¬ 8 ≤ k by omega]
  rcases lt_or_ge k 16 with h' | h'
  · have : Int.testBit w k = Int.testBit b (k - 8) := by
      rw [show k = 8 + (k - 8) by omega, t _ _ _ (by omega), Nat.add_sub_cancel_left]
      exact low _ _ _ (by omega) (by omega)
    simp [h, this, show ¬ 24 ≤ k by omega, show ¬ 16 ≤ k by omega, show ¬ k < 8 by omega,
      show k - 8 < 8 by omega]
  rcases lt_or_ge k 24 with h'' | h''
  · have : Int.testBit w k = Int.testBit g (k - 16) := by
      rw [show k = 16 + (k - 16) by omega, t _ _ _ (by omega), Nat.add_sub_cancel_left]
      exact low _ _ _ (by omega) (by omega)
    simp [h, h', this, show ¬ 24 ≤ k by omega, show ¬ k < 8 by omega,
      show ¬ k - 8 < 8 by omega, show k - 16 < 8 by omega]
  rcases lt_or_ge k 32 with h3 | h3
  · have : Int.testBit w k = Int.testBit r (k - 24) := by
      rw [show k = 24 + (k - 24) by omega, t _ _ _ (by omega), Nat.add_sub_cancel_left]
      exact low _ _ _ (by omega) (by omega)
    simp [h', h'', this, show ¬ k < 8 by omega,
      show ¬ k - 8 < 8 by omega, show ¬ k - 16 < 8 by omega, show k - 24 < 8 by omega]
  · have : Int.testBit w k = false := by
      have e : w = w % 2 ^ 32 := by omega
      rw [e, tb_emod]
      simp [show ¬ k < 32 by omega]
    simp [this, show ¬ k < 8 by omega, show ¬ k - 24 < 8 by omega,
      show ¬ k - 8 < 8 by omega, show ¬ k - 16 < 8 by omega]

theorem clamp255_range (x : ℚ) : 0 ≤ clamp255 x ∧ clamp255 x ≤ 255 := by
  unfold clamp255; omega

theorem clampI_range (x : ℤ) : 0 ≤ clampI x ∧ clampI x ≤ 255 := by
  unfold clampI; omega

theorem clamp255_int (n : ℤ) : clamp255 n = clampI n := by
  unfold clamp255 clampI; rw [Int.floor_intCast]

/-- value of `rgb_to_int` for opacity in range -/
theorem rgbToInt_val (F : FloatRounding) (r g b o : ℚ) :
    ∃ a, 0 ≤ a ∧ a ≤ 255 ∧
      a = clampI (pyRound (F.fl ((if (if o > 1 then 1 else o) < 0 then 0 else (if o > 1 then 1 else o)) * 255))) ∧
      Color.rgbToInt F r g b o
        = clamp255 r * 2 ^ 24 + clamp255 g * 2 ^ 16 + clamp255 b * 2 ^ 8 + a := by
  refine ⟨_, ?_, ?_, rfl, ?_⟩
  · exact (clampI_range _).1
  · exact (clampI_range _).2
  · have hc : ∀ x, Color.crimp x = clamp255 x := crimp_eq
    unfold Color.rgbToInt
    simp only [hc, clamp255_int]
    exact pack_bytes (clamp255_range r) (clamp255_range g) (clamp255_range b) (clampI_range _)

theorem pack_get {r g b a : ℤ} (hr : 0 ≤ r ∧ r ≤ 255) (hg : 0 ≤ g ∧ g ≤ 255)
    (hb : 0 ≤ b ∧ b ≤ 255) (ha : 0 ≤ a ∧ a ≤ 255) :
    byte 3 (r * 2 ^ 24 + g * 2 ^ 16 + b * 2 ^ 8 + a) = r ∧
    byte 2 (r * 2 ^ 24 + g * 2 ^ 16 + b * 2 ^ 8 + a) = g ∧
    byte 1 (r * 2 ^ 24 + g * 2 ^ 16 + b * 2 ^ 8 + a) = b ∧
    byte 0 (r * 2 ^ 24 + g * 2 ^ 16 + b * 2 ^ 8 + a) = a := by
  unfold byte
  norm_num
  omega

end Svgio
