import Verif.Props.ColorDistinct
import Verif.Lemmas.Ieee
import Mathlib.Analysis.SpecialFunctions.Pow.Real
import Mathlib.Analysis.Convex.SpecificFunctions.Basic

/-!
C12 with floats: the cube root of `Color.distinct` (svgio/basic.py:1061), the double nearest to a real power.
-/

namespace Svgio.Props
open Spec Color

/-- `d` is a double, and none is nearer to the real number `v` -/
def NearestDouble (v : ℝ) (d : ℚ) : Prop := IsDouble d ∧ ∀ e, IsDouble e → |(d : ℝ) - v| ≤ |(e : ℝ) - v|

/-- `r` is `int(pattern ** (1.0 / 3.0))`, basic.py:1061: the exponent is the double nearest to 1/3, the power is rounded to the nearest
double, and cut -/
def FloatCbrt (r : ℕ → ℕ) : Prop :=
  ∃ pow : ℕ → ℚ, (∀ i : ℕ, NearestDouble ((i : ℝ) ^ ((roundDouble (1 / 3) : ℚ) : ℝ)) (pow i)) ∧ ∀ i, r i = ⌊pow i⌋.toNat

theorem third_double : roundDouble (1 / 3) = 6004799503160661 / 18014398509481984 := by decide +kernel

/-- a half to the power of a number between 0 and 1 lies below the chord -/
theorem half_pow_lt {x : ℝ} (h0 : 0 < x) (h1 : x < 1) : ((1 : ℝ) / 2) ^ x < 1 - x / 2 := by
  have := rpow_one_add_lt_one_add_mul_self (s := -1 / 2) (by norm_num) (by norm_num) h0 h1
  rw [show (1 : ℝ) / 2 = 1 + -1 / 2 by norm_num]
  linarith

/-- the power for 64 is so far below 4 that the double before 4 is nearer -/
theorem pow64 : (64 : ℝ) ^ ((roundDouble (1 / 3) : ℚ) : ℝ) < 4 - 1 / 2 ^ 52 := by
  have h : ((roundDouble (1 / 3) : ℚ) : ℝ) = 1 / 3 - 1 / (3 * 2 ^ 54) := by rw [third_double]; push_cast; norm_num
  rw [h]
  have lt := half_pow_lt (x := 1 / 2 ^ 53) (by positivity) (by norm_num)
  have h2 : (1 : ℝ) / (3 * 2 ^ 54) = 1 / 2 ^ 53 / 6 := by norm_num
  have h3 : (1 : ℝ) / 2 ^ 52 = 2 * (1 / 2 ^ 53) := by norm_num
  rw [h2, h3]
  generalize (1 : ℝ) / 2 ^ 53 = x at lt
  have e : (64 : ℝ) ^ (1 / 3 - x / 6) = 4 * ((1 : ℝ) / 2) ^ x := by
    rw [show (64 : ℝ) = 2 ^ (6 : ℝ) by norm_num, ← Real.rpow_mul (by norm_num), show (4 : ℝ) = 2 ^ (2 : ℝ) by norm_num,
      one_div (2 : ℝ), Real.inv_rpow (by norm_num), ← Real.rpow_neg (by norm_num), ← Real.rpow_add (by norm_num)]
    congr 1
    ring
  rw [e]
  linarith

theorem three_le {x : ℝ} (h : 29 ≤ x) : 3 ≤ x ^ ((roundDouble (1 / 3) : ℚ) : ℝ) := by
  have h1 : (29 : ℝ) ^ (33 / 100 : ℝ) ≤ x ^ ((roundDouble (1 / 3) : ℚ) : ℝ) := by
    refine le_trans (Real.rpow_le_rpow_of_exponent_le (by norm_num : (1 : ℝ) ≤ 29) (z := ((roundDouble (1 / 3) : ℚ) : ℝ)) ?_)
      (Real.rpow_le_rpow (by norm_num) h ?_)
    · rw [third_double]; push_cast; norm_num
    · rw [third_double]; push_cast; norm_num
  refine le_trans ?_ h1
  have h2 : (3 : ℝ) = (3 ^ 100) ^ (1 / 100 : ℝ) := by
    rw [← Real.rpow_natCast, ← Real.rpow_mul (by norm_num)]; norm_num
  have h3 : (29 : ℝ) ^ (33 / 100 : ℝ) = (29 ^ 33) ^ (1 / 100 : ℝ) := by
    rw [← Real.rpow_natCast, ← Real.rpow_mul (by norm_num)]; norm_num
  rw [h2, h3]
  exact Real.rpow_le_rpow (by positivity) (by norm_num) (by norm_num)

theorem pow29 : (29 : ℝ) ^ ((roundDouble (1 / 3) : ℚ) : ℝ) ≤ 7 / 2 := by
  have h1 : (29 : ℝ) ^ ((roundDouble (1 / 3) : ℚ) : ℝ) ≤ 29 ^ (1 / 3 : ℝ) := by
    refine Real.rpow_le_rpow_of_exponent_le (by norm_num) ?_
    rw [third_double]; push_cast; norm_num
  refine le_trans h1 ?_
  have h2 : (7 / 2 : ℝ) = ((7 / 2) ^ 3) ^ (1 / 3 : ℝ) := by
    rw [← Real.rpow_natCast, ← Real.rpow_mul (by norm_num)]; norm_num
  rw [h2]
  exact Real.rpow_le_rpow (by positivity) (by norm_num) (by norm_num)

/-- a nearest double does not leave an interval between doubles -/
theorem nearest_ge {v : ℝ} {d e : ℚ} (h : NearestDouble v d) (he : IsDouble e) (hv : (e : ℝ) ≤ v) : e ≤ d := by
  by_contra hc
  push Not at hc
  have hc' : (d : ℝ) < e := by exact_mod_cast hc
  have := h.2 e he
  rw [abs_of_nonpos (by linarith), abs_of_nonpos (by linarith)] at this
  linarith

theorem nearest_le {v : ℝ} {d e : ℚ} (h : NearestDouble v d) (he : IsDouble e) (hv : v ≤ e) : d ≤ e := by
  by_contra hc
  push Not at hc
  have hc' : (e : ℝ) < d := by exact_mod_cast hc
  have := h.2 e he
  rw [abs_of_nonneg (by linarith), abs_of_nonneg (by linarith)] at this
  linarith

theorem root_three {q : ℚ} (h3 : 3 ≤ q) (h4 : q < 4) : ⌊q⌋.toNat = 3 := by
  have : ⌊q⌋ = 3 := Int.floor_eq_iff.2 ⟨by exact_mod_cast h3, by push_cast; linarith⟩
  rw [this]; rfl

/-- the root of the code for 29 and 64 -/
theorem floatCbrt_values {r : ℕ → ℕ} (h : FloatCbrt r) : r 64 = 3 ∧ r 29 = 3 := by
  obtain ⟨pow, hp, hr⟩ := h
  have i3 : IsDouble 3 := by exact_mod_cast isDouble_int (n := 3) (by norm_num)
  constructor
  · rw [hr]
    have n := hp 64
    push_cast at n
    refine root_three (nearest_ge n i3 (by push_cast; exact three_le (by norm_num))) ?_
    have e : IsDouble (4 - 1 / 2 ^ 51) := ⟨2 ^ 53 - 1, -51, by norm_num, by norm_num, by norm_num⟩
    by_contra hc
    push Not at hc
    have hc' : (4 : ℝ) ≤ pow 64 := by exact_mod_cast hc
    have h64 := pow64
    have := n.2 _ e
    rw [abs_of_nonneg (by have : (0:ℝ) < 1 / 2 ^ 52 := by positivity
                          linarith)] at this
    push_cast at this
    have e2 : (1 : ℝ) / 2 ^ 51 = 2 * (1 / 2 ^ 52) := by norm_num
    rw [e2] at this
    rcases abs_cases ((4 : ℝ) - 2 * (1 / 2 ^ 52) - 64 ^ ((roundDouble (1 / 3) : ℚ) : ℝ)) with ⟨e3, _⟩ | ⟨e3, _⟩ <;> rw [e3] at this <;>
      [skip; skip] <;> have p : (0:ℝ) < 1 / 2 ^ 52 := by positivity
    · linarith
    · linarith
  · rw [hr]
    have n := hp 29
    push_cast at n
    have i7 : IsDouble (7 / 2) := ⟨7, -1, by norm_num, by norm_num, by norm_num⟩
    have := nearest_le n i7 (by push_cast; exact pow29)
    exact root_three (nearest_ge n i3 (by push_cast; exact three_le (by norm_num))) (by linarith)

/-- **C12** is false of the code: with the cube root as Python computes it, the power rounded to the nearest double, the colours of the
indices 29 and 64 are the same. -/
theorem C12_distinct_wrong (F : FloatRounding) (r : ℕ → ℕ) (h : FloatCbrt r) :
    Color.distinct F r 64 = Color.distinct F r 29 ∧
    ¬ ∀ i j, i < 256 ^ 3 → j < 256 ^ 3 → i ≠ j → Color.eq (Color.distinct F r i) (Color.distinct F r j) = false := by
  obtain ⟨h64, h29⟩ := floatCbrt_values h
  have e := C12_float_root_collision F r h64 h29
  refine ⟨e, fun hc => ?_⟩
  have := hc 64 29 (by norm_num) (by norm_num) (by norm_num)
  rw [e] at this
  have t : Color.eq (Color.distinct F r 29) (Color.distinct F r 29) = true := by
    rw [C07_eq_iff]
    cases Color.distinct F r 29 with
    | none => trivial
    | some c => exact fun _ => rfl
  rw [t] at this
  exact Bool.noConfusion this

/-- every real number has a nearest double -/
theorem exists_nearest (v : ℝ) : ∃ d, NearestDouble v d := by
  obtain ⟨M, hM⟩ := exists_nat_gt (2 * |v| + 1)
  have pM : (0 : ℝ) < M := lt_of_le_of_lt (by positivity) hM
  have hfin : {d : ℚ | IsDouble d ∧ |d| ≤ M}.Finite := by
    apply Set.Finite.subset (Set.Finite.image (fun p : ℤ × ℤ => (p.1 : ℚ) * 2 ^ p.2)
      ((Set.finite_Icc (-2 ^ 53 : ℤ) (2 ^ 53)).prod (Set.finite_Icc (-1074 : ℤ) M)))
    rintro d ⟨⟨k, m, rfl, hk, hm⟩, hd⟩
    by_cases h0 : k = 0
    · exact ⟨(0, 0), ⟨by simp, by simp⟩, by simp [h0]⟩
    · refine ⟨(k, m), ⟨abs_le.1 hk, ?_⟩, rfl⟩
      refine ⟨hm, ?_⟩
      by_contra hc
      push Not at hc
      have h1 : (1 : ℚ) ≤ |(k : ℚ)| := by exact_mod_cast Int.one_le_abs h0
      rw [abs_mul, abs_of_pos (show (0 : ℚ) < 2 ^ m by positivity)] at hd
      have h2 : (2 : ℚ) ^ (M : ℤ) ≤ 2 ^ m := zpow_le_zpow_right₀ (by norm_num) hc.le
      have h3 : (M : ℚ) < 2 ^ M := by exact_mod_cast Nat.lt_two_pow_self
      rw [zpow_natCast] at h2
      nlinarith
  obtain ⟨d, ⟨hd, -⟩, hmin⟩ := Set.exists_min_image _ (fun d : ℚ => |(d : ℝ) - v|) hfin ⟨0, ⟨0, 0, by simp, by simp, by simp⟩, by simp⟩
  refine ⟨d, hd, fun e he => ?_⟩
  by_cases hb : |e| ≤ M
  · exact hmin e ⟨he, hb⟩
  · push Not at hb
    have hb' : (M : ℝ) < |(e : ℝ)| := by exact_mod_cast hb
    have h0 := hmin 0 ⟨⟨0, 0, by simp, by simp, by simp⟩, by simp⟩
    simp only [Rat.cast_zero, zero_sub, abs_neg] at h0
    have := abs_sub_abs_le_abs_sub (e : ℝ) v
    have := abs_nonneg v
    linarith

/-- there is such a root: the hypothesis of `C12_distinct_wrong` is met -/
example : ∃ r, FloatCbrt r := by
  choose pow hp using fun i : ℕ => exists_nearest ((i : ℝ) ^ ((roundDouble (1 / 3) : ℚ) : ℝ))
  exact ⟨fun i => ⌊pow i⌋.toNat, pow, hp, fun _ => rfl⟩

end Svgio.Props
