import Verif.Model.Angle
import Verif.Spec.Number
import Verif.Lemmas.Number
import Verif.Props.ColorKeywords
import Verif.Props.LengthText
import Mathlib.Tactic.Linarith
import Mathlib.Tactic.LinearCombination
import Mathlib.Tactic.FieldSimp
import Mathlib.Tactic.Ring
import Mathlib.Tactic.NormNum
import Mathlib.Algebra.Order.Archimedean.Basic

/-!
C23–C24: angles.
-/

namespace Svgio.Props

open Spec Angle

section
variable {K : Type} [Field K] [LinearOrder K] [IsStrictOrderedRing K] [FloorRing K] {tau : K}

omit [FloorRing K] in
/-- **C23**, constructors: each unit's constructor and reader are inverse, a turn is `tau` radians, 360 degrees and
400 gradians. -/
theorem C23_units (ht : 0 < tau) (x : K) :
    asDegrees tau (ofDegrees tau x) = x ∧ asGradians tau (ofGradians tau x) = x ∧ asTurns tau (ofTurns tau x) = x ∧
    asRadians (ofRadians x) = x ∧ ofDegrees tau (asDegrees tau x) = x ∧ ofGradians tau (asGradians tau x) = x ∧
    ofTurns tau (asTurns tau x) = x ∧ ofDegrees tau (360 * x) = tau * x ∧ ofGradians tau (400 * x) = tau * x ∧
    ofTurns tau x = tau * x ∧ ofRadians (tau * x) = tau * x := by
  have h := ht.ne'
  refine ⟨?_, ?_, ?_, rfl, ?_, ?_, ?_, ?_, ?_, rfl, rfl⟩ <;>
    simp only [asDegrees, ofDegrees, asGradians, ofGradians, asTurns, ofTurns] <;> field_simp

omit [IsStrictOrderedRing K] in
theorem pyMod_add_turns {tau : K} (ht : tau ≠ 0) (a : K) (n : ℤ) [IsStrictOrderedRing K] :
    pyMod (a + n * tau) tau = pyMod a tau := by
  unfold pyMod
  have : (a + n * tau) / tau = a / tau + n := by field_simp
  rw [this, Int.floor_add_intCast]
  push_cast
  ring

theorem pyMod_range (ht : 0 < tau) (a : K) : 0 ≤ pyMod a tau ∧ pyMod a tau < tau := by
  have h1 := Int.floor_le (a / tau)
  have h2 := Int.lt_floor_add_one (a / tau)
  rw [le_div_iff₀ ht] at h1
  rw [div_lt_iff₀ ht] at h2
  unfold pyMod
  constructor <;> linarith

theorem pyMod_turns (a : K) : ∃ n : ℤ, a = pyMod a tau + n * tau := ⟨⌊a / tau⌋, by unfold pyMod; ring⟩

theorem positiveLoop_spec : ∀ (n : ℕ) (v : K), -v ≤ 360 * n →
    ∃ w, (∀ fuel, n < fuel → positiveLoop fuel v = some w) ∧ 0 ≤ w ∧ ∃ k : ℕ, w = v + 360 * k ∧ (0 < k → w < 360)
  | n, v, h => by
    by_cases hv : v < 0
    · match n, h with
      | 0, h => simp at h; linarith
      | n + 1, h =>
        obtain ⟨w, h1, h2, k, h3, h4⟩ := positiveLoop_spec n (v + 360) (by push_cast at h; linarith)
        refine ⟨w, ?_, h2, k + 1, by rw [h3]; push_cast; ring, ?_⟩
        · intro fuel hf
          obtain ⟨m, rfl⟩ : ∃ m, fuel = m + 1 := ⟨fuel - 1, by omega⟩
          simp only [positiveLoop, if_pos hv]
          exact h1 m (by omega)
        · intro _
          rcases Nat.eq_zero_or_pos k with rfl | hk
          · rw [h3]; push_cast; linarith
          · exact h4 hk
    · refine ⟨v, ?_, not_lt.1 hv, 0, by simp, by simp⟩
      intro fuel hf
      obtain ⟨m, rfl⟩ : ∃ m, fuel = m + 1 := ⟨fuel - 1, by omega⟩
      simp only [positiveLoop, if_neg hv]

/-- **C24**, without the last clause (false at the seam, `C24_seam`): angles that are whole turns apart are equal and
have the same normalized value, which is in `[0, tau)` and whole turns away from the angle; equality is exactly
closeness of the normalized values. -/
theorem C24_turns_partial (ht : 0 < tau) (a b : K) :
    (∀ n : ℤ, b = a + n * tau → Angle.eq tau a b = true ∧ normalized tau a = normalized tau b) ∧
    0 ≤ normalized tau a ∧ normalized tau a < tau ∧ (∃ n : ℤ, a = normalized tau a + n * tau) ∧
    (Angle.eq tau a b = true ↔ |normalized tau a - normalized tau b| ≤ 1 / 10 ^ 11) := by
  refine ⟨?_, (pyMod_range ht a).1, (pyMod_range ht a).2, pyMod_turns a, by simp [Angle.eq, normalized]⟩
  rintro n rfl
  simp only [Angle.eq, normalized, pyMod_add_turns ht.ne', sub_self, abs_zero, true_and, and_true]
  rw [decide_eq_true_iff]; positivity

/-- **C24**, the last clause away from the seam: angles `a` and `b` that differ by at most 1e-11 and a whole number of
turns are equal when neither is within 1e-11 below a whole number of turns. -/
theorem C24_close_partial (ht : 0 < tau) (a b : K) (n : ℤ) (h : |a - b - n * tau| ≤ 1 / 10 ^ 11)
    (ha : normalized tau a < tau - 1 / 10 ^ 11) (hb : normalized tau b < tau - 1 / 10 ^ 11) :
    Angle.eq tau a b = true := by
  obtain ⟨i, hi⟩ := pyMod_turns (tau := tau) a
  obtain ⟨j, hj⟩ := pyMod_turns (tau := tau) b
  have ra := pyMod_range ht a
  have rb := pyMod_range ht b
  simp only [normalized] at ha hb
  simp only [Angle.eq, decide_eq_true_eq]
  have e : a - b - n * tau = (pyMod a tau - pyMod b tau) + ((i - j - n : ℤ) : K) * tau := by
    push_cast; linear_combination hi - hj
  rw [e] at h
  have hk : (i - j - n : ℤ) = 0 := by
    by_contra hne
    rw [abs_le] at h
    rcases lt_or_gt_of_ne hne with h1 | h1
    · have h2 : ((i - j - n : ℤ) : K) ≤ -1 := by exact_mod_cast (by omega : i - j - n ≤ -1)
      have := mul_le_mul_of_nonneg_right h2 ht.le
      linarith
    · have h2 : (1 : K) ≤ ((i - j - n : ℤ) : K) := by exact_mod_cast h1
      have := mul_le_mul_of_nonneg_right h2 ht.le
      linarith
  rw [hk] at h
  simpa using h

/-- at the seam the last clause of C24 fails: 0 and a full turn less 1e-12 differ by 1e-12 modulo a turn, and are
not equal -/
theorem C24_seam (ht : 1 < tau) : ∃ a b : K, |a - b - ((-1 : ℤ) : K) * tau| ≤ 1 / 10 ^ 11 ∧ Angle.eq tau a b = false := by
  have h0 : (0 : K) < tau := by linarith
  refine ⟨0, tau - 1 / 10 ^ 12, ?_, ?_⟩
  · have : (0 : K) - (tau - 1 / 10 ^ 12) - ((-1 : ℤ) : K) * tau = 1 / 10 ^ 12 := by push_cast; ring
    rw [this, abs_of_pos (by positivity)]
    norm_num
  · have e1 : pyMod (0 : K) tau = 0 := by simp [pyMod]
    have e2 : pyMod (tau - 1 / 10 ^ 12) tau = tau - 1 / 10 ^ 12 := by
      have hf : ⌊(tau - 1 / 10 ^ 12) / tau⌋ = 0 := by
        rw [Int.floor_eq_iff]
        constructor
        · rw [Int.cast_zero]
          apply div_nonneg _ h0.le
          norm_num; linarith
        · rw [Int.cast_zero, zero_add, div_lt_one h0]
          norm_num
      unfold pyMod; rw [hf]; simp
    simp only [Angle.eq, e1, e2, decide_eq_false_iff_not, not_le, zero_sub, abs_neg]
    rw [abs_of_pos (by norm_num; linarith)]
    norm_num
    linarith

/-- **C24**, positive degrees: the loop ends, the result is not negative, it is `as_degrees` plus a whole number of
times 360, and it is below 360 unless nothing was added. -/
theorem C24_positive_degrees (a : K) :
    ∃ w, (∃ n : ℕ, ∀ fuel, n < fuel → asPositiveDegrees tau fuel a = some w) ∧ 0 ≤ w ∧
      ∃ k : ℕ, w = asDegrees tau a + 360 * k ∧ (0 < k → w < 360) := by
  obtain ⟨n, hn⟩ : ∃ n : ℕ, -(asDegrees tau a) ≤ n := ⟨⌈-(asDegrees tau a)⌉₊, Nat.le_ceil _⟩
  obtain ⟨w, h1, h2, h3⟩ := positiveLoop_spec n (asDegrees tau a) (by
    have : (0 : K) ≤ n := Nat.cast_nonneg n
    linarith)
  exact ⟨w, ⟨n, h1⟩, h2, h3⟩

end

theorem floatVal_parts {sg m ex : List Char} (hsg : OptSign sg) (hm : IsMantissa m) (hex : OptExponent ex) :
    floatVal (sg ++ (m ++ ex)) =
      if sg = ['-'] then -(mantVal m * (10 : ℚ) ^ intVal (ex.drop 1)) else mantVal m * (10 : ℚ) ^ intVal (ex.drop 1) := by
  have h1 : takeSign (sg ++ (m ++ ex)) = (sg, m ++ ex) := takeSign_append hsg (mant_head hm)
  have hmc : ∀ c ∈ m, decide (c ≠ 'e' ∧ c ≠ 'E') = true := by
    obtain ⟨ip, fp, rfl, hip, hf⟩ := hm
    intro c hc
    rw [decide_eq_true_iff]
    rcases List.mem_append.1 hc with hc | hc
    · have := digit_not_sign (hip c hc); exact ⟨this.2.2.2.1, this.2.2.2.2⟩
    · rcases hf with ⟨rfl, -⟩ | ⟨ds, rfl, -, hds⟩
      · simp at hc
      · rcases List.mem_cons.1 hc with rfl | hc
        · decide
        · have := digit_not_sign (hds c hc); exact ⟨this.2.2.2.1, this.2.2.2.2⟩
  have hexh : (ex.takeWhile (fun c => decide (c ≠ 'e' ∧ c ≠ 'E'))) = [] ∧
      (ex.dropWhile (fun c => decide (c ≠ 'e' ∧ c ≠ 'E'))) = ex := by
    rcases hex with rfl | ⟨c, sg', ds, hc, rfl, -⟩
    · simp
    · rcases hc with rfl | rfl <;> simp
  unfold floatVal
  rw [h1]
  simp only [takeWhile_prefix hmc, dropWhile_prefix hmc, hexh.1, hexh.2, List.append_nil]

theorem lower_plain {c : Char} (h : c = '+' ∨ c = '-' ∨ c = '.' ∨ c = 'e' ∨ IsDigit c) : Color.lowerChar c = [c] := by
  have hc : c.toNat ≤ 57 ∨ c = 'e' := by
    rcases h with rfl | rfl | rfl | rfl | h
    · left; decide
    · left; decide
    · left; decide
    · right; rfl
    · left; exact h.2
  rcases hc with hc | rfl
  · unfold Color.lowerChar
    rw [if_neg, if_neg (by omega), if_neg (by omega)]
    rintro ⟨h1, -⟩
    have : 65 ≤ c.toNat := h1
    omega
  · decide

theorem flatMap_plain {s : List Char} (h : ∀ c ∈ s, Color.lowerChar c = [c]) : s.flatMap Color.lowerChar = s := by
  induction s with
  | nil => rfl
  | cons c s ih =>
    rw [List.flatMap_cons, h c (by simp), ih (fun d hd => h d (by simp [hd]))]
    rfl

/-- a number literal in lower case is a number literal of the same value -/
theorem number_lower {t : List Char} (h : IsNumber t) :
    IsNumber (t.flatMap Color.lowerChar) ∧ floatVal (t.flatMap Color.lowerChar) = floatVal t := by
  obtain ⟨sg, m, ex, rfl, hsg, hm, hex⟩ := h
  have l1 : sg.flatMap Color.lowerChar = sg := by
    rcases hsg with rfl | rfl | rfl <;> decide
  have l2 : m.flatMap Color.lowerChar = m := by
    apply flatMap_plain
    obtain ⟨ip, fp, rfl, hip, hf⟩ := hm
    intro c hc
    apply lower_plain
    rcases List.mem_append.1 hc with hc | hc
    · simp [hip c hc]
    · rcases hf with ⟨rfl, -⟩ | ⟨ds, rfl, -, hds⟩
      · simp at hc
      · rcases List.mem_cons.1 hc with rfl | hc
        · simp
        · simp [hds c hc]
  rcases hex with rfl | ⟨c, sg', ds, hc, rfl, hsg', hne, hds⟩
  · simp only [List.flatMap_append, l1, l2, List.flatMap_nil]
    exact ⟨⟨sg, m, [], rfl, hsg, hm, Or.inl rfl⟩, trivial⟩
  · have l3 : Color.lowerChar c = ['e'] := by rcases hc with rfl | rfl <;> decide
    have l4 : sg'.flatMap Color.lowerChar = sg' := by
      rcases hsg' with rfl | rfl | rfl <;> decide
    have l5 : ds.flatMap Color.lowerChar = ds := flatMap_plain fun d hd => lower_plain (by simp [hds d hd])
    have hex' : OptExponent ('e' :: (sg' ++ ds)) := Or.inr ⟨'e', sg', ds, Or.inl rfl, rfl, hsg', hne, hds⟩
    have hex : OptExponent (c :: (sg' ++ ds)) := Or.inr ⟨c, sg', ds, hc, rfl, hsg', hne, hds⟩
    simp only [List.flatMap_append, List.flatMap_cons, l1, l2, l3, l4, l5, List.cons_append, List.nil_append]
    refine ⟨⟨sg, m, _, rfl, hsg, hm, hex'⟩, ?_⟩
    rw [floatVal_parts hsg hm hex', floatVal_parts hsg hm hex]
    rfl

theorem floatOf_number {t : List Char} (h : IsNumber t) : floatOf t = .ok (floatVal t) := by
  have := matchFloat_of_stops (r := []) h (by
    intro p q hr hne; simp at hr; exact absurd hr.1 hne)
  rw [List.append_nil] at this
  simp [floatOf, this]

theorem suffix_rev {u t : List Char} : u <:+ t ↔ u.reverse <+: t.reverse := List.reverse_prefix.symm

/-- the spelling of a unit in any letter case -/
theorem lower_unit {u : List Char} {w : List Char} (hw : ∀ c ∈ w, isLow c = true) (h : u.map Char.toLower = w) :
    u.flatMap Color.lowerChar = w := by
  subst h
  induction u with
  | nil => rfl
  | cons c u ih =>
    rw [List.flatMap_cons, lowerChar_of_toLower (hw _ (by simp)), ih (fun d hd => hw d (by
      simp only [List.map_cons, List.mem_cons]; exact Or.inr hd))]
    rfl

theorem take_front (t u : List Char) : (t ++ u).take ((t ++ u).length - u.length) = t := by
  simp

section
variable {K : Type} [Field K] [LinearOrder K] [IsStrictOrderedRing K] [FloorRing K] (tau : K)

omit [IsStrictOrderedRing K] [FloorRing K] in
theorem parse_lower {t : List Char} (h : IsNumber t) (u u' : List Char) (hu : u.flatMap Color.lowerChar = u') :
    ∃ r d, IsDigit d ∧ (t ++ u).flatMap Color.lowerChar = (r ++ [d]) ++ u' ∧
      floatOf (r ++ [d]) = .ok (floatVal t) := by
  obtain ⟨h1, h2⟩ := number_lower h
  obtain ⟨r, d, hr, hd⟩ := isNumber_last h1
  refine ⟨r, d, hd, by rw [List.flatMap_append, hu, hr], ?_⟩
  rw [← hr, floatOf_number h1, h2]

/-- **C23**, text: a number followed by `deg`, `grad`, `rad` or `turn` in any letter case, by `%` or by nothing is read
as the angle made by the corresponding constructor from that number. -/
theorem C23_parse (t u : List Char) (h : IsNumber t) :
    (u.map Char.toLower = "deg".toList → parse tau (t ++ u) = .ok (ofDegrees tau (floatVal t : K))) ∧
    (u.map Char.toLower = "grad".toList → parse tau (t ++ u) = .ok (ofGradians tau (floatVal t : K))) ∧
    (u.map Char.toLower = "rad".toList → parse tau (t ++ u) = .ok (ofRadians (floatVal t : K))) ∧
    (u.map Char.toLower = "turn".toList → parse tau (t ++ u) = .ok (ofTurns tau (floatVal t : K))) ∧
    parse tau (t ++ ['%']) = .ok (ofTurns tau ((floatVal t : K) / 100)) ∧
    parse tau t = .ok (ofDegrees tau (floatVal t : K)) := by
  have dn : ∀ {d : Char}, IsDigit d → d ≠ 'g' ∧ d ≠ 'd' ∧ d ≠ 'n' ∧ d ≠ '%' := by
    intro d hd
    refine ⟨?_, ?_, ?_, ?_⟩ <;> rintro rfl <;> revert hd <;> unfold IsDigit <;> decide
  refine ⟨fun hu => ?_, fun hu => ?_, fun hu => ?_, fun hu => ?_, ?_, ?_⟩
  · obtain ⟨r, d, hd, e1, e2⟩ := parse_lower h u ['d', 'e', 'g'] (lower_unit (by decide) hu)
    have := take_front (r ++ [d]) ['d', 'e', 'g']
    simp only [parse, e1, beforeSuffix, List.suffix_append, if_true, this, e2]
    rfl
  · obtain ⟨r, d, hd, e1, e2⟩ := parse_lower h u ['g', 'r', 'a', 'd'] (lower_unit (by decide) hu)
    have := take_front (r ++ [d]) ['g', 'r', 'a', 'd']
    have n1 : ¬ ['d', 'e', 'g'] <:+ (r ++ [d]) ++ ['g', 'r', 'a', 'd'] := by
      rw [suffix_rev]; simp [List.cons_prefix_cons]
    simp only [parse, e1, beforeSuffix, List.suffix_append, if_true, if_neg n1, this, e2]
    rfl
  · obtain ⟨r, d, hd, e1, e2⟩ := parse_lower h u ['r', 'a', 'd'] (lower_unit (by decide) hu)
    have := take_front (r ++ [d]) ['r', 'a', 'd']
    have n1 : ¬ ['d', 'e', 'g'] <:+ (r ++ [d]) ++ ['r', 'a', 'd'] := by
      rw [suffix_rev]; simp [List.cons_prefix_cons]
    have n2 : ¬ ['g', 'r', 'a', 'd'] <:+ (r ++ [d]) ++ ['r', 'a', 'd'] := by
      rw [suffix_rev]; simp [List.cons_prefix_cons, (dn hd).1.symm]
    simp only [parse, e1, beforeSuffix, List.suffix_append, if_true, if_neg n1, if_neg n2, this, e2]
    rfl
  · obtain ⟨r, d, hd, e1, e2⟩ := parse_lower h u ['t', 'u', 'r', 'n'] (lower_unit (by decide) hu)
    have := take_front (r ++ [d]) ['t', 'u', 'r', 'n']
    have n1 : ¬ ['d', 'e', 'g'] <:+ (r ++ [d]) ++ ['t', 'u', 'r', 'n'] := by
      rw [suffix_rev]; simp [List.cons_prefix_cons]
    have n2 : ¬ ['g', 'r', 'a', 'd'] <:+ (r ++ [d]) ++ ['t', 'u', 'r', 'n'] := by
      rw [suffix_rev]; simp [List.cons_prefix_cons]
    have n3 : ¬ ['r', 'a', 'd'] <:+ (r ++ [d]) ++ ['t', 'u', 'r', 'n'] := by
      rw [suffix_rev]; simp [List.cons_prefix_cons]
    simp only [parse, e1, beforeSuffix, List.suffix_append, if_true, if_neg n1, if_neg n2, if_neg n3, this, e2]
    rfl
  · obtain ⟨r, d, hd, e1, e2⟩ := parse_lower h ['%'] ['%'] (by decide)
    have := take_front (r ++ [d]) ['%']
    have n1 : ¬ ['d', 'e', 'g'] <:+ (r ++ [d]) ++ ['%'] := by
      rw [suffix_rev]; simp [List.cons_prefix_cons]
    have n2 : ¬ ['g', 'r', 'a', 'd'] <:+ (r ++ [d]) ++ ['%'] := by
      rw [suffix_rev]; simp [List.cons_prefix_cons]
    have n3 : ¬ ['r', 'a', 'd'] <:+ (r ++ [d]) ++ ['%'] := by
      rw [suffix_rev]; simp [List.cons_prefix_cons]
    have n4 : ¬ ['t', 'u', 'r', 'n'] <:+ (r ++ [d]) ++ ['%'] := by
      rw [suffix_rev]; simp [List.cons_prefix_cons]
    simp only [parse, e1, beforeSuffix, List.suffix_append, if_true, if_neg n1, if_neg n2, if_neg n3, if_neg n4, this,
      e2]
    rfl
  · obtain ⟨r, d, hd, e1, e2⟩ := parse_lower h [] [] rfl
    rw [List.append_nil, List.append_nil] at e1
    obtain ⟨d1, d2, d3, d4⟩ := dn hd
    have n1 : ¬ ['d', 'e', 'g'] <:+ (r ++ [d]) := by
      rw [suffix_rev]; simp [List.cons_prefix_cons, d1.symm]
    have n2 : ¬ ['g', 'r', 'a', 'd'] <:+ (r ++ [d]) := by
      rw [suffix_rev]; simp [List.cons_prefix_cons, d2.symm]
    have n3 : ¬ ['r', 'a', 'd'] <:+ (r ++ [d]) := by
      rw [suffix_rev]; simp [List.cons_prefix_cons, d2.symm]
    have n4 : ¬ ['t', 'u', 'r', 'n'] <:+ (r ++ [d]) := by
      rw [suffix_rev]; simp [List.cons_prefix_cons, d3.symm]
    have n5 : ¬ ['%'] <:+ (r ++ [d]) := by
      rw [suffix_rev]; simp [List.cons_prefix_cons, d4.symm]
    simp only [parse, e1, beforeSuffix, if_neg n1, if_neg n2, if_neg n3, if_neg n4, if_neg n5, e2]
    rfl

end

/-- `-1.5E1GRad` -/
example : IsNumber "-1.5E1".toList ∧ "GRad".toList.map Char.toLower = "grad".toList := by
  refine ⟨⟨['-'], "1.5".toList, "E1".toList, by decide, by simp [OptSign], ⟨['1'], ".5".toList, by decide, ?_, ?_⟩, ?_⟩,
    by decide⟩
  · simp [Digits, IsDigit]
  · exact Or.inr ⟨['5'], by decide, by simp, by simp [Digits, IsDigit]⟩
  · exact Or.inr ⟨'E', [], ['1'], by simp, by decide, by simp [OptSign], by simp, by simp [Digits, IsDigit]⟩

/-- minus a quarter turn, with a whole number for `tau` -/
example : asPositiveDegrees (6 : ℚ) 3 (-9) = some 180 := by decide +kernel
example : Angle.eq (6 : ℚ) (-9) 3 = true := by decide +kernel

end Svgio.Props
