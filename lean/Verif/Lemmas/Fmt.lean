import Verif.Model.Fmt
import Verif.Lemmas.Number
import Mathlib.Tactic.Ring
import Mathlib.Tactic.FieldSimp
import Mathlib.Tactic.Linarith
import Mathlib.Tactic.NormNum
import Mathlib.Tactic.IntervalCases
import Mathlib.Algebra.Order.Round

/-!
What `"%.12f"` prints is a number literal with the rounded value.
-/

namespace Svgio

open Spec

theorem digChar_isDigit {d : ℕ} (h : d < 10) : IsDigit (digChar d) := by
  unfold IsDigit digChar; interval_cases d <;> decide

theorem digVal_digChar {d : ℕ} (h : d < 10) : digVal (digChar d) = d := by
  unfold digVal digChar; interval_cases d <;> decide

theorem natVal_snoc (s : List Char) (c : Char) : natVal (s ++ [c]) = 10 * natVal s + digVal c := by
  simp [natVal]

theorem natVal_natText (n : ℕ) : natVal (natText n) = n := by
  induction n using Nat.strong_induction_on with
  | _ n ih =>
    rw [natText]
    split
    · rename_i h; simp [natVal, digVal_digChar h]
    · rename_i h
      rw [natVal_snoc, ih _ (by omega), digVal_digChar (by omega)]; omega

theorem natText_digits (n : ℕ) : Digits (natText n) := by
  induction n using Nat.strong_induction_on with
  | _ n ih =>
    rw [natText]
    split
    · rename_i h; intro c hc; simp at hc; subst hc; exact digChar_isDigit h
    · rename_i h
      intro c hc
      rcases List.mem_append.mp hc with hc | hc
      · exact ih _ (by omega) c hc
      · simp at hc; subst hc; exact digChar_isDigit (by omega)

theorem natText_ne (n : ℕ) : natText n ≠ [] := by
  rw [natText]; split <;> simp

theorem fixedDigits_length (k n : ℕ) : (fixedDigits k n).length = k := by
  induction k generalizing n with
  | zero => rfl
  | succ k ih => simp [fixedDigits, ih]

theorem fixedDigits_digits (k n : ℕ) : Digits (fixedDigits k n) := by
  induction k generalizing n with
  | zero => intro c hc; simp [fixedDigits] at hc
  | succ k ih =>
    intro c hc
    rcases List.mem_append.mp hc with hc | hc
    · exact ih _ c hc
    · simp at hc; subst hc; exact digChar_isDigit (by omega)

theorem natVal_fixedDigits (k n : ℕ) (h : n < 10 ^ k) : natVal (fixedDigits k n) = n := by
  induction k generalizing n with
  | zero => simp at h; subst h; rfl
  | succ k ih =>
    rw [fixedDigits, natVal_snoc, ih _ (by rw [pow_succ] at h; omega), digVal_digChar (by omega)]; omega

theorem natVal_append_zeros (s : List Char) (k : ℕ) :
    natVal (s ++ List.replicate k '0') = natVal s * 10 ^ k := by
  induction k with
  | zero => simp
  | succ k ih =>
    rw [List.replicate_succ', ← List.append_assoc, natVal_snoc, ih, pow_succ]
    have : digVal '0' = 0 := rfl
    rw [this]; ring

/-- `rstrip` removes a block of that character and leaves no such last character -/
theorem rstripC_spec (c : Char) (s : List Char) :
    ∃ k, s = rstripC c s ++ List.replicate k c ∧ ∀ r, rstripC c s ≠ r ++ [c] := by
  have h := List.takeWhile_append_dropWhile (p := fun d => decide (d = c)) (l := s.reverse)
  have ht : s.reverse.takeWhile (fun d => decide (d = c)) =
      List.replicate (s.reverse.takeWhile (fun d => decide (d = c))).length c := by
    rw [List.eq_replicate_iff]
    refine ⟨rfl, fun d hd => ?_⟩
    simpa using mem_takeWhile_pos hd
  refine ⟨(s.reverse.takeWhile (fun d => decide (d = c))).length, ?_, ?_⟩
  · have h2 := congrArg List.reverse h
    rw [List.reverse_append, List.reverse_reverse] at h2
    rw [ht, List.reverse_replicate] at h2
    exact h2.symm
  · intro r hr
    have h2 := congrArg List.reverse hr
    simp only [rstripC, List.reverse_reverse, List.reverse_append, List.reverse_cons, List.reverse_nil,
      List.nil_append, List.singleton_append] at h2
    have := dropWhile_head h2
    simp at this

theorem pyRound_close (x : ℚ) : |(pyRound x : ℚ) - x| ≤ 1 / 2 := by
  have h1 := Int.floor_le x
  have h2 := Int.lt_floor_add_one x
  unfold pyRound
  rw [abs_le]
  split
  · constructor <;> linarith
  split
  · push_cast; constructor <;> linarith
  split
  · constructor <;> linarith
  · push_cast; constructor <;> linarith

theorem pyRound_nonneg {x : ℚ} (h : 0 ≤ x) : 0 ≤ pyRound x := by
  have := Int.floor_nonneg.mpr h
  unfold pyRound
  split
  · exact this
  split
  · omega
  split <;> omega

/-- the number of units in the 12th decimal that is printed -/
def units12 (x : ℚ) : ℕ := (pyRound (|x| * 10 ^ 12)).toNat

theorem units12_close (x : ℚ) : |(units12 x : ℚ) / 10 ^ 12 - abs x| ≤ 1 / (2 * 10 ^ 12) := by
  have h0 : (0 : ℚ) ≤ |x| * 10 ^ 12 := by positivity
  have h := pyRound_close (|x| * 10 ^ 12)
  have e : ((units12 x : ℕ) : ℚ) = (pyRound (|x| * 10 ^ 12) : ℚ) := by
    unfold units12
    exact_mod_cast congrArg (Int.cast (R := ℚ)) (Int.toNat_of_nonneg (pyRound_nonneg h0))
  rw [e]
  rw [abs_le] at h ⊢
  constructor
  · rw [← sub_nonneg]
    have : (pyRound (|x| * 10 ^ 12) : ℚ) / 10 ^ 12 - |x| - -(1 / (2 * 10 ^ 12)) =
        ((pyRound (|x| * 10 ^ 12) : ℚ) - |x| * 10 ^ 12 + 1 / 2) / 10 ^ 12 := by field_simp; ring
    rw [this]; apply div_nonneg <;> [linarith; positivity]
  · rw [← sub_nonneg]
    have : 1 / (2 * 10 ^ 12) - ((pyRound (|x| * 10 ^ 12) : ℚ) / 10 ^ 12 - |x|) =
        (1 / 2 - ((pyRound (|x| * 10 ^ 12) : ℚ) - |x| * 10 ^ 12)) / 10 ^ 12 := by field_simp
    rw [this]; apply div_nonneg <;> [linarith; positivity]

/-- the shape of a printed number: sign, integer digits, and a fraction without trailing zeros, if any -/
theorem lengthStr_shape (x : ℚ) :
    ∃ fs k, lengthStr x = (if x < 0 then ['-'] else []) ++ (natText (units12 x / 10 ^ 12) ++
        (if fs = [] then [] else '.' :: fs)) ∧
      fixedDigits 12 (units12 x % 10 ^ 12) = fs ++ List.replicate k '0' := by
  set pre := (if x < 0 then ['-'] else []) ++ natText (units12 x / 10 ^ 12) with hpre
  set fd := fixedDigits 12 (units12 x % 10 ^ 12) with hfd
  have hfmt : fmtF12 x = pre ++ '.' :: fd := by
    simp only [fmtF12, hpre, hfd, units12, List.append_assoc]
  have hstr : lengthStr x = rstripC '.' (rstripC '0' (pre ++ '.' :: fd)) := by
    unfold lengthStr; simp only [hfmt]; rw [if_pos (by simp)]
  obtain ⟨k, hk, hlast⟩ := rstripC_spec '0' fd
  have e1 : rstripC '0' (pre ++ '.' :: fd) = pre ++ '.' :: rstripC '0' fd := by
    obtain ⟨j, hj, hl⟩ := rstripC_spec '0' (pre ++ '.' :: fd)
    generalize rstripC '0' (pre ++ '.' :: fd) = A at hj hl
    generalize rstripC '0' fd = B at hk hlast
    rw [hk] at hj
    have hj' : (pre ++ '.' :: B) ++ List.replicate k '0' = A ++ List.replicate j '0' := by
      rw [← hj]; simp
    have hB : ∀ r, pre ++ '.' :: B ≠ r ++ ['0'] := by
      intro r hr
      rcases List.eq_nil_or_concat B with rfl | ⟨B', b, rfl⟩
      · have := congrArg List.getLast? hr; simp at this
      · rw [List.concat_eq_append, ← List.cons_append, ← List.append_assoc] at hr
        have := (List.append_inj' hr rfl).2
        exact hlast B' (by rw [List.concat_eq_append, this])
    clear hj hk
    induction k generalizing j with
    | zero =>
      cases j with
      | zero => simpa using hj'.symm
      | succ j =>
        rw [List.replicate_succ', ← List.append_assoc] at hj'
        rw [List.replicate_zero, List.append_nil] at hj'
        exact absurd hj' (hB _)
    | succ k ih =>
      cases j with
      | zero =>
        rw [List.replicate_succ', ← List.append_assoc] at hj'
        rw [List.replicate_zero, List.append_nil] at hj'
        exact absurd hj'.symm (hl _)
      | succ j =>
        rw [List.replicate_succ', List.replicate_succ', ← List.append_assoc, ← List.append_assoc] at hj'
        exact ih j (List.append_cancel_right hj')
  refine ⟨rstripC '0' fd, k, ?_, hk⟩
  rw [hstr, e1, ← List.append_assoc, ← hpre]
  have hfdig : ∀ c ∈ rstripC '0' fd, c ≠ '.' := by
    intro c hc
    have : c ∈ fd := by rw [hk]; simp [hc]
    exact (digit_not_sign (fixedDigits_digits _ _ c this)).2.2.1
  have hstop : ∀ (q : List Char), (∀ c ∈ q.getLast?, c ≠ '.') → rstripC '.' q = q := by
    intro q hq
    rcases List.eq_nil_or_concat q with rfl | ⟨q', b, rfl⟩
    · rfl
    · have : b ≠ '.' := hq b (by simp)
      simp [rstripC, this]
  split
  · rename_i h0
    rw [h0]
    have h1 : rstripC '.' (pre ++ ['.']) = rstripC '.' pre := by simp [rstripC]
    rw [h1, List.append_nil]
    apply hstop
    intro c hc
    have hl : c ∈ (natText (units12 x / 10 ^ 12)).getLast? := by
      rw [hpre, List.getLast?_append_of_ne_nil _ (natText_ne _)] at hc; exact hc
    exact (digit_not_sign (natText_digits _ c (List.mem_of_getLast? hl))).2.2.1
  · rename_i h0
    apply hstop
    intro c hc
    rw [List.getLast?_append_of_ne_nil _ (by simp), List.getLast?_cons_of_ne_nil h0] at hc
    exact hfdig c (List.mem_of_getLast? hc)

/-- A printed number is a number literal. -/
theorem lengthStr_isNumber (x : ℚ) : IsNumber (lengthStr x) := by
  obtain ⟨fs, k, h, hk⟩ := lengthStr_shape x
  rw [h]
  have hfs : Digits fs := fun c hc => fixedDigits_digits 12 _ c (by rw [hk]; simp [hc])
  refine ⟨if x < 0 then ['-'] else [], natText (units12 x / 10 ^ 12) ++ (if fs = [] then [] else '.' :: fs), [],
    by simp, ?_, ?_, Or.inl rfl⟩
  · split
    · exact Or.inr (Or.inr rfl)
    · exact Or.inl rfl
  · refine ⟨_, _, rfl, natText_digits _, ?_⟩
    by_cases h0 : fs = []
    · left; simp [h0, natText_ne]
    · right; exact ⟨fs, by simp [h0], h0, hfs⟩

/-- Its value is the number rounded to 12 decimals. -/
theorem floatVal_lengthStr (x : ℚ) :
    floatVal (lengthStr x) = (if x < 0 then -1 else 1) * ((units12 x : ℚ) / 10 ^ 12) := by
  obtain ⟨fs, k, h, hk⟩ := lengthStr_shape x
  have hfs : Digits fs := fun c hc => fixedDigits_digits 12 _ c (by rw [hk]; simp [hc])
  set n := units12 x
  set m := natText (n / 10 ^ 12) ++ (if fs = [] then [] else '.' :: fs) with hm
  have hlen : fs.length + k = 12 := by
    have := congrArg List.length hk
    rw [fixedDigits_length] at this; simp at this; omega
  have hval : natVal fs * 10 ^ k = n % 10 ^ 12 := by
    rw [← natVal_append_zeros, ← hk, natVal_fixedDigits _ _ (Nat.mod_lt _ (by norm_num))]
  have hmc : ∀ c ∈ m, c ≠ '+' ∧ c ≠ '-' ∧ c ≠ 'e' ∧ c ≠ 'E' := by
    intro c hc
    rw [hm] at hc
    rcases List.mem_append.mp hc with hc | hc
    · have := digit_not_sign (natText_digits _ c hc); tauto
    · split at hc
      · simp at hc
      · rcases List.mem_cons.mp hc with rfl | hc
        · decide
        · have := digit_not_sign (hfs c hc); tauto
  have hsign : takeSign (lengthStr x) = ((if x < 0 then ['-'] else []), m) := by
    rw [h]
    refine takeSign_append ?_ (fun c hc => ?_)
    · split
      · exact Or.inr (Or.inr rfl)
      · exact Or.inl rfl
    · have := hmc c (List.mem_of_mem_head? hc); tauto
  have ht : m.takeWhile (fun c => decide (c ≠ 'e' ∧ c ≠ 'E')) = m := by
    have := takeWhile_prefix (r := []) (p := fun c => decide (c ≠ 'e' ∧ c ≠ 'E')) (l := m)
      (fun c hc => by have := hmc c hc; simp; tauto)
    simpa using this
  have hd : m.dropWhile (fun c => decide (c ≠ 'e' ∧ c ≠ 'E')) = [] := by
    have := dropWhile_prefix (r := []) (p := fun c => decide (c ≠ 'e' ∧ c ≠ 'E')) (l := m)
      (fun c hc => by have := hmc c hc; simp; tauto)
    simpa using this
  have hip : m.takeWhile isDig = natText (n / 10 ^ 12) ∧
      (m.dropWhile isDig).drop 1 = fs := by
    have hdg : ∀ c ∈ natText (n / 10 ^ 12), isDig c = true := fun c hc => isDig_iff.mpr (natText_digits _ c hc)
    rw [hm, takeWhile_prefix hdg, dropWhile_prefix hdg]
    have hdot : isDig '.' = false := by decide
    split
    · rename_i h0; simp [h0]
    · simp [hdot]
  have hmv : mantVal m = (n : ℚ) / 10 ^ 12 := by
    unfold mantVal
    simp only [hip.1, hip.2, natVal_natText]
    have hdm : (n : ℚ) = 10 ^ 12 * ((n / 10 ^ 12 : ℕ) : ℚ) + ((n % 10 ^ 12 : ℕ) : ℚ) := by
      exact_mod_cast (Nat.div_add_mod n (10 ^ 12)).symm
    have hv : ((n % 10 ^ 12 : ℕ) : ℚ) = (natVal fs : ℚ) * 10 ^ k := by exact_mod_cast hval.symm
    have hp : (10 : ℚ) ^ 12 = 10 ^ fs.length * 10 ^ k := by rw [← pow_add, hlen]
    rw [hdm, hv, add_div, mul_div_cancel_left₀ _ (by positivity)]
    congr 1
    rw [hp]; field_simp
  unfold floatVal
  simp only [hsign, ht, hd, hmv]
  have hi : intVal (List.drop 1 ([] : List Char)) = 0 := by decide
  rw [hi]
  by_cases hx : x < 0 <;> simp [hx]

/-- Printing changes a number by at most half a unit of the 12th decimal. -/
theorem lengthStr_close (x : ℚ) : |floatVal (lengthStr x) - x| ≤ 1 / (2 * 10 ^ 12) := by
  have h := units12_close x
  rw [floatVal_lengthStr]
  split
  · rename_i hx
    rw [abs_of_neg hx] at h
    rw [show (-1 : ℚ) * ((units12 x : ℚ) / 10 ^ 12) - x = -((units12 x : ℚ) / 10 ^ 12 - -x) by ring, abs_neg]
    exact h
  · rename_i hx
    rw [abs_of_nonneg (not_lt.mp hx)] at h
    rw [one_mul]; exact h

/-- the characters of a printed number -/
theorem lengthStr_plain (x : ℚ) : ∀ c ∈ lengthStr x, c = '-' ∨ c = '.' ∨ IsDigit c := by
  obtain ⟨fs, k, h, hk⟩ := lengthStr_shape x
  have hfs : Digits fs := fun c hc => fixedDigits_digits 12 _ c (by rw [hk]; simp [hc])
  rw [h]
  intro c hc
  rcases List.mem_append.mp hc with hc | hc
  · split at hc
    · left; simpa using hc
    · simp at hc
  · rcases List.mem_append.mp hc with hc | hc
    · exact Or.inr (Or.inr (natText_digits _ c hc))
    · split at hc
      · simp at hc
      · rcases List.mem_cons.mp hc with rfl | hc
        · exact Or.inr (Or.inl rfl)
        · exact Or.inr (Or.inr (hfs c hc))

end Svgio
