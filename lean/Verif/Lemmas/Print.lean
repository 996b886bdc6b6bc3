import Verif.Model.Print
import Verif.Spec.Print
import Verif.Lemmas.Fmt
import Mathlib.Tactic.LinearCombination
import Mathlib.Algebra.Order.Field.Power

/-!
The text of printed numbers.
-/

namespace Svgio.Print

open Spec

/-! ### stripping -/

theorem rstripC_mid {c d : Char} (h : d ≠ c) (a b : List Char) : rstripC c (a ++ d :: b) = a ++ d :: rstripC c b := by
  unfold rstripC
  rw [List.reverse_append, List.reverse_cons, List.append_assoc, List.dropWhile_append]
  split
  · rename_i h0
    have : b.reverse.dropWhile (fun x => decide (x = c)) = [] := by simpa using h0
    rw [this]
    simp [h]
  · simp

theorem rstripC_last {c : Char} {s : List Char} (h : ∀ d ∈ s.getLast?, d ≠ c) : rstripC c s = s := by
  rcases List.eq_nil_or_concat s with rfl | ⟨q, b, rfl⟩
  · rfl
  · have : b ≠ c := h b (by simp)
    simp [rstripC, this]

theorem rstripC_getLast {c : Char} {s : List Char} : ∀ d ∈ (rstripC c s).getLast?, d ≠ c := by
  intro d hd hc
  subst hc
  obtain ⟨k, -, h⟩ := rstripC_spec d s
  obtain ⟨q, hq⟩ := List.getLast?_eq_some_iff.1 hd
  exact h q hq

theorem mem_rstripC {c d : Char} {s : List Char} (h : d ∈ rstripC c s) : d ∈ s := by
  unfold rstripC at h
  rw [List.mem_reverse] at h
  have := List.dropWhile_sublist (fun x => decide (x = c)) (l := s.reverse)
  simpa using this.subset h

theorem rstripC_digits {c : Char} {s : List Char} (h : Digits s) : Digits (rstripC c s) := fun d hd => h d (mem_rstripC hd)

theorem fixedDigits_zero (k : ℕ) : fixedDigits k 0 = List.replicate k '0' := by
  induction k with
  | zero => rfl
  | succ k ih => rw [fixedDigits, Nat.zero_div, ih, List.replicate_succ']; rfl

/-! ### decimals without exponent -/

theorem decText_shape (m k : ℕ) :
    ∃ fs r, decText m k = natText (m / 10 ^ k) ++ (if fs = [] then [] else '.' :: fs) ∧
      fixedDigits k (m % 10 ^ k) = fs ++ List.replicate r '0' ∧ (∀ d ∈ fs.getLast?, d ≠ '0') ∧ Digits fs := by
  unfold decText
  by_cases hk : k = 0
  · subst hk
    exact ⟨[], 0, by simp, by simp [fixedDigits], by simp, by intro c hc; simp at hc⟩
  rw [if_neg hk, rstripC_mid (by decide)]
  obtain ⟨r, hr, -⟩ := rstripC_spec '0' (fixedDigits k (m % 10 ^ k))
  refine ⟨rstripC '0' (fixedDigits k (m % 10 ^ k)), r, ?_, hr, rstripC_getLast, rstripC_digits (fixedDigits_digits _ _)⟩
  have hd := rstripC_digits (c := '0') (fixedDigits_digits k (m % 10 ^ k))
  generalize rstripC '0' (fixedDigits k (m % 10 ^ k)) = fs at hd
  split
  · rename_i h
    subst h
    have : rstripC '.' (natText (m / 10 ^ k) ++ ['.']) = rstripC '.' (natText (m / 10 ^ k)) := by simp [rstripC]
    rw [this, List.append_nil]
    exact rstripC_last fun d hd => (digit_not_sign (natText_digits _ d (List.mem_of_getLast? hd))).2.2.1
  · rename_i h
    apply rstripC_last
    intro d hd'
    rw [List.getLast?_append_of_ne_nil _ (by simp), List.getLast?_cons_of_ne_nil h] at hd'
    exact (digit_not_sign (hd d (List.mem_of_getLast? hd'))).2.2.1

theorem decText_mantissa (m k : ℕ) : IsMantissa (decText m k) := by
  obtain ⟨fs, r, h, -, -, hd⟩ := decText_shape m k
  refine ⟨_, _, h, natText_digits _, ?_⟩
  by_cases h0 : fs = []
  · left; simp [h0, natText_ne]
  · right; exact ⟨fs, by simp [h0], h0, hd⟩

theorem decText_val (m k : ℕ) : mantVal (decText m k) = (m : ℚ) / 10 ^ k := by
  obtain ⟨fs, r, h, hf, -, hd⟩ := decText_shape m k
  have hlen : fs.length + r = k := by
    have := congrArg List.length hf
    rw [fixedDigits_length] at this; simp at this; omega
  have hval : natVal fs * 10 ^ r = m % 10 ^ k := by
    rw [← natVal_append_zeros, ← hf, natVal_fixedDigits _ _ (Nat.mod_lt _ (by positivity))]
  have hip : (decText m k).takeWhile isDig = natText (m / 10 ^ k) ∧ ((decText m k).dropWhile isDig).drop 1 = fs := by
    have hdg : ∀ c ∈ natText (m / 10 ^ k), isDig c = true := fun c hc => isDig_iff.mpr (natText_digits _ c hc)
    rw [h, takeWhile_prefix hdg, dropWhile_prefix hdg]
    have hdot : isDig '.' = false := by decide
    split
    · rename_i h0; simp [h0]
    · simp [hdot]
  unfold mantVal
  simp only [hip.1, hip.2, natVal_natText]
  have hdm : (m : ℚ) = 10 ^ k * ((m / 10 ^ k : ℕ) : ℚ) + ((m % 10 ^ k : ℕ) : ℚ) := by
    exact_mod_cast (Nat.div_add_mod m (10 ^ k)).symm
  have hv : ((m % 10 ^ k : ℕ) : ℚ) = (natVal fs : ℚ) * 10 ^ r := by exact_mod_cast hval.symm
  have hp : (10 : ℚ) ^ k = 10 ^ fs.length * 10 ^ r := by rw [← pow_add, hlen]
  rw [hdm, hv, add_div, mul_div_cancel_left₀ _ (by positivity)]
  congr 1
  rw [hp]; field_simp

theorem decText_dot (m k : ℕ) : '.' ∈ decText m k ↔ ¬ 10 ^ k ∣ m := by
  obtain ⟨fs, r, h, hf, hl, hd⟩ := decText_shape m k
  have h1 : '.' ∈ decText m k ↔ fs ≠ [] := by
    rw [h, List.mem_append]
    constructor
    · rintro (h | h) h0
      · exact absurd rfl (digit_not_sign (natText_digits _ _ h)).2.2.1
      · simp [h0] at h
    · intro h0; right; simp [h0]
  rw [h1, not_iff_not]
  constructor
  · rintro rfl
    have : natVal (fixedDigits k (m % 10 ^ k)) = 0 := by
      rw [hf, natVal_append_zeros]; simp [natVal]
    rw [natVal_fixedDigits _ _ (Nat.mod_lt _ (by positivity))] at this
    exact Nat.dvd_of_mod_eq_zero this
  · intro h0
    rw [Nat.mod_eq_zero_of_dvd h0, fixedDigits_zero] at hf
    by_contra hne
    have hm := List.getLast_mem hne
    have : fs.getLast hne ∈ List.replicate k '0' := by rw [hf]; simp [hm]
    exact hl _ (List.getLast?_eq_some_getLast hne) (List.mem_replicate.1 this).2

/-- stripping again does nothing -/
theorem decText_strip (sg : List Char) (m k : ℕ) (h : '.' ∈ decText m k) :
    rstripC '.' (rstripC '0' (sg ++ decText m k)) = sg ++ decText m k := by
  obtain ⟨fs, r, hs, hf, hl, hd⟩ := decText_shape m k
  have h0 : fs ≠ [] := by
    rintro rfl
    simp only [if_true, List.append_nil] at hs
    rw [hs] at h
    exact absurd rfl (digit_not_sign (natText_digits _ _ h)).2.2.1
  rw [if_neg h0] at hs
  rw [hs]
  have e : (sg ++ (natText (m / 10 ^ k) ++ '.' :: fs)).getLast? = fs.getLast? := by
    rw [← List.append_assoc, List.getLast?_append_of_ne_nil _ (by simp), List.getLast?_cons_of_ne_nil h0]
  rw [rstripC_last (c := '0') (by rw [e]; exact hl), rstripC_last]
  rw [e]
  exact fun d hd' => (digit_not_sign (hd d (List.mem_of_getLast? hd'))).2.2.1

/-! ### reading -/

theorem mant_chars {m : List Char} (h : IsMantissa m) : ∀ c ∈ m, c ≠ '+' ∧ c ≠ '-' ∧ c ≠ 'e' ∧ c ≠ 'E' := by
  obtain ⟨ip, fp, rfl, h1, h2⟩ := h
  intro c hc
  rcases List.mem_append.mp hc with hc | hc
  · have := digit_not_sign (h1 c hc); tauto
  · rcases h2 with ⟨rfl, -⟩ | ⟨ds, rfl, -, h3⟩
    · simp at hc
    · rcases List.mem_cons.mp hc with rfl | hc
      · decide
      · have := digit_not_sign (h3 c hc); tauto

/-- the sign of a printed number -/
def sgText (x : ℚ) : List Char := if x < 0 then ['-'] else []
/-- the sign of a number -/
def sgVal (x : ℚ) : ℚ := if x < 0 then -1 else 1

theorem optSign_sg (x : ℚ) : OptSign (sgText x) := by
  unfold sgText; split
  · exact Or.inr (Or.inr rfl)
  · exact Or.inl rfl

theorem takeSign_mant (x : ℚ) {m : List Char} (h : IsMantissa m) (r : List Char) : takeSign (sgText x ++ (m ++ r)) = (sgText x, m ++ r) :=
  takeSign_append (optSign_sg x) (mant_head h)

theorem floatVal_plain (x : ℚ) {m : List Char} (h : IsMantissa m) : floatVal (sgText x ++ m) = sgVal x * mantVal m := by
  have h1 := takeSign_mant x h []
  rw [List.append_nil] at h1
  have hmc := mant_chars h
  have ht : m.takeWhile (fun c => decide (c ≠ 'e' ∧ c ≠ 'E')) = m := by
    have := takeWhile_prefix (r := []) (p := fun c => decide (c ≠ 'e' ∧ c ≠ 'E')) (l := m)
      (fun c hc => by have := hmc c hc; simp; tauto)
    simpa using this
  have hd : m.dropWhile (fun c => decide (c ≠ 'e' ∧ c ≠ 'E')) = [] := by
    have := dropWhile_prefix (r := []) (p := fun c => decide (c ≠ 'e' ∧ c ≠ 'E')) (l := m)
      (fun c hc => by have := hmc c hc; simp; tauto)
    simpa using this
  unfold floatVal
  simp only [h1, ht, hd]
  have hi : intVal (List.drop 1 ([] : List Char)) = 0 := by decide
  rw [hi]
  unfold sgText sgVal
  by_cases hx : x < 0 <;> simp [hx]

theorem floatVal_expo (x : ℚ) {m ds : List Char} (h : IsMantissa m) (neg : Bool) (hds : Digits ds) :
    floatVal (sgText x ++ (m ++ 'E' :: (if neg then '-' else '+') :: ds)) =
      sgVal x * (mantVal m * (10 : ℚ) ^ (if neg then -(natVal ds : ℤ) else natVal ds)) := by
  have h1 := takeSign_mant x h ('E' :: (if neg then '-' else '+') :: ds)
  have hmc := mant_chars h
  have ht : (m ++ 'E' :: (if neg then '-' else '+') :: ds).takeWhile (fun c => decide (c ≠ 'e' ∧ c ≠ 'E')) = m := by
    rw [takeWhile_prefix (fun c hc => by have := hmc c hc; simp; tauto)]
    simp
  have hd : (m ++ 'E' :: (if neg then '-' else '+') :: ds).dropWhile (fun c => decide (c ≠ 'e' ∧ c ≠ 'E')) =
      'E' :: (if neg then '-' else '+') :: ds := by
    rw [dropWhile_prefix (fun c hc => by have := hmc c hc; simp; tauto)]
    simp
  have hi : intVal (List.drop 1 ('E' :: (if neg then '-' else '+') :: ds)) = if neg then -(natVal ds : ℤ) else natVal ds := by
    cases neg <;> simp [intVal, takeSign]
  unfold floatVal
  simp only [h1, ht, hd, hi]
  unfold sgText sgVal
  cases neg <;> by_cases hx : x < 0 <;> simp [hx]

/-! ### rounding -/

theorem pyRound_cases (x : ℚ) : pyRound x = ⌊x⌋ ∨ pyRound x = ⌊x⌋ + 1 ∧ (1 : ℚ) / 2 ≤ x - ⌊x⌋ := by
  unfold pyRound
  split
  · left; rfl
  · rename_i h
    split
    · right; exact ⟨rfl, by linarith⟩
    · split
      · left; rfl
      · right; exact ⟨rfl, by linarith⟩

theorem pyRound_tie {x : ℚ} (h : |(pyRound x : ℚ) - x| = 1 / 2) : Even (pyRound x) := by
  have h1 := Int.floor_le x
  have h2 := Int.lt_floor_add_one x
  unfold pyRound at h ⊢
  split at h
  · rename_i h3
    rw [abs_of_nonpos (by linarith)] at h; linarith
  · split at h
    · rename_i h3 h4
      push_cast at h
      rw [abs_of_nonneg (by linarith)] at h; linarith
    · rename_i h3 h4
      rw [if_neg h3, if_neg h4]
      split
      · rename_i h5; exact Int.even_iff.2 h5
      · rename_i h5; rw [Int.even_iff]; omega

theorem gDigits_spec {prec : ℕ} (hp : 1 ≤ prec) {a : ℚ} (ha : 0 < a) :
    10 ^ (prec - 1) ≤ (gDigits prec a).1 ∧ (gDigits prec a).1 < 10 ^ prec ∧
      RoundedTo prec a ((gDigits prec a).1 * (10 : ℚ) ^ ((gDigits prec a).2 - (prec - 1))) := by
  have e1 := Int.zpow_log_le_self (b := 10) (by norm_num) ha
  have e2 := Int.lt_zpow_succ_log_self (b := 10) (by norm_num) a
  norm_cast at e1 e2
  unfold gDigits
  generalize Int.log 10 a = e at e1 e2 ⊢
  push_cast at e1 e2
  set j : ℤ := e - (prec - 1) with hj
  have hpos : (0 : ℚ) < (10 : ℚ) ^ j := by positivity
  set b := a / (10 : ℚ) ^ j with hb
  have hab : a = b * (10 : ℚ) ^ j := by rw [hb]; field_simp
  have hb1 : (10 : ℚ) ^ (prec - 1) ≤ b := by
    rw [hb, le_div_iff₀ hpos, ← zpow_natCast, ← zpow_add₀ (by norm_num)]
    rw [show ((prec - 1 : ℕ) : ℤ) + j = e by omega]; exact e1
  have hb2 : b < (10 : ℚ) ^ prec := by
    rw [hb, div_lt_iff₀ hpos, ← zpow_natCast, ← zpow_add₀ (by norm_num)]
    rw [show (prec : ℤ) + j = e + 1 by omega]; exact e2
  have hf1 : (10 : ℤ) ^ (prec - 1) ≤ ⌊b⌋ := Int.le_floor.2 (by exact_mod_cast hb1)
  have hf2 : ⌊b⌋ < (10 : ℤ) ^ prec := Int.floor_lt.2 (by exact_mod_cast hb2)
  have hr1 : (10 : ℤ) ^ (prec - 1) ≤ pyRound b := by rcases pyRound_cases b with h | ⟨h, -⟩ <;> omega
  have hr2 : pyRound b ≤ (10 : ℤ) ^ prec := by rcases pyRound_cases b with h | ⟨h, -⟩ <;> omega
  have hr0 : 0 ≤ pyRound b := le_trans (by positivity) hr1
  obtain ⟨n, hn⟩ : ∃ n : ℕ, pyRound b = n := ⟨_, (Int.toNat_of_nonneg hr0).symm⟩
  have hrd : RoundedTo prec a ((n : ℚ) * (10 : ℚ) ^ j) := by
    right
    have hd : (n : ℚ) * (10 : ℚ) ^ j - a = ((pyRound b : ℚ) - b) * (10 : ℚ) ^ j := by
      rw [hn]; push_cast; linear_combination -hab
    refine ⟨j, n, ?_, ?_, by push_cast; rfl, ?_, ?_⟩
    · rw [abs_of_pos ha, show j + prec - 1 = e by omega]; exact e1
    · rw [abs_of_pos ha, show j + prec = e + 1 by omega]; exact e2
    · rw [hd, abs_mul, abs_of_pos hpos]
      have := mul_le_mul_of_nonneg_right (pyRound_close b) hpos.le
      linarith
    · rw [hd, abs_mul, abs_of_pos hpos]
      intro h
      rw [← hn]
      apply pyRound_tie
      have : (|(pyRound b : ℚ) - b| - 1 / 2) * (10 : ℚ) ^ j = 0 := by linarith
      rcases mul_eq_zero.1 this with h | h
      · linarith
      · exact absurd h hpos.ne'
  have hnn : (pyRound (a / (10 : ℚ) ^ (e - ((prec : ℤ) - 1)))).toNat = n := by rw [← hj, ← hb, hn]; simp
  simp only [hnn]
  have h1n : 10 ^ (prec - 1) ≤ n := by rw [hn] at hr1; exact_mod_cast hr1
  have h2n : n ≤ 10 ^ prec := by rw [hn] at hr2; exact_mod_cast hr2
  split
  · rename_i h
    refine ⟨le_refl _, Nat.pow_lt_pow_right (by norm_num) (by omega), ?_⟩
    have : (n : ℚ) * (10 : ℚ) ^ j = ((10 ^ (prec - 1) : ℕ) : ℚ) * (10 : ℚ) ^ (e + 1 - (prec - 1)) := by
      rw [h]; push_cast
      rw [← zpow_natCast, ← zpow_natCast, ← zpow_add₀ (by norm_num), ← zpow_add₀ (by norm_num)]
      congr 1; omega
    rw [← this]; exact hrd
  · rename_i h
    exact ⟨h1n, lt_of_le_of_ne h2n h, hrd⟩

theorem roundedTo_neg {prec : ℕ} {x y : ℚ} (h : RoundedTo prec x y) : RoundedTo prec (-x) (-y) := by
  rcases h with ⟨h1, h2⟩ | ⟨j, k, h1, h2, h3, h4, h5⟩
  · left; simp [h1, h2]
  · right
    have e : |-y - -x| = |y - x| := by rw [show -y - -x = -(y - x) by ring, abs_neg]
    refine ⟨j, -k, by rwa [abs_neg], by rwa [abs_neg], by push_cast; rw [h3]; ring, by rwa [e], ?_⟩
    rw [e]; exact fun h => (h5 h).neg

theorem sg_abs (x : ℚ) : sgVal x * |x| = x := by
  unfold sgVal; split
  · rename_i h; rw [abs_of_neg h]; ring
  · rename_i h; rw [abs_of_nonneg (not_lt.1 h)]; ring

theorem roundedTo_sg {prec : ℕ} {x y : ℚ} (h : RoundedTo prec |x| y) : RoundedTo prec x (sgVal x * y) := by
  unfold sgVal; split
  · rename_i hx
    have := roundedTo_neg h
    rw [abs_of_neg hx, neg_neg] at this
    rwa [neg_one_mul]
  · rename_i hx
    rw [abs_of_nonneg (not_lt.1 hx)] at h
    rwa [one_mul]

/-! ### printed numbers -/

theorem natText_expo (e : ℤ) :
    ∃ ds, expText e = 'E' :: (if decide (e < 0) = true then '-' else '+') :: ds ∧ Digits ds ∧ ds ≠ [] ∧
      (if decide (e < 0) = true then -(natVal ds : ℤ) else natVal ds) = e ∧ natVal ds = e.natAbs := by
  have hv : natVal (if e.natAbs < 10 then '0' :: natText e.natAbs else natText e.natAbs) = e.natAbs := by
    split
    · rename_i h
      have : natText e.natAbs = [digChar e.natAbs] := by rw [natText, if_pos h]
      rw [this]
      have h2 := digVal_digChar h
      have h0 : digVal '0' = 0 := by decide
      simp [natVal, h2, h0]
    · exact natVal_natText _
  refine ⟨if e.natAbs < 10 then '0' :: natText e.natAbs else natText e.natAbs, by simp [expText], ?_, ?_, ?_, hv⟩
  · split
    · intro c hc
      rcases List.mem_cons.1 hc with rfl | hc
      · exact ⟨by decide, by decide⟩
      · exact natText_digits _ c hc
    · exact natText_digits _
  · split
    · simp
    · exact natText_ne _
  · rw [hv]
    by_cases h : e < 0
    · rw [if_pos (by simpa using h)]; omega
    · rw [if_neg (by simpa using h)]; omega

/-- the value printed with `prec` significant digits -/
def gVal (prec : ℕ) (x : ℚ) : ℚ :=
  if x = 0 then 0 else sgVal x * ((gDigits prec |x|).1 * (10 : ℚ) ^ ((gDigits prec |x|).2 - (prec - 1)))

theorem gVal_rounded {prec : ℕ} (hp : 1 ≤ prec) (x : ℚ) : RoundedTo prec x (gVal prec x) := by
  unfold gVal
  split
  · rename_i h; exact Or.inl ⟨h, rfl⟩
  · rename_i h
    exact roundedTo_sg (gDigits_spec hp (abs_pos.2 h)).2.2

theorem isNumber_plain (x : ℚ) {m : List Char} (h : IsMantissa m) : IsNumber (sgText x ++ m) :=
  ⟨_, m, [], by simp, optSign_sg x, h, Or.inl rfl⟩

theorem isNumber_expo (x : ℚ) {m ds : List Char} (h : IsMantissa m) (neg : Bool) (hd : Digits ds) (h0 : ds ≠ []) :
    IsNumber (sgText x ++ (m ++ 'E' :: (if neg then '-' else '+') :: ds)) := by
  refine ⟨_, m, _, rfl, optSign_sg x, h, Or.inr ⟨'E', [if neg then '-' else '+'], ds, Or.inr rfl, by simp, ?_, h0, hd⟩⟩
  cases neg
  · exact Or.inr (Or.inl rfl)
  · exact Or.inr (Or.inr rfl)

theorem zero_number : IsNumber ['0'] ∧ floatVal ['0'] = 0 :=
  ⟨(matchFloat_sound (s := ['0']) (r := []) (by decide)).2, by decide +kernel⟩

/-- how a number other than 0 is printed -/
theorem fmtG_cases {prec : ℕ} {x : ℚ} (hx : x ≠ 0) :
    (-4 ≤ (gDigits prec |x|).2 ∧ (gDigits prec |x|).2 < prec ∧
      fmtG prec x = sgText x ++ decText (gDigits prec |x|).1 (prec - 1 - (gDigits prec |x|).2).toNat) ∨
    (((gDigits prec |x|).2 < -4 ∨ prec ≤ (gDigits prec |x|).2) ∧
      fmtG prec x = sgText x ++ (decText (gDigits prec |x|).1 (prec - 1) ++ expText (gDigits prec |x|).2)) := by
  unfold fmtG
  rw [if_neg hx]
  by_cases h : -4 ≤ (gDigits prec |x|).2 ∧ (gDigits prec |x|).2 < prec
  · left; refine ⟨h.1, h.2, ?_⟩; simp only [if_pos h]; rfl
  · right; refine ⟨by omega, ?_⟩; simp only [if_neg h]; rfl

theorem fixed_val {prec : ℕ} (m : ℕ) {e : ℤ} (h : e < prec) :
    (m : ℚ) / 10 ^ ((prec : ℤ) - 1 - e).toNat = m * (10 : ℚ) ^ (e - (prec - 1)) := by
  have : (10 : ℚ) ^ ((prec : ℤ) - 1 - e).toNat = (10 : ℚ) ^ ((prec : ℤ) - 1 - e) := by
    rw [← zpow_natCast, Int.toNat_of_nonneg (by omega)]
  rw [this, div_eq_mul_inv, ← zpow_neg]
  congr 2; ring

theorem expo_val {prec : ℕ} (hp : 1 ≤ prec) (m : ℕ) (e : ℤ) :
    (m : ℚ) / 10 ^ (prec - 1) * (10 : ℚ) ^ e = m * (10 : ℚ) ^ (e - (prec - 1)) := by
  rw [zpow_sub₀ (by norm_num)]
  have : (10 : ℚ) ^ ((prec : ℤ) - 1) = 10 ^ (prec - 1) := by
    rw [← zpow_natCast]; congr 1; omega
  rw [this]; field_simp

theorem fmtG_number {prec : ℕ} (hp : 1 ≤ prec) (x : ℚ) : IsNumber (fmtG prec x) ∧ floatVal (fmtG prec x) = gVal prec x := by
  by_cases hx : x = 0
  · have : fmtG prec x = ['0'] := by unfold fmtG; rw [if_pos hx]
    rw [this, gVal, if_pos hx]
    exact zero_number
  rw [gVal, if_neg hx]
  rcases fmtG_cases (prec := prec) hx with ⟨h1, h2, h⟩ | ⟨h1, h⟩
  · rw [h]
    refine ⟨isNumber_plain x (decText_mantissa _ _), ?_⟩
    rw [floatVal_plain x (decText_mantissa _ _), decText_val, fixed_val _ h2]
  · rw [h]
    obtain ⟨ds, e1, e2, e3, e4, -⟩ := natText_expo (gDigits prec |x|).2
    rw [e1]
    refine ⟨isNumber_expo x (decText_mantissa _ _) _ e2 e3, ?_⟩
    rw [floatVal_expo x (decText_mantissa _ _) _ e2, e4, decText_val, expo_val hp]

/-! ### printed coordinates -/

theorem natVal_replicate (k : ℕ) : natVal (List.replicate k '0') = 0 := by
  have := natVal_append_zeros [] k
  simpa [natVal] using this

/-- The stripped text is a number. Its value is the rounded coordinate unless the exponent lost a zero. -/
theorem coordText_number (x : ℚ) : IsNumber (coordText x) ∧
    (floatVal (coordText x) = gVal 12 x ↔
      ¬ (x ≠ 0 ∧ ((gDigits 12 |x|).2 < -4 ∨ 12 ≤ (gDigits 12 |x|).2) ∧ ¬ 10 ^ 11 ∣ (gDigits 12 |x|).1 ∧
          10 ∣ (gDigits 12 |x|).2)) := by
  have hn := fmtG_number (prec := 12) (by norm_num) x
  by_cases hx : x = 0
  · have : coordText x = ['0'] := by simp [coordText, fmtG, hx]
    rw [this, gVal, if_pos hx]
    exact ⟨zero_number.1, by simp [zero_number.2, hx]⟩
  have key : coordText x = fmtG 12 x ∧ ¬ (((gDigits 12 |x|).2 < -4 ∨ 12 ≤ (gDigits 12 |x|).2) ∧ ¬ 10 ^ 11 ∣ (gDigits 12 |x|).1 ∧
      10 ∣ (gDigits 12 |x|).2) → IsNumber (coordText x) ∧
    (floatVal (coordText x) = gVal 12 x ↔
      ¬ (x ≠ 0 ∧ ((gDigits 12 |x|).2 < -4 ∨ 12 ≤ (gDigits 12 |x|).2) ∧ ¬ 10 ^ 11 ∣ (gDigits 12 |x|).1 ∧
          10 ∣ (gDigits 12 |x|).2)) := by
    rintro ⟨h1, h2⟩
    rw [h1]
    exact ⟨hn.1, by simp only [hn.2, true_iff]; exact fun h => h2 h.2⟩
  rcases fmtG_cases (prec := 12) hx with ⟨h1, h2, h⟩ | ⟨h1, h⟩
  · apply key
    refine ⟨?_, by omega⟩
    unfold coordText
    simp only
    split
    · rename_i hd
      rw [h] at hd ⊢
      refine decText_strip _ _ _ ?_
      rcases List.mem_append.1 hd with hd | hd
      · unfold sgText at hd; split at hd <;> simp at hd
      · exact hd
    · rfl
  · obtain ⟨ds, e1, e2, e3, e4, e5⟩ := natText_expo (gDigits 12 |x|).2
    have hm := (gDigits_spec (prec := 12) (by norm_num) (abs_pos.2 hx)).1
    rw [gVal, if_neg hx]
    rw [gVal, if_neg hx] at key hn
    generalize gDigits 12 |x| = d at *
    rw [e1] at h
    have hdot : '.' ∈ fmtG 12 x ↔ '.' ∈ decText d.1 (12 - 1) := by
      rw [h]
      simp only [List.mem_append, List.mem_cons]
      constructor
      · rintro (h | h | h | h | h)
        · unfold sgText at h; split at h <;> simp at h
        · exact h
        · simp at h
        · split at h <;> simp at h
        · exact absurd rfl (digit_not_sign (e2 _ h)).2.2.1
      · intro h; exact Or.inr (Or.inl h)
    rw [decText_dot] at hdot
    by_cases hd : 10 ^ 11 ∣ d.1
    · apply key
      refine ⟨?_, fun h => h.2.1 hd⟩
      unfold coordText
      simp only
      rw [if_neg (fun h => (hdot.1 h) (by simpa using hd))]
    have hct : coordText x = rstripC '.' (rstripC '0' (fmtG 12 x)) := by
      unfold coordText
      simp only
      rw [if_pos (hdot.2 (by simpa using hd))]
    obtain ⟨k, hk, -⟩ := rstripC_spec '0' ds
    have hds' : Digits (rstripC '0' ds) := rstripC_digits e2
    have hlast : ∀ c ∈ (rstripC '0' ds).getLast?, c ≠ '0' := rstripC_getLast
    have hct2 : coordText x = sgText x ++ (decText d.1 (12 - 1) ++ 'E' :: (if decide (d.2 < 0) = true then '-' else '+') ::
        rstripC '0' ds) := by
      rw [hct, h]
      have a1 : ∀ a b : List Char, ∀ s : Char, s ≠ '0' → s ≠ '.' → rstripC '.' (rstripC '0' (a ++ (b ++ 'E' :: s :: ds))) =
          a ++ (b ++ 'E' :: s :: rstripC '0' ds) := by
        intro a b s h0 h1
        rw [show a ++ (b ++ 'E' :: s :: ds) = (a ++ b ++ ['E']) ++ s :: ds by simp, rstripC_mid h0, rstripC_mid h1,
          rstripC_last (s := rstripC '0' ds)]
        · simp
        · exact fun c hc => (digit_not_sign (hds' c (List.mem_of_getLast? hc))).2.2.1
      refine a1 _ _ _ ?_ ?_ <;> split <;> decide
    have hv : natVal ds = natVal (rstripC '0' ds) * 10 ^ k := by
      conv_lhs => rw [hk]
      exact natVal_append_zeros _ _
    have hne : d.2.natAbs ≠ 0 := by omega
    have hne2 : natVal (rstripC '0' ds) ≠ 0 := by
      intro h0; rw [h0, zero_mul, e5] at hv; exact hne hv
    have hne3 : rstripC '0' ds ≠ [] := by
      intro h0; rw [h0] at hne2; exact hne2 rfl
    have hnum := isNumber_expo x (decText_mantissa d.1 (12 - 1)) (decide (d.2 < 0)) hds' hne3
    rw [← hct2] at hnum
    refine ⟨hnum, ?_⟩
    have hval := floatVal_expo x (decText_mantissa d.1 (12 - 1)) (decide (d.2 < 0)) hds'
    rw [← hct2, decText_val] at hval
    have hiff : k = 0 ↔ ¬ 10 ∣ d.2 := by
      constructor
      · rintro rfl hdvd
        simp only [List.replicate_zero, List.append_nil] at hk
        rw [← hk] at hlast
        rcases List.eq_nil_or_concat ds with rfl | ⟨q, b, rfl⟩
        · exact e3 rfl
        · have hb : b ≠ '0' := hlast b (by simp)
          rw [List.concat_eq_append] at e5 e2
          rw [natVal_snoc] at e5
          have hbd := e2 b (by simp)
          have h10 : 10 ∣ d.2.natAbs := by
            rcases hdvd with ⟨q, hq⟩; exact ⟨q.natAbs, by rw [hq, Int.natAbs_mul]; rfl⟩
          have hz : digVal b = 0 := by
            have : digVal b < 10 := by
              have h1 := hbd.2
              unfold digVal
              have h2 : b.toNat ≤ '9'.toNat := h1
              have h3 : '9'.toNat = 57 := rfl
              have h4 : '0'.toNat = 48 := rfl
              omega
            omega
          apply hb
          have h1 : '0'.toNat ≤ b.toNat := hbd.1
          unfold digVal at hz
          have : b.toNat = '0'.toNat := by omega
          exact Char.toNat_inj.1 this
      · intro hnd
        by_contra hk0
        apply hnd
        have : 10 ∣ natVal ds := by
          rw [hv]; exact Dvd.dvd.mul_left (dvd_pow_self 10 hk0) _
        rw [e5] at this
        exact Int.natCast_dvd.2 (by simpa using this)
    have e5' : natVal (rstripC '0' ds) * 10 ^ k = d.2.natAbs := by rw [← hv, e5]
    have hgoal : floatVal (coordText x) = sgVal x * ((d.1 : ℚ) * (10 : ℚ) ^ (d.2 - (((12 : ℕ) : ℤ) - 1))) ↔ k = 0 := by
      rw [hval, ← expo_val (prec := 12) (by norm_num)]
      have hs : sgVal x ≠ 0 := by unfold sgVal; split <;> norm_num
      have hm0 : (d.1 : ℚ) / 10 ^ (12 - 1) ≠ 0 := by
        have : (d.1 : ℚ) ≠ 0 := by
          have h1 : d.1 ≠ 0 := by
            have : 0 < 10 ^ (12 - 1) := by norm_num
            omega
          exact_mod_cast h1
        positivity
      rw [mul_right_inj' hs, mul_right_inj' hm0, zpow_right_inj₀ (by norm_num) (by norm_num)]
      generalize natVal (rstripC '0' ds) = v at *
      constructor
      · intro hq
        have hvn : v = d.2.natAbs := by
          split at hq <;> omega
        by_contra hk0
        have h10 : 2 ≤ 10 ^ k := le_trans (by norm_num) (Nat.pow_le_pow_right (by norm_num) (Nat.one_le_iff_ne_zero.2 hk0))
        have := Nat.mul_le_mul_left v h10
        omega
      · rintro rfl
        rw [pow_zero, mul_one] at e5'
        rw [e5', ← e5]; exact e4
    rw [hgoal, hiff]
    constructor
    · rintro h ⟨-, -, -, h2⟩; exact h h2
    · intro h h2; exact h ⟨hx, h1, hd, h2⟩

end Svgio.Print
