import Verif.Lemmas.Fmt
import Verif.Props.Length

/-!
Reading and printing lengths: C13, and the physical sizes of C18.
-/

namespace Svgio.Props

open Svgio Spec Len

/-- a unit as written: letters and percent signs -/
def UnitText (u : List Char) : Prop := ∀ c ∈ u, ('A' ≤ c ∧ c ≤ 'Z') ∨ ('a' ≤ c ∧ c ≤ 'z') ∨ c = '%'

instance (u : List Char) : Decidable (UnitText u) := by unfold UnitText; infer_instance

theorem isUnitChar_iff {c : Char} :
    isUnitChar c = true ↔ ('A' ≤ c ∧ c ≤ 'Z') ∨ ('a' ≤ c ∧ c ≤ 'z') ∨ c = '%' := by
  unfold isUnitChar; simp [or_assoc]

theorem units_text_ofText (t : List Char) : (Units.ofText t).text = t := by
  unfold Units.ofText
  cases h : Units.known.find? (fun u => u.text = t) with
  | none => rfl
  | some u => simpa using List.find?_some h

/-- the first match, when no number starts in what comes before it -/
theorem searchLength_found {pre t u rest : List Char} (hn : IsNumber t) (hs : Stops t (u ++ rest))
    (hu : UnitText u) (hr : ∀ c ∈ rest.head?, ¬ UnitText [c])
    (hpre : ∀ p q n r, pre = p ++ q → q ≠ [] → q ++ (t ++ (u ++ rest)) = n ++ r → ¬ IsNumber n) :
    searchLength (pre ++ (t ++ (u ++ rest))) = some (t, u) := by
  induction pre with
  | nil =>
    obtain ⟨c, t', rfl, -⟩ := isNumber_head hn
    have hm := matchFloat_of_stops hn hs
    simp only [List.nil_append, List.cons_append] at hm ⊢
    simp only [searchLength, hm, Option.some.injEq, Prod.mk.injEq, true_and]
    rw [takeWhile_prefix (fun c hc => isUnitChar_iff.mpr (hu c hc))]
    cases rest with
    | nil => simp
    | cons d rest =>
      have : isUnitChar d = false := by
        rw [Bool.eq_false_iff, Ne, isUnitChar_iff]
        intro hd; exact hr d (by simp) (by intro c hc; simp at hc; subst hc; exact hd)
      simp [this]
  | cons c pre ih =>
    have hm : matchFloat (c :: (pre ++ (t ++ (u ++ rest)))) = none := by
      cases h : matchFloat (c :: (pre ++ (t ++ (u ++ rest)))) with
      | none => rfl
      | some r =>
        obtain ⟨e, hn'⟩ := matchFloat_sound (t := r.1) (r := r.2) h
        exact absurd hn' (hpre [] (c :: pre) r.1 r.2 rfl (by simp) e)
    simp only [List.cons_append, searchLength, hm]
    exact ih (fun p q n r h => hpre (c :: p) q n r (by rw [h]; rfl))

theorem searchLength_none {s : List Char} (h : ∀ p n q, s = p ++ (n ++ q) → ¬ IsNumber n) :
    searchLength s = none := by
  induction s with
  | nil => rfl
  | cons c s ih =>
    have hm : matchFloat (c :: s) = none := by
      cases hh : matchFloat (c :: s) with
      | none => rfl
      | some r =>
        obtain ⟨e, hn⟩ := matchFloat_sound (t := r.1) (r := r.2) hh
        exact absurd hn (h [] r.1 r.2 e)
    simp only [searchLength, hm]
    exact ih (fun p n q e => h (c :: p) n q (by rw [e]; rfl))

/-- C13: a number followed by a unit, wherever it is the first number of the text, gives that amount and that
unit. -/
theorem C13_reads (pre t u rest : List Char) (hn : IsNumber t) (hs : Stops t (u ++ rest)) (hu : UnitText u)
    (hr : ∀ c ∈ rest.head?, ¬ UnitText [c])
    (hpre : ∀ p q n r, pre = p ++ q → q ≠ [] → q ++ (t ++ (u ++ rest)) = n ++ r → ¬ IsNumber n) :
    (ofString (pre ++ (t ++ (u ++ rest)))).amount = floatVal t ∧
      (ofString (pre ++ (t ++ (u ++ rest)))).units.text = u := by
  unfold ofString
  rw [searchLength_found hn hs hu hr hpre]
  exact ⟨rfl, units_text_ofText u⟩

/-- C13: text without any number is 0 without unit. -/
theorem C13_no_number (s : List Char) (h : ∀ p n q, s = p ++ (n ++ q) → ¬ IsNumber n) :
    (ofString s).amount = 0 ∧ (ofString s).units.text = [] := by
  unfold ofString
  rw [searchLength_none h]
  exact ⟨rfl, rfl⟩

theorem digits_last {ds : List Char} (h : Digits ds) (hne : ds ≠ []) : ∃ r d, ds = r ++ [d] ∧ IsDigit d := by
  rcases List.eq_nil_or_concat ds with rfl | ⟨r, d, rfl⟩
  · exact absurd rfl hne
  · exact ⟨r, d, List.concat_eq_append, h d (by simp)⟩

/-- a number ends with a digit -/
theorem isNumber_last {t : List Char} (h : IsNumber t) : ∃ r d, t = r ++ [d] ∧ IsDigit d := by
  obtain ⟨sg, m, ex, rfl, -, ⟨ip, fp, rfl, hip, hf⟩, hex⟩ := h
  rcases hex with rfl | ⟨c, sg', ds, -, rfl, -, hne, hds⟩
  · rcases hf with ⟨rfl, hne⟩ | ⟨ds, rfl, hne, hds⟩
    · obtain ⟨r, d, rfl, hd⟩ := digits_last hip hne
      exact ⟨sg ++ r, d, by simp, hd⟩
    · obtain ⟨r, d, rfl, hd⟩ := digits_last hds hne
      exact ⟨sg ++ (ip ++ '.' :: r), d, by simp, hd⟩
  · obtain ⟨r, d, rfl, hd⟩ := digits_last hds hne
    exact ⟨sg ++ (ip ++ fp ++ c :: (sg' ++ r)), d, by simp, hd⟩

theorem unit_not_digit {c : Char} (h : UnitText [c]) : ¬ IsDigit c := by
  have h' := h c (by simp)
  unfold IsDigit
  rintro ⟨h1, h2⟩
  rcases h' with ⟨h3, -⟩ | ⟨h3, -⟩ | rfl
  · exact absurd (Char.le_trans h3 h2) (by decide)
  · exact absurd (Char.le_trans h3 h2) (by decide)
  · exact absurd h1 (by decide)

/-- a number ends before its unit, when nothing that can be part of a number follows the unit -/
theorem stops_unit {t u r : List Char} (hu : UnitText u) (hr : ∀ c ∈ r.head?, ¬ NumChar c) : Stops t (u ++ r) := by
  intro p q hpq hne hn
  have hc := isNumber_chars hn
  obtain ⟨s, d, hs, hd⟩ := isNumber_last hn
  rcases List.eq_nil_or_concat p with rfl | ⟨p', e, rfl⟩
  · exact hne rfl
  rw [List.concat_eq_append] at hpq hs hc
  rw [← List.append_assoc] at hs
  have hed : e = d := by simpa using (List.append_inj' hs rfl).2
  subst hed
  rcases List.append_eq_append_iff.mp hpq with ⟨a, ha, hb⟩ | ⟨a, ha, -⟩
  · cases a with
    | nil =>
      refine unit_not_digit (fun c hc => hu c ?_) hd
      rw [List.append_nil] at ha
      rw [← ha]; simp at hc; simp [hc]
    | cons c a =>
      refine hr c (by rw [hb]; simp) (hc c ?_)
      rw [ha]; simp
  · refine unit_not_digit (fun c hc => hu c ?_) hd
    rw [ha]; simp at hc; simp [hc]

/-- reading a printed amount with a unit -/
theorem ofString_printed (x : ℚ) {u : List Char} (hu : UnitText u) :
    ofString (lengthStr x ++ u) = ⟨floatVal (lengthStr x), Units.ofText u⟩ := by
  have h := searchLength_found (pre := []) (t := lengthStr x) (u := u) (rest := []) (lengthStr_isNumber x)
    (stops_unit hu (by simp)) hu (by simp) (by intro p q n r h hq; simp at h; exact absurd h.2 hq)
  simp only [List.nil_append, List.append_nil] at h
  unfold ofString
  rw [h]

/-- C13: reading what was printed gives the same unit and the amount within half a unit of the 12th decimal,
unchanged if the amount has at most 12 decimals. -/
theorem C13_round_trip (l : Len ℚ) (hu : UnitText l.units.text) :
    (ofString l.toString).units.text = l.units.text ∧
      |(ofString l.toString).amount - l.amount| ≤ 1 / (2 * 10 ^ 12) ∧
      (∀ n : ℤ, l.amount = n / 10 ^ 12 → (ofString l.toString).amount = l.amount) := by
  unfold Len.toString
  rw [ofString_printed _ hu]
  refine ⟨units_text_ofText _, lengthStr_close _, fun n hn => ?_⟩
  simp only
  rw [floatVal_lengthStr]
  have e : (units12 l.amount : ℚ) = |(n : ℚ)| := by
    have h1 : |l.amount| * 10 ^ 12 = ((|n| : ℤ) : ℚ) := by
      rw [hn, abs_div, abs_of_pos (by positivity : (0 : ℚ) < 10 ^ 12)]; push_cast; field_simp
    have h2 : pyRound (|l.amount| * 10 ^ 12) = |n| := by
      rw [h1]
      generalize |n| = k
      unfold pyRound
      rw [if_pos (by simp)]
      simp
    unfold units12
    rw [h2]
    have : ((|n|.toNat : ℕ) : ℤ) = |n| := Int.toNat_of_nonneg (abs_nonneg n)
    exact_mod_cast congrArg (Int.cast (R := ℚ)) this
  rw [e, hn]
  by_cases h : (n : ℚ) / 10 ^ 12 < 0
  · have : (n : ℚ) < 0 := by
      by_contra hh; exact absurd h (not_lt.mpr (div_nonneg (not_lt.mp hh) (by positivity)))
    rw [if_pos h, abs_of_neg this]; ring
  · have : (0 : ℚ) ≤ n := by
      by_contra hh; exact h (div_neg_of_neg_of_pos (not_le.mp hh) (by positivity))
    rw [if_neg h, abs_of_nonneg this]; ring

/-- hypotheses met: " width: -2.50em;" -/
example : (ofString "w: -2.50em;".toList).amount = -5 / 2 ∧ (ofString "w: -2.50em;".toList).units = .em := by
  decide +kernel
example : UnitText (Units.mm).text := by decide
example : (Len.toString ⟨-5 / 2, .mm⟩) = "-2.5mm".toList := by decide +kernel

/-- C18: `to_mm`, `to_cm` and `to_inch` of a length that resolves to `v` pixels have `v` pixels again, up to the
rounding of the printed amount: half of 1e-12 of the target unit. -/
theorem C18_physical (ppi : ℚ) (hppi : 0 < ppi) (ctx : Ctx ℚ) (l : Len ℚ) (v : ℚ)
    (hv : value { ctx with ppi := some ppi } l = .ok (.num v)) :
    (∃ m, toMm ppi ctx l = .ok m ∧ m.units = .mm ∧
      |m.amount * (ppi * (393701 / 10000000)) - v| ≤ ppi * (393701 / 10000000) / (2 * 10 ^ 12)) ∧
    (∃ m, toCm ppi ctx l = .ok m ∧ m.units = .cm ∧
      |m.amount * (ppi * (393701 / 1000000)) - v| ≤ ppi * (393701 / 1000000) / (2 * 10 ^ 12)) ∧
    (∃ m, toInch ppi ctx l = .ok m ∧ m.units = .inch ∧ |m.amount * ppi - v| ≤ ppi / (2 * 10 ^ 12)) := by
  have key : ∀ (u : Units) (k : ℚ), 0 < k → UnitText u.text → Units.ofText u.text = u →
      ∃ m, toPhysical u k ppi ctx l = .ok m ∧ m.units = u ∧
        |m.amount * (ppi * k) - v| ≤ ppi * k / (2 * 10 ^ 12) := by
    intro u k hk hu hof
    have hd : ppi * k ≠ 0 := (mul_pos hppi hk).ne'
    refine ⟨⟨floatVal (lengthStr (v / (ppi * k))), u⟩, ?_, rfl, ?_⟩
    · unfold toPhysical
      simp only [hv, pyDiv, hd, if_false]
      rw [ofString_printed _ hu, hof]
    · have h := lengthStr_close (v / (ppi * k))
      simp only
      have e : floatVal (lengthStr (v / (ppi * k))) * (ppi * k) - v =
          (floatVal (lengthStr (v / (ppi * k))) - v / (ppi * k)) * (ppi * k) := by
        rw [sub_mul, div_mul_cancel₀ _ hd]
      rw [e, abs_mul, abs_of_pos (mul_pos hppi hk)]
      calc _ ≤ 1 / (2 * 10 ^ 12) * (ppi * k) := mul_le_mul_of_nonneg_right h (mul_pos hppi hk).le
        _ = _ := by ring
  refine ⟨key .mm cMm (by unfold cMm; norm_num) (by decide) (by decide),
    key .cm cCm (by unfold cCm; norm_num) (by decide) (by decide), ?_⟩
  have := key .inch 1 one_pos (by decide) (by decide)
  simpa [toInch] using this

end Svgio.Props
