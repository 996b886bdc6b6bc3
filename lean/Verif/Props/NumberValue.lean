import Verif.Spec.Value
import Verif.Lemmas.Number
import Verif.Props.Angle

/-!
C125: numbers in text have the value of decimal notation.
-/

namespace Svgio.Props

open Spec

theorem digVal_eq {c : Char} (h : IsDigit c) : digVal c = digit c := by
  have hc : c = Char.ofNat c.toNat := (Char.ofNat_toNat c).symm
  have h1 : 48 ≤ c.toNat := h.1
  have h2 : c.toNat ≤ 57 := h.2
  generalize c.toNat = n at *
  subst hc
  interval_cases n <;> decide

theorem natVal_foldl (ds : List Char) (h : Digits ds) (n : ℕ) :
    ds.foldl (fun n c => 10 * n + digVal c) n = n * 10 ^ ds.length + whole ds := by
  induction ds generalizing n with
  | nil => simp [whole]
  | cons c ds ih =>
    rw [List.foldl_cons, ih (fun d hd => h d (by simp [hd])), whole, digVal_eq (h c (by simp)), List.length_cons]
    ring

theorem natVal_whole {ds : List Char} (h : Digits ds) : natVal ds = whole ds := by
  unfold natVal
  rw [natVal_foldl ds h]
  simp

theorem digits_isDig {ds : List Char} (h : Digits ds) : ∀ c ∈ ds, isDig c = true := by
  intro c hc
  unfold isDig
  simp only [Bool.and_eq_true, decide_eq_true_eq]
  exact h c hc

theorem mantVal_value {ip fr : List Char} {f : ℚ} (hi : Digits ip) (hf : Fraction fr f) : mantVal (ip ++ fr) = whole ip + f := by
  have hd := digits_isDig hi
  unfold mantVal
  rcases hf with ⟨rfl, rfl⟩ | ⟨ds, rfl, -, hds, rfl⟩
  · rw [takeWhile_prefix hd, dropWhile_prefix hd]
    simp only [List.takeWhile_nil, List.dropWhile_nil, List.append_nil, List.drop_nil]
    rw [natVal_whole hi]
    simp [natVal]
  · rw [takeWhile_prefix hd, dropWhile_prefix hd]
    have e1 : List.takeWhile isDig ('.' :: ds) = [] := List.takeWhile_cons_of_neg (by decide)
    have e2 : List.dropWhile isDig ('.' :: ds) = '.' :: ds := List.dropWhile_cons_of_neg (by decide)
    rw [e1, e2]
    simp only [List.append_nil, List.drop_succ_cons, List.drop_zero]
    rw [natVal_whole hi, natVal_whole hds]

theorem intVal_power {ex : List Char} {e : ℤ} (h : Power ex e) : intVal (ex.drop 1) = e := by
  rcases h with ⟨rfl, rfl⟩ | ⟨c, sg, ds, -, rfl, hs, hne, hd, rfl⟩
  · decide
  · simp only [List.drop_succ_cons, List.drop_zero]
    have : takeSign (sg ++ ds) = (sg, ds) := by
      have := takeSign_append (s := ds) hs (by
        intro c hc
        cases ds with
        | nil => exact absurd rfl hne
        | cons d ds =>
          cases hc
          have := digit_not_sign (hd c (by simp))
          exact ⟨this.1, this.2.1⟩)
      exact this
    unfold intVal
    rw [this]
    simp only [natVal_whole hd]

theorem value_number {t : List Char} {x : ℚ} (h : Value t x) : IsNumber t := by
  obtain ⟨sg, ip, fr, ex, f, e, rfl, hs, hi, hne, hf, he, -⟩ := h
  refine ⟨sg, ip ++ fr, ex, by simp, hs, ⟨ip, fr, rfl, hi, ?_⟩, ?_⟩
  · rcases hf with ⟨rfl, -⟩ | ⟨ds, rfl, h1, h2, -⟩
    · exact .inl ⟨rfl, hne.resolve_right (by simp)⟩
    · exact .inr ⟨ds, rfl, h1, h2⟩
  · rcases he with ⟨rfl, -⟩ | ⟨c, sg', ds, h1, rfl, h2, h3, h4, -⟩
    · exact .inl rfl
    · exact .inr ⟨c, sg', ds, h1, rfl, h2, h3, h4⟩

theorem value_floatVal {t : List Char} {x : ℚ} (h : Value t x) : floatVal t = x := by
  obtain ⟨-, -⟩ := value_number h
  obtain ⟨sg, ip, fr, ex, f, e, rfl, hs, hi, hne, hf, he, rfl⟩ := h
  have hm : IsMantissa (ip ++ fr) := by
    refine ⟨ip, fr, rfl, hi, ?_⟩
    rcases hf with ⟨rfl, -⟩ | ⟨ds, rfl, h1, h2, -⟩
    · exact .inl ⟨rfl, hne.resolve_right (by simp)⟩
    · exact .inr ⟨ds, rfl, h1, h2⟩
  have hx : OptExponent ex := by
    rcases he with ⟨rfl, -⟩ | ⟨c, sg', ds, h1, rfl, h2, h3, h4, -⟩
    · exact .inl rfl
    · exact .inr ⟨c, sg', ds, h1, rfl, h2, h3, h4⟩
  have := floatVal_parts hs hm hx
  rw [List.append_assoc] at this
  rw [this, mantVal_value hi hf, intVal_power he]
  by_cases hg : sg = ['-']
  · rw [if_pos hg, if_pos hg]; ring
  · rw [if_neg hg, if_neg hg]; ring

theorem number_value {t : List Char} (h : IsNumber t) : ∃ x, Value t x := by
  obtain ⟨sg, m, ex, rfl, hs, ⟨ip, fp, rfl, hi, hf⟩, he⟩ := h
  have hF : ∃ f, Fraction fp f := by
    rcases hf with ⟨rfl, -⟩ | ⟨ds, rfl, h1, h2⟩
    · exact ⟨0, .inl ⟨rfl, rfl⟩⟩
    · exact ⟨_, .inr ⟨ds, rfl, h1, h2, rfl⟩⟩
  have hE : ∃ e, Power ex e := by
    rcases he with rfl | ⟨c, sg', ds, h1, rfl, h2, h3, h4⟩
    · exact ⟨0, .inl ⟨rfl, rfl⟩⟩
    · exact ⟨_, .inr ⟨c, sg', ds, h1, rfl, h2, h3, h4, rfl⟩⟩
  obtain ⟨f, hF⟩ := hF
  obtain ⟨e, hE⟩ := hE
  refine ⟨_, sg, ip, fp, ex, f, e, by simp, hs, hi, ?_, hF, hE, rfl⟩
  rcases hf with ⟨-, h⟩ | ⟨ds, rfl, -⟩
  · exact .inl h
  · exact .inr (by simp)

/-- **C125** The library reads a number in a text exactly as decimal notation says: of a number followed by something that does not continue
it, the whole number is taken and nothing after it, and its value is that of the digits, the decimal point, the sign and the exponent. -/
theorem C125_read {t r : List Char} {x : ℚ} (h : Value t x) (hr : Stops t r) : matchFloat (t ++ r) = some (t, r) ∧ floatVal t = x :=
  ⟨matchFloat_of_stops (value_number h) hr, value_floatVal h⟩

/-- **C125** Conversely, whatever the library takes for a number is one, at the beginning of the text, and has that value. -/
theorem C125_only {s t r : List Char} (h : matchFloat s = some (t, r)) : s = t ++ r ∧ Value t (floatVal t) := by
  obtain ⟨h1, h2⟩ := matchFloat_sound h
  obtain ⟨x, hx⟩ := number_value h2
  refine ⟨h1, ?_⟩
  rw [value_floatVal hx]
  exact hx

/-- the hypotheses of C125 are met: `-12.50e+2`, before a comma -/
example : Value "-12.50e+2".toList (-1250) ∧ Stops "-12.50e+2".toList ",7".toList := by
  refine ⟨⟨['-'], ['1', '2'], ['.', '5', '0'], ['e', '+', '2'], 1 / 2, 2, rfl, .inr (.inr rfl), ?_, .inl (by simp),
    .inr ⟨['5', '0'], rfl, by simp, ?_, ?_⟩, .inr ⟨'e', ['+'], ['2'], .inl rfl, rfl, .inr (.inl rfl), by simp, ?_, ?_⟩, ?_⟩, ?_⟩
  · unfold Digits IsDigit; decide
  · unfold Digits IsDigit; decide
  · have : whole ['5', '0'] = 50 := by decide
    rw [this]
    norm_num
  · unfold Digits IsDigit; decide
  · decide
  · have : whole ['1', '2'] = 12 := by decide
    rw [this]
    norm_num
  · refine stops_of_head ?_
    intro c hc
    cases hc
    unfold NumChar IsDigit
    decide

end Svgio.Props
