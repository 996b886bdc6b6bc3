import Verif.Model.PathLex
import Verif.Lemmas.Number
import Verif.Lemmas.PathAppend

/-! Reading the tokens of path data. -/

namespace Svgio.Lexer
open Spec

theorem isSep_iff {c : Char} : isSep c = true ↔ IsSep c := by
  unfold isSep IsSep; simp [or_assoc]

theorem skip_sep {w s : List Char} (h : AllSep w) : skip (w ++ s) = skip s :=
  dropWhile_prefix (fun c hc => isSep_iff.mpr (h c hc))

theorem skip_allSep {w : List Char} (h : AllSep w) : skip w = [] := by
  have := skip_sep (s := []) h
  simpa [skip] using this

theorem skip_cons {c : Char} {s : List Char} (h : ¬ IsSep c) : skip (c :: s) = c :: s := by
  have h' : isSep c = false := by rw [← isSep_iff] at h; simpa using h
  simp [skip, h']

theorem skip_idem (s : List Char) : skip (skip s) = skip s := by
  unfold skip
  cases h : s.dropWhile isSep with
  | nil => rfl
  | cons c r =>
    have := dropWhile_head h
    simp [this]

theorem skip_length (s : List Char) : (skip s).length ≤ s.length := by
  unfold skip; exact (List.dropWhile_suffix _).length_le

/-- a separator is not part of a number -/
theorem sep_not_num {c : Char} (h : IsSep c) : ¬ NumChar c := by
  unfold IsSep at h
  unfold NumChar IsDigit
  rcases h with rfl | rfl | rfl | rfl | rfl | rfl <;> decide

theorem skip_number {t u : List Char} (h : IsNumber t) : skip (t ++ u) = t ++ u := by
  obtain ⟨c, r, rfl, hc⟩ := isNumber_head h
  apply skip_cons
  intro hs
  apply sep_not_num hs
  unfold NumChar
  tauto

/-- a number cannot start with this character -/
theorem matchFloat_cons_none {c : Char} {s : List Char} (h : c ≠ '+' ∧ c ≠ '-' ∧ c ≠ '.' ∧ ¬ IsDigit c) :
    matchFloat (c :: s) = none := by
  cases hm : matchFloat (c :: s) with
  | none => rfl
  | some tr =>
    obtain ⟨t, r⟩ := tr
    have h' := matchFloat_sound hm
    obtain ⟨d, q, rfl, hd⟩ := isNumber_head h'.2
    have : c = d := by
      have := h'.1
      simp at this
      exact this.1
    subst this
    tauto

theorem command_letter {w r : List Char} {c : Char} {inl} (hw : AllSep w) (hs : ¬ IsSep c) (hc : isCmd c = true) :
    command ⟨w ++ c :: r, inl⟩ = (some c, ⟨r, inl⟩) := by
  unfold command
  simp only [skip_sep hw, skip_cons hs, hc, if_true]

theorem matchFloat_nil : matchFloat [] = none := rfl

theorem isZ_iff {c : Char} : isZ c = true ↔ c = 'z' ∨ c = 'Z' := by unfold isZ; simp

theorem matchFloat_z {c : Char} {s : List Char} (h : isZ c = true) : matchFloat (c :: s) = none := by
  apply matchFloat_cons_none
  unfold IsDigit
  rcases isZ_iff.mp h with rfl | rfl <;> decide

section
variable {K : Type}
variable {rd : List Char → K}

theorem number_read {w t u : List Char} {inl} (hw : AllSep w) (ht : IsNumber t) (hs : Stops t u) :
    number rd ⟨w ++ (t ++ u), inl⟩ = (some (rd t), ⟨u, inl⟩) := by
  unfold number
  simp only [skip_sep hw, skip_number ht, matchFloat_of_stops ht hs]

theorem ArgText.number {x : K} {as r s inl} (h : ArgText rd (.num x :: as) r s) :
    ∃ u, number rd ⟨s, inl⟩ = (some x, ⟨u, inl⟩) ∧ ArgText rd as r u := by
  cases h with
  | num w t u _ _ hw ht hs ha => exact ⟨u, number_read hw ht hs, ha⟩

theorem ArgText.more {x : K} {as r s inl} (h : ArgText rd (.num x :: as) r s) :
    more ⟨s, inl⟩ = (true, ⟨skip s, inl⟩) := by
  cases h with
  | num w t u _ _ hw ht hs ha =>
    unfold Lexer.more
    simp only [skip_sep hw, skip_number ht, matchFloat_of_stops ht hs]

/-- separators in front may be dropped -/
theorem ArgText.skip {x : K} {as r s} (h : ArgText rd (.num x :: as) r s) :
    ArgText rd (.num x :: as) r (skip s) := by
  cases h with
  | num w t u _ _ hw ht hs ha =>
    rw [skip_sep hw, skip_number ht]
    exact ArgText.num [] t u r as (by simp [AllSep]) ht hs ha

theorem ArgText.coord {p : Pt K} {as r s inl} (h : ArgText rd (ptArgs p ++ as) r s) :
    ∃ u, coord rd ⟨s, inl⟩ = (.ok (some p), ⟨u, inl⟩) ∧ ArgText rd as r u := by
  obtain ⟨u, h1, h2⟩ := ArgText.number (inl := inl) h
  obtain ⟨v, h3, h4⟩ := ArgText.number (inl := inl) h2
  refine ⟨v, ?_, h4⟩
  unfold Lexer.coord
  simp only [h1, h3]

theorem ArgText.flag {b : Bool} {as r s inl} (h : ArgText rd (.flag b :: as) r s) :
    ∃ u, Lexer.flag ⟨s, inl⟩ = (some b, ⟨u, inl⟩) ∧ ArgText rd as r u := by
  cases h with
  | flag w b u _ _ hw ha =>
    refine ⟨u, ?_, ha⟩
    unfold Lexer.flag
    simp only [skip_sep hw]
    rw [skip_cons (by cases b <;> (unfold IsSep; decide))]
    cases b <;> simp

/-- the next token of the text is a closepath letter -/
def AtZ (s : List Char) : Prop := ∃ c r, skip s = c :: r ∧ isZ c = true

theorem number_close {s inl c q} (h : skip s = c :: q) (hz : isZ c = true) :
    number rd ⟨s, inl⟩ = (none, ⟨c :: q, some c⟩) := by
  unfold number
  simp only [h, matchFloat_z hz, hz, if_true]

theorem coord_close {s inl c q} (h : skip s = c :: q) (hz : isZ c = true) :
    coord rd ⟨s, inl⟩ = (.ok none, ⟨c :: q, some c⟩) := by
  unfold coord
  simp only [number_close h hz]

theorem more_close {s inl c q} (h : skip s = c :: q) (hz : isZ c = true) :
    more ⟨s, inl⟩ = (false, ⟨c :: q, some c⟩) := by
  unfold more
  simp only [h, matchFloat_z hz, hz, if_true]

/-- A lexer state from which parsing goes on as from the text `r`. -/
def Ready (r : List Char) (l : Lx) : Prop := skip l.rest = skip r ∧ (l.inl = none ∨ AtZ r)

theorem Ready.refl (r : List Char) : Ready r ⟨r, none⟩ := ⟨rfl, Or.inl rfl⟩

end

end Svgio.Lexer
