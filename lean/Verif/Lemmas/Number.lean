import Verif.Model.Lex
import Verif.Spec.Number
import Verif.Lemmas.ListAux

/-! `matchFloat` finds the longest prefix that is a number. -/

namespace Svgio
open Spec

theorem isDig_iff {c : Char} : isDig c = true ↔ IsDigit c := by
  unfold isDig IsDigit
  simp

theorem isDig_false {c : Char} : isDig c = false ↔ ¬ IsDigit c := by
  rw [← isDig_iff]; simp

theorem takeWhile_append_dropWhile' {α} (p : α → Bool) (l : List α) :
    l.takeWhile p ++ l.dropWhile p = l := List.takeWhile_append_dropWhile

theorem dropWhile_head {α} {p : α → Bool} {l : List α} {c : α} {r : List α}
    (h : l.dropWhile p = c :: r) : p c = false := by
  induction l with
  | nil => simp at h
  | cons d l ih =>
    simp only [List.dropWhile] at h
    split at h
    · exact ih h
    · rename_i hd
      injection h with h1 h2
      subst h1
      exact hd

/-- `takeWhile` reaches at least as far as a prefix satisfying the predicate -/
theorem takeWhile_prefix {α} {p : α → Bool} {l r : List α} (h : ∀ c ∈ l, p c = true) :
    (l ++ r).takeWhile p = l ++ r.takeWhile p := by
  induction l with
  | nil => rfl
  | cons c l ih => simp [List.takeWhile, h c (by simp), ih (fun c hc => h c (by simp [hc]))]

theorem dropWhile_prefix {α} {p : α → Bool} {l r : List α} (h : ∀ c ∈ l, p c = true) :
    (l ++ r).dropWhile p = r.dropWhile p := by
  induction l with
  | nil => rfl
  | cons c l ih => simp [List.dropWhile, h c (by simp), ih (fun c hc => h c (by simp [hc]))]

theorem takeSign_spec (s : List Char) : s = (takeSign s).1 ++ (takeSign s).2 ∧ OptSign (takeSign s).1 := by
  unfold takeSign OptSign
  split <;> simp

theorem takeSign_of_not {s : List Char} (h : ∀ c ∈ s.head?, c ≠ '+' ∧ c ≠ '-') : takeSign s = ([], s) := by
  unfold takeSign
  split
  · exact absurd rfl (h '-' (by simp)).2
  · exact absurd rfl (h '+' (by simp)).1
  · rfl

theorem takeSign_append {sg s : List Char} (h : OptSign sg) (hs : ∀ c ∈ s.head?, c ≠ '+' ∧ c ≠ '-') :
    takeSign (sg ++ s) = (sg, s) := by
  rcases h with rfl | rfl | rfl
  · exact takeSign_of_not hs
  · rfl
  · rfl

/-- the matched digits are digits -/
theorem digits_takeWhile (s : List Char) : Digits (s.takeWhile isDig) :=
  fun _ hc => isDig_iff.mp (mem_takeWhile_pos hc)

theorem takeMant_some {s m r : List Char} (h : takeMant s = some (m, r)) : s = m ++ r ∧ IsMantissa m := by
  have e := takeWhile_append_dropWhile' isDig s
  unfold takeMant at h
  simp only at h
  split at h
  · rename_i q hq
    rw [hq] at e
    have e2 := takeWhile_append_dropWhile' isDig q
    split at h
    · split at h
      · simp at h
      · rename_i h1 h2
        simp only [Option.some.injEq, Prod.mk.injEq] at h
        obtain ⟨rfl, rfl⟩ := h
        exact ⟨e.symm, _, [], by simp, digits_takeWhile s, Or.inl ⟨rfl, h2⟩⟩
    · rename_i h1
      simp only [Option.some.injEq, Prod.mk.injEq] at h
      obtain ⟨rfl, rfl⟩ := h
      refine ⟨?_, _, _, rfl, digits_takeWhile s, Or.inr ⟨_, rfl, h1, digits_takeWhile q⟩⟩
      rw [List.append_assoc, List.cons_append, e2, e]
  · rename_i hq
    split at h
    · simp at h
    · rename_i h2
      simp only [Option.some.injEq, Prod.mk.injEq] at h
      obtain ⟨rfl, rfl⟩ := h
      exact ⟨e.symm, _, [], by simp, digits_takeWhile s, Or.inl ⟨rfl, h2⟩⟩

theorem takeExp_spec (s : List Char) : s = (takeExp s).1 ++ (takeExp s).2 ∧ OptExponent (takeExp s).1 := by
  unfold takeExp
  cases s with
  | nil => exact ⟨rfl, Or.inl rfl⟩
  | cons c r =>
    simp only
    split
    · rename_i hc
      split
      · exact ⟨rfl, Or.inl rfl⟩
      · rename_i hd
        have h1 := takeSign_spec r
        have h2 := takeWhile_append_dropWhile' isDig (takeSign r).2
        refine ⟨?_, Or.inr ⟨c, _, _, hc, rfl, h1.2, hd, digits_takeWhile _⟩⟩
        simp only [List.cons_append, List.append_assoc]
        rw [h2, ← h1.1]
    · exact ⟨rfl, Or.inl rfl⟩

theorem digit_not_sign {c : Char} (h : IsDigit c) : c ≠ '+' ∧ c ≠ '-' ∧ c ≠ '.' ∧ c ≠ 'e' ∧ c ≠ 'E' := by
  unfold IsDigit at h
  refine ⟨?_, ?_, ?_, ?_, ?_⟩ <;> rintro rfl <;> revert h <;> decide

theorem mant_head {m r : List Char} (h : IsMantissa m) : ∀ c ∈ (m ++ r).head?, c ≠ '+' ∧ c ≠ '-' := by
  intro c hc
  obtain ⟨ip, fp, rfl, hd, hf⟩ := h
  cases ip with
  | nil =>
    rcases hf with ⟨rfl, h⟩ | ⟨ds, rfl, -, -⟩
    · exact absurd rfl h
    · simp at hc; subst hc; decide
  | cons d ip =>
    simp at hc
    subst hc
    have := digit_not_sign (hd d (by simp))
    exact ⟨this.1, this.2.1⟩

theorem matchFloat_sound {s t r : List Char} (h : matchFloat s = some (t, r)) : s = t ++ r ∧ IsNumber t := by
  unfold matchFloat at h
  simp only at h
  have h1 := takeSign_spec s
  split at h
  · simp at h
  · rename_i m q hm
    have h2 := takeMant_some hm
    have h3 := takeExp_spec q
    simp only [Option.some.injEq, Prod.mk.injEq] at h
    obtain ⟨rfl, rfl⟩ := h
    constructor
    · rw [List.append_assoc, ← h3.1, List.append_assoc, ← h2.1, ← h1.1]
    · exact ⟨_, _, _, by simp [List.append_assoc], h1.2, h2.2, h3.2⟩

/-- exponent: reaches at least as far -/
theorem takeExp_reach {ex w : List Char} (h : OptExponent ex) :
    ex.length ≤ (takeExp (ex ++ w)).1.length := by
  rcases h with rfl | ⟨c, sg, ds, hc, rfl, hsg, hne, hd⟩
  · simp
  · have hd' : ∀ c ∈ ds, isDig c = true := fun c hc => isDig_iff.mpr (hd c hc)
    have hs : takeSign (sg ++ (ds ++ w)) = (sg, ds ++ w) := by
      apply takeSign_append hsg
      intro d hd2
      cases ds with
      | nil => exact absurd rfl hne
      | cons e ds =>
        simp at hd2; subst hd2
        have := digit_not_sign (hd e (by simp))
        exact ⟨this.1, this.2.1⟩
    unfold takeExp
    simp only [List.cons_append, List.append_assoc]
    rw [if_pos hc, hs]
    simp only
    rw [takeWhile_prefix hd']
    rw [if_neg (by simp [hne])]
    simp

theorem matchFloat_reach {u w : List Char} (h : IsNumber u) :
    ∃ t r, matchFloat (u ++ w) = some (t, r) ∧ u.length ≤ t.length := by
  obtain ⟨sg, m, ex, rfl, hsg, hm, hex⟩ := h
  have hs : takeSign (sg ++ (m ++ (ex ++ w))) = (sg, m ++ (ex ++ w)) :=
    takeSign_append hsg (mant_head hm)
  have e : sg ++ (m ++ ex) ++ w = sg ++ (m ++ (ex ++ w)) := by simp
  rw [e]
  have key : ∃ m' q, takeMant (m ++ (ex ++ w)) = some (m', q) ∧
      m.length + ex.length ≤ m'.length + (takeExp q).1.length := by
    obtain ⟨ip, fp, rfl, hip, hf⟩ := hm
    have hip' : ∀ c ∈ ip, isDig c = true := fun c hc => isDig_iff.mpr (hip c hc)
    rcases hf with ⟨rfl, hne⟩ | ⟨ds, rfl, hne, hds⟩
    · -- digits only
      simp only [List.append_nil]
      rcases hex with rfl | ⟨c, sg', ds, hc, rfl, hsg', hne', hd'⟩
      · -- no exponent
        unfold takeMant
        simp only [List.nil_append]
        rw [takeWhile_prefix hip', dropWhile_prefix hip']
        split
        · rename_i q hq
          split
          · rw [if_neg (by simp [hne])]
            exact ⟨_, _, rfl, by simp; omega⟩
          · exact ⟨_, _, rfl, by simp; omega⟩
        · rw [if_neg (by simp [hne])]
          exact ⟨_, _, rfl, by simp; omega⟩
      · have hcd : isDig c = false := by rcases hc with rfl | rfl <;> decide
        have hex' : OptExponent (c :: (sg' ++ ds)) := Or.inr ⟨c, sg', ds, hc, rfl, hsg', hne', hd'⟩
        have hdw : (ip ++ (c :: (sg' ++ ds) ++ w)).dropWhile isDig = c :: (sg' ++ ds) ++ w := by
          rw [dropWhile_prefix hip']; simp [List.dropWhile, hcd]
        have htw : (ip ++ (c :: (sg' ++ ds) ++ w)).takeWhile isDig = ip := by
          rw [takeWhile_prefix hip']; simp [List.takeWhile, hcd]
        refine ⟨ip, c :: (sg' ++ ds) ++ w, ?_, ?_⟩
        · unfold takeMant
          simp only [hdw, htw]
          split
          · rename_i q hq
            simp only [List.cons_append, List.cons.injEq] at hq
            rcases hc with rfl | rfl <;> simp at hq
          · rw [if_neg hne]
        · have := takeExp_reach (w := w) hex'
          omega
    · have hds' : ∀ c ∈ ds, isDig c = true := fun c hc => isDig_iff.mpr (hds c hc)
      have hdot : isDig '.' = false := by decide
      have e2 : ip ++ '.' :: ds ++ (ex ++ w) = ip ++ ('.' :: (ds ++ (ex ++ w))) := by simp
      rw [e2]
      have hdw : (ip ++ ('.' :: (ds ++ (ex ++ w)))).dropWhile isDig = '.' :: (ds ++ (ex ++ w)) := by
        rw [dropWhile_prefix hip']; simp [List.dropWhile, hdot]
      have htw : (ip ++ ('.' :: (ds ++ (ex ++ w)))).takeWhile isDig = ip := by
        rw [takeWhile_prefix hip']; simp [List.takeWhile, hdot]
      unfold takeMant
      simp only [hdw, htw]
      rw [takeWhile_prefix hds', dropWhile_prefix hds', if_neg (by simp [hne])]
      refine ⟨_, _, rfl, ?_⟩
      rcases hex with rfl | ⟨c, sg', es, hc, rfl, hsg', hne', hd'⟩
      · simp; omega
      · have hcd : isDig c = false := by rcases hc with rfl | rfl <;> decide
        have hex' : OptExponent (c :: (sg' ++ es)) := Or.inr ⟨c, sg', es, hc, rfl, hsg', hne', hd'⟩
        have := takeExp_reach (w := w) hex'
        have e3 : ((c :: (sg' ++ es)) ++ w).dropWhile isDig = (c :: (sg' ++ es)) ++ w := by
          simp [List.dropWhile, hcd]
        have e4 : ((c :: (sg' ++ es)) ++ w).takeWhile isDig = [] := by
          simp [List.takeWhile, hcd]
        rw [e3, e4]
        simp only [List.append_nil, List.length_append, List.length_cons] at this ⊢
        omega
  obtain ⟨m', q, hmq, hlen⟩ := key
  refine ⟨sg ++ m' ++ (takeExp q).1, (takeExp q).2, ?_, ?_⟩
  · unfold matchFloat
    simp only [hs, hmq]
  · simp only [List.length_append]
    omega

/-- **Number lexing is longest match**: a number literal followed by text that does not extend it is
matched as a whole. -/
theorem matchFloat_of_stops {t r : List Char} (h : IsNumber t) (hs : Stops t r) :
    matchFloat (t ++ r) = some (t, r) := by
  obtain ⟨t', r', hm, hl⟩ := matchFloat_reach (w := r) h
  have h' := matchFloat_sound hm
  rw [hm]
  obtain ⟨p, hp⟩ : ∃ p, t' = t ++ p := by
    have h1 : t <+: t ++ r := List.prefix_append t r
    have h2 : t' <+: t ++ r := by rw [h'.1]; exact List.prefix_append t' r'
    obtain ⟨p, hp⟩ := List.prefix_of_prefix_length_le h1 h2 hl
    exact ⟨p, hp.symm⟩
  subst hp
  have hr : r = p ++ r' := by
    have := h'.1
    rw [List.append_assoc] at this
    exact List.append_cancel_left this
  have : p = [] := by
    by_contra hne
    exact hs p r' hr hne h'.2
  subst this
  simp at hr ⊢
  exact hr.symm

theorem matchFloat_maximal {s t r : List Char} (h : matchFloat s = some (t, r)) : Stops t r := by
  intro p q hr hne hn
  have h' := matchFloat_sound h
  obtain ⟨t', r', hm, hl⟩ := matchFloat_reach (w := q) hn
  have e : t ++ p ++ q = s := by rw [h'.1, hr, List.append_assoc]
  rw [e, h] at hm
  simp only [Option.some.injEq, Prod.mk.injEq] at hm
  obtain ⟨rfl, rfl⟩ := hm
  exact hne (by simpa using hl)

theorem matchFloat_none {s : List Char} (h : matchFloat s = none) : ∀ p q, s = p ++ q → ¬ IsNumber p := by
  intro p q hs hn
  obtain ⟨t, r, hm, -⟩ := matchFloat_reach (w := q) hn
  rw [← hs, h] at hm
  simp at hm

/-- a number is not empty, and starts with a sign, a dot or a digit -/
theorem isNumber_head {t : List Char} (h : IsNumber t) :
    ∃ c r, t = c :: r ∧ (c = '+' ∨ c = '-' ∨ c = '.' ∨ IsDigit c) := by
  obtain ⟨sg, m, ex, rfl, hsg, ⟨ip, fp, rfl, hip, hf⟩, hex⟩ := h
  rcases hsg with rfl | rfl | rfl
  · cases ip with
    | nil =>
      rcases hf with ⟨rfl, h⟩ | ⟨ds, rfl, -, -⟩
      · exact absurd rfl h
      · exact ⟨'.', _, rfl, by simp⟩
    | cons c ip => exact ⟨c, _, rfl, by simp [hip c (by simp)]⟩
  · exact ⟨'+', _, rfl, by simp⟩
  · exact ⟨'-', _, rfl, by simp⟩

/-- characters that can occur in a number -/
def NumChar (c : Char) : Prop := c = '+' ∨ c = '-' ∨ c = '.' ∨ c = 'e' ∨ c = 'E' ∨ IsDigit c

theorem isNumber_chars {t : List Char} (h : IsNumber t) : ∀ c ∈ t, NumChar c := by
  obtain ⟨sg, m, ex, rfl, hsg, ⟨ip, fp, rfl, hip, hf⟩, hex⟩ := h
  intro c hc
  have sgc : ∀ sg : List Char, OptSign sg → c ∈ sg → NumChar c := by
    intro sg hsg h
    unfold NumChar
    rcases hsg with rfl | rfl | rfl <;> simp at h <;> simp [h]
  have dc : ∀ ds : List Char, Digits ds → c ∈ ds → NumChar c := fun ds hds h => by
    unfold NumChar; simp [hds c h]
  simp only [List.mem_append] at hc
  rcases hc with hc | (hc | hc) | hc
  · exact sgc sg hsg hc
  · exact dc ip hip hc
  · rcases hf with ⟨rfl, -⟩ | ⟨ds, rfl, -, hds⟩
    · simp at hc
    · rcases List.mem_cons.mp hc with rfl | hc
      · unfold NumChar; simp
      · exact dc ds hds hc
  · rcases hex with rfl | ⟨d, sg', ds, hd, rfl, hsg', -, hds⟩
    · simp at hc
    · rcases List.mem_cons.mp hc with rfl | hc
      · unfold NumChar; rcases hd with rfl | rfl <;> simp
      · rcases List.mem_append.mp hc with hc | hc
        · exact sgc sg' hsg' hc
        · exact dc ds hds hc

/-- text that does not begin with a number character ends any number -/
theorem stops_of_head {t r : List Char} (h : ∀ c ∈ r.head?, ¬ NumChar c) : Stops t r := by
  intro p q hr hne hn
  cases p with
  | nil => exact hne rfl
  | cons c p =>
    exact h c (by rw [hr]; simp) (isNumber_chars hn c (by simp))

end Svgio
