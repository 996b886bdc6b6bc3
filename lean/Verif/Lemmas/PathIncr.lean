import Verif.Lemmas.PathFuel

/-! Parsing a text and parsing a longer text that continues it. -/

namespace Svgio.Lexer
open Spec

/-- `s2` neither extends a number before it nor starts, after separators, with a number -/
def Fresh (s2 : List Char) : Prop := (∀ c r, s2 = c :: r → ¬ NumChar c) ∧ matchFloat (skip s2) = none

theorem prefix_within {t r s1 s2 : List Char} (h : s1 ++ s2 = t ++ r) (ht : ∀ c ∈ t, NumChar c)
    (hf : ∀ c r, s2 = c :: r → ¬ NumChar c) : ∃ q, s1 = t ++ q ∧ r = q ++ s2 := by
  rcases List.append_eq_append_iff.mp h with ⟨a, h1, h2⟩ | ⟨c, h1, h2⟩
  · cases a with
    | nil => exact ⟨[], by simpa using h1.symm, by simpa using h2.symm⟩
    | cons d a =>
      exact absurd (ht d (by rw [h1]; simp)) (hf d _ h2)
  · exact ⟨c, h1, h2⟩

theorem matchFloat_append {s t r s2 : List Char} (hf : ∀ c r, s2 = c :: r → ¬ NumChar c)
    (h : matchFloat s = some (t, r)) : matchFloat (s ++ s2) = some (t, r ++ s2) := by
  have hmax := matchFloat_maximal h
  obtain ⟨rfl, hn⟩ := matchFloat_sound h
  rw [List.append_assoc]
  apply matchFloat_of_stops hn
  intro p q hpq hne hnum
  obtain ⟨q', h1, -⟩ := prefix_within hpq
    (fun c hc => isNumber_chars hnum c (List.mem_append_right _ hc)) hf
  exact hmax p q' h1 hne hnum

theorem matchFloat_append_none {s s2 : List Char} (hf : ∀ c r, s2 = c :: r → ¬ NumChar c)
    (h : matchFloat s = none) : matchFloat (s ++ s2) = none := by
  cases hm : matchFloat (s ++ s2) with
  | none => rfl
  | some tr =>
    obtain ⟨t, r⟩ := tr
    have hmax := matchFloat_maximal hm
    obtain ⟨he, hn⟩ := matchFloat_sound hm
    obtain ⟨q, rfl, rfl⟩ := prefix_within he (isNumber_chars hn) hf
    have : matchFloat (t ++ q) = some (t, q) := by
      apply matchFloat_of_stops hn
      intro p q' hpq hne hnum
      exact hmax p (q' ++ s2) (by rw [hpq, List.append_assoc]) hne hnum
    rw [this] at h
    simp at h

theorem skip_append {s s2 : List Char} (h : skip s ≠ []) : skip (s ++ s2) = skip s ++ s2 := by
  unfold skip at h ⊢
  rw [List.dropWhile_append]
  simp [h]

theorem skip_append_nil {s s2 : List Char} (h : skip s = []) : skip (s ++ s2) = skip s2 := by
  unfold skip at h ⊢
  rw [List.dropWhile_append]
  simp [h]

/-- the inline close is only set in front of a closepath letter -/
def Inv (l : Lx) : Prop := l.inl = none ∨ AtZ l.rest

theorem inv_nil {l : Lx} (h : Inv l) (hs : skip l.rest = []) : l.inl = none := by
  rcases h with h | ⟨c, r, h, -⟩
  · exact h
  · rw [hs] at h; simp at h

theorem atZ_skip {s : List Char} (h : AtZ s) : AtZ (skip s) := by
  unfold AtZ at h ⊢
  rw [skip_idem]; exact h

theorem atZ_cons {c : Char} {r : List Char} (h : isZ c = true) : AtZ (c :: r) := by
  refine ⟨c, r, skip_cons ?_, h⟩
  unfold IsSep
  rcases isZ_iff.mp h with rfl | rfl <;> decide

variable {K : Type} [Field K] [LinearOrder K]
variable {rd : List Char → K} {mk : Path.ArcCtor K}

theorem more_inv {l : Lx} (h : Inv l) : Inv (more l).2 := by
  have hi : skip l.rest = [] → l.inl = none := inv_nil h
  have hz : AtZ l.rest → AtZ (skip l.rest) := atZ_skip
  unfold more
  simp only
  split
  · rcases h with h | h
    · exact Or.inl h
    · exact Or.inr (hz h)
  · split
    · rename_i hs; exact Or.inl (hi hs)
    · rename_i c r hs
      rw [hs] at hz
      split_ifs with hc
      · exact Or.inr (atZ_cons hc)
      · rcases h with h | h
        · exact Or.inl h
        · exact Or.inr (hz h)

omit [Field K] [LinearOrder K] in
theorem number_inv {l : Lx} (h : Inv l) : Inv (number rd l).2 := by
  have hi : skip l.rest = [] → l.inl = none := inv_nil h
  have hz : AtZ l.rest → AtZ (skip l.rest) := atZ_skip
  unfold number
  simp only
  split
  · rename_i t r hm
    rcases h with h | h
    · exact Or.inl h
    · obtain ⟨c, q, hc, hcz⟩ := h
      rw [hc, matchFloat_z hcz] at hm
      simp at hm
  · split
    · rename_i hs; exact Or.inl (hi hs)
    · rename_i c r hs
      rw [hs] at hz
      split_ifs with hc
      · exact Or.inr (atZ_cons hc)
      · rcases h with h | h
        · exact Or.inl h
        · exact Or.inr (hz h)

theorem flag_inv {l : Lx} (h : Inv l) : Inv (flag l).2 := by
  have hi : skip l.rest = [] → l.inl = none := inv_nil h
  unfold flag
  split
  · rename_i hs; exact Or.inl (hi hs)
  · rename_i c r hs
    have hz : AtZ l.rest → isZ c = true := by
      rintro ⟨d, q, hd, hdz⟩
      rw [hs] at hd
      simp at hd
      rw [hd.1]; exact hdz
    split_ifs with h0 h1
    · rcases h with h | h
      · exact Or.inl h
      · have := hz h; subst h0; simp [isZ] at this
    · rcases h with h | h
      · exact Or.inl h
      · have := hz h; subst h1; simp [isZ] at this
    · rcases h with h | h
      · exact Or.inl h
      · exact Or.inr (atZ_cons (hz h))

/-- the same state with text added at the end -/
def Lx.ext (l : Lx) (s2 : List Char) : Lx := ⟨l.rest ++ s2, l.inl⟩

/-- a state with nothing left to read -/
def Done (l : Lx) : Prop := skip l.rest = [] ∧ l.inl = none

theorem skip_nil_of {l : Lx} (h : Done l) : skip l.rest = [] := h.1

omit [Field K] [LinearOrder K] in
/-- reading a number: the same on the longer text, or none because the text has ended -/
theorem number_ext {s2 : List Char} (hf : Fresh s2) {l : Lx} (h : Inv l) :
    number rd (l.ext s2) = ((number rd l).1, (number rd l).2.ext s2) ∨
      ((number rd l).1 = none ∧ Done (number rd l).2) := by
  by_cases hs : skip l.rest = []
  · right
    unfold number Done
    simp only [hs, matchFloat_nil]
    exact ⟨trivial, rfl, inv_nil h hs⟩
  · left
    unfold number Lx.ext
    simp only [skip_append hs]
    cases hm : matchFloat (skip l.rest) with
    | some tr =>
      obtain ⟨t, r⟩ := tr
      rw [matchFloat_append hf.1 hm]
    | none =>
      rw [matchFloat_append_none hf.1 hm]
      cases hc : skip l.rest with
      | nil => exact absurd hc hs
      | cons c r =>
        simp only [List.cons_append]
        split_ifs <;> rfl

omit [Field K] [LinearOrder K] in
theorem number_done {l : Lx} (h : Done l) : number rd l = (none, ⟨[], none⟩) := by
  unfold number
  simp only [h.1, matchFloat_nil, h.2]

theorem flag_done {l : Lx} (h : Done l) : flag l = (none, ⟨[], none⟩) := by
  unfold flag
  simp only [h.1, h.2]

theorem flag_ext {s2 : List Char} {l : Lx} (h : Inv l) :
    flag (l.ext s2) = ((flag l).1, (flag l).2.ext s2) ∨ ((flag l).1 = none ∧ Done (flag l).2) := by
  by_cases hs : skip l.rest = []
  · right
    unfold flag Done
    simp only [hs]
    exact ⟨trivial, rfl, inv_nil h hs⟩
  · left
    unfold flag Lx.ext
    simp only [skip_append hs]
    cases hc : skip l.rest with
    | nil => exact absurd hc hs
    | cons c r =>
      simp only [List.cons_append]
      split_ifs <;> rfl

/-- an argument read as None -/
def Arg.missing : Arg K → Prop
  | .num x => x = none
  | .flag b => b = none
  | .coord p => p = none

theorem done_nil : Done ⟨[], none⟩ := ⟨rfl, rfl⟩

omit [LinearOrder K] in
theorem readArg_done {cur : Option (Pt K)} {k : ArgKind} {l : Lx} (h : Done l) :
    ∃ a, readArg rd cur k l = (.ok a, ⟨[], none⟩) ∧ a.missing := by
  cases k with
  | num => exact ⟨.num none, by simp [readArg, number_done h], rfl⟩
  | flag => exact ⟨.flag none, by simp [readArg, flag_done h], rfl⟩
  | coord => exact ⟨.coord none, by simp [readArg, coord, number_done h, Except.map], rfl⟩
  | rcoord => exact ⟨.coord none, by simp [readArg, rcoord, coord, number_done h, Except.map], rfl⟩

omit [LinearOrder K] in
/-- reading an argument: the same on the longer text, or an error, or None because the text has ended -/
theorem readArg_ext {s2 : List Char} (hf : Fresh s2) {cur : Option (Pt K)} {k : ArgKind} {l : Lx} (h : Inv l) :
    Inv (readArg rd cur k l).2 ∧
    (readArg rd cur k (l.ext s2) = ((readArg rd cur k l).1, (readArg rd cur k l).2.ext s2) ∨
      (∃ e, (readArg rd cur k l).1 = .error e) ∨
      (∃ a, (readArg rd cur k l).1 = .ok a ∧ a.missing ∧ Done (readArg rd cur k l).2)) := by
  have hcoord : Inv (coord rd l).2 ∧ (coord rd (l.ext s2) = ((coord rd l).1, (coord rd l).2.ext s2) ∨
      (∃ e, (coord rd l).1 = .error e) ∨ ((coord rd l).1 = .ok none ∧ Done (coord rd l).2)) := by
    have h1 := number_ext (rd := rd) hf h
    have i1 := number_inv (rd := rd) h
    unfold coord
    cases hn : number rd l with
    | mk x l1 =>
      rw [hn] at h1 i1
      simp only at h1 i1
      cases x with
      | none =>
        refine ⟨i1, ?_⟩
        rcases h1 with h1 | ⟨-, h1⟩
        · rw [h1]; exact Or.inl rfl
        · exact Or.inr (Or.inr ⟨rfl, h1⟩)
      | some x =>
        rcases h1 with h1 | ⟨h1, -⟩
        · rw [h1]
          simp only
          have h2 := number_ext (rd := rd) hf i1
          have i2 := number_inv (rd := rd) i1
          cases hn2 : number rd l1 with
          | mk y l2 =>
            rw [hn2] at h2 i2
            simp only at h2 i2
            cases y with
            | none => exact ⟨i2, Or.inr (Or.inl ⟨_, rfl⟩)⟩
            | some y =>
              rcases h2 with h2 | ⟨h2, -⟩
              · rw [h2]; exact ⟨i2, Or.inl rfl⟩
              · simp at h2
        · simp at h1
  cases k with
  | num =>
    refine ⟨number_inv h, ?_⟩
    rcases number_ext (rd := rd) hf h with h1 | ⟨h1, h2⟩
    · left; simp only [readArg, h1]
    · right; right; exact ⟨.num (number rd l).1, rfl, h1, h2⟩
  | flag =>
    refine ⟨flag_inv h, ?_⟩
    rcases flag_ext (s2 := s2) h with h1 | ⟨h1, h2⟩
    · left; simp only [readArg, h1]
    · right; right; exact ⟨.flag (flag l).1, rfl, h1, h2⟩
  | coord =>
    refine ⟨hcoord.1, ?_⟩
    rcases hcoord.2 with h1 | ⟨e, h1⟩ | ⟨h1, h2⟩
    · left; simp only [readArg, h1]
    · right; left; exact ⟨e, by simp [readArg, h1, Except.map]⟩
    · right; right; exact ⟨.coord none, by simp [readArg, h1, Except.map], rfl, h2⟩
  | rcoord =>
    simp only [readArg]
    rw [rcoord_rest]
    refine ⟨hcoord.1, ?_⟩
    rcases hcoord.2 with h1 | ⟨e, h1⟩ | ⟨h1, h2⟩
    · left
      unfold rcoord
      rw [h1]
      cases hc : coord rd l with
      | mk x l1 =>
        cases x with
        | error e => rfl
        | ok q =>
          cases q with
          | none => rfl
          | some q => cases cur <;> rfl
    · right; left
      refine ⟨e, ?_⟩
      unfold rcoord
      cases hc : coord rd l with
      | mk x l1 =>
        rw [hc] at h1
        simp only at h1
        subst h1
        rfl
    · right; right
      refine ⟨.coord none, ?_, rfl, h2⟩
      unfold rcoord
      cases hc : coord rd l with
      | mk x l1 =>
        rw [hc] at h1
        simp only at h1
        subst h1
        rfl

/-- the last argument is None -/
def LastMissing (as : List (Arg K)) : Prop := ∃ a, as.getLast? = some a ∧ a.missing

omit [Field K] [LinearOrder K] in
theorem LastMissing.cons {a : Arg K} {as : List (Arg K)} (h : LastMissing as) : LastMissing (a :: as) := by
  obtain ⟨b, h, hb⟩ := h
  refine ⟨b, ?_, hb⟩
  cases as with
  | nil => simp at h
  | cons d as => simpa using h

omit [LinearOrder K] in
theorem readArgs_done {cur : Option (Pt K)} : ∀ (ks : List ArgKind) {l : Lx}, Done l → ks ≠ [] →
    ∃ as, readArgs rd cur ks l = (.ok as, ⟨[], none⟩) ∧ LastMissing as := by
  intro ks
  induction ks with
  | nil => intro l _ h; exact absurd rfl h
  | cons k ks ih =>
    intro l h _
    obtain ⟨a, ha, hm⟩ := readArg_done (rd := rd) (cur := cur) (k := k) h
    unfold readArgs
    rw [ha]
    simp only
    cases ks with
    | nil => exact ⟨[a], rfl, a, rfl, hm⟩
    | cons k2 ks =>
      obtain ⟨as, h1, h2⟩ := ih done_nil (by simp)
      rw [h1]
      exact ⟨a :: as, rfl, LastMissing.cons h2⟩

omit [LinearOrder K] in
theorem readArgs_ext {s2 : List Char} (hf : Fresh s2) {cur : Option (Pt K)} : ∀ (ks : List ArgKind) {l : Lx}, Inv l →
    Inv (readArgs rd cur ks l).2 ∧
    (readArgs rd cur ks (l.ext s2) = ((readArgs rd cur ks l).1, (readArgs rd cur ks l).2.ext s2) ∨
      (∃ e, (readArgs rd cur ks l).1 = .error e) ∨
      (∃ as, (readArgs rd cur ks l).1 = .ok as ∧ LastMissing as ∧ Done (readArgs rd cur ks l).2)) := by
  intro ks
  induction ks with
  | nil => intro l h; exact ⟨h, Or.inl rfl⟩
  | cons k ks ih =>
    intro l h
    obtain ⟨i1, h1⟩ := readArg_ext (rd := rd) hf (cur := cur) (k := k) h
    unfold readArgs
    cases hr : readArg rd cur k l with
    | mk x l1 =>
      rw [hr] at h1 i1
      simp only at h1 i1
      cases x with
      | error e => exact ⟨i1, Or.inr (Or.inl ⟨e, rfl⟩)⟩
      | ok a =>
        simp only
        rcases h1 with h1 | ⟨e, h1⟩ | ⟨a', h1, hm, hd⟩
        · rw [h1]
          simp only
          obtain ⟨i2, h2⟩ := ih i1
          cases hr2 : readArgs rd cur ks l1 with
          | mk y l2 =>
            rw [hr2] at h2 i2
            simp only at h2 i2
            cases y with
            | error e => exact ⟨i2, Or.inr (Or.inl ⟨e, rfl⟩)⟩
            | ok as =>
              refine ⟨i2, ?_⟩
              rcases h2 with h2 | ⟨e, h2⟩ | ⟨as', h2, hm, hd⟩
              · rw [h2]; exact Or.inl rfl
              · simp at h2
              · right; right
                simp only [Except.ok.injEq] at h2
                subst h2
                exact ⟨a :: as, rfl, LastMissing.cons hm, hd⟩
        · simp at h1
        · simp only [Except.ok.injEq] at h1
          subst h1
          cases ks with
          | nil => exact ⟨i1, Or.inr (Or.inr ⟨[a], rfl, ⟨a, rfl, hm⟩, hd⟩)⟩
          | cons k2 ks =>
            obtain ⟨as, h2, h3⟩ := readArgs_done (rd := rd) (cur := cur) (k2 :: ks) hd (by simp)
            rw [h2]
            exact ⟨Or.inl rfl, Or.inr (Or.inr ⟨a :: as, rfl, LastMissing.cons h3, done_nil⟩)⟩

/-- one number is read -/
def IsNum (as : List (Arg K)) : Prop := ∃ x, as = [.num x]

omit [LinearOrder K] in
theorem readArgs_isNum {cur : Option (Pt K)} {ks : List ArgKind} {l l' : Lx} {x : Option K}
    (h : readArgs rd cur ks l = (.ok [.num x], l')) : ks = [.num] := by
  cases ks with
  | nil => simp [readArgs] at h
  | cons k ks =>
    unfold readArgs at h
    split at h
    · simp at h
    · rename_i a l1 ha
      split at h
      · simp at h
      · rename_i as l2 has
        simp only [Prod.mk.injEq, Except.ok.injEq, List.cons.injEq] at h
        obtain ⟨⟨rfl, rfl⟩, rfl⟩ := h
        have hk : ks = [] := by
          cases ks with
          | nil => rfl
          | cons k2 ks =>
            unfold readArgs at has
            split at has
            · simp at has
            · split at has <;> simp at has
        subst hk
        cases k with
        | num => rfl
        | flag => simp [readArg] at ha
        | coord =>
          simp only [readArg, Prod.mk.injEq] at ha
          cases hc : (coord rd l).1 <;> rw [hc] at ha <;> simp [Except.map] at ha
        | rcoord =>
          simp only [readArg, Prod.mk.injEq] at ha
          cases hc : (rcoord rd cur l).1 <;> rw [hc] at ha <;> simp [Except.map] at ha

theorem argSpec_num {c : Char} (h : argSpec c = [.num]) : c = 'h' ∨ c = 'H' ∨ c = 'v' ∨ c = 'V' := by
  by_contra hn
  push Not at hn
  obtain ⟨h1, h2, h3, h4⟩ := hn
  have key : ∀ {p : Prop} [Decidable p] {a b : List ArgKind}, a ≠ [.num] → b ≠ [.num] →
      (if p then a else b) ≠ [.num] := by
    intro p _ a b ha hb; split <;> assumption
  have : argSpec c ≠ [.num] := by
    unfold argSpec
    rw [if_neg h1, if_neg h2, if_neg h3, if_neg h4]
    iterate 14 apply key (by decide)
    decide
  exact this h

/-- a missing last argument with nothing to complete it is an error, except for V -/
theorem finish_missing {c : Char} {p : List (Seg K)} {as : List (Arg K)}
    (h : LastMissing as) (hn : IsNum as → c = 'h' ∨ c = 'H' ∨ c = 'v') : ∃ e, finish mk c none p as = .error e := by
  obtain ⟨a, ha, hm⟩ := h
  unfold finish
  split
  · simp at ha
    subst ha
    simp only [Arg.missing] at hm
    subst hm
    split_ifs <;> exact ⟨_, rfl⟩
  · simp at ha
    subst ha
    simp only [Arg.missing] at hm
    subst hm
    rcases hn ⟨_, rfl⟩ with rfl | rfl | rfl
    · simp only [Path.horizontal]
      cases Path.currentPoint p <;> exact ⟨_, rfl⟩
    · simp only [Path.horizontal]
      cases Path.currentPoint p <;> exact ⟨_, rfl⟩
    · simp only [Path.vertical]
      cases Path.currentPoint p <;> exact ⟨_, rfl⟩
  · simp at ha
    subst ha
    simp only [Arg.missing] at hm
    subst hm
    cases orClose none _ <;> exact ⟨_, rfl⟩
  · simp at ha
    subst ha
    simp only [Arg.missing] at hm
    subst hm
    rename_i q1 q2
    cases orClose none q1 <;> cases orClose none q2 <;> exact ⟨_, rfl⟩
  · simp at ha
    subst ha
    simp only [Arg.missing] at hm
    subst hm
    split_ifs <;> exact ⟨_, rfl⟩
  · exact ⟨_, rfl⟩

/-- the same state with text added at the end -/
def St.ext (st : St K) (s2 : List Char) : St K := ⟨st.path, st.lx.ext s2⟩

/-- a body that succeeds, and for V has a number to read, does the same on the longer text -/
theorem body_ext {s2 : List Char} (hf : Fresh s2) (c : Char) (st : St K) (h : Inv st.lx)
    (hV : c = 'V' → (number rd st.lx).1 ≠ none) (hok : (body rd mk c st).2 = none) :
    Inv (body rd mk c st).1.lx ∧ body rd mk c (st.ext s2) = ((body rd mk c st).1.ext s2, none) := by
  obtain ⟨i1, h1⟩ := readArgs_ext (rd := rd) hf (cur := Path.currentPoint st.path) (argSpec c) h
  revert hok
  rw [body_rest]
  refine fun hok => ⟨i1, ?_⟩
  revert hok
  unfold body
  simp only [St.ext]
  cases hr : readArgs rd (Path.currentPoint st.path) (argSpec c) st.lx with
  | mk x l =>
    rw [hr] at h1
    simp only at h1
    cases x with
    | error e => simp
    | ok as =>
      simp only
      rcases h1 with h1 | ⟨e, h1⟩ | ⟨as', h1, hm, hd⟩
      · rw [h1]
        simp only [Lx.ext]
        cases finish mk c l.inl st.path as with
        | error e => simp
        | ok p => simp
      · simp at h1
      · simp only [Except.ok.injEq] at h1
        subst h1
        have hnum : IsNum as → c = 'h' ∨ c = 'H' ∨ c = 'v' := by
          rintro ⟨x, rfl⟩
          have hk := readArgs_isNum hr
          rcases argSpec_num hk with h | h | h | h
          · tauto
          · tauto
          · tauto
          · exfalso
            obtain ⟨a, ha, hmm⟩ := hm
            simp at ha
            subst ha
            simp only [Arg.missing] at hmm
            subst hmm
            apply hV h
            rw [hk] at hr
            simp only [readArgs, readArg] at hr
            simp at hr
            exact hr.1
        rw [hd.2]
        obtain ⟨e, he⟩ := finish_missing (mk := mk) (p := st.path) hm hnum
        rw [he]
        simp

theorem more_ext {s2 : List Char} (hf : Fresh s2) {l : Lx} (h : Inv l) :
    more (l.ext s2) = ((more l).1, (more l).2.ext s2) ∨
      ((more l) = (false, ⟨[], none⟩) ∧ (more (l.ext s2)).1 = false ∧ Ready s2 (more (l.ext s2)).2) := by
  by_cases hs : skip l.rest = []
  · right
    have hi := inv_nil h hs
    have e1 : more l = (false, ⟨[], none⟩) := by
      unfold more
      simp only [hs, matchFloat_nil, hi]
    refine ⟨e1, ?_⟩
    unfold more Lx.ext
    simp only [skip_append_nil hs, hf.2, hi]
    have hidem := skip_idem s2
    cases hc : skip s2 with
    | nil => exact ⟨rfl, by rw [hc]; rfl, Or.inl rfl⟩
    | cons c r =>
      rw [hc] at hidem
      simp only
      split_ifs with hz
      · exact ⟨rfl, by rw [hc]; exact hidem, Or.inr ⟨c, r, hc, hz⟩⟩
      · exact ⟨rfl, by rw [hc]; exact hidem, Or.inl rfl⟩
  · left
    unfold more Lx.ext
    simp only [skip_append hs]
    cases hm : matchFloat (skip l.rest) with
    | some tr =>
      obtain ⟨t, r⟩ := tr
      rw [matchFloat_append hf.1 hm]
    | none =>
      rw [matchFloat_append_none hf.1 hm]
      cases hc : skip l.rest with
      | nil => exact absurd hc hs
      | cons c r =>
        simp only [List.cons_append]
        split_ifs <;> rfl

/-- after a successful step: the longer text is still ahead by `s2`, or is about to go on with `s2` -/
def Follows (s2 : List Char) (l l' : Lx) : Prop :=
  Inv l ∧ (l' = l.ext s2 ∨ (Done l ∧ Ready s2 l'))

/-- results of a run and of the run on the longer text -/
def ResFollows (s2 : List Char) (r r' : Res K) : Prop :=
  r'.2 = none ∧ r'.1.path = r.1.path ∧ Follows s2 r.1.lx r'.1.lx

theorem whileMore_true {c : Char} {n : ℕ} {p : List (Seg K)} {l l1 : Lx} (h : more l = (true, l1)) :
    whileMore rd mk c (n + 1) ⟨p, l⟩ = Res.andThen (body rd mk c ⟨p, l1⟩) (whileMore rd mk c n) := by
  rw [whileMore]; simp only [h, if_true]

theorem whileMore_false {c : Char} {n : ℕ} {p : List (Seg K)} {l l1 : Lx} (h : more l = (false, l1)) :
    whileMore rd mk c (n + 1) ⟨p, l⟩ = (⟨p, l1⟩, none) := by
  rw [whileMore]; simp [h]

theorem andThen_ok {r : Res K} {f : St K → Res K} (h : (Res.andThen r f).2 = none) :
    r.2 = none ∧ Res.andThen r f = f r.1 := by
  unfold Res.andThen at h ⊢
  cases hr : r.2 with
  | none => exact ⟨rfl, rfl⟩
  | some e => rw [hr] at h; simp only at h; rw [hr] at h; simp at h

theorem whileMore_ext {s2 : List Char} (hf : Fresh s2) (c : Char) : ∀ (n n' : ℕ) (p : List (Seg K)) (l : Lx), Inv l →
    l.rest.length < n → (l.ext s2).rest.length < n' → (whileMore rd mk c n ⟨p, l⟩).2 = none →
    ResFollows s2 (whileMore rd mk c n ⟨p, l⟩) (whileMore rd mk c n' ⟨p, l.ext s2⟩) := by
  intro n
  induction n with
  | zero => intro n' p l _ h; omega
  | succ n ih =>
    intro n' p l hi h1 h2 hok
    obtain ⟨n', rfl⟩ : ∃ k, n' = k + 1 := ⟨n' - 1, by omega⟩
    have hmi := more_inv hi
    have hmx := more_ext hf hi
    cases hml : more l with
    | mk b l1 =>
    rw [hml] at hmi hmx
    simp only at hmi hmx
    rcases hmx with hm | ⟨hm, hm', hr⟩
    · cases b with
      | true =>
        rw [whileMore_true hml] at hok ⊢
        rw [whileMore_true hm]
        obtain ⟨hb, he⟩ := andThen_ok hok
        rw [he] at hok ⊢
        have hmt : (more l).1 = true := by rw [hml]
        have hlt := body_lt (rd := rd) (mk := mk) c p l hmt (by rw [hml]; exact hb)
        rw [hml] at hlt
        simp only at hlt
        obtain ⟨bi, be⟩ := body_ext hf c ⟨p, l1⟩ hmi
          (fun _ => by have := number_more (rd := rd) hmt; rw [hml] at this; exact this) hb
        simp only [St.ext] at be
        rw [be]
        simp only [Res.andThen]
        apply ih _ _ _ bi (by omega) _ hok
        simp only [Lx.ext, List.length_append] at h2 ⊢
        omega
      | false =>
        rw [whileMore_false hml, whileMore_false hm]
        exact ⟨rfl, rfl, hmi, Or.inl rfl⟩
    · simp only [Prod.mk.injEq] at hm
      obtain ⟨rfl, rfl⟩ := hm
      rw [whileMore_false hml]
      cases hml' : more (l.ext s2) with
      | mk b' l1' =>
      rw [hml'] at hm' hr
      simp only at hm' hr
      subst hm'
      rw [whileMore_false hml']
      exact ⟨rfl, rfl, Or.inl rfl, Or.inr ⟨done_nil, hr⟩⟩

theorem while_ext {s2 : List Char} (hf : Fresh s2) (c : Char) (st : St K) (hi : Inv st.lx)
    (hok : (whileMore rd mk c (fuelOf st) st).2 = none) :
    ResFollows s2 (whileMore rd mk c (fuelOf st) st) (whileMore rd mk c (fuelOf (st.ext s2)) (st.ext s2)) :=
  whileMore_ext hf c _ _ st.path st.lx hi (by simp [fuelOf]) (by simp [fuelOf, St.ext]) hok

theorem more_fst (l : Lx) : (more l).1 = (matchFloat (skip l.rest)).isSome := by
  unfold more
  simp only
  split
  · rename_i h; rw [h]; rfl
  · rename_i h
    rw [h]
    split
    · rfl
    · split_ifs <;> rfl

/-- what z does -/
theorem exec_z {c : Char} (hz : isZ c = true) (st : St K) : exec rd mk c st =
    if (matchFloat (skip st.lx.rest)).isSome then ({ st with lx := (more st.lx).2 }, some .valueError)
    else (⟨Path.closed st.path (c = 'z'), ⟨skip st.lx.rest, none⟩⟩, none) := by
  unfold exec
  rw [if_pos hz]
  simp only [more_fst, more_rest]

theorem exec_ext {s2 : List Char} (hf : Fresh s2) (c : Char) (st : St K) (hi : Inv st.lx ∨ isZ c = true)
    (hok : (exec rd mk c st).2 = none) :
    ResFollows s2 (exec rd mk c st) (exec rd mk c (st.ext s2)) := by
  by_cases hz : isZ c = true
  · rw [exec_z hz] at hok ⊢
    rw [exec_z hz]
    by_cases hm : (matchFloat (skip st.lx.rest)).isSome = true
    · rw [if_pos hm] at hok; simp at hok
    · rw [if_neg hm]
      have hm' : matchFloat (skip st.lx.rest) = none := by simpa using hm
      by_cases hs : skip st.lx.rest = []
      · have : ¬ (matchFloat (skip (st.ext s2).lx.rest)).isSome = true := by
          simp only [St.ext, Lx.ext, skip_append_nil hs, hf.2]; simp
        rw [if_neg this]
        refine ⟨rfl, rfl, Or.inl rfl, Or.inr ⟨⟨by rw [skip_idem]; exact hs, rfl⟩, ?_, Or.inl rfl⟩⟩
        simp only [St.ext, Lx.ext, skip_idem, skip_append_nil hs]
      · have : ¬ (matchFloat (skip (st.ext s2).lx.rest)).isSome = true := by
          simp only [St.ext, Lx.ext, skip_append hs, matchFloat_append_none hf.1 hm']; simp
        rw [if_neg this]
        refine ⟨rfl, rfl, Or.inl rfl, Or.inl ?_⟩
        simp only [St.ext, Lx.ext, skip_append hs]
  have hi : Inv st.lx := hi.resolve_right hz
  unfold exec at hok ⊢
  rw [if_neg hz] at hok ⊢
  rw [if_neg hz]
  by_cases hm : c = 'm' ∨ c = 'M'
  · rw [if_pos hm] at hok ⊢
    rw [if_pos hm]
    simp only at hok ⊢
    by_cases h3 : (more st.lx).1 = true
    · rw [if_pos h3] at hok ⊢
      rcases more_ext hf hi with hx | ⟨hx, -, -⟩
      · have h3' : (more (st.ext s2).lx).1 = true := by simp only [St.ext]; rw [hx]; exact h3
        rw [if_pos h3']
        obtain ⟨hb, he⟩ := andThen_ok hok
        rw [he] at hok ⊢
        obtain ⟨bi, be⟩ := body_ext hf c ⟨st.path, (more st.lx).2⟩ (more_inv hi)
          (fun h => by rcases hm with rfl | rfl <;> simp at h) hb
        have e : (⟨(st.ext s2).path, (more (st.ext s2).lx).2⟩ : St K) = St.ext ⟨st.path, (more st.lx).2⟩ s2 := by
          simp only [St.ext]; rw [hx]
        rw [e, be]
        simp only [Res.andThen]
        exact while_ext hf _ _ bi hok
      · rw [hx] at h3; simp at h3
    · rw [if_neg h3] at hok; simp at hok
  rw [if_neg hm] at hok ⊢
  rw [if_neg hm]
  by_cases hV : c = 'V' ∨ c = 'a' ∨ c = 'A'
  · rw [if_pos hV] at hok ⊢
    rw [if_pos hV]
    exact while_ext hf _ _ hi hok
  · rw [if_neg hV] at hok ⊢
    rw [if_neg hV]
    obtain ⟨hb, he⟩ := andThen_ok hok
    rw [he] at hok ⊢
    obtain ⟨bi, be⟩ := body_ext hf c st hi (fun h => absurd (Or.inl h) hV) hb
    rw [be]
    simp only [Res.andThen]
    exact while_ext hf _ _ bi hok

/-- the fuel of the main loop does not matter -/
theorem mainLoop_fuel_irrel : ∀ (n n' : ℕ) (st : St K), st.lx.rest.length < n → st.lx.rest.length < n' →
    mainLoop rd mk n st = mainLoop rd mk n' st := by
  intro n
  induction n with
  | zero => intro n' st h; omega
  | succ n ih =>
    intro n' st h h'
    obtain ⟨n', rfl⟩ : ∃ k, n' = k + 1 := ⟨n' - 1, by omega⟩
    unfold mainLoop
    split
    · rfl
    · rename_i c l hc
      have h1 := command_some hc
      have h2 := exec_le (rd := rd) (mk := mk) c ⟨st.path, l⟩
      simp only at h2
      unfold Res.andThen
      split
      · rfl
      · exact ih n' _ (by omega) (by omega)

/-- from a state that is ready for `s2`, parsing goes on as on `s2` alone -/
theorem mainLoop_ready {s2 : List Char} {p : List (Seg K)} {l : Lx} (h : Ready s2 l) (n : ℕ)
    (hn : l.rest.length < n) :
    (mainLoop rd mk n ⟨p, l⟩).1.path = (parse rd mk p s2).1.path ∧
      (mainLoop rd mk n ⟨p, l⟩).2 = (parse rd mk p s2).2 ∧
      (mainLoop rd mk n ⟨p, l⟩).1.lx.rest = (parse rd mk p s2).1.lx.rest := by
  obtain ⟨n, rfl⟩ : ∃ k, n = k + 1 := ⟨n - 1, by omega⟩
  obtain ⟨hs, hi⟩ := h
  have k1 := skip_length l.rest
  have k2 := skip_length s2
  unfold parse
  simp only [fuelOf]
  unfold mainLoop
  unfold command
  simp only [hs]
  cases hc : skip s2 with
  | nil => exact ⟨rfl, rfl, rfl⟩
  | cons c r =>
    rw [hs] at k1
    rw [hc] at k1 k2
    simp only [List.length_cons] at k1 k2
    simp only
    by_cases hcmd : isCmd c = true
    · rw [if_pos hcmd, if_pos hcmd]
      simp only
      rcases hi with hi | ⟨d, q, hd, hz⟩
      · rw [hi]
        unfold Res.andThen
        have k3 := exec_le (rd := rd) (mk := mk) c ⟨p, ⟨r, none⟩⟩
        simp only at k3
        split
        · exact ⟨rfl, rfl, rfl⟩
        · rw [mainLoop_fuel_irrel n s2.length _ (by omega) (by omega)]
          exact ⟨rfl, rfl, rfl⟩
      · rw [hc] at hd
        simp only [List.cons.injEq] at hd
        obtain ⟨rfl, rfl⟩ := hd
        rw [exec_z hz, exec_z hz]
        simp only
        by_cases hm : (matchFloat (skip r)).isSome = true
        · rw [if_pos hm, if_pos hm]
          simp [Res.andThen, more_rest]
        · rw [if_neg hm, if_neg hm]
          have k3 := skip_length r
          simp only [Res.andThen]
          rw [mainLoop_fuel_irrel n s2.length _ (by simp only; omega) (by simp only; omega)]
          exact ⟨rfl, rfl, rfl⟩
    · rw [if_neg hcmd, if_neg hcmd]
      exact ⟨rfl, rfl, rfl⟩

theorem mainLoop_ext {s2 : List Char} (hf : Fresh s2) : ∀ (n n' : ℕ) (st : St K) (l' : Lx), Follows s2 st.lx l' →
    st.lx.rest.length < n → l'.rest.length < n' →
    (mainLoop rd mk n st).2 = none → (mainLoop rd mk n st).1.lx.rest = [] →
    (mainLoop rd mk n' ⟨st.path, l'⟩).1.path = (parse rd mk (mainLoop rd mk n st).1.path s2).1.path ∧
      (mainLoop rd mk n' ⟨st.path, l'⟩).2 = (parse rd mk (mainLoop rd mk n st).1.path s2).2 ∧
      (mainLoop rd mk n' ⟨st.path, l'⟩).1.lx.rest = (parse rd mk (mainLoop rd mk n st).1.path s2).1.lx.rest := by
  intro n
  induction n with
  | zero => intro n' st l' _ h; omega
  | succ n ih =>
    intro n' st l' hfo h1 h2 hok hend
    obtain ⟨hi, hfo⟩ := hfo
    by_cases hs : skip st.lx.rest = []
    · -- the first text has ended
      have hr : Ready s2 l' := by
        rcases hfo with rfl | ⟨-, hr⟩
        · refine ⟨by simp only [Lx.ext, skip_append_nil hs], ?_⟩
          left; exact (inv_nil (l := st.lx) hi hs)
        · exact hr
      have hp : (mainLoop rd mk (n + 1) st).1.path = st.path := by
        unfold mainLoop command
        simp only [hs]
      rw [hp]
      exact mainLoop_ready hr _ h2
    · obtain rfl : l' = st.lx.ext s2 := by
        rcases hfo with h | ⟨hd, -⟩
        · exact h
        · exact absurd hd.1 hs
      obtain ⟨n', rfl⟩ : ∃ k, n' = k + 1 := ⟨n' - 1, by omega⟩
      cases hsk : skip st.lx.rest with
      | nil => exact absurd hsk hs
      | cons c r =>
        have k1 := skip_length st.lx.rest
        rw [hsk] at k1
        simp only [List.length_cons] at k1
        by_cases hc : isCmd c = true
        · have e1 : mainLoop rd mk (n + 1) st = Res.andThen (exec rd mk c ⟨st.path, ⟨r, st.lx.inl⟩⟩) (mainLoop rd mk n) := by
            conv_lhs => unfold mainLoop command
            simp only [hsk, hc, if_true]
          have e2 : mainLoop rd mk (n' + 1) ⟨st.path, st.lx.ext s2⟩ =
              Res.andThen (exec rd mk c (St.ext ⟨st.path, ⟨r, st.lx.inl⟩⟩ s2)) (mainLoop rd mk n') := by
            conv_lhs => unfold mainLoop command
            simp only [Lx.ext, skip_append hs, hsk, List.cons_append, hc, if_true, St.ext]
          rw [e1] at hok hend ⊢
          rw [e2]
          obtain ⟨hx, he⟩ := andThen_ok hok
          rw [he] at hok hend ⊢
          have hi' : Inv (⟨r, st.lx.inl⟩ : Lx) ∨ isZ c = true := by
            rcases hi with h | ⟨d, q, hd, hz⟩
            · exact Or.inl (Or.inl h)
            · rw [hsk] at hd
              simp only [List.cons.injEq] at hd
              rw [hd.1]; exact Or.inr hz
          obtain ⟨f1, f2, f3⟩ := exec_ext (rd := rd) (mk := mk) hf c ⟨st.path, ⟨r, st.lx.inl⟩⟩ hi' hx
          have k2 := exec_le (rd := rd) (mk := mk) c ⟨st.path, ⟨r, st.lx.inl⟩⟩
          have k3 := exec_le (rd := rd) (mk := mk) c (St.ext ⟨st.path, ⟨r, st.lx.inl⟩⟩ s2)
          simp only [St.ext, Lx.ext, List.length_append] at k2 k3 h2 f1 f2 f3 ⊢
          simp only [Res.andThen, f1]
          have := ih n' (exec rd mk c ⟨st.path, ⟨r, st.lx.inl⟩⟩).1 _ f3 (by omega) (by omega) hok hend
          rw [← f2] at this
          exact this
        · exfalso
          have : (mainLoop rd mk (n + 1) st).1.lx.rest = c :: r := by
            unfold mainLoop command
            simp only [hsk, hc]
            simp
          rw [this] at hend
          simp at hend

end Svgio.Lexer
