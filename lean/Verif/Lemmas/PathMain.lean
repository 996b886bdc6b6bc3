import Verif.Lemmas.PathBody

/-! The parser loops on well-written path data. -/

namespace Svgio.Lexer
open Spec

variable {K : Type} [Field K] [LinearOrder K] [IsStrictOrderedRing K]
variable {rd : List Char → K} {mk : Path.ArcCtor K} {arcOf : ArcOf K}

omit [Field K] [LinearOrder K] [IsStrictOrderedRing K] in
theorem letter_facts (c : Cmd K) : isCmd c.letter = true ∧ ¬ IsSep c.letter ∧
    (c.letter ≠ '+' ∧ c.letter ≠ '-' ∧ c.letter ≠ '.' ∧ ¬ IsDigit c.letter) ∧
    (isZ c.letter = true ↔ c.isClose) := by
  unfold IsSep IsDigit
  cases c with
  | _ rel => cases rel <;> simp only [Cmd.letter, Cmd.isClose] <;> decide

omit [Field K] [LinearOrder K] [IsStrictOrderedRing K] in
theorem args_head {c : Cmd K} (h : c.args ≠ []) : ∃ x as, c.args = .num x :: as := by
  have e : ∀ e : End K, e.args ≠ [] → ∃ x as, e.args = .num x :: as := by
    intro e he
    cases e with
    | pt p => exact ⟨_, _, rfl⟩
    | close => exact absurd rfl he
  cases c with
  | line rel en => exact e en h
  | smoothQuad rel en => exact e en h
  | close => exact absurd rfl h
  | _ => exact ⟨_, _, rfl⟩

omit [Field K] [LinearOrder K] [IsStrictOrderedRing K] in
theorem argText_length {as : List (ArgVal K)} {r s} (h : ArgText rd as r s) :
    r.length ≤ s.length ∧ (as ≠ [] → r.length < s.length) := by
  induction h with
  | nil => simp
  | num w t u r as hw ht hs ha ih =>
    have : 0 < t.length := by
      obtain ⟨c, q, rfl, -⟩ := isNumber_head ht
      simp
    simp only [List.length_append]
    exact ⟨by omega, fun _ => by omega⟩
  | flag w b u r as hw ha ih =>
    simp only [List.length_append, List.length_cons]
    exact ⟨by omega, fun _ => by omega⟩

/-- the implied letter -/
theorem implied_of (c : Cmd K) (h : ¬ c.isClose) :
    ∃ d, c.implied = some d ∧
      d = if c.letter = 'm' then 'l' else if c.letter = 'M' then 'L' else c.letter := by
  cases c with
  | close => exact absurd trivial h
  | _ rel => cases rel <;> exact ⟨_, rfl, rfl⟩

omit [Field K] [LinearOrder K] [IsStrictOrderedRing K] in
theorem implied_not_move (c : Cmd K) : c.implied ≠ some 'm' ∧ c.implied ≠ some 'M' := by
  cases c with
  | close => simp [Cmd.implied]
  | _ rel => cases rel <;> simp [Cmd.implied, Cmd.letter]

theorem exec_step (hmk : ∀ a rx ry rot l s b, mk a (some rx) (some ry) (some rot) (some l) (some s) b =
      .ok (arcOf a rx ry rot l s b))
    {path : List (Seg K)} {pen : Pen K} (ha : Agree path pen) {cmd : Cmd K} {r u}
    (hc : ¬ cmd.isClose) (h : ArgText rd cmd.args r u) (hz : cmd.endsInClose → AtZ r) :
    ∃ l d n, exec rd mk cmd.letter ⟨path, ⟨u, none⟩⟩ =
        whileMore rd mk d n ⟨path ++ [(step arcOf true pen cmd).1], l⟩ ∧
      cmd.implied = some d ∧ (skip r).length < n ∧
      Ready r l ∧ Agree (path ++ [(step arcOf true pen cmd).1]) (step arcOf true pen cmd).2 := by
  have hzl : isZ cmd.letter = false := by
    have := (letter_facts cmd).2.2.2
    cases hh : isZ cmd.letter with
    | false => rfl
    | true => exact absurd (this.mp hh) hc
  obtain ⟨d, hd1, hd2⟩ := implied_of cmd hc
  have fin : ∀ l, Ready r l → (skip r).length < l.rest.length + 1 := by
    intro l hl
    rw [← hl.1]
    have := skip_length l.rest
    omega
  unfold exec
  rw [if_neg (by simp [hzl])]
  by_cases h1 : cmd.letter = 'm' ∨ cmd.letter = 'M'
  · rw [if_pos h1]
    have hne : cmd.args ≠ [] := by
      cases cmd with
      | move => simp [Cmd.args, ptArgs]
      | close => exact absurd trivial hc
      | _ rel => cases rel <;> revert h1 <;> simp [Cmd.letter]
    obtain ⟨x, as, he⟩ := args_head hne
    rw [he] at h
    have hm := ArgText.more (inl := none) h
    obtain ⟨l, b1, b2, b3⟩ := body_step hmk ha hc (by rw [he]; exact (ArgText.skip h)) hz
    refine ⟨l, d, _, ?_, hd1, fin l b2, b2, b3⟩
    simp only [hm, if_true, b1, Res.andThen, fuelOf]
    rw [hd2]
    rcases h1 with h1 | h1 <;> simp [h1]
  rw [if_neg h1]
  by_cases h2 : cmd.letter = 'V' ∨ cmd.letter = 'a' ∨ cmd.letter = 'A'
  · rw [if_pos h2]
    have hne : cmd.args ≠ [] := by
      cases cmd with
      | arc => simp [Cmd.args]
      | vert => simp [Cmd.args]
      | close => exact absurd trivial hc
      | _ rel => cases rel <;> revert h2 <;> simp [Cmd.letter]
    obtain ⟨x, as, he⟩ := args_head hne
    rw [he] at h
    have hm := ArgText.more (inl := none) h
    obtain ⟨l, b1, b2, b3⟩ := body_step hmk ha hc (by rw [he]; exact (ArgText.skip h)) hz
    have hlen := (argText_length h).2 (by simp)
    refine ⟨l, d, u.length, ?_, hd1, by have := skip_length r; omega, b2, b3⟩
    simp only [fuelOf, whileMore, hm, if_true, b1, Res.andThen]
    rw [hd2]
    rcases h2 with h2 | h2 | h2 <;> simp [h2]
  · rw [if_neg h2]
    obtain ⟨l, b1, b2, b3⟩ := body_step hmk ha hc h hz
    refine ⟨l, d, _, ?_, hd1, fin l b2, b2, b3⟩
    simp only [b1, Res.andThen, fuelOf]
    rw [hd2]
    push Not at h1
    simp [h1.1, h1.2]

omit [Field K] [LinearOrder K] [IsStrictOrderedRing K] in
/-- after a closepath no number follows -/
theorem cmdText_none {cs : List (Cmd K)} {s} (h : CmdText rd none cs s) (inl) :
    ∃ inl', more ⟨s, inl⟩ = (false, ⟨skip s, inl'⟩) := by
  cases h with
  | nil _ w hw => unfold more; simp [skip_allSep hw, matchFloat_nil]
  | letter _ w c cs u r hw ha hr =>
    have f := letter_facts c
    unfold more
    simp only [skip_sep hw, skip_cons f.2.1, matchFloat_cons_none f.2.2.1]
    split_ifs <;> exact ⟨_, rfl⟩
  | implied _ _ _ _ _ h => simp at h

/-- looking for more arguments in front of a command letter -/
theorem more_letter {c : Char} {w u : List Char} {l : Lx} (hw : AllSep w) (hs : ¬ IsSep c)
    (hc : c ≠ '+' ∧ c ≠ '-' ∧ c ≠ '.' ∧ ¬ IsDigit c) (hl : Ready (w ++ c :: u) l) :
    ∃ l', more l = (false, l') ∧ Ready (w ++ c :: u) l' := by
  have hsk : skip l.rest = c :: u := by rw [hl.1, skip_sep hw, skip_cons hs]
  unfold more
  simp only [hsk, matchFloat_cons_none hc]
  split_ifs with hz
  · exact ⟨_, rfl, by rw [skip_sep hw], Or.inr ⟨c, u, by rw [skip_sep hw, skip_cons hs], hz⟩⟩
  · refine ⟨_, rfl, by rw [skip_sep hw], ?_⟩
    exact hl.2

theorem run_text (hmk : ∀ a rx ry rot l s b, mk a (some rx) (some ry) (some rot) (some l) (some s) b =
      .ok (arcOf a rx ry rot l s b)) {prev cs s} (h : CmdText rd prev cs s) :
    (prev ≠ some 'm' ∧ prev ≠ some 'M') →
    ∀ {path : List (Seg K)} {pen : Pen K} {l : Lx} {n m : ℕ}, Agree path pen → Completed cs → Ready s l →
      (skip s).length < n → (skip s).length < m →
      (match prev with
        | some c => Res.andThen (whileMore rd mk c n ⟨path, l⟩) (mainLoop rd mk m)
        | none => mainLoop rd mk m ⟨path, l⟩) =
      (⟨path ++ draw arcOf true pen cs, ⟨[], none⟩⟩, none) := by
  induction h with
  | nil prev w hw =>
    intro hprev0 path pen l n m ha _ hl hn hm
    have hsk : skip l.rest = [] := by rw [hl.1, skip_allSep hw]
    have hi : l.inl = none := by
      rcases hl.2 with h | ⟨c, r, h, -⟩
      · exact h
      · rw [skip_allSep hw] at h; simp at h
    obtain ⟨n, rfl⟩ : ∃ k, n = k + 1 := ⟨n - 1, by omega⟩
    obtain ⟨m, rfl⟩ : ∃ k, m = k + 1 := ⟨m - 1, by omega⟩
    cases prev with
    | none => simp [mainLoop, command, hsk, hi, draw]
    | some c => 
      have hm : more l = (false, ⟨[], none⟩) := by simp [more, hsk, matchFloat_nil, hi]
      simp [whileMore, hm, Res.andThen, mainLoop, command, skip, draw]
  | letter prev w c cs u r hw hargs hrest ih =>
    intro hprev0 path pen l n m ha hcomp hl hn hm
    have f := letter_facts c
    have hsk : skip (w ++ c.letter :: u) = c.letter :: u := by rw [skip_sep hw, skip_cons f.2.1]
    rw [hsk] at hn hm
    simp only [List.length_cons] at hn hm
    -- the main loop reads the letter
    have main : ∀ (l : Lx), Ready (w ++ c.letter :: u) l →
        mainLoop rd mk m ⟨path, l⟩ = (⟨path ++ draw arcOf true pen (c :: cs), ⟨[], none⟩⟩, none) := by
      intro l hl
      obtain ⟨m, rfl⟩ : ∃ k, m = k + 1 := ⟨m - 1, by omega⟩
      have hc : command l = (some c.letter, ⟨u, l.inl⟩) := by
        unfold command
        simp only [hl.1, hsk, f.1, if_true]
      unfold mainLoop
      simp only [hc]
      have hlen := (argText_length hargs).1
      have hlen2 := skip_length r
      by_cases hclose : c.isClose
      · -- closepath
        cases c with
        | close rel =>
          cases hargs
          obtain ⟨inl', hmore⟩ := cmdText_none hrest l.inl
          have hz : isZ (Cmd.close (K := K) rel).letter = true := f.2.2.2.mpr trivial
          have he : exec rd mk (Cmd.close (K := K) rel).letter ⟨path, ⟨u, l.inl⟩⟩ =
              (⟨path ++ [(step arcOf true pen (.close rel)).1], ⟨skip u, none⟩⟩, none) := by
            unfold exec
            rw [if_pos hz]
            simp only [hmore, Path.closed_eq ha]
            cases rel <;> simp [Cmd.letter, step]
          rw [he]
          simp only [Res.andThen]
          have := ih (implied_not_move _) (pen := (step arcOf true pen (.close rel)).2)
            (path := path ++ [(step arcOf true pen (.close rel)).1]) (l := ⟨skip u, none⟩) (n := m) (m := m)
            (Path.At.snoc ha rfl rfl rfl) hcomp.2 ⟨skip_idem u, Or.inl rfl⟩ (by omega) (by omega)
          simp only [Cmd.implied] at this
          rw [this]
          simp [draw]
        | _ => exact absurd hclose (by simp [Cmd.isClose])
      · have hinl : l.inl = none := by
          rcases hl.2 with h | ⟨d, q, h, hz⟩
          · exact h
          · rw [hsk] at h
            have : c.letter = d := by simp at h; exact h.1
            rw [← this] at hz
            exact absurd (f.2.2.2.mp hz) hclose
        rw [hinl]
        have hatz : c.endsInClose → AtZ r := by
          intro he
          obtain ⟨d, ds, rfl, hd⟩ := hcomp.1 he
          cases hrest with
          | letter _ w' _ _ u' r' hw' ha' hr' =>
            have f' := letter_facts d
            exact ⟨_, _, by rw [skip_sep hw', skip_cons f'.2.1], f'.2.2.2.mpr hd⟩
          | implied _ _ _ _ _ _ hne =>
            cases d with
            | close => exact absurd rfl hne
            | _ => exact absurd hd (by simp [Cmd.isClose])
        obtain ⟨l', d, n', e1, e2, e3, e4, e5⟩ := exec_step hmk ha hclose hargs hatz
        rw [e1]
        have := ih (implied_not_move _) (n := n') (m := m) e5 hcomp.2 e4 e3 (by omega)
        simp only [e2] at this
        rw [this]
        simp [draw]
    cases prev with
    | none => exact main l hl
    | some d =>
      obtain ⟨n, rfl⟩ : ∃ k, n = k + 1 := ⟨n - 1, by omega⟩
      obtain ⟨l', hm1, hm2⟩ := more_letter hw f.2.1 f.2.2.1 hl
      simp only [whileMore, hm1, Res.andThen, Bool.false_eq_true, if_false]
      exact main l' hm2
  | implied prev c cs s r hprev hne hargs hrest ih =>
    intro hprev0 path pen l n m ha hcomp hl hn hm
    subst hprev
    obtain ⟨n, rfl⟩ : ∃ k, n = k + 1 := ⟨n - 1, by omega⟩
    have hclose : ¬ c.isClose := by
      intro h
      cases c with
      | close => exact hne rfl
      | _ => exact h
    obtain ⟨x, as, he⟩ := args_head hne
    rw [he] at hargs
    have hinl : l.inl = none := by
      rcases hl.2 with h | ⟨d, q, h, hz⟩
      · exact h
      · exfalso
        have hm := ArgText.more (inl := none) hargs
        rw [more_close h hz] at hm
        simp at hm
    have hmore : more l = (true, ⟨skip s, none⟩) := by
      have h1 := ArgText.more (inl := none) hargs
      have h2 : more l = more ⟨s, none⟩ := by
        unfold more
        simp only [hl.1, hinl]
      rw [h2, h1]
    have hatz : c.endsInClose → AtZ r := by
      intro he
      obtain ⟨d, ds, rfl, hd⟩ := hcomp.1 he
      cases hrest with
      | letter _ w' _ _ u' r' hw' ha' hr' =>
        have f' := letter_facts d
        exact ⟨_, _, by rw [skip_sep hw', skip_cons f'.2.1], f'.2.2.2.mpr hd⟩
      | implied _ _ _ _ _ _ hne =>
        cases d with
        | close => exact absurd rfl hne
        | _ => exact absurd hd (by simp [Cmd.isClose])
    obtain ⟨l', b1, b2, b3⟩ := body_step hmk ha hclose (by rw [he]; exact (ArgText.skip hargs)) hatz
    have hlen := (argText_length (ArgText.skip hargs)).2 (by simp)
    have hlen2 := skip_length r
    obtain ⟨d, hd1, hd2⟩ := implied_of c hclose
    simp only [whileMore, hmore, if_true, b1]
    have := ih (implied_not_move _) (n := n) (m := m) b3 hcomp.2 b2 (by omega) (by omega)
    simp only [hd1] at this
    have hd : d = c.letter := by
      rw [hd2, if_neg (by simpa using hprev0.1), if_neg (by simpa using hprev0.2)]
    rw [hd] at this
    simp only [Res.andThen] at this ⊢
    rw [this]
    simp [draw]

end Svgio.Lexer
