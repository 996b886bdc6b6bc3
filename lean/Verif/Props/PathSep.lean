import Verif.Spec.SameText
import Verif.Lemmas.PathFuel

/-!
C37: separators are interchangeable.
-/

namespace Svgio.Props
open Spec Lexer

theorem SameText.symm {s s' : List Char} (h : SameText s s') : SameText s' s := by
  induction h with
  | done w w' h h' => exact .done _ _ h' h
  | char c s s' hc _ ih => exact .char _ _ _ hc ih
  | gap w w' s s' h h' n n' _ ih => exact .gap _ _ _ _ h' h n' n ih

/-- after separators, both texts are at their end or at the same character -/
def SimSkip (s s' : List Char) : Prop :=
  (skip s = [] ∧ skip s' = []) ∨ ∃ c r r', skip s = c :: r ∧ skip s' = c :: r' ∧ ¬ IsSep c ∧ SameText r r'

theorem simSkip_of {s s' : List Char} (h : SameText s s') : SimSkip s s' := by
  induction h with
  | done w w' h h' => exact Or.inl ⟨skip_allSep h, skip_allSep h'⟩
  | char c s s' hc hs _ => exact Or.inr ⟨c, s, s', skip_cons hc, skip_cons hc, hc, hs⟩
  | gap w w' s s' h h' _ _ _ ih =>
    unfold SimSkip at ih ⊢
    rw [skip_sep h, skip_sep h']
    exact ih

theorem simSkip_skip {s s' : List Char} (h : SimSkip s s') : SimSkip (skip s) (skip s') := by
  unfold SimSkip at h ⊢
  rw [skip_idem, skip_idem]
  exact h

theorem sameText_prefix {t : List Char} : ∀ {r s' : List Char}, SameText (t ++ r) s' → (∀ c ∈ t, ¬ IsSep c) →
    ∃ r', s' = t ++ r' ∧ SameText r r' := by
  induction t with
  | nil => intro r s' h _; exact ⟨s', rfl, h⟩
  | cons c t ih =>
    intro r s' h hc
    have hcs := hc c (by simp)
    generalize hx : c :: t ++ r = x at h
    cases h with
    | done w w' hw hw' => exact absurd (hw c (by rw [← hx]; simp)) hcs
    | char d s s'' hd hs =>
      simp only [List.cons_append, List.cons.injEq] at hx
      obtain ⟨rfl, rfl⟩ := hx
      obtain ⟨r', rfl, hr⟩ := ih hs (fun c h => hc c (by simp [h]))
      exact ⟨r', rfl, hr⟩
    | gap w w' s s'' hw hw' hne _ _ =>
      cases w with
      | nil => exact absurd rfl hne
      | cons d w =>
        simp only [List.cons_append, List.cons.injEq] at hx
        obtain ⟨rfl, -⟩ := hx
        exact absurd (hw c (by simp)) hcs

theorem numChar_not_sep {c : Char} (h : NumChar c) : ¬ IsSep c := fun hs => sep_not_num hs h

theorem sim_match {s s' t r : List Char} (h : SameText s s') (hm : matchFloat s = some (t, r)) :
    ∃ r', matchFloat s' = some (t, r') ∧ SameText r r' := by
  obtain ⟨rfl, hn⟩ := matchFloat_sound hm
  have hns : ∀ c ∈ t, ¬ IsSep c := fun c hc => numChar_not_sep (isNumber_chars hn c hc)
  obtain ⟨r', rfl, hr⟩ := sameText_prefix h hns
  refine ⟨r', matchFloat_of_stops hn ?_, hr⟩
  intro p q hpq hne hnum
  have hps : ∀ c ∈ p, ¬ IsSep c := fun c hc =>
    numChar_not_sep (isNumber_chars hnum c (List.mem_append_right _ hc))
  rw [hpq] at hr
  obtain ⟨q', hq', -⟩ := sameText_prefix (SameText.symm hr) hps
  exact matchFloat_maximal hm p q' hq' hne hnum

theorem sim_match_none {s s' : List Char} (h : SameText s s') (hm : matchFloat s = none) : matchFloat s' = none := by
  cases h' : matchFloat s' with
  | none => rfl
  | some tr =>
    obtain ⟨r, hr, -⟩ := sim_match (SameText.symm h) (t := tr.1) (r := tr.2) h'
    rw [hm] at hr
    simp at hr

/-- lexer states that differ only in separators -/
def LxSim (l l' : Lx) : Prop := SimSkip l.rest l'.rest ∧ l.inl = l'.inl

/-- results with equal values and states that differ only in separators -/
def PairSim {α : Type} (r r' : α × Lx) : Prop := r.1 = r'.1 ∧ LxSim r.2 r'.2

theorem more_sim {l l' : Lx} (h : LxSim l l') : PairSim (more l) (more l') := by
  obtain ⟨h, hi⟩ := h
  unfold more
  rcases h with ⟨h1, h2⟩ | ⟨c, r, r', h1, h2, hc, hr⟩
  · simp only [h1, h2, matchFloat_nil, hi]
    exact ⟨rfl, Or.inl ⟨rfl, rfl⟩, rfl⟩
  · have hs : SameText (c :: r) (c :: r') := .char _ _ _ hc hr
    have hss : SimSkip (c :: r) (c :: r') := simSkip_of hs
    simp only [h1, h2, hi]
    cases hm : matchFloat (c :: r) with
    | none =>
      rw [sim_match_none hs hm]
      simp only
      split_ifs <;> exact ⟨rfl, hss, rfl⟩
    | some tr =>
      obtain ⟨r2, hr2, -⟩ := sim_match hs (t := tr.1) (r := tr.2) hm
      rw [hr2]
      exact ⟨rfl, hss, rfl⟩

theorem command_sim {l l' : Lx} (h : LxSim l l') : PairSim (command l) (command l') := by
  obtain ⟨h, hi⟩ := h
  unfold command
  rcases h with ⟨h1, h2⟩ | ⟨c, r, r', h1, h2, hc, hr⟩
  · simp only [h1, h2, hi]
    exact ⟨rfl, Or.inl ⟨rfl, rfl⟩, rfl⟩
  · simp only [h1, h2, hi]
    split_ifs
    · exact ⟨rfl, simSkip_of hr, rfl⟩
    · exact ⟨rfl, simSkip_of (.char _ _ _ hc hr), rfl⟩

variable {K : Type} [Field K] [LinearOrder K]
variable {rd : List Char → K} {mk : Path.ArcCtor K}

omit [Field K] [LinearOrder K] in
theorem number_sim {l l' : Lx} (h : LxSim l l') : PairSim (number rd l) (number rd l') := by
  obtain ⟨h, hi⟩ := h
  unfold number
  rcases h with ⟨h1, h2⟩ | ⟨c, r, r', h1, h2, hc, hr⟩
  · simp only [h1, h2, matchFloat_nil, hi]
    exact ⟨rfl, Or.inl ⟨rfl, rfl⟩, rfl⟩
  · have hs : SameText (c :: r) (c :: r') := .char _ _ _ hc hr
    have hss : SimSkip (c :: r) (c :: r') := simSkip_of hs
    simp only [h1, h2, hi]
    cases hm : matchFloat (c :: r) with
    | none =>
      rw [sim_match_none hs hm]
      simp only
      split_ifs <;> exact ⟨rfl, hss, rfl⟩
    | some tr =>
      obtain ⟨r2, hr2, hr3⟩ := sim_match hs (t := tr.1) (r := tr.2) hm
      rw [hr2]
      exact ⟨rfl, simSkip_of hr3, rfl⟩

theorem flag_sim {l l' : Lx} (h : LxSim l l') : PairSim (flag l) (flag l') := by
  obtain ⟨h, hi⟩ := h
  unfold flag
  rcases h with ⟨h1, h2⟩ | ⟨c, r, r', h1, h2, hc, hr⟩
  · simp only [h1, h2, hi]
    exact ⟨rfl, Or.inl ⟨rfl, rfl⟩, rfl⟩
  · simp only [h1, h2, hi]
    split_ifs
    · exact ⟨rfl, simSkip_of hr, rfl⟩
    · exact ⟨rfl, simSkip_of hr, rfl⟩
    · exact ⟨rfl, simSkip_of (.char _ _ _ hc hr), rfl⟩

omit [Field K] [LinearOrder K] in
theorem coord_sim {l l' : Lx} (h : LxSim l l') : PairSim (coord rd l) (coord rd l') := by
  have h1 := number_sim (rd := rd) h
  unfold coord
  revert h1
  rcases number rd l with ⟨x, l1⟩
  rcases number rd l' with ⟨x', l1'⟩
  rintro ⟨h1, h2⟩
  simp only at h1 h2
  subst h1
  cases x with
  | none => exact ⟨rfl, h2⟩
  | some x =>
    have h3 := number_sim (rd := rd) h2
    simp only
    revert h3
    rcases number rd l1 with ⟨y, l2⟩
    rcases number rd l1' with ⟨y', l2'⟩
    rintro ⟨h3, h4⟩
    simp only at h3 h4
    subst h3
    cases y <;> exact ⟨rfl, h4⟩

omit [LinearOrder K] in
theorem rcoord_sim {l l' : Lx} (cur : Option (Pt K)) (h : LxSim l l') : PairSim (rcoord rd cur l) (rcoord rd cur l') := by
  have h1 := coord_sim (rd := rd) h
  unfold rcoord
  revert h1
  rcases coord rd l with ⟨x, l1⟩
  rcases coord rd l' with ⟨x', l1'⟩
  rintro ⟨h1, h2⟩
  simp only at h1 h2
  subst h1
  cases x with
  | error e => exact ⟨rfl, h2⟩
  | ok q =>
    cases q with
    | none => exact ⟨rfl, h2⟩
    | some q => cases cur <;> exact ⟨rfl, h2⟩

omit [LinearOrder K] in
theorem readArg_sim {l l' : Lx} (cur : Option (Pt K)) (k : ArgKind) (h : LxSim l l') :
    PairSim (readArg rd cur k l) (readArg rd cur k l') := by
  cases k with
  | num => have := number_sim (rd := rd) h; exact ⟨by simp only [readArg, this.1], this.2⟩
  | flag => have := flag_sim h; exact ⟨by simp only [readArg, this.1], this.2⟩
  | coord => have := coord_sim (rd := rd) h; exact ⟨by simp only [readArg, this.1], this.2⟩
  | rcoord => have := rcoord_sim (rd := rd) cur h; exact ⟨by simp only [readArg, this.1], this.2⟩

omit [LinearOrder K] in
theorem readArgs_sim (cur : Option (Pt K)) (ks : List ArgKind) : ∀ {l l' : Lx}, LxSim l l' →
    PairSim (readArgs rd cur ks l) (readArgs rd cur ks l') := by
  induction ks with
  | nil => intro l l' h; exact ⟨rfl, h⟩
  | cons k ks ih =>
    intro l l' h
    have h1 := readArg_sim (rd := rd) cur k h
    unfold readArgs
    revert h1
    rcases readArg rd cur k l with ⟨x, l1⟩
    rcases readArg rd cur k l' with ⟨x', l1'⟩
    rintro ⟨h1, h2⟩
    simp only at h1 h2
    subst h1
    cases x with
    | error e => exact ⟨rfl, h2⟩
    | ok a =>
      have h3 := ih h2
      simp only
      revert h3
      rcases readArgs rd cur ks l1 with ⟨y, l2⟩
      rcases readArgs rd cur ks l1' with ⟨y', l2'⟩
      rintro ⟨h3, h4⟩
      simp only at h3 h4
      subst h3
      cases y <;> exact ⟨rfl, h4⟩

/-- outcomes with the same path and error -/
def ResSim (r r' : Res K) : Prop := r.1.path = r'.1.path ∧ r.2 = r'.2 ∧ LxSim r.1.lx r'.1.lx

theorem body_sim (c : Char) (p : List (Seg K)) {l l' : Lx} (h : LxSim l l') :
    ResSim (body rd mk c ⟨p, l⟩) (body rd mk c ⟨p, l'⟩) := by
  have h1 := readArgs_sim (rd := rd) (Path.currentPoint p) (argSpec c) h
  unfold body
  simp only
  revert h1
  rcases readArgs rd (Path.currentPoint p) (argSpec c) l with ⟨x, l1⟩
  rcases readArgs rd (Path.currentPoint p) (argSpec c) l' with ⟨x', l1'⟩
  rintro ⟨h1, h2⟩
  simp only at h1 h2
  subst h1
  cases x with
  | error e => exact ⟨rfl, rfl, h2⟩
  | ok as =>
    simp only [h2.2]
    cases finish mk c l1'.inl p as <;> exact ⟨rfl, rfl, h2⟩

theorem andThen_sim {r r' : Res K} {f f' : St K → Res K} (h : ResSim r r')
    (hf : r.2 = none → r'.2 = none → ResSim (f r.1) (f' r'.1)) : ResSim (Res.andThen r f) (Res.andThen r' f') := by
  unfold Res.andThen
  obtain ⟨h1, h2, h3⟩ := h
  cases hr : r.2 with
  | none => rw [hr] at h2; rw [← h2]; exact hf hr h2.symm
  | some e => rw [hr] at h2; rw [← h2]; exact ⟨h1, by rw [hr, ← h2], h3⟩

theorem whileMore_sim (c : Char) : ∀ (n n' : ℕ) (p : List (Seg K)) {l l' : Lx}, LxSim l l' →
    l.rest.length < n → l'.rest.length < n' →
    ResSim (whileMore rd mk c n ⟨p, l⟩) (whileMore rd mk c n' ⟨p, l'⟩) := by
  intro n
  induction n with
  | zero => intro n' p l l' h h1; omega
  | succ n ih =>
    intro n' p l l' h h1 h2
    obtain ⟨n', rfl⟩ : ∃ k, n' = k + 1 := ⟨n' - 1, by omega⟩
    have hm := more_sim h
    unfold whileMore
    simp only
    by_cases hmt : (more l).1 = true
    · have hmt' : (more l').1 = true := by rw [← hm.1]; exact hmt
      rw [if_pos hmt, if_pos hmt']
      have hb := body_sim (rd := rd) (mk := mk) c p hm.2
      apply andThen_sim hb
      intro ho ho'
      have l1 := body_lt c p l hmt ho
      have l2 := body_lt c p l' hmt' ho'
      have := ih n' (body rd mk c ⟨p, (more l).2⟩).1.path hb.2.2 (by omega) (by omega)
      have e := hb.1
      rw [show (body rd mk c ⟨p, (more l').2⟩).1 = ⟨(body rd mk c ⟨p, (more l).2⟩).1.path,
        (body rd mk c ⟨p, (more l').2⟩).1.lx⟩ by rw [e]]
      exact this
    · have hmt' : ¬ (more l').1 = true := by rw [← hm.1]; exact hmt
      rw [if_neg hmt, if_neg hmt']
      exact ⟨rfl, rfl, hm.2⟩

theorem while_fuel_sim (c : Char) {r r' : Res K} (h : ResSim r r') :
    ResSim (whileMore rd mk c (fuelOf r.1) r.1) (whileMore rd mk c (fuelOf r'.1) r'.1) := by
  have := whileMore_sim (rd := rd) (mk := mk) c (fuelOf r.1) (fuelOf r'.1) r.1.path h.2.2 (by simp [fuelOf])
    (by simp [fuelOf])
  have e := h.1
  rw [show r'.1 = ⟨r.1.path, r'.1.lx⟩ by rw [e]]
  exact this

theorem exec_sim (c : Char) (p : List (Seg K)) {l l' : Lx} (h : LxSim l l') :
    ResSim (exec rd mk c ⟨p, l⟩) (exec rd mk c ⟨p, l'⟩) := by
  have hm := more_sim h
  unfold exec
  by_cases hz : isZ c = true
  · rw [if_pos hz, if_pos hz]
    simp only [hm.1]
    split_ifs
    · exact ⟨rfl, rfl, hm.2⟩
    · exact ⟨rfl, rfl, hm.2.1, rfl⟩
  rw [if_neg hz, if_neg hz]
  by_cases hmv : c = 'm' ∨ c = 'M'
  · rw [if_pos hmv, if_pos hmv]
    simp only [hm.1]
    by_cases h3 : (more l').1 = true
    · rw [if_pos h3, if_pos h3]
      exact andThen_sim (body_sim c p hm.2) (fun _ _ => while_fuel_sim _ (body_sim c p hm.2))
    · rw [if_neg h3, if_neg h3]
      exact ⟨rfl, rfl, hm.2⟩
  rw [if_neg hmv, if_neg hmv]
  split_ifs
  · exact while_fuel_sim c (r := (⟨p, l⟩, none)) (r' := (⟨p, l'⟩, none)) ⟨rfl, rfl, h⟩
  · exact andThen_sim (body_sim c p h) (fun _ _ => while_fuel_sim _ (body_sim c p h))

theorem mainLoop_sim : ∀ (n n' : ℕ) (p : List (Seg K)) {l l' : Lx}, LxSim l l' →
    l.rest.length < n → l'.rest.length < n' →
    ResSim (mainLoop rd mk n ⟨p, l⟩) (mainLoop rd mk n' ⟨p, l'⟩) := by
  intro n
  induction n with
  | zero => intro n' p l l' h h1; omega
  | succ n ih =>
    intro n' p l l' h h1 h2
    obtain ⟨n', rfl⟩ : ∃ k, n' = k + 1 := ⟨n' - 1, by omega⟩
    have hc := command_sim h
    unfold mainLoop
    simp only
    revert hc
    cases hcl : command l with
    | mk x l1 =>
    cases hcl' : command l' with
    | mk x' l1' =>
    rintro ⟨e, hs⟩
    simp only at e hs
    subst e
    cases x with
    | none => exact ⟨rfl, rfl, hs⟩
    | some c =>
      simp only
      have he := exec_sim (rd := rd) (mk := mk) c p hs
      apply andThen_sim he
      intro _ _
      have k1 := command_some hcl
      have k2 := command_some hcl'
      have k3 := exec_le (rd := rd) (mk := mk) c ⟨p, l1⟩
      have k4 := exec_le (rd := rd) (mk := mk) c ⟨p, l1'⟩
      simp only at k3 k4
      have := ih n' (exec rd mk c ⟨p, l1⟩).1.path he.2.2 (by omega) (by omega)
      have e := he.1
      rw [show (exec rd mk c ⟨p, l1'⟩).1 = ⟨(exec rd mk c ⟨p, l1⟩).1.path, (exec rd mk c ⟨p, l1'⟩).1.lx⟩ by rw [e]]
      exact this

/-- **C37**: two texts that differ only in their separators - each run of separators replaced by another
non-empty run, anything added or removed at either end - parse to the same path with the same outcome. -/
theorem C37_separators (p : List (Seg K)) {w w' s s' : List Char} (hw : AllSep w) (hw' : AllSep w')
    (h : SameText s s') :
    (parse rd mk p (w ++ s)).1.path = (parse rd mk p (w' ++ s')).1.path ∧
      (parse rd mk p (w ++ s)).2 = (parse rd mk p (w' ++ s')).2 := by
  have hs : SimSkip (w ++ s) (w' ++ s') := by
    have := simSkip_of h
    unfold SimSkip at this ⊢
    rw [skip_sep hw, skip_sep hw']
    exact this
  have := mainLoop_sim (rd := rd) (mk := mk) (fuelOf (⟨p, ⟨w ++ s, none⟩⟩ : St K))
    (fuelOf (⟨p, ⟨w' ++ s', none⟩⟩ : St K)) p (l := ⟨w ++ s, none⟩) (l' := ⟨w' ++ s', none⟩) ⟨hs, rfl⟩
    (by simp [fuelOf]) (by simp [fuelOf])
  exact ⟨this.1, this.2.1⟩

/-- the separators of this text and of its rewriting -/
example : SameText "M1,2 L3 4".toList "M1 , 2\nL3\t4 ".toList := by
  have nc : ∀ c ∈ "M12L34".toList, ¬ IsSep c := by unfold IsSep; decide
  refine .char 'M' _ _ (nc _ (by decide)) (.char '1' _ _ (nc _ (by decide)) ?_)
  refine .gap [','] [' ', ',', ' '] _ _ (by simp [AllSep, IsSep]) (by simp [AllSep, IsSep]) (by simp) (by simp) ?_
  refine .char '2' _ _ (nc _ (by decide)) ?_
  refine .gap [' '] ['\n'] _ _ (by simp [AllSep, IsSep]) (by simp [AllSep, IsSep]) (by simp) (by simp) ?_
  refine .char 'L' _ _ (nc _ (by decide)) (.char '3' _ _ (nc _ (by decide)) ?_)
  refine .gap [' '] ['\t'] _ _ (by simp [AllSep, IsSep]) (by simp [AllSep, IsSep]) (by simp) (by simp) ?_
  refine .char '4' _ _ (nc _ (by decide)) (.done [] [' '] (by simp [AllSep]) (by simp [AllSep, IsSep]))

end Svgio.Props
