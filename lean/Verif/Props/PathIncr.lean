import Verif.Lemmas.PathIncr
import Verif.Props.PathText
import Mathlib.Tactic.IntervalCases

/-!
C43, C44: parsing in pieces, and malformed path data.
-/

namespace Svgio.Props
open Spec Lexer

variable {K : Type} [Field K] [LinearOrder K]
variable {rd : List Char → K} {mk : Path.ArcCtor K}

/-! ### C43 -/

/-- the letters of path data commands -/
def IsCommandLetter (c : Char) : Prop := c ∈ "MmZzLlHhVvCcSsQqTtAa".toList

/-- the text was read to its end without an exception -/
def Consumed (r : Res K) : Prop := r.2 = none ∧ r.1.lx.rest = []

theorem numChar_iff {c : Char} (h : NumChar c) : c ∈ "0123456789+-.eE".toList := by
  unfold NumChar IsDigit at h
  rcases h with h | h | h | h | h | h
  iterate 5
    subst h; decide
  obtain ⟨h1, h2⟩ := h
  have h1 : ('0' : Char).toNat ≤ c.toNat := h1
  have h2 : c.toNat ≤ ('9' : Char).toNat := h2
  have e1 : ('0' : Char).toNat = 48 := by decide
  have e2 : ('9' : Char).toNat = 57 := by decide
  rw [e1] at h1
  rw [e2] at h2
  have : c = Char.ofNat c.toNat := (Char.ofNat_toNat c).symm
  rw [this]
  generalize c.toNat = n at h1 h2 ⊢
  interval_cases n <;> decide

theorem fresh_of_letter {w r : List Char} {c : Char} (hw : AllSep w) (hc : ¬ IsSep c) (hn : ¬ NumChar c) :
    Fresh (w ++ c :: r) := by
  constructor
  · intro d q h
    cases w with
    | nil => simp at h; rw [← h.1]; exact hn
    | cons e w =>
      simp at h
      rw [← h.1]
      exact fun hh => sep_not_num (hw e (by simp)) hh
  · rw [skip_sep hw, skip_cons hc]
    apply matchFloat_cons_none
    unfold NumChar at hn
    tauto

theorem letter_plain {c : Char} (h : IsCommandLetter c) : ¬ IsSep c ∧ ¬ NumChar c ∧ isCmd c = true := by
  refine ⟨?_, fun hn => ?_, by unfold isCmd; simpa [IsCommandLetter] using h⟩
  · have : ∀ c ∈ "MmZzLlHhVvCcSsQqTtAa".toList, ¬ IsSep c := by unfold IsSep; decide
    exact this c h
  · have : ∀ c ∈ "MmZzLlHhVvCcSsQqTtAa".toList, c ∉ "0123456789+-.eE".toList := by decide
    exact this c h (numChar_iff hn)

/-- **C43**: when `s1` is read to its end without an exception and `s2` starts with a command (possibly after
separators), parsing `s1 + s2` gives the path, and the outcome, of adding `s2` to the path that `s1` gives. -/
theorem C43_incremental (p : List (Seg K)) {s1 w r : List Char} {c : Char} (h : Consumed (parse rd mk p s1))
    (hw : AllSep w) (hc : IsCommandLetter c) :
    (parse rd mk p (s1 ++ (w ++ c :: r))).1.path = (parse rd mk (parse rd mk p s1).1.path (w ++ c :: r)).1.path ∧
      (parse rd mk p (s1 ++ (w ++ c :: r))).2 = (parse rd mk (parse rd mk p s1).1.path (w ++ c :: r)).2 := by
  obtain ⟨h1, h2, -⟩ := letter_plain hc
  have := mainLoop_ext (rd := rd) (mk := mk) (fresh_of_letter (r := r) hw h1 h2) _
    (fuelOf (⟨p, ⟨s1 ++ (w ++ c :: r), none⟩⟩ : St K)) ⟨p, ⟨s1, none⟩⟩ ⟨s1 ++ (w ++ c :: r), none⟩
    ⟨Or.inl rfl, Or.inl rfl⟩ (by simp [fuelOf]) (by simp [fuelOf]) h.1 h.2
  exact ⟨this.1, this.2.1⟩

example : Consumed (parse floatVal dummyArc [] "M1,1 2,2".toList) := by unfold Consumed; decide +kernel
example : IsCommandLetter 'l' := by unfold IsCommandLetter; decide

/-! ### C44 -/

/-- **C44** (unknown characters): text read to its end, then a character that is no command letter, no
separator and not part of a number, then anything: parsing ends there without an exception and the path is the
one of the text before. -/
theorem C44_unknown_stops (p : List (Seg K)) {s1 w r : List Char} {u : Char} (h : Consumed (parse rd mk p s1))
    (hw : AllSep w) (hu : ¬ IsCommandLetter u) (hs : ¬ IsSep u) (hn : ¬ NumChar u) :
    (parse rd mk p (s1 ++ (w ++ u :: r))).1.path = (parse rd mk p s1).1.path ∧
      (parse rd mk p (s1 ++ (w ++ u :: r))).2 = none := by
  have := mainLoop_ext (rd := rd) (mk := mk) (fresh_of_letter (r := r) hw hs hn) _
    (fuelOf (⟨p, ⟨s1 ++ (w ++ u :: r), none⟩⟩ : St K)) ⟨p, ⟨s1, none⟩⟩ ⟨s1 ++ (w ++ u :: r), none⟩
    ⟨Or.inl rfl, Or.inl rfl⟩ (by simp [fuelOf]) (by simp [fuelOf]) h.1 h.2
  have hcmd : isCmd u = false := by
    unfold IsCommandLetter at hu
    unfold isCmd
    simpa using hu
  have e : ∀ q : List (Seg K), (parse rd mk q (w ++ u :: r)).1.path = q ∧ (parse rd mk q (w ++ u :: r)).2 = none := by
    intro q
    unfold parse fuelOf
    simp only [mainLoop]
    have : command ⟨w ++ u :: r, none⟩ = (none, ⟨u :: r, none⟩) := by
      unfold command
      simp only [skip_sep hw, skip_cons hs, hcmd]
      simp
    rw [this]
    exact ⟨rfl, rfl⟩
  exact ⟨this.1.trans (e _).1, this.2.1.trans (e _).2⟩

/-- what one argument of a command is written as -/
inductive Slot | num | flag
  deriving DecidableEq

/-- the arguments of one segment of each command (h, H, v, V and z are not listed) -/
def slots (c : Char) : List Slot :=
  if c ∈ "MmLlTt".toList then List.replicate 2 .num
  else if c ∈ "QqSs".toList then List.replicate 4 .num
  else if c ∈ "Cc".toList then List.replicate 6 .num
  else if c ∈ "Aa".toList then [.num, .num, .num, .flag, .flag, .num, .num]
  else []

/-- the slot an argument fills -/
def slotOf : ArgVal K → Slot
  | .num _ => .num
  | .flag _ => .flag

/-- the text ends, or goes on with a command other than closepath -/
def EndsOrCommand (r : List Char) : Prop :=
  AllSep r ∨ ∃ w d q, r = w ++ d :: q ∧ AllSep w ∧ IsCommandLetter d ∧ d ≠ 'z' ∧ d ≠ 'Z'

/-- nothing more to read for an argument, and no closepath to complete it -/
def Blocked (l : Lx) : Prop :=
  l.inl = none ∧ matchFloat (skip l.rest) = none ∧ ∀ c q, skip l.rest = c :: q → isZ c = false ∧ c ≠ '0' ∧ c ≠ '1'

omit [Field K] [LinearOrder K] in
theorem number_blocked {l : Lx} (h : Blocked l) : ∃ l1, number rd l = (none, l1) ∧ Blocked l1 := by
  obtain ⟨h1, h2, h3⟩ := h
  unfold number
  simp only [h2]
  cases hs : skip l.rest with
  | nil => exact ⟨_, rfl, h1, by simp [skip, matchFloat_nil], by simp [skip]⟩
  | cons c q =>
    obtain ⟨hz, h0⟩ := h3 c q hs
    have e : skip (c :: q) = c :: q := by rw [← hs, skip_idem]
    rw [hs] at h2
    refine ⟨⟨c :: q, l.inl⟩, by simp [hz], h1, by rw [e]; exact h2, ?_⟩
    intro d q' hd
    rw [e] at hd
    simp at hd
    rw [← hd.1]; exact ⟨hz, h0⟩

theorem flag_blocked {l : Lx} (h : Blocked l) : ∃ l1, flag l = (none, l1) ∧ Blocked l1 := by
  obtain ⟨h1, h2, h3⟩ := h
  unfold flag
  cases hs : skip l.rest with
  | nil => exact ⟨_, rfl, h1, by simp [skip, matchFloat_nil], by simp [skip]⟩
  | cons c q =>
    obtain ⟨hz, h0, h1'⟩ := h3 c q hs
    have e : skip (c :: q) = c :: q := by rw [← hs, skip_idem]
    rw [hs] at h2
    refine ⟨⟨c :: q, l.inl⟩, by simp [h0, h1'], h1, by rw [e]; exact h2, ?_⟩
    intro d q' hd
    rw [e] at hd
    simp at hd
    rw [← hd.1]; exact ⟨hz, h0, h1'⟩

omit [LinearOrder K] in
theorem readArg_blocked {cur : Option (Pt K)} {k : ArgKind} {l : Lx} (h : Blocked l) :
    ∃ a l1, readArg rd cur k l = (.ok a, l1) ∧ a.missing ∧ Blocked l1 := by
  obtain ⟨l1, h1, h2⟩ := number_blocked (rd := rd) h
  obtain ⟨l2, h3, h4⟩ := flag_blocked h
  cases k with
  | num => exact ⟨.num none, l1, by simp [readArg, h1], rfl, h2⟩
  | flag => exact ⟨.flag none, l2, by simp [readArg, h3], rfl, h4⟩
  | coord => exact ⟨.coord none, l1, by simp [readArg, coord, h1, Except.map], rfl, h2⟩
  | rcoord => exact ⟨.coord none, l1, by simp [readArg, rcoord, coord, h1, Except.map], rfl, h2⟩

omit [LinearOrder K] in
theorem readArgs_blocked {cur : Option (Pt K)} : ∀ (ks : List ArgKind) {l : Lx}, Blocked l → ks ≠ [] →
    ∃ as l1, readArgs rd cur ks l = (.ok as, l1) ∧ LastMissing as ∧ l1.inl = none := by
  intro ks
  induction ks with
  | nil => intro l _ h; exact absurd rfl h
  | cons k ks ih =>
    intro l h _
    obtain ⟨a, l1, ha, hm, hb⟩ := readArg_blocked (rd := rd) (cur := cur) (k := k) h
    unfold readArgs
    rw [ha]
    simp only
    cases ks with
    | nil => exact ⟨[a], l1, rfl, ⟨a, rfl, hm⟩, hb.1⟩
    | cons k2 ks =>
      obtain ⟨as, l2, h1, h2, h3⟩ := ih hb (by simp)
      rw [h1]
      exact ⟨a :: as, l2, rfl, LastMissing.cons h2, h3⟩

/-- the slots of what the model reads -/
def flat : List ArgKind → List Slot
  | [] => []
  | .num :: ks => .num :: flat ks
  | .flag :: ks => .flag :: flat ks
  | .coord :: ks | .rcoord :: ks => .num :: .num :: flat ks

omit [LinearOrder K] in
theorem readArgs_short {cur : Option (Pt K)} {r : List Char} (hr : Blocked ⟨r, none⟩) : ∀ (ks : List ArgKind)
    (as : List (ArgVal K)) (s : List Char), as.map slotOf <+: flat ks → as.length < (flat ks).length →
    ArgText rd as r s →
    (∃ l, readArgs rd cur ks ⟨s, none⟩ = (.error .valueError, l)) ∨
      ∃ args l, readArgs rd cur ks ⟨s, none⟩ = (.ok args, l) ∧ LastMissing args ∧ l.inl = none := by
  intro ks
  induction ks with
  | nil => intro as s _ h; simp [flat] at h
  | cons k ks ih =>
    intro as s hp hl ht
    have next : ∀ (as' : List (ArgVal K)) (u : List Char) (a : Arg K), as'.map slotOf <+: flat ks →
        as'.length < (flat ks).length → ArgText rd as' r u → readArg rd cur k ⟨s, none⟩ = (.ok a, ⟨u, none⟩) →
        (∃ l, readArgs rd cur (k :: ks) ⟨s, none⟩ = (.error .valueError, l)) ∨
          ∃ args l, readArgs rd cur (k :: ks) ⟨s, none⟩ = (.ok args, l) ∧ LastMissing args ∧ l.inl = none := by
      intro as' u a h1 h2 h3 h4
      unfold readArgs
      rw [h4]
      simp only
      rcases ih as' u h1 h2 h3 with ⟨l, h⟩ | ⟨args, l, h, hm, hi⟩
      · rw [h]; exact Or.inl ⟨l, rfl⟩
      · rw [h]; exact Or.inr ⟨a :: args, l, rfl, LastMissing.cons hm, hi⟩
    cases as with
    | nil =>
      cases ht
      obtain ⟨as, l, h1, h2, h3⟩ := readArgs_blocked (rd := rd) (cur := cur) (k :: ks) hr (by simp)
      exact Or.inr ⟨as, l, h1, h2, h3⟩
    | cons v as =>
      have hcoord : ∀ (_ : flat (k :: ks) = .num :: .num :: flat ks),
          (∃ l, coord rd ⟨s, none⟩ = (.error .valueError, l)) ∨
          ∃ p u as', coord rd ⟨s, none⟩ = (.ok (some p), ⟨u, none⟩) ∧ ArgText rd as' r u ∧
            as'.map slotOf <+: flat ks ∧ as'.length < (flat ks).length := by
        intro hk
        rw [hk] at hp hl
        rw [List.map_cons, List.cons_prefix_cons] at hp
        cases v with
        | flag b => exact absurd hp.1 (by simp [slotOf])
        | num x =>
        obtain ⟨u, h1, h2⟩ := ArgText.number (inl := none) ht
        cases as with
        | nil =>
          cases h2
          obtain ⟨l1, h3, -⟩ := number_blocked (rd := rd) hr
          left
          exact ⟨l1, by unfold coord; simp only [h1, h3]⟩
        | cons v2 as =>
          have hp2 := hp.2
          rw [List.map_cons, List.cons_prefix_cons] at hp2
          cases v2 with
          | flag b => exact absurd hp2.1 (by simp [slotOf])
          | num y =>
            obtain ⟨u2, h3, h4⟩ := ArgText.number (inl := none) h2
            right
            refine ⟨⟨x, y⟩, u2, as, by unfold coord; simp only [h1, h3], h4, hp2.2, ?_⟩
            simp at hl
            omega
      cases k with
      | num =>
        simp only [flat] at hp hl
        rw [List.map_cons, List.cons_prefix_cons] at hp
        cases v with
        | flag b => exact absurd hp.1 (by simp [slotOf])
        | num x =>
          obtain ⟨u, h1, h2⟩ := ArgText.number (inl := none) ht
          exact next as u (.num (some x)) hp.2 (by simpa using hl) h2 (by simp [readArg, h1])
      | flag =>
        simp only [flat] at hp hl
        rw [List.map_cons, List.cons_prefix_cons] at hp
        cases v with
        | num b => exact absurd hp.1 (by simp [slotOf])
        | flag b =>
          obtain ⟨u, h1, h2⟩ := ArgText.flag (inl := none) ht
          exact next as u (.flag (some b)) hp.2 (by simpa using hl) h2 (by simp [readArg, h1])
      | coord =>
        rcases hcoord rfl with ⟨l, h⟩ | ⟨p, u, as', h1, h2, h3, h4⟩
        · left
          refine ⟨l, ?_⟩
          unfold readArgs
          simp [readArg, h, Except.map]
        · exact next as' u (.coord (some p)) h3 h4 h2 (by simp [readArg, h1, Except.map])
      | rcoord =>
        rcases hcoord rfl with ⟨l, h⟩ | ⟨p, u, as', h1, h2, h3, h4⟩
        · left
          refine ⟨l, ?_⟩
          unfold readArgs
          simp [readArg, rcoord, h, Except.map]
        · cases cur with
          | none => exact next as' u (.coord (some p)) h3 h4 h2 (by simp [readArg, rcoord, h1, Except.map])
          | some q => exact next as' u (.coord (some ⟨p.x + q.x, p.y + q.y⟩)) h3 h4 h2 (by simp [readArg, rcoord, h1, Except.map])

theorem blocked_of {r : List Char} (h : EndsOrCommand r) : Blocked ⟨r, none⟩ := by
  refine ⟨rfl, ?_⟩
  rcases h with h | ⟨w, d, q, rfl, hw, hd, h1, h2⟩
  · simp only [skip_allSep h]
    exact ⟨matchFloat_nil, by simp⟩
  · obtain ⟨g1, g2, g3⟩ := letter_plain hd
    simp only [skip_sep hw, skip_cons g1]
    constructor
    · apply matchFloat_cons_none
      unfold NumChar at g2
      tauto
    · intro c q' h
      simp at h
      rw [← h.1]
      refine ⟨by unfold isZ; simp [h1, h2], ?_⟩
      constructor
      · rintro rfl; exact g2 (by unfold NumChar IsDigit; decide)
      · rintro rfl; exact g2 (by unfold NumChar IsDigit; decide)

omit [LinearOrder K] in
theorem readArgs_shape {cur : Option (Pt K)} : ∀ (ks : List ArgKind) {l l' : Lx} {args : List (Arg K)},
    readArgs rd cur ks l = (.ok args, l') → List.Forall₂ (fun (a : Arg K) k => match k, a with
      | ArgKind.num, .num _ => True
      | .flag, .flag _ => True
      | .coord, .coord _ => True
      | .rcoord, .coord _ => True
      | _, _ => False) args ks := by
  intro ks
  induction ks with
  | nil => intro l l' args h; simp [readArgs] at h; rw [h.1]; exact .nil
  | cons k ks ih =>
    intro l l' args h
    unfold readArgs at h
    split at h
    · simp at h
    · rename_i a l1 ha
      split at h
      · simp at h
      · rename_i as l2 has
        simp only [Prod.mk.injEq, Except.ok.injEq] at h
        obtain ⟨rfl, rfl⟩ := h
        refine .cons ?_ (ih has)
        cases k with
        | num => simp [readArg] at ha; rw [← ha.1]; trivial
        | flag => simp [readArg] at ha; rw [← ha.1]; trivial
        | coord =>
          simp only [readArg, Prod.mk.injEq] at ha
          cases hc : (coord rd l).1 with
          | error e => rw [hc] at ha; simp [Except.map] at ha
          | ok v => rw [hc] at ha; simp [Except.map] at ha; rw [← ha.1]; trivial
        | rcoord =>
          simp only [readArg, Prod.mk.injEq] at ha
          cases hc : (rcoord rd cur l).1 with
          | error e => rw [hc] at ha; simp [Except.map] at ha
          | ok v => rw [hc] at ha; simp [Except.map] at ha; rw [← ha.1]; trivial

/-- the letters that `slots` lists, and what the model reads for them -/
theorem slots_cases {c : Char} (h : slots c ≠ []) : c ∈ "MmLlTtQqSsCcAa".toList ∧ flat (argSpec c) = slots c := by
  have hc : c ∈ "MmLlTtQqSsCcAa".toList := by
    by_contra hn
    apply h
    unfold slots
    have : c ∉ "MmLlTt".toList ∧ c ∉ "QqSs".toList ∧ c ∉ "Cc".toList ∧ c ∉ "Aa".toList := by
      refine ⟨fun g => hn ?_, fun g => hn ?_, fun g => hn ?_, fun g => hn ?_⟩ <;> revert g <;> simp <;> tauto
    rw [if_neg this.1, if_neg this.2.1, if_neg this.2.2.1, if_neg this.2.2.2]
  refine ⟨hc, ?_⟩
  have : ∀ c ∈ "MmLlTtQqSsCcAa".toList, flat (argSpec c) = slots c := by decide
  exact this c hc

theorem finish_valueError {c : Char} {p : List (Seg K)} {args : List (Arg K)} {cur : Option (Pt K)} {l l' : Lx}
    (hc : c ∈ "LlTtQqSsCcAa".toList) (hr : readArgs rd cur (argSpec c) l = (.ok args, l')) (hm : LastMissing args) :
    finish mk c none p args = .error .valueError := by
  have hsh := readArgs_shape _ hr
  obtain ⟨b, hb, hbm⟩ := hm
  simp at hc
  have one : ∀ q : Option (Pt K), ¬ (c = 'm' ∨ c = 'M') → args = [.coord q] →
      finish mk c none p args = .error .valueError := by
    intro q h1 h
    subst h
    simp at hb
    subst hb
    simp only [Arg.missing] at hbm
    subst hbm
    simp only [finish]
    rw [if_neg h1]
    rfl
  have two : ∀ q1 q : Option (Pt K), args = [.coord q1, .coord q] →
      finish mk c none p args = .error .valueError := by
    intro q1 q h
    subst h
    simp at hb
    subst hb
    simp only [Arg.missing] at hbm
    subst hbm
    simp only [finish]
    cases hq : orClose none q1 with
    | error e => rw [orClose_error hq]; rfl
    | ok t => rfl
  have three : ∀ q1 q2 q : Option (Pt K), args = [.coord q1, .coord q2, .coord q] →
      finish mk c none p args = .error .valueError := by
    intro q1 q2 q h
    subst h
    simp at hb
    subst hb
    simp only [Arg.missing] at hbm
    subst hbm
    simp only [finish]
    cases hq : orClose none q1 with
    | error e => rw [orClose_error hq]; rfl
    | ok t =>
      cases hq2 : orClose none q2 with
      | error e => rw [orClose_error hq2]; rfl
      | ok t => rfl
  have six : ∀ x y z f g (q : Option (Pt K)), args = [.num x, .num y, .num z, .flag f, .flag g, .coord q] →
      finish mk c none p args = .error .valueError := by
    intro x y z f g q h
    subst h
    simp at hb
    subst hb
    simp only [Arg.missing] at hbm
    subst hbm
    simp only [finish]
    split_ifs
    · rfl
    · rfl
  have spec : (argSpec c = [.coord] ∨ argSpec c = [.rcoord]) ∧ ¬ (c = 'm' ∨ c = 'M') ∨
      argSpec c = [.coord, .coord] ∨ argSpec c = [.rcoord, .rcoord] ∨
      argSpec c = [.coord, .coord, .coord] ∨ argSpec c = [.rcoord, .rcoord, .rcoord] ∨
      argSpec c = [.num, .num, .num, .flag, .flag, .rcoord] ∨ argSpec c = [.num, .num, .num, .flag, .flag, .coord] := by
    rcases hc with rfl | rfl | rfl | rfl | rfl | rfl | rfl | rfl | rfl | rfl | rfl | rfl <;> decide
  rcases spec with ⟨h | h, hm⟩ | h | h | h | h | h | h <;> rw [h] at hsh
  all_goals
    rcases args with _ | ⟨a1, _ | ⟨a2, _ | ⟨a3, _ | ⟨a4, _ | ⟨a5, _ | ⟨a6, _ | ⟨a7, as⟩⟩⟩⟩⟩⟩⟩ <;>
    simp only [List.forall₂_cons, List.forall₂_nil_right_iff, List.forall₂_nil_left_iff, reduceCtorEq, and_false, and_true] at hsh
  · cases a1 <;> simp at hsh
    exact one _ hm rfl
  · cases a1 <;> simp at hsh
    exact one _ hm rfl
  · cases a1 <;> cases a2 <;> simp at hsh
    exact two _ _ rfl
  · cases a1 <;> cases a2 <;> simp at hsh
    exact two _ _ rfl
  · cases a1 <;> cases a2 <;> cases a3 <;> simp at hsh
    exact three _ _ _ rfl
  · cases a1 <;> cases a2 <;> cases a3 <;> simp at hsh
    exact three _ _ _ rfl
  · obtain ⟨h1, h2, h3, h4, h5, h6⟩ := hsh
    cases a1 <;> simp at h1
    cases a2 <;> simp at h2
    cases a3 <;> simp at h3
    cases a4 <;> simp at h4
    cases a5 <;> simp at h5
    cases a6 <;> simp at h6
    exact six _ _ _ _ _ _ rfl
  · obtain ⟨h1, h2, h3, h4, h5, h6⟩ := hsh
    cases a1 <;> simp at h1
    cases a2 <;> simp at h2
    cases a3 <;> simp at h3
    cases a4 <;> simp at h4
    cases a5 <;> simp at h5
    cases a6 <;> simp at h6
    exact six _ _ _ _ _ _ rfl

theorem body_short (p : List (Seg K)) {c : Char} {s r : List Char} {as : List (ArgVal K)}
    (hc : c ∈ "MmLlTtQqSsCcAa".toList) (hm : ¬ (c = 'm' ∨ c = 'M'))
    (has : as.map slotOf <+: flat (argSpec c)) (hlen : as.length < (flat (argSpec c)).length)
    (ht : ArgText rd as r s) (hbl : Blocked ⟨r, none⟩) :
    (body rd mk c ⟨p, ⟨s, none⟩⟩).2 = some .valueError ∧ (body rd mk c ⟨p, ⟨s, none⟩⟩).1.path = p := by
  rcases readArgs_short (cur := Path.currentPoint p) hbl (argSpec c) as s has hlen ht with ⟨l, h⟩ | ⟨args, l, h, hmi, hi⟩
  · unfold body
    simp only [h]
    exact ⟨trivial, trivial⟩
  · have hc' : c ∈ "LlTtQqSsCcAa".toList := by
      have : ∀ c ∈ "MmLlTtQqSsCcAa".toList, ¬ (c = 'm' ∨ c = 'M') → c ∈ "LlTtQqSsCcAa".toList := by decide
      exact this c hc hm
    have := finish_valueError (mk := mk) (p := p) hc' h hmi
    unfold body
    simp only [h, hi, this]
    exact ⟨trivial, trivial⟩

/-- **C44** (missing coordinates): a command letter among M L T Q S C A (either case) followed by fewer arguments
than one segment needs - for A at least one - and then by the end of the text or by another command that is not
a closepath: ValueError, and the path is as it was. Partial: see `C44_missing_ignored` for A and V without any
number, H, h and v without a number raise other exceptions or go on with an incomplete point, and
`C44_failed_add_not_atomic` for what a failed addition leaves behind. -/
theorem C44_missing_partial (p : List (Seg K)) {c : Char} {w s r : List Char} {as : List (ArgVal K)}
    (hw : AllSep w) (has : as.map slotOf <+: slots c) (hlen : as.length < (slots c).length)
    (ht : ArgText rd as r s) (hr : EndsOrCommand r) (hA : c ∈ ['A', 'a'] → as ≠ []) :
    (parse rd mk p (w ++ c :: s)).2 = some .valueError ∧ (parse rd mk p (w ++ c :: s)).1.path = p := by
  have hne : slots c ≠ [] := by intro h; rw [h] at hlen; simp at hlen
  obtain ⟨hc, hflat⟩ := slots_cases hne
  rw [← hflat] at has hlen
  have hcl : IsCommandLetter c := by
    have : ∀ c ∈ "MmLlTtQqSsCcAa".toList, c ∈ "MmZzLlHhVvCcSsQqTtAa".toList := by decide
    exact this c hc
  obtain ⟨g1, g2, g3⟩ := letter_plain hcl
  have hbl := blocked_of hr
  have hcmd : command ⟨w ++ c :: s, none⟩ = (some c, ⟨s, none⟩) := command_letter hw g1 g3
  have hexec : (exec rd mk c ⟨p, ⟨s, none⟩⟩).2 = some .valueError ∧ (exec rd mk c ⟨p, ⟨s, none⟩⟩).1.path = p := by
    have hnz : ¬ isZ c = true := by
      have : ∀ c ∈ "MmLlTtQqSsCcAa".toList, ¬ isZ c = true := by decide
      exact this c hc
    unfold exec
    rw [if_neg hnz]
    by_cases hm : c = 'm' ∨ c = 'M'
    · rw [if_pos hm]
      simp only
      cases as with
      | nil =>
        cases ht
        have : (more ⟨s, none⟩).1 = false := by rw [more_fst]; simp [hbl.2.1]
        rw [if_neg (by rw [this]; simp)]
        exact ⟨rfl, rfl⟩
      | cons v as =>
        cases v with
        | flag b =>
          exfalso
          rcases hm with rfl | rfl <;> simp [argSpec, flat, slotOf, List.cons_prefix_cons] at has
        | num x =>
          obtain rfl : as = [] := by
            cases as with
            | nil => rfl
            | cons v as => rcases hm with rfl | rfl <;> simp [argSpec, flat] at hlen <;> omega
          rw [ArgText.more ht]
          simp only [if_true]
          obtain ⟨u, h1, h2⟩ := ArgText.number (inl := none) (ArgText.skip ht)
          cases h2
          obtain ⟨l1, h3, -⟩ := number_blocked (rd := rd) hbl
          have hco : coord rd ⟨skip s, none⟩ = (.error .valueError, l1) := by
            unfold coord; simp only [h1, h3]
          have hb : body rd mk c ⟨p, ⟨skip s, none⟩⟩ = (⟨p, l1⟩, some .valueError) := by
            unfold body
            rcases hm with rfl | rfl
            · simp [argSpec, readArgs, readArg, rcoord, hco, Except.map]
            · simp [argSpec, readArgs, readArg, hco, Except.map]
          rw [hb]
          exact ⟨rfl, rfl⟩
    rw [if_neg hm]
    have hbody : ∀ s, ArgText rd as r s →
        (body rd mk c ⟨p, ⟨s, none⟩⟩).2 = some .valueError ∧ (body rd mk c ⟨p, ⟨s, none⟩⟩).1.path = p := fun s ht =>
      body_short p hc hm has hlen ht hbl
    have then_ok : ∀ {res : Res K} {f : St K → Res K}, res.2 = some .valueError ∧ res.1.path = p →
        (Res.andThen res f).2 = some .valueError ∧ (Res.andThen res f).1.path = p := by
      intro res f h
      unfold Res.andThen
      rw [h.1]
      exact h
    by_cases hV : c = 'V' ∨ c = 'a' ∨ c = 'A'
    · rw [if_pos hV]
      have hcA : c = 'a' ∨ c = 'A' := by
        rcases hV with rfl | h
        · simp at hc
        · exact h
      have hne' : as ≠ [] := hA (by simp; tauto)
      cases as with
      | nil => exact absurd rfl hne'
      | cons v as =>
        cases v with
        | flag b =>
          exfalso
          rcases hcA with rfl | rfl <;> simp [argSpec, flat, slotOf, List.cons_prefix_cons] at has
        | num x =>
          unfold fuelOf
          rw [whileMore_true (ArgText.more ht)]
          exact then_ok (hbody _ (ArgText.skip ht))
    · rw [if_neg hV]
      exact then_ok (hbody _ ht)
  unfold parse fuelOf
  simp only [mainLoop, hcmd]
  unfold Res.andThen
  rw [hexec.1]
  exact hexec

/-- the hypotheses of `C44_missing_partial` for the text "C1,2 3 L" -/
example : ArgText floatVal [.num 1, .num 2, .num 3] " L".toList "1,2 3 L".toList ∧ EndsOrCommand " L".toList ∧
    [(.num 1 : ArgVal ℚ), .num 2, .num 3].map slotOf <+: slots 'C' := by
  have n1 : IsNumber ['1'] := (matchFloat_sound (s := ['1']) (r := []) (by decide)).2
  have n2 : IsNumber ['2'] := (matchFloat_sound (s := ['2']) (r := []) (by decide)).2
  have n3 : IsNumber ['3'] := (matchFloat_sound (s := ['3']) (r := []) (by decide)).2
  refine ⟨?_, Or.inr ⟨[' '], 'L', [], rfl, by simp [AllSep, IsSep], by unfold IsCommandLetter; decide, by decide, by decide⟩,
    by decide⟩
  rw [show (1 : ℚ) = floatVal ['1'] by decide +kernel, show (2 : ℚ) = floatVal ['2'] by decide +kernel,
    show (3 : ℚ) = floatVal ['3'] by decide +kernel]
  exact ArgText.num [] ['1'] _ _ _ (by simp [AllSep]) n1 (matchFloat_maximal (s := "1,2 3 L".toList) (by decide))
    (ArgText.num [','] ['2'] _ _ _ (by simp [AllSep, IsSep]) n2 (matchFloat_maximal (s := "2 3 L".toList) (by decide))
    (ArgText.num [' '] ['3'] _ _ _ (by simp [AllSep, IsSep]) n3 (matchFloat_maximal (s := "3 L".toList) (by decide))
    (ArgText.nil _)))

/-- "V" without a number and "A" without arguments are ignored, contrary to the property. -/
theorem C44_missing_ignored (p : List (Seg K)) :
    parse rd mk p "V".toList = (⟨p, ⟨[], none⟩⟩, none) ∧ parse rd mk p "A".toList = (⟨p, ⟨[], none⟩⟩, none) := by
  constructor <;> rfl

/-- A failed addition of text leaves the segments read before the error in the path, contrary to the property:
whatever the path, adding "zL" raises ValueError and leaves one more segment. -/
theorem C44_failed_add_not_atomic (p : List (Seg K)) :
    (parse rd mk p "zL".toList).2 = some .valueError ∧ (parse rd mk p "zL".toList).1.path.length = p.length + 1 := by
  constructor
  · rfl
  · have : (parse rd mk p "zL".toList).1.path = Path.closed p true := rfl
    rw [this]
    unfold Path.closed Path.append Path.validateClose Path.validateConnection
    simp only
    split_ifs <;> (repeat' split) <;> simp

end Svgio.Props
