import Verif.Lemmas.PathLex

/-! The lexer consumes its input, so the loops end. -/

namespace Svgio.Lexer
open Spec

variable {K : Type} [Field K] [LinearOrder K]
variable {rd : List Char → K} {mk : Path.ArcCtor K}

theorem more_rest (l : Lx) : (more l).2.rest = skip l.rest := by
  unfold more
  simp only
  split
  · rfl
  · split
    · rename_i h; rw [h]
    · rename_i h; rw [h]; split_ifs <;> rfl

theorem more_le (l : Lx) : (more l).2.rest.length ≤ l.rest.length := by
  rw [more_rest]; exact skip_length _

theorem more_true {l : Lx} (h : (more l).1 = true) : ∃ t r, matchFloat (skip l.rest) = some (t, r) := by
  unfold more at h
  simp only at h
  split at h
  · rename_i tr htr; exact ⟨_, _, htr⟩
  · split at h
    · simp at h
    · split_ifs at h

theorem matchFloat_lt {s t r : List Char} (h : matchFloat s = some (t, r)) : r.length < s.length := by
  obtain ⟨rfl, hn⟩ := matchFloat_sound h
  obtain ⟨c, q, rfl, -⟩ := isNumber_head hn
  simp
  omega

theorem command_some {l l' : Lx} {c : Char} (h : command l = (some c, l')) : l'.rest.length < l.rest.length := by
  unfold command at h
  have hs := skip_length l.rest
  split at h
  · simp at h
  · rename_i d r hr
    split_ifs at h
    · simp only [Prod.mk.injEq, Option.some.injEq] at h
      obtain ⟨-, rfl⟩ := h
      rw [hr] at hs
      simp at hs ⊢
      omega
    · simp at h

omit [Field K] [LinearOrder K] in
theorem number_le (l : Lx) : (number rd l).2.rest.length ≤ l.rest.length ∧
    ((number rd l).1 ≠ none → (number rd l).2.rest.length < l.rest.length) := by
  have hs := skip_length l.rest
  unfold number
  simp only
  split
  · rename_i t r h
    have := matchFloat_lt h
    exact ⟨by simp; omega, fun _ => by simp; omega⟩
  · split
    · simp
    · rename_i d r hr
      rw [hr] at hs
      split_ifs <;> exact ⟨hs, fun h => by simp at h⟩

theorem flag_le (l : Lx) : (flag l).2.rest.length ≤ l.rest.length := by
  have hs := skip_length l.rest
  unfold flag
  split
  · simp
  · rename_i d r hr
    rw [hr] at hs
    simp at hs
    split_ifs <;> simp <;> omega

omit [Field K] [LinearOrder K] in
theorem coord_le (l : Lx) : (coord rd l).2.rest.length ≤ l.rest.length ∧
    ((number rd l).1 ≠ none → (coord rd l).2.rest.length < l.rest.length) := by
  have h1 := number_le (rd := rd) l
  unfold coord
  split
  · rename_i l1 h
    rw [h] at h1
    exact ⟨h1.1, fun hn => by simp [h] at hn⟩
  · rename_i x l1 h
    rw [h] at h1
    have h2 := number_le (rd := rd) l1
    have h3 := h1.2 (by simp)
    simp only at h3
    split
    · rename_i l2 h'
      rw [h'] at h2
      have := h2.1
      simp only at this
      exact ⟨by simp; omega, fun _ => by simp; omega⟩
    · rename_i y l2 h'
      rw [h'] at h2
      have := h2.1
      simp only at this
      exact ⟨by simp; omega, fun _ => by simp; omega⟩

omit [LinearOrder K] in
theorem rcoord_rest (cur : Option (Pt K)) (l : Lx) : (rcoord rd cur l).2 = (coord rd l).2 := by
  unfold rcoord
  split
  · rename_i h; rw [h]
  · rename_i h; rw [h]
  · rename_i h; rw [h]; split <;> rfl

omit [LinearOrder K] in
theorem readArg_le (cur : Option (Pt K)) (k : ArgKind) (l : Lx) :
    (readArg rd cur k l).2.rest.length ≤ l.rest.length ∧
    (k ≠ .flag → (number rd l).1 ≠ none → (readArg rd cur k l).2.rest.length < l.rest.length) := by
  cases k with
  | num => exact ⟨(number_le l).1, fun _ => (number_le l).2⟩
  | flag => exact ⟨flag_le l, fun h => absurd rfl h⟩
  | coord => exact ⟨(coord_le l).1, fun _ => (coord_le l).2⟩
  | rcoord =>
    simp only [readArg, rcoord_rest]
    exact ⟨(coord_le l).1, fun _ => (coord_le l).2⟩

omit [LinearOrder K] in
theorem readArgs_le (cur : Option (Pt K)) (ks : List ArgKind) : ∀ l : Lx,
    (readArgs rd cur ks l).2.rest.length ≤ l.rest.length := by
  induction ks with
  | nil => intro l; simp [readArgs]
  | cons k ks ih =>
    intro l
    have h1 := (readArg_le (rd := rd) cur k l).1
    unfold readArgs
    split
    · rename_i e l1 h; rw [h] at h1; exact h1
    · rename_i a l1 h
      rw [h] at h1
      have h2 := ih l1
      simp only at h1
      split
      · rename_i h'; rw [h'] at h2; simp only at h2 ⊢; omega
      · rename_i h'; rw [h'] at h2; simp only at h2 ⊢; omega

omit [LinearOrder K] in
theorem readArgs_lt (cur : Option (Pt K)) {k : ArgKind} (hk : k ≠ .flag) (ks : List ArgKind) (l : Lx)
    (hn : (number rd l).1 ≠ none) : (readArgs rd cur (k :: ks) l).2.rest.length < l.rest.length := by
  have h1 := (readArg_le (rd := rd) cur k l).2 hk hn
  unfold readArgs
  split
  · rename_i e l1 h; rw [h] at h1; exact h1
  · rename_i a l1 h
    rw [h] at h1
    have h2 := readArgs_le (rd := rd) cur ks l1
    simp only at h1
    split
    · rename_i h'; rw [h'] at h2; simp only at h2 ⊢; omega
    · rename_i h'; rw [h'] at h2; simp only at h2 ⊢; omega

def StartsWithNumber (ks : List ArgKind) : Prop := ks = [] ∨ ∃ k ks', ks = k :: ks' ∧ k ≠ .flag

theorem startsWithNumber_ite {c : Prop} [Decidable c] {a b : List ArgKind} (ha : StartsWithNumber a)
    (hb : StartsWithNumber b) : StartsWithNumber (if c then a else b) := by
  split <;> assumption

theorem argSpec_head (c : Char) : StartsWithNumber (argSpec c) := by
  unfold argSpec
  iterate 18
    apply startsWithNumber_ite (Or.inr ⟨_, _, rfl, by decide⟩)
  exact Or.inl rfl

theorem body_rest (c : Char) (st : St K) :
    (body rd mk c st).1.lx = (readArgs rd (Path.currentPoint st.path) (argSpec c) st.lx).2 := by
  unfold body
  split
  · rename_i h; rw [h]
  · rename_i h; rw [h]; split <;> rfl

theorem body_le (c : Char) (st : St K) : (body rd mk c st).1.lx.rest.length ≤ st.lx.rest.length := by
  rw [body_rest]; exact readArgs_le _ _ _

omit [Field K] [LinearOrder K] in
theorem number_more {l : Lx} (h : (more l).1 = true) : (number rd (more l).2).1 ≠ none := by
  obtain ⟨t, r, ht⟩ := more_true h
  unfold number
  simp only [more_rest, skip_idem, ht]
  simp

/-- after `_more()` was true, a loop body that does not raise consumes input -/
theorem body_lt (c : Char) (p : List (Seg K)) (l : Lx) (h : (more l).1 = true)
    (hok : (body rd mk c ⟨p, (more l).2⟩).2 = none) :
    (body rd mk c ⟨p, (more l).2⟩).1.lx.rest.length < l.rest.length := by
  rcases argSpec_head c with hc | ⟨k, ks, hc, hk⟩
  · exfalso
    revert hok
    unfold body
    rw [hc]
    simp [readArgs, finish]
  · rw [body_rest, hc]
    have := readArgs_lt (rd := rd) (Path.currentPoint p) hk ks (more l).2 (number_more h)
    have h2 := more_le l
    simp only
    omega

theorem whileMore_le (c : Char) : ∀ (n : ℕ) (st : St K),
    (whileMore rd mk c n st).1.lx.rest.length ≤ st.lx.rest.length := by
  intro n
  induction n with
  | zero => intro st; simp [whileMore]
  | succ n ih =>
    intro st
    have h1 := more_le st.lx
    unfold whileMore
    simp only
    split_ifs with hm
    · have h2 := body_le (rd := rd) (mk := mk) c ⟨st.path, (more st.lx).2⟩
      simp only at h2
      unfold Res.andThen
      split
      · omega
      · have := ih (body rd mk c ⟨st.path, (more st.lx).2⟩).1
        omega
    · exact h1

theorem andThen_le {r : Res K} {f : St K → Res K} {n : ℕ} (h : r.1.lx.rest.length ≤ n)
    (hf : ∀ st, (f st).1.lx.rest.length ≤ st.lx.rest.length) : (Res.andThen r f).1.lx.rest.length ≤ n := by
  unfold Res.andThen
  split
  · exact h
  · have := hf r.1; omega

theorem exec_le (c : Char) (st : St K) : (exec rd mk c st).1.lx.rest.length ≤ st.lx.rest.length := by
  have h1 := more_le st.lx
  unfold exec
  by_cases hz : isZ c = true
  · rw [if_pos hz]
    simp only
    split_ifs
    · exact h1
    · exact h1
  rw [if_neg hz]
  by_cases hm : c = 'm' ∨ c = 'M'
  · rw [if_pos hm]
    simp only
    by_cases h3 : (more st.lx).1 = true
    · rw [if_pos h3]
      have := body_le (rd := rd) (mk := mk) c ⟨st.path, (more st.lx).2⟩
      simp only at this
      exact andThen_le (by omega) (fun st => whileMore_le _ _ _)
    · rw [if_neg h3]
      exact h1
  rw [if_neg hm]
  split_ifs
  · exact whileMore_le _ _ _
  · exact andThen_le (body_le _ _) (fun st => whileMore_le _ _ _)

/-! ### no loop runs out of fuel -/

/-- the arc constructor never reports the model's own fuel error -/
def ArcFuel (mk : Path.ArcCtor K) : Prop := ∀ a b c d e f g, mk a b c d e f g ≠ .error .outOfFuel

omit [LinearOrder K] in
theorem readArgs_error {cur : Option (Pt K)} {ks : List ArgKind} : ∀ {l l' : Lx} {e},
    readArgs rd cur ks l = (.error e, l') → e = .valueError := by
  have hco : ∀ {l l' : Lx} {e}, coord rd l = (.error e, l') → e = .valueError := by
    intro l l' e h
    unfold coord at h
    split at h
    · simp at h
    · split at h
      · simp at h; exact h.1.symm
      · simp at h
  have h1 : ∀ {k : ArgKind} {l l' : Lx} {e}, readArg rd cur k l = (.error e, l') → e = .valueError := by
    intro k l l' e h
    cases k with
    | num => simp [readArg] at h
    | flag => simp [readArg] at h
    | coord =>
      simp only [readArg, Prod.mk.injEq] at h
      cases hc : coord rd l with
      | mk r l1 =>
        rw [hc] at h
        cases r with
        | error e' => simp [Except.map] at h; rw [← h.1]; exact hco hc
        | ok v => simp [Except.map] at h
    | rcoord =>
      simp only [readArg, Prod.mk.injEq] at h
      unfold rcoord at h
      cases hc : coord rd l with
      | mk r l1 =>
        rw [hc] at h
        cases r with
        | error e' => simp [Except.map] at h; rw [← h.1]; exact hco hc
        | ok v =>
          cases v with
          | none => simp [Except.map] at h
          | some v => cases cur <;> simp [Except.map] at h
  induction ks with
  | nil => intro l l' e h; simp [readArgs] at h
  | cons k ks ih =>
    intro l l' e h
    unfold readArgs at h
    split at h
    · rename_i e' l1 h'
      simp at h
      rw [← h.1]; exact h1 h'
    · split at h
      · rename_i e' l2 h'
        simp at h
        rw [← h.1]; exact ih h'
      · simp at h

theorem bind_error {α β : Type} {x : Except PyErr α} {f : α → Except PyErr β} {e : PyErr}
    (h : (x >>= f) = .error e) : x = .error e ∨ ∃ a, x = .ok a ∧ f a = .error e := by
  cases x with
  | error e' => cases h; left; rfl
  | ok a => exact Or.inr ⟨a, rfl, h⟩

omit [Field K] [LinearOrder K] in
theorem orClose_error {inl} {p : Option (Pt K)} {e} (h : orClose inl p = .error e) : e = .valueError := by
  unfold orClose at h
  split at h
  · simp at h
  · split at h
    · simp at h
    · simp at h; exact h.symm

omit [LinearOrder K] in
theorem smoothPoint_error {p : List (Seg K)} {e} (h : Path.smoothPoint p = .error e) : e ≠ .outOfFuel := by
  unfold Path.smoothPoint at h
  split at h
  · simp at h
  · split at h
    · split at h <;> simp at h <;> simp [← h]
    · split at h <;> simp at h <;> simp [← h]
    · simp at h

omit [Field K] [LinearOrder K] in
theorem mkCubic_error {a b c d : Option (Pt K)} {rel sm} {e} (h : Path.mkCubic a b c d rel sm = .error e) :
    e ≠ .outOfFuel := by
  unfold Path.mkCubic at h
  split at h <;> simp at h
  simp [← h]

theorem finish_error (hmk : ArcFuel mk) {p : List (Seg K)} {c inl as e} (h : finish mk c inl p as = .error e) :
    e ≠ .outOfFuel := by
  have oc : ∀ {inl} {q : Option (Pt K)}, orClose inl q = .error e → e ≠ .outOfFuel := by
    intro inl q h; rw [orClose_error h]; simp
  unfold finish at h
  split at h
  · rename_i q
    split_ifs at h
    · cases q <;> simp at h
      simp [← h]
    · rcases bind_error h with h | ⟨t, -, h⟩
      · exact oc h
      · simp at h
    · rcases bind_error h with h | ⟨t, -, h⟩
      · exact oc h
      · unfold Path.smoothQuad at h
        split at h
        · rename_i hs; simp at h; rw [← h]; exact smoothPoint_error hs
        · simp at h
  · split_ifs at h
    · unfold Path.horizontal at h
      split at h
      · simp at h; simp [← h]
      · split at h
        · split_ifs at h <;> simp at h <;> simp [← h]
        · simp at h
    · unfold Path.vertical at h
      split at h
      · simp at h; simp [← h]
      · split at h
        · split_ifs at h <;> simp at h; simp [← h]
        · simp at h
  · rcases bind_error h with h | ⟨t, -, h⟩
    · exact oc h
    rcases bind_error h with h | ⟨t, -, h⟩
    · exact oc h
    split_ifs at h
    unfold Path.smoothCubic at h
    split at h
    · rename_i hs; simp at h; rw [← h]; exact smoothPoint_error hs
    · split at h
      · rename_i hs; simp at h; rw [← h]; exact mkCubic_error hs
      · simp at h
  · rcases bind_error h with h | ⟨t, -, h⟩
    · exact oc h
    rcases bind_error h with h | ⟨t, -, h⟩
    · exact oc h
    rcases bind_error h with h | ⟨t, -, h⟩
    · exact oc h
    unfold Path.cubic at h
    split at h
    · rename_i hs; simp at h; rw [← h]; exact mkCubic_error hs
    · simp at h
  · split_ifs at h
    · simp at h; simp [← h]
    · rcases bind_error h with h | ⟨t, -, h⟩
      · exact oc h
      unfold Path.arc at h
      split at h
      · split at h
        · rename_i hs
          simp at h
          rw [← h]
          intro he
          rw [he] at hs
          exact hmk _ _ _ _ _ _ _ hs
        · simp at h
      · simp at h; simp [← h]
  · simp at h; simp [← h]

theorem body_fuel (hmk : ArcFuel mk) (c : Char) (st : St K) : (body rd mk c st).2 ≠ some .outOfFuel := by
  unfold body
  split
  · rename_i h
    rw [readArgs_error h]; simp
  · split
    · rename_i h
      have := finish_error hmk h
      simpa using this
    · simp

theorem whileMore_fuel (hmk : ArcFuel mk) (c : Char) : ∀ (n : ℕ) (st : St K), st.lx.rest.length < n →
    (whileMore rd mk c n st).2 ≠ some .outOfFuel := by
  intro n
  induction n with
  | zero => intro st h; omega
  | succ n ih =>
    intro st h
    unfold whileMore
    simp only
    by_cases hm : (more st.lx).1 = true
    · rw [if_pos hm]
      have hb := body_fuel (rd := rd) hmk c ⟨st.path, (more st.lx).2⟩
      unfold Res.andThen
      split
      · exact hb
      · rename_i hok
        have := body_lt c st.path st.lx hm hok
        exact ih _ (by omega)
    · rw [if_neg hm]; simp

theorem andThen_fuel {r : Res K} {f : St K → Res K} (h : r.2 ≠ some .outOfFuel)
    (hf : (f r.1).2 ≠ some .outOfFuel) : (Res.andThen r f).2 ≠ some .outOfFuel := by
  unfold Res.andThen
  split
  · exact h
  · exact hf

theorem exec_fuel (hmk : ArcFuel mk) (c : Char) (st : St K) : (exec rd mk c st).2 ≠ some .outOfFuel := by
  have wf : ∀ c (st : St K), (whileMore rd mk c (fuelOf st) st).2 ≠ some .outOfFuel :=
    fun c st => whileMore_fuel hmk c _ st (by simp [fuelOf])
  unfold exec
  by_cases hz : isZ c = true
  · rw [if_pos hz]
    simp only
    split_ifs <;> simp
  rw [if_neg hz]
  by_cases hm : c = 'm' ∨ c = 'M'
  · rw [if_pos hm]
    simp only
    by_cases h3 : (more st.lx).1 = true
    · rw [if_pos h3]
      exact andThen_fuel (body_fuel hmk _ _) (wf _ _)
    · rw [if_neg h3]; simp
  rw [if_neg hm]
  split_ifs
  · exact wf _ _
  · exact andThen_fuel (body_fuel hmk _ _) (wf _ _)

theorem mainLoop_fuel (hmk : ArcFuel mk) : ∀ (n : ℕ) (st : St K), st.lx.rest.length < n →
    (mainLoop rd mk n st).2 ≠ some .outOfFuel := by
  intro n
  induction n with
  | zero => intro st h; omega
  | succ n ih =>
    intro st h
    unfold mainLoop
    split
    · simp
    · rename_i c l hc
      have h1 := command_some hc
      have h2 := exec_le (rd := rd) (mk := mk) c ⟨st.path, l⟩
      simp only at h2
      apply andThen_fuel (exec_fuel hmk _ _)
      apply ih
      omega

end Svgio.Lexer
