import Verif.Lemmas.Connected
import Verif.Lemmas.PathLex

/-! Parsing preserves connected paths, and consumes its input. -/

namespace Svgio.Lexer
open Spec

variable {K : Type} [Field K] [LinearOrder K] [IsStrictOrderedRing K]
variable {rd : List Char → K} {mk : Path.ArcCtor K} {R S : Pt K → Pt K → Prop} [Std.Refl R] [Std.Refl S]

theorem get_ne {p : List (Seg K)} (h : Good R S p) (t : Path.Target K) : t.get p ≠ none := by
  cases t with
  | pt q => simp [Path.Target.get]
  | z =>
    obtain ⟨q, hq⟩ := zPoint_some h.ne h.ends
    simp [Path.Target.get, hq]

theorem good_move {p : List (Seg K)} (h : Good R S p) (t rel) : Good R S (Path.move p t rel) :=
  h.append rfl (get_ne h t)
theorem good_line {p : List (Seg K)} (h : Good R S p) (t rel) : Good R S (Path.line p t rel) :=
  h.append rfl (get_ne h t)
theorem good_quad {p : List (Seg K)} (h : Good R S p) (c t rel) : Good R S (Path.quad p c t rel) :=
  h.append rfl (get_ne h t)
theorem good_closed {p : List (Seg K)} (h : Good R S p) (rel) : Good R S (Path.closed p rel) := by
  obtain ⟨q, hq⟩ := zPoint_some h.ne h.ends
  exact h.append rfl (by simp [hq])
theorem good_vertical {p p' : List (Seg K)} (h : Good R S p) {y rel} (hp : Path.vertical p y rel = .ok p') : Good R S p' := by
  unfold Path.vertical at hp
  obtain ⟨u, hu⟩ := h.cur
  rw [hu] at hp
  cases y with
  | none =>
    simp only at hp
    split_ifs at hp
    cases hp
    exact h.append hu.symm (by simp)
  | some y =>
    cases hp
    exact h.append hu.symm (by simp)
theorem good_horizontal {p p' : List (Seg K)} (h : Good R S p) {y rel} (hp : Path.horizontal p y rel = .ok p') : Good R S p' := by
  unfold Path.horizontal at hp
  obtain ⟨u, hu⟩ := h.cur
  rw [hu] at hp
  cases y with
  | none =>
    simp only at hp
    split_ifs at hp
  | some y =>
    cases hp
    exact h.append hu.symm (by simp)
theorem good_smoothQuad {p p' : List (Seg K)} (h : Good R S p) {t rel} (hp : Path.smoothQuad p t rel = .ok p') : Good R S p' := by
  unfold Path.smoothQuad at hp
  split at hp
  · simp at hp
  · cases hp
    exact h.append rfl (get_ne h t)
theorem mkCubic_pts {a b c d : Option (Pt K)} {rel sm} {s : Seg K} (h : Path.mkCubic a b c d rel sm = .ok s) :
    s.start = a ∧ s.stop = d := by
  unfold Path.mkCubic at h
  split at h <;> cases h <;> exact ⟨rfl, rfl⟩
theorem good_smoothCubic {p p' : List (Seg K)} (h : Good R S p) {c t rel} (hp : Path.smoothCubic p c t rel = .ok p') :
    Good R S p' := by
  unfold Path.smoothCubic at hp
  split at hp
  · simp at hp
  · split at hp
    · simp at hp
    · rename_i hs
      cases hp
      have := mkCubic_pts hs
      exact h.append this.1 (by rw [this.2]; exact get_ne h t)
theorem good_cubic {p p' : List (Seg K)} (h : Good R S p) {c d t rel} (hp : Path.cubic p c d t rel = .ok p') : Good R S p' := by
  unfold Path.cubic at hp
  split at hp
  · simp at hp
  · rename_i hs
    cases hp
    have := mkCubic_pts hs
    exact h.append this.1 (by rw [this.2]; exact get_ne h t)
theorem good_arc {p p' : List (Seg K)} (h : Good R S p) {a b c d e t rel} (hp : Path.arc mk p a b c d e t rel = .ok p') :
    Good R S p' := by
  unfold Path.arc at hp
  split at hp
  · rename_i u v hu hv
    split at hp
    · simp at hp
    · cases hp
      exact h.append hu.symm (by simp)
  · simp at hp

theorem bind_eq_ok {α β : Type} {x : Except PyErr α} {f : α → Except PyErr β} {b : β}
    (h : (x >>= f) = .ok b) : ∃ a, x = .ok a ∧ f a = .ok b := by
  cases x with
  | error e => cases h
  | ok a => exact ⟨a, rfl, h⟩

theorem good_finish {p p' : List (Seg K)} (h : Good R S p) {c inl as} (hp : finish mk c inl p as = .ok p') : Good R S p' := by
  unfold finish at hp
  split at hp
  · rename_i q
    split_ifs at hp
    · cases q with
      | none => simp at hp
      | some q =>
        simp only [Except.ok.injEq] at hp
        rw [← hp]
        exact good_move h _ _
    · obtain ⟨t, h1, h2⟩ := bind_eq_ok hp
      cases h2; exact good_line h _ _
    · obtain ⟨t, h1, h2⟩ := bind_eq_ok hp
      exact good_smoothQuad h h2
  · split_ifs at hp
    · exact good_horizontal h hp
    · exact good_vertical h hp
  · obtain ⟨t, h1, h2⟩ := bind_eq_ok hp
    obtain ⟨t2, h3, h4⟩ := bind_eq_ok h2
    split_ifs at h4
    · cases h4; exact good_quad h _ _ _
    · exact good_smoothCubic h h4
  · obtain ⟨t, h1, h2⟩ := bind_eq_ok hp
    obtain ⟨t2, h3, h4⟩ := bind_eq_ok h2
    obtain ⟨t3, h5, h6⟩ := bind_eq_ok h4
    exact good_cubic h h6
  · split_ifs at hp
    obtain ⟨t, h1, h2⟩ := bind_eq_ok hp
    exact good_arc h h2
  · simp at hp

theorem good_body (st : St K) (h : Good R S st.path) (c) : Good R S (body rd mk c st).1.path := by
  unfold body
  split
  · exact h
  · split
    · exact h
    · rename_i hp
      exact good_finish h hp

theorem good_andThen {r : Res K} {f : St K → Res K} (h : Good R S r.1.path)
    (hf : ∀ st, Good R S st.path → Good R S (f st).1.path) : Good R S (Res.andThen r f).1.path := by
  unfold Res.andThen
  split
  · exact h
  · exact hf _ h

theorem good_whileMore (c : Char) : ∀ (n : ℕ) (st : St K), Good R S st.path → Good R S (whileMore rd mk c n st).1.path := by
  intro n
  induction n with
  | zero => intro st h; exact h
  | succ n ih =>
    intro st h
    unfold whileMore
    simp only
    split_ifs
    · exact good_andThen (good_body _ (by exact h) c) ih
    · exact h

theorem good_exec (st : St K) (h : Good R S st.path) (c) : Good R S (exec rd mk c st).1.path := by
  unfold exec
  by_cases h1 : isZ c = true
  · rw [if_pos h1]
    simp only
    split_ifs
    · exact h
    · exact good_closed h _
  rw [if_neg h1]
  by_cases h2 : c = 'm' ∨ c = 'M'
  · rw [if_pos h2]
    simp only
    by_cases h3 : (more st.lx).1 = true
    · rw [if_pos h3]
      exact good_andThen (good_body _ (by exact h) c) (fun st h => good_whileMore _ _ _ h)
    · rw [if_neg h3]
      exact h
  rw [if_neg h2]
  split_ifs
  · exact good_whileMore _ _ _ h
  · exact good_andThen (good_body _ (by exact h) c) (fun st h => good_whileMore _ _ _ h)

theorem good_mainLoop : ∀ (n : ℕ) (st : St K), Good R S st.path → Good R S (mainLoop rd mk n st).1.path := by
  intro n
  induction n with
  | zero => intro st h; exact h
  | succ n ih =>
    intro st h
    unfold mainLoop
    split
    · exact h
    · exact good_andThen (good_exec _ (by exact h) _) ih

end Svgio.Lexer
