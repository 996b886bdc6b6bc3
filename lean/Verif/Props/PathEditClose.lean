import Verif.Props.PathEdit

/-!
C49, further cases: editing the move of a subpath whose close is the last segment of the path.
-/

namespace Svgio.Props
open Spec

variable {K : Type} [Field K] [LinearOrder K] [IsStrictOrderedRing K]

/-- the path ends with a close, and from position `i` on there is no other close and no move -/
def ClosesLast (p : List (Seg K)) (i : ℕ) : Prop :=
  i < p.length ∧ ∀ k c, i ≤ k → p[k]? = some c → c.kind ≠ .move ∧ (c.kind = .close ↔ k + 1 = p.length)

/-- the same for a list from its beginning -/
def closesLast (r : List (Seg K)) : Prop :=
  ∃ m c, r = m ++ [c] ∧ c.kind = .close ∧ ∀ s ∈ m, s.kind ≠ .move ∧ s.kind ≠ .close

omit [Field K] [LinearOrder K] [IsStrictOrderedRing K] in
theorem closesLast_list {l r : List (Seg K)} (h : ClosesLast (l ++ r) l.length) : closesLast r := by
  obtain ⟨h1, h2⟩ := h
  have hr : r ≠ [] := by rintro rfl; simp at h1
  have h2 : ∀ (k : ℕ) (c : Seg K), r[k]? = some c → c.kind ≠ .move ∧ (c.kind = .close ↔ k + 1 = r.length) := by
    intro k c hk
    have := h2 (l.length + k) c (by omega) (by rw [List.getElem?_append_right (by omega)]; simpa using hk)
    simp only [List.length_append] at this
    refine ⟨this.1, this.2.trans (by omega)⟩
  rcases List.eq_nil_or_concat r with rfl | ⟨m, c, rfl⟩
  · exact absurd rfl hr
  · rw [List.concat_eq_append] at h2 ⊢
    refine ⟨m, c, rfl, ?_, ?_⟩
    · exact (h2 m.length c (by simp)).2.mpr (by simp)
    · intro s hs
      obtain ⟨k, hk, rfl⟩ := List.getElem_of_mem hs
      have := h2 k m[k] (by rw [List.getElem?_append_left hk]; simp [hk])
      refine ⟨this.1, fun h => ?_⟩
      have := this.2.mp h
      simp at this; omega

omit [IsStrictOrderedRing K] in
theorem closesLast_relink {e : Pt K} {r : List (Seg K)} (h : closesLast r) : closesLast (relink e r) := by
  obtain ⟨m, c, rfl, hc, hm⟩ := h
  cases m with
  | nil =>
    obtain ⟨v, hv, -⟩ := relink_cons e c []
    exact ⟨[], { c with start := some v }, by simpa using hv, hc, by simp⟩
  | cons s m =>
    obtain ⟨v, hv, -⟩ := relink_cons e s (m ++ [c])
    refine ⟨{ s with start := some v } :: m, c, by simpa using hv, hc, ?_⟩
    intro t ht
    rcases List.mem_cons.mp ht with rfl | ht
    · exact hm s (by simp)
    · exact hm t (by simp [ht])

omit [IsStrictOrderedRing K] in
theorem closeNext_closes {R : Pt K → Pt K → Prop} {z z' e : Pt K} {r : List (Seg K)} (h : Chain R Eq z e r)
    (hr : closesLast r) :
    Chain R Eq z' e (Path.closeNext (some z') r) ∧ List.Forall₂ Repairs r (Path.closeNext (some z') r) := by
  obtain ⟨m, c, rfl, hc, hm⟩ := hr
  induction m generalizing e with
  | nil =>
    obtain ⟨v, u, h1, h2, h3, -, -⟩ := h
    have hmf : c.isMove = false := by unfold Seg.isMove; rw [hc]
    simp only [List.nil_append, Path.closeNext, hmf, isClose_iff.mpr hc]
    exact ⟨⟨v, z', h1, rfl, h3, fun _ => rfl, trivial⟩, .cons ⟨rfl, rfl, rfl, fun h => absurd hc h⟩ .nil⟩
  | cons s m ih =>
    obtain ⟨v, u, h1, h2, h3, h4, h5⟩ := h
    have hs := hm s (by simp)
    have hsm : s.isMove = false := by
      cases h : s.isMove with
      | false => rfl
      | true => exact absurd (isMove_iff.mp h) hs.1
    have hsc : s.isClose = false := by
      cases h : s.isClose with
      | false => rfl
      | true => exact absurd (isClose_iff.mp h) hs.2
    rw [hsm] at h5
    obtain ⟨i1, i2⟩ := ih h5 (fun t ht => hm t (by simp [ht]))
    simp only [List.cons_append, Path.closeNext, hsm, hsc]
    have hcc : s.isClose = true → z' = u := by rw [hsc]; intro h; cases h
    refine ⟨⟨v, u, h1, h2, h3, hcc, ?_⟩, .cons ⟨rfl, rfl, rfl, fun _ => rfl⟩ i2⟩
    rw [hsm]; exact i1

omit [IsStrictOrderedRing K] in
theorem repairs_trans {a b c : List (Seg K)} (h1 : List.Forall₂ Repairs a b) (h2 : List.Forall₂ Repairs b c) :
    List.Forall₂ Repairs a c := by
  induction h1 generalizing c with
  | nil => cases h2; exact .nil
  | cons h t ih =>
    cases h2 with
    | cons h' t' =>
      refine .cons ⟨h'.1.trans h.1, h'.2.1.trans h.2.1, h'.2.2.1.trans h.2.2.1, fun hk => ?_⟩ (ih t')
      rw [h'.2.2.2 (by rw [h.1]; exact hk), h.2.2.2 hk]

omit [IsStrictOrderedRing K] in
theorem validateMove_at {l r : List (Seg K)} {s : Seg K} {i : ℕ} (hi : i = l.length) :
    Path.validateMove (l ++ s :: r) (i : ℤ) = l ++ s :: Path.closeNext s.stop r := by
  subst hi
  unfold Path.validateMove
  rw [pyIdx_nat (by simp)]
  have hg : (l ++ s :: r)[l.length]? = some s := by simp
  simp only [hg]
  rw [if_pos (by omega)]
  have h1 : (l ++ s :: r).drop (l.length + 1) = r := by rw [List.drop_append]; simp
  have h2 : (l ++ s :: r).take (l.length + 1) = l ++ [s] := by rw [List.take_append]; simp
  rw [h1, h2]; simp

/-- relinking and redirecting the close after a new move `s` -/
theorem after_move {z w e : Pt K} {r : List (Seg K)} (h : Chain Near Eq z w r) (hr : closesLast r) :
    Chain Near Eq e e (Path.closeNext (some e) (relink e r)) ∧
      List.Forall₂ Repairs r (Path.closeNext (some e) (relink e r)) := by
  have h1 : Chain Near Eq z e (relink e r) := chain_relink h (Or.inl rfl)
  obtain ⟨h2, h3⟩ := closeNext_closes (z' := e) h1 (closesLast_relink hr)
  exact ⟨h2, repairs_trans (relink_repairs e r) h3⟩

/-- **C49** for inserting a move, the other case: the subpath it is inserted in has one close, the last segment of
the path. That close then returns to the new move. -/
theorem C49_insert_move_partial {p : List (Seg K)} (hp : Sound p) {s : Seg K} {i : ℕ} (hi : 1 ≤ i)
    (hs : s.stop ≠ none) (hk : s.kind = .move) (hcl : ClosesLast p i) :
    ∃ p', Path.insert p i s = .ok p' ∧ Sound p' ∧ List.Forall₂ Repairs (p.insertIdx i s) p' := by
  obtain ⟨e, he⟩ := Option.ne_none_iff_exists'.mp hs
  have hlt := hcl.1
  have hpos : Path.insertPos p.length (i : ℤ) = i := by
    unfold Path.insertPos
    rw [if_pos (by omega)]; simp; omega
  obtain ⟨l, a, r, rfl, rfl⟩ := split_at hi (le_of_lt hlt)
  have hr : closesLast r := by
    have e2 : l ++ a :: r = (l ++ [a]) ++ r := by simp
    rw [e2] at hcl
    exact closesLast_list (l := l ++ [a]) (by simpa using hcl)
  obtain ⟨z, w, hw, hcr, hback, hz⟩ := sound_split hp
  have hins : (l ++ a :: r).insertIdx (l.length + 1) s = l ++ a :: s :: r := by
    clear * -
    induction l with
    | nil => rfl
    | cons b l ih => simp [ih]
  obtain ⟨v, hv, hv1⟩ := relink_cons w s r
  have hR : Near w v := by
    rcases hv1 with h | h
    · exact near_iff.mp h
    · rw [h]; exact near_refl _
  have hvc : Path.validateConnection (Path.validateConnection (l ++ a :: s :: r) (((l.length + 1 : ℕ) : ℤ) - 1))
      ((l.length + 1 : ℕ) : ℤ) = (l ++ [a]) ++ { s with start := some v } :: relink e r := by
    rw [vc_at hw (by push_cast; ring), hv]
    have : l ++ a :: { s with start := some v } :: r = (l ++ [a]) ++ { s with start := some v } :: r := by simp
    rw [this]
    exact vc_at (l := l ++ [a]) (x := { s with start := some v }) he (by simp)
  have hmv : s.isMove = true := isMove_iff.mpr hk
  have hcf : s.isClose = false := by unfold Seg.isClose; rw [hk]
  obtain ⟨ha1, ha2⟩ := after_move (e := e) hcr hr
  refine ⟨(l ++ [a]) ++ { s with start := some v } :: Path.closeNext (some e) (relink e r), ?_, ?_, ?_⟩
  · unfold Path.insert
    rw [hpos, hins]
    simp only [hvc, hmv, if_true, hcf]
    rw [if_neg (by rintro ⟨-, h⟩; omega)]
    rw [validateMove_at (l := l ++ [a]) (i := l.length + 1) (by simp)]
    simp [he]
  · rw [List.append_assoc]
    refine hback _ ⟨v, e, rfl, he, hR, fun h => ?_, ?_⟩
    · rw [show ({ s with start := some v } : Seg K).isClose = s.isClose from rfl, hcf] at h; cases h
    · rw [if_pos (show ({ s with start := some v } : Seg K).isMove = true from hmv)]; exact ha1
  · rw [hins, List.append_assoc]
    exact List.rel_append (repairs_refl l) (.cons ⟨rfl, rfl, rfl, fun _ => rfl⟩
      (.cons ⟨rfl, rfl, rfl, fun _ => rfl⟩ ha2))

/-- **C49** for assigning a move, the other case: after that position there is one close, the last segment of the
path. That close then returns to the new move. -/
theorem C49_setitem_move_partial {p : List (Seg K)} (hp : Sound p) {s : Seg K} {i : ℕ}
    (hs : s.stop ≠ none) (hk : s.kind = .move) (hcl : ClosesLast p (i + 1)) :
    ∃ p', Path.setItem p i s = .ok p' ∧ Sound p' ∧ List.Forall₂ Repairs (p.set i s) p' := by
  obtain ⟨e, he⟩ := Option.ne_none_iff_exists'.mp hs
  have hlt : i < p.length := by have := hcl.1; omega
  have hmv : s.isMove = true := isMove_iff.mpr hk
  have hcf : s.isClose = false := by unfold Seg.isClose; rw [hk]
  rcases Nat.eq_zero_or_pos i with rfl | hi1
  · obtain ⟨x', r, rfl⟩ : ∃ x' r, p = x' :: r := List.exists_cons_of_ne_nil (by intro h; subst h; simp at hlt)
    have hr : closesLast r := closesLast_list (l := [x']) hcl
    obtain ⟨u, hu, hcu⟩ := sound_cons.mp hp
    have hv : Path.validateConnection (Path.validateConnection ((x' :: r).set 0 s) (((0 : ℕ) : ℤ) - 1)) ((0 : ℕ) : ℤ) =
        s :: relink e r := by
      rw [vc_neg (i := ((0 : ℕ) : ℤ) - 1) (by simp)]
      exact vc_at (l := []) he rfl
    obtain ⟨ha1, ha2⟩ := after_move (e := e) hcu hr
    refine ⟨s :: Path.closeNext (some e) (relink e r), ?_, sound_cons.mpr ⟨e, he, ha1⟩,
      .cons ⟨rfl, rfl, rfl, fun _ => rfl⟩ ha2⟩
    unfold Path.setItem
    rw [pyIdx_nat hlt]
    simp only [hv, hmv, hcf, if_true]
    have := validateMove_at (l := []) (s := s) (r := relink e r) (i := 0) rfl
    rw [List.nil_append, List.nil_append] at this
    rw [this, he]; rfl
  · obtain ⟨l, a, r0, rfl, rfl⟩ := split_at hi1 (le_of_lt hlt)
    obtain ⟨x', r, rfl⟩ : ∃ x' r, r0 = x' :: r := List.exists_cons_of_ne_nil (by intro h; subst h; simp at hlt)
    have hr : closesLast r := by
      have e2 : l ++ a :: x' :: r = (l ++ [a, x']) ++ r := by simp
      rw [e2] at hcl
      exact closesLast_list (l := l ++ [a, x']) (by simpa using hcl)
    obtain ⟨z, w, hw, hcr, hback, hz⟩ := sound_split hp
    have hset : (l ++ a :: x' :: r).set (l.length + 1) s = l ++ a :: s :: r := by
      rw [List.set_append_right _ _ (by omega)]; simp
    obtain ⟨v, hv, hv1⟩ := relink_cons w s r
    have hR : Near w v := by
      rcases hv1 with h | h
      · exact near_iff.mp h
      · rw [h]; exact near_refl _
    have hvc : Path.validateConnection (Path.validateConnection (l ++ a :: s :: r) (((l.length + 1 : ℕ) : ℤ) - 1))
        ((l.length + 1 : ℕ) : ℤ) = (l ++ [a]) ++ { s with start := some v } :: relink e r := by
      rw [vc_at hw (by push_cast; ring), hv]
      have : l ++ a :: { s with start := some v } :: r = (l ++ [a]) ++ { s with start := some v } :: r := by simp
      rw [this]
      exact vc_at (l := l ++ [a]) (x := { s with start := some v }) he (by simp)
    obtain ⟨v0, u0, -, -, -, -, hcr'⟩ := hcr
    obtain ⟨ha1, ha2⟩ := after_move (e := e) hcr' hr
    refine ⟨(l ++ [a]) ++ { s with start := some v } :: Path.closeNext (some e) (relink e r), ?_, ?_, ?_⟩
    · unfold Path.setItem
      rw [pyIdx_nat hlt]
      simp only [hset, hvc, hmv, if_true, hcf]
      rw [validateMove_at (l := l ++ [a]) (i := l.length + 1) (by simp)]
      simp [he]
    · rw [List.append_assoc]
      refine hback _ ⟨v, e, rfl, he, hR, fun h => ?_, ?_⟩
      · rw [show ({ s with start := some v } : Seg K).isClose = s.isClose from rfl, hcf] at h; cases h
      · rw [if_pos (show ({ s with start := some v } : Seg K).isMove = true from hmv)]; exact ha1
    · rw [hset, List.append_assoc]
      exact List.rel_append (repairs_refl l) (.cons ⟨rfl, rfl, rfl, fun _ => rfl⟩
        (.cons ⟨rfl, rfl, rfl, fun _ => rfl⟩ ha2))

/-- **C49** for deleting a move, the other case: after the move there is something drawn and then one close, the
last segment of the path. That close then returns to the start of the subpath it now belongs to. -/
theorem C49_delitem_move_partial {p : List (Seg K)} (hp : Sound p) {x : Seg K} {i : ℕ} (hi : 1 ≤ i)
    (hx : p[i]? = some x) (hk : x.kind = .move) (hcl : ClosesLast p (i + 1)) (h2 : i + 2 < p.length) :
    ∃ p', Path.delItem p i = .ok p' ∧ Sound p' ∧ List.Forall₂ Repairs (p.eraseIdx i) p' := by
  have hlt : i < p.length := by omega
  have hmv : x.isMove = true := isMove_iff.mpr hk
  obtain ⟨l, a, r0, rfl, rfl⟩ := split_at hi (le_of_lt hlt)
  obtain ⟨x', r, rfl⟩ : ∃ x' r, r0 = x' :: r := List.exists_cons_of_ne_nil (by intro h; subst h; simp at hlt)
  have hxx : x' = x := by
    rw [List.getElem?_append_right (by omega)] at hx
    simpa using hx
  subst hxx
  have hr : closesLast r := by
    have e2 : l ++ a :: x' :: r = (l ++ [a, x']) ++ r := by simp
    rw [e2] at hcl
    exact closesLast_list (l := l ++ [a, x']) (by simpa using hcl)
  obtain ⟨z, w, hw, hcr, hback, hz⟩ := sound_split hp
  have her : (l ++ a :: x' :: r).eraseIdx (l.length + 1) = l ++ a :: r := by
    rw [List.eraseIdx_append_of_length_le (by omega)]; simp
  obtain ⟨v0, u0, -, -, -, -, hcr'⟩ := hcr
  have h1 : Chain Near Eq _ w (relink w r) := chain_relink hcr' (Or.inl rfl)
  obtain ⟨h3, h4⟩ := closeNext_closes (z' := z) h1 (closesLast_relink hr)
  -- the list after relinking, split at the position
  obtain ⟨y, r1, hy, hym⟩ : ∃ y r1, relink w r = y :: r1 ∧ y.isMove = false := by
    obtain ⟨m, c, hm, hc, hmm⟩ := closesLast_relink (e := w) hr
    cases m with
    | nil => exact ⟨c, [], by simpa using hm, by unfold Seg.isMove; rw [hc]⟩
    | cons y m =>
      refine ⟨y, m ++ [c], by simpa using hm, ?_⟩
      cases h : y.isMove with
      | false => rfl
      | true => exact absurd (isMove_iff.mp h) (hmm y (by simp)).1
  have hlen : (relink w r).length = r.length := by
    cases r with
    | nil => rfl
    | cons t r => simp [relink]
  have hends : HasEnds (l ++ [a]) := by
    intro t ht
    exact hp.2.2 t (by simp at ht ⊢; tauto)
  have hct : Path.closeTarget ((l ++ [a]) ++ y :: r1) (l.length + 1) = some z := by
    have e1 : Path.closeTarget ((l ++ [a]) ++ y :: r1) (l.length + 1) = Path.closeTarget ((l ++ [a]) ++ [y]) (l.length + 1) := by
      unfold Path.closeTarget
      have t1 : ((l ++ [a]) ++ y :: r1).take (l.length + 1 + 1) = (l ++ [a]) ++ [y] := by
        rw [List.take_append, List.take_of_length_le (by simp)]; simp
      have t2 : ((l ++ [a]) ++ [y]).take (l.length + 1 + 1) = (l ++ [a]) ++ [y] := by
        rw [List.take_of_length_le]; simp
      have t3 : ((l ++ [a]) ++ y :: r1).head? = ((l ++ [a]) ++ [y]).head? := by cases l <;> rfl
      rw [t1, t2, t3]
    rw [e1]
    have := closeTarget_eq (p := l ++ [a]) (s := y) hym (by simp) hends
    rw [← hz, ← this]; simp
  refine ⟨l ++ a :: Path.closeNext (some z) (relink w r), ?_, hback _ h3, ?_⟩
  · unfold Path.delItem
    rw [pyIdx_nat hlt]
    simp only [hx, her, hmv, Bool.or_true, if_true]
    rw [vc_at hw (by push_cast; ring), hy]
    unfold Path.validateSubpath
    have hl2 : (l ++ a :: y :: r1).length = l.length + 1 + r.length := by
      rw [← hy]; simp [hlen]; omega
    simp only [List.length_append, List.length_cons] at h2
    rw [if_neg (by push Not; constructor <;> omega)]
    rw [Int.toNat_natCast]
    have e3 : l ++ a :: y :: r1 = (l ++ [a]) ++ y :: r1 := by simp
    rw [e3, hct]
    have t1 : ((l ++ [a]) ++ y :: r1).take (l.length + 1) = l ++ [a] := by rw [List.take_append]; simp
    have t2 : ((l ++ [a]) ++ y :: r1).drop (l.length + 1) = y :: r1 := by rw [List.drop_append]; simp
    rw [t1, t2]; simp
  · rw [her]
    exact List.rel_append (repairs_refl l) (.cons ⟨rfl, rfl, rfl, fun _ => rfl⟩
      (repairs_trans (relink_repairs w r) h4))

/-- in `exEdit`, the subpath from position 5 on ends with the last close -/
theorem exEdit_closesLast : ClosesLast exEdit 5 := by
  refine ⟨by decide, ?_⟩
  intro k c hk hc
  have : k < 7 := getElem?_lt hc
  obtain rfl | rfl : k = 5 ∨ k = 6 := by omega
  · simp [exEdit] at hc; subst hc; simp [exEdit]
  · simp [exEdit] at hc; subst hc; simp [exEdit]

example : ∃ p', Path.insert exEdit 5 ⟨.move, none, some ⟨9, 9⟩, false, true⟩ = .ok p' ∧ Sound p' ∧
    List.Forall₂ Repairs (exEdit.insertIdx 5 ⟨.move, none, some ⟨9, 9⟩, false, true⟩) p' :=
  C49_insert_move_partial exEdit_sound (by decide) (by simp) rfl exEdit_closesLast
example : ∃ p', Path.setItem exEdit 4 ⟨.move, none, some ⟨9, 9⟩, false, true⟩ = .ok p' ∧ Sound p' ∧
    List.Forall₂ Repairs (exEdit.set 4 ⟨.move, none, some ⟨9, 9⟩, false, true⟩) p' :=
  C49_setitem_move_partial exEdit_sound (by simp) rfl exEdit_closesLast
example : ∃ p', Path.delItem exEdit 4 = .ok p' ∧ Sound p' ∧ List.Forall₂ Repairs (exEdit.eraseIdx 4) p' :=
  C49_delitem_move_partial exEdit_sound (by decide) rfl rfl exEdit_closesLast (by decide)

end Svgio.Props
