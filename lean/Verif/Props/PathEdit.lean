import Verif.Lemmas.Relink

/-!
C49: inserting, assigning and deleting segments of a connected path.
-/

namespace Svgio.Props
open Spec

variable {K : Type} [Field K] [LinearOrder K] [IsStrictOrderedRing K]

/-- from position `i` on, no close comes before the next move -/
def OpenFrom (p : List (Seg K)) (i : ℕ) : Prop :=
  ∀ k c, i ≤ k → p[k]? = some c → c.kind = .close → ∃ j m, i ≤ j ∧ j < k ∧ p[j]? = some m ∧ m.kind = .move

/-- a path as the operations of C47 build it -/
def Sound (p : List (Seg K)) : Prop := Joined Near p ∧ ClosesBack Eq p ∧ HasEnds p

omit [Field K] [LinearOrder K] [IsStrictOrderedRing K] in
theorem openFrom_list {l r : List (Seg K)} (h : OpenFrom (l ++ r) l.length) : openList r = true := by
  have h : ∀ (k : ℕ) (c : Seg K), r[k]? = some c → c.kind = .close →
      ∃ (j : ℕ) (m : Seg K), j < k ∧ r[j]? = some m ∧ m.kind = .move := by
    intro k c hk hc
    obtain ⟨j, m, h1, h2, h3, h4⟩ := h (l.length + k) c (by omega)
      (by rw [List.getElem?_append_right (by omega)]; simpa using hk) hc
    rw [List.getElem?_append_right h1] at h3
    exact ⟨j - l.length, m, by omega, h3, h4⟩
  clear * - h
  induction r with
  | nil => rfl
  | cons s r ih =>
    unfold openList
    by_cases hm : s.isMove = true
    · simp [hm]
    · simp only [hm, Bool.false_or, Bool.and_eq_true, Bool.not_eq_true']
      constructor
      · cases hc : s.isClose with
        | false => rfl
        | true =>
          obtain ⟨j, _, hj, _⟩ := h 0 s rfl (isClose_iff.mp hc)
          omega
      · apply ih
        intro k c hk hc
        obtain ⟨j, m, h1, h2, h3⟩ := h (k + 1) c (by simpa using hk) hc
        cases j with
        | zero =>
          simp at h2; subst h2
          exact absurd (isMove_iff.mpr h3) hm
        | succ j => exact ⟨j, m, by omega, by simpa using h2, h3⟩

theorem sound_cons {f : Seg K} {r : List (Seg K)} :
    Sound (f :: r) ↔ ∃ u, f.stop = some u ∧ Chain Near Eq u u r := by
  rw [← connected_iff (R := Near) (S := Eq) (fun _ => rfl)]
  exact ⟨fun h => ⟨⟨h.1, h.2.1⟩, h.2.2⟩, fun h => ⟨h.1.1, h.1.2, h.2⟩⟩

theorem sound_nil : Sound ([] : List (Seg K)) :=
  ⟨(Connected.nil (R := Near) (S := Eq)).1, (Connected.nil (R := Near) (S := Eq)).2, by intro s hs; simp at hs⟩

theorem repairs_refl (t : List (Seg K)) : List.Forall₂ Repairs t t :=
  List.forall₂_same.mpr (fun _ _ => ⟨rfl, rfl, rfl, fun _ => rfl⟩)

/-- splitting a list before a position ≥ 1 -/
theorem split_at {p : List (Seg K)} {i : ℕ} (h1 : 1 ≤ i) (h2 : i ≤ p.length) :
    ∃ l a r, p = l ++ a :: r ∧ i = l.length + 1 := by
  obtain ⟨a, r, h⟩ : ∃ a r, p.drop (i - 1) = a :: r :=
    List.exists_cons_of_ne_nil (by intro h; rw [List.drop_eq_nil_iff] at h; omega)
  refine ⟨p.take (i - 1), a, r, ?_, ?_⟩
  · rw [← h, List.take_append_drop]
  · rw [List.length_take]; omega

/-- the chain before and after a position -/
theorem sound_split {l r : List (Seg K)} {a : Seg K} (h : Sound (l ++ a :: r)) :
    ∃ z e, a.stop = some e ∧ Chain Near Eq z e r ∧
      (∀ r', Chain Near Eq z e r' → Sound (l ++ a :: r')) ∧ Path.zPoint (l ++ [a]) = some z := by
  cases l with
  | nil =>
    obtain ⟨u, hu, hc⟩ := sound_cons.mp h
    refine ⟨u, u, hu, hc, fun r' h' => sound_cons.mpr ⟨u, hu, h'⟩, ?_⟩
    have := after_z (r := []) hu (by intro s hs; simp at hs)
    simpa [after] using this
  | cons f l =>
    rw [List.cons_append] at h
    obtain ⟨u, hu, hc⟩ := sound_cons.mp h
    obtain ⟨h1, v, e, h2, h3, h4, h5, h6⟩ := chain_append.mp hc
    refine ⟨_, e, h3, h6, ?_, ?_⟩
    · intro r' h'
      rw [List.cons_append]
      exact sound_cons.mpr ⟨u, hu, chain_append.mpr ⟨h1, v, e, h2, h3, h4, h5, h'⟩⟩
    · have hch : Chain Near Eq u u (l ++ [a]) := chain_append.mpr ⟨h1, v, e, h2, h3, h4, h5, trivial⟩
      have := after_z hu (chain_ends hch)
      rw [List.cons_append, this, after_append, after_cons h3]
      simp [after]

theorem pyIdx_nat {n i : ℕ} (h : i < n) : Path.pyIdx n (i : ℤ) = some i := by
  unfold Path.pyIdx
  rw [if_pos (by omega), if_pos (by omega)]
  simp

/-- a close just placed at the end -/
theorem validateClose_last {l : List (Seg K)} {s : Seg K} {z : Pt K} (hl : l ≠ []) (he : HasEnds l)
    (hz : Path.zPoint l = some z) (hc : s.kind = .close) :
    Path.validateClose (l ++ [s]) l.length = l ++ [{ s with stop := some z }] := by
  unfold Path.validateClose
  rw [closeTarget_eq (by unfold Seg.isMove; rw [hc]) hl he, hz]
  simp

/-- **C49** for `insert`, partial: a segment with an end is inserted at an index between 0 and the length,
where at index 0 the path (if not empty) starts with a move; a move is only inserted where no close comes
before the next move; a close only at the end of a path. Then the path is again connected and has the
segment at that index, the others being as they were except for their starts. See the `not_connected`
theorems below for the excluded cases. -/
theorem C49_insert_partial {p : List (Seg K)} (hp : Sound p) {s : Seg K} {i : ℕ} (hi : i ≤ p.length)
    (hs : s.stop ≠ none) (h0 : i = 0 → ∀ f, p.head? = some f → f.kind = .move)
    (hm : s.kind = .move → OpenFrom p i) (hc : s.kind = .close → i = p.length) :
    ∃ p', Path.insert p i s = .ok p' ∧ Sound p' ∧ List.Forall₂ Repairs (p.insertIdx i s) p' := by
  obtain ⟨e, he⟩ := Option.ne_none_iff_exists'.mp hs
  have hpos : Path.insertPos p.length (i : ℤ) = i := by
    unfold Path.insertPos
    rw [if_pos (by omega)]; simp [hi]
  rcases Nat.eq_zero_or_pos i with rfl | hi1
  · -- at the beginning
    have hv : Path.validateConnection (Path.validateConnection (p.insertIdx 0 s) ((0 : ℕ) - 1 : ℤ)) ((0 : ℕ) : ℤ) =
        s :: relink e p := by
      rw [vc_neg (i := ((0 : ℕ) : ℤ) - 1) (by simp)]
      exact vc_at (l := []) he rfl
    have hch : Chain Near Eq e e (relink e p) := by
      cases p with
      | nil => trivial
      | cons f r =>
        have hf := h0 rfl f rfl
        obtain ⟨u, hu, hcu⟩ := sound_cons.mp hp
        obtain ⟨v, hv, hv1⟩ := relink_cons e f r
        rw [hv]
        refine ⟨v, u, rfl, hu, ?_, ?_, ?_⟩
        · rcases hv1 with h | h
          · exact near_iff.mp h
          · rw [h]; exact near_refl _
        · intro hcl
          have : f.kind = .close := isClose_iff.mp hcl
          rw [hf] at this; cases this
        · have : ({ f with start := some v } : Seg K).isMove = true := isMove_iff.mpr hf
          rw [if_pos this]; exact hcu
    refine ⟨s :: relink e p, ?_, sound_cons.mpr ⟨e, he, hch⟩, ?_⟩
    · unfold Path.insert
      rw [hpos]
      simp only [hv]
      have hmv : Path.validateMove (s :: relink e p) ((0 : ℕ) : ℤ) = if s.isMove then s :: relink e p else Path.validateMove (s :: relink e p) ((0 : ℕ) : ℤ) := by
        split_ifs with h
        · unfold Path.validateMove
          rw [pyIdx_nat (by simp)]
          simp only [List.getElem?_cons_zero]
          rw [if_pos (by simp)]
          have ho : openList p = true := openFrom_list (l := []) (hm (isMove_iff.mp h))
          simp [closeNext_open (r := relink e p) (by rw [openList_relink]; exact ho)]
        · rfl
      have hmv2 : (if s.isMove then Path.validateMove (s :: relink e p) ((0 : ℕ) : ℤ) else s :: relink e p) = s :: relink e p := by
        split_ifs with h
        · rw [hmv, if_pos h]
        · rfl
      rw [hmv2, if_neg (by omega)]
      split_ifs with hcl
      · have hpn : p = [] := List.length_eq_zero_iff.mp (hc (isClose_iff.mp hcl)).symm
        subst hpn
        rw [pyIdx_nat (by simp)]
        simp only [relink]
        unfold Path.validateCloseAt
        rw [pyIdx_nat (by simp)]
        simp only
        rw [if_pos (by simp)]
        have hmf : s.isMove = false := by
          rw [isClose_iff] at hcl; unfold Seg.isMove; rw [hcl]
        simp [Path.validateClose, Path.closeTarget, hmf]
      · rfl
    · exact .cons ⟨rfl, rfl, rfl, fun _ => rfl⟩ (relink_repairs e p)
  · obtain ⟨l, a, r, rfl, rfl⟩ := split_at hi1 hi
    obtain ⟨z, w, hw, hcr, hback, hz⟩ := sound_split hp
    have hins : (l ++ a :: r).insertIdx (l.length + 1) s = l ++ a :: s :: r := by
      clear * -
      induction l with
      | nil => rfl
      | cons b l ih => simp [ih]
    obtain ⟨v, hv, hv1⟩ := relink_cons w s r
    have hR : Near w v := by
      rcases hv1 with h | h
      · exact near_iff.mp h
      · rw [h]; exact near_refl _
    have hvc : Path.validateConnection (Path.validateConnection (l ++ a :: s :: r) (((l.length + 1 : ℕ) : ℤ) - 1))
        ((l.length + 1 : ℕ) : ℤ) = (l ++ [a]) ++ { s with start := some v } :: relink e r := by
      rw [vc_at hw (by push_cast; ring), hv]
      have : l ++ a :: { s with start := some v } :: r = (l ++ [a]) ++ { s with start := some v } :: r := by simp
      rw [this]
      exact vc_at (l := l ++ [a]) (x := { s with start := some v }) he (by simp)
    have hrep : List.Forall₂ Repairs (l ++ a :: s :: r) ((l ++ [a]) ++ { s with start := some v } :: relink e r) := by
      rw [List.append_assoc]
      refine List.rel_append (repairs_refl l) ?_
      exact .cons ⟨rfl, rfl, rfl, fun _ => rfl⟩ (.cons ⟨rfl, rfl, rfl, fun _ => rfl⟩ (relink_repairs e r))
    by_cases hcl : s.kind = .close
    · -- a close at the end
      have hr : r = [] := by
        have := hc hcl
        rw [List.length_append, List.length_cons] at this
        exact List.length_eq_zero_iff.mp (by omega)
      subst hr
      have hmf : s.isMove = false := by unfold Seg.isMove; rw [hcl]
      have hends : HasEnds (l ++ [a]) := hp.2.2
      refine ⟨(l ++ [a]) ++ [{ s with start := some v, stop := some z }], ?_, ?_, ?_⟩
      · unfold Path.insert
        rw [hpos, hins]
        simp only [hvc, hmf]
        rw [if_neg (by simp), if_pos (isClose_iff.mpr hcl)]
        simp only [Bool.false_eq_true, if_false, relink]
        rw [pyIdx_nat (by simp)]
        simp only
        unfold Path.validateCloseAt
        rw [pyIdx_nat (by simp)]
        simp only
        rw [if_pos (by omega)]
        have := validateClose_last (s := { s with start := some v }) (by simp) hends hz hcl
        simp only [List.length_append, List.length_cons, List.length_nil] at this
        rw [this]
      · rw [List.append_assoc]
        exact hback _ ⟨v, z, rfl, rfl, hR, fun _ => rfl, trivial⟩
      · rw [hins]
        have : l ++ [a, s] = (l ++ [a]) ++ [s] := by simp
        rw [this]
        exact List.rel_append (repairs_refl _) (.cons ⟨rfl, rfl, rfl, fun h => absurd hcl h⟩ .nil)
    · refine ⟨(l ++ [a]) ++ { s with start := some v } :: relink e r, ?_, ?_, ?_⟩
      · unfold Path.insert
        rw [hpos, hins]
        simp only [hvc]
        have hmv2 : (if s.isMove then Path.validateMove ((l ++ [a]) ++ { s with start := some v } :: relink e r)
            ((l.length + 1 : ℕ) : ℤ) else (l ++ [a]) ++ { s with start := some v } :: relink e r) =
            (l ++ [a]) ++ { s with start := some v } :: relink e r := by
          split_ifs with h
          · unfold Path.validateMove
            rw [pyIdx_nat (by simp)]
            have hg : ((l ++ [a]) ++ { s with start := some v } :: relink e r)[l.length + 1]? = some { s with start := some v } := by
              rw [List.getElem?_append_right (by simp)]; simp
            simp only [hg]
            rw [if_pos (by omega)]
            have ho : openList r = true := by
              have := hm (isMove_iff.mp h)
              have e2 : l ++ a :: r = (l ++ [a]) ++ r := by simp
              rw [e2] at this
              exact openFrom_list (l := l ++ [a]) (by simpa using this)
            rw [closeNext_open, List.take_append_drop]
            have : ((l ++ [a]) ++ { s with start := some v } :: relink e r).drop (l.length + 1 + 1) = relink e r := by
              rw [List.drop_append]; simp
            rw [this, openList_relink]; exact ho
          · rfl
        rw [hmv2, if_neg (by omega), if_neg (by rw [isClose_iff]; exact hcl)]
      · rw [List.append_assoc]
        refine hback _ ⟨v, e, rfl, he, hR, fun h => absurd (isClose_iff.mp h) hcl, ?_⟩
        by_cases hmk : s.kind = .move
        · have : ({ s with start := some v } : Seg K).isMove = true := isMove_iff.mpr hmk
          rw [if_pos this]
          refine chain_relink hcr (Or.inr ?_)
          have := hm hmk
          have e2 : l ++ a :: r = (l ++ [a]) ++ r := by simp
          rw [e2] at this
          exact openFrom_list (l := l ++ [a]) (by simpa using this)
        · have : ¬ ({ s with start := some v } : Seg K).isMove = true := fun h => hmk (isMove_iff.mp h)
          rw [if_neg this]
          exact chain_relink hcr (Or.inl rfl)
      · rw [hins]; exact hrep

/-- `_validate_move` changes nothing where no close comes before the next move -/
theorem validateMove_open {l r : List (Seg K)} {s : Seg K} {i : ℕ} (hi : i = l.length) (ho : openList r = true) :
    Path.validateMove (l ++ s :: r) (i : ℤ) = l ++ s :: r := by
  subst hi
  unfold Path.validateMove
  rw [pyIdx_nat (by simp)]
  have hg : (l ++ s :: r)[l.length]? = some s := by simp
  simp only [hg]
  rw [if_pos (by omega), closeNext_open, List.take_append_drop]
  have : (l ++ s :: r).drop (l.length + 1) = r := by rw [List.drop_append]; simp
  rw [this]; exact ho

/-- **C49** for `path[i] = segment`, partial: a segment with an end is assigned at an index `0 ≤ i < length`;
where the first segment or a move is replaced, or the new one is a move, no close comes before the next move
after it; a close is only assigned to the last position. -/
theorem C49_setitem_partial {p : List (Seg K)} (hp : Sound p) {s x : Seg K} {i : ℕ} (hi : p[i]? = some x)
    (hs : s.stop ≠ none) (hm : i = 0 ∨ x.kind = .move ∨ s.kind = .move → OpenFrom p (i + 1))
    (hc : s.kind = .close → i + 1 = p.length) :
    ∃ p', Path.setItem p i s = .ok p' ∧ Sound p' ∧ List.Forall₂ Repairs (p.set i s) p' := by
  obtain ⟨e, he⟩ := Option.ne_none_iff_exists'.mp hs
  have hlt := getElem?_lt hi
  rcases Nat.eq_zero_or_pos i with rfl | hi1
  · obtain ⟨x', r, rfl⟩ : ∃ x' r, p = x' :: r := List.exists_cons_of_ne_nil (by intro h; subst h; simp at hlt)
    have ho : openList r = true := openFrom_list (l := [x']) (hm (Or.inl rfl))
    obtain ⟨u, hu, hcu⟩ := sound_cons.mp hp
    have hv : Path.validateConnection (Path.validateConnection ((x' :: r).set 0 s) (((0 : ℕ) : ℤ) - 1)) ((0 : ℕ) : ℤ) =
        s :: relink e r := by
      rw [vc_neg (i := ((0 : ℕ) : ℤ) - 1) (by simp)]
      exact vc_at (l := []) he rfl
    refine ⟨s :: relink e r, ?_, sound_cons.mpr ⟨e, he, chain_relink hcu (Or.inr ho)⟩,
      .cons ⟨rfl, rfl, rfl, fun _ => rfl⟩ (relink_repairs e r)⟩
    unfold Path.setItem
    rw [pyIdx_nat hlt]
    simp only [hv]
    have hmv := validateMove_open (l := []) (s := s) (r := relink e r) (i := 0) rfl (by rw [openList_relink]; exact ho)
    rw [List.nil_append] at hmv
    rw [hmv]
    simp only [ite_self]
    split_ifs with hcl
    · have hr : r = [] := by
        have := hc (isClose_iff.mp hcl)
        rw [List.length_cons] at this
        exact List.length_eq_zero_iff.mp (by omega)
      subst hr
      have hmf : s.isMove = false := by
        rw [isClose_iff] at hcl; unfold Seg.isMove; rw [hcl]
      unfold Path.validateCloseAt
      rw [pyIdx_nat (by simp)]
      simp [Path.validateClose, Path.closeTarget, hmf, relink]
    · rfl
  · obtain ⟨l, a, r0, rfl, rfl⟩ := split_at hi1 (le_of_lt hlt)
    obtain ⟨x', r, rfl⟩ : ∃ x' r, r0 = x' :: r := List.exists_cons_of_ne_nil (by intro h; subst h; simp at hlt)
    have hx : x' = x := by
      rw [List.getElem?_append_right (by omega)] at hi
      simpa using hi
    subst hx
    obtain ⟨z, w, hw, hcr, hback, hz⟩ := sound_split hp
    have hset : (l ++ a :: x' :: r).set (l.length + 1) s = l ++ a :: s :: r := by
      rw [List.set_append_right _ _ (by omega)]; simp
    obtain ⟨v, hv, hv1⟩ := relink_cons w s r
    have hR : Near w v := by
      rcases hv1 with h | h
      · exact near_iff.mp h
      · rw [h]; exact near_refl _
    have hvc : Path.validateConnection (Path.validateConnection (l ++ a :: s :: r) (((l.length + 1 : ℕ) : ℤ) - 1))
        ((l.length + 1 : ℕ) : ℤ) = (l ++ [a]) ++ { s with start := some v } :: relink e r := by
      rw [vc_at hw (by push_cast; ring), hv]
      have : l ++ a :: { s with start := some v } :: r = (l ++ [a]) ++ { s with start := some v } :: r := by simp
      rw [this]
      exact vc_at (l := l ++ [a]) (x := { s with start := some v }) he (by simp)
    have hrep : List.Forall₂ Repairs (l ++ a :: s :: r) ((l ++ [a]) ++ { s with start := some v } :: relink e r) := by
      rw [List.append_assoc]
      refine List.rel_append (repairs_refl l) ?_
      exact .cons ⟨rfl, rfl, rfl, fun _ => rfl⟩ (.cons ⟨rfl, rfl, rfl, fun _ => rfl⟩ (relink_repairs e r))
    have hopen : x'.kind = .move ∨ s.kind = .move → openList r = true := by
      intro h
      have := hm (Or.inr h)
      have e2 : l ++ a :: x' :: r = (l ++ [a, x']) ++ r := by simp
      rw [e2] at this
      exact openFrom_list (l := l ++ [a, x']) (by simpa using this)
    obtain ⟨v0, u0, -, -, -, -, hcr'⟩ := hcr
    by_cases hcl : s.kind = .close
    · have hr : r = [] := by
        have := hc hcl
        simp only [List.length_append, List.length_cons] at this
        exact List.length_eq_zero_iff.mp (by omega)
      subst hr
      have hmf : s.isMove = false := by unfold Seg.isMove; rw [hcl]
      have hends : HasEnds (l ++ [a]) := by
        intro t ht
        exact hp.2.2 t (by simp at ht ⊢; tauto)
      refine ⟨(l ++ [a]) ++ [{ s with start := some v, stop := some z }], ?_, ?_, ?_⟩
      · unfold Path.setItem
        rw [pyIdx_nat hlt]
        simp only [hset, hvc, hmf, Bool.false_eq_true, if_false, relink]
        rw [if_pos (isClose_iff.mpr hcl)]
        unfold Path.validateCloseAt
        rw [pyIdx_nat (by simp)]
        simp only
        rw [if_pos (by omega)]
        have := validateClose_last (s := { s with start := some v }) (by simp) hends hz hcl
        simp only [List.length_append, List.length_cons, List.length_nil] at this
        rw [this]
      · rw [List.append_assoc]
        exact hback _ ⟨v, z, rfl, rfl, hR, fun _ => rfl, trivial⟩
      · rw [hset]
        have : l ++ [a, s] = (l ++ [a]) ++ [s] := by simp
        rw [this]
        exact List.rel_append (repairs_refl _) (.cons ⟨rfl, rfl, rfl, fun h => absurd hcl h⟩ .nil)
    · refine ⟨(l ++ [a]) ++ { s with start := some v } :: relink e r, ?_, ?_, ?_⟩
      · unfold Path.setItem
        rw [pyIdx_nat hlt]
        simp only [hset, hvc]
        have hmv2 : (if s.isMove then Path.validateMove ((l ++ [a]) ++ { s with start := some v } :: relink e r)
            ((l.length + 1 : ℕ) : ℤ) else (l ++ [a]) ++ { s with start := some v } :: relink e r) =
            (l ++ [a]) ++ { s with start := some v } :: relink e r := by
          split_ifs with h
          · exact validateMove_open (by simp) (by rw [openList_relink]; exact hopen (Or.inr (isMove_iff.mp h)))
          · rfl
        rw [hmv2, if_neg (by rw [isClose_iff]; exact hcl)]
      · rw [List.append_assoc]
        refine hback _ ⟨v, e, rfl, he, hR, fun h => absurd (isClose_iff.mp h) hcl, ?_⟩
        by_cases hk : x'.kind = .move ∨ s.kind = .move
        · exact chain_relink hcr' (Or.inr (hopen hk))
        · push Not at hk
          have h1 : ¬ ({ s with start := some v } : Seg K).isMove = true := fun h => hk.2 (isMove_iff.mp h)
          have h2 : ¬ x'.isMove = true := fun h => hk.1 (isMove_iff.mp h)
          rw [if_neg h1]
          rw [if_neg h2] at hcr'
          exact chain_relink hcr' (Or.inl rfl)
      · rw [hset]; exact hrep

/-- `_validate_subpath` changes nothing in a connected path -/
theorem validateSubpath_sound {p : List (Seg K)} (hp : Sound p) (i : ℤ) : Path.validateSubpath p i = p := by
  unfold Path.validateSubpath
  split_ifs with h
  · rfl
  · push Not at h
    obtain ⟨n, rfl⟩ : ∃ n : ℕ, i = n := ⟨i.toNat, by omega⟩
    rw [Int.toNat_natCast]
    have hn : n < p.length := by omega
    obtain ⟨x, r, hx⟩ : ∃ x r, p.drop n = x :: r :=
      List.exists_cons_of_ne_nil (by intro h; rw [List.drop_eq_nil_iff] at h; omega)
    have hpe : p = p.take n ++ x :: r := by rw [← hx, List.take_append_drop]
    have hlen : (p.take n).length = n := by rw [List.length_take]; omega
    suffices hcn : Path.closeNext (Path.closeTarget p n) (p.drop n) = p.drop n by
      rw [hcn, List.take_append_drop]
    rw [hx]
    by_cases hm : x.isMove = true
    · unfold Path.closeNext; rw [if_pos hm]
    · have hm : x.isMove = false := by simpa using hm
      have hct : Path.closeTarget p n = Path.closeTarget (p.take n ++ [x]) n := by
        have h1 : p.take (n + 1) = (p.take n ++ [x]).take (n + 1) := by
          have hxn : p[n]? = some x := by
            have := congrArg (fun t => t[0]?) hx
            simpa using this
          rw [List.take_of_length_le (l := p.take n ++ [x]) (by simp), List.take_add_one, hxn]
          rfl
        have h2 : p.head? = (p.take n ++ [x]).head? := by
          conv_lhs => rw [hpe]
          cases p.take n <;> rfl
        unfold Path.closeTarget
        rw [h1, h2]
      rw [hct]
      rcases Nat.eq_zero_or_pos n with rfl | hpos
      · -- the first segment is not a move
        have hpx : p = x :: r := by simpa using hx
        rw [hpx] at hp
        obtain ⟨u, hu, hcu⟩ := sound_cons.mp hp
        simp only [List.take_zero, List.nil_append]
        have : Path.closeTarget [x] 0 = some u := by simp [Path.closeTarget, hm, hu]
        rw [this]
        unfold Path.closeNext
        rw [hm]
        by_cases hc : x.isClose = true
        · rw [if_pos hc, ← hu]; rfl
        · rw [if_neg hc, closeNext_chain hcu]; rfl
      · obtain ⟨l, a, r', hl, hla⟩ := split_at hpos (le_of_lt hn)
        have ht : p.take n = l ++ [a] := by
          rw [hl, hla, List.take_append]; simp
        have hr' : r' = x :: r := by
          have : p.drop n = r' := by rw [hl, hla, List.drop_append]; simp
          rw [← this, hx]
        subst hr'
        rw [hl] at hp
        obtain ⟨z, w, hw, hcr, hback, hz⟩ := sound_split hp
        have hends : HasEnds (l ++ [a]) := by
          intro t ht
          exact hp.2.2 t (by simp at ht ⊢; tauto)
        have hct : Path.closeTarget (p.take n ++ [x]) n = some z := by
          rw [ht, hla]
          have := closeTarget_eq (p := l ++ [a]) (s := x) hm (by simp) hends
          rw [← hz, ← this]; simp
        rw [hct]
        exact closeNext_chain hcr

/-- **C49** for `del path[i]`, partial: a move is only deleted where no close comes before the next move after
it; the first segment only if it is followed by a move or nothing. -/
theorem C49_delitem_partial {p : List (Seg K)} (hp : Sound p) {x : Seg K} {i : ℕ} (hi : p[i]? = some x)
    (h0 : i = 0 → ∀ f, p[1]? = some f → f.kind = .move) (hm : 0 < i → x.kind = .move → OpenFrom p (i + 1)) :
    ∃ p', Path.delItem p i = .ok p' ∧ Sound p' ∧ List.Forall₂ Repairs (p.eraseIdx i) p' := by
  have hlt := getElem?_lt hi
  suffices h : ∃ p', Path.validateConnection (p.eraseIdx i) ((i : ℤ) - 1) = p' ∧ Sound p' ∧
      List.Forall₂ Repairs (p.eraseIdx i) p' by
    obtain ⟨p', h1, h2, h3⟩ := h
    refine ⟨p', ?_, h2, h3⟩
    unfold Path.delItem
    rw [pyIdx_nat hlt]
    simp only [hi, h1, validateSubpath_sound h2, ite_self]
  rcases Nat.eq_zero_or_pos i with rfl | hi1
  · obtain ⟨x', r, rfl⟩ : ∃ x' r, p = x' :: r := List.exists_cons_of_ne_nil (by intro h; subst h; simp at hlt)
    rw [vc_neg (by simp)]
    refine ⟨r, rfl, ?_, repairs_refl r⟩
    cases r with
    | nil => exact sound_nil
    | cons f r =>
      have hf := h0 rfl f (by simp)
      obtain ⟨u, hu, v, w, h1, h2, h3, h4, h5⟩ := sound_cons.mp hp
      rw [if_pos (isMove_iff.mpr hf)] at h5
      exact sound_cons.mpr ⟨w, h2, h5⟩
  · obtain ⟨l, a, r0, rfl, rfl⟩ := split_at hi1 (le_of_lt hlt)
    obtain ⟨x', r, rfl⟩ : ∃ x' r, r0 = x' :: r := List.exists_cons_of_ne_nil (by intro h; subst h; simp at hlt)
    have hx : x' = x := by
      rw [List.getElem?_append_right (by omega)] at hi
      simpa using hi
    subst hx
    obtain ⟨z, w, hw, hcr, hback, hz⟩ := sound_split hp
    have her : (l ++ a :: x' :: r).eraseIdx (l.length + 1) = l ++ a :: r := by
      rw [List.eraseIdx_append_of_length_le (by omega)]; simp
    obtain ⟨v0, u0, -, -, -, -, hcr'⟩ := hcr
    rw [her, vc_at hw (by push_cast; ring)]
    refine ⟨_, rfl, hback _ ?_, ?_⟩
    · by_cases hk : x'.kind = .move
      · refine chain_relink hcr' (Or.inr ?_)
        have := hm (by omega) hk
        have e2 : l ++ a :: x' :: r = (l ++ [a, x']) ++ r := by simp
        rw [e2] at this
        exact openFrom_list (l := l ++ [a, x']) (by simpa using this)
      · rw [if_neg (fun h => hk (isMove_iff.mp h))] at hcr'
        exact chain_relink hcr' (Or.inl rfl)
    · exact List.rel_append (repairs_refl l) (.cons ⟨rfl, rfl, rfl, fun _ => rfl⟩ (relink_repairs w r))

/-! ### what is excluded -/

/-- M0,0 L1,0 L2,0 Z M5,5 L6,5 Z -/
def exEdit : List (Seg ℚ) :=
  [⟨.move, none, some ⟨0, 0⟩, false, true⟩, ⟨.line, some ⟨0, 0⟩, some ⟨1, 0⟩, false, true⟩,
    ⟨.line, some ⟨1, 0⟩, some ⟨2, 0⟩, false, true⟩, ⟨.close, some ⟨2, 0⟩, some ⟨0, 0⟩, false, true⟩,
    ⟨.move, some ⟨0, 0⟩, some ⟨5, 5⟩, false, true⟩, ⟨.line, some ⟨5, 5⟩, some ⟨6, 5⟩, false, true⟩,
    ⟨.close, some ⟨6, 5⟩, some ⟨5, 5⟩, false, true⟩]

/-- a way to compute that a path is sound -/
theorem sound_of_chain {f : Seg ℚ} {r : List (Seg ℚ)} (u : Pt ℚ) (h : f.stop = some u)
    (hc : Chain Near Eq u u r) : Sound (f :: r) := sound_cons.mpr ⟨u, h, hc⟩

theorem exEdit_sound : Sound exEdit := by
  refine sound_of_chain ⟨0, 0⟩ rfl ?_
  exact ⟨_, _, rfl, rfl, near_refl _, by simp [Seg.isClose], _, _, rfl, rfl, near_refl _, by simp [Seg.isClose],
    _, _, rfl, rfl, near_refl _, fun _ => rfl, _, _, rfl, rfl, near_refl _, by simp [Seg.isClose],
    _, _, rfl, rfl, near_refl _, by simp [Seg.isClose], _, _, rfl, rfl, near_refl _, fun _ => rfl, trivial⟩

/-- all segments have an end, but the code's own check says the path is not connected -/
def Broken (p : List (Seg ℚ)) : Bool := p.all (fun s => s.stop.isSome) && !Path.isValid p

theorem not_connected_of_broken {p : List (Seg ℚ)} (h : Broken p = true) : HasEnds p ∧ ¬ Connected Near p := by
  unfold Broken at h
  rw [Bool.and_eq_true] at h
  have he : HasEnds p := by
    intro s hs hn
    have := List.all_eq_true.mp h.1 s hs
    rw [hn] at this; simp at this
  refine ⟨he, fun hc => ?_⟩
  rw [(C48_is_valid he).mpr hc] at h
  simp at h

/-- the result of an operation on `exEdit`, whose segments all have ends, is not connected -/
def Breaks (r : Except PyErr (List (Seg ℚ))) : Prop := ∃ p, r = .ok p ∧ HasEnds p ∧ ¬ Connected Near p

theorem breaks_of {r : Except PyErr (List (Seg ℚ))} (h : (match r with | .ok p => Broken p | _ => false) = true) :
    Breaks r := by
  cases r with
  | error e => simp at h
  | ok p => exact ⟨p, rfl, not_connected_of_broken h⟩

/-- **C49** is false of the code as stated. Each of these valid edits of the connected path `exEdit` leaves a
path that is not connected: assigning at index -2, inserting at index -1, deleting at index -2, assigning a
move at index 1, inserting a move at index 1, inserting a close at index 2, assigning a close at index 1,
deleting the move at index 4 of a path that goes on after its close, replacing the first move. -/
theorem C49_not_connected :
    Breaks (Path.setItem exEdit (-2) ⟨.line, none, some ⟨9, 9⟩, false, true⟩) ∧
    Breaks (Path.insert exEdit (-1) ⟨.line, some ⟨8, 8⟩, some ⟨9, 9⟩, false, true⟩) ∧
    Breaks (Path.delItem exEdit (-2)) ∧
    Breaks (Path.setItem exEdit 1 ⟨.move, none, some ⟨9, 9⟩, false, true⟩) ∧
    Breaks (Path.insert exEdit 1 ⟨.move, none, some ⟨9, 9⟩, false, true⟩) ∧
    Breaks (Path.insert exEdit 2 ⟨.close, none, some ⟨7, 7⟩, false, true⟩) ∧
    Breaks (Path.setItem exEdit 1 ⟨.close, none, some ⟨7, 7⟩, false, true⟩) ∧
    Breaks (Path.setItem exEdit 0 ⟨.move, none, some ⟨9, 9⟩, false, true⟩) ∧
    Breaks (Path.delItem (exEdit ++ [⟨.line, some ⟨5, 5⟩, some ⟨9, 9⟩, false, true⟩]) 4) := by
  refine ⟨?_, ?_, ?_, ?_, ?_, ?_, ?_, ?_, ?_⟩ <;> exact breaks_of (by decide +kernel)

/-- Deleting the move of a subpath whose close is the last segment: `_validate_subpath` gives up one position
too early, and the close keeps its old end. Here `M0,0 L1,0 M5,5 Z` without its second move. -/
theorem C49_delete_move_off_by_one :
    Breaks (Path.delItem [⟨.move, none, some ⟨0, 0⟩, false, true⟩, ⟨.line, some ⟨0, 0⟩, some ⟨1, 0⟩, false, true⟩,
      ⟨.move, some ⟨1, 0⟩, some ⟨5, 5⟩, false, true⟩, ⟨.close, some ⟨5, 5⟩, some ⟨5, 5⟩, false, true⟩] 2) :=
  breaks_of (by decide +kernel)

example : ∃ p', Path.insert exEdit 2 ⟨.line, none, some ⟨9, 9⟩, false, true⟩ = .ok p' ∧ Sound p' ∧
    List.Forall₂ Repairs (exEdit.insertIdx 2 ⟨.line, none, some ⟨9, 9⟩, false, true⟩) p' :=
  C49_insert_partial exEdit_sound (i := 2) (by decide) (by simp) (by simp) (by simp) (by simp)
example : ∃ p', Path.setItem exEdit 3 ⟨.quad (some ⟨1, 1⟩), none, some ⟨9, 9⟩, false, true⟩ = .ok p' ∧ Sound p' ∧
    List.Forall₂ Repairs (exEdit.set 3 ⟨.quad (some ⟨1, 1⟩), none, some ⟨9, 9⟩, false, true⟩) p' :=
  C49_setitem_partial exEdit_sound (i := 3) rfl (by simp) (by simp) (by simp)
example : ∃ p', Path.delItem exEdit 3 = .ok p' ∧ Sound p' ∧ List.Forall₂ Repairs (exEdit.eraseIdx 3) p' :=
  C49_delitem_partial exEdit_sound (i := 3) rfl (by simp) (by simp)

end Svgio.Props
