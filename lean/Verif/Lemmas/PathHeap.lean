import Verif.Spec.PathHeap
import Verif.Props.Subpaths

namespace Svgio.Props

open Svgio.Path

variable {K : Type} [Field K] [LinearOrder K]

/-! ### objects -/

theorem view_length (h : Store K) (r : List ℕ) : (h.view r).length = r.length := by simp [Store.view]

theorem view_get (h : Store K) (r : List ℕ) (i : ℕ) : (h.view r)[i]? = (r[i]?).map h.seg := by simp [Store.view]

theorem view_put_of_notMem (h : Store K) {r : List ℕ} {a : ℕ} (s : Seg K) (ha : a ∉ r) :
    (h.put a s).view r = h.view r := by
  apply List.map_congr_left
  intro b hb
  have : b ≠ a := fun e => ha (e ▸ hb)
  simp [Store.put, this]

theorem view_put (h : Store K) {r : List ℕ} {i a : ℕ} (s : Seg K) (hn : r.Nodup) (hi : r[i]? = some a) :
    (h.put a s).view r = (h.view r).set i s := by
  apply List.ext_getElem?
  intro j
  rw [List.getElem?_set, view_get, view_get, view_length]
  obtain ⟨hi', hia⟩ := List.getElem?_eq_some_iff.1 hi
  by_cases hj : i = j
  · subst hj
    simp [hi', hia, Store.put]
  · rw [if_neg hj]
    cases hb : r[j]? with
    | none => rfl
    | some b =>
      obtain ⟨hj', hjb⟩ := List.getElem?_eq_some_iff.1 hb
      have : b ≠ a := by
        intro e
        subst e
        exact hj ((List.Nodup.getElem_inj_iff hn).1 (hia.trans hjb.symm))
      simp [Store.put, this]

/-- What may have changed: only objects of the list, and no object is new -/
structure Within (h h' : Store K) (r : List ℕ) : Prop where
  next : h'.next = h.next
  seg : ∀ a, a ∉ r → h'.seg a = h.seg a
  kind : ∀ a, (h'.seg a).isMove = (h.seg a).isMove ∧ (h'.seg a).isClose = (h.seg a).isClose

theorem Within.refl (h : Store K) (r : List ℕ) : Within h h r := ⟨rfl, fun _ _ => rfl, fun _ => ⟨rfl, rfl⟩⟩

theorem Within.trans {h h1 h2 : Store K} {r : List ℕ} (a : Within h h1 r) (b : Within h1 h2 r) : Within h h2 r :=
  ⟨b.next.trans a.next, fun x hx => (b.seg x hx).trans (a.seg x hx),
   fun x => ⟨(b.kind x).1.trans (a.kind x).1, (b.kind x).2.trans (a.kind x).2⟩⟩

theorem Within.mono {h h1 : Store K} {r r' : List ℕ} (a : Within h h1 r) (hs : ∀ x ∈ r, x ∈ r') : Within h h1 r' :=
  ⟨a.next, fun x hx => a.seg x (fun hc => hx (hs x hc)), a.kind⟩

theorem within_put (h : Store K) {r : List ℕ} {a : ℕ} {s : Seg K} (ha : a ∈ r)
    (hk : s.isMove = (h.seg a).isMove ∧ s.isClose = (h.seg a).isClose) : Within h (h.put a s) r := by
  refine ⟨rfl, ?_, ?_⟩
  · intro b hb
    have : b ≠ a := fun e => hb (e ▸ ha)
    simp [Store.put, this]
  · intro b
    by_cases e : b = a
    · subst e; simpa [Store.put] using hk
    · simp [Store.put, e]

theorem view_within {h h1 : Store K} {r q : List ℕ} (a : Within h h1 r) (hd : ∀ x ∈ q, x ∉ r) : h1.view q = h.view q := by
  apply List.map_congr_left
  intro x hx
  exact a.seg x (hd x hx)

/-! ### connections -/

theorem within_connection (h : Store K) (r : List ℕ) (i : ℤ) (b : Bool) : Within h (h.validateConnection r i b) r := by
  unfold Store.validateConnection
  by_cases hi : i < 0
  · rw [if_pos hi]; exact Within.refl _ _
  · rw [if_neg hi]
    split
    · rename_i x y hx hy
      have mx := List.mem_of_getElem? hx
      have my := List.mem_of_getElem? hy
      split
      · exact within_put h my ⟨rfl, rfl⟩
      · exact within_put h mx ⟨rfl, rfl⟩
      · exact Within.refl _ _
      · split_ifs
        · exact Within.refl _ _
        · exact within_put h mx ⟨rfl, rfl⟩
        · exact within_put h my ⟨rfl, rfl⟩
    · exact Within.refl _ _

theorem view_connection (h : Store K) {r : List ℕ} (hn : r.Nodup) (i : ℤ) (b : Bool) :
    (h.validateConnection r i b).view r = validateConnection (h.view r) i b := by
  unfold Store.validateConnection validateConnection
  by_cases hi : i < 0
  · rw [if_pos hi, if_pos hi]
  rw [if_neg hi, if_neg hi, view_get, view_get]
  cases hx : r[i.toNat]? with
  | none => simp
  | some x =>
    cases hy : r[i.toNat + 1]? with
    | none => simp
    | some y =>
      have sx : (h.view r)[i.toNat]? = some (h.seg x) := by rw [view_get, hx]; rfl
      have sy : (h.view r)[i.toNat + 1]? = some (h.seg y) := by rw [view_get, hy]; rfl
      have ex : (h.view r).set i.toNat (h.seg x) = h.view r := by
        obtain ⟨k, e⟩ := List.getElem?_eq_some_iff.1 sx
        rw [← e]; simp
      have ey : (h.view r).set (i.toNat + 1) (h.seg y) = h.view r := by
        obtain ⟨k, e⟩ := List.getElem?_eq_some_iff.1 sy
        rw [← e]; simp
      have ey' : ∀ s, ((h.view r).set i.toNat s).set (i.toNat + 1) (h.seg y) = (h.view r).set i.toNat s := by
        intro s
        rw [List.set_comm _ _ (by omega), ey]
      simp only [Option.map_some, link]
      cases h1 : (h.seg x).stop with
      | none =>
        cases h2 : (h.seg y).start with
        | none => simp only []; rw [ex, ey]
        | some s => simp only []; rw [view_put h _ hn hx, ey']
      | some e =>
        cases h2 : (h.seg y).start with
        | none => simp only []; rw [ex, view_put h _ hn hy]
        | some s =>
          simp only []
          by_cases he : e.eq s
          · rw [if_pos he, if_pos he, ex, ey]
          · rw [if_neg he, if_neg he]
            by_cases hb : b
            · rw [if_pos hb, if_pos hb, view_put h _ hn hx, ey']
            · rw [if_neg hb, if_neg hb, ex, view_put h _ hn hy]

theorem within_closeNext (h : Store K) (z : Option (Pt K)) (r : List ℕ) : Within h (h.closeNext z r) r := by
  induction r with
  | nil => exact Within.refl _ _
  | cons a r ih =>
    unfold Store.closeNext
    split_ifs
    · exact Within.refl _ _
    · exact within_put h (by simp) ⟨rfl, rfl⟩
    · exact ih.mono (by intro x hx; simp [hx])

theorem view_closeNext (h : Store K) (z : Option (Pt K)) {r : List ℕ} (hn : r.Nodup) :
    (h.closeNext z r).view r = closeNext z (h.view r) := by
  induction r with
  | nil => rfl
  | cons a r ih =>
    have ha : a ∉ r := (List.nodup_cons.1 hn).1
    show _ = closeNext z (h.seg a :: h.view r)
    unfold Store.closeNext closeNext
    split_ifs
    · rfl
    · show (h.put a _).seg a :: (h.put a _).view r = _
      rw [view_put_of_notMem h _ ha]
      simp [Store.put]
    · show (h.closeNext z r).seg a :: (h.closeNext z r).view r = _
      rw [ih (List.nodup_cons.1 hn).2, (within_closeNext h z r).seg a ha]

theorem view_closeNext_drop (h : Store K) (z : Option (Pt K)) {r : List ℕ} (hn : r.Nodup) (i : ℕ) :
    (h.closeNext z (r.drop i)).view r = (h.view r).take i ++ closeNext z ((h.view r).drop i) := by
  have e : r = r.take i ++ r.drop i := (List.take_append_drop i r).symm
  have hd : List.Nodup (r.take i ++ r.drop i) := by rwa [← e]
  have hx := List.nodup_append.1 hd
  conv_lhs => rw [show (h.closeNext z (r.drop i)).view r
    = (h.closeNext z (r.drop i)).view (r.take i) ++ (h.closeNext z (r.drop i)).view (r.drop i) by
      unfold Store.view; rw [← List.map_append, List.take_append_drop]]
  rw [view_closeNext h z hx.2.1, view_within (within_closeNext h z (r.drop i))
    (fun x h1 h2 => hx.2.2 x h1 x h2 rfl)]
  simp [Store.view, List.map_take, List.map_drop]

theorem within_move (h : Store K) (r : List ℕ) (i : ℤ) : Within h (h.validateMove r i) r := by
  have hd : ∀ k, ∀ x ∈ r.drop k, x ∈ r := fun k x hx => List.mem_of_mem_drop hx
  unfold Store.validateMove
  split
  · exact Within.refl _ _
  · split
    · exact Within.refl _ _
    · split_ifs
      · exact (within_closeNext h _ _).mono (hd _)
      · exact (within_closeNext h _ _).mono (hd _)
      · exact within_closeNext h _ _

theorem view_move (h : Store K) {r : List ℕ} (hn : r.Nodup) (i : ℤ) :
    (h.validateMove r i).view r = validateMove (h.view r) i := by
  unfold Store.validateMove validateMove
  rw [view_length]
  cases hi : pyIdx r.length i with
  | none => rfl
  | some k =>
    simp only [view_get]
    cases hk : r[k]? with
    | none => rfl
    | some m =>
      simp only [Option.map_some]
      have e : ((h.view r).drop (k + 1)).any (fun s => s.isMove || s.isClose)
          = (r.drop (k + 1)).any (fun a => (h.seg a).isMove || (h.seg a).isClose) := by
        unfold Store.view
        rw [← List.map_drop, List.any_map]; rfl
      rw [e]
      split_ifs
      · exact view_closeNext_drop h _ hn _
      · exact view_closeNext_drop h _ hn _
      · exact view_closeNext h _ hn

theorem within_close (h : Store K) (r : List ℕ) (i : ℕ) : Within h (h.validateClose r i) r := by
  unfold Store.validateClose
  split
  · exact Within.refl _ _
  · rename_i a ha
    exact within_put h (List.mem_of_getElem? ha) ⟨rfl, rfl⟩

theorem view_close (h : Store K) {r : List ℕ} (hn : r.Nodup) (i : ℕ) :
    (h.validateClose r i).view r = validateClose (h.view r) i := by
  unfold Store.validateClose validateClose
  rw [view_get]
  cases hi : r[i]? with
  | none => rfl
  | some a => exact view_put h _ hn hi

theorem within_closeAt (h : Store K) (r : List ℕ) (i : ℤ) : Within h (h.validateCloseAt r i) r := by
  unfold Store.validateCloseAt
  split
  · exact Within.refl _ _
  · split_ifs
    · exact within_close h r _
    · split
      · rename_i a f ha hf
        exact within_put h (List.mem_of_getElem? ha) ⟨rfl, rfl⟩
      · exact Within.refl _ _

theorem view_closeAt (h : Store K) {r : List ℕ} (hn : r.Nodup) (i : ℤ) :
    (h.validateCloseAt r i).view r = validateCloseAt (h.view r) i := by
  unfold Store.validateCloseAt validateCloseAt
  rw [view_length]
  cases hi : pyIdx r.length i with
  | none => rfl
  | some k =>
    simp only []
    by_cases h0 : 0 ≤ i
    · rw [if_pos h0, if_pos h0]
      exact view_close h hn k
    · rw [if_neg h0, if_neg h0, view_get]
      have e : (h.view r).head? = (r.head?).map h.seg := by simp [Store.view]
      rw [e]
      cases hk : r[k]? with
      | none => rfl
      | some a =>
        cases hf : r.head? with
        | none => rfl
        | some f => exact view_put h _ hn hk

theorem within_subpath (h : Store K) (r : List ℕ) (i : ℤ) : Within h (h.validateSubpath r i) r := by
  unfold Store.validateSubpath
  split_ifs
  · exact Within.refl _ _
  · exact (within_closeNext h _ _).mono (fun x hx => List.mem_of_mem_drop hx)

theorem view_subpath (h : Store K) {r : List ℕ} (hn : r.Nodup) (i : ℤ) :
    (h.validateSubpath r i).view r = validateSubpath (h.view r) i := by
  unfold Store.validateSubpath validateSubpath
  rw [view_length]
  split_ifs
  · rfl
  · exact view_closeNext_drop h _ hn _

/-! ### validate_connections -/

theorem within_vcGo (h : Store K) (z : Option (Pt K)) (a : ℕ) (r : List ℕ) : Within h (h.vcGo z a r) (a :: r) := by
  induction r generalizing h z a with
  | nil => exact Within.refl _ _
  | cons b r ih =>
    unfold Store.vcGo
    have h1 : Within h (h.validateConnection [a, b] 0) (a :: b :: r) :=
      (within_connection h [a, b] 0 false).mono (by intro x hx; simp at hx ⊢; tauto)
    have hrest : ∀ h2 z1, Within h h2 (a :: b :: r) → Within h (h2.vcGo z1 b r) (a :: b :: r) := fun h2 z1 w =>
      w.trans ((ih h2 z1 b).mono (by intro x hx; simp at hx ⊢; tauto))
    apply hrest
    generalize (if z = none ∨ (h.seg b).isMove = true then (h.seg b).stop else z) = z1
    split_ifs
    · exact h1.trans (within_put _ (by simp) ⟨rfl, rfl⟩)
    · exact h1

theorem link_view (h : Store K) {a b : ℕ} (hab : a ≠ b) :
    (h.validateConnection [a, b] 0).seg a = (link (h.seg a) (h.seg b)).1 ∧
    (h.validateConnection [a, b] 0).seg b = (link (h.seg a) (h.seg b)).2 := by
  have v := view_connection h (r := [a, b]) (by simp [hab]) 0 false
  have e : validateConnection (h.view [a, b]) 0 false
      = [(link (h.seg a) (h.seg b)).1, (link (h.seg a) (h.seg b)).2] := rfl
  rw [e] at v
  simp only [Store.view, List.map_cons, List.map_nil, List.cons.injEq, and_true] at v
  exact v

theorem link_kind (s t : Seg K) : (link s t).2.isClose = t.isClose := by
  unfold link
  split
  · rfl
  · rfl
  · rfl
  · split_ifs <;> rfl

theorem view_vcGo (h : Store K) (z : Option (Pt K)) (a : ℕ) (r : List ℕ) (hn : (a :: r).Nodup) :
    (h.vcGo z a r).view (a :: r) = vcGo z (h.seg a) (h.view r) := by
  induction r generalizing h z a with
  | nil => rfl
  | cons b r ih =>
    have hab : a ≠ b := by intro e; subst e; simp at hn
    have har : a ∉ b :: r := (List.nodup_cons.1 hn).1
    have hnb := (List.nodup_cons.1 hn).2
    have hbr : b ∉ r := (List.nodup_cons.1 hnb).1
    have har' : a ∉ r := fun hc => har (by simp [hc])
    obtain ⟨la, lb⟩ := link_view h hab
    set h1 := h.validateConnection [a, b] 0 with hh1
    have w1 : Within h h1 [a, b] := within_connection h [a, b] 0 false
    have vr : h1.view r = h.view r := view_within w1 (by
      intro x hx; simp only [List.mem_cons, List.not_mem_nil, or_false, not_or]
      exact ⟨fun e => har' (e ▸ hx), fun e => hbr (e ▸ hx)⟩)
    show _ = vcGo z (h.seg a) (h.seg b :: h.view r)
    unfold Store.vcGo vcGo
    simp only []
    rw [← hh1, (w1.kind b).2, ← link_kind (h.seg a) (h.seg b), lb]
    generalize hz1 : (if z = none ∨ (h.seg b).isMove = true then (h.seg b).stop else z) = z1
    have key : ∀ h2 : Store K, h2.seg a = (link (h.seg a) (h.seg b)).1 → h2.view r = h.view r →
        (h2.vcGo z1 b r).view (a :: b :: r)
          = (link (h.seg a) (h.seg b)).1 :: vcGo z1 (h2.seg b) (h.view r) := by
      intro h2 e1 e2
      show (h2.vcGo z1 b r).seg a :: (h2.vcGo z1 b r).view (b :: r) = _
      rw [ih h2 z1 b hnb, (within_vcGo h2 z1 b r).seg a har, e1, e2]
    rw [link_kind] 
    split_ifs with hc
    · rw [key _ (by simp [Store.put, hab, la]) (by rw [view_put_of_notMem _ _ hbr, vr])]
      simp [Store.put]
    · rw [key _ la vr, lb]

theorem within_connections (h : Store K) (r : List ℕ) : Within h (h.validateConnections r) r := by
  cases r with
  | nil => exact Within.refl _ _
  | cons a r => exact within_vcGo h _ a r

theorem view_connections (h : Store K) {r : List ℕ} (hn : r.Nodup) :
    (h.validateConnections r).view r = validateConnections (h.view r) := by
  cases r with
  | nil => rfl
  | cons a r => exact view_vcGo h _ a r hn

/-! ### what a whole command does to the objects -/

/-- An edit of a path with references `r` that leaves it with `r'`: objects that were there and are not in `r` are as before, and
`r'` consists of objects of `r` and new ones. -/
structure Edit (h : Store K) (r : List ℕ) (h' : Store K) (r' : List ℕ) : Prop where
  next : h.next ≤ h'.next
  seg : ∀ a, a < h.next → a ∉ r → h'.seg a = h.seg a
  refs : ∀ a ∈ r', a ∈ r ∨ (h.next ≤ a ∧ a < h'.next)
  nodup : r.Nodup → (∀ a ∈ r, a < h.next) → r'.Nodup

theorem Edit.of_within {h h' : Store K} {r : List ℕ} (w : Within h h' r) : Edit h r h' r :=
  ⟨w.next.ge, fun a _ ha => w.seg a ha, fun _ ha => Or.inl ha, fun hn _ => hn⟩

theorem Edit.bound {h h' : Store K} {r r' : List ℕ} (e : Edit h r h' r') (hb : ∀ a ∈ r, a < h.next) :
    ∀ a ∈ r', a < h'.next := by
  intro a ha
  rcases e.refs a ha with h1 | h1
  · exact lt_of_lt_of_le (hb a h1) e.next
  · exact h1.2

theorem Edit.trans {h h1 h2 : Store K} {r r1 r2 : List ℕ} (a : Edit h r h1 r1) (b : Edit h1 r1 h2 r2)
    (hb : ∀ x ∈ r, x < h.next) : Edit h r h2 r2 := by
  refine ⟨a.next.trans b.next, ?_, ?_, ?_⟩
  · intro x hx hxr
    rw [b.seg x (lt_of_lt_of_le hx a.next), a.seg x hx hxr]
    intro hc
    rcases a.refs x hc with h1 | h1
    · exact hxr h1
    · omega
  · intro x hx
    rcases b.refs x hx with h1 | h1
    · rcases a.refs x h1 with h3 | h3
      · exact Or.inl h3
      · exact Or.inr ⟨h3.1, lt_of_lt_of_le h3.2 b.next⟩
    · exact Or.inr ⟨a.next.trans h1.1, h1.2⟩
  · intro hn hx
    exact b.nodup (a.nodup hn hx) (a.bound hx)

/-- The store with new objects: they follow the old ones -/
theorem newAll_spec (h : Store K) (l : List (Seg K)) :
    (h.newAll l).1.next = h.next + l.length ∧ (h.newAll l).2 = List.range' h.next l.length ∧
    (∀ a, a < h.next → (h.newAll l).1.seg a = h.seg a) ∧ (h.newAll l).1.view (h.newAll l).2 = l := by
  induction l generalizing h with
  | nil => simp [Store.newAll, Store.view]
  | cons s l ih =>
    obtain ⟨i1, i2, i3, i4⟩ := ih (h.new s).1
    have hn : (h.new s).1.next = h.next + 1 := rfl
    have ha : (h.new s).2 = h.next := rfl
    refine ⟨?_, ?_, ?_, ?_⟩
    · simp only [Store.newAll, i1, hn, List.length_cons]; omega
    · simp only [Store.newAll, i2, hn, ha, List.length_cons, List.range'_succ]
    · intro a hx
      simp only [Store.newAll]
      rw [i3 a (by rw [hn]; omega)]
      have : a ≠ h.next := by omega
      simp [Store.new, this]
    · simp only [Store.newAll]
      show ((h.new s).1.newAll l).1.seg (h.new s).2 :: ((h.new s).1.newAll l).1.view _ = _
      rw [i4, i3 _ (by rw [hn, ha]; omega)]
      simp [Store.new]

theorem new_spec (h : Store K) (s : Seg K) :
    (h.new s).1.next = h.next + 1 ∧ (h.new s).2 = h.next ∧ (∀ a, a < h.next → (h.new s).1.seg a = h.seg a) ∧
    (h.new s).1.seg h.next = s := by
  refine ⟨rfl, rfl, ?_, ?_⟩
  · intro a ha
    have : a ≠ h.next := by omega
    simp [Store.new, this]
  · simp [Store.new]

theorem view_old {h h' : Store K} {r : List ℕ} (hb : ∀ a ∈ r, a < h.next) (he : ∀ a, a < h.next → h'.seg a = h.seg a) :
    h'.view r = h.view r := by
  apply List.map_congr_left
  intro a ha
  exact he a (hb a ha)

/-- An edit whose references come from old and new objects, followed by changes of these objects only -/
theorem edit_of {h h1 h2 : Store K} {r r0 : List ℕ} (hx : h.next ≤ h1.next)
    (hs : ∀ a, a < h.next → h1.seg a = h.seg a) (hr : ∀ a ∈ r0, a ∈ r ∨ (h.next ≤ a ∧ a < h1.next))
    (hn : r.Nodup → (∀ a ∈ r, a < h.next) → r0.Nodup) (w : Within h1 h2 r0) : Edit h r h2 r0 := by
  refine ⟨w.next ▸ hx, ?_, ?_, hn⟩
  · intro a ha har
    rw [w.seg a, hs a ha]
    intro hc
    rcases hr a hc with h3 | h3
    · exact har h3
    · omega
  · intro a ha
    rw [w.next]
    exact hr a ha

theorem within_append (h : Store K) (r : List ℕ) (a : ℕ) : Within h (h.append r a).1 (r ++ [a]) := by
  unfold Store.append
  simp only []
  split_ifs
  · exact (within_connection h _ _ _).trans (within_close _ _ _)
  · exact within_connection h _ _ _

theorem view_append (h : Store K) {r : List ℕ} {a : ℕ} (hn : (r ++ [a]).Nodup) :
    (h.append r a).1.view (r ++ [a]) = append (h.view r) (h.seg a) := by
  have e : h.view r ++ [h.seg a] = h.view (r ++ [a]) := by simp [Store.view]
  have hk := ((within_connection h (r ++ [a]) ((r.length : ℤ) - 1) false).kind a).2
  unfold Store.append append
  simp only []
  rw [view_length, e, hk]
  split_ifs
  · rw [view_close _ hn, view_connection _ hn]
  · rw [view_connection _ hn]

theorem within_ok_insert (h : Store K) (r : List ℕ) (i : ℤ) (a : ℕ) {c : Store K × List ℕ}
    (hc : h.insert r i a = .ok c) : c.2 = r.insertIdx (insertPos r.length i) a ∧ Within h c.1 c.2 := by
  unfold Store.insert at hc
  simp only [] at hc
  set r0 := r.insertIdx (insertPos r.length i) a
  have w1 : Within h ((h.validateConnection r0 (i - 1)).validateConnection r0 i) r0 :=
    (within_connection h _ _ _).trans (within_connection _ _ _ _)
  set h1 := (h.validateConnection r0 (i - 1)).validateConnection r0 i
  have w2 : Within h (if (h1.seg a).isMove = true then h1.validateMove r0 i else h1) r0 := by
    split_ifs
    · exact w1.trans (within_move _ _ _)
    · exact w1
  set h2 := (if (h1.seg a).isMove = true then h1.validateMove r0 i else h1)
  split_ifs at hc
  · cases hp : pyIdx r0.length i with
    | none => rw [hp] at hc; simp at hc
    | some k =>
      rw [hp] at hc
      simp only [Except.ok.injEq] at hc
      subst hc
      exact ⟨rfl, w2.trans (within_closeAt _ _ _)⟩
  · simp only [Except.ok.injEq] at hc
    subst hc
    exact ⟨rfl, w2⟩

theorem view_insert (h : Store K) {r : List ℕ} {a : ℕ} (i : ℤ) (hn : (r.insertIdx (insertPos r.length i) a).Nodup) :
    (h.insert r i a).map (fun c => c.1.view c.2) = Path.insert (h.view r) i (h.seg a) := by
  have e : (h.view r).insertIdx (insertPos r.length i) (h.seg a) = h.view (r.insertIdx (insertPos r.length i) a) := by
    unfold Store.view
    rw [List.map_insertIdx]
  unfold Store.insert Path.insert
  simp only []
  rw [view_length, e]
  set r0 := r.insertIdx (insertPos r.length i) a
  have w1 : Within h ((h.validateConnection r0 (i - 1)).validateConnection r0 i) r0 :=
    (within_connection h _ _ _).trans (within_connection _ _ _ _)
  have v1 : ((h.validateConnection r0 (i - 1)).validateConnection r0 i).view r0
      = validateConnection (validateConnection (h.view r0) (i - 1)) i := by
    rw [view_connection _ hn, view_connection _ hn]
  rw [← v1]
  set h1 := (h.validateConnection r0 (i - 1)).validateConnection r0 i
  rw [← (w1.kind a).1, ← (w1.kind a).2, view_length]
  have v2 : (if (h1.seg a).isMove = true then h1.validateMove r0 i else h1).view r0
      = if (h1.seg a).isMove = true then validateMove (h1.view r0) i else h1.view r0 := by
    split_ifs
    · exact view_move _ hn _
    · rfl
  have k2 : ((if (h1.seg a).isMove = true then h1.validateMove r0 i else h1).seg a).isClose = (h1.seg a).isClose := by
    split_ifs
    · exact ((within_move h1 r0 i).kind a).2
    · rfl
  rw [← v2, k2]
  generalize (if (h1.seg a).isMove = true then h1.validateMove r0 i else h1) = h2
  rw [view_length]
  split_ifs
  · rfl
  · cases pyIdx r0.length i with
    | none => rfl
    | some k =>
      show Except.ok ((h2.validateCloseAt r0 i).view r0) = _
      rw [view_closeAt _ hn]
  · rfl

theorem within_ok_set (h : Store K) (r : List ℕ) (i : ℤ) (a : ℕ) {c : Store K × List ℕ}
    (hc : h.setItem r i a = .ok c) : (∃ k, pyIdx r.length i = some k ∧ c.2 = r.set k a) ∧ Within h c.1 c.2 := by
  unfold Store.setItem at hc
  cases hp : pyIdx r.length i with
  | none => rw [hp] at hc; simp at hc
  | some k =>
    rw [hp] at hc
    simp only [Except.ok.injEq] at hc
    subst hc
    refine ⟨⟨k, rfl, rfl⟩, ?_⟩
    simp only []
    set r0 := r.set k a
    have w1 : Within h ((h.validateConnection r0 (i - 1)).validateConnection r0 i) r0 :=
      (within_connection h _ _ _).trans (within_connection _ _ _ _)
    set h1 := (h.validateConnection r0 (i - 1)).validateConnection r0 i
    have w2 : Within h (if (h1.seg a).isMove = true then h1.validateMove r0 i else h1) r0 := by
      split_ifs
      · exact w1.trans (within_move _ _ _)
      · exact w1
    generalize (if (h1.seg a).isMove = true then h1.validateMove r0 i else h1) = h2 at *
    split_ifs
    · exact w2.trans (within_closeAt _ _ _)
    · exact w2

theorem view_set (h : Store K) {r : List ℕ} {a : ℕ} (i : ℤ) (hn : ∀ k, (r.set k a).Nodup) :
    (h.setItem r i a).map (fun c => c.1.view c.2) = setItem (h.view r) i (h.seg a) := by
  unfold Store.setItem setItem
  rw [view_length]
  cases hp : pyIdx r.length i with
  | none => rfl
  | some k =>
    simp only []
    have e : (h.view r).set k (h.seg a) = h.view (r.set k a) := by
      unfold Store.view
      rw [List.map_set]
    rw [e]
    have hn := hn k
    set r0 := r.set k a
    have w1 : Within h ((h.validateConnection r0 (i - 1)).validateConnection r0 i) r0 :=
      (within_connection h _ _ _).trans (within_connection _ _ _ _)
    have v1 : ((h.validateConnection r0 (i - 1)).validateConnection r0 i).view r0
        = validateConnection (validateConnection (h.view r0) (i - 1)) i := by
      rw [view_connection _ hn, view_connection _ hn]
    rw [← v1]
    set h1 := (h.validateConnection r0 (i - 1)).validateConnection r0 i
    rw [← (w1.kind a).1, ← (w1.kind a).2]
    have v2 : (if (h1.seg a).isMove = true then h1.validateMove r0 i else h1).view r0
        = if (h1.seg a).isMove = true then validateMove (h1.view r0) i else h1.view r0 := by
      split_ifs
      · exact view_move _ hn _
      · rfl
    have k2 : ((if (h1.seg a).isMove = true then h1.validateMove r0 i else h1).seg a).isClose = (h1.seg a).isClose := by
      split_ifs
      · exact ((within_move h1 r0 i).kind a).2
      · rfl
    rw [← v2, k2]
    generalize (if (h1.seg a).isMove = true then h1.validateMove r0 i else h1) = h2
    show Except.ok _ = _
    congr 1
    simp only []
    split_ifs
    · rw [view_closeAt _ hn]
    · rfl

theorem within_ok_del (h : Store K) (r : List ℕ) (i : ℤ) {c : Store K × List ℕ}
    (hc : h.delItem r i = .ok c) : (∃ k, c.2 = r.eraseIdx k) ∧ Within h c.1 c.2 := by
  unfold Store.delItem at hc
  cases hp : pyIdx r.length i with
  | none => rw [hp] at hc; simp at hc
  | some k =>
    rw [hp] at hc
    simp only [] at hc
    cases hk : r[k]? with
    | none => rw [hk] at hc; simp at hc
    | some a =>
      rw [hk] at hc
      simp only [Except.ok.injEq] at hc
      subst hc
      refine ⟨⟨k, rfl⟩, ?_⟩
      simp only []
      split_ifs
      · exact (within_connection h _ _ _).trans (within_subpath _ _ _)
      · exact within_connection h _ _ _

theorem view_del (h : Store K) {r : List ℕ} (i : ℤ) (hn : r.Nodup) :
    (h.delItem r i).map (fun c => c.1.view c.2) = delItem (h.view r) i := by
  unfold Store.delItem delItem
  rw [view_length]
  cases hp : pyIdx r.length i with
  | none => rfl
  | some k =>
    simp only [view_get]
    cases hk : r[k]? with
    | none => rfl
    | some a =>
      have e : (h.view r).eraseIdx k = h.view (r.eraseIdx k) := by
        unfold Store.view
        rw [List.eraseIdx_map]
      have hn0 : (r.eraseIdx k).Nodup := hn.sublist (List.eraseIdx_sublist _ _)
      have w := (within_connection h (r.eraseIdx k) (i - 1) false).kind a
      simp only [Option.map_some]
      rw [e, w.1, w.2]
      show Except.ok _ = _
      congr 1
      simp only []
      split_ifs
      · rw [view_subpath _ hn0, view_connection _ hn0]
      · rw [view_connection _ hn0]

theorem within_extend (h : Store K) (r q : List ℕ) : Within h (h.extend r q).1 (r ++ q) :=
  (within_connection h _ _ _).trans (within_subpath _ _ _)

theorem view_extend (h : Store K) {r q : List ℕ} (hn : (r ++ q).Nodup) :
    (h.extend r q).1.view (r ++ q) = extend (h.view r) (h.view q) := by
  unfold Store.extend extend
  have e : h.view r ++ h.view q = h.view (r ++ q) := by simp [Store.view]
  rw [view_length, e]
  simp only []
  rw [view_subpath _ hn, view_connection _ hn]

/-! ### commands one by one -/

theorem nodup_append_new {h : Store K} {r : List ℕ} (n : ℕ) (hn : r.Nodup) (hb : ∀ a ∈ r, a < h.next) :
    (r ++ List.range' h.next n).Nodup := by
  rw [List.nodup_append]
  refine ⟨hn, List.nodup_range', ?_⟩
  intro a ha b hx
  have h1 := hb a ha
  have h2 := (List.mem_range'_1.1 hx).1
  omega

theorem edit_iadd (h : Store K) (r q : List ℕ) : Edit h r (h.iadd r q).1 (h.iadd r q).2 := by
  obtain ⟨n1, n2, n3, n4⟩ := newAll_spec h ((h.view q).map copySeg)
  have e : (h.iadd r q).2 = r ++ (h.newAll ((h.view q).map copySeg)).2 := rfl
  rw [e]
  refine edit_of (h1 := (h.newAll ((h.view q).map copySeg)).1) (by omega) n3 ?_ ?_ (within_extend _ _ _)
  · intro a ha
    rw [List.mem_append] at ha
    rcases ha with ha | ha
    · exact Or.inl ha
    · rw [n2, List.mem_range'_1] at ha
      exact Or.inr ⟨ha.1, by omega⟩
  · intro hn hb
    rw [n2]
    exact nodup_append_new _ hn hb

theorem view_iadd (h : Store K) {r q : List ℕ} (hn : r.Nodup) (hb : ∀ a ∈ r, a < h.next) :
    (h.iadd r q).1.view (h.iadd r q).2 = iadd (h.view r) (h.view q) := by
  obtain ⟨n1, n2, n3, n4⟩ := newAll_spec h ((h.view q).map copySeg)
  have hn' : (r ++ (h.newAll ((h.view q).map copySeg)).2).Nodup := by
    rw [n2]; exact nodup_append_new _ hn hb
  show ((h.newAll ((h.view q).map copySeg)).1.extend r _).1.view (r ++ _) = _
  rw [view_extend _ hn', n4, view_old hb n3]
  rfl

theorem insertIdx_nodup {r : List ℕ} {a : ℕ} (i : ℕ) (hn : r.Nodup) (ha : a ∉ r) : (r.insertIdx i a).Nodup := by
  by_cases hi : i ≤ r.length
  · exact ((List.perm_insertIdx a r hi).nodup_iff).2 (List.nodup_cons.2 ⟨ha, hn⟩)
  · rw [List.insertIdx_of_length_lt (by omega)]
    exact hn

theorem set_nodup {r : List ℕ} {a : ℕ} (i : ℕ) (hn : r.Nodup) (ha : a ∉ r) : (r.set i a).Nodup := by
  by_cases hi : i < r.length
  · rw [List.set_eq_take_append_cons_drop, if_pos hi]
    have hr : (r.take i ++ r.drop i).Nodup := by rwa [List.take_append_drop]
    have hs : (r.take i ++ r.drop (i + 1)).Nodup := by
      refine hr.sublist (List.Sublist.append_left ?_ _)
      rw [← List.drop_drop]
      exact List.drop_sublist _ _
    exact List.nodup_middle.2 (List.nodup_cons.2 ⟨fun hc => by
      rw [List.mem_append] at hc
      rcases hc with hc | hc
      · exact ha (List.mem_of_mem_take hc)
      · exact ha (List.mem_of_mem_drop hc), hs⟩)
  · rw [List.set_eq_of_length_le (by omega)]
    exact hn

theorem mem_insertIdx_cases {r : List ℕ} {a b i : ℕ} (hb : b ∈ r.insertIdx i a) : b = a ∨ b ∈ r := by
  by_cases hi : i ≤ r.length
  · exact (List.mem_insertIdx hi).1 hb
  · rw [List.insertIdx_of_length_lt (by omega)] at hb
    exact Or.inr hb

theorem view_putSlice (h : Store K) (r v : List ℕ) (a b : Option ℤ) :
    h.view (putSlice r a b v) = putSlice (h.view r) a b (h.view v) := by
  unfold putSlice
  simp only [view_length]
  simp [Store.view, List.map_take, List.map_drop]

theorem mem_putSlice {r v : List ℕ} {a b : Option ℤ} {x : ℕ} (hx : x ∈ putSlice r a b v) : x ∈ r ∨ x ∈ v := by
  unfold putSlice at hx
  simp only [List.mem_append] at hx
  rcases hx with (hx | hx) | hx
  · exact Or.inl (List.mem_of_mem_take hx)
  · exact Or.inr hx
  · exact Or.inl (List.mem_of_mem_drop hx)

theorem putSlice_nodup {r v : List ℕ} (a b : Option ℤ) (hr : r.Nodup) (hv : v.Nodup) (hd : ∀ x ∈ r, x ∉ v) :
    (putSlice r a b v).Nodup := by
  unfold putSlice
  have hle : (sliceBounds r.length a b).1 ≤ (sliceBounds r.length a b).2 := by unfold sliceBounds; simp
  generalize sliceBounds r.length a b = w at *
  simp only []
  have hs : (r.take w.1 ++ r.drop w.2).Nodup := by
    have e : (r.take w.1 ++ r.drop w.1).Nodup := by rwa [List.take_append_drop]
    refine e.sublist (List.Sublist.append_left ?_ _)
    have : r.drop w.2 = (r.drop w.1).drop (w.2 - w.1) := by rw [List.drop_drop]; congr 1; omega
    rw [this]
    exact List.drop_sublist _ _
  have h3 := List.nodup_append.1 hs
  rw [List.append_assoc, List.nodup_append, List.nodup_append]
  refine ⟨h3.1, ⟨hv, h3.2.1, ?_⟩, ?_⟩
  · intro x hx y hy e
    subst e
    exact hd x (List.mem_of_mem_drop hy) hx
  · intro x hx y hy e
    subst e
    rcases List.mem_append.1 hy with hy | hy
    · exact hd x (List.mem_of_mem_take hx) hy
    · exact h3.2.2 x hx x hy rfl

/-! ### transforming a subpath -/

omit [LinearOrder K] in
theorem reverse_kind (s : Seg K) : s.reverse.isMove = s.isMove ∧ s.reverse.isClose = s.isClose := by
  unfold Seg.isMove Seg.isClose Seg.reverse
  cases s.kind <;> exact ⟨rfl, rfl⟩

theorem imul_kind (m : Mat K) (s : Seg K) : (Seg.imul m s).isMove = s.isMove ∧ (Seg.imul m s).isClose = s.isClose := by
  unfold Seg.isMove Seg.isClose Seg.imul
  cases s.kind <;> exact ⟨rfl, rfl⟩

theorem within_imulAll (h : Store K) (m : Mat K) (r : List ℕ) : Within h (h.imulAll m r) r := by
  induction r generalizing h with
  | nil => exact Within.refl _ _
  | cons a r ih =>
    have h1 : Within h (h.put a (Seg.imul m (h.seg a))) (a :: r) := within_put h (by simp) (imul_kind m _)
    exact h1.trans ((ih _).mono (by intro x hx; simp [hx]))

theorem view_imulAll (h : Store K) (m : Mat K) {r : List ℕ} (hn : r.Nodup) :
    (h.imulAll m r).view r = (h.view r).map (Seg.imul m) := by
  induction r generalizing h with
  | nil => rfl
  | cons a r ih =>
    have ha : a ∉ r := (List.nodup_cons.1 hn).1
    show ((h.put a _).imulAll m r).seg a :: ((h.put a _).imulAll m r).view r = _
    rw [ih _ (List.nodup_cons.1 hn).2, (within_imulAll _ m r).seg a ha, view_put_of_notMem h _ ha]
    simp [Store.put, Store.view]

theorem window_sub (r : List ℕ) (w : ℕ × ℕ) : ∀ x ∈ Store.window r w, x ∈ r :=
  fun _ hx => List.mem_of_mem_take (List.mem_of_mem_drop hx)

theorem view_window (h : Store K) (r : List ℕ) (w : ℕ × ℕ) : h.view (Store.window r w) = subIter (h.view r) w := by
  rw [subIter_eq]
  unfold Store.window subSegments
  simp [Store.view, List.map_take, List.map_drop]

theorem view_subImul (h : Store K) (m : Mat K) {r : List ℕ} (hn : r.Nodup) (w : ℕ × ℕ) :
    (h.subImul m r w).view r = subImul m (h.view r) w := by
  have hl : (subIter (h.view r) w).length = (Store.window r w).length := by rw [← view_window, view_length]
  unfold subImul
  rw [hl, ← view_window]
  have e : r = r.take w.1 ++ (Store.window r w ++ r.drop (w.1 + (Store.window r w).length)) := by
    by_cases hw : w.1 ≤ w.2
    · have e1 : Store.window r w = (r.drop w.1).take (w.2 - w.1) := by
        unfold Store.window
        rw [List.drop_take]
      have e2 : r.drop (w.1 + (Store.window r w).length) = (r.drop w.1).drop (w.2 - w.1) := by
        rw [e1, List.length_take, ← List.drop_drop]
        by_cases hl : w.2 - w.1 ≤ (r.drop w.1).length
        · rw [min_eq_left hl]
        · rw [min_eq_right (by omega), List.drop_length, List.drop_of_length_le (by omega)]
      rw [e2, e1, List.take_append_drop, List.take_append_drop]
    · have e1 : Store.window r w = [] := by
        unfold Store.window
        rw [List.drop_eq_nil_iff, List.length_take]
        omega
      rw [e1]
      simp
  have hn' := hn
  rw [e] at hn'
  have n1 := List.nodup_append.1 hn'
  have n2 := List.nodup_append.1 n1.2.1
  have w1 : Within h (h.subImul m r w) (Store.window r w) := within_imulAll h m _
  have v1 : (h.subImul m r w).view (Store.window r w) = (h.view (Store.window r w)).map (Seg.imul m) :=
    view_imulAll h m n2.1
  have v2 : (h.subImul m r w).view (r.take w.1) = h.view (r.take w.1) :=
    view_within w1 (fun x hx hc => n1.2.2 x hx x (by simp [hc]) rfl)
  have v3 : (h.subImul m r w).view (r.drop (w.1 + (Store.window r w).length))
      = h.view (r.drop (w.1 + (Store.window r w).length)) :=
    view_within w1 (fun x hx hc => n2.2.2 x hc x hx rfl)
  have split : ∀ g : Store K, g.view r = g.view (r.take w.1) ++ (g.view (Store.window r w)
      ++ g.view (r.drop (w.1 + (Store.window r w).length))) := by
    intro g
    conv_lhs => rw [e]
    simp only [Store.view, List.map_append]
  rw [split, v1, v2, v3]
  simp [Store.view, List.map_take, List.map_drop]

/-! ### reversing -/

/-- The objects of a path are exchanged among each other and changed -/
structure Moves (h : Store K) (r : List ℕ) (h' : Store K) (r' : List ℕ) : Prop where
  perm : r'.Perm r
  within : Within h h' r

theorem Moves.refl (h : Store K) (r : List ℕ) : Moves h r h r := ⟨List.Perm.refl _, Within.refl _ _⟩

theorem Moves.trans {h h1 h2 : Store K} {r r1 r2 : List ℕ} (a : Moves h r h1 r1) (b : Moves h1 r1 h2 r2) : Moves h r h2 r2 :=
  ⟨b.perm.trans a.perm, a.within.trans (b.within.mono (fun _ hx => (a.perm.mem_iff).1 hx))⟩

theorem Moves.of_within {h h' : Store K} {r : List ℕ} (w : Within h h' r) : Moves h r h' r := ⟨List.Perm.refl _, w⟩

theorem Moves.nodup {h h' : Store K} {r r' : List ℕ} (a : Moves h r h' r') (hn : r.Nodup) : r'.Nodup := (a.perm.nodup_iff).2 hn

theorem Moves.edit {h h' : Store K} {r r' : List ℕ} (a : Moves h r h' r') : Edit h r h' r' :=
  ⟨a.within.next.ge, fun x _ hx => a.within.seg x hx, fun x hx => Or.inl ((a.perm.mem_iff).1 hx), fun hn _ => a.nodup hn⟩

theorem moves_swap (h : Store K) (r : List ℕ) (s e : ℕ) : Moves h r (h.swapRev r s e).1 (h.swapRev r s e).2 := by
  unfold Store.swapRev
  cases hs : r[s]? with
  | none => exact Moves.refl _ _
  | some a =>
    cases he : r[e]? with
    | none => exact Moves.refl _ _
    | some b =>
      simp only []
      have ma := List.mem_of_getElem? hs
      have mb := List.mem_of_getElem? he
      have w1 : Within h (h.put a (h.seg a).reverse) r := within_put h ma (reverse_kind _)
      split_ifs with hab
      · exact Moves.of_within w1
      · refine ⟨?_, w1.trans (within_put _ mb (reverse_kind _))⟩
        obtain ⟨ls, es⟩ := List.getElem?_eq_some_iff.1 hs
        obtain ⟨le, ee⟩ := List.getElem?_eq_some_iff.1 he
        rw [← es, ← ee]
        exact List.set_set_perm ls le

theorem view_swap (h : Store K) {r : List ℕ} (hn : r.Nodup) (s e : ℕ) :
    (h.swapRev r s e).1.view (h.swapRev r s e).2 = swapRev (h.view r) s e := by
  unfold Store.swapRev swapRev
  rw [view_get, view_get]
  cases hs : r[s]? with
  | none => rfl
  | some a =>
    cases he : r[e]? with
    | none => rfl
    | some b =>
      simp only [Option.map_some]
      obtain ⟨ls, es⟩ := List.getElem?_eq_some_iff.1 hs
      obtain ⟨le, ee⟩ := List.getElem?_eq_some_iff.1 he
      have hiff : a = b ↔ s = e := by
        rw [← es, ← ee, hn.getElem_inj_iff]
      by_cases hab : a = b
      · rw [if_pos hab, if_pos (hiff.1 hab)]
        exact view_put h _ hn hs
      · have hse : s ≠ e := fun c => hab (hiff.2 c)
        rw [if_neg hab, if_neg hse]
        simp only []
        have hba : b ≠ a := fun c => hab c.symm
        have hb : (h.put a (h.seg a).reverse).seg b = h.seg b := by simp [Store.put, hba]
        rw [hb]
        set h2 := (h.put a (h.seg a).reverse).put b (h.seg b).reverse
        have v : h2.view r = ((h.view r).set s (h.seg a).reverse).set e (h.seg b).reverse := by
          rw [view_put _ _ hn he, view_put _ _ hn hs]
        have ea : h2.seg a = (h.seg a).reverse := by simp [h2, Store.put, hab]
        have eb : h2.seg b = (h.seg b).reverse := by simp [h2, Store.put]
        have e1 : h2.view ((r.set s b).set e a) = ((h2.view r).set s (h2.seg b)).set e (h2.seg a) := by
          unfold Store.view
          rw [List.map_set, List.map_set]
        have e2 : ∀ A B : Seg K, (((h.view r).set s A).set e B).set s B = ((h.view r).set s B).set e B := by
          intro A B
          rw [List.set_comm _ _ (Ne.symm hse), List.set_set]
        rw [e1, v, ea, eb, e2, List.set_set]

theorem moves_revLoop (n : ℕ) (c : Store K × List ℕ) (s e : ℤ) :
    Moves c.1 c.2 (Store.revLoop n c s e).1 (Store.revLoop n c s e).2 := by
  induction n generalizing c s e with
  | zero => exact Moves.refl _ _
  | succ n ih =>
    unfold Store.revLoop
    split_ifs
    · exact (moves_swap c.1 c.2 _ _).trans (ih _ _ _)
    · exact Moves.refl _ _

theorem view_revLoop (n : ℕ) (c : Store K × List ℕ) (s e : ℤ) (hn : c.2.Nodup) :
    (Store.revLoop n c s e).1.view (Store.revLoop n c s e).2 = revLoop n (c.1.view c.2) s e := by
  induction n generalizing c s e with
  | zero => rfl
  | succ n ih =>
    unfold Store.revLoop revLoop
    split_ifs
    · rw [ih _ _ _ ((moves_swap c.1 c.2 _ _).nodup hn), view_swap _ hn]
    · rfl

theorem moves_reverseSegments (h : Store K) (r : List ℕ) (w : ℕ × ℕ) (s e : ℤ) :
    Moves h r (h.reverseSegments r w s e).1 (h.reverseSegments r w s e).2 := by
  unfold Store.reverseSegments
  exact (moves_revLoop _ (h, r) _ _).trans
    (Moves.of_within ((within_connection _ _ _ _).trans (within_connection _ _ _ _)))

theorem view_reverseSegments (h : Store K) {r : List ℕ} (hn : r.Nodup) (w : ℕ × ℕ) (s e : ℤ) :
    (h.reverseSegments r w s e).1.view (h.reverseSegments r w s e).2 = reverseSegments (h.view r) w s e := by
  unfold Store.reverseSegments reverseSegments
  simp only []
  have hn' := (moves_revLoop (r.length + 1) (h, r) (numericIndex w s) (numericIndex w e)).nodup hn
  rw [view_connection _ hn', view_connection _ hn', view_revLoop _ _ _ _ hn, view_length]

theorem within_fixMove (h : Store K) (r : List ℕ) (w : ℕ × ℕ) : Within h (h.fixMove r w) r := by
  unfold Store.fixMove
  by_cases h1 : 1 < subLen w
  · rw [if_pos h1]
    split
    · rename_i f g hf hg
      split_ifs
      · exact within_put h (List.mem_of_getElem? hf) ⟨rfl, rfl⟩
      · exact Within.refl _ _
    · exact Within.refl _ _
  · rw [if_neg h1]; exact Within.refl _ _

theorem view_fixMove (h : Store K) {r : List ℕ} (hn : r.Nodup) (w : ℕ × ℕ) :
    (h.fixMove r w).view r =
      if 1 < subLen w then
        match (h.view r)[w.1]?, (h.view r)[w.1 + 1]? with
        | some f, some g => if f.isMove then (h.view r).set w.1 { f with stop := g.start } else h.view r
        | _, _ => h.view r
      else h.view r := by
  unfold Store.fixMove
  by_cases h1 : 1 < subLen w
  · rw [if_pos h1, if_pos h1, view_get, view_get]
    cases hf : r[w.1]? with
    | none => rfl
    | some f =>
      cases hg : r[w.1 + 1]? with
      | none => rfl
      | some g =>
        simp only [Option.map_some]
        split_ifs
        · exact view_put h _ hn hf
        · rfl
  · rw [if_neg h1, if_neg h1]

theorem within_fixClose (h : Store K) (r : List ℕ) (w : ℕ × ℕ) : Within h (h.fixClose r w) r := by
  unfold Store.fixClose
  split
  · rename_i l b f hl hb hf
    have ml := List.mem_of_getElem? hl
    by_cases hc : (h.seg l).isClose
    · rw [if_pos hc]
      simp only []
      have w1 : Within h (h.put l (h.seg l).reverse) r := within_put h ml (reverse_kind _)
      set h1 := h.put l (h.seg l).reverse
      have w2 : Within h (if optEq (h1.seg l).start (h1.seg b).stop = true then h1
          else h1.put l { h1.seg l with start := (h1.seg b).stop }) r := by
        split_ifs
        · exact w1
        · exact w1.trans (within_put _ ml ⟨rfl, rfl⟩)
      set h2 := (if optEq (h1.seg l).start (h1.seg b).stop = true then h1
          else h1.put l { h1.seg l with start := (h1.seg b).stop })
      by_cases ho : optEq (h2.seg l).stop (h2.seg f).stop
      · rw [if_pos ho]; exact w2
      · rw [if_neg ho]; exact w2.trans (within_put _ ml ⟨rfl, rfl⟩)
    · rw [if_neg hc]; exact Within.refl _ _
  · exact Within.refl _ _

theorem view_secondLast (h : Store K) (r : List ℕ) (w : ℕ × ℕ) :
    (subGet (h.view r) w (-2)).toOption = (Store.secondLast r w).map h.seg := by
  unfold subGet Store.secondLast
  rw [view_length]
  cases pyIdx r.length (numericIndex w (-2)) with
  | none => rfl
  | some j =>
    simp only [Option.bind_some, view_get]
    cases r[j]? <;> rfl

theorem view_fixClose (h : Store K) {r : List ℕ} (hn : r.Nodup) (w : ℕ × ℕ) (hw : w.1 < w.2) (hl : w.2 ≤ r.length) :
    (h.fixClose r w).view r = revClose (h.view r) w := by
  obtain ⟨l, hl1⟩ : ∃ l, r[w.2 - 1]? = some l := ⟨_, List.getElem?_eq_getElem (by omega)⟩
  obtain ⟨f, hf⟩ : ∃ f, r[w.1]? = some f := ⟨_, List.getElem?_eq_getElem (by omega)⟩
  obtain ⟨b, hb⟩ : ∃ b, Store.secondLast r w = some b := by
    unfold Store.secondLast numericIndex pyIdx
    simp only [show (-2 : ℤ) < 0 by decide, if_true]
    by_cases h2 : 0 ≤ (w.2 : ℤ) + -2
    · rw [if_pos h2, if_pos (by omega)]
      exact ⟨_, List.getElem?_eq_getElem (by omega)⟩
    · rw [if_neg h2, if_pos (by omega)]
      exact ⟨_, List.getElem?_eq_getElem (by omega)⟩
  unfold Store.fixClose revClose
  rw [hl1, hb, hf, view_get, hl1]
  simp only [Option.map_some]
  by_cases hc : (h.seg l).isClose
  · rw [if_pos hc, if_pos hc]
    have v1 : (h.put l (h.seg l).reverse).view r = (h.view r).set (w.2 - 1) (h.seg l).reverse := view_put h _ hn hl1
    have s1 : (h.put l (h.seg l).reverse).seg l = (h.seg l).reverse := by simp [Store.put]
    rw [← v1, view_secondLast, hb]
    simp only [Option.map_some]
    generalize h.put l (h.seg l).reverse = h1 at s1 ⊢
    generalize (h.seg l).reverse = l1 at s1 ⊢
    subst s1
    have v2 : (if optEq (h1.seg l).start (h1.seg b).stop = true then h1
          else h1.put l { h1.seg l with start := (h1.seg b).stop }).view r
        = (h1.view r).set (w.2 - 1) (if optEq (h1.seg l).start (h1.seg b).stop = true then h1.seg l
          else { h1.seg l with start := (h1.seg b).stop }) := by
      split_ifs
      · have : (h1.view r)[w.2 - 1]? = some (h1.seg l) := by rw [view_get, hl1]; rfl
        obtain ⟨k, e⟩ := List.getElem?_eq_some_iff.1 this
        rw [← e]; simp
      · exact view_put h1 _ hn hl1
    have s2 : (if optEq (h1.seg l).start (h1.seg b).stop = true then h1
          else h1.put l { h1.seg l with start := (h1.seg b).stop }).seg l
        = (if optEq (h1.seg l).start (h1.seg b).stop = true then h1.seg l
          else { h1.seg l with start := (h1.seg b).stop }) := by
      split_ifs
      · rfl
      · simp [Store.put]
    rw [← v2, ← s2]
    generalize (if optEq (h1.seg l).start (h1.seg b).stop = true then h1
          else h1.put l { h1.seg l with start := (h1.seg b).stop }) = h2
    rw [view_get, hf]
    simp only [Option.map_some]
    by_cases ho : optEq (h2.seg l).stop (h2.seg f).stop
    · rw [if_pos ho, if_pos ho]
      have : (h2.view r)[w.2 - 1]? = some (h2.seg l) := by rw [view_get, hl1]; rfl
      obtain ⟨k, e⟩ := List.getElem?_eq_some_iff.1 this
      rw [← e]; simp
    · rw [if_neg ho, if_neg ho]
      exact view_put h2 _ hn hl1
  · rw [if_neg hc, if_neg hc]

theorem moves_subReverse (h : Store K) (r : List ℕ) (w : ℕ × ℕ) :
    Moves h r (h.subReverse r w).1 (h.subReverse r w).2 := by
  unfold Store.subReverse
  by_cases h0 : subLen w = 0
  · rw [if_pos h0]; exact Moves.refl _ _
  · rw [if_neg h0]
    split
    · rename_i f l hf hl
      exact (moves_reverseSegments h r w _ _).trans (Moves.of_within ((within_fixMove _ _ _).trans (within_fixClose _ _ _)))
    · exact Moves.refl _ _

theorem view_subReverse (h : Store K) {r : List ℕ} (hn : r.Nodup) (w : ℕ × ℕ) :
    (h.subReverse r w).1.view (h.subReverse r w).2 = subReverse (h.view r) w := by
  unfold Store.subReverse subReverse
  simp only []
  by_cases h0 : subLen w = 0
  · rw [if_pos h0, if_pos h0]
  · rw [if_neg h0, if_neg h0, view_get, view_get]
    cases hf : r[w.1]? with
    | none => rfl
    | some f =>
      cases hl : r[w.2 - 1]? with
      | none => rfl
      | some l =>
        simp only [Option.map_some]
        generalize (if (h.seg l).isClose = true then (subLen w : ℤ) - 2 else (subLen w : ℤ) - 1) = st
        generalize (if (h.seg f).isMove = true then (1 : ℤ) else 0) = sa
        have mv := moves_reverseSegments h r w sa st
        have hn' := mv.nodup hn
        have hlen := mv.perm.length_eq
        obtain ⟨k1, -⟩ := List.getElem?_eq_some_iff.1 hf
        obtain ⟨k2, -⟩ := List.getElem?_eq_some_iff.1 hl
        have hw : w.1 < w.2 := by unfold subLen at h0; omega
        rw [view_fixClose _ hn' w hw (by omega), view_fixMove _ hn' w, view_reverseSegments h hn w]
        rfl

theorem foldl_moves (ws : List (ℕ × ℕ)) (c : Store K × List ℕ) :
    Moves c.1 c.2 (ws.foldl (fun (c : Store K × List ℕ) w => c.1.subReverse c.2 w) c).1
      (ws.foldl (fun (c : Store K × List ℕ) w => c.1.subReverse c.2 w) c).2 := by
  induction ws generalizing c with
  | nil => exact Moves.refl _ _
  | cons w ws ih =>
    rw [List.foldl_cons]
    exact (moves_subReverse c.1 c.2 w).trans (ih _)

theorem foldl_view (ws : List (ℕ × ℕ)) (c : Store K × List ℕ) (hn : c.2.Nodup) :
    (ws.foldl (fun (c : Store K × List ℕ) w => c.1.subReverse c.2 w) c).1.view
      (ws.foldl (fun (c : Store K × List ℕ) w => c.1.subReverse c.2 w) c).2 = ws.foldl subReverse (c.1.view c.2) := by
  induction ws generalizing c with
  | nil => rfl
  | cons w ws ih =>
    rw [List.foldl_cons, List.foldl_cons, ih _ ((moves_subReverse c.1 c.2 w).nodup hn), view_subReverse _ hn]

/-- Adding copies of the parts of `r` to a path `q` -/
theorem foldl_iadd_edit (ws : List (ℕ × ℕ)) (r : List ℕ) (d : Store K × List ℕ) (hb : ∀ x ∈ d.2, x < d.1.next) :
    Edit d.1 d.2 (ws.foldl (fun (d : Store K × List ℕ) w => d.1.iadd d.2 (Store.window r w)) d).1
      (ws.foldl (fun (d : Store K × List ℕ) w => d.1.iadd d.2 (Store.window r w)) d).2 := by
  induction ws generalizing d with
  | nil => exact Edit.of_within (Within.refl _ _)
  | cons w ws ih =>
    rw [List.foldl_cons]
    exact (edit_iadd d.1 d.2 _).trans (ih _ ((edit_iadd d.1 d.2 _).bound hb)) hb

theorem foldl_iadd_view (ws : List (ℕ × ℕ)) (r : List ℕ) (d : Store K × List ℕ) (hn : d.2.Nodup)
    (hb : ∀ x ∈ d.2, x < d.1.next) (hr : ∀ x ∈ r, x < d.1.next) (hd : ∀ x ∈ r, x ∉ d.2) :
    (ws.foldl (fun (d : Store K × List ℕ) w => d.1.iadd d.2 (Store.window r w)) d).1.view
      (ws.foldl (fun (d : Store K × List ℕ) w => d.1.iadd d.2 (Store.window r w)) d).2
    = ws.foldl (fun q w => iadd q (subIter (d.1.view r) w)) (d.1.view d.2) := by
  induction ws generalizing d with
  | nil => rfl
  | cons w ws ih =>
    have e := edit_iadd d.1 d.2 (Store.window r w)
    have hv : (d.1.iadd d.2 (Store.window r w)).1.view r = d.1.view r := by
      apply List.map_congr_left
      intro x hx
      exact e.seg x (hr x hx) (hd x hx)
    rw [List.foldl_cons, List.foldl_cons,
      ih _ (e.nodup hn hb) (e.bound hb) (fun x hx => lt_of_lt_of_le (hr x hx) e.next) ?_,
      view_iadd _ hn hb, view_window, hv]
    intro x hx hc
    rcases e.refs x hc with h1 | h1
    · exact hd x hx h1
    · exact absurd (hr x hx) (by omega)

theorem edit_reverse (h : Store K) {r : List ℕ} (hb : ∀ x ∈ r, x < h.next) : Edit h r (h.reverse r).1 (h.reverse r).2 := by
  unfold Store.reverse
  cases r with
  | nil => exact Edit.of_within (Within.refl _ _)
  | cons f t =>
    simp only []
    have w0 : Within h (h.put f { h.seg f with start := none }) (f :: t) := within_put h (by simp) ⟨rfl, rfl⟩
    set h0 := h.put f { h.seg f with start := none }
    set ws := windows (h0.view (f :: t))
    have m := foldl_moves ws (h0, f :: t)
    set c := ws.foldl (fun (c : Store K × List ℕ) w => c.1.subReverse c.2 w) (h0, f :: t)
    have wc : Within h c.1 (f :: t) := w0.trans m.within
    have ed := foldl_iadd_edit ws.reverse c.2 (c.1, []) (by simp)
    set d := ws.reverse.foldl (fun (d : Store K × List ℕ) w => d.1.iadd d.2 (Store.window c.2 w)) (c.1, [])
    have ed' : Edit h (f :: t) d.1 d.2 := by
      refine ⟨?_, ?_, ?_, ?_⟩
      · rw [← wc.next]; exact ed.next
      · intro a ha hr
        rw [ed.seg a (by rw [wc.next]; exact ha) (by simp), wc.seg a hr]
      · intro a ha
        rcases ed.refs a ha with h1 | h1
        · simp at h1
        · rw [wc.next] at h1; exact Or.inr h1
      · intro _ _
        exact ed.nodup (by simp) (by simp)
    cases hd : d.2 with
    | nil => simp only [hd]; rw [hd] at ed'; exact ed'
    | cons g q =>
      simp only []
      have hg : g ∈ d.2 := by simp [hd]
      rw [← hd]
      exact ed'.trans (Edit.of_within (within_put d.1 hg ⟨rfl, rfl⟩)) hb

/-- a segment without its start -/
def clearStart (s : Seg K) : Seg K := { s with start := none }

/-- the first segment of a path gets a start -/
def giveStart (v : Option (Pt K)) : List (Seg K) → List (Seg K)
  | [] => []
  | g :: t => { g with start := v } :: t

/-- the first object of a path gets a start -/
def giveStartAt (v : Option (Pt K)) (d : Store K × List ℕ) : Store K × List ℕ :=
  match d.2 with
  | [] => d
  | g :: _ => (d.1.put g { d.1.seg g with start := v }, d.2)

theorem reverse_cons (f : Seg K) (r : List (Seg K)) :
    reverse (f :: r) = giveStart f.start ((windows (clearStart f :: r)).reverse.foldl
      (fun q w => iadd q (subIter ((windows (clearStart f :: r)).foldl subReverse (clearStart f :: r)) w)) []) := rfl

/-- the path `r` with the store in which its subpaths are reversed -/
def reversedParts (h : Store K) (r : List ℕ) : Store K × List ℕ :=
  (windows (h.view r)).foldl (fun (c : Store K × List ℕ) w => c.1.subReverse c.2 w) (h, r)

/-- copies of the parts of `r` in reverse order -/
def copiedParts (ws : List (ℕ × ℕ)) (c : Store K × List ℕ) : Store K × List ℕ :=
  ws.reverse.foldl (fun (d : Store K × List ℕ) w => d.1.iadd d.2 (Store.window c.2 w)) (c.1, [])

theorem store_reverse_cons (h : Store K) (f : ℕ) (t : List ℕ) :
    h.reverse (f :: t) = giveStartAt (h.seg f).start
      (copiedParts (windows ((h.put f (clearStart (h.seg f))).view (f :: t)))
        (reversedParts (h.put f (clearStart (h.seg f))) (f :: t))) := rfl

theorem view_giveStartAt (v : Option (Pt K)) {d : Store K × List ℕ} (hn : d.2.Nodup) :
    (giveStartAt v d).1.view (giveStartAt v d).2 = giveStart v (d.1.view d.2) := by
  obtain ⟨h, r⟩ := d
  cases r with
  | nil => rfl
  | cons g q =>
    show (h.put g _).view (g :: q) = { h.seg g with start := v } :: h.view q
    rw [view_put (i := 0) h _ hn rfl]
    rfl

theorem view_reverse (h : Store K) {r : List ℕ} (hn : r.Nodup) (hb : ∀ x ∈ r, x < h.next) :
    (h.reverse r).1.view (h.reverse r).2 = reverse (h.view r) := by
  cases r with
  | nil => rfl
  | cons f t =>
    have hft : f ∉ t := (List.nodup_cons.1 hn).1
    show _ = reverse (h.seg f :: h.view t)
    rw [reverse_cons, store_reverse_cons]
    have w0 : Within h (h.put f (clearStart (h.seg f))) (f :: t) := within_put h (by simp) ⟨rfl, rfl⟩
    have v0 : (h.put f (clearStart (h.seg f))).view (f :: t) = clearStart (h.seg f) :: h.view t := by
      show (h.put f _).seg f :: (h.put f _).view t = _
      rw [view_put_of_notMem h _ hft]
      simp [Store.put]
    rw [← v0]
    have hb0 : ∀ x ∈ f :: t, x < (h.put f (clearStart (h.seg f))).next := hb
    generalize h.put f (clearStart (h.seg f)) = h0 at hb0 ⊢
    have m := foldl_moves (windows (h0.view (f :: t))) (h0, f :: t)
    have vm := foldl_view (windows (h0.view (f :: t))) (h0, f :: t) hn
    change Moves h0 (f :: t) (reversedParts h0 (f :: t)).1 (reversedParts h0 (f :: t)).2 at m
    change (reversedParts h0 (f :: t)).1.view (reversedParts h0 (f :: t)).2 = _ at vm
    simp only [] at vm
    rw [← vm]
    generalize reversedParts h0 (f :: t) = c at m ⊢
    generalize windows (h0.view (f :: t)) = ws
    have hcb : ∀ x ∈ c.2, x < c.1.next := by
      intro x hx
      rw [m.within.next]
      exact hb0 x ((m.perm.mem_iff).1 hx)
    have vd := foldl_iadd_view ws.reverse c.2 (c.1, []) (by simp) (by simp) hcb (by simp)
    have ed := foldl_iadd_edit ws.reverse c.2 (c.1, []) (by simp)
    change Edit c.1 [] (copiedParts ws c).1 (copiedParts ws c).2 at ed
    change (copiedParts ws c).1.view (copiedParts ws c).2 = _ at vd
    rw [view_giveStartAt _ (ed.nodup (by simp) (by simp)), vd]
    rfl

/-! ### programs -/

/-- All objects in use exist -/
def Bounded (w : World K) : Prop := ∀ i, ∀ a ∈ w.refs i, a < w.store.next

/-- No object is in use twice -/
structure Owned (w : World K) : Prop where
  bounded : Bounded w
  nodup : ∀ i, (w.refs i).Nodup
  apart : ∀ i j, i ≠ j → ∀ a ∈ w.refs i, a ∉ w.refs j

theorem edit_new_insert {h : Store K} {r : List ℕ} {s : Seg K} {i : ℤ} {c : Store K × List ℕ}
    (hb : ∀ a ∈ r, a < h.next) (hc : (h.new s).1.insert r i (h.new s).2 = .ok c) : Edit h r c.1 c.2 := by
  obtain ⟨n1, n2, n3, -⟩ := new_spec h s
  obtain ⟨e, w⟩ := within_ok_insert _ _ _ _ hc
  refine edit_of (h1 := (h.new s).1) (by omega) n3 ?_ ?_ w
  · intro a ha
    rw [e] at ha
    rcases mem_insertIdx_cases ha with h1 | h1
    · rw [n2] at h1; exact Or.inr ⟨by omega, by omega⟩
    · exact Or.inl h1
  · intro hn _
    rw [e, n2]
    exact insertIdx_nodup _ hn (fun hx => absurd (hb _ hx) (by omega))

theorem edit_sub {h h' : Store K} {r r' q : List ℕ} (e : Edit h r h' r') (hs : r.Sublist q) (hb : ∀ a ∈ q, a < h.next) :
    Edit h q h' r' :=
  ⟨e.next, fun a ha hq => e.seg a ha (fun hc => hq (hs.subset hc)),
   fun a ha => (e.refs a ha).imp (fun hx => hs.subset hx) id,
   fun hn _ => e.nodup (hn.sublist hs) (fun a ha => hb a (hs.subset ha))⟩

/-- A command changes only objects of the paths it uses, and the path it edits or makes gets only these and new ones. -/
theorem act_edit {w : World K} (hb : Bounded w) (c : Cmd K) {x : Store K × List ℕ} (hx : w.act c = .ok x) :
    Edit w.store ((Spec.uses c).flatMap w.refs) x.1 x.2 := by
  have one : ∀ i, [i].flatMap w.refs = w.refs i := by intro i; simp
  cases c with
  | create segs =>
    simp only [World.act, Except.ok.injEq] at hx
    subst hx
    obtain ⟨n1, n2, n3, n4⟩ := newAll_spec w.store segs
    refine edit_of (h1 := (w.store.newAll segs).1) (by omega) n3 ?_ ?_ (within_connections _ _)
    · intro a ha
      simp only [n2, List.mem_range'_1] at ha
      exact Or.inr ⟨ha.1, by omega⟩
    · intro _ _
      simp only [n2]
      exact List.nodup_range'
  | append i make =>
    simp only [World.act, Except.ok.injEq] at hx
    subst hx
    simp only [Spec.uses, one]
    obtain ⟨n1, n2, n3, -⟩ := new_spec w.store (make (w.store.view (w.refs i)))
    refine edit_of (h1 := (w.store.new (make (w.store.view (w.refs i)))).1) (by omega) n3 ?_ ?_ (within_append _ _ _)
    · intro a ha
      simp only [Store.append, List.mem_append, List.mem_singleton, n2] at ha
      rcases ha with ha | ha
      · exact Or.inl ha
      · exact Or.inr ⟨by omega, by omega⟩
    · intro hn _
      simp only [Store.append, n2]
      exact nodup_append_new 1 hn (hb i)
  | insert i index s =>
    simp only [Spec.uses, one]
    exact edit_new_insert (hb i) hx
  | set i index s =>
    simp only [Spec.uses, one]
    obtain ⟨n1, n2, n3, -⟩ := new_spec w.store s
    obtain ⟨⟨k, -, e⟩, wi⟩ := within_ok_set _ _ _ _ hx
    refine edit_of (h1 := (w.store.new s).1) (by omega) n3 ?_ ?_ wi
    · intro a ha
      rw [e] at ha
      rcases List.mem_or_eq_of_mem_set ha with h1 | h1
      · exact Or.inl h1
      · rw [n2] at h1; exact Or.inr ⟨by omega, by omega⟩
    · intro hn _
      rw [e, n2]
      exact set_nodup _ hn (fun hx => absurd (hb i _ hx) (by omega))
  | del i index =>
    simp only [Spec.uses, one]
    obtain ⟨⟨k, e⟩, wi⟩ := within_ok_del _ _ _ hx
    refine edit_of (h1 := w.store) le_rfl (fun _ _ => rfl) ?_ ?_ wi
    · intro a ha
      rw [e] at ha
      exact Or.inl ((List.eraseIdx_sublist _ _).subset ha)
    · intro hn _
      rw [e]
      exact hn.sublist (List.eraseIdx_sublist _ _)
  | setSlice i a b segs =>
    simp only [World.act, Except.ok.injEq] at hx
    subst hx
    simp only [Spec.uses, one]
    obtain ⟨n1, n2, n3, n4⟩ := newAll_spec w.store segs
    refine edit_of (h1 := (w.store.newAll segs).1) (by omega) n3 ?_ ?_ (within_connections _ _)
    · intro x hx
      rcases mem_putSlice hx with h1 | h1
      · exact Or.inl h1
      · rw [n2, List.mem_range'_1] at h1
        exact Or.inr ⟨h1.1, by omega⟩
    · intro hn _
      refine putSlice_nodup _ _ hn (by rw [n2]; exact List.nodup_range') ?_
      intro x hx hc
      rw [n2, List.mem_range'_1] at hc
      exact absurd (hb i x hx) (by omega)
  | iadd i j =>
    simp only [World.act, Except.ok.injEq] at hx
    subst hx
    simp only [Spec.uses, one]
    exact edit_iadd _ _ _
  | iaddSub i j v =>
    simp only [World.act, Except.ok.injEq] at hx
    subst hx
    simp only [Spec.uses, one]
    exact edit_iadd _ _ _
  | subImul i v m =>
    simp only [World.act, Except.ok.injEq] at hx
    subst hx
    simp only [Spec.uses, one]
    exact Edit.of_within ((within_imulAll _ _ _).mono (window_sub _ _))
  | subReverse i v =>
    simp only [World.act, Except.ok.injEq] at hx
    subst hx
    simp only [Spec.uses, one]
    exact (moves_subReverse _ _ _).edit
  | reverse i =>
    simp only [World.act, Except.ok.injEq] at hx
    subst hx
    simp only [Spec.uses, one]
    exact edit_reverse _ (hb i)
  | appendOf i j k =>
    simp only [World.act] at hx
    cases hk : (w.refs j)[k]? with
    | none => rw [hk] at hx; simp at hx
    | some a =>
      rw [hk] at hx
      simp only [Except.ok.injEq] at hx
      subst hx
      have hj : a ∈ w.refs j := List.mem_of_getElem? hk
      have ef : (Spec.uses (.appendOf i j k : Cmd K)).flatMap w.refs = w.refs i ++ w.refs j := by simp [Spec.uses]
      rw [ef]
      refine edit_of (h1 := w.store) le_rfl (fun _ _ => rfl) ?_ ?_ (within_append _ _ _)
      · intro x hx
        simp only [Store.append, List.mem_append, List.mem_singleton] at hx
        rcases hx with hx | hx
        · exact Or.inl (by simp [hx])
        · exact Or.inl (by simp [hx, hj])
      · intro hn _
        exact hn.sublist (List.Sublist.append_left (List.singleton_sublist.2 hj) _)
  | createSub j v =>
    simp only [World.act, Except.ok.injEq] at hx
    subst hx
    simp only [Spec.uses, one]
    exact edit_of (h1 := w.store) le_rfl (fun _ _ => rfl) (fun x hx => Or.inl (window_sub _ _ x hx))
      (fun hn _ => hn.sublist ((List.drop_sublist _ _).trans (List.take_sublist _ _))) (Within.refl _ _)
  | createSlice j a b =>
    simp only [World.act, Except.ok.injEq] at hx
    subst hx
    simp only [Spec.uses, one]
    have hs : (getSlice (w.refs j) a b).Sublist (w.refs j) := (List.drop_sublist _ _).trans (List.take_sublist _ _)
    exact edit_of (h1 := w.store) le_rfl (fun _ _ => rfl) (fun x hx => Or.inl (hs.subset hx))
      (fun hn _ => hn.sublist hs) (within_connections _ _)
  | raddSeg s j v =>
    simp only [Spec.uses, one]
    have hs : (Store.window (w.refs j) v).Sublist (w.refs j) := (List.drop_sublist _ _).trans (List.take_sublist _ _)
    exact edit_sub (edit_new_insert (fun a ha => hb j a (hs.subset ha)) hx) hs (hb j)

theorem pathOf_contents (w : World K) (i : ℕ) : Spec.pathOf w.contents i = w.store.view (w.refs i) := by
  unfold Spec.pathOf World.contents World.refs
  rw [List.getD_eq_getElem?_getD, List.getD_eq_getElem?_getD, List.getElem?_map]
  cases w.paths[i]? <;> rfl

/-- A command with new segments does to the path what it does to a list of its own. -/
theorem act_view {w : World K} (ho : Owned w) (c : Cmd K) (hf : c.fresh = true) :
    (w.act c).map (fun x => x.1.view x.2) = Spec.actAlone w.contents c := by
  have hb := ho.bounded
  have hn := ho.nodup
  cases c with
  | create segs =>
    obtain ⟨n1, n2, n3, n4⟩ := newAll_spec w.store segs
    show Except.ok _ = Except.ok _
    congr 1
    show ((w.store.newAll segs).1.validateConnections _).view (w.store.newAll segs).2 = _
    rw [view_connections _ (by rw [n2]; exact List.nodup_range'), n4]
  | append i make =>
    obtain ⟨n1, n2, n3, n4⟩ := new_spec w.store (make (w.store.view (w.refs i)))
    show Except.ok _ = Except.ok _
    congr 1
    rw [pathOf_contents]
    show ((w.store.new _).1.append (w.refs i) (w.store.new _).2).1.view (w.refs i ++ [(w.store.new _).2]) = _
    rw [n2, view_append _ (nodup_append_new 1 (hn i) (hb i)), n4, view_old (hb i) n3]
  | insert i index s =>
    obtain ⟨n1, n2, n3, n4⟩ := new_spec w.store s
    simp only [World.act, Spec.actAlone, pathOf_contents, n2]
    rw [view_insert _ _ (insertIdx_nodup _ (hn i) (fun hx => absurd (hb i _ hx) (by omega))), n4, view_old (hb i) n3]
  | set i index s =>
    obtain ⟨n1, n2, n3, n4⟩ := new_spec w.store s
    simp only [World.act, Spec.actAlone, pathOf_contents, n2]
    rw [view_set _ _ (fun k => set_nodup _ (hn i) (fun hx => absurd (hb i _ hx) (by omega))), n4, view_old (hb i) n3]
  | del i index =>
    simp only [World.act, Spec.actAlone, pathOf_contents]
    exact view_del _ _ (hn i)
  | setSlice i a b segs =>
    obtain ⟨n1, n2, n3, n4⟩ := newAll_spec w.store segs
    show Except.ok _ = Except.ok _
    congr 1
    rw [pathOf_contents]
    show ((w.store.newAll segs).1.validateConnections (putSlice (w.refs i) a b _)).view (putSlice (w.refs i) a b _) = _
    rw [view_connections _ ?_, view_putSlice, n4, view_old (hb i) n3]
    · rfl
    · refine putSlice_nodup _ _ (hn i) (by rw [n2]; exact List.nodup_range') ?_
      intro x hx hc
      rw [n2, List.mem_range'_1] at hc
      exact absurd (hb i x hx) (by omega)
  | iadd i j =>
    show Except.ok _ = Except.ok _
    congr 1
    rw [pathOf_contents, pathOf_contents]
    exact view_iadd _ (hn i) (hb i)
  | iaddSub i j v =>
    show Except.ok _ = Except.ok _
    congr 1
    rw [pathOf_contents, pathOf_contents, ← view_window]
    exact view_iadd _ (hn i) (hb i)
  | subImul i v m =>
    show Except.ok _ = Except.ok _
    congr 1
    rw [pathOf_contents]
    exact view_subImul _ _ (hn i) _
  | subReverse i v =>
    show Except.ok _ = Except.ok _
    congr 1
    rw [pathOf_contents]
    exact view_subReverse _ (hn i) _
  | reverse i =>
    show Except.ok _ = Except.ok _
    congr 1
    rw [pathOf_contents]
    exact view_reverse _ (hn i) (hb i)
  | appendOf i j k => simp [Cmd.fresh] at hf
  | createSub j v => simp [Cmd.fresh] at hf
  | createSlice j a b => simp [Cmd.fresh] at hf
  | raddSeg s j v => simp [Cmd.fresh] at hf

end Svgio.Props
