import Verif.Props.PathSlice
import Verif.Props.SegGeom
import Verif.Props.PathCache

/-!
C95: editing a path through a subpath; C96: transforming a subpath.
-/

namespace Svgio.Props
open Spec

variable {K : Type} [Field K] [LinearOrder K]

omit [Field K] [LinearOrder K] in
theorem subIter_part (p : List (Seg K)) (w : ℕ × ℕ) : Path.subIter p w = part p w.1 w.2 := by
  unfold Path.subIter part; rw [subIterGo_eq, List.drop_take]

theorem forall₂_take {α β : Type} {R : α → β → Prop} {l : List α} {l' : List β} (h : List.Forall₂ R l l') (n : ℕ) :
    List.Forall₂ R (l.take n) (l'.take n) := by
  induction h generalizing n with
  | nil => simp
  | cons h1 _ ih => cases n with
    | zero => simp
    | succ n => exact .cons h1 (ih n)

theorem forall₂_drop {α β : Type} {R : α → β → Prop} {l : List α} {l' : List β} (h : List.Forall₂ R l l') (n : ℕ) :
    List.Forall₂ R (l.drop n) (l'.drop n) := by
  induction h generalizing n with
  | nil => simp
  | cons h1 h2 ih => cases n with
    | zero => exact .cons h1 h2
    | succ n => exact ih n

theorem part_set {α : Type} (p : List α) (u v i : ℕ) (s : α) :
    part (p.set (u + i) s) u v = (part p u v).set i s ∧ (p.set (u + i) s).take u = p.take u ∧
      (u + i < v → (p.set (u + i) s).drop v = p.drop v) := by
  unfold part
  refine ⟨?_, ?_, fun h => ?_⟩
  · rw [List.take_set, List.drop_set, if_neg (by omega)]; congr 1; omega
  · rw [List.take_set, List.set_eq_of_length_le (by simp)]
  · rw [List.drop_set, if_pos h]

theorem part_erase {α : Type} (p : List α) {u v i : ℕ} (h : u + i < v) (hv : v ≤ p.length) :
    part (p.eraseIdx (u + i)) u (v - 1) = (part p u v).eraseIdx i ∧ (p.eraseIdx (u + i)).take u = p.take u ∧
      (p.eraseIdx (u + i)).drop (v - 1) = p.drop v := by
  have e : p.eraseIdx (u + i) = p.take (u + i) ++ p.drop (u + i + 1) := List.eraseIdx_eq_take_drop_succ p (u + i)
  have l1 : (p.take (u + i)).length = u + i := by rw [List.length_take]; omega
  refine ⟨?_, ?_, ?_⟩
  · unfold part
    apply List.ext_getElem?
    intro k
    rw [List.getElem?_drop, List.getElem?_take, List.getElem?_eraseIdx, List.getElem?_eraseIdx, List.getElem?_drop, List.getElem?_drop,
      List.getElem?_take, List.getElem?_take]
    split_ifs <;> first | rfl | omega | (congr 1)
  · rw [e, List.take_append_of_le_length (by omega), List.take_take]; congr 1; omega
  · rw [e, List.drop_append, List.drop_eq_nil_of_le (by omega), List.nil_append, List.drop_drop, l1]; congr 1; omega

theorem numericIndex_pos (u v i : ℕ) : Path.numericIndex (u, v) (i : ℤ) = ((u + i : ℕ) : ℤ) := by
  unfold Path.numericIndex; rw [if_neg (by omega)]; push_cast; rfl

theorem numericIndex_neg {u v i : ℕ} (h : u + i < v) :
    Path.numericIndex (u, v) ((i : ℤ) - ((v - u : ℕ) : ℤ)) = ((u + i : ℕ) : ℤ) := by
  unfold Path.numericIndex; rw [if_pos (by omega)]; push_cast; omega

variable [IsStrictOrderedRing K]

/-- **C95**, assignment, partial: `subpath[i] = segment` for a window of a connected path puts the segment at place `i` of the subpath,
and the other segments, in the subpath and outside, are kept; only the connections are repaired. The index may also be given from
the end. The conditions are those of C49 (the start of a closed subpath does not move). -/
theorem C95_set_partial {p : List (Seg K)} (hp : Sound p) {u v : ℕ} (hv : v ≤ p.length) {s x : Seg K} {i : ℕ} (hi : u + i < v)
    (hx : p[u + i]? = some x) (hs : s.stop ≠ none) (hm : u + i = 0 ∨ x.kind = .move ∨ s.kind = .move → OpenFrom p (u + i + 1))
    (hc : s.kind = .close → u + i + 1 = p.length) :
    ∃ p', Path.subSet p (u, v) i s = .ok p' ∧ Path.subSet p (u, v) ((i : ℤ) - (v - u : ℕ)) s = .ok p' ∧ Sound p' ∧
      List.Forall₂ Repairs ((Path.subIter p (u, v)).set i s) (Path.subIter p' (u, v)) ∧
      List.Forall₂ Repairs (p.take u) (p'.take u) ∧ List.Forall₂ Repairs (p.drop v) (p'.drop v) := by
  obtain ⟨p', h1, h2, h3⟩ := C49_setitem_partial hp hx hs hm hc
  obtain ⟨e1, e2, e3⟩ := part_set p u v i s
  refine ⟨p', ?_, ?_, h2, ?_, ?_, ?_⟩
  · unfold Path.subSet; rw [numericIndex_pos]; exact h1
  · unfold Path.subSet; rw [numericIndex_neg hi]; exact h1
  · rw [subIter_part, subIter_part, ← e1]
    exact forall₂_drop (forall₂_take h3 _) _
  · rw [← e2]; exact forall₂_take h3 _
  · rw [← e3 hi]; exact forall₂_drop h3 _

/-- **C95**, deletion, partial: `del subpath[i]` for a window of a connected path removes the segment at place `i` of the subpath; the
subpath then shows the others, and the segments outside are kept; only the connections are repaired. The index may also be given
from the end. The conditions are those of C49. -/
theorem C95_del_partial {p : List (Seg K)} (hp : Sound p) {u v : ℕ} (hv : v ≤ p.length) {x : Seg K} {i : ℕ} (hi : u + i < v)
    (hx : p[u + i]? = some x) (h0 : u + i = 0 → ∀ f, p[1]? = some f → f.kind = .move)
    (hm : 0 < u + i → x.kind = .move → OpenFrom p (u + i + 1)) :
    ∃ p' w', Path.subDel p (u, v) i = .ok (p', w') ∧ Path.subDel p (u, v) ((i : ℤ) - (v - u : ℕ)) = .ok (p', w') ∧ Sound p' ∧
      List.Forall₂ Repairs ((Path.subIter p (u, v)).eraseIdx i) (Path.subIter p' w') ∧
      List.Forall₂ Repairs (p.take u) (p'.take u) ∧ List.Forall₂ Repairs (p.drop v) (p'.drop w'.2) := by
  obtain ⟨p', h1, h2, h3⟩ := C49_delitem_partial hp hx h0 hm
  obtain ⟨e1, e2, e3⟩ := part_erase p hi hv
  refine ⟨p', (u, v - 1), ?_, ?_, h2, ?_, ?_, ?_⟩
  · unfold Path.subDel; rw [numericIndex_pos, h1]
  · unfold Path.subDel; rw [numericIndex_neg hi, h1]
  · rw [subIter_part, subIter_part, ← e1]
    exact forall₂_drop (forall₂_take h3 _) _
  · rw [← e2]; exact forall₂_take h3 _
  · rw [← e3]; exact forall₂_drop h3 _

/-- the second segment of the second subpath of `M0,0 L1,0 L2,0 Z M5,5 L6,5 Z` -/
example : Sound exEdit ∧ Path.windows exEdit = [(0, 4), (4, 7)] ∧ exEdit[4 + 1]? = some ⟨.line, some ⟨5, 5⟩, some ⟨6, 5⟩, false, true⟩ :=
  ⟨exEdit_sound, by decide +kernel, rfl⟩
example : ∃ p', Path.subSet exEdit (4, 7) 1 ⟨.line, none, some ⟨9, 9⟩, false, true⟩ = .ok p' ∧
    (Path.subIter p' (4, 7)).map Seg.stop = [some ⟨5, 5⟩, some ⟨9, 9⟩, some ⟨5, 5⟩] := ⟨_, rfl, by decide +kernel⟩

theorem place_window {n u w : ℕ} (h1 : u ≤ w) (h2 : w ≤ n) {i : ℤ} (h : -((w - u : ℕ) : ℤ) ≤ i ∧ i ≤ (w - u : ℕ)) {k : ℕ}
    (hk : Place (w - u) i k) : Place n (Path.numericIndex (u, w) i) (u + k) := by
  unfold Path.numericIndex
  rcases hk with hk | hk | hk | hk
  · rw [if_neg (by omega)]; refine Or.inl ?_; simp only; omega
  · omega
  · rw [if_pos (by omega)]; refine Or.inl ?_; simp only; omega
  · omega

/-- **C95**, assignment to a slice, partial: for bounds within `-len .. len`, `subpath[a:b] = segments` puts the segments in place of
those of the subpath's slice, keeps the others, and connects the path again. Missing: bounds outside, and the window: if the number of
segments changes the subpath does not follow. -/
theorem C95_set_slice_partial {p v : List (Seg K)} (hp : HasEnds p) (hv : HasEnds v) {u w : ℕ} (h1 : u ≤ w) (h2 : w ≤ p.length)
    {a b : Option ℤ} (ha : ∀ i, a = some i → -((w - u : ℕ) : ℤ) ≤ i ∧ i ≤ (w - u : ℕ))
    (hb : ∀ i, b = some i → -((w - u : ℕ) : ℤ) ≤ i ∧ i ≤ (w - u : ℕ)) {lo hi : ℕ} (h : Places (w - u) a b lo hi) :
    Connected Near (Path.subSetSlice p (u, w) a b v) ∧
    List.Forall₂ Repairs (p.take u ++ splice (Path.subIter p (u, w)) lo hi v ++ p.drop w) (Path.subSetSlice p (u, w) a b v) := by
  obtain ⟨hlo, k, hk, hh⟩ := h
  have A : Place p.length (Path.numericIndex (u, w) (a.getD 0)) (u + lo) := by
    cases a with
    | none => exact place_window h1 h2 (by simp) (Or.inl (by simp at hlo ⊢; exact hlo))
    | some i => exact place_window h1 h2 (ha i rfl) hlo
  have B : Place p.length (Path.numericIndex (u, w) (b.getD (Path.subLen (u, w)))) (u + k) := by
    cases b with
    | none =>
      have hk' : k = w - u := hk
      refine place_window h1 h2 (by simp [Path.subLen]) (Or.inl ?_)
      simp [Path.subLen, hk']
    | some i => exact place_window h1 h2 (hb i rfl) hk
  have bl : lo ≤ w - u := by
    cases a with
    | none => simp at hlo; omega
    | some i => have := ha i rfl; rcases hlo with h | h | h | h <;> omega
  have bk : k ≤ w - u := by
    cases b with
    | none => simp at hk; omega
    | some i => have := hb i rfl; rcases hk with h | h | h | h <;> omega
  have hs := C94_set hp hv (a := (Path.subSlice (u, w) a b).1) (b := (Path.subSlice (u, w) a b).2) (lo := u + lo) (hi := u + hi)
    ⟨A, u + k, B, by omega⟩
  have e : splice p (u + lo) (u + hi) v = p.take u ++ splice (Path.subIter p (u, w)) lo hi v ++ p.drop w := by
    rw [subIter_part]
    unfold splice part
    simp only [List.append_assoc]
    rw [List.take_add, List.append_assoc, List.drop_drop]
    congr 1
    have h3 : (p.drop u).take lo = ((p.take w).drop u).take lo := by
      rw [List.take_drop, List.take_drop, List.take_take, min_eq_left (by omega)]
    rw [h3]
    congr 2
    have : p.drop (u + hi) = (p.take w).drop (u + hi) ++ p.drop w := by
      conv_lhs => rw [← List.take_append_drop w p]
      rw [List.drop_append_of_le_length (by simp; omega)]
    rw [this]
  rw [e] at hs
  exact ⟨hs.1, hs.2.2⟩

/-- the last two segments of the first subpath of `M0,0 L1,0 L2,0 Z M5,5 L6,5 Z` -/
example : HasEnds exEdit ∧ Places (4 - 0) (some (-2)) none 2 4 :=
  ⟨exEdit_sound.2.2, Or.inr (Or.inr (Or.inl (by decide))), 4, rfl, rfl⟩

/-- So does adding path data: `subpath += "L2,0"`. -/
theorem C95_append_text_wrong :
    (Path.subIaddText exLine (0, 2) [⟨.line, none, some ⟨2, 0⟩, false, true⟩]).map Seg.stop = [some ⟨0, 0⟩, some ⟨2, 0⟩, some ⟨1, 0⟩] := by
  decide +kernel

omit [IsStrictOrderedRing K] in
/-- **C53**, comparison: a subpath equals a path when they have the same number of segments and these are equal in order. -/
theorem C53_equal {p : List (Seg K)} {u w : ℕ} (h1 : u ≤ w) (h2 : w ≤ p.length) (q : List (Seg K)) :
    Path.subEq p (u, w) q = true ↔ List.Forall₂ (fun s o => s.eq o = true) (Path.subIter p (u, w)) q := by
  have hl : (Path.subIter p (u, w)).length = w - u := by rw [subIter_part]; unfold part; simp; omega
  unfold Path.subEq
  have hs : Path.subLen (u, w) = w - u := rfl
  rw [hs]
  split_ifs with h
  · constructor
    · simp
    · intro hq; exact absurd (hl ▸ hq.length_eq) h
  · generalize Path.subIter p (u, w) = l at hl ⊢
    have h' : l.length = q.length := by omega
    clear h hs hl
    induction l generalizing q with
    | nil => cases q with
      | nil => simp
      | cons => simp at h'
    | cons x l ih => cases q with
      | nil => simp at h'
      | cons y q =>
        have := ih q (by simpa using h')
        simp only [List.zip_cons_cons, List.all_cons, Bool.and_eq_true, List.forall₂_cons, this]

/-- Adding a segment puts it before the last one of the subpath, which then no longer belongs to the subpath: with `M0,0 L1,0`,
`subpath += Line to 2,0` gives `M0,0 L2,0 L1,0`, of which the subpath shows the first two. -/
theorem C95_append_wrong : Path.windows exLine = [(0, 2)] ∧ ∃ p',
    Path.subIadd exLine (0, 2) ⟨.line, none, some ⟨2, 0⟩, false, true⟩ = .ok p' ∧
    p'.map Seg.stop = [some ⟨0, 0⟩, some ⟨2, 0⟩, some ⟨1, 0⟩] ∧
    (Path.subIter p' (0, 2)).map Seg.stop = [some ⟨0, 0⟩, some ⟨2, 0⟩] :=
  ⟨by decide +kernel, _, rfl, by decide +kernel⟩

/-- Adding a path to a subpath adds nothing. -/
theorem C95_append_path_wrong {p : List (Seg K)} (hp : HasEnds p) {w : ℕ × ℕ} (h1 : 1 ≤ w.2) (h2 : w.2 ≤ p.length) (q : List (Seg K)) :
    List.Forall₂ Repairs p (Path.subIaddPath p w q) := by
  have h : Places p.length (some ((w.2 : ℤ) - 1)) (some ((w.2 : ℤ) - 1)) (w.2 - 1) (w.2 - 1) := by
    have : Place p.length ((w.2 : ℤ) - 1) (w.2 - 1) := Or.inl ⟨by omega, by omega, by omega⟩
    exact ⟨this, _, this, by simp⟩
  have := (C94_set hp (v := []) (by intro s hs; simp at hs) h).2.2
  unfold splice at this
  simpa [Path.subIaddPath, Path.copy] using this

/-- Deleting a slice of a subpath makes it show segments of the next one: after `del subpath[1:3]` on the first subpath of
`M0,0 L1,0 L2,0 Z M5,5 L6,5 Z`, it shows the move to 5,5. -/
theorem C95_slice_wrong :
    let r := Path.subDelSlice exEdit (0, 4) (some 1) (some 3)
    r.1.map Seg.stop = [some ⟨0, 0⟩, some ⟨0, 0⟩, some ⟨5, 5⟩, some ⟨6, 5⟩, some ⟨5, 5⟩] ∧
    (Path.subIter r.1 r.2).map Seg.stop = [some ⟨0, 0⟩, some ⟨0, 0⟩, some ⟨5, 5⟩] := by
  decide +kernel

omit [IsStrictOrderedRing K] in
/-- `subpath + segment` has lost the segments of the subpath. -/
theorem C95_sum_wrong (p : List (Seg K)) {w : ℕ × ℕ} (h : 1 ≤ w.2) {s : Seg K} (hm : s.kind ≠ .move) (hc : s.kind ≠ .close) :
    Path.subAdd p w s = .ok ([s], w) := by
  have m0 : s.isMove = false := by
    cases hb : s.isMove with
    | false => rfl
    | true => exact absurd (isMove_iff.mp hb) hm
  have c0 : s.isClose = false := by
    cases hb : s.isClose with
    | false => rfl
    | true => exact absurd (isClose_iff.mp hb) hc
  have e : Path.insertPos ([] : List (Seg K)).length ((w.2 : ℤ) - 1) = 0 := by
    unfold Path.insertPos; split_ifs <;> simp
    omega
  unfold Path.subAdd Path.subIadd Path.subCopy Path.insert
  simp only [e, m0, c0]
  have : ∀ j : ℤ, Path.validateConnection [s] j = [s] := by
    intro j
    unfold Path.validateConnection
    split_ifs
    · rfl
    · cases j.toNat <;> simp
  simp [this]

/-- `text + subpath` adds the whole path and not only the subpath: with the second subpath of `M0,0 L1,0 L2,0 Z M5,5 L6,5 Z`, seven
segments are added instead of three. -/
theorem C95_text_sum_wrong : (Path.subIter exEdit (4, 7)).length = 3 ∧ (Path.raddText exLine exEdit (4, 7)).length = exLine.length + 7 := by
  decide +kernel

/-- **C95**, `segment + subpath`, partial: for a subpath that begins with a move and a segment with an end that is not a close, the new
path has the segment followed by those of the subpath. -/
theorem C95_radd_partial {p : List (Seg K)} {w : ℕ × ℕ} {f : Seg K} {r : List (Seg K)} (hw : Path.subIter p w = f :: r)
    (hf : f.kind = .move) {s : Seg K} {e : Pt K} (hs : s.stop = some e) (hc : s.kind ≠ .close) :
    ∃ f', Path.raddSeg s p w = .ok (s :: f' :: r) ∧ Repairs f f' ∧ ∃ d, f'.start = some d ∧ Near e d := by
  have c0 : s.isClose = false := by
    cases hb : s.isClose with
    | false => rfl
    | true => exact absurd (isClose_iff.mp hb) hc
  have hseg : Path.subSegments p w = f :: r := by
    rw [← hw, subIter_eq]
  obtain ⟨d, hd, hd1⟩ := relink_cons e f r
  have fm : ({ f with start := some d } : Seg K).isMove = true := isMove_iff.mpr hf
  have hv : Path.validateConnection (Path.validateConnection (s :: f :: r) ((0 : ℤ) - 1)) 0 =
      s :: { f with start := some d } :: r := by
    rw [vc_neg (i := (0 : ℤ) - 1) (by simp), ← hd]
    exact vc_at (l := []) hs rfl
  refine ⟨{ f with start := some d }, ?_, ⟨rfl, rfl, rfl, fun _ => rfl⟩, d, rfl, ?_⟩
  · unfold Path.raddSeg Path.insert
    rw [hseg]
    simp only [Path.insertPos, le_refl, if_true, Int.toNat_zero, Nat.zero_min, List.insertIdx_zero, hv, c0]
    rw [if_neg (by rintro ⟨-, h⟩; simp at h; omega)]
    simp only [Bool.false_eq_true, if_false]
    by_cases sm : s.isMove = true
    · rw [if_pos sm]
      unfold Path.validateMove Path.pyIdx
      simp only [le_refl, if_true]
      rw [if_pos (by simp; omega)]
      simp [Path.closeNext, fm]
    · rw [if_neg sm]
  · rcases hd1 with h | h
    · exact near_iff.mp h
    · rw [h]; exact near_refl _

/-- a curve before the second subpath -/
example : ∃ f r, Path.subIter exEdit (4, 7) = f :: r ∧ f.kind = .move := ⟨_, _, rfl, rfl⟩

/-! ### C96 -/

theorem part_splice {α : Type} {p l : List α} {u v : ℕ} (h1 : u ≤ v) (h2 : v ≤ p.length) (hl : l.length = v - u) (k : ℕ) :
    (p.take u ++ l ++ p.drop v)[k]? = if u ≤ k ∧ k < v then l[k - u]? else p[k]? := by
  have l1 : (p.take u).length = u := by rw [List.length_take]; omega
  split_ifs with h
  · rw [List.append_assoc, List.getElem?_append_right (by omega), List.getElem?_append_left (by omega), l1]
  · rcases not_and_or.mp h with h | h
    · rw [List.append_assoc, List.getElem?_append_left (by omega), List.getElem?_take, if_pos (by omega)]
    · rw [List.getElem?_append_right (by simp; omega), List.getElem?_drop]
      congr 1; simp; omega

omit [LinearOrder K] [IsStrictOrderedRing K] in
theorem subImul_get {m : Mat K} {p : List (Seg K)} {u v : ℕ} [LinearOrder K] (h1 : u ≤ v) (h2 : v ≤ p.length) (k : ℕ) :
    (Path.subImul m p (u, v))[k]? = if u ≤ k ∧ k < v then p[k]?.map (Seg.imul m) else p[k]? := by
  have hl : (part p u v).length = v - u := by unfold part; simp; omega
  unfold Path.subImul
  rw [subIter_part]
  simp only [hl]
  rw [show u + (v - u) = v by omega, part_splice h1 h2 (by simpa using hl)]
  split_ifs with h
  · rw [List.getElem?_map]
    unfold part
    rw [List.getElem?_drop, List.getElem?_take, if_pos (by omega)]
    congr 2; omega
  · rfl

/-- **C96**: `subpath *= matrix` transforms every point of the segments of the subpath, and leaves all other segments of the path as they
are. (For arcs see C79.) -/
theorem C96_transform (m : Mat K) {p : List (Seg K)} {u v : ℕ} (h1 : u ≤ v) (h2 : v ≤ p.length) :
    (Path.subImul m p (u, v)).length = p.length ∧
    (∀ k, k < u ∨ v ≤ k → (Path.subImul m p (u, v))[k]? = p[k]?) ∧
    ∀ k s, u ≤ k → k < v → p[k]? = some s → ∃ s', (Path.subImul m p (u, v))[k]? = some s' ∧
      (NoArc s → ∀ numpy t, s'.point numpy t = (s.point numpy t).map m.pointInMatrixSpace) := by
  refine ⟨?_, ?_, ?_⟩
  · unfold Path.subImul
    rw [subIter_part]
    unfold part
    simp; omega
  · intro k hk
    rw [subImul_get h1 h2, if_neg (by omega)]
  · intro k s hk hk' hs
    refine ⟨Seg.imul m s, by rw [subImul_get h1 h2, if_pos ⟨hk, hk'⟩, hs]; rfl, fun hn numpy t => ?_⟩
    exact (C57_transform numpy s hn m t).2.1

/-- moving the first subpath by 10 -/
example : (Path.subImul (⟨1, 0, 0, 1, 10, 0⟩ : Mat ℚ) exEdit (0, 4)).map Seg.stop =
    [some ⟨10, 0⟩, some ⟨11, 0⟩, some ⟨12, 0⟩, some ⟨10, 0⟩, some ⟨5, 5⟩, some ⟨6, 5⟩, some ⟨5, 5⟩] := by decide +kernel

omit [IsStrictOrderedRing K] in
/-- `subpath * matrix` has no segments, whatever the subpath is. -/
theorem C96_product_wrong (m : Mat K) (p : List (Seg K)) (w : ℕ × ℕ) :
    (Path.subMul m p w).1 = [] ∧ Path.subIter (Path.subMul m p w).1 (Path.subMul m p w).2 = [] := by
  have h : ∀ w : ℕ × ℕ, Path.subIter ([] : List (Seg K)) w = [] := by
    intro w; rw [subIter_part]; simp [part]
  have e : (Path.subMul m p w).1 = [] := by
    unfold Path.subMul Path.subImul Path.subCopy
    simp [h]
  rw [e]; exact ⟨rfl, h _⟩

/-- After `subpath *= matrix` the path is no longer connected: the move that follows the first subpath of
`M0,0 L1,0 L2,0 Z M5,5 L6,5 Z` still starts where the subpath ended before. -/
theorem C96_disconnected_wrong : Sound exEdit ∧
    ¬ Connected Near (Path.subImul (⟨1, 0, 0, 1, 10, 0⟩ : Mat ℚ) exEdit (0, 4)) := by
  refine ⟨exEdit_sound, ?_⟩
  rw [← C48_is_valid]
  · decide +kernel
  · have h : (Path.subImul (⟨1, 0, 0, 1, 10, 0⟩ : Mat ℚ) exEdit (0, 4)).all (fun s => s.stop.isSome) = true := by decide +kernel
    intro s hs he
    have := List.all_eq_true.mp h s hs
    rw [he] at this; simp at this

/-- After `subpath *= matrix` a length asked for before is still given: for `M0,0 L1,0` scaled by 2 it is still 1. -/
theorem C96_length_wrong {E : Type} {len : E → Seg ℚ → ℚ} (hl : StraightLen len) (rnd : ℚ → ℤ) (e : E) :
    let c := Path.Cached.subImul (⟨2, 0, 0, 2, 0, 0⟩ : Mat ℚ) (0, 2) (Path.Cached.run len rnd { segs := exLine } [.length e])
    Path.lengthOf len e c = 1 ∧ (c.segs.map (len e)).sum = 2 := by
  have l0 := fun a b => hl.1 e ⟨.move, a, b, false, true⟩ rfl
  have l1 : ∀ (a b : Pt ℚ) (d : ℚ), 0 ≤ d → d ^ 2 = (a.x - b.x) ^ 2 + (a.y - b.y) ^ 2 →
      len e ⟨.line, some a, some b, false, true⟩ = d := fun a b d h1 h2 => hl.2 e _ a b d (by simp) rfl rfl h1 h2
  have h2 : Path.subImul (⟨2, 0, 0, 2, 0, 0⟩ : Mat ℚ) exLine (0, 2) =
      [⟨.move, none, some ⟨0, 0⟩, false, true⟩, ⟨.line, some ⟨0, 0⟩, some ⟨2, 0⟩, false, true⟩] := by decide +kernel
  constructor
  · show (exLine.map (len e)).sum = 1
    simp only [exLine, List.map_cons, List.map_nil, List.sum_cons, List.sum_nil]
    rw [l0, l1 _ _ 1 (by norm_num) (by norm_num)]
    norm_num
  · show ((Path.subImul (⟨2, 0, 0, 2, 0, 0⟩ : Mat ℚ) exLine (0, 2)).map (len e)).sum = 2
    rw [h2]
    simp only [List.map_cons, List.map_nil, List.sum_cons, List.sum_nil]
    rw [l0, l1 _ _ 2 (by norm_num) (by norm_num)]
    norm_num

end Svgio.Props
