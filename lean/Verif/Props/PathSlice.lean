import Verif.Props.Subpaths
import Verif.Model.SubpathEdit
import Verif.Spec.Slice

/-!
C94: slices of a path; C98: texts in place of segments; C53: slices of a subpath.
-/

namespace Svgio.Props
open Spec

variable {K : Type} [Field K] [LinearOrder K]

/-! ### bounds -/

theorem place_unique {n : ℕ} {i : ℤ} {k : ℕ} (h : Place n i k) : Path.sliceBound n i = k := by
  unfold Path.sliceBound
  rcases h with ⟨h1, h2, h3⟩ | ⟨h1, h2⟩ | ⟨h1, h2, h3⟩ | ⟨h1, h2⟩ <;> split_ifs <;> omega

theorem place_bound (n : ℕ) (i : ℤ) : Place n i (Path.sliceBound n i) := by
  unfold Place Path.sliceBound
  split_ifs <;> omega

theorem places_unique {n : ℕ} {a b : Option ℤ} {lo hi : ℕ} (h : Places n a b lo hi) : Path.sliceBounds n a b = (lo, hi) := by
  obtain ⟨h1, k, h2, rfl⟩ := h
  unfold Path.sliceBounds
  cases a <;> cases b <;> simp only at h1 h2 ⊢
  · rw [h1, h2]
  · rw [h1, place_unique h2]
  · rw [h2, place_unique h1]
  · rw [place_unique h1, place_unique h2]

theorem places_bounds (n : ℕ) (a b : Option ℤ) : Places n a b (Path.sliceBounds n a b).1 (Path.sliceBounds n a b).2 := by
  unfold Places Path.sliceBounds
  refine ⟨?_, match b with | none => n | some i => Path.sliceBound n i, ?_, rfl⟩
  · cases a <;> simp [place_bound]
  · cases b <;> simp [place_bound]

/-! ### C94 -/

omit [Field K] [LinearOrder K] in
theorem hasEnds_splice {p v : List (Seg K)} (hp : HasEnds p) (hv : HasEnds v) (lo hi : ℕ) : HasEnds (splice p lo hi v) := by
  intro s hs
  unfold splice at hs
  rcases List.mem_append.mp hs with h | h
  · rcases List.mem_append.mp h with h | h
    · exact hp s (List.mem_of_mem_take h)
    · exact hv s h
  · exact hp s (List.mem_of_mem_drop h)

omit [Field K] [LinearOrder K] in
theorem drawnEnds_of {p : List (Seg K)} (h : HasEnds p) : DrawnEnds p :=
  fun _ s hs _ => h s (List.mem_of_getElem? hs)

variable [IsStrictOrderedRing K]

/-- **C94**: `path[a:b] = segments` for any bounds, when all segments have ends: the segments between the places that the bounds mean
are replaced, and the path is connected again; apart from that the segments, and the ends of all but closes, are kept. -/
theorem C94_set {p v : List (Seg K)} (hp : HasEnds p) (hv : HasEnds v) {a b : Option ℤ} {lo hi : ℕ} (h : Places p.length a b lo hi) :
    Connected Near (Path.setSlice p a b v) ∧ HasEnds (Path.setSlice p a b v) ∧
    List.Forall₂ Repairs (splice p lo hi v) (Path.setSlice p a b v) := by
  have e : Path.putSlice p a b v = splice p lo hi v := by
    unfold Path.putSlice splice; rw [places_unique h]
  have := C48_validate_connections (drawnEnds_of (hasEnds_splice hp hv lo hi))
  unfold Path.setSlice
  rw [e]
  exact ⟨this.1, this.2.1, this.2.2.1⟩

/-- **C94**: `del path[a:b]` -/
theorem C94_del {p : List (Seg K)} (hp : HasEnds p) {a b : Option ℤ} {lo hi : ℕ} (h : Places p.length a b lo hi) :
    Connected Near (Path.delSlice p a b) ∧ HasEnds (Path.delSlice p a b) ∧
    List.Forall₂ Repairs (splice p lo hi []) (Path.delSlice p a b) :=
  C94_set hp (v := []) (by intro s hs; simp at hs) h

omit [Field K] [LinearOrder K] [IsStrictOrderedRing K] in
/-- **C94**: `path[a:b]` -/
theorem C94_get {p : List (Seg K)} {a b : Option ℤ} {lo hi : ℕ} (h : Places p.length a b lo hi) :
    Path.getSlice p a b = part p lo hi := by
  unfold Path.getSlice part
  rw [places_unique h]

/-- the slice `2:-3` of seven segments -/
example : HasEnds exEdit ∧ Places exEdit.length (some 2) (some (-3)) 2 4 :=
  ⟨exEdit_sound.2.2, Or.inl (by decide), 4, Or.inr (Or.inr (Or.inl (by decide))), rfl⟩

/-- without it, `M0,0 L1,0 M5,5 L6,5 Z` is left -/
example : Path.delSlice exEdit (some 2) (some (-3)) =
    [⟨.move, none, some ⟨0, 0⟩, false, true⟩, ⟨.line, some ⟨0, 0⟩, some ⟨1, 0⟩, false, true⟩,
      ⟨.move, some ⟨1, 0⟩, some ⟨5, 5⟩, false, true⟩, ⟨.line, some ⟨5, 5⟩, some ⟨6, 5⟩, false, true⟩,
      ⟨.close, some ⟨6, 5⟩, some ⟨5, 5⟩, false, true⟩] := by decide +kernel

/-! ### C53, slices -/

omit [Field K] [LinearOrder K] [IsStrictOrderedRing K] in
/-- **C53**, slices, partial: for bounds within `-len .. len`, `subpath[a:b]` are the segments that the same slice of the list of the
subpath's segments has. Missing: bounds outside, see `C53_slice_leaks`. -/
theorem C53_slice_partial {p : List (Seg K)} {u w : ℕ} (h1 : u ≤ w) (h2 : w ≤ p.length) {a b : Option ℤ}
    (ha : ∀ i, a = some i → -((w - u : ℕ) : ℤ) ≤ i ∧ i ≤ (w - u : ℕ)) (hb : ∀ i, b = some i → -((w - u : ℕ) : ℤ) ≤ i ∧ i ≤ (w - u : ℕ))
    {lo hi : ℕ} (h : Places (w - u) a b lo hi) :
    Path.subGetSlice p (u, w) a b = part (Path.subIter p (u, w)) lo hi := by
  have hI : Path.subIter p (u, w) = (p.take w).drop u := by
    unfold Path.subIter; rw [subIterGo_eq, List.drop_take]
  obtain ⟨hlo, k, hk, rfl⟩ := h
  have A : Path.sliceBound p.length (Path.numericIndex (u, w) (a.getD 0)) = u + lo ∧ lo ≤ w - u := by
    unfold Path.sliceBound Path.numericIndex
    cases a with
    | none => simp only [Option.getD_none] at hlo ⊢; exact ⟨by split_ifs <;> omega, by omega⟩
    | some i =>
      have := ha i rfl
      simp only [Option.getD_some] at hlo ⊢
      unfold Place at hlo
      constructor
      · split_ifs <;> omega
      · omega
  have B : Path.sliceBound p.length (Path.numericIndex (u, w) (b.getD (Path.subLen (u, w)))) = u + k ∧ k ≤ w - u := by
    unfold Path.sliceBound Path.numericIndex Path.subLen
    cases b with
    | none => simp only [Option.getD_none] at hk ⊢; exact ⟨by split_ifs <;> omega, by omega⟩
    | some i =>
      have := hb i rfl
      simp only [Option.getD_some] at hk ⊢
      unfold Place at hk
      constructor
      · split_ifs <;> omega
      · omega
  unfold Path.subGetSlice Path.getSlice Path.subSlice Path.sliceBounds part
  simp only [A.1, B.1]
  rw [hI, List.take_drop, List.drop_drop, List.take_take]
  congr 2
  omega

/-- Bounds outside the subpath give segments of the neighbouring one: the slice `2:9` of the first subpath of
`M0,0 L1,0 L2,0 Z M5,5 L6,5 Z`, which has four segments, has five segments. -/
theorem C53_slice_leaks : Path.windows exEdit = [(0, 4), (4, 7)] ∧
    Path.subGetSlice exEdit (0, 4) (some 2) (some 9) = exEdit.drop 2 ∧ (exEdit.drop 2).length = 5 := by
  decide +kernel

/-- the slice `1:-1` of the second subpath -/
example : Places (7 - 4) (some 1) (some (-1)) 1 2 ∧ Path.subGetSlice exEdit (4, 7) (some 1) (some (-1)) = part exEdit 5 6 :=
  ⟨⟨Or.inl (by decide), 2, Or.inr (Or.inr (Or.inl (by decide))), rfl⟩, by decide +kernel⟩

/-! ### C98 -/

theorem extend_move {p q : List (Seg K)} (hp : Sound p) (hq : Sound q) (hm : ∀ s, q.head? = some s → s.kind = .move) :
    ∃ q', Path.extend p q = p ++ q' ∧ q'.length = q.length ∧ Sound (p ++ q') ∧ ∀ i s, q[i]? = some s → ∃ s', q'[i]? = some s' ∧
      s'.kind = s.kind ∧ s'.stop = s.stop ∧ s'.relative = s.relative ∧ s'.smooth = s.smooth ∧
      (p = [] ∨ 0 < i → s'.start = s.start) := by
  by_cases hne : p = []
  · subst hne
    refine ⟨q, ?_, rfl, by simpa using hq, fun i s hs => ⟨s, hs, rfl, rfl, rfl, rfl, fun _ => rfl⟩⟩
    unfold Path.extend
    simp [Path.validateSubpath, Path.validateConnection]
  · obtain ⟨u, hu⟩ := Good.cur (R := Near) (S := Eq) ⟨hne, hp.2.2, hp.1, hp.2.1⟩
    refine ⟨relink u q, extend_sound hp hu hq hm, (relink_repairs u q).length_eq.symm, sound_append hp hu hq hm, ?_⟩
    intro i s hs
    cases q with
    | nil => simp at hs
    | cons f r =>
      obtain ⟨v, hv, -⟩ := relink_cons u f r
      rw [hv]
      cases i with
      | zero =>
        simp at hs; subst hs
        exact ⟨_, rfl, rfl, rfl, rfl, rfl, fun h => by rcases h with h | h; exact absurd h hne; omega⟩
      | succ i =>
        simp at hs
        exact ⟨s, by simp [hs], rfl, rfl, rfl, rfl, fun _ => rfl⟩

theorem appendText_extend {p q : List (Seg K)} (hp : Sound p) (hq : Sound q) (hm : ∀ s, q.head? = some s → s.kind = .move) :
    Path.appendText p q = Path.extend p q := by
  match q, hq, hm with
  | [], _, _ =>
    obtain ⟨q', h1, h2, -⟩ := extend_move hp sound_nil (q := []) (by simp)
    rw [h1, List.length_eq_zero_iff.mp h2]; simp [Path.appendText]
  | [s], hq, hm =>
    have hs : s.kind = .move := hm s rfl
    have hc : s.isClose = false := by unfold Seg.isClose; rw [hs]
    obtain ⟨q', h1, h2, h3, -⟩ := extend_move hp hq hm
    unfold Path.appendText Path.append
    simp only [hc, Bool.false_eq_true, if_false]
    have e : Path.extend p [s] = Path.validateSubpath (Path.validateConnection (p ++ [s]) ((p.length : ℤ) - 1)) ((p.length : ℤ) - 1) := rfl
    rw [e]
    by_cases hne : p = []
    · subst hne; simp [Path.validateSubpath, Path.validateConnection]
    · obtain ⟨u, hu⟩ := Good.cur (R := Near) (S := Eq) ⟨hne, hp.2.2, hp.1, hp.2.1⟩
      have hv : Path.validateConnection (p ++ [s]) ((p.length : ℤ) - 1) = p ++ relink u [s] := by
        obtain ⟨l, a, rfl⟩ : ∃ l a, p = l ++ [a] := by
          rcases List.eq_nil_or_concat p with h | ⟨p', a, h⟩
          · exact absurd h hne
          · exact ⟨p', a, by simpa using h⟩
        have ha : a.stop = some u := by simpa [Path.currentPoint] using hu
        have e1 : l ++ [a] ++ [s] = l ++ a :: [s] := by simp
        rw [e1, vc_at ha (by simp)]; simp
      rw [hv, validateSubpath_sound (sound_append hp hu hq hm)]
  | _ :: _ :: _, _, _ => rfl

/-- **C98**, partial: `path.append(text)` and `path.extend(text)`, for a connected path and a text whose segments `q` begin with a move:
the segments of the path followed by those of the text, of which only the start of the first may change, and the path is
connected. Full statement: this also for `insert` and assignment, and for texts with relative commands from the end of the path. The
rest is false of the code: see `C98_set_wrong`, `C98_insert_wrong` and `C98_relative_wrong`. -/
theorem C98_append_partial {p q : List (Seg K)} (hp : Sound p) (hq : Sound q) (hm : ∀ s, q.head? = some s → s.kind = .move) :
    Path.appendText p q = Path.extend p q ∧
    ∃ q', Path.extend p q = p ++ q' ∧ q'.length = q.length ∧ Sound (p ++ q') ∧ ∀ i s, q[i]? = some s → ∃ s', q'[i]? = some s' ∧
      s'.kind = s.kind ∧ s'.stop = s.stop ∧ s'.relative = s.relative ∧ s'.smooth = s.smooth ∧
      (p = [] ∨ 0 < i → s'.start = s.start) :=
  ⟨appendText_extend hp hq hm, extend_move hp hq hm⟩

/-- the path `M0,0 L1,0` and the segments of two texts -/
def exLine : List (Seg ℚ) := [⟨.move, none, some ⟨0, 0⟩, false, true⟩, ⟨.line, some ⟨0, 0⟩, some ⟨1, 0⟩, false, true⟩]

example : Sound exEdit ∧ Sound exLine ∧ ∀ s, exLine.head? = some s → s.kind = .move :=
  ⟨exEdit_sound, sound_of_chain ⟨0, 0⟩ rfl ⟨⟨0, 0⟩, ⟨1, 0⟩, rfl, rfl, near_refl _, by simp [Seg.isClose], trivial⟩,
    by intro s hs; simp [exLine] at hs; subst hs; rfl⟩

omit [IsStrictOrderedRing K] in
/-- Assigning a text to a segment or slice always fails, unless the text draws nothing. -/
theorem C98_set_wrong (p : List (Seg K)) {q : List (Seg K)} (h : q ≠ []) : Path.setText p q = .error .attributeError := by
  unfold Path.setText
  rw [if_neg (by simpa using h)]

/-- Inserting a text only inserts its first segment: with `L5,5 L6,6` the line to 6,6 is missing. -/
theorem C98_insert_wrong :
    let q := (Lexer.parse floatVal Lexer.dummyArc [] "L5,5 L6,6".toList).1.path
    q.map Seg.stop = [some ⟨5, 5⟩, some ⟨6, 6⟩] ∧
    (Path.insertText exLine 2 q).toOption.map (fun p => p.map Seg.stop) = some [some ⟨0, 0⟩, some ⟨1, 0⟩, some ⟨5, 5⟩] := by
  decide +kernel

/-- Appending a text is not the same as `+=` with it: relative commands start at 0,0 instead of at the end of the path. -/
theorem C98_relative_wrong :
    let t := "m1,1 l1,0".toList
    (Path.appendText exLine (Lexer.parse floatVal Lexer.dummyArc [] t).1.path).map Seg.stop =
      [some ⟨0, 0⟩, some ⟨1, 0⟩, some ⟨1, 1⟩, some ⟨2, 1⟩] ∧
    (Lexer.parse floatVal Lexer.dummyArc exLine t).1.path.map Seg.stop =
      [some ⟨0, 0⟩, some ⟨1, 0⟩, some ⟨2, 1⟩, some ⟨3, 1⟩] := by
  decide +kernel

end Svgio.Props
