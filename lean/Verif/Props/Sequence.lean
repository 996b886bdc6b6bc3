import Verif.Model.Sequence
import Verif.Props.PathSlice

/-!
C101: a matrix as a sequence; C102: a segment as a sequence of its points; C103: the constructor of moves; C55: sums that begin with a
segment or a text.
-/

namespace Svgio.Props
open Spec

variable {K : Type} [Field K] [LinearOrder K]

/-! ### C101 -/

/-- **C101**, items, partial: the items 0 to 5 of a matrix are its components; assigning to one changes this one only; and `Matrix` of
the six items is the matrix. Missing: iteration, see `C101_iteration_wrong`. -/
theorem C101_items_partial (m : Mat K) :
    (∃ v : Fin 6 → K, (∀ i : Fin 6, m.getItem (i : ℕ) = .ok (some (v i))) ∧ m = ⟨v 0, v 1, v 2, v 3, v 4, v 5⟩ ∧
      Mat.ofComponents (List.ofFn v) = .ok m) ∧
    ∀ i : ℤ, 0 ≤ i → i < 6 → ∀ v, (m.setItem i v).getItem i = .ok (some v) ∧ ∀ j, j ≠ i → (m.setItem i v).getItem j = m.getItem j := by
  refine ⟨⟨![m.a, m.b, m.c, m.d, m.e, m.f], ?_, rfl, ?_⟩, ?_⟩
  · intro i; fin_cases i <;> rfl
  · simp [Mat.ofComponents]
  · intro i h0 h6 v
    have : i = 0 ∨ i = 1 ∨ i = 2 ∨ i = 3 ∨ i = 4 ∨ i = 5 := by omega
    rcases this with rfl | rfl | rfl | rfl | rfl | rfl <;> refine ⟨rfl, fun j hj => ?_⟩ <;> simp [Mat.setItem, Mat.getItem, hj]

/-- A loop over a matrix, `list(matrix)` or `a, b, c, d, e, f = matrix` never comes to an end: after any number of items there is a
next one. -/
theorem C101_iteration_wrong (m : Mat K) (fuel : ℕ) (i : ℤ) : seqList m.getItem fuel i = none := by
  induction fuel generalizing i with
  | zero => rfl
  | succ n ih =>
    have : ∃ v, m.getItem i = .ok v := by unfold Mat.getItem; split_ifs <;> exact ⟨_, rfl⟩
    obtain ⟨v, hv⟩ := this
    unfold seqList
    rw [hv]; simp only [ih]

/-- A loop over a point goes through its two coordinates. -/
theorem C99_iteration (p : Pt K) (fuel : ℕ) (h : 3 ≤ fuel) : seqList p.getItem fuel 0 = some (.ok [p.x, p.y]) := by
  obtain ⟨n, rfl⟩ : ∃ n, fuel = n + 3 := ⟨fuel - 3, by omega⟩
  rfl

/-! ### C102 -/

/-- the points of a segment that are set, in the order in which the constructor takes them -/
def setPoints (s : Seg K) : List (Pt K) :=
  match s.kind with
  | .move | .line | .close => s.start.toList ++ s.stop.toList
  | .quad c => s.start.toList ++ c.toList ++ s.stop.toList
  | .cubic c d => s.start.toList ++ c.toList ++ d.toList ++ s.stop.toList
  | .arc a => s.start.toList ++ s.stop.toList ++ [a.center, a.prx, a.pry]

/-- of two points that follow each other in the segment, one is set -/
def NoGap (s : Seg K) : Prop :=
  match s.kind with
  | .move | .line | .close | .arc _ => s.start ≠ none ∨ s.stop ≠ none
  | .quad c => (s.start ≠ none ∨ c ≠ none) ∧ (c ≠ none ∨ s.stop ≠ none)
  | .cubic c d => (s.start ≠ none ∨ c ≠ none) ∧ (c ≠ none ∨ d ≠ none) ∧ (d ≠ none ∨ s.stop ≠ none)

theorem drain_filter {α : Type} (l : List (Option α)) (h : ∀ k, l[k]? = some none → l[k + 1]? ≠ some none) :
    ∀ fuel k, l.length < fuel + k → (Seg.drain l fuel k).2 = ((l.drop k).filterMap id).map some := by
  intro fuel
  induction fuel with
  | zero =>
    intro k hk
    rw [List.drop_eq_nil_of_le (by omega)]; rfl
  | succ n ih =>
    intro k hk
    by_cases hkl : l.length ≤ k
    · rw [List.drop_eq_nil_of_le hkl]
      unfold Seg.drain Seg.next
      rw [List.getElem?_eq_none hkl]; rfl
    · push Not at hkl
      have e := List.drop_eq_getElem_cons hkl
      have g : l[k]? = some l[k] := List.getElem?_eq_getElem hkl
      cases hv : l[k] with
      | some v =>
        rw [e, hv]
        unfold Seg.drain Seg.next
        rw [g, hv]
        simp only [List.filterMap_cons, id, List.map_cons]
        rw [ih (k + 1) (by omega)]; rfl
      | none =>
        rw [e, hv]
        unfold Seg.drain Seg.next
        rw [g, hv]
        by_cases hk1 : l.length ≤ k + 1
        · rw [List.getElem?_eq_none hk1, List.drop_eq_nil_of_le hk1]; rfl
        · push Not at hk1
          have e1 := List.drop_eq_getElem_cons hk1
          have g1 : l[k + 1]? = some l[k + 1] := List.getElem?_eq_getElem hk1
          have hn := h k (by rw [g, hv])
          cases hw : l[k + 1] with
          | none => rw [g1, hw] at hn; exact absurd rfl hn
          | some w =>
            rw [g1, e1, hw]
            simp only [List.filterMap_cons, id, List.map_cons]
            rw [ih (k + 2) (by omega)]; rfl

/-- **C102**, partial: `list(segment)` are the points of the segment that are set, in order, if of two neighbours at least one is set; and
`len(segment)` is the number of its points. See `C102_gap_wrong` for the others. -/
theorem C102_list_partial {s : Seg K} (h : NoGap s) : s.toList = (setPoints s).map some := by
  have key : ∀ l, s.items = l → (∀ k, l[k]? = some none → l[k + 1]? ≠ some none) → s.toList = (l.filterMap id).map some := by
    rintro l rfl h; unfold Seg.toList; rw [drain_filter _ h _ 0 (by omega)]; rfl
  unfold NoGap at h
  unfold setPoints
  obtain ⟨kind, start, stop, rel, sm⟩ := s
  cases kind with
  | quad c =>
    rw [key [start, c, stop] rfl]
    · cases start <;> cases c <;> cases stop <;> rfl
    · intro k hk
      match k with
      | 0 => simp at hk ⊢; simp at h; tauto
      | 1 => simp at hk ⊢; simp at h; tauto
      | k + 2 => simp
  | cubic c d =>
    rw [key [start, c, d, stop] rfl]
    · cases start <;> cases c <;> cases d <;> cases stop <;> rfl
    · intro k hk
      match k with
      | 0 => simp at hk ⊢; simp at h; tauto
      | 1 => simp at hk ⊢; simp at h; tauto
      | 2 => simp at hk ⊢; simp at h; tauto
      | k + 3 => simp
  | arc a =>
    rw [key [start, stop, some a.center, some a.prx, some a.pry] rfl]
    · cases start <;> cases stop <;> rfl
    · intro k hk
      match k with
      | 0 => simp at hk ⊢; simp at h; tauto
      | 1 => simp
      | 2 => simp
      | 3 => simp
      | k + 4 => simp
  | _ =>
    rw [key [start, stop] rfl]
    · cases start <;> cases stop <;> rfl
    · intro k hk
      match k with
      | 0 => simp at hk ⊢; simp at h; tauto
      | k + 1 => simp

omit [Field K] [LinearOrder K] in
theorem C102_len [Field K] [LinearOrder K] (s : Seg K) : s.len = s.items.length := by
  obtain ⟨kind, start, stop, rel, sm⟩ := s
  cases kind <;> rfl

example : NoGap (⟨.quad none, some ⟨0, 0⟩, some ⟨1, 0⟩, false, true⟩ : Seg ℚ) := by simp [NoGap]

/-- **C102**, partial: `path.as_points()` gives the points of all segments in order. -/
theorem C102_points_partial {p : List (Seg K)} (h : ∀ s ∈ p, NoGap s) : Path.asPoints p = .ok (p.flatMap setPoints) := by
  have key : ∀ l : List (Pt K), Path.pointsOf (l.map some) = .ok l := by
    intro l
    induction l with
    | nil => rfl
    | cons a l ih => simp only [List.map_cons, Path.pointsOf, ih]
  unfold Path.asPoints
  have e : p.flatMap Seg.toList = (p.flatMap setPoints).map some := by
    induction p with
    | nil => rfl
    | cons s r ih =>
      rw [List.flatMap_cons, List.flatMap_cons, List.map_append, ih (fun t ht => h t (by simp [ht])),
        C102_list_partial (h s (by simp))]
  rw [e, key]

example : ∀ s ∈ exEdit, NoGap s := by
  intro s hs
  simp only [exEdit, List.mem_cons, List.not_mem_nil, or_false] at hs
  rcases hs with rfl | rfl | rfl | rfl | rfl | rfl | rfl <;> simp [NoGap]

/-- Where two neighbours are not set, None is among the items: for a cubic curve without control points. -/
theorem C102_gap_wrong (a b : Pt K) :
    (⟨.cubic none none, some a, some b, false, true⟩ : Seg K).toList = [some a, none, some b] ∧
    Path.asPoints [(⟨.cubic none none, some a, some b, false, true⟩ : Seg K)] = .error .noneCoord := ⟨rfl, rfl⟩

/-- A loop over a segment within a loop over the same segment ends the outer one: of the four pairs of points of a line, two are
missing. -/
theorem C102_nested_wrong (a b : Pt K) :
    (⟨.line, some a, some b, false, true⟩ : Seg K).pairs = [(some a, some a), (some a, some b)] := rfl

/-! ### C103 -/

/-- **C103**, partial: the documented forms of `Move`: `Move(e)`, `Move(s, e)`, `Move(e, start=s)`, `Move(s, end=e)` and
`Move(start=s, end=e)` go from `s` to `e`; all but the first also with further keywords. -/
theorem C103_forms_partial (s e : Pt K) (more : ℕ) :
    Seg.moveEnds { args := [e] } = (none, some e) ∧
    Seg.moveEnds { args := [s, e], more := more } = (some s, some e) ∧
    Seg.moveEnds { args := [e], start := some s, more := more } = (some s, some e) ∧
    Seg.moveEnds { args := [s], stop := some e, more := more } = (some s, some e) ∧
    Seg.moveEnds { start := some s, stop := some e, more := more } = (some s, some e) ∧
    Seg.moveEnds { stop := some e, more := more } = (none, some e) := by
  refine ⟨rfl, rfl, ?_, ?_, rfl, rfl⟩ <;> simp [Seg.moveEnds]

/-- `Move(e, relative=True)` goes nowhere. -/
theorem C103_relative_wrong (e : Pt K) (more : ℕ) (h : 0 < more) : Seg.moveEnds { args := [e], more := more } = (none, none) := by
  simp [Seg.moveEnds]; omega

/-! ### C55 -/

/-- **C55**, `text + path`, partial: the segments `q` of the text followed by those of the path, of which only the start of the first may
change. The conditions are those of `C55_iadd_partial`. -/
theorem C55_text_sum_partial [IsStrictOrderedRing K] {q p : List (Seg K)} (hq : Sound q) (hp : Sound p)
    (hm : ∀ s, p.head? = some s → s.kind = .move) :
    ∃ p', Path.textAdd q p = q ++ p' ∧ p'.length = p.length ∧ ∀ i s, p[i]? = some s → ∃ s', p'[i]? = some s' ∧
      s'.kind = s.kind ∧ s'.stop = s.stop ∧ s'.relative = s.relative ∧ (q = [] ∨ 0 < i → s'.start = s.start) :=
  C55_iadd_partial hq hp hm

/-- `segment + path` has lost the segments of the path. -/
theorem C55_segment_path_wrong {s : Seg K} (hm : s.kind ≠ .move) (hc : s.kind ≠ .close) (p : List (Seg K)) :
    Path.segAddPath s p = .ok [s] := by
  have m0 : s.isMove = false := by
    cases hb : s.isMove with
    | false => rfl
    | true => exact absurd (isMove_iff.mp hb) hm
  have c0 : s.isClose = false := by
    cases hb : s.isClose with
    | false => rfl
    | true => exact absurd (isClose_iff.mp hb) hc
  have v : ∀ j : ℤ, Path.validateConnection [s] j = [s] := by
    intro j
    unfold Path.validateConnection
    split_ifs
    · rfl
    · cases j.toNat <;> simp
  unfold Path.segAddPath Path.copy Path.insert
  simp [Path.insertPos, m0, c0, v]

/-- `segment + text` has lost the segment: it is the path of the text. -/
theorem C55_segment_text_wrong (parse : List (Seg K) → List (Seg K)) (s : Seg K) : Path.segAddText parse s = parse [] := rfl

/-- `segment + segment` has the two segments, but they are not joined: with `Line(0,0 to 1,0) + Line(5,5 to 6,5)` the second still starts
at 5,5. -/
theorem C55_segments_wrong :
    let p := Path.segAdd (⟨.line, some ⟨0, 0⟩, some ⟨1, 0⟩, false, true⟩ : Seg ℚ) ⟨.line, some ⟨5, 5⟩, some ⟨6, 5⟩, false, true⟩
    Path.isValid p = false := by decide +kernel

end Svgio.Props
