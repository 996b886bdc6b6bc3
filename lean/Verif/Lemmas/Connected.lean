import Verif.Spec.Connected
import Verif.Lemmas.PathAppend

/-! Connected paths and appending. -/

namespace Svgio
open Spec

section
variable {K : Type}

theorem isMove_iff {s : Seg K} : s.isMove = true ↔ s.kind = .move := by
  unfold Seg.isMove; cases s.kind <;> simp
theorem isClose_iff {s : Seg K} : s.isClose = true ↔ s.kind = .close := by
  unfold Seg.isClose; cases s.kind <;> simp

theorem getElem?_snoc {α} (p : List α) (s : α) (i : ℕ) :
    (p ++ [s])[i]? = if i < p.length then p[i]? else if i = p.length then some s else none := by
  split_ifs with h1 h2
  · exact List.getElem?_append_left h1
  · subst h2; simp
  · rw [List.getElem?_eq_none]; simp; omega

theorem getElem?_lt {α} {p : List α} {i : ℕ} {a : α} (h : p[i]? = some a) : i < p.length := by
  by_contra hn
  rw [List.getElem?_eq_none (by omega)] at h
  simp at h

theorem subpathStart_congr {p p' : List (Seg K)} {i : ℕ} {q : Pt K} (h : ∀ k, k < i → p[k]? = p'[k]?)
    (h0 : p[0]? = p'[0]?) : SubpathStart p i q ↔ SubpathStart p' i q := by
  unfold SubpathStart
  constructor
  · rintro (⟨j, m, hj, hm, hk, hs, hn⟩ | ⟨hn, s, h1, h2⟩)
    · exact Or.inl ⟨j, m, hj, by rw [← h j hj]; exact hm, hk, hs, fun k s h1 h2 h3 => hn k s h1 h2 (by rw [h k h2]; exact h3)⟩
    · exact Or.inr ⟨fun k s h1 h2 => hn k s h1 (by rw [h k h1]; exact h2), s, by rw [← h0]; exact h1, h2⟩
  · rintro (⟨j, m, hj, hm, hk, hs, hn⟩ | ⟨hn, s, h1, h2⟩)
    · exact Or.inl ⟨j, m, hj, by rw [h j hj]; exact hm, hk, hs, fun k s h1 h2 h3 => hn k s h1 h2 (by rw [← h k h2]; exact h3)⟩
    · exact Or.inr ⟨fun k s h1 h2 => hn k s h1 (by rw [← h k h1]; exact h2), s, by rw [h0]; exact h1, h2⟩

/-- the subpath start is unique -/
theorem subpathStart_unique {p : List (Seg K)} {i : ℕ} {q q' : Pt K} (h : SubpathStart p i q)
    (h' : SubpathStart p i q') : q = q' := by
  rcases h with ⟨j, m, hj, hm, hk, hs, hn⟩ | ⟨hn, s, h1, h2⟩ <;>
  rcases h' with ⟨j', m', hj', hm', hk', hs', hn'⟩ | ⟨hn', s', h1', h2'⟩
  · have : j = j' := by
      rcases lt_trichotomy j j' with h | h | h
      · exact absurd hk' (hn _ _ h hj' hm')
      · exact h
      · exact absurd hk (hn' _ _ h hj hm)
    subst this
    rw [hm] at hm'; cases hm'
    rw [hs] at hs'; exact Option.some.inj hs'
  · exact absurd hk (hn' _ _ hj hm)
  · exact absurd hk' (hn _ _ hj' hm')
  · rw [h1] at h1'; cases h1'
    rw [h2] at h2'; exact Option.some.inj h2'

/-- `zPoint` is the start of the subpath after the last segment -/
theorem subpathStart_zPoint {p : List (Seg K)} {q : Pt K} (he : HasEnds p) (hz : Path.zPoint p = some q) :
    SubpathStart p p.length q := by
  unfold Path.zPoint at hz
  cases hf : p.reverse.find? Seg.isMove with
  | none =>
    rw [hf] at hz
    right
    constructor
    · intro k s hk hs hm
      have hmem := List.mem_of_getElem? hs
      have := List.find?_eq_none.mp hf s (by simpa using hmem)
      exact this (isMove_iff.mpr hm)
    · cases p with
      | nil => simp at hz
      | cons a l => exact ⟨a, by simp, by simpa using hz⟩
  | some m =>
    rw [hf] at hz
    have hms : m.stop = some q := by
      have hmem : m ∈ p := by simpa using List.mem_of_find?_eq_some hf
      cases hst : m.stop with
      | none => exact absurd hst (he m hmem)
      | some q' => simpa [hst] using hz
    left
    obtain ⟨hmv, as, bs, hrev, has⟩ := List.find?_eq_some_iff_append.mp hf
    have hp : p = bs.reverse ++ m :: as.reverse := by
      have := congrArg List.reverse hrev
      simpa using this
    refine ⟨bs.length, m, ?_, ?_, isMove_iff.mp hmv, hms, ?_⟩
    · rw [hp]; simp
    · rw [hp]; simp
    · intro k s hk _ hs hm
      rw [hp, List.getElem?_append_right (by simp; omega)] at hs
      obtain ⟨d, hd⟩ : ∃ d, k - bs.reverse.length = d + 1 := ⟨k - bs.length - 1, by simp; omega⟩
      rw [hd, List.getElem?_cons_succ] at hs
      have hmem : s ∈ as := by simpa using List.mem_of_getElem? hs
      have := has s hmem
      rw [isMove_iff.mpr hm] at this
      simp at this

theorem Connected.nil {R S : Pt K → Pt K → Prop} : Conn R S ([] : List (Seg K)) :=
  ⟨fun i a b h => by simp at h, fun i s h => by simp at h⟩

theorem Connected.single {R S : Pt K → Pt K → Prop} {s : Seg K} (h : s.kind ≠ .close) : Conn R S [s] := by
  constructor
  · intro i a b _ h; simp at h
  · intro i t ht hc
    have : t = s := by
      cases i with
      | zero => simpa using ht.symm
      | succ i => simp at ht
    exact absurd (this ▸ hc) h

/-- adding a segment at the end of a connected path -/
theorem Connected.snoc {R S : Pt K → Pt K → Prop} {p : List (Seg K)} {s : Seg K} {u v : Pt K}
    (h : Conn R S p) (hne : p ≠ []) (hu : Path.currentPoint p = some u) (hv : s.start = some v) (hR : R u v)
    (hc : s.kind = .close → ∃ q w, SubpathStart p p.length q ∧ s.stop = some w ∧ S q w) :
    Conn R S (p ++ [s]) := by
  have hpos : 0 < p.length := List.length_pos_iff.mpr hne
  constructor
  · intro i a b ha hb
    have hi : i + 1 < (p ++ [s]).length := getElem?_lt hb
    simp at hi
    rw [getElem?_snoc, if_pos (by omega)] at ha
    rw [getElem?_snoc] at hb
    split_ifs at hb with h1 h2
    · exact h.1 i a b ha hb
    · cases hb
      refine ⟨u, v, ?_, hv, hR⟩
      unfold Path.currentPoint at hu
      rw [List.getLast?_eq_getElem?, show p.length - 1 = i by omega, ha] at hu
      exact hu
  · intro i t ht hk
    have hi : i < (p ++ [s]).length := getElem?_lt ht
    simp at hi
    have cg : ∀ k, k < i → p[k]? = (p ++ [s])[k]? := fun k hk => by
      rw [getElem?_snoc, if_pos (by omega)]
    have c0 : p[0]? = (p ++ [s])[0]? := by rw [getElem?_snoc, if_pos hpos]
    rw [getElem?_snoc] at ht
    split_ifs at ht with h1 h2
    · obtain ⟨q, w, hq, hw⟩ := h.2 i t ht hk
      exact ⟨q, w, (subpathStart_congr cg c0).mp hq, hw⟩
    · cases ht
      obtain ⟨q, w, hq, hw⟩ := hc hk
      subst h2
      exact ⟨q, w, (subpathStart_congr cg c0).mp hq, hw⟩

theorem HasEnds.snoc {p : List (Seg K)} {s : Seg K} (h : HasEnds p) (hs : s.stop ≠ none) : HasEnds (p ++ [s]) := by
  intro t ht
  rcases List.mem_append.mp ht with ht | ht
  · exact h t ht
  · simp at ht; subst ht; exact hs

/-- A path to which text can be added: not empty, every segment has an end, connected (joined up to `R`, closing
up to `S`). -/
structure Good (R S : Pt K → Pt K → Prop) (p : List (Seg K)) : Prop where
  ne : p ≠ []
  ends : HasEnds p
  conn : Conn R S p

theorem Good.cur {R S : Pt K → Pt K → Prop} {p : List (Seg K)} (h : Good R S p) : ∃ u, Path.currentPoint p = some u := by
  unfold Path.currentPoint
  rcases List.eq_nil_or_concat p with hp | ⟨q, a, hp⟩
  · exact absurd hp h.ne
  · have : a.stop ≠ none := h.ends a (by simp [hp])
    cases hs : a.stop with
    | none => exact absurd hs this
    | some u => exact ⟨u, by simp [hp, hs]⟩

theorem zPoint_some {p : List (Seg K)} (hne : p ≠ []) (he : HasEnds p) : ∃ q, Path.zPoint p = some q := by
  unfold Path.zPoint
  cases (p.reverse.find? Seg.isMove).bind Seg.stop with
  | some q => exact ⟨q, rfl⟩
  | none =>
    cases p with
    | nil => exact absurd rfl hne
    | cons a l =>
      cases hs : a.stop with
      | none => exact absurd hs (he a (by simp))
      | some q => exact ⟨q, by simp [hs]⟩

end

variable {K : Type} [Field K] [LinearOrder K] [IsStrictOrderedRing K]

/-- the close target computed by the code is the subpath start -/
theorem closeTarget_eq {p : List (Seg K)} {s : Seg K} (hs : s.isMove = false) (hne : p ≠ []) (he : HasEnds p) :
    Path.closeTarget (p ++ [s]) p.length = Path.zPoint p := by
  unfold Path.closeTarget Path.zPoint
  rw [show p.length + 1 = (p ++ [s]).length by simp, List.take_length, Path.find_move_concat, hs]
  cases hf : p.reverse.find? Seg.isMove with
  | none =>
    cases p with
    | nil => exact absurd rfl hne
    | cons a l => rfl
  | some m =>
    have hmem : m ∈ p := by simpa using List.mem_of_find?_eq_some hf
    cases hst : m.stop with
    | none => exact absurd hst (he m hmem)
    | some q => simp [hst]

/-- appending a segment that starts at the current point and has an end -/
theorem Good.append {R S : Pt K → Pt K → Prop} [Std.Refl R] [Std.Refl S] {p : List (Seg K)} (h : Good R S p) {s : Seg K} (hs : s.start = Path.currentPoint p)
    (hstop : s.stop ≠ none) : Good R S (Path.append p s) := by
  obtain ⟨u, hu⟩ := h.cur
  by_cases hc : s.isClose = true
  · obtain ⟨q, hq⟩ := zPoint_some h.ne h.ends
    have hm : s.isMove = false := by
      rw [isClose_iff] at hc; unfold Seg.isMove; rw [hc]
    have : Path.append p s = p ++ [{ s with stop := some q }] := by
      unfold Path.append
      rw [Path.validateConnection_append p s hs]
      simp only [hc, if_true]
      unfold Path.validateClose
      rw [closeTarget_eq hm h.ne h.ends, hq]
      simp
    rw [this]
    refine ⟨by simp, HasEnds.snoc h.ends (by simp), Connected.snoc h.conn h.ne hu (hs.trans hu) (Std.Refl.refl u) ?_⟩
    intro _
    exact ⟨q, q, subpathStart_zPoint h.ends hq, rfl, Std.Refl.refl q⟩
  · rw [Path.append_eq p s hs (by simpa using hc)]
    refine ⟨by simp, HasEnds.snoc h.ends hstop, Connected.snoc h.conn h.ne hu (hs.trans hu) (Std.Refl.refl u) ?_⟩
    intro hk
    exact absurd (isClose_iff.mpr hk) hc

end Svgio
