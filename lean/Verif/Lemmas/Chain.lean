import Verif.Lemmas.Connected
import Verif.Model.PathEdit
import Mathlib.Data.List.Induction

/-! Connected paths, described from the left. -/

namespace Svgio
open Spec

section
variable {K : Type} {R S : Pt K → Pt K → Prop}

/-- `r` goes on from a path whose current subpath starts at `z` and that ends at `e` -/
def Chain (R S : Pt K → Pt K → Prop) : Pt K → Pt K → List (Seg K) → Prop
  | _, _, [] => True
  | z, e, s :: r => ∃ v u, s.start = some v ∧ s.stop = some u ∧ R e v ∧ (s.isClose = true → S z u) ∧
      Chain R S (if s.isMove then u else z) u r

/-- the subpath start and the end after `r` -/
def after : Pt K → Pt K → List (Seg K) → Pt K × Pt K
  | z, e, [] => (z, e)
  | z, e, s :: r => after (if s.isMove then s.stop.getD z else z) (s.stop.getD e) r

theorem after_cons {z e u : Pt K} {s : Seg K} {r : List (Seg K)} (h : s.stop = some u) :
    after z e (s :: r) = after (if s.isMove then u else z) u r := by
  simp [after, h]

theorem chain_append {z e : Pt K} {a b : List (Seg K)} :
    Chain R S z e (a ++ b) ↔ Chain R S z e a ∧ Chain R S (after z e a).1 (after z e a).2 b := by
  induction a generalizing z e with
  | nil => simp [Chain, after]
  | cons s a ih =>
    simp only [List.cons_append, Chain]
    constructor
    · rintro ⟨v, u, h1, h2, h3, h4, h5⟩
      rw [ih] at h5
      rw [after_cons h2]
      exact ⟨⟨v, u, h1, h2, h3, h4, h5.1⟩, h5.2⟩
    · rintro ⟨⟨v, u, h1, h2, h3, h4, h5⟩, h6⟩
      rw [after_cons h2] at h6
      exact ⟨v, u, h1, h2, h3, h4, ih.mpr ⟨h5, h6⟩⟩

theorem chain_ends {z e : Pt K} {a : List (Seg K)} (h : Chain R S z e a) : HasEnds a := by
  induction a generalizing z e with
  | nil => intro s hs; simp at hs
  | cons s a ih =>
    obtain ⟨v, u, h1, h2, h3, h4, h5⟩ := h
    intro t ht
    rcases List.mem_cons.mp ht with rfl | ht
    · rw [h2]; simp
    · exact ih h5 t ht

theorem after_append {z e : Pt K} {a b : List (Seg K)} :
    after z e (a ++ b) = after (after z e a).1 (after z e a).2 b := by
  induction a generalizing z e with
  | nil => rfl
  | cons s a ih => simp only [List.cons_append, after]; rw [ih]

theorem after_cur {u : Pt K} {s : Seg K} {r : List (Seg K)} (hs : s.stop = some u) (he : HasEnds r) :
    Path.currentPoint (s :: r) = some (after u u r).2 := by
  rcases List.eq_nil_or_concat r with rfl | ⟨q, a, rfl⟩
  · simp [Path.currentPoint, after, hs]
  · rw [List.concat_eq_append, after_append]
    have ha : a.stop ≠ none := he a (by simp)
    obtain ⟨w, hw⟩ := Option.ne_none_iff_exists'.mp ha
    unfold Path.currentPoint
    rw [← List.cons_append, List.getLast?_append]
    simp [after, hw]

theorem after_z {u : Pt K} {s : Seg K} {r : List (Seg K)} (hs : s.stop = some u) (he : HasEnds r) :
    Path.zPoint (s :: r) = some (after u u r).1 := by
  have key : ∀ (r : List (Seg K)) (z e : Pt K), HasEnds r →
      ((r.reverse.find? Seg.isMove).bind Seg.stop = some (after z e r).1) ∨
        (r.reverse.find? Seg.isMove = none ∧ (after z e r).1 = z) := by
    intro r
    induction r using List.reverseRecOn with
    | nil => intro z e _; right; simp [after]
    | append_singleton r a ih =>
      intro z e he
      have he' : HasEnds r := fun t ht => he t (by simp [ht])
      obtain ⟨w, hw⟩ := Option.ne_none_iff_exists'.mp (he a (by simp))
      rw [after_append, after_cons hw]
      simp only [after]
      rw [List.reverse_append]
      simp only [List.reverse_cons, List.reverse_nil, List.nil_append, List.cons_append, List.find?_cons]
      cases hm : a.isMove with
      | true => left; simp [hw]
      | false => simpa using ih z e he'
  unfold Path.zPoint
  rw [List.reverse_cons]
  rcases key r u u he with h | ⟨h1, h2⟩
  · have : ((r.reverse ++ [s]).find? Seg.isMove).bind Seg.stop = some (after u u r).1 := by
      rw [List.find?_append]
      cases hf : r.reverse.find? Seg.isMove with
      | none => rw [hf] at h; simp at h
      | some m => rw [hf] at h; simpa using h
    rw [this]
  · rw [h2]
    have : ((r.reverse ++ [s]).find? Seg.isMove).bind Seg.stop = if s.isMove then some u else none := by
      rw [List.find?_append, h1]
      cases hm : s.isMove <;> simp [hm, hs]
    rw [this]
    split_ifs
    · rfl
    · simp [hs]

/-- connectivity of a path with one more segment -/
theorem connected_snoc_iff {p : List (Seg K)} {s : Seg K} (hne : p ≠ []) (he : HasEnds p) :
    Conn R S (p ++ [s]) ↔ Conn R S p ∧ ∃ u v, Path.currentPoint p = some u ∧ s.start = some v ∧ R u v ∧
      (s.kind = .close → ∃ q w, Path.zPoint p = some q ∧ s.stop = some w ∧ S q w) := by
  have hpos : 0 < p.length := List.length_pos_iff.mpr hne
  obtain ⟨q, hq⟩ := zPoint_some hne he
  have hsub := subpathStart_zPoint he hq
  constructor
  · rintro ⟨h1, h2⟩
    refine ⟨⟨?_, ?_⟩, ?_⟩
    · intro i a b ha hb
      have := getElem?_lt hb
      exact h1 i a b (by rw [getElem?_snoc, if_pos (by omega)]; exact ha)
        (by rw [getElem?_snoc, if_pos (by omega)]; exact hb)
    · intro i t ht hk
      have hi := getElem?_lt ht
      obtain ⟨q', w, hq', hw⟩ := h2 i t (by rw [getElem?_snoc, if_pos hi]; exact ht) hk
      refine ⟨q', w, ?_, hw⟩
      refine (subpathStart_congr ?_ ?_).mpr hq'
      · intro k hk; rw [getElem?_snoc, if_pos (by omega)]
      · rw [getElem?_snoc, if_pos hpos]
    · have hl : p[p.length - 1]? = p.getLast? := by rw [List.getLast?_eq_getElem?]
      obtain ⟨a, ha⟩ : ∃ a, p[p.length - 1]? = some a :=
        ⟨p[p.length - 1], by rw [List.getElem?_eq_getElem (by omega)]⟩
      obtain ⟨u, v, hu, hv, hR⟩ := h1 (p.length - 1) a s
        (by rw [getElem?_snoc, if_pos (by omega)]; exact ha)
        (by rw [getElem?_snoc, if_neg (by omega), if_pos (by omega)])
      refine ⟨u, v, ?_, hv, hR, ?_⟩
      · unfold Path.currentPoint
        rw [← hl, ha]; exact hu
      · intro hk
        obtain ⟨q', w, hq', hw, hR'⟩ := h2 p.length s (by simp) hk
        have : SubpathStart p p.length q' := by
          refine (subpathStart_congr ?_ ?_).mpr hq'
          · intro k hk; rw [getElem?_snoc, if_pos (by omega)]
          · rw [getElem?_snoc, if_pos hpos]
        rw [subpathStart_unique this hsub] at hR'
        exact ⟨q, w, hq, hw, hR'⟩
  · rintro ⟨h, u, v, hu, hv, hR, hc⟩
    refine Connected.snoc h hne hu hv hR ?_
    intro hk
    obtain ⟨q', w, hq', hw, hR'⟩ := hc hk
    rw [hq] at hq'
    cases hq'
    exact ⟨q, w, hsub, hw, hR'⟩

/-- A non-empty path with all ends is connected exactly when its tail goes on from the end of its first
segment. -/
theorem connected_iff {s : Seg K} {r : List (Seg K)} (hR : ∀ x, S x x) :
    (Conn R S (s :: r) ∧ HasEnds (s :: r)) ↔ ∃ u, s.stop = some u ∧ Chain R S u u r := by
  induction r using List.reverseRecOn with
  | nil =>
    constructor
    · rintro ⟨-, h⟩
      obtain ⟨u, hu⟩ := Option.ne_none_iff_exists'.mp (h s (by simp))
      exact ⟨u, hu, trivial⟩
    · rintro ⟨u, hu, -⟩
      refine ⟨⟨?_, ?_⟩, ?_⟩
      · intro i a b _ h; simp at h
      · intro i t ht hk
        cases i with
        | zero =>
          simp at ht
          subst ht
          exact ⟨u, u, Or.inr ⟨fun k s hk => by omega, s, by simp, hu⟩, hu, hR u⟩
        | succ i => simp at ht
      · intro t ht; simp at ht; subst ht; rw [hu]; simp
  | append_singleton r a ih =>
    rw [← List.cons_append]
    constructor
    · rintro ⟨h1, h2⟩
      have he : HasEnds (s :: r) := fun t ht => h2 t (by simp at ht ⊢; tauto)
      rw [connected_snoc_iff (by simp) he] at h1
      obtain ⟨hc, u', v, hu', hv, hRu, hcl⟩ := h1
      obtain ⟨u, hu, hch⟩ := ih.mp ⟨hc, he⟩
      refine ⟨u, hu, chain_append.mpr ⟨hch, ?_⟩⟩
      obtain ⟨w, hw⟩ := Option.ne_none_iff_exists'.mp (h2 a (by simp))
      rw [after_cur hu (chain_ends hch)] at hu'
      cases hu'
      refine ⟨v, w, hv, hw, hRu, ?_, trivial⟩
      intro hk
      obtain ⟨q, w', hq, hw', hR'⟩ := hcl (isClose_iff.mp hk)
      rw [after_z hu (chain_ends hch)] at hq
      cases hq
      rw [hw] at hw'
      cases hw'
      exact hR'
    · rintro ⟨u, hu, hch⟩
      obtain ⟨h1, v, w, hv, hw, hRe, hcl, -⟩ := chain_append.mp hch
      obtain ⟨hc, he⟩ := ih.mpr ⟨u, hu, h1⟩
      refine ⟨(connected_snoc_iff (by simp) he).mpr ⟨hc, _, v, after_cur hu (chain_ends h1), hv, hRe, ?_⟩,
        HasEnds.snoc he (by rw [hw]; simp)⟩
      intro hk
      exact ⟨_, w, after_z hu (chain_ends h1), hw, hcl (isClose_iff.mpr hk)⟩

end

end Svgio
