import Verif.Props.DomTree

/-!
C69: siblings; C83: equality of nodes.
-/

namespace Svgio.Props

open Svgio.Dom Svgio.Spec

variable {V : Type} [DecidableEq V]

theorem kid_lt (d : Dom V) (hd : Consistent d) (p : ℕ) (r : NodeRec V) (hr : d.nodes[p]? = some r) (c : ℕ) (hc : c ∈ r.kids) :
    p < c ∧ c < d.nodes.length := by
  obtain ⟨n, hn, hp⟩ := (hd.kids p r hr c).1 hc
  refine ⟨?_, (List.getElem?_eq_some_iff.1 hn).1⟩
  by_cases h0 : c = 0
  · subst h0
    obtain ⟨q, hq, _, hqp⟩ := hd.root
    rw [hn] at hq
    cases hq
    rw [hqp] at hp
    simp at hp
  · obtain ⟨p', h1, h2⟩ := hd.parent c n hn h0
    rw [hp] at h2
    cases h2
    exact h1

theorem eqNode_iff (d : Dom V) (hd : Consistent d) : ∀ (f i j : ℕ), d.nodes.length ≤ f + i → i < d.nodes.length →
    j < d.nodes.length → (eqNode d f i j = true ↔ Alike d i j) := by
  intro f
  induction f with
  | zero => intro i j h1 h2; omega
  | succ f ih =>
    intro i j h1 hi hj
    have ha : d.nodes[i]? = some d.nodes[i] := List.getElem?_eq_getElem hi
    have hb : d.nodes[j]? = some d.nodes[j] := List.getElem?_eq_getElem hj
    generalize d.nodes[i] = a at ha
    generalize d.nodes[j] = b at hb
    rw [eqNode, ha, hb]
    simp only
    by_cases hm : a.cls = .mask ∨ b.cls = .mask
    · rw [if_pos hm, decide_eq_true_eq]
      constructor
      · rintro rfl
        rw [ha] at hb
        cases hb
        exact .mask ha (by simpa using hm)
      · intro h
        cases h with
        | mask => rfl
        | node h1 h2 h3 h4 =>
          rw [ha] at h1; cases h1; rw [hb] at h2; cases h2
          rcases hm with hm | hm
          · exact absurd hm h3
          · exact absurd hm h4
    · rw [if_neg hm, Bool.and_eq_true, decide_eq_true_eq, List.all_eq_true]
      have hkids : ∀ x ∈ a.kids.zip b.kids, (eqNode d f x.1 x.2 = true ↔ Alike d x.1 x.2) := by
        intro x hx
        have hx1 := kid_lt d hd i a ha x.1 (List.of_mem_zip hx).1
        have hx2 := kid_lt d hd j b hb x.2 (List.of_mem_zip hx).2
        exact ih x.1 x.2 (by omega) hx1.2 hx2.2
      rw [not_or] at hm
      constructor
      · rintro ⟨h1, h2⟩
        exact .node ha hb hm.1 hm.2 h1 (fun x hx => (hkids x hx).1 (h2 x hx))
      · intro h
        cases h with
        | mask h5 h6 => rw [ha] at h5; cases h5; exact absurd h6 hm.1
        | node h5 h6 h7 h8 h9 h10 =>
          rw [ha] at h5; cases h5; rw [hb] at h6; cases h6
          exact ⟨h9, fun x hx => (hkids x hx).2 (h10 x hx)⟩

/-- the position at which Python's `list.index` finds the node: that of the first child which is alike -/
theorem index_spec (d : Dom V) (hd : Consistent d) (p : ℕ) (r : NodeRec V) (hr : d.nodes[p]? = some r) (k i : ℕ)
    (hk : r.kids[k]? = some i) : ∃ k0 j0, index d r.kids i = some k0 ∧ k0 ≤ k ∧ r.kids[k0]? = some j0 ∧ (j0 = i ∨ Alike d j0 i) ∧
      ∀ k' < k0, ∀ j', r.kids[k']? = some j' → ¬ Alike d j' i := by
  have hi := kid_lt d hd p r hr i (List.mem_of_getElem? hk)
  have hdec : ∀ j ∈ r.kids, ((decide (j = i) || eqNode d d.nodes.length j i) = true ↔ (j = i ∨ Alike d j i)) := by
    intro j hj
    have := kid_lt d hd p r hr j hj
    rw [Bool.or_eq_true, decide_eq_true_eq, eqNode_iff d hd d.nodes.length j i (by omega) this.2 hi.2]
  cases hx : index d r.kids i with
  | none =>
    exfalso
    unfold index at hx
    rw [List.findIdx?_eq_none_iff] at hx
    have := hx i (List.mem_of_getElem? hk)
    simp at this
  | some k0 =>
    unfold index at hx
    rw [List.findIdx?_eq_some_iff_getElem] at hx
    obtain ⟨h1, h2, h3⟩ := hx
    refine ⟨k0, r.kids[k0], rfl, ?_, List.getElem?_eq_getElem h1, (hdec _ (List.getElem_mem h1)).1 h2, ?_⟩
    · by_contra hlt
      obtain ⟨hk1, hk2⟩ := List.getElem?_eq_some_iff.1 hk
      have := h3 k (by omega)
      simp [hk2] at this
    · intro k' hk' j' hj' hal
      obtain ⟨hk1, hk2⟩ := List.getElem?_eq_some_iff.1 hj'
      have h5 := h3 k' hk'
      rw [hk2] at h5
      exact h5 ((hdec j' (List.mem_of_getElem? hj')).2 (.inr hal))

/-- no earlier child of the same parent is alike -/
def NoEarlierAlike (d : Dom V) (r : NodeRec V) (k i : ℕ) : Prop := ∀ k' < k, ∀ j, r.kids[k']? = some j → ¬ Alike d j i

/-- C69: `next_sibling` and `previous_sibling` are the adjacent children of the parent, or None at the ends, exactly if no earlier
child of the parent has the same structure.

Partial: they are wrong for the second of two siblings of the same structure (`C69_equal_wrong`); `previous_element_sibling` is wrong
(`C69_previous_element_wrong`). -/
theorem C69_siblings_partial (d : Dom V) (hd : Reachable d) (p k i : ℕ) (r n : NodeRec V) (hr : d.nodes[p]? = some r)
    (hk : r.kids[k]? = some i) (hn : d.nodes[i]? = some n) (hm : n.cls ≠ .mask) :
    (nextSibling d i = .ok r.kids[k + 1]? ↔ NoEarlierAlike d r k i) ∧
    (previousSibling d i = .ok (if k = 0 then none else r.kids[k - 1]?) ↔ NoEarlierAlike d r k i) := by
  have hC := C66_consistent d hd
  obtain ⟨m, hm1, hpar⟩ := (hC.kids p r hr i).1 (List.mem_of_getElem? hk)
  rw [hn] at hm1
  cases hm1
  obtain ⟨k0, j0, h1, h2, h3, h4, h5⟩ := index_spec d hC p r hr k i hk
  have hnod := hC.once p r hr
  have hk' := (List.getElem?_eq_some_iff.1 hk).1
  -- the node is found at its own position exactly if no earlier one is alike
  have hiff : k0 = k ↔ NoEarlierAlike d r k i := by
    constructor
    · rintro rfl
      exact h5
    · intro h
      by_contra hne
      have hlt : k0 < k := by omega
      rcases h4 with rfl | h4
      · obtain ⟨_, ha⟩ := List.getElem?_eq_some_iff.1 h3
        obtain ⟨_, hb⟩ := List.getElem?_eq_some_iff.1 hk
        exact hne ((hnod.getElem_inj_iff).1 (ha.trans hb.symm))
      · exact h k0 hlt j0 h3 h4
  constructor
  · rw [← hiff]
    simp only [nextSibling, hn, if_neg hm, hpar, Option.bind_some, hr, h1, Except.ok.injEq]
    constructor
    · intro h
      by_contra hne
      have hlt : k0 + 1 ≤ k := by omega
      rw [List.getElem?_eq_getElem (by omega)] at h
      obtain ⟨_, hb⟩ := List.getElem?_eq_some_iff.1 h.symm
      have := (hnod.getElem_inj_iff).1 hb
      omega
    · rintro rfl; rfl
  · rw [← hiff]
    simp only [previousSibling, hn, if_neg hm, hpar, Option.bind_some, hr, h1]
    constructor
    · intro h
      by_contra hne
      have hlt : k0 + 1 ≤ k := by omega
      rw [if_neg (show ¬ k = 0 by omega), List.getElem?_eq_getElem (by omega)] at h
      by_cases h0 : k0 = 0
      · rw [if_pos h0] at h; simp at h; omega
      · rw [if_neg h0, Except.ok.injEq, List.getElem?_eq_getElem (by omega), Option.some.injEq] at h
        have := (hnod.getElem_inj_iff).1 h
        omega
    · rintro rfl
      by_cases h0 : k0 = 0
      · rw [if_pos h0, if_pos h0]
      · rw [if_neg h0, if_neg h0]

/-- C69: the document has no siblings. -/
theorem C69_root (d : Dom V) (hd : Reachable d) : nextSibling d 0 = .ok none ∧ previousSibling d 0 = .ok none := by
  obtain ⟨r, h1, h2, h3⟩ := (C66_consistent d hd).root
  simp [nextSibling, previousSibling, h1, h2, h3]

/-- two rectangles in a group: the next sibling of the second is itself, its previous sibling None -/
theorem C69_equal_wrong : ∃ d : Dom Str, load [.start "g".toList [], .start "rect".toList [], .stop,
    .start "rect".toList [], .stop, .stop] = .ok d ∧ (∃ r, d.nodes[1]? = some r ∧ r.kids = [2, 3]) ∧
    nextSibling d 3 = .ok (some 3) ∧ previousSibling d 3 = .ok none := by
  refine ⟨_, rfl, ⟨_, rfl, ?_⟩, ?_, ?_⟩ <;> decide +kernel

/-- `previous_element_sibling` is `next_sibling`: for every element, and not only by coincidence. -/
theorem C69_previous_element_wrong :
    (∀ (d : Dom Str) (i : ℕ) (n : NodeRec Str), d.nodes[i]? = some n → isElement n.cls = true →
      previousElementSibling d i = nextSibling d i) ∧
    ∃ d : Dom Str, load [.start "g".toList [], .start "rect".toList [], .stop, .start "g".toList [], .start "rect".toList [], .stop,
      .stop, .stop] = .ok d ∧ previousSibling d 3 = .ok (some 2) ∧ previousElementSibling d 3 = .ok none := by
  constructor
  · intro d i n hn he
    simp [previousElementSibling, hn, he]
  · refine ⟨_, rfl, ?_, ?_⟩ <;> decide +kernel

/-- the hypothesis of `C69_siblings_partial` for a rectangle and a group with a rectangle in it -/
example : ∃ d : Dom Str, load [.start "g".toList [], .start "rect".toList [], .stop, .start "g".toList [], .start "rect".toList [], .stop,
      .stop, .stop] = .ok d ∧ ∃ r, d.nodes[1]? = some r ∧ r.kids[1]? = some 3 ∧ NoEarlierAlike d r 1 3 := by
  refine ⟨_, rfl, _, rfl, by decide +kernel, ?_⟩
  intro k' hk' j hj hal
  have : k' = 0 := by omega
  subst this
  have hj2 : (some j : Option ℕ) = some 2 := by rw [← hj]; decide +kernel
  cases hj2
  cases hal with
  | node h1 h2 _ _ h5 _ =>
    cases h1; cases h2
    revert h5; decide +kernel

/-! ### equality -/

/-- C83: `is_equal_node` is true of nodes with the same class, attributes and children. It compares nothing but the structure: two
nodes are equal exactly if they have as many children, equal in turn.

Partial: masks are left out (they have no such method, and are never equal to others). -/
theorem C83_equal_partial (d : Dom V) (hd : Reachable d) (i j : ℕ) (hi : i < d.nodes.length) (hj : j < d.nodes.length) :
    (eqNode d d.nodes.length i j = true ↔ Alike d i j) ∧
    ((∀ (k : ℕ) (n : NodeRec V), d.nodes[k]? = some n → n.cls ≠ .mask) → Same d i j → eqNode d d.nodes.length i j = true) := by
  have h := eqNode_iff d (C66_consistent d hd) d.nodes.length i j (by omega) hi hj
  refine ⟨h, fun hm hs => h.2 ?_⟩
  clear h hi hj
  induction hs with
  | node h1 h2 h3 h4 h5 h6 ih => exact .node h1 h2 (hm _ _ h1) (hm _ _ h2) h5 ih

/-- C83 fails the other way: a rectangle and a circle with different attributes are equal. -/
theorem C83_different_wrong (a b : Dict V) :
    ∃ d : Dom V, load [.start "g".toList [], .start "rect".toList a, .stop, .start "circle".toList b, .stop, .stop] = .ok d ∧
      (∃ n m, d.nodes[2]? = some n ∧ d.nodes[3]? = some m ∧ n.cls = .rect ∧ m.cls = .circle ∧ n.attrs = some a ∧
        m.attrs = some b) ∧ eqNode d d.nodes.length 2 3 = true := by
  have hl := load_eq (.elem "g".toList [] [.elem "rect".toList a [], .elem "circle".toList b []])
    (show Loads _ from ⟨by decide +kernel, fun hc => absurd hc (by decide +kernel),
      ⟨by decide +kernel, fun hc => absurd hc (by decide +kernel), trivial⟩,
      ⟨by decide +kernel, fun hc => absurd hc (by decide +kernel), trivial⟩, trivial⟩)
    [.start "g".toList [], .start "rect".toList a, .stop, .start "circle".toList b, .stop, .stop] (by simp [events, eventsList])
  refine ⟨_, hl, ⟨_, _, rfl, rfl, show clsOf "rect".toList = .rect by decide +kernel,
    show clsOf "circle".toList = .circle by decide +kernel, rfl, rfl⟩, ?_⟩
  have h1 : (place newDocument 0 [Xml.elem "g".toList [] [.elem "rect".toList a [], .elem "circle".toList b []]]).nodes.length = 4 :=
    rfl
  rw [h1]
  rfl

end Svgio.Props
