import Verif.Model.DomNav
import Verif.Spec.DomNav
import Verif.Props.DomSiblings
import Verif.Props.DomLoad

/-!
C116: walking through the children of a node; C69 for `next_element_sibling`; C67 for `id`.
-/

namespace Svgio.Props

open Svgio Svgio.Dom Svgio.Spec

variable {V : Type} [DecidableEq V]

theorem walks_next (next : ℕ → Except PyErr (Option ℕ)) (l : List ℕ) (h : ∀ k i, l[k]? = some i → next i = .ok l[k + 1]?) :
    ∀ m k, l.length = k + m → Walks next l[k]? (l.drop k) := by
  intro m
  induction m with
  | zero =>
    intro k hk
    rw [List.getElem?_eq_none (by omega), List.drop_eq_nil_of_le (by omega)]
    exact .stop
  | succ m ih =>
    intro k hk
    have hlt : k < l.length := by omega
    rw [List.getElem?_eq_getElem hlt, List.drop_eq_getElem_cons hlt]
    exact .go (h k _ (List.getElem?_eq_getElem hlt)) (ih (k + 1) (by omega))

theorem walks_previous (prev : ℕ → Except PyErr (Option ℕ)) (l : List ℕ)
    (h : ∀ k i, l[k]? = some i → prev i = .ok (if k = 0 then none else l[k - 1]?)) :
    ∀ k, k ≤ l.length → Walks prev (if k = 0 then none else l[k - 1]?) (l.take k).reverse := by
  intro k
  induction k with
  | zero => intro _; exact .stop
  | succ k ih =>
    intro hk
    have hlt : k < l.length := by omega
    have e : l[k]? = some l[k] := List.getElem?_eq_getElem hlt
    rw [if_neg (by omega), Nat.add_sub_cancel, e, List.take_succ_eq_append_getElem hlt, List.reverse_append]
    exact .go (h k _ e) (ih (by omega))

/-- **C116**: going from `first_child` by `next_sibling` until None visits every child once, in order; from `last_child` by
`previous_sibling` in the opposite order. Partial: no two children have the same structure (`C69_equal_wrong`), and none is a Mask, which
has no siblings. -/
theorem C116_walk_partial (d : Dom V) (hd : Reachable d) (p : ℕ) (r : NodeRec V) (hr : d.nodes[p]? = some r) (hm : r.cls ≠ .mask)
    (hk : ∀ i ∈ r.kids, ∀ n, d.nodes[i]? = some n → n.cls ≠ .mask) (ha : r.kids.Pairwise (fun i j => ¬ Alike d i j)) :
    (∃ c, firstChild d p = .ok c ∧ Walks (nextSibling d) c r.kids) ∧
      ∃ c, lastChild d p = .ok c ∧ Walks (previousSibling d) c r.kids.reverse := by
  have hC := C66_consistent d hd
  have key : ∀ k i, r.kids[k]? = some i → nextSibling d i = .ok r.kids[k + 1]? ∧
      previousSibling d i = .ok (if k = 0 then none else r.kids[k - 1]?) := by
    intro k i hki
    have hmem := List.mem_of_getElem? hki
    obtain ⟨n, hn, -⟩ := (hC.kids p r hr i).1 hmem
    have hno : NoEarlierAlike d r k i := by
      intro k' hk' j hj
      obtain ⟨h1, rfl⟩ := List.getElem?_eq_some_iff.1 hki
      obtain ⟨h2, rfl⟩ := List.getElem?_eq_some_iff.1 hj
      exact List.pairwise_iff_getElem.1 ha k' k h2 h1 hk'
    have := C69_siblings_partial d hd p k i r n hr hki hn (hk i hmem n hn)
    exact ⟨this.1.2 hno, this.2.2 hno⟩
  have hn : asNode d p = .ok r := by simp [asNode, hr, hm]
  constructor
  · refine ⟨r.kids[0]?, ?_, by simpa using walks_next (nextSibling d) r.kids (fun k i h => (key k i h).1) r.kids.length 0 (by omega)⟩
    unfold firstChild
    rw [hn]
    cases h : r.kids with
    | nil => simp [bind, Except.bind, h]
    | cons a l => simp [bind, Except.bind, h]
  · refine ⟨if r.kids.length = 0 then none else r.kids[r.kids.length - 1]?, ?_, by
      simpa using walks_previous (previousSibling d) r.kids (fun k i h => (key k i h).2) r.kids.length le_rfl⟩
    unfold lastChild
    rw [hn]
    cases h : r.kids with
    | nil => simp [bind, Except.bind, h]
    | cons a l => simp [bind, Except.bind, h]

/-- a group with a rectangle and a group in it, which have different structure -/
example : ∃ d : Dom Str, load [.start "g".toList [], .start "rect".toList [], .stop, .start "g".toList [], .start "rect".toList [], .stop,
      .stop, .stop] = .ok d ∧ firstChild d 1 = .ok (some 2) ∧ Walks (nextSibling d) (some 2) [2, 3] ∧
      lastChild d 1 = .ok (some 3) ∧ Walks (previousSibling d) (some 3) [3, 2] :=
  ⟨_, rfl, rfl, .go (by decide +kernel) (.go (by decide +kernel) .stop), rfl, .go (by decide +kernel) (.go (by decide +kernel) .stop)⟩

/-- **C116**: the parent of a node is the node in whose list of children it is, and only the document has none; every other node is
connected; the document is the owner of all. -/
theorem C116_up (d : Dom V) (hd : Reachable d) (i : ℕ) (n : NodeRec V) (hn : d.nodes[i]? = some n) (hm : n.cls ≠ .mask) :
    (∀ p, parentNode d i = .ok (some p) ↔ ∃ r, d.nodes[p]? = some r ∧ i ∈ r.kids) ∧ (parentNode d i = .ok none ↔ i = 0) ∧
      isConnected d i = .ok (decide (i ≠ 0)) ∧ ownerDocument d i = .ok (some 0) := by
  have hC := C66_consistent d hd
  have ha : asNode d i = .ok n := by simp [asNode, hn, hm]
  have e1 : parentNode d i = .ok n.parent := by unfold parentNode; rw [ha]; rfl
  have e2 : isConnected d i = .ok n.parent.isSome := by unfold isConnected; rw [ha]; rfl
  have e3 : ownerDocument d i = .ok n.doc := by unfold ownerDocument; rw [ha]; rfl
  have hroot : n.parent = none ↔ i = 0 := by
    constructor
    · intro h
      by_contra h0
      obtain ⟨p, -, hp⟩ := hC.parent i n hn h0
      rw [h] at hp; cases hp
    · rintro rfl
      obtain ⟨r, h1, -, h2⟩ := hC.root
      rw [hn] at h1; cases h1; exact h2
  rw [e1, e2, e3, hC.doc i n hn]
  refine ⟨fun p => ?_, by rw [Except.ok.injEq, hroot], ?_, rfl⟩
  · rw [Except.ok.injEq]
    constructor
    · intro h
      have h0 : i ≠ 0 := fun h0 => by rw [hroot.2 h0] at h; cases h
      obtain ⟨q, hq, hq2⟩ := hC.parent i n hn h0
      rw [h] at hq2; cases hq2
      have hlt : p < d.nodes.length := lt_trans hq (List.getElem?_eq_some_iff.1 hn).1
      exact ⟨d.nodes[p], List.getElem?_eq_getElem hlt, (hC.kids p _ (List.getElem?_eq_getElem hlt) i).2 ⟨n, hn, h⟩⟩
    · rintro ⟨r, hr, hi⟩
      obtain ⟨m, h1, h2⟩ := (hC.kids p r hr i).1 hi
      rw [hn] at h1; cases h1; exact h2
  · congr 1
    by_cases h0 : i = 0
    · simp [hroot.2 h0, h0]
    · have : n.parent ≠ none := fun h => h0 (hroot.1 h)
      simp [h0, Option.isSome_iff_ne_none, this]

theorem count_positions {α : Type} (l : List α) (q : α → Bool) :
    ((List.range l.length).filter (fun i => (l[i]?).any q)).length = l.countP q := by
  induction l using List.reverseRecOn with
  | nil => rfl
  | append_singleton l a ih =>
    rw [List.length_append, List.length_singleton, List.range_succ, List.filter_append, List.length_append, List.countP_append, ← ih]
    congr 1
    · congr 1
      apply List.filter_congr
      intro i hi
      rw [List.getElem?_append_left (List.mem_range.1 hi)]
    · cases h : q a <;> simp [h]

/-- **C116**: `has_child_nodes()` says whether some node has this one as its parent, and `child_element_count` how many. -/
theorem C116_count (d : Dom V) (hd : Reachable d) (p : ℕ) (r : NodeRec V) (hr : d.nodes[p]? = some r) (he : isElement r.cls = true) :
    hasChildNodes d p = .ok (decide (∃ n ∈ d.nodes, n.parent = some p)) ∧
      childElementCount d p = .ok (d.nodes.countP (fun n => n.parent = some p)) := by
  have hC := C66_consistent d hd
  have hm : r.cls ≠ .mask := by intro h; rw [h] at he; simp [isElement] at he
  have ha : asNode d p = .ok r := by simp [asNode, hr, hm]
  have hb : asElement d p = .ok r := by simp [asElement, hr, he]
  have e1 : hasChildNodes d p = .ok (r.kids.length != 0) := by unfold hasChildNodes; rw [ha]; rfl
  have e2 : childElementCount d p = .ok r.kids.length := by unfold childElementCount; rw [hb]; rfl
  have hperm : r.kids.Perm ((List.range d.nodes.length).filter (fun i => (d.nodes[i]?).bind (·.parent) = some p)) := by
    rw [List.perm_ext_iff_of_nodup (hC.once p r hr) (List.nodup_range.filter _)]
    intro c
    rw [hC.kids p r hr c, List.mem_filter, List.mem_range, decide_eq_true_eq]
    constructor
    · rintro ⟨n, h1, h2⟩
      exact ⟨(List.getElem?_eq_some_iff.1 h1).1, by simp [h1, h2]⟩
    · rintro ⟨h1, h2⟩
      refine ⟨d.nodes[c], List.getElem?_eq_getElem h1, ?_⟩
      simpa [List.getElem?_eq_getElem h1] using h2
  have hlen : r.kids.length = d.nodes.countP (fun n => n.parent = some p) := by
    rw [hperm.length_eq]
    have := count_positions d.nodes (fun n => decide (n.parent = some p))
    rw [← this]
    congr 2
    funext i
    cases d.nodes[i]? <;> simp
  rw [e1, e2, hlen]
  refine ⟨?_, rfl⟩
  congr 1
  rw [Bool.eq_iff_iff, bne_iff_ne, ne_eq, ← ne_eq, ← Nat.pos_iff_ne_zero, List.countP_pos_iff]
  simp

/-- **C116**: if all children of an element are elements, `first_element_child` and `next_element_sibling` visit them in order, and
`last_element_child` is the last. Partial: no two children have the same structure. (`previous_element_sibling` goes forward: C69.) -/
theorem C116_elements_partial (d : Dom V) (hd : Reachable d) (p : ℕ) (r : NodeRec V) (hr : d.nodes[p]? = some r) (he : isElement r.cls = true)
    (hk : ∀ i ∈ r.kids, ∀ n, d.nodes[i]? = some n → isElement n.cls = true) (ha : r.kids.Pairwise (fun i j => ¬ Alike d i j)) :
    (∃ c, firstElementChild d p = .ok c ∧ Walks (nextElementSibling d) c r.kids) ∧ lastElementChild d p = .ok r.kids.getLast? := by
  have hC := C66_consistent d hd
  have hm : ∀ c, isElement c = true → c ≠ .mask := by rintro c h rfl; simp [isElement] at h
  have hb : asElement d p = .ok r := by simp [asElement, hr, he]
  have hn : asNode d p = .ok r := by simp [asNode, hr, hm _ he]
  have key : ∀ k i, r.kids[k]? = some i → nextElementSibling d i = .ok r.kids[k + 1]? := by
    intro k i hki
    have hmem := List.mem_of_getElem? hki
    obtain ⟨n, hn, -⟩ := (hC.kids p r hr i).1 hmem
    have hno : NoEarlierAlike d r k i := by
      intro k' hk' j hj
      obtain ⟨h1, rfl⟩ := List.getElem?_eq_some_iff.1 hki
      obtain ⟨h2, rfl⟩ := List.getElem?_eq_some_iff.1 hj
      exact List.pairwise_iff_getElem.1 ha k' k h2 h1 hk'
    have := (C69_siblings_partial d hd p k i r n hr hki hn (hm _ (hk i hmem n hn))).1.2 hno
    simpa [nextElementSibling, hn, hk i hmem n hn] using this
  constructor
  · refine ⟨r.kids[0]?, ?_, by simpa using walks_next (nextElementSibling d) r.kids key r.kids.length 0 (by omega)⟩
    unfold firstElementChild firstChild
    rw [hb, hn]
    cases h : r.kids with
    | nil => simp [bind, Except.bind, h]
    | cons a l => simp [bind, Except.bind, h]
  · unfold lastElementChild lastChild
    rw [hb, hn]
    cases h : r.kids with
    | nil => simp [bind, Except.bind, h]
    | cons a l => simp [bind, Except.bind, h, List.getLast?_eq_getElem?]

example : ∃ d : Dom Str, load [.start "g".toList [], .start "rect".toList [], .stop, .start "g".toList [], .start "rect".toList [], .stop,
      .stop, .stop] = .ok d ∧ firstElementChild d 1 = .ok (some 2) ∧ Walks (nextElementSibling d) (some 2) [2, 3] ∧
      lastElementChild d 1 = .ok (some 3) :=
  ⟨_, rfl, rfl, .go (by decide +kernel) (.go (by decide +kernel) .stop), rfl⟩

/-- C116 is false of every Mask, though it can have children: it has none of these properties. -/
theorem C116_mask_wrong (d : Dom V) (i : ℕ) (n : NodeRec V) (hn : d.nodes[i]? = some n) (hm : n.cls = .mask) :
    firstChild d i = .error .attributeError ∧ lastChild d i = .error .attributeError ∧ hasChildNodes d i = .error .attributeError ∧
      isConnected d i = .error .attributeError ∧ parentNode d i = .error .attributeError ∧ ownerDocument d i = .error .attributeError := by
  have h : asNode d i = .error .attributeError := by simp [asNode, hn, hm]
  refine ⟨?_, ?_, ?_, ?_, ?_, ?_⟩
  · unfold firstChild; rw [h]; rfl
  · unfold lastChild; rw [h]; rfl
  · unfold hasChildNodes; rw [h]; rfl
  · unfold isConnected; rw [h]; rfl
  · unfold parentNode; rw [h]; rfl
  · unfold ownerDocument; rw [h]; rfl

/-- a mask with a rectangle in it -/
example : ∃ d : Dom Str, load [.start "mask".toList [], .stop] = .ok d ∧ (d.nodes[1]?).map (·.cls) = some .mask := ⟨_, rfl, rfl⟩

/-- C116 is false of `parent_element` of the root element: it is the document, which is not an element. -/
theorem C116_root_wrong : ∃ d : Dom Str, load [.start "svg".toList [], .stop] = .ok d ∧ parentNode d 1 = .ok (some 0) ∧
    (d.nodes[0]?).map (isElement ·.cls) = some false := ⟨_, rfl, rfl, rfl⟩

/-- C116 is false of the children that are elements: `first_element_child` is any node, as here one that is not of class Element. -/
theorem C116_element_wrong : ∃ d : Dom Str, load [.start "g".toList [], .start "foreign".toList [], .stop, .stop] = .ok d ∧
    firstElementChild d 1 = .ok (some 2) ∧ (d.nodes[2]?).map (isElement ·.cls) = some false := ⟨_, rfl, rfl, rfl⟩

/-- **C69**: `next_element_sibling` of an element is the next child of its parent, exactly if no earlier one has the same structure. -/
theorem C69_next_element_partial (d : Dom V) (hd : Reachable d) (p k i : ℕ) (r n : NodeRec V) (hr : d.nodes[p]? = some r)
    (hk : r.kids[k]? = some i) (hn : d.nodes[i]? = some n) (he : isElement n.cls = true) :
    nextElementSibling d i = .ok r.kids[k + 1]? ↔ NoEarlierAlike d r k i := by
  have hm : n.cls ≠ .mask := by intro h; rw [h] at he; simp [isElement] at he
  rw [← (C69_siblings_partial d hd p k i r n hr hk hn hm).1]
  simp [nextElementSibling, hn, he]

/-- **C67**: the element found by `get_element_by_id(v)` in a loaded document has `v` as its `id`. Partial: it must be of a class
for an SVG element, others have no `id` (`C67_id_wrong`). -/
theorem C67_id_partial (x : Xml V) (evs : List (Ev V)) (he : evs.filter (· ≠ .ns) = events x) (d : Dom V) (h : load evs = .ok d) (v : V)
    (j : ℕ) (hj : getElementById d v = some j) (hc : (d.nodes[j]?).map (isElement ·.cls) = some true) :
    elementId d j = .ok (some v) := by
  obtain ⟨k, rfl, ⟨e, h1, h2⟩, -⟩ := ((C67_load_partial x evs he d h v).1 j).1 hj
  obtain ⟨n, h3, -, h4⟩ := (C65_tree_partial x evs he d h).2.2.2 k e h1
  rw [h3, Option.map_some, Option.some.injEq] at hc
  unfold elementId
  rw [h3]
  simp only [hc, if_true, h4, h2]

/-- the element found by its id may have no `id` -/
theorem C67_id_wrong : ∃ d : Dom Str, load [.start "foreign".toList [("id".toList, "a".toList)], .stop] = .ok d ∧
    getElementById d "a".toList = some 1 ∧ elementId d 1 = .error .attributeError := ⟨_, rfl, by decide +kernel, rfl⟩

example : ∃ d : Dom Str, load [.start "g".toList [("id".toList, "a".toList)], .stop] = .ok d ∧
    getElementById d "a".toList = some 1 ∧ (d.nodes[1]?).map (isElement ·.cls) = some true := ⟨_, rfl, by decide +kernel, rfl⟩

end Svgio.Props
