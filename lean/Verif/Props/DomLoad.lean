import Verif.Lemmas.DomLoad
import Mathlib.Data.List.Induction

/-!
C65: loading builds the document tree faithfully; C67: lookup by id.
-/

namespace Svgio.Props

open Svgio.Dom
open Svgio.Spec

variable {V : Type} [DecidableEq V]

theorem stripTag_eq (tag : Str) (h : NsOk tag) : stripTag tag = localName tag := by
  unfold stripTag localName
  by_cases h1 : svgNs.isPrefixOf tag = true
  · have h2 : "{http://www.w3.org/2000/svg".toList.isPrefixOf tag = true := by
      rw [List.isPrefixOf_iff_prefix] at h1 ⊢
      exact List.IsPrefix.trans (by decide +kernel) h1
    rw [if_pos h1, if_pos h2]
    rfl
  · rw [if_neg h1, if_neg (fun h2 => h1 (h h2))]

theorem get_none {K W : Type} [DecidableEq K] (l : List (K × W)) (k : K) (h : k ∉ l.map (·.1)) : dictGet l k = none := by
  induction l with
  | nil => rfl
  | cons a l ih =>
    simp only [List.map_cons, List.mem_cons, not_or] at h
    rw [dictGet, if_neg (fun hc => h.1 hc.symm), ih h.2]

theorem clsOf_eq (tag : Str) (h : NsOk tag) (h1 : localName tag ∉ misspelt) : clsOf tag = classFor tag := by
  unfold clsOf classFor
  rw [stripTag_eq tag h]
  generalize localName tag = s at *
  by_cases hs : s ∈ bootstrap.map (·.1)
  · have := show ∀ s ∈ bootstrap.map (·.1), s ∉ misspelt →
        (dictGet bootstrap s).getD .node = ((svgNames.find? (fun p => p.1 = s)).map (·.2)).getD .node by decide +kernel
    exact this s hs h1
  · have hn : svgNames.find? (fun p => p.1 = s) = none := by
      rw [List.find?_eq_none]
      intro q hq hc
      have := show ∀ q ∈ svgNames, q.1 ∈ bootstrap.map (·.1) ∨ q.1 ∈ misspelt by decide +kernel
      simp only [decide_eq_true_eq] at hc
      rcases this q hq with h2 | h2 <;> rw [hc] at h2
      · exact hs h2
      · exact h1 h2
    rw [get_none _ _ hs, hn]
    rfl

theorem clsOf_loads (tag : Str) (h : NsOk tag) (h1 : localName tag ∉ rejected) :
    needsArgs (clsOf tag) = false ∧ (clsOf tag = .mask → localName tag = "mask".toList) := by
  unfold clsOf
  rw [stripTag_eq tag h]
  generalize localName tag = s at *
  by_cases hs : s ∈ bootstrap.map (·.1)
  · have := show ∀ s ∈ bootstrap.map (·.1), s ∉ rejected → needsArgs ((dictGet bootstrap s).getD .node) = false ∧
        ((dictGet bootstrap s).getD .node = .mask → s = "mask".toList) by decide +kernel
    exact this s hs h1
  · rw [get_none _ _ hs]
    simp [needsArgs]

mutual
theorem loads_of_loadable (x : Xml V) (h : Loadable x) : Loads x := by
  cases x with
  | elem tag attrs ks =>
    obtain ⟨h1, h2, h3, h4⟩ := h
    obtain ⟨h5, h6⟩ := clsOf_loads tag h1 h2
    exact ⟨h5, fun hc => h3 (h6 hc), loadsList_of_loadable ks h4⟩
theorem loadsList_of_loadable (xs : List (Xml V)) (h : LoadableList xs) : LoadsList xs := by
  cases xs with
  | nil => trivial
  | cons x xs => exact ⟨loads_of_loadable x h.1, loadsList_of_loadable xs h.2⟩
end

/-- the class is the one for the tag, unless the library spells the name differently -/
def UsualClass (tag : Str) (c : Cls) : Prop := NsOk tag → localName tag ∉ misspelt → c = classFor tag

mutual
theorem shows_of_layout (x : Xml V) : ∀ (d : Dom V) (i p : ℕ), (∀ k < size x, d.nodes[i + k]? = (layout i p x)[k]?) →
    Shows UsualClass d i p x := by
  cases x with
  | elem tag attrs ks =>
    intro d i p h
    refine ⟨_, by simpa [layout] using h 0 (by simp [size]), fun h1 h2 => clsOf_eq tag h1 h2, rfl, rfl, rfl, ?_⟩
    apply showsList_of_layout ks d (i + 1) i
    intro k hk
    have := h (k + 1) (by simp [size]; omega)
    rw [show i + 1 + k = i + (k + 1) by omega, this, layout, List.getElem?_cons_succ]
theorem showsList_of_layout (xs : List (Xml V)) : ∀ (d : Dom V) (i p : ℕ),
    (∀ k < sizeList xs, d.nodes[i + k]? = (layoutList i p xs)[k]?) → ShowsList UsualClass d p (starts i xs) xs := by
  cases xs with
  | nil => intros; trivial
  | cons x xs =>
    intro d i p h
    refine ⟨shows_of_layout x d i p (fun k hk => ?_), showsList_of_layout xs d _ p (fun k hk => ?_)⟩
    · rw [h k (by simp [sizeList]; omega), layoutList, List.getElem?_append_left (by rw [layout_length]; exact hk)]
    · rw [show i + size x + k = i + (size x + k) by omega, h (size x + k) (by simp [sizeList]; omega), layoutList,
        List.getElem?_append_right (by rw [layout_length]; omega), layout_length]
      congr 1; omega
end

mutual
theorem layout_elements (x : Xml V) : ∀ (i p k : ℕ) (e : Str × Dict V), (elements x)[k]? = some e →
    ∃ n, (layout i p x)[k]? = some n ∧ n.cls = clsOf e.1 ∧ n.attrs = some e.2 := by
  cases x with
  | elem tag attrs ks =>
    intro i p k e h
    cases k with
    | zero =>
      simp only [elements, List.getElem?_cons_zero, Option.some.injEq] at h
      subst h
      exact ⟨_, by rw [layout, List.getElem?_cons_zero], rfl, rfl⟩
    | succ k =>
      simp only [elements, List.getElem?_cons_succ] at h
      obtain ⟨n, h1, h2⟩ := layoutList_elements ks (i + 1) i k e h
      exact ⟨n, by rw [layout, List.getElem?_cons_succ]; exact h1, h2⟩
theorem layoutList_elements (xs : List (Xml V)) : ∀ (i p k : ℕ) (e : Str × Dict V), (elementsList xs)[k]? = some e →
    ∃ n, (layoutList i p xs)[k]? = some n ∧ n.cls = clsOf e.1 ∧ n.attrs = some e.2 := by
  cases xs with
  | nil => intro i p k e h; simp [elementsList] at h
  | cons x xs =>
    intro i p k e h
    by_cases hk : k < size x
    · rw [elementsList, List.getElem?_append_left (by rw [elements_length]; exact hk)] at h
      obtain ⟨n, h1, h2⟩ := layout_elements x i p k e h
      exact ⟨n, by rw [layoutList, List.getElem?_append_left (by rw [layout_length]; exact hk)]; exact h1, h2⟩
    · rw [elementsList, List.getElem?_append_right (by rw [elements_length]; omega), elements_length] at h
      obtain ⟨n, h1, h2⟩ := layoutList_elements xs (i + size x) p _ e h
      exact ⟨n, by rw [layoutList, List.getElem?_append_right (by rw [layout_length]; omega), layout_length]; exact h1, h2⟩
end

theorem place_new (x : Xml V) : (place newDocument 0 [x]).nodes =
    ⟨.document, some [], none, some 0, [1]⟩ :: layout 1 0 x := by
  simp [place, newDocument, layoutList, starts]

/-- C65: if loading succeeds, the document has one child, which is the root element: one node per element, the same attributes,
nesting and order, and the class chosen by the tag. The nodes are made in document order.

Partial: the classes of `clipPath`, `linearGradient` and `radialGradient` are wrong (`C65_class_wrong`), and loading fails for some
elements (`C65_succeeds_partial`, `C65_fails_wrong`). -/
theorem C65_tree_partial (x : Xml V) (evs : List (Ev V)) (he : evs.filter (· ≠ .ns) = events x) (d : Dom V)
    (h : load evs = .ok d) :
    d.nodes.length = (elements x).length + 1 ∧
    (∃ r, d.nodes[0]? = some r ∧ r.cls = .document ∧ r.parent = none ∧ r.kids = [1]) ∧
    Shows UsualClass d 1 0 x ∧
    ∀ (k : ℕ) (e : Str × Dict V), (elements x)[k]? = some e →
      ∃ n, d.nodes[k + 1]? = some n ∧ UsualClass e.1 n.cls ∧ n.attrs = some e.2 := by
  obtain ⟨_, hd⟩ := load_ok x evs he d h
  have hn : d.nodes = _ := hd ▸ place_new x
  refine ⟨?_, ⟨_, by rw [hn]; rfl, rfl, rfl, rfl⟩, shows_of_layout x d 1 0 (fun k _ => ?_), fun k e hk => ?_⟩
  · rw [hn, List.length_cons, layout_length, elements_length]
  · rw [hn, add_comm 1 k, List.getElem?_cons_succ]
  · obtain ⟨n, h1, h2, h3⟩ := layout_elements x 1 0 k e hk
    exact ⟨n, by rw [hn, List.getElem?_cons_succ]; exact h1, fun a b => h2 ▸ clsOf_eq e.1 a b, h3⟩

/-- C65: loading succeeds for every tree without the rejected elements and without masks that have children. -/
theorem C65_succeeds_partial (x : Xml V) (hx : Loadable x) (evs : List (Ev V)) (he : evs.filter (· ≠ .ns) = events x) :
    ∃ d, load evs = .ok d :=
  ⟨_, load_eq x (loads_of_loadable x hx) evs he⟩

/-- C65 fails: loading an `svg` whose first child is one of the usual elements `defs`, `marker`, `metadata`, `style`, `symbol`
raises TypeError. -/
theorem C65_fails_wrong (tag : Str) (h : tag ∈ ["defs".toList, "marker".toList, "metadata".toList, "style".toList, "symbol".toList])
    (a b : Dict V) (ks r : List (Xml V)) :
    ∃ d, load (events (.elem "svg".toList a (.elem tag b ks :: r))) = .error (.typeError, d) := by
  have h1 : needsArgs (clsOf tag) = true := by
    revert tag; decide +kernel
  have h2 : needsArgs (clsOf "svg".toList) = false := by decide +kernel
  simp only [load, parseAt, newDocument, List.getElem?_cons_zero, events, eventsList, List.cons_append, run]
  rw [if_neg (by simp)]
  simp only [step, h2, List.getElem?_cons_zero, Bool.false_eq_true, if_false, reduceCtorEq]
  cases dictGet a "id".toList with
  | none => simp [h1]
  | some v => simp [h1]

/-- C65 fails: a mask with a child raises AttributeError. -/
theorem C65_mask_wrong (a b c : Dict V) (ks r s : List (Xml V)) :
    ∃ d, load (events (.elem "svg".toList a (.elem "mask".toList b (.elem "rect".toList c ks :: r) :: s))) =
      .error (.attributeError, d) := by
  have h1 : needsArgs (clsOf "mask".toList) = false ∧ clsOf "mask".toList = .mask := by decide +kernel
  have h2 : needsArgs (clsOf "svg".toList) = false ∧ clsOf "svg".toList ≠ .mask := by decide +kernel
  have h3 : needsArgs (clsOf "rect".toList) = false := by decide +kernel
  revert h1 h2 h3
  generalize "mask".toList = t1
  generalize "svg".toList = t2
  generalize "rect".toList = t3
  rintro ⟨_, h1'⟩ ⟨h2, h2'⟩ h3
  have h1m : needsArgs .mask = false := rfl
  simp only [load, parseAt, newDocument, List.getElem?_cons_zero, events, eventsList, List.cons_append, run]
  rw [if_neg (by simp)]
  simp only [step, h2, List.getElem?_cons_zero, Bool.false_eq_true, if_false, reduceCtorEq]
  cases dictGet a "id".toList <;> cases dictGet b "id".toList <;> simp [h1m, h2', h1', h3, append]

/-- C65 fails: `linearGradient` elements are loaded as plain `Node` objects. -/
theorem C65_class_wrong : ∃ d : Dom Str, load (events (.elem "svg".toList [] [.elem "linearGradient".toList [] []])) = .ok d ∧
    (∃ n, d.nodes[2]? = some n ∧ n.cls = .node) ∧ classFor "linearGradient".toList = .linearGradient := by
  refine ⟨_, rfl, ⟨_, rfl, ?_⟩, ?_⟩ <;> decide +kernel

/-! ### lookup by id -/

theorem get_set {K W : Type} [DecidableEq K] (l : List (K × W)) (k k' : K) (v : W) :
    dictGet (dictSet l k v) k' = if k = k' then some v else dictGet l k' := by
  induction l with
  | nil => simp [dictSet, dictGet]
  | cons a l ih =>
    obtain ⟨x, y⟩ := a
    simp only [dictSet]
    by_cases h : x = k
    · subst h
      by_cases h2 : x = k' <;> simp [dictGet, h2]
    · rw [if_neg h]
      by_cases h2 : x = k'
      · subst h2
        rw [if_neg (fun hc => h hc.symm)]
        simp [dictGet]
      · simp [dictGet, h2, ih]

/-- `k` is the position of the last element with the id `v` -/
def LastWithId (l : List (Str × Dict V)) (v : V) (k : ℕ) : Prop :=
  (∃ e, l[k]? = some e ∧ dictGet e.2 "id".toList = some v) ∧
    ∀ k' > k, ∀ e, l[k']? = some e → dictGet e.2 "id".toList ≠ some v

theorem lastWithId_append (l : List (Str × Dict V)) (e : Str × Dict V) (v : V) (k : ℕ) : LastWithId (l ++ [e]) v k ↔
    if dictGet e.2 "id".toList = some v then k = l.length else LastWithId l v k := by
  by_cases h : dictGet e.2 "id".toList = some v
  · rw [if_pos h]
    constructor
    · rintro ⟨⟨f, hf, _⟩, h2⟩
      have hk : k < (l ++ [e]).length := (List.getElem?_eq_some_iff.1 hf).1
      rw [List.length_append, List.length_singleton] at hk
      by_contra hne
      exact h2 l.length (by omega) e (by simp) h
    · rintro rfl
      refine ⟨⟨e, by simp, h⟩, fun k' hk' f hf => ?_⟩
      have : k' < (l ++ [e]).length := (List.getElem?_eq_some_iff.1 hf).1
      rw [List.length_append, List.length_singleton] at this
      omega
  · rw [if_neg h]
    constructor
    · rintro ⟨⟨f, hf, hv⟩, h2⟩
      have hk : k < (l ++ [e]).length := (List.getElem?_eq_some_iff.1 hf).1
      rw [List.length_append, List.length_singleton] at hk
      have hk2 : k < l.length := by
        by_contra hne
        have : k = l.length := by omega
        subst this
        simp at hf
        subst hf
        exact h hv
      refine ⟨⟨f, by rwa [List.getElem?_append_left hk2] at hf, hv⟩, fun k' hk' g hg => ?_⟩
      have : k' < l.length := (List.getElem?_eq_some_iff.1 hg).1
      exact h2 k' hk' g (by rwa [List.getElem?_append_left this])
    · rintro ⟨⟨f, hf, hv⟩, h2⟩
      have hk2 : k < l.length := (List.getElem?_eq_some_iff.1 hf).1
      refine ⟨⟨f, by rwa [List.getElem?_append_left hk2], hv⟩, fun k' hk' g hg => ?_⟩
      by_cases hk3 : k' < l.length
      · rw [List.getElem?_append_left hk3] at hg
        exact h2 k' hk' g hg
      · have : k' < (l ++ [e]).length := (List.getElem?_eq_some_iff.1 hg).1
        rw [List.length_append, List.length_singleton] at this
        have : k' = l.length := by omega
        subst this
        simp at hg
        subst hg
        exact h

theorem lastWithId_exists (l : List (Str × Dict V)) (v : V) (h : ∃ e ∈ l, dictGet e.2 "id".toList = some v) :
    ∃ k, LastWithId l v k := by
  induction l using List.reverseRecOn with
  | nil => simp at h
  | append_singleton l f ih =>
    by_cases hf : dictGet f.2 "id".toList = some v
    · exact ⟨l.length, by rw [lastWithId_append, if_pos hf]⟩
    · obtain ⟨e, hm, hv⟩ := h
      rw [List.mem_append, List.mem_singleton] at hm
      rcases hm with hm | rfl
      · obtain ⟨k, hk⟩ := ih ⟨e, hm, hv⟩
        exact ⟨k, by rw [lastWithId_append, if_neg hf]; exact hk⟩
      · exact absurd hv hf

theorem register_spec (l : List (Str × Dict V)) (a : ℕ) (v : V) (j : ℕ) :
    dictGet (register [] a l) v = some j ↔ ∃ k, j = a + k ∧ LastWithId l v k := by
  induction l using List.reverseRecOn with
  | nil => simp [register, dictGet, LastWithId]
  | append_singleton l e ih =>
    rw [register_append]
    simp only [lastWithId_append, register]
    cases hg : dictGet e.2 "id".toList with
    | none => simpa using ih
    | some w =>
      simp only [get_set]
      by_cases hw : w = v
      · simp [hw, eq_comm]
      · simp [hw, ih]

/-- C67: after loading, `get_element_by_id(v)` returns the last element in document order with that id (the node for the `k`-th
element is the one at address `k + 1`, `C65_tree_partial`), and None when there is none.

Partial: elements added through builders are not found (`C67_builder_wrong`). -/
theorem C67_load_partial (x : Xml V) (evs : List (Ev V)) (he : evs.filter (· ≠ .ns) = events x) (d : Dom V)
    (h : load evs = .ok d) (v : V) :
    (∀ j, getElementById d v = some j ↔ ∃ k, j = k + 1 ∧ LastWithId (elements x) v k) ∧
    (getElementById d v = none ↔ ∀ e ∈ elements x, dictGet e.2 "id".toList ≠ some v) := by
  obtain ⟨_, hd⟩ := load_ok x evs he d h
  have ho : d.objects = register [] 1 (elements x) := by
    rw [hd]; simp [place, newDocument, elementsList]
  have h1 : ∀ j, getElementById d v = some j ↔ ∃ k, j = k + 1 ∧ LastWithId (elements x) v k := by
    intro j
    rw [getElementById, ho, register_spec]
    simp only [add_comm]
  refine ⟨h1, ?_⟩
  constructor
  · intro hn e hm hv
    obtain ⟨k, hk⟩ := lastWithId_exists (elements x) v ⟨e, hm, hv⟩
    have := (h1 (k + 1)).2 ⟨k, rfl, hk⟩
    rw [hn] at this
    simp at this
  · intro hall
    cases hg : getElementById d v with
    | none => rfl
    | some j =>
      obtain ⟨k, _, ⟨e, hek, hv⟩, _⟩ := (h1 j).1 hg
      exact absurd hv (hall e (List.mem_of_getElem? hek))

/-- C67 fails for builders: no builder call changes what is found. -/
theorem C67_builder_wrong (d d' : Dom V) (i : ℕ) (name : Str) (args : List V) (kwargs : Dict V)
    (h : build d i name args kwargs = .ok d') (v : V) : getElementById d' v = getElementById d v := by
  unfold build at h
  cases hn : d.nodes[i]? with
  | none => simp [hn] at h
  | some n =>
    simp only [hn] at h
    by_cases hm : n.cls = .mask
    · simp [hm] at h
    · rw [if_neg hm] at h
      cases hb : dictGet bootstrap (dashes name) with
      | none => simp [hb] at h
      | some c =>
        simp only [hb] at h
        cases hc : construct c args kwargs with
        | error e => simp [hc] at h
        | ok a =>
          simp only [hc, Except.ok.injEq] at h
          rw [← h]; rfl

/-- in particular `document.rect(id="a")` is not found -/
example : ∃ d : Dom Str, build newDocument 0 "rect".toList [] [("id".toList, "a".toList)] = .ok d ∧
    getElementById d "a".toList = none ∧ elementId d 1 = .ok (some "a".toList) := by
  refine ⟨_, rfl, ?_, ?_⟩ <;> decide +kernel

/-- a document with a namespace event, groups and two equal ids -/
example : Loadable (.elem "{http://www.w3.org/2000/svg}svg".toList [("id".toList, "a".toList)]
    [.elem "{http://www.w3.org/2000/svg}g".toList [] [.elem "{http://www.w3.org/2000/svg}rect".toList [("id".toList, "a".toList)] []],
     .elem "{http://www.w3.org/2000/svg}mask".toList [] []] : Xml Str) := by
  refine ⟨?_, ?_, ?_, ⟨?_, ?_, ?_, ⟨?_, ?_, ?_, trivial⟩, trivial⟩, ⟨?_, ?_, ?_, trivial⟩, trivial⟩ <;>
    first | decide +kernel | exact fun _ => rfl | exact fun h => absurd h (by decide +kernel) | (unfold NsOk; decide +kernel)

example : getElementById (place (newDocument : Dom Str) 0 [.elem "svg".toList [("id".toList, "a".toList)]
    [.elem "g".toList [] [.elem "rect".toList [("id".toList, "a".toList)] []]]]) "a".toList = some 3 := by decide +kernel

end Svgio.Props
