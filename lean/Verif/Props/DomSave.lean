import Verif.Props.DomLoad

/-!
C70: saving and loading.
-/

namespace Svgio.Props

open Svgio.Dom Svgio.Spec

variable {V : Type} [DecidableEq V]

theorem kept_cls (tag : Str) (h : NsOk tag) (hk : localName tag ∈ kept) :
    tagOf (clsOf tag) = localName tag ∧ clsOf tag ≠ .mask ∧ needsArgs (clsOf tag) = false ∧ clsOf (localName tag) = clsOf tag := by
  have h2 : clsOf tag = (dictGet bootstrap (localName tag)).getD .node := by rw [clsOf, stripTag_eq tag h]
  rw [h2]
  generalize localName tag = s at *
  clear h2
  revert s
  decide +kernel

mutual
theorem kept_loads (x : Xml V) (h : Kept x) : Loads x := by
  cases x with
  | elem tag attrs ks =>
    obtain ⟨h1, h2, h3⟩ := h
    obtain ⟨_, h4, h5, _⟩ := kept_cls tag h1 h2
    exact ⟨h5, fun hc => absurd hc h4, keptList_loads ks h3⟩
theorem keptList_loads (xs : List (Xml V)) (h : KeptList xs) : LoadsList xs := by
  cases xs with
  | nil => trivial
  | cons x xs => exact ⟨kept_loads x h.1, keptList_loads xs h.2⟩
end

mutual
theorem unqualified_loads (x : Xml V) (h : Kept x) : Loads (unqualified x) := by
  cases x with
  | elem tag attrs ks =>
    obtain ⟨h1, h2, h3⟩ := h
    obtain ⟨_, h4, h5, h6⟩ := kept_cls tag h1 h2
    exact ⟨by rw [h6]; exact h5, fun hc => absurd (h6 ▸ hc) h4, unqualifiedList_loads ks h3⟩
theorem unqualifiedList_loads (xs : List (Xml V)) (h : KeptList xs) : LoadsList (unqualifiedList xs) := by
  cases xs with
  | nil => trivial
  | cons x xs => exact ⟨unqualified_loads x h.1, unqualifiedList_loads xs h.2⟩
end

mutual
theorem unqualified_size (x : Xml V) : size (unqualified x) = size x := by
  cases x with
  | elem tag attrs ks => simp [unqualified, size, unqualifiedList_size ks]
theorem unqualifiedList_size (xs : List (Xml V)) : sizeList (unqualifiedList xs) = sizeList xs := by
  cases xs with
  | nil => rfl
  | cons x xs => simp [unqualifiedList, sizeList, unqualified_size x, unqualifiedList_size xs]
end

theorem unqualified_starts (xs : List (Xml V)) : ∀ i, starts i (unqualifiedList xs) = starts i xs := by
  induction xs with
  | nil => intro i; rfl
  | cons x xs ih => intro i; simp [unqualifiedList, starts, unqualified_size, ih]

mutual
theorem unqualified_layout (x : Xml V) (h : Kept x) : ∀ i p, layout i p (unqualified x) = layout i p x := by
  cases x with
  | elem tag attrs ks =>
    intro i p
    obtain ⟨h1, h2, h3⟩ := h
    obtain ⟨_, _, _, h6⟩ := kept_cls tag h1 h2
    simp [unqualified, layout, unqualified_starts, h6, unqualifiedList_layout ks h3]
theorem unqualifiedList_layout (xs : List (Xml V)) (h : KeptList xs) : ∀ i p,
    layoutList i p (unqualifiedList xs) = layoutList i p xs := by
  cases xs with
  | nil => intro i p; rfl
  | cons x xs =>
    intro i p
    simp [unqualifiedList, layoutList, unqualified_layout x h.1, unqualifiedList_layout xs h.2, unqualified_size]
end

mutual
theorem unqualified_elements (x : Xml V) : (elements (unqualified x)).map (·.2) = (elements x).map (·.2) := by
  cases x with
  | elem tag attrs ks => simp [unqualified, elements, unqualifiedList_elements ks]
theorem unqualifiedList_elements (xs : List (Xml V)) :
    (elementsList (unqualifiedList xs)).map (·.2) = (elementsList xs).map (·.2) := by
  cases xs with
  | nil => rfl
  | cons x xs => simp [unqualifiedList, elementsList, unqualified_elements x, unqualifiedList_elements xs]
end

theorem register_congr (l l' : List (Str × Dict V)) : ∀ (o : List (V × ℕ)) (a : ℕ), l.map (·.2) = l'.map (·.2) →
    register o a l = register o a l' := by
  induction l generalizing l' with
  | nil =>
    intro o a h
    cases l' with
    | nil => rfl
    | cons b l' => simp at h
  | cons b l ih =>
    intro o a h
    cases l' with
    | nil => simp at h
    | cons b' l' =>
      simp only [List.map_cons, List.cons.injEq] at h
      simp only [register, h.1]
      exact ih l' _ _ h.2

mutual
theorem xml_layout (x : Xml V) (hx : Kept x) : ∀ (d : Dom V) (i p f : ℕ), (∀ k < size x, d.nodes[i + k]? = (layout i p x)[k]?) →
    size x ≤ f → xml d f i = .ok (unqualified x) := by
  cases x with
  | elem tag attrs ks =>
    intro d i p f h hf
    obtain ⟨h1, h2, h3⟩ := hx
    obtain ⟨h4, h5, _, _⟩ := kept_cls tag h1 h2
    have h0 : d.nodes[i]? = some ⟨clsOf tag, some attrs, some p, some 0, starts (i + 1) ks⟩ := by
      simpa [layout] using h 0 (by simp [size])
    cases f with
    | zero => simp [size] at hf
    | succ f =>
      rw [size] at hf
      have hl := xmlList_layout ks h3 d (i + 1) i f (by
        intro k hk
        have := h (k + 1) (by simp [size]; omega)
        rw [show i + 1 + k = i + (k + 1) by omega, this, layout, List.getElem?_cons_succ]) (by omega)
      rw [xml, h0]
      simp only [if_neg h5, hl, unqualified, h4]
theorem xmlList_layout (xs : List (Xml V)) (hx : KeptList xs) : ∀ (d : Dom V) (i p f : ℕ),
    (∀ k < sizeList xs, d.nodes[i + k]? = (layoutList i p xs)[k]?) → sizeList xs ≤ f →
    (starts i xs).mapM (xml d f) = .ok (unqualifiedList xs) := by
  cases xs with
  | nil => intros; simp [starts, unqualifiedList]; rfl
  | cons x xs =>
    intro d i p f h hf
    rw [sizeList] at hf
    have h1 := xml_layout x hx.1 d i p f (by
      intro k hk
      rw [h k (by simp [sizeList]; omega), layoutList, List.getElem?_append_left (by rw [layout_length]; exact hk)]) (by omega)
    have h2 := xmlList_layout xs hx.2 d (i + size x) p f (by
      intro k hk
      rw [show i + size x + k = i + (size x + k) by omega, h (size x + k) (by simp [sizeList]; omega), layoutList,
        List.getElem?_append_right (by rw [layout_length]; omega), layout_length]
      congr 1; omega) (by omega)
    simp only [starts, List.mapM_cons, h1, h2, unqualifiedList]
    rfl
end

mutual
theorem events_ns (x : Xml V) : ∀ e ∈ events x, e ≠ .ns := by
  cases x with
  | elem tag attrs ks =>
    intro e he
    simp only [events, List.cons_append, List.mem_cons, List.mem_append, List.not_mem_nil, or_false] at he
    rcases he with rfl | he | rfl
    · simp
    · exact eventsList_ns ks e he
    · simp
theorem eventsList_ns (xs : List (Xml V)) : ∀ e ∈ eventsList xs, e ≠ .ns := by
  cases xs with
  | nil => intro e he; simp [eventsList] at he
  | cons x xs =>
    intro e he
    rw [eventsList, List.mem_append] at he
    rcases he with he | he
    · exact events_ns x e he
    · exact eventsList_ns xs e he
end

/-- C70: for a tree of the elements which the library saves under the name it loads them from, `xml()` of the loaded root has the same
elements, names, attributes and nesting as the source, and loading it again gives the same document.

Partial: other elements change their names or cannot be saved (`C70_names_wrong`, `C70_mask_wrong`), the namespace is lost
(`unqualified`), and `document.write` does not write XML (`C70_write_wrong`). -/
theorem C70_xml_partial (x : Xml V) (hx : Kept x) (evs : List (Ev V)) (he : evs.filter (· ≠ .ns) = events x) (d : Dom V)
    (h : load evs = .ok d) :
    xmlOf d 1 = .ok (unqualified x) ∧ load (events (unqualified x)) = .ok d := by
  obtain ⟨_, hd⟩ := load_ok x evs he d h
  have hn : d.nodes = _ := hd ▸ place_new x
  constructor
  · apply xml_layout x hx d 1 0
    · intro k _
      rw [hn, add_comm 1 k, List.getElem?_cons_succ]
    · rw [hn, List.length_cons, layout_length]; omega
  · have hf : (events (unqualified x)).filter (· ≠ .ns) = events (unqualified x) := by
      rw [List.filter_eq_self]
      intro e he
      simpa using events_ns _ e he
    rw [load_eq _ (unqualified_loads x hx) _ hf, hd]
    simp only [place, newDocument, starts, layoutList, elementsList, List.append_nil, unqualified_layout x hx,
      register_congr _ _ _ _ (unqualified_elements x)]

/-- C70 fails for other names: links are saved as `hyperlink`, which is loaded as another class, and elements that the library does
not know are all saved as `node`. -/
theorem C70_names_wrong : ∃ d d' : Dom Str, load (events (.elem "svg".toList [] [.elem "a".toList [] [], .elem "foo".toList [] []])) = .ok d ∧
    xmlOf d 1 = .ok (.elem "svg".toList [] [.elem "hyperlink".toList [] [], .elem "node".toList [] []]) ∧
    load (events (.elem "svg".toList [] [.elem "hyperlink".toList [] [], .elem "node".toList [] []])) = .ok d' ∧ d ≠ d' := by
  refine ⟨_, _, rfl, rfl, rfl, ?_⟩
  decide +kernel

/-- C70 fails for masks: a document with a mask cannot be saved. -/
theorem C70_mask_wrong : ∃ d : Dom Str, load (events (.elem "svg".toList [] [.elem "mask".toList [] []])) = .ok d ∧
    (match xmlOf d 1 with | .error e => e = .attributeError | .ok _ => False) := by
  refine ⟨_, rfl, ?_⟩
  rfl

/-- C70 fails for `document.write`: whatever the document, the text written starts with `D`, which no XML document does. -/
theorem C70_write_wrong (show_ : V → Str) (attrs : Dict V) (text : Option Str) (rest : List Str) :
    ∃ r, docStr show_ attrs text rest = 'D' :: r := ⟨_, rfl⟩

example : Kept (.elem "{http://www.w3.org/2000/svg}svg".toList [("id".toList, "a".toList)]
    [.elem "{http://www.w3.org/2000/svg}g".toList [] [.elem "{http://www.w3.org/2000/svg}rect".toList [("x".toList, "1".toList)] []],
     .elem "title".toList [] []] : Xml Str) := by
  refine ⟨?_, ?_, ⟨?_, ?_, ⟨?_, ?_, trivial⟩, trivial⟩, ⟨?_, ?_, trivial⟩, trivial⟩ <;>
    first | decide +kernel | (unfold NsOk; decide +kernel)

end Svgio.Props
