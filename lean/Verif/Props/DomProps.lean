import Verif.Model.DomProps
import Verif.Spec.DomProps
import Verif.Props.DomInherit

/-!
C117: properties of elements show their attributes; C118: the transforms of a nested element.
-/

namespace Svgio.Props

open Svgio.Dom Svgio.Spec

variable {V : Type} [DecidableEq V]

/-- attributes of SVG elements that the classes have no property for -/
def noProperty : List (Cls × Str) :=
  [(.use, "href".toList), (.use, "transform".toList), (.clipPath, "transform".toList), (.hyperlink, "transform".toList)]

/-- the properties whose default is not the initial value in SVG -/
def oddDefault : List (Cls × Str) := [(.rect, "width".toList), (.rect, "height".toList)]

/-- the look-up of every property: in the element alone, or among the inherited values -/
def FoundBy (c : Cls) (name : Str) : Prop :=
  (dictGet (lookups c) name = some (.own name) ∧ standsFor name = [name] ∧ initialValue (V := Unit) c name = .nothing) ∨
    ∃ dflt ∈ [none, some (.inl 0), some (.inl 1), some (.inr "userSpaceOnUse".toList)],
      dictGet (lookups c) name = some (.values (standsFor name).reverse dflt) ∧
      ((c, name) ∉ oddDefault → initialValue (V := Unit) c name = defaultOf dflt)

instance (c : Cls) (name : Str) : Decidable (FoundBy c name) := by unfold FoundBy; infer_instance

theorem table (c : Cls) : ∀ name ∈ attributesOf c, (c, name) ∉ noProperty →
    dictGet bootstrap (dashes name) = none ∧ FoundBy c name := by
  cases c <;> decide +kernel

theorem table_painted (c : Cls) (hc : c ∈ painted) : ∀ name ∈ presentation,
    dictGet bootstrap (dashes name) = none ∧ dictGet (lookups c) name = some (.values [dashes name] none) := by
  cases c <;> revert hc <;> decide +kernel

theorem initialValue_unit (c : Cls) (name : Str) (dflt : Option (ℕ ⊕ Str)) (h : initialValue (V := Unit) c name = defaultOf dflt) :
    initialValue (V := V) c name = defaultOf dflt := by
  revert h
  unfold initialValue
  split_ifs <;> rcases dflt with - | x | x <;> simp [defaultOf]

theorem getAttribute_eq (d : Dom V) (i : ℕ) (n : NodeRec V) (hn : d.nodes[i]? = some n) (name : Str) (l : Lookup)
    (h1 : dictGet bootstrap (dashes name) = none) (h2 : dictGet (lookups n.cls) name = some l) :
    getAttribute d i name = lookUp d i n l := by
  unfold getAttribute
  rw [hn]
  simp only [h1, ite_self, h2]

/-- **C117**: a property of an element is the attribute of that name that the element has, and if neither the element nor an ancestor
has it, its initial value.

Partial: if the element does not have the attribute, but an ancestor, the property is wrongly that one (`C82_inherited_wrong`); `href`, if
an `xlink:href` is there too (`C117_href_wrong`); missing properties (`C117_missing_wrong`); width and height of rectangles without these
attributes (`C117_default_wrong`). -/
theorem C117_own_partial (d : Dom V) (hd : Reachable d) (i : ℕ) (hA : HaveAttrs d i) (n : NodeRec V) (hn : d.nodes[i]? = some n)
    (a : Dict V) (ha : n.attrs = some a) (name : Str) (h : name ∈ attributesOf n.cls) (hm : (n.cls, name) ∉ noProperty)
    (hx : name = "href".toList → dictGet a "href".toList ≠ none → ∀ j m b, Below d i j → d.nodes[j]? = some m → m.attrs = some b →
      dictGet b "{http://www.w3.org/1999/xlink}href".toList = none) :
    (∀ v, ownValue a name = some v → getAttribute d i name = .ok (.attr v)) ∧
      ((∀ k ∈ standsFor name, ∀ j m b, Below d i j → d.nodes[j]? = some m → m.attrs = some b → dictGet b k = none) →
        (n.cls, name) ∉ oddDefault → getAttribute d i name = .ok (initialValue n.cls name)) := by
  obtain ⟨h1, h2⟩ := table n.cls name h hm
  have hi : i < d.nodes.length := (List.getElem?_eq_some_iff.1 hn).1
  obtain ⟨vals, g1, g2, g3⟩ := C68_inherited_partial d hd i hi hA
  have none_of : ∀ k, (∀ j m b, Below d i j → d.nodes[j]? = some m → m.attrs = some b → dictGet b k = none) → dictGet vals k = none := by
    intro k hk
    have := C82_own_partial d hd i hA n hn a ha k none
    have h := this.2 hk
    simp only [property, g1, Option.or_none, Except.ok.injEq] at h
    exact h
  rcases h2 with ⟨h2, h3, h4⟩ | ⟨dflt, -, h2, h4⟩
  · rw [getAttribute_eq d i n hn name _ h1 h2]
    unfold ownValue
    rw [h3]
    simp only [lookUp, ha]
    constructor
    · intro v hv
      have : dictGet a name = some v := by rw [← hv]; simp only [List.findSome?]; cases dictGet a name <;> rfl
      rw [this]
    · intro hk _
      rw [hk name (List.mem_singleton.2 rfl) i n a .self hn ha, initialValue_unit n.cls name none h4]
      rfl
  · rw [getAttribute_eq d i n hn name _ h1 h2]
    simp only [lookUp, g1]
    constructor
    · intro v hv
      have : firstOf vals (standsFor name).reverse = some v := by
        by_cases hh : name = "href".toList
        · subst hh
          have e : standsFor "href".toList = ["href".toList, "{http://www.w3.org/1999/xlink}href".toList] := rfl
          unfold ownValue at hv
          rw [e] at hv ⊢
          have hx' := hx rfl
          clear e hx h1 h2 h4 h hm
          generalize "href".toList = p at *
          generalize "{http://www.w3.org/1999/xlink}href".toList = q at *
          simp only [List.findSome?, List.reverse_cons, List.reverse_nil, List.nil_append, List.cons_append] at hv ⊢
          unfold firstOf
          cases hp : dictGet a p with
          | some w =>
            rw [hp] at hv hx'
            rw [none_of q (hx' (by simp))]
            simp only [Option.some.injEq] at hv
            subst hv
            simp only [firstOf, (g2 p w).2 (.own hn ha hp)]
          | none =>
            rw [hp] at hv
            simp only at hv
            cases hq : dictGet a q with
            | none => rw [hq] at hv; simp at hv
            | some w =>
              rw [hq] at hv
              simp only [Option.some.injEq] at hv
              subst hv
              rw [(g2 q w).2 (.own hn ha hq)]
        · have e : ∃ k, standsFor name = [k] := by
            unfold standsFor
            rw [if_neg hh]
            split_ifs <;> exact ⟨_, rfl⟩
          obtain ⟨k, e⟩ := e
          unfold ownValue at hv
          rw [e] at hv ⊢
          have hk : dictGet a k = some v := by rw [← hv]; simp only [List.findSome?]; cases dictGet a k <;> rfl
          simp only [List.reverse_singleton, firstOf, (g2 k v).2 (.own hn ha hk)]
      rw [this]
    · intro hk ho
      have : ∀ l : List Str, (∀ k ∈ l, dictGet vals k = none) → firstOf vals l = none := by
        intro l
        induction l with
        | nil => intro _; rfl
        | cons k l ih =>
          intro hl
          simp only [firstOf, hl k (List.mem_cons_self ..), ih (fun x hx => hl x (List.mem_cons_of_mem _ hx))]
      rw [this _ (fun k hm => none_of k (hk k (List.mem_reverse.1 hm))), initialValue_unit n.cls name dflt (h4 ho)]

/-- **C117**: `stroke_width`, `stroke_opacity` and `fill_opacity` of a shape, text or image are the value of the closest of it and its
ancestors that has the attribute, as presentation attributes are inherited in SVG, and None exactly if there is none. -/
theorem C117_presentation (d : Dom V) (hd : Reachable d) (i : ℕ) (hA : HaveAttrs d i) (n : NodeRec V) (hn : d.nodes[i]? = some n)
    (hc : n.cls ∈ painted) (name : Str) (h : name ∈ presentation) :
    (∀ v k, k ∈ standsFor name → (getAttribute d i name = .ok (.attr v) ↔ Inherited d i k v)) ∧
      (getAttribute d i name = .ok .nothing ↔ ¬ ∃ k ∈ standsFor name, ∃ v, Inherited d i k v) := by
  obtain ⟨h1, h2⟩ := table_painted n.cls hc name h
  have hi : i < d.nodes.length := (List.getElem?_eq_some_iff.1 hn).1
  obtain ⟨vals, g1, g2, g3⟩ := C68_inherited_partial d hd i hi hA
  have e : standsFor name = [dashes name] := by
    clear h1 h2
    revert h name
    decide +kernel
  rw [getAttribute_eq d i n hn name _ h1 h2, e]
  simp only [lookUp, g1, firstOf, List.mem_singleton, forall_eq, exists_eq_left, defaultOf]
  cases hv : dictGet vals (dashes name) with
  | none =>
    refine ⟨fun v => ?_, ?_⟩
    · simp only [Except.ok.injEq, reduceCtorEq, false_iff]
      intro hh
      exact (g3 _).1 hv ⟨v, hh⟩
    · simpa using (g3 _).1 hv
  | some w =>
    refine ⟨fun v => ?_, ?_⟩
    · rw [← g2, hv]
      simp
    · simp only [Except.ok.injEq, reduceCtorEq, false_iff, not_not]
      exact ⟨w, (g2 _ _).1 hv⟩

/-- a rectangle in a group, each with attributes -/
example : ∃ d : Dom Str, load [.start "g".toList [("stroke-width".toList, "3".toList)], .start "rect".toList [("x".toList, "7".toList)],
      .stop, .stop] = .ok d ∧ getAttribute d 2 "x".toList = .ok (.attr "7".toList) ∧ getAttribute d 2 "y".toList = .ok (.number 0) ∧
      getAttribute d 2 "stroke_width".toList = .ok (.attr "3".toList) ∧ getAttribute d 2 "rx".toList = .ok .nothing :=
  ⟨_, rfl, by decide +kernel, by decide +kernel, by decide +kernel, by decide +kernel⟩

/-- C117 is false of `href` if there is an `xlink:href` as well, which SVG 2 ignores: it is that one. -/
theorem C117_href_wrong : ∃ d : Dom Str, load [.start "a".toList [("href".toList, "1".toList),
      ("{http://www.w3.org/1999/xlink}href".toList, "2".toList)], .stop] = .ok d ∧
    getAttribute d 1 "href".toList = .ok (.attr "2".toList) := ⟨_, rfl, by decide +kernel⟩

/-- C117 is false of these attributes: there is no property for them. -/
theorem C117_missing_wrong (d : Dom V) (i : ℕ) (n : NodeRec V) (hn : d.nodes[i]? = some n) (name : Str)
    (h : (n.cls, name) ∈ noProperty) : name ∈ attributesOf n.cls ∧ getAttribute d i name = .error .attributeError := by
  unfold getAttribute
  rw [hn]
  simp only
  generalize n.cls = c at *
  have : ∀ x ∈ noProperty, x.2 ∈ attributesOf x.1 ∧ x.1 ≠ .mask ∧ dictGet bootstrap (dashes x.2) = none ∧
    dictGet (lookups x.1) x.2 = none := by decide +kernel
  obtain ⟨h1, h2, h3, h4⟩ := this _ h
  rw [if_neg h2, h3]
  simp only [h4]
  exact ⟨h1, trivial⟩

/-- C117 is false of a rectangle without a width, which SVG 2 gives the width 0: it is 1. -/
theorem C117_default_wrong : ∃ d : Dom Str, load [.start "rect".toList [], .stop] = .ok d ∧
    getAttribute d 1 "width".toList = .ok (.number 1) ∧ (initialValue .rect "width".toList : Got Str) = .number 0 :=
  ⟨_, rfl, by decide +kernel, by decide +kernel⟩

/-- C117 is false of groups: SVG lets them have presentation attributes, but there is no property for these. -/
theorem C117_group_wrong (d : Dom V) (i : ℕ) (n : NodeRec V) (hn : d.nodes[i]? = some n) (hc : n.cls = .group) (name : Str)
    (h : name ∈ presentation) : getAttribute d i name = .error .attributeError := by
  have : ∀ x ∈ presentation, dictGet bootstrap (dashes x) = none ∧ dictGet (lookups .group) x = none := by decide +kernel
  obtain ⟨h1, h2⟩ := this _ h
  unfold getAttribute
  rw [hn]
  simp only [hc]
  rw [if_neg (by decide), h1]
  simp only [h2]

example : ∃ d : Dom Str, load [.start "g".toList [("stroke-width".toList, "3".toList)], .stop] = .ok d ∧
    (d.nodes[1]?).map (·.cls) = some .group ∧ "stroke_width".toList ∈ presentation := ⟨_, rfl, rfl, by decide +kernel⟩

/-- C117 is false of the property `title` of a title element, which reads the attribute `title`: it is a builder of new elements, as it is
for all nodes. So it is with `desc`. -/
theorem C117_title_wrong : ∃ d : Dom Str, load [.start "title".toList [("title".toList, "1".toList)], .start "desc".toList
      [("desc".toList, "1".toList)], .stop, .stop] = .ok d ∧
    getAttribute d 1 "title".toList = .ok (.builder .title) ∧ getAttribute d 2 "desc".toList = .ok (.builder .desc) :=
  ⟨_, rfl, by decide +kernel, by decide +kernel⟩

/-! ### C118 -/

theorem transforms_last (d : Dom V) {i : ℕ} {l : List V} (h : Transforms d i l) (v : V) :
    l.getLast? = some v ↔ Inherited d i "transform".toList v := by
  induction h with
  | top h1 h2 h3 =>
    generalize "transform".toList = k at *
    constructor
    · intro h
      refine .own h1 h2 ?_
      revert h
      cases dictGet _ k <;> simp
    · intro h
      cases h with
      | own g1 g2 g3 =>
        rw [h1] at g1; cases g1
        rw [h2] at g2; cases g2
        rw [g3]; rfl
      | up g1 g2 g3 g4 g5 =>
        rw [h1] at g1; cases g1
        rw [h3] at g4; cases g4
  | @inside i n a p l h1 h2 h3 _ ih =>
    generalize "transform".toList = k at *
    cases hk : dictGet a k with
    | some w =>
      simp only [Option.toList_some, List.getLast?_append, List.getLast?_singleton, Option.some_or, Option.some.injEq]
      constructor
      · rintro rfl; exact .own h1 h2 hk
      · intro h
        cases h with
        | own g1 g2 g3 =>
          rw [h1] at g1; cases g1
          rw [h2] at g2; cases g2
          rw [hk] at g3; cases g3; rfl
        | up g1 g2 g3 g4 g5 =>
          rw [h1] at g1; cases g1
          rw [h2] at g2; cases g2
          rw [hk] at g3; cases g3
    | none =>
      rw [Option.toList_none, List.append_nil, ih]
      constructor
      · intro h; exact .up h1 h2 hk h3 h
      · intro h
        cases h with
        | own g1 g2 g3 =>
          rw [h1] at g1; cases g1
          rw [h2] at g2; cases g2
          rw [hk] at g3; cases g3
        | up g1 g2 g3 g4 g5 =>
          rw [h1] at g1; cases g1
          rw [h3] at g4; cases g4
          exact g5

theorem transforms_exist (d : Dom V) (hd : Good d) : ∀ (f i : ℕ), i < f → i < d.nodes.length → HaveAttrs d i → ∃ l, Transforms d i l
  | 0, i, h, _, _ => absurd h (by omega)
  | f + 1, i, h, hi, hA => by
    have hn : d.nodes[i]? = some d.nodes[i] := List.getElem?_eq_getElem hi
    cases ha : (d.nodes[i]).attrs with
    | none => exact absurd ha (hA i _ .self hn)
    | some a =>
      cases hp : (d.nodes[i]).parent with
      | none => exact ⟨_, .top hn ha hp⟩
      | some p =>
        have h0 : i ≠ 0 := by
          rintro rfl
          obtain ⟨r, hr, _, hp0⟩ := hd.1.root
          rw [hn] at hr
          cases hr
          rw [hp] at hp0
          cases hp0
        obtain ⟨q, hq, hq'⟩ := hd.1.parent i _ hn h0
        rw [hp] at hq'
        cases hq'
        obtain ⟨l, hl⟩ := transforms_exist d hd f p (by omega) (by omega) (fun j m hj hm => hA j m (.up hn hp hj) hm)
        exact ⟨_, .inside hn ha hp hl⟩

/-- **C118**: `transform` of an element is the transform of its coordinates to those of the document.

Partial: only if at most one of the element and its ancestors has a transform (`C118_nested_wrong`). -/
theorem C118_transform_partial (d : Dom V) (hd : Reachable d) (i : ℕ) (hA : HaveAttrs d i) (n : NodeRec V) (hn : d.nodes[i]? = some n)
    (hc : "transform".toList ∈ attributesOf n.cls ∨ n.cls = .text ∨ n.cls = .tspan) (hm : (n.cls, "transform".toList) ∉ noProperty) :
    ∃ l, Transforms d i l ∧ (l = [] → getAttribute d i "transform".toList = .ok .nothing) ∧
      ∀ t, l = [t] → getAttribute d i "transform".toList = .ok (.attr t) := by
  have hi : i < d.nodes.length := (List.getElem?_eq_some_iff.1 hn).1
  obtain ⟨l, hl⟩ := transforms_exist d (reachable_good d hd) _ i hi hi hA
  obtain ⟨vals, g1, g2, g3⟩ := C68_inherited_partial d hd i hi hA
  have ht : dictGet bootstrap (dashes "transform".toList) = none ∧
      dictGet (lookups n.cls) "transform".toList = some (.values ["transform".toList] none) := by
    clear g1 g2 g3 hl hA hn hi
    generalize n.cls = c at *
    revert hc hm
    cases c <;> decide +kernel
  have key : getAttribute d i "transform".toList = .ok (match l.getLast? with | some v => .attr v | none => .nothing) := by
    rw [getAttribute_eq d i n hn _ _ ht.1 ht.2]
    simp only [lookUp, g1, firstOf, defaultOf]
    have : dictGet vals "transform".toList = l.getLast? := by
      apply Option.ext
      intro v
      rw [g2, transforms_last d hl]
    rw [← this]
    cases dictGet vals _ <;> rfl
  refine ⟨l, hl, ?_, ?_⟩
  · rintro rfl; exact key
  · rintro t rfl; exact key

theorem transforms_in {d : Dom V} {i : ℕ} {n : NodeRec V} {a : Dict V} {p : ℕ} (l l' : List V) (h1 : d.nodes[i]? = some n)
    (h2 : n.attrs = some a) (h3 : n.parent = some p) (h4 : Transforms d p l) (h5 : l ++ (dictGet a "transform".toList).toList = l') :
    Transforms d i l' := h5 ▸ .inside h1 h2 h3 h4

theorem transforms_top {d : Dom V} {i : ℕ} {n : NodeRec V} (h1 : d.nodes[i]? = some n) (h2 : n.attrs = some []) (h3 : n.parent = none) :
    Transforms d i [] := .top h1 h2 h3

/-- a rectangle in a group with a transform -/
example : ∃ d : Dom Str, load [.start "g".toList [("transform".toList, "scale(2)".toList)], .start "rect".toList [], .stop, .stop] = .ok d ∧
    Transforms d 2 ["scale(2)".toList] :=
  ⟨_, rfl, transforms_in ["scale(2)".toList] _ rfl rfl rfl (transforms_in (p := 0) [] _ rfl rfl rfl (transforms_top rfl rfl rfl) rfl) rfl⟩

/-- C118 is false of a rectangle with a transform in a group with one: only its own is in `transform`. -/
theorem C118_nested_wrong : ∃ d : Dom Str, load [.start "g".toList [("transform".toList, "scale(2)".toList)],
      .start "rect".toList [("transform".toList, "scale(3)".toList)], .stop, .stop] = .ok d ∧
    Transforms d 2 ["scale(2)".toList, "scale(3)".toList] ∧ getAttribute d 2 "transform".toList = .ok (.attr "scale(3)".toList) :=
  ⟨_, rfl, transforms_in ["scale(2)".toList] _ rfl rfl rfl (transforms_in (p := 0) [] _ rfl rfl rfl (transforms_top rfl rfl rfl) rfl) rfl,
    by decide +kernel⟩

end Svgio.Props
