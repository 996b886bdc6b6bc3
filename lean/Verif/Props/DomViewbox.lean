import Verif.Model.DomViewbox
import Verif.Props.DomProps
import Verif.Props.Viewbox

/-! C149: the viewBox of elements of a document. -/

namespace Svgio.Props
open Svgio.Dom Svgio.Spec

/-- all attributes of the elements are texts, as in every file -/
def TextsOnly (x : Xml Given) : Prop := ∀ e ∈ elements x, ∀ kv ∈ e.2, ∃ s, kv.2 = Given.text s

theorem mem_of_get {V : Type} : ∀ {a : Dict V} {k : Str} {v : V}, dictGet a k = some v → ∃ kv ∈ a, kv.2 = v
  | [], k, v, h => by simp [dictGet] at h
  | (k', v') :: r, k, v, h => by
    unfold dictGet at h
    by_cases hk : k' = k
    · rw [if_pos hk] at h
      exact ⟨_, List.mem_cons_self, by simpa using h⟩
    · rw [if_neg hk] at h
      obtain ⟨kv, h1, h2⟩ := mem_of_get h
      exact ⟨kv, List.mem_cons_of_mem _ h1, h2⟩

theorem node_texts {x : Xml Given} (hx : TextsOnly x) {evs : List (Ev Given)} (he : evs.filter (· ≠ .ns) = events x) {d : Dom Given}
    (h : load evs = .ok d) {j : ℕ} {n : NodeRec Given} (hj : d.nodes[j]? = some n) {a : Dict Given} (ha : n.attrs = some a) {k : Str} {v : Given}
    (hv : dictGet a k = some v) : ∃ s, v = .text s := by
  obtain ⟨h1, ⟨r, h2, _⟩, _, h4⟩ := C65_tree_partial x evs he d h
  cases j with
  | zero =>
    obtain ⟨_, hd⟩ := load_ok x evs he d h
    rw [hd, place_new] at hj
    simp at hj
    rw [← hj] at ha
    simp at ha
    rw [ha] at hv
    simp [dictGet] at hv
  | succ k =>
    have hk : k < (elements x).length := by
      have := (List.getElem?_eq_some_iff.1 hj).1
      omega
    obtain ⟨m, hm, _, hma⟩ := h4 k _ (List.getElem?_eq_getElem hk)
    rw [hj] at hm
    cases hm
    rw [hma] at ha
    cases ha
    obtain ⟨kv, hkv, rfl⟩ := mem_of_get hv
    exact hx _ (List.getElem_mem hk) _ hkv

theorem inherited_text {x : Xml Given} (hx : TextsOnly x) {evs : List (Ev Given)} (he : evs.filter (· ≠ .ns) = events x) {d : Dom Given}
    (h : load evs = .ok d) {i : ℕ} {k : Str} {v : Given} (hi : Inherited d i k v) : ∃ s, v = .text s := by
  induction hi with
  | own h1 h2 h3 => exact node_texts hx he h h1 h2 h3
  | up _ _ _ _ _ ih => exact ih

theorem placed_svg : ∀ c ∈ [Cls.svg, .pattern, .image, .use, .text, .tspan], ∀ name ∈ ["x".toList, "y".toList, "width".toList, "height".toList],
    dictGet bootstrap (dashes name) = none ∧ dictGet (lookups c) name = some (.values [name] none) := by
  decide +kernel

theorem svg_viewBox : dictGet bootstrap (dashes "viewBox".toList) = none ∧ dictGet (lookups .svg) "viewBox".toList = some (.own "viewBox".toList) := by
  decide +kernel

/-- the element's own attribute is what the property gives -/
theorem own_placed {d : Dom Given} (hd : Reachable d) {i : ℕ} (hA : HaveAttrs d i) {n : NodeRec Given} (hn : d.nodes[i]? = some n)
    (hc : n.cls = .svg) {a : Dict Given} (ha : n.attrs = some a) {name : Str}
    (hm : name ∈ ["x".toList, "y".toList, "width".toList, "height".toList]) {v : Given} (hv : dictGet a name = some v) :
    getAttribute d i name = .ok (.attr v) := by
  obtain ⟨h1, h2⟩ := placed_svg .svg (by simp) name hm
  rw [getAttribute_eq d i n hn name _ h1 (hc ▸ h2)]
  obtain ⟨vals, h3, h4, _⟩ := C68_inherited_partial d hd i (List.getElem?_eq_some_iff.1 hn).1 hA
  have h5 := (h4 name v).2 (.own hn ha hv)
  simp only [lookUp, h3, firstOf, h5]

/-- **C149.** Full statement: `viewbox_transform` of an element is the transform that fits its viewBox into its rectangle, and empty if it has no
viewBox; x and y are 0 if they are not given. Proved here: for an svg element without a viewBox, and for one whose viewBox is a `Viewbox`
object and whose x, y, width and height are numbers, in a document in which the element and its ancestors have attributes. The matrix of the
text is the transform of C32 and C33 to half a unit of the twelfth decimal. Missing, since false: elements from files
(`C149_loaded_wrong`), elements without x or y (`C149_default_wrong`), images and patterns (`C149_image_wrong`). -/
theorem C149_built_partial {d : Dom Given} (hd : Reachable d) {i : ℕ} (hA : HaveAttrs d i) {n : NodeRec Given} (hn : d.nodes[i]? = some n)
    (hc : n.cls = .svg) {a : Dict Given} (ha : n.attrs = some a) :
    (dictGet a "viewBox".toList = none → viewboxTransform d i = .ok []) ∧
    ∀ (ex ey ew eh vx vy vw vh : ℚ) (aspect : Option Str),
      dictGet a "x".toList = some (.num ex) → dictGet a "y".toList = some (.num ey) → dictGet a "width".toList = some (.num ew) →
      dictGet a "height".toList = some (.num eh) →
      dictGet a "viewBox".toList = some (.box ⟨some vx, some vy, some vw, some vh⟩ aspect) → vw ≠ 0 → vh ≠ 0 →
      ∃ (f : Viewbox.Fit ℚ) (t : Str) (M : Mat ℝ), Viewbox.fit ex ey ew eh vx vy vw vh aspect = .ok f ∧ viewboxTransform d i = .ok t ∧
        (∀ ctx, LMat.ofText ctx t = .ok (LMat.ofMat M)) ∧ M.b = 0 ∧ M.c = 0 ∧
        |M.a - f.scaleX| ≤ 1 / (2 * 10 ^ 12) ∧ |M.d - f.scaleY| ≤ 1 / (2 * 10 ^ 12) ∧
        |M.e - f.translateX| ≤ 1 / (2 * 10 ^ 12) ∧ |M.f - f.translateY| ≤ 1 / (2 * 10 ^ 12) := by
  have vb : getAttribute d i "viewBox".toList = lookUp d i n (.own "viewBox".toList) :=
    getAttribute_eq d i n hn _ _ svg_viewBox.1 (hc ▸ svg_viewBox.2)
  constructor
  · intro h
    have h1 : getAttribute d i "viewBox".toList = .ok .nothing := by rw [vb]; simp only [lookUp, ha, h]
    unfold viewboxTransform
    rw [hn]
    simp only [hc, if_true]
    rw [h1]
    rfl
  · intro ex ey ew eh vx vy vw vh aspect hx hy hw hh hv h0 h1
    have e : getAttribute d i "viewBox".toList = .ok (.attr (.box ⟨some vx, some vy, some vw, some vh⟩ aspect)) := by
      rw [vb]; simp only [lookUp, ha, hv]
    have t : transformFor ⟨some vx, some vy, some vw, some vh⟩ aspect d i =
        Viewbox.transform ⟨some ex, some ey, some ew, some eh⟩ ⟨some vx, some vy, some vw, some vh⟩ aspect := by
      unfold transformFor
      rw [own_placed hd hA hn hc ha (by simp) hx, own_placed hd hA hn hc ha (by simp) hy, own_placed hd hA hn hc ha (by simp) hw,
        own_placed hd hA hn hc ha (by simp) hh]
      show viewboxOf (some (.num ex)) (some (.num ey)) (some (.num ew)) (some (.num eh)) ⟨some vx, some vy, some vw, some vh⟩ aspect = _
      simp only [viewboxOf, h0, h1, if_false]
    obtain ⟨f, t', M, g1, g2, g3, g4, g5, g6, g7, g8, g9, _⟩ := ((C34_text _ _ aspect).2 ex ey ew eh vx vy vw vh rfl rfl).2 h0 h1
    refine ⟨f, t', M, g1, ?_, g3, g4, g5, g6, g7, g8, g9⟩
    unfold viewboxTransform
    rw [hn]
    simp only [hc, if_true]
    rw [e]
    exact t.trans g2

/-- what is given is a number -/
def IsNum (g : Given) : Prop := ∃ q, g = .num q

/-- C149: the exceptions of an svg element that has a rectangle and a complete viewBox: ZeroDivisionError if the rectangle consists of numbers and the
viewBox has no width or no height, TypeError if it has both and one of the four numbers of the rectangle is none -/
theorem C149_raises {d : Dom Given} (hd : Reachable d) {i : ℕ} (hA : HaveAttrs d i) {n : NodeRec Given} (hn : d.nodes[i]? = some n)
    (hc : n.cls = .svg) {a : Dict Given} (ha : n.attrs = some a) {gx gy gw gh : Given} {vx vy vw vh : ℚ} {aspect : Option Str}
    (hx : dictGet a "x".toList = some gx) (hy : dictGet a "y".toList = some gy) (hw : dictGet a "width".toList = some gw)
    (hh : dictGet a "height".toList = some gh) (hv : dictGet a "viewBox".toList = some (.box ⟨some vx, some vy, some vw, some vh⟩ aspect)) :
    (IsNum gx ∧ IsNum gy ∧ IsNum gw ∧ IsNum gh → vw = 0 ∨ vh = 0 → viewboxTransform d i = .error .zeroDivisionError) ∧
      (¬(IsNum gx ∧ IsNum gy ∧ IsNum gw ∧ IsNum gh) → vw ≠ 0 → vh ≠ 0 → viewboxTransform d i = .error .typeError) := by
  have e : getAttribute d i "viewBox".toList = .ok (.attr (.box ⟨some vx, some vy, some vw, some vh⟩ aspect)) := by
    rw [getAttribute_eq d i n hn _ _ svg_viewBox.1 (hc ▸ svg_viewBox.2)]
    simp only [lookUp, ha, hv]
  have t : viewboxTransform d i = viewboxOf (some gx) (some gy) (some gw) (some gh) ⟨some vx, some vy, some vw, some vh⟩ aspect := by
    unfold viewboxTransform
    rw [hn]
    simp only [hc, if_true]
    rw [e]
    show transformFor _ _ d i = _
    unfold transformFor
    rw [own_placed hd hA hn hc ha (by simp) hx, own_placed hd hA hn hc ha (by simp) hy, own_placed hd hA hn hc ha (by simp) hw,
      own_placed hd hA hn hc ha (by simp) hh]
    rfl
  rw [t]
  constructor
  · rintro ⟨⟨x, rfl⟩, ⟨y, rfl⟩, ⟨w, rfl⟩, h, rfl⟩ h0
    by_cases h1 : vw = 0
    · simp only [viewboxOf, h1, if_true]
    · simp only [viewboxOf, h1, if_false, h0.resolve_left h1, if_true]
  · intro hg h0 h1
    cases gw with
    | num w =>
      cases gh with
      | num h =>
        cases gx with
        | num x =>
          cases gy with
          | num y => exact absurd ⟨⟨x, rfl⟩, ⟨y, rfl⟩, ⟨w, rfl⟩, h, rfl⟩ hg
          | text => simp only [viewboxOf, h0, h1, if_false]
          | box => simp only [viewboxOf, h0, h1, if_false]
        | text => simp only [viewboxOf, h0, h1, if_false]
        | box => simp only [viewboxOf, h0, h1, if_false]
      | text => simp only [viewboxOf, h0, if_false]
      | box => simp only [viewboxOf, h0, if_false]
    | text => rfl
    | box => rfl

/-- C149: only svg, pattern and image elements have the property -/
theorem C149_others {d : Dom Given} {i : ℕ} (h : ∀ n, d.nodes[i]? = some n → n.cls ≠ .svg ∧ n.cls ≠ .pattern ∧ n.cls ≠ .image) :
    viewboxTransform d i = .error .attributeError := by
  unfold viewboxTransform
  cases hn : d.nodes[i]? with
  | none => rfl
  | some n =>
    obtain ⟨h1, h2, h3⟩ := h n hn
    simp only [h1, h2, h3, if_false, or_self]

/-- **C149 fails** for files: `viewbox_transform` of an svg element with a viewBox raises AttributeError, since the attribute is a text; and no
viewBox has a transform for the element, whatever its rectangle and aspect ratio: `Viewbox(..).transform(element)` is empty or raises an
exception. -/
theorem C149_loaded_wrong {x : Xml Given} (hx : TextsOnly x) {evs : List (Ev Given)}
    (hu : ∀ tag a, Ev.start tag a ∈ evs → IsDict a) (he : evs.filter (· ≠ .ns) = events x) {d : Dom Given} (h : load evs = .ok d) {i : ℕ} {n : NodeRec Given} (hn : d.nodes[i]? = some n)
    (hc : n.cls = .svg) {a : Dict Given} (ha : n.attrs = some a) :
    (dictGet a "viewBox".toList ≠ none → viewboxTransform d i = .error .attributeError) ∧
    ∀ b aspect t, transformFor b aspect d i = .ok t → t = [] := by
  have hd : Reachable d := .parsed .new hu h
  have hA := C68_loaded x evs he d h i
  have got : ∀ name ∈ ["x".toList, "y".toList, "width".toList, "height".toList], ∃ g, getAttribute d i name = .ok g ∧
      (g = .nothing ∨ ∃ s, g = .attr (.text s)) := by
    intro name hm
    obtain ⟨h1, h2⟩ := placed_svg .svg (by simp) name hm
    obtain ⟨vals, h3, h4, _⟩ := C68_inherited_partial d hd i (List.getElem?_eq_some_iff.1 hn).1 hA
    rw [getAttribute_eq d i n hn name _ h1 (hc ▸ h2)]
    cases hg : dictGet vals name with
    | none => exact ⟨.nothing, by simp only [lookUp, h3, firstOf, hg]; rfl, .inl rfl⟩
    | some v =>
      obtain ⟨s, rfl⟩ := inherited_text hx he h ((h4 name v).1 hg)
      exact ⟨.attr (.text s), by simp only [lookUp, h3, firstOf, hg], .inr ⟨s, rfl⟩⟩
  constructor
  · intro hv
    obtain ⟨v, hv⟩ := Option.ne_none_iff_exists'.1 hv
    obtain ⟨s, rfl⟩ := node_texts hx he h hn ha hv
    have e : getAttribute d i "viewBox".toList = .ok (.attr (.text s)) := by
      rw [getAttribute_eq d i n hn _ _ svg_viewBox.1 (hc ▸ svg_viewBox.2)]
      simp only [lookUp, ha, hv]
    unfold viewboxTransform
    rw [hn]
    simp only [hc, if_true]
    rw [e]
    rfl
  · intro b aspect t ht
    obtain ⟨gx, hx1, hx2⟩ := got "x".toList (by simp)
    obtain ⟨gy, hy1, hy2⟩ := got "y".toList (by simp)
    obtain ⟨gw, hw1, hw2⟩ := got "width".toList (by simp)
    obtain ⟨gh, hh1, hh2⟩ := got "height".toList (by simp)
    unfold transformFor at ht
    rw [hx1, hy1, hw1, hh1] at ht
    replace ht : viewboxOf (valueOf gx) (valueOf gy) (valueOf gw) (valueOf gh) b aspect = .ok t := ht
    unfold viewboxOf at ht
    split at ht
    · rename_i e3 _ _ _ _ _
      rcases hw2 with rfl | ⟨s, rfl⟩
      · simp [valueOf] at e3
      · obtain rfl : Given.text s = _ := by simpa [valueOf] using e3
        simp at ht
    · simpa using ht.symm

/-- **C149 fails** for images and patterns: `viewbox_transform` always raises AttributeError. -/
theorem C149_image_wrong (d : Dom Given) (i : ℕ) (n : NodeRec Given) (hn : d.nodes[i]? = some n) (hc : n.cls = .image ∨ n.cls = .pattern) :
    viewboxTransform d i = .error .attributeError := by
  have key : ∀ c : Cls, c = .image ∨ c = .pattern → dictGet bootstrap (dashes "viewbox".toList) = none ∧
      dictGet (lookups c) "viewbox".toList = none ∧ c ≠ .svg ∧ c ≠ .mask := by
    rintro c (rfl | rfl) <;> decide +kernel
  obtain ⟨h1, h2, h3, h4⟩ := key _ hc
  have h : getAttribute d i "viewbox".toList = .error .attributeError := by
    unfold getAttribute
    rw [hn]
    simp only [h1, ite_self, h2]
  unfold viewboxTransform
  rw [hn]
  simp only [if_neg h3, if_pos hc.symm]
  rw [h]
  rfl

/-- **C149 fails** where x or y is left out, although they are 0 then: the transform is empty, here for a viewBox ten times as large as the
element. -/
theorem C149_default_wrong : ∃ d : Dom Given, Reachable d ∧ build newDocument 0 "svg".toList []
      [("width".toList, .num 10), ("height".toList, .num 10), ("viewBox".toList, .box ⟨some 0, some 0, some 100, some 100⟩ none)] = .ok d ∧
    viewboxTransform d 1 = .ok [] ∧ ∃ d' : Dom Given, Reachable d' ∧ build newDocument 0 "svg".toList []
      [("x".toList, .num 0), ("y".toList, .num 0), ("width".toList, .num 10), ("height".toList, .num 10),
        ("viewBox".toList, .box ⟨some 0, some 0, some 100, some 100⟩ none)] = .ok d' ∧
      viewboxTransform d' 1 = .ok "scale(0.1, 0.1)".toList := by
  have r : ∀ {kw : Dict Given} {d : Dom Given}, build newDocument 0 "svg".toList [] kw = .ok d → Reachable d := fun h => .built .new h
  refine ⟨_, r rfl, rfl, ?_, _, r rfl, rfl, ?_⟩
  · decide +kernel
  · decide +kernel

/-- a file with a viewBox: the hypotheses of `C149_loaded_wrong` hold, and those of `C149_image_wrong` -/
example : ∃ (x : Xml Given) (d : Dom Given), TextsOnly x ∧ load (events x) = .ok d ∧ viewboxTransform d 1 = .error .attributeError ∧
    viewboxTransform d 2 = .error .attributeError ∧ transformFor ⟨some 0, some 0, some 100, some 100⟩ none d 1 = .error .typeError := by
  refine ⟨.elem "svg".toList [("x".toList, .text "0".toList), ("y".toList, .text "0".toList), ("width".toList, .text "10".toList),
    ("height".toList, .text "10".toList), ("viewBox".toList, .text "0 0 100 100".toList)] [.elem "image".toList [] []], _, ?_, rfl, ?_, ?_, ?_⟩
  · intro e he kv hkv
    simp only [elements, elementsList, List.append_nil, List.mem_cons, List.not_mem_nil, or_false] at he
    rcases he with rfl | rfl
    · simp only [List.mem_cons, List.not_mem_nil, or_false] at hkv
      rcases hkv with rfl | rfl | rfl | rfl | rfl <;> exact ⟨_, rfl⟩
    · simp at hkv
  · decide +kernel
  · exact C149_image_wrong _ 2 _ rfl (.inl rfl)
  · decide +kernel

/-- an svg element made by a builder meets the hypotheses of `C149_built_partial` -/
example : ∃ d : Dom Given, Reachable d ∧ build newDocument 0 "svg".toList []
      [("x".toList, .num 10), ("y".toList, .num 20), ("width".toList, .num 100), ("height".toList, .num 50),
        ("viewBox".toList, .box ⟨some 1, some 1, some 10, some 10⟩ none)] = .ok d ∧ HaveAttrs d 1 ∧
      viewboxTransform d 1 = .ok "translate(30, 15) scale(5, 5)".toList := by
  have r : ∀ {kw : Dict Given} {d : Dom Given}, build newDocument 0 "svg".toList [] kw = .ok d → Reachable d := fun h => .built .new h
  refine ⟨_, r rfl, rfl, ?_, ?_⟩
  · intro j n hj hn
    rcases j with - | - | j
    · cases hn; simp
    · cases hn; simp
    · simp [append, newDocument] at hn
  · decide +kernel

/-- svg elements made by builders that raise -/
example : (∃ d : Dom Given, Reachable d ∧ build newDocument 0 "svg".toList []
      [("x".toList, .num 10), ("y".toList, .num 20), ("width".toList, .num 100), ("height".toList, .num 50),
        ("viewBox".toList, .box ⟨some 1, some 1, some 10, some 0⟩ none)] = .ok d ∧ viewboxTransform d 1 = .error .zeroDivisionError) ∧
    ∃ d : Dom Given, Reachable d ∧ build newDocument 0 "svg".toList []
      [("x".toList, .num 10), ("y".toList, .text "20".toList), ("width".toList, .num 100), ("height".toList, .num 50),
        ("viewBox".toList, .box ⟨some 1, some 1, some 10, some 10⟩ none)] = .ok d ∧ viewboxTransform d 1 = .error .typeError ∧
        viewboxTransform d 0 = .error .attributeError := by
  have r : ∀ {kw : Dict Given} {d : Dom Given}, build newDocument 0 "svg".toList [] kw = .ok d → Reachable d := fun h => .built .new h
  refine ⟨⟨_, r rfl, rfl, ?_⟩, _, r rfl, rfl, ?_, ?_⟩ <;> decide +kernel

end Svgio.Props
