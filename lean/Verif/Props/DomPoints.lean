import Verif.Model.DomPoints
import Verif.Props.DomViewbox
import Verif.Props.PointText

/-! C150: the position of rectangles and the centre of circles and ellipses. -/

namespace Svgio.Props
open Svgio.Dom Svgio.Spec

/-- the attributes with the coordinates, in SVG -/
def coordinates (c : Cls) (kx ky : Str) : Prop :=
  (c = .rect ∧ kx = "x".toList ∧ ky = "y".toList) ∨ ((c = .circle ∨ c = .ellipse) ∧ kx = "cx".toList ∧ ky = "cy".toList)

theorem keys_of {c : Cls} {kx ky : Str} (h : coordinates c kx ky) : pointKeys c = some (kx, ky) := by
  rcases h with ⟨rfl, rfl, rfl⟩ | ⟨rfl | rfl, rfl, rfl⟩ <;> rfl

theorem pointOf_eq (fl : ℚ → ℚ) {d : Dom Given} (hd : Reachable d) {i : ℕ} (hA : HaveAttrs d i) {n : NodeRec Given}
    (hn : d.nodes[i]? = some n) {kx ky : Str} (hc : coordinates n.cls kx ky) :
    ∃ values, pointOf fl d i = newPoint fl (dictGet values kx) (dictGet values ky) ∧ (∀ k v, dictGet values k = some v ↔ Inherited d i k v) ∧
      ∀ k, dictGet values k = none ↔ ¬ ∃ v, Inherited d i k v := by
  obtain ⟨vals, h1, h2, h3⟩ := C68_inherited_partial d hd i (List.getElem?_eq_some_iff.1 hn).1 hA
  refine ⟨vals, ?_, h2, h3⟩
  unfold pointOf
  rw [hn, Option.bind_some, keys_of hc]
  simp only [h1]

/-- **C150.** Full statement: the position of a rectangle and the centre of a circle or an ellipse is the point with the coordinates that the
element has, and 0 for one that it does not have. Proved here, for elements that have attributes: if both are numbers, or the first is a
number and the second is missing, also from the ancestors. Missing, since false: coordinates from files (`C150_text_wrong`), where the second
alone is missing (`C150_second_wrong`), and a missing first coordinate (`C150_first_wrong`). -/
theorem C150_numbers_partial (fl : ℚ → ℚ) {d : Dom Given} (hd : Reachable d) {i : ℕ} (hA : HaveAttrs d i) {n : NodeRec Given}
    (hn : d.nodes[i]? = some n) {kx ky : Str} (hc : coordinates n.cls kx ky) {a : Dict Given} (ha : n.attrs = some a) {x : ℚ}
    (hx : dictGet a kx = some (.num x)) :
    (∀ y, dictGet a ky = some (.num y) → pointOf fl d i = .ok (some (.num x), some (.num y))) ∧
    ((¬ ∃ v, Inherited d i ky v) → pointOf fl d i = .ok (some (.num x), some (.num 0))) := by
  obtain ⟨vals, h1, h2, h3⟩ := pointOf_eq fl hd hA hn hc
  rw [h1, (h2 kx _).2 (.own hn ha hx)]
  refine ⟨fun y hy => ?_, fun h => ?_⟩
  · rw [(h2 ky _).2 (.own hn ha hy)]
    rfl
  · rw [(h3 ky).2 h]
    rfl

/-- **C150 fails** for files: if both coordinates are there, those of the point are texts, not numbers. -/
theorem C150_text_wrong (fl : ℚ → ℚ) {x : Xml Given} (hx : TextsOnly x) {evs : List (Ev Given)}
    (hu : ∀ tag a, Ev.start tag a ∈ evs → IsDict a) (he : evs.filter (· ≠ .ns) = events x) {d : Dom Given} (h : load evs = .ok d) {i : ℕ}
    {n : NodeRec Given} (hn : d.nodes[i]? = some n) {kx ky : Str} (hc : coordinates n.cls kx ky) {a : Dict Given} (ha : n.attrs = some a)
    (h1 : dictGet a kx ≠ none) (h2 : dictGet a ky ≠ none) : ∃ s t, dictGet a kx = some (.text s) ∧ dictGet a ky = some (.text t) ∧
      pointOf fl d i = .ok (some (.text s), some (.text t)) := by
  obtain ⟨v, hv⟩ := Option.ne_none_iff_exists'.1 h1
  obtain ⟨w, hw⟩ := Option.ne_none_iff_exists'.1 h2
  obtain ⟨s, rfl⟩ := node_texts hx he h hn ha hv
  obtain ⟨t, rfl⟩ := node_texts hx he h hn ha hw
  obtain ⟨vals, g1, g2, g3⟩ := pointOf_eq fl (.parsed .new hu h) (C68_loaded x evs he d h i) hn hc
  refine ⟨s, t, hv, hw, ?_⟩
  rw [g1, (g2 kx _).2 (.own hn ha hv), (g2 ky _).2 (.own hn ha hw)]
  rfl

/-- a text with neither commas nor white space, and with a minus sign at most at the front, is not read as two coordinates -/
theorem no_pair {t : Str} (h : ∀ c ∈ t, c ≠ ',' ∧ c ∉ spaces) (hm : '-' ∉ t.tail) (fl : ℚ → ℚ) :
    PointText.ofText fl t = .error .indexError := by
  rw [C130_error]
  refine ⟨rfl, ?_⟩
  rintro u v rfl x y ⟨hx, hy, gap, post, rfl, hg, -⟩
  cases hg with
  | comma w w' t _ _ => exact (h ',' (by simp)).1 rfl
  | white w t hw hne =>
    obtain ⟨c, w, rfl⟩ := List.exists_cons_of_ne_nil hne
    exact (h c (by simp)).2 (hw c (by simp))
  | minus t =>
    apply hm
    obtain ⟨w, c, rfl, -⟩ := number_last hx
    rw [List.tail_append]
    cases u with
    | nil =>
      cases w <;> simp
    | cons => simp

/-- **C150 fails** where the second coordinate is left out, although it is 0 then: if the first one is a text without commas, spaces and inner
minus signs, such as a number with or without a unit, the property raises IndexError. -/
theorem C150_second_wrong (fl : ℚ → ℚ) {d : Dom Given} (hd : Reachable d) {i : ℕ} (hA : HaveAttrs d i) {n : NodeRec Given}
    (hn : d.nodes[i]? = some n) {kx ky : Str} (hc : coordinates n.cls kx ky) {a : Dict Given} (ha : n.attrs = some a) {t : Str}
    (hx : dictGet a kx = some (.text t)) (hy : ¬ ∃ v, Inherited d i ky v) (h : ∀ c ∈ t, c ≠ ',' ∧ c ∉ spaces) (hm : '-' ∉ t.tail) :
    pointOf fl d i = .error .indexError := by
  obtain ⟨vals, h1, h2, h3⟩ := pointOf_eq fl hd hA hn hc
  rw [h1, (h2 kx _).2 (.own hn ha hx), (h3 ky).2 hy]
  simp only [newPoint, no_pair h hm fl]

/-- **C150 fails** where the second coordinate is left out and the first one is two numbers, which is an error in SVG: they are the coordinates. -/
theorem C150_pair_wrong (fl : ℚ → ℚ) {d : Dom Given} (hd : Reachable d) {i : ℕ} (hA : HaveAttrs d i) {n : NodeRec Given}
    (hn : d.nodes[i]? = some n) {kx ky : Str} (hc : coordinates n.cls kx ky) {a : Dict Given} (ha : n.attrs = some a) {t tx ty : Str} {x y : ℚ}
    (h : Pair t tx ty) (hx : Value tx x) (hy : Value ty y) (hk : dictGet a kx = some (.text t)) (hno : ¬ ∃ v, Inherited d i ky v) :
    pointOf fl d i = .ok (some (.num (fl x)), some (.num (fl y))) := by
  obtain ⟨vals, h1, h2, h3⟩ := pointOf_eq fl hd hA hn hc
  have e := C130_reads fl (pre := []) h hx hy (fun u v huv hv => absurd (List.append_eq_nil_iff.1 huv.symm).2 hv)
  rw [List.nil_append] at e
  rw [h1, (h2 kx _).2 (.own hn ha hk), (h3 ky).2 hno]
  simp only [newPoint, e]

/-- **C150 fails** also for an object with x and y in place of the first coordinate, without a second one: its x and y are the coordinates. -/
theorem C150_box_wrong (fl : ℚ → ℚ) {d : Dom Given} (hd : Reachable d) {i : ℕ} (hA : HaveAttrs d i) {n : NodeRec Given}
    (hn : d.nodes[i]? = some n) {kx ky : Str} (hc : coordinates n.cls kx ky) {a : Dict Given} (ha : n.attrs = some a) {b : Box ℚ}
    {aspect : Option Str} {x y : ℚ} (hx : b.x = some x) (hy : b.y = some y) (hk : dictGet a kx = some (.box b aspect))
    (hno : ¬ ∃ v, Inherited d i ky v) : pointOf fl d i = .ok (some (.num x), some (.num y)) := by
  obtain ⟨vals, h1, h2, h3⟩ := pointOf_eq fl hd hA hn hc
  rw [h1, (h2 kx _).2 (.own hn ha hk), (h3 ky).2 hno]
  simp only [newPoint, hx, hy, Option.map_some]

/-- C150: only rectangles, circles and ellipses have such a property -/
theorem C150_others (fl : ℚ → ℚ) {d : Dom Given} {i : ℕ} (h : ∀ n, d.nodes[i]? = some n → n.cls ≠ .rect ∧ n.cls ≠ .circle ∧ n.cls ≠ .ellipse) :
    pointOf fl d i = .error .attributeError := by
  have e : ((d.nodes[i]?).bind fun n => pointKeys n.cls) = none := by
    cases hn : d.nodes[i]? with
    | none => rfl
    | some n =>
      obtain ⟨h1, h2, h3⟩ := h n hn
      rw [Option.bind_some]
      cases hc : n.cls <;> first | rfl | exact absurd hc h1 | exact absurd hc h2 | exact absurd hc h3
  unfold pointOf
  rw [e]

/-- **C150 fails** where the first coordinate is left out, although it is 0 then: the point has None for it. -/
theorem C150_first_wrong (fl : ℚ → ℚ) {d : Dom Given} (hd : Reachable d) {i : ℕ} (hA : HaveAttrs d i) {n : NodeRec Given}
    (hn : d.nodes[i]? = some n) {kx ky : Str} (hc : coordinates n.cls kx ky) (hx : ¬ ∃ v, Inherited d i kx v) :
    ∃ y, pointOf fl d i = .ok (none, y) := by
  obtain ⟨vals, h1, h2, h3⟩ := pointOf_eq fl hd hA hn hc
  rw [h1, (h3 kx).2 hx]
  exact ⟨dictGet vals ky, by cases dictGet vals ky <;> rfl⟩

/-- circles of a file with both coordinates, with the first and with the second one -/
example : ∃ d : Dom Given, load [.start "svg".toList [], .start "circle".toList [("cx".toList, .text "5".toList), ("cy".toList, .text "7".toList)], .stop,
      .start "circle".toList [("cx".toList, .text "-5.5px".toList)], .stop, .start "rect".toList [("y".toList, .text "7".toList)], .stop, .stop] = .ok d ∧
    pointOf id d 2 = .ok (some (.text "5".toList), some (.text "7".toList)) ∧ pointOf id d 3 = .error .indexError ∧
    pointOf id d 4 = .ok (none, some (.text "7".toList)) ∧ pointOf id d 1 = .error .attributeError := by
  refine ⟨_, rfl, ?_, ?_, ?_, ?_⟩
  · decide +kernel
  · have e : PointText.ofText id "-5.5px".toList = .error .indexError := no_pair (by decide) (by decide) id
    show (match PointText.ofText id "-5.5px".toList with
      | .error e => Except.error e
      | .ok p => Except.ok (some (Given.num p.x), some (Given.num p.y))) = _
    rw [e]
  · decide +kernel
  · decide +kernel

/-- the text 5,7 is two numbers -/
example : Pair "5,7".toList "5".toList "7".toList ∧ Value "5".toList 5 ∧ Value "7".toList 7 := by
  have e5 : matchFloat ['5'] = some (['5'], []) := by decide +kernel
  have e7 : matchFloat ['7'] = some (['7'], []) := by decide +kernel
  have v5 := (C125_only e5).2
  have v7 := (C125_only e7).2
  rw [show floatVal ['5'] = 5 by decide +kernel] at v5
  rw [show floatVal ['7'] = 7 by decide +kernel] at v7
  refine ⟨⟨(matchFloat_sound e5).2, (matchFloat_sound e7).2, [','], [], rfl, .comma [] [] _ (by intro c hc; simp at hc) (by intro c hc; simp at hc), ?_⟩, v5, v7⟩
  intro p q h hp
  exact absurd (List.append_eq_nil_iff.1 h.symm).1 hp

/-- a circle made by a builder -/
example : ∃ d : Dom Given, Reachable d ∧ build newDocument 0 "circle".toList [] [("cx".toList, .num 3), ("cy".toList, .num 4)] = .ok d ∧
    pointOf id d 1 = .ok (some (.num 3), some (.num 4)) := by
  have r : ∀ {kw : Dict Given} {d : Dom Given}, build newDocument 0 "circle".toList [] kw = .ok d → Reachable d := fun h => .built .new h
  exact ⟨_, r rfl, rfl, by decide +kernel⟩

end Svgio.Props
