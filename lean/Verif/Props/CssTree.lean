import Verif.Props.Css
import Verif.Spec.CssTree

/-!
C134: inherited values in a document.
-/

namespace Svgio.Props

open Svgio.Css hiding hidden step
open Svgio.Spec hiding step
open Svgio.Dom (Str Dict dictGet dictSet update)

mutual
/-- what the iterator gives for an element -/
def markupEvents : Markup → List Ev
  | .elem tag attrib text kids => .start tag attrib :: (markupsEvents kids ++ [.stop tag text])
/-- and for elements that follow each other -/
def markupsEvents : List Markup → List Ev
  | [] => []
  | e :: es => markupEvents e ++ markupsEvents es
end

/-- the values that an element has from style sheets, its name and its attributes; `C133_cascade_partial` tells which ones -/
def ownValues (sheets : List Str) (tag : Str) (attrib : Dict Str) : Str → Option Str :=
  dictGet (styled (sheets.foldl addSheet []) tag attrib)

theorem run_append (a b : List Ev) : ∀ s, Css.run s (a ++ b) = match Css.run s a with
    | .ok s => Css.run s b
    | .error e => .error e := by
  induction a with
  | nil => intro s; rfl
  | cons x a ih =>
    intro s
    rw [List.cons_append, Css.run, Css.run]
    cases Css.step s x with
    | ok s' => exact ih s'
    | error e => rfl

theorem get_del (d : Dict Str) (k j : Str) : dictGet (dictDel d k) j = if j = k then none else dictGet d j := by
  unfold dictDel
  induction d with
  | nil => simp [dictGet]
  | cons a d ih =>
    obtain ⟨x, y⟩ := a
    by_cases hx : x = k
    · rw [List.filter_cons_of_neg (by simp [hx]), ih, dictGet]
      by_cases hj : j = k
      · rw [if_pos hj, if_pos hj]
      · rw [if_neg hj, if_neg hj, if_neg (fun hc : x = j => hj (hc.symm.trans hx))]
    · rw [List.filter_cons_of_pos (by simp [hx]), dictGet, ih, dictGet]
      by_cases hxj : x = j
      · rw [if_pos hxj, if_pos hxj, if_neg (fun hc => hx (hxj.trans hc))]
      · rw [if_neg hxj, if_neg hxj]

theorem get_inherited (values : Dict Str) : dictGet (inherited values) = handedDown (dictGet values) := by
  funext k
  unfold inherited handedDown notInherited
  rw [get_del, get_del, get_del, get_del]
  simp only [List.mem_cons, List.not_mem_nil, or_false]
  split_ifs <;> first | rfl | (exfalso; tauto)

theorem hidden_iff (values : Dict Str) : Css.hidden values = true ↔ Unseen (dictGet values) := by
  unfold Css.hidden Unseen; simp

theorem color_stays (own : Str → Option Str) (inh : Str → Option Str) (h : inh "color".toList ≠ none) : allValues own inh "color".toList ≠ none := by
  unfold allValues
  have : handedDown inh "color".toList = inh "color".toList := by unfold handedDown; rw [if_neg (by decide +kernel)]
  rw [this]
  cases computed own (handedDown inh) "color".toList with
  | none => simpa using h
  | some c => simp

/-- what the start of an element does -/
theorem step_start (s : State) (sheets : List Str) (tag : Str) (attrib : Dict Str) (hs : s.styles = sheets.foldl addSheet [])
    (hv : dictGet s.values "color".toList ≠ none) (hh : Css.hidden s.values = false) (ha : IsDict attrib) :
    ∃ v, dictGet v = allValues (ownValues sheets tag attrib) (dictGet s.values) ∧
      Css.step s (.start tag attrib) = .ok { s with stack := s.values :: s.stack, values := v, out := if Css.hidden v then s.out else s.out ++ [v] } := by
  have hc : dictGet (inherited s.values) "color".toList ≠ none := by
    rw [get_inherited]; unfold handedDown; rw [if_neg (by decide +kernel)]; exact hv
  obtain ⟨d, h1, h2, h3⟩ := compiled_get s.styles (inherited s.values) tag attrib hc ha
  refine ⟨update (inherited s.values) d, ?_, ?_⟩
  · funext k
    rw [get_update d h2, h3, get_inherited, hs]
    rfl
  · unfold Css.step
    simp only [hh, Bool.false_eq_true, if_false]
    rw [h1]
    show (if Css.hidden (update (inherited s.values) d) then (pure _ : Except PyErr State) else pure _) = _
    by_cases hd : Css.hidden (update (inherited s.values) d) = true
    · simp only [hd, if_true]; rfl
    · simp only [hd]; rfl

theorem step_start_hidden (s : State) (tag : Str) (attrib : Dict Str) (hh : Css.hidden s.values = true) :
    Css.step s (.start tag attrib) = .ok { s with stack := s.values :: s.stack } := by
  unfold Css.step
  simp only [hh, if_true]

theorem step_stop (s : State) (tag : Str) (text : Option Str) (v : Dict Str) (r : List (Dict Str)) (hs : s.stack = v :: r)
    (ht : tag = "style".toList → text ≠ none) :
    Css.step s (.stop tag text) = .ok ⟨(if tag = "style".toList then text.toList else []).foldl addSheet s.styles, r, v, s.out⟩ := by
  unfold Css.step
  by_cases h : tag = "style".toList
  · cases htx : text with
    | none => exact absurd htx (ht h)
    | some t =>
      simp only [if_pos h]
      show (match ({ s with styles := addSheet s.styles t } : State).stack with | [] => _ | v :: r => _) = _
      simp only [hs]
      rfl
  · simp only [if_neg h]
    show (match s.stack with | [] => _ | v :: r => _) = _
    simp only [hs]
    rfl

mutual
/-- under an element that is not displayed, only style sheets are read -/
theorem run_hidden : ∀ (e : Markup) (s : State), SoundIn e → Css.hidden s.values = true →
    Css.run s (markupEvents e) = .ok { s with styles := (sheetsIn e).foldl addSheet s.styles }
  | .elem tag attrib text kids, s, hw, hh => by
    unfold SoundIn at hw
    unfold markupEvents sheetsIn
    rw [Css.run, step_start_hidden s tag attrib hh]
    simp only
    rw [run_append, runs_hidden kids { s with stack := s.values :: s.stack } hw.2.2 hh]
    simp only
    rw [Css.run, step_stop _ tag text s.values s.stack rfl hw.1]
    simp only [Css.run, List.foldl_append]
theorem runs_hidden : ∀ (es : List Markup) (s : State), SoundOf es → Css.hidden s.values = true →
    Css.run s (markupsEvents es) = .ok { s with styles := (sheetsOf es).foldl addSheet s.styles }
  | [], s, _, _ => rfl
  | e :: es, s, hw, hh => by
    unfold SoundOf at hw
    unfold markupsEvents sheetsOf
    rw [run_append, run_hidden e s hw.1 hh]
    simp only
    rw [runs_hidden es { s with styles := (sheetsIn e).foldl addSheet s.styles } hw.2 hh]
    simp only [List.foldl_append]
end

mutual
theorem run_shown : ∀ (e : Markup) (s : State) (sheets : List Str), SoundIn e → s.styles = sheets.foldl addSheet [] →
    dictGet s.values "color".toList ≠ none → Css.hidden s.values = false →
    ∃ out, out.map dictGet = shownIn ownValues sheets (dictGet s.values) e ∧
      Css.run s (markupEvents e) = .ok { s with styles := (sheets ++ sheetsIn e).foldl addSheet [], out := s.out ++ out }
  | .elem tag attrib text kids, s, sheets, hw, hs, hv, hh => by
    unfold SoundIn at hw
    unfold markupEvents sheetsIn shownIn
    obtain ⟨v, h1, h2⟩ := step_start s sheets tag attrib hs hv hh hw.2.1
    rw [Css.run, h2, ← h1]
    simp only
    rw [run_append]
    by_cases hd : Css.hidden v = true
    · rw [if_pos ((hidden_iff v).1 hd), runs_hidden kids _ hw.2.2 hd]
      refine ⟨[], rfl, ?_⟩
      simp only
      rw [Css.run, step_stop _ tag text s.values s.stack rfl hw.1]
      simp only [Css.run, List.foldl_append, hd, if_true, hs, List.append_nil]
    · rw [if_neg (fun hc => hd ((hidden_iff v).2 hc))]
      obtain ⟨out, h3, h4⟩ := runs_shown kids { s with stack := s.values :: s.stack, values := v, out := s.out ++ [v] } sheets hw.2.2 hs
        (by rw [h1]; exact color_stays _ _ hv) (by simpa using hd)
      refine ⟨v :: out, by rw [List.map_cons, h3], ?_⟩
      simp only [hd, Bool.false_eq_true, if_false]
      rw [h4]
      simp only
      rw [Css.run, step_stop _ tag text s.values s.stack rfl hw.1]
      simp only [Css.run, List.foldl_append, List.append_assoc, List.singleton_append]
theorem runs_shown : ∀ (es : List Markup) (s : State) (sheets : List Str), SoundOf es → s.styles = sheets.foldl addSheet [] →
    dictGet s.values "color".toList ≠ none → Css.hidden s.values = false →
    ∃ out, out.map dictGet = shownOf ownValues sheets (dictGet s.values) es ∧
      Css.run s (markupsEvents es) = .ok { s with styles := (sheets ++ sheetsOf es).foldl addSheet [], out := s.out ++ out }
  | [], s, sheets, _, hs, _, _ => by
    refine ⟨[], rfl, ?_⟩
    unfold markupsEvents sheetsOf
    rw [List.append_nil, List.append_nil, ← hs]
    rfl
  | e :: es, s, sheets, hw, hs, hv, hh => by
    unfold SoundOf at hw
    unfold markupsEvents sheetsOf shownOf
    obtain ⟨o1, h1, h2⟩ := run_shown e s sheets hw.1 hs hv hh
    obtain ⟨o2, h3, h4⟩ := runs_shown es { s with styles := (sheets ++ sheetsIn e).foldl addSheet [], out := s.out ++ o1 }
      (sheets ++ sheetsIn e) hw.2 rfl hv hh
    refine ⟨o1 ++ o2, by rw [List.map_append, h1, h3], ?_⟩
    rw [run_append, h2]
    simp only
    rw [h4]
    simp only [List.append_assoc]
end

theorem get_initial (color : Str) (transform : Option Str) : dictGet (initial color transform) = atStart color transform := by
  funext k
  have e : initial color transform = [("color".toList, color), ("fill".toList, "black".toList), ("stroke".toList, "none".toList)] ++
      transform.toList.map fun t => ("transform".toList, t) := by
    unfold initial
    cases transform with
    | none => rfl
    | some t => simp [dictSet]
  rw [e]
  unfold atStart
  generalize "color".toList = k1
  generalize "fill".toList = k2
  generalize "stroke".toList = k3
  generalize "transform".toList = k4
  generalize "black".toList = v2
  generalize "none".toList = v3
  cases transform <;> by_cases h1 : k1 = k <;> by_cases h2 : k2 = k <;> by_cases h3 : k3 = k <;> by_cases h4 : k4 = k <;>
    simp [dictGet, h1, h2, h3, h4, eq_comm (a := k)]

/-- C134: in a document, every element that is displayed gets its own values, or else those of its parent; `id`, `viewBox`,
`preserveAspectRatio` and `clip-path` are not taken from the parent. The values of an element end with it: what comes after it has those
that were there before. An element with `display: none` is left out with all that is in it. Only the style sheets before an element count
for it.

Partial: for documents in which every `style` element has a text (`C134_empty_style_wrong`). The transform of a viewBox is not modelled. -/
theorem C134_values_partial (e : Markup) (h : SoundIn e) (color : Str) (transform : Option Str) :
    ∃ out, out.map dictGet = shownIn ownValues [] (atStart color transform) e ∧
      Css.run ⟨[], [], initial color transform, []⟩ (markupEvents e) =
        .ok ⟨(sheetsIn e).foldl addSheet [], [], initial color transform, out⟩ := by
  rw [← get_initial]
  obtain ⟨out, h1, h2⟩ := run_shown e ⟨[], [], initial color transform, []⟩ [] h rfl
    (by unfold initial; cases transform <;> simp [dictGet, dictSet]) (by unfold initial; cases transform <;> simp [dictGet, dictSet, Css.hidden])
  exact ⟨out, h1, by simpa using h2⟩

theorem seen_one (inh o) : Seen inh [o] ↔ ¬ Unseen (allValues o inh) := by
  unfold Seen
  simp [nested]

theorem seen_cons (inh o) (owns : List (Str → Option Str)) (h0 : owns ≠ []) :
    Seen inh (o :: owns) ↔ ¬ Unseen (allValues o inh) ∧ Seen (allValues o inh) owns := by
  unfold Seen
  constructor
  · intro h
    exact ⟨by simpa [nested] using h 0 (by simp), fun n hn => by simpa [nested] using h (n + 1) (by simpa using hn)⟩
  · rintro ⟨h1, h2⟩ n hn
    cases n with
    | zero => simpa [nested] using h1
    | succ n => simpa [nested] using h2 n (by simpa using hn)

mutual
theorem lines_ne (own) : ∀ (e : Markup) (sheets : List Str), ∀ l ∈ linesIn own sheets e, l ≠ []
  | .elem tag attrib text kids, sheets, l, hl => by
    unfold linesIn at hl
    rcases List.mem_cons.1 hl with rfl | h
    · simp
    · obtain ⟨l', _, rfl⟩ := List.mem_map.1 h
      simp
theorem linesOf_ne (own) : ∀ (es : List Markup) (sheets : List Str), ∀ l ∈ linesOf own sheets es, l ≠ []
  | [], sheets, l, hl => by unfold linesOf at hl; cases hl
  | e :: es, sheets, l, hl => by
    unfold linesOf at hl
    rcases List.mem_append.1 hl with h | h
    · exact lines_ne own e sheets l h
    · exact linesOf_ne own es _ l h
end

mutual
theorem shown_lines (own) : ∀ (e : Markup) (sheets : List Str) (inh : Str → Option Str),
    shownIn own sheets inh e = ((linesIn own sheets e).filter (Seen inh)).map (nested inh)
  | .elem tag attrib text kids, sheets, inh => by
    unfold shownIn linesIn
    rw [List.filter_cons, List.filter_map]
    by_cases hu : Unseen (allValues (own sheets tag attrib) inh)
    · rw [if_pos hu, if_neg (by simpa [seen_one] using hu), List.filter_eq_nil_iff.2, List.map_nil, List.map_nil]
      intro l hl
      simp only [Function.comp_apply, decide_eq_true_eq]
      rw [seen_cons _ _ _ (linesOf_ne own kids sheets l hl)]
      exact fun h => h.1 hu
    · rw [if_neg hu, if_pos (by simpa [seen_one] using hu), List.map_cons, List.map_map, shown_linesOf own kids sheets _]
      congr 1
      rw [List.filter_congr (p := (fun b => decide (Seen inh b)) ∘ fun x => own sheets tag attrib :: x)
        (q := fun l => decide (Seen (allValues (own sheets tag attrib) inh) l))]
      · rfl
      · intro l hl
        simp only [Function.comp_apply, decide_eq_decide]
        rw [seen_cons _ _ _ (linesOf_ne own kids sheets l hl)]
        exact and_iff_right hu
theorem shown_linesOf (own) : ∀ (es : List Markup) (sheets : List Str) (inh : Str → Option Str),
    shownOf own sheets inh es = ((linesOf own sheets es).filter (Seen inh)).map (nested inh)
  | [], sheets, inh => by unfold shownOf linesOf; rfl
  | e :: es, sheets, inh => by
    unfold shownOf linesOf
    rw [List.filter_append, List.map_append, shown_lines own e, shown_linesOf own es]
end

/-- C134: the values after a run, by the elements around each element: exactly the elements remain that are not in one with the display
`none`, and the values of each come from its own values and those of the elements around it (`C134_nearest`, `C134_transform`). Partial as
`C134_values_partial` is. -/
theorem C134_lines_partial (e : Markup) (h : SoundIn e) (color : Str) (transform : Option Str) :
    ∃ s, Css.run ⟨[], [], initial color transform, []⟩ (markupEvents e) = .ok s ∧
      s.out.map dictGet = ((linesIn ownValues [] e).filter (Seen (atStart color transform))).map (nested (atStart color transform)) := by
  obtain ⟨out, h1, h2⟩ := C134_values_partial e h color transform
  exact ⟨_, h2, by rw [← shown_lines]; exact h1⟩

/-- C134: the own values in `C134_values_partial` are those of the cascade: the last declaration in the order of C133, or else the attribute.
Partial as `C133_cascade_partial` is. -/
theorem C134_own_partial (rss : List (List Rule)) (texts : List Str) (h : List.Forall₂ SheetText rss texts) (tag : Str)
    (attrib : Dict Str) (classes : List Str) (own : List (Str × Str))
    (hc : match dictGet attrib "class".toList with | none => classes = [] | some t => ClassText classes t)
    (hs : match dictGet attrib "style".toList with | none => own = [] | some t => DeclsText own t)
    (h1 : (∀ r ∈ rss.flatten, tag ∉ r.selectors) ∨ Closed rss.flatten ['*'])
    (h2 : dictGet attrib "style".toList = none ∨
      ∀ sel ∈ selectorsFor tag (dictGet attrib "id".toList) classes, Closed rss.flatten sel) (k : Str) :
    ownValues texts tag attrib k =
      cascaded (declsFor rss.flatten tag (dictGet attrib "id".toList) classes own) tag (dictGet attrib) k := by
  unfold ownValues
  rw [styled_get rss texts h tag attrib classes own hc hs h1 h2]

/-! ### elements inside each other -/

/-- C134: along elements inside each other, a property has the value of the innermost element that has one of its own. -/
theorem C134_nearest (inh : Str → Option Str) (owns : List (Str → Option Str)) (k : Str)
    (hk : k ∉ ["transform".toList, "fill".toList, "stroke".toList] ++ notInherited) :
    nested inh owns k = (owns.reverse.findSome? (· k)).or (inh k) := by
  simp only [List.cons_append, List.nil_append, List.mem_cons, not_or] at hk
  induction owns generalizing inh with
  | nil => rfl
  | cons o owns ih =>
    show nested (allValues o inh) owns k = _
    rw [ih]
    have : allValues o inh k = (o k).or (inh k) := by
      unfold allValues computed handedDown
      rw [if_neg (by rintro ⟨h | h, _⟩; exacts [hk.2.1 h, hk.2.2.1 h]), if_neg hk.1, if_neg hk.2.2.2]
    rw [this, List.reverse_cons, List.findSome?_append]
    cases owns.reverse.findSome? (· k) with
    | some x => rfl
    | none => simp

/-- texts with a space between them; `none` for no text -/
def spaced (l : List Str) : Option Str := if l = [] then none else some ([' '].intercalate l)

/-- C134: along elements inside each other, the transform is all transforms in the order from the outermost element to the innermost. -/
theorem C134_transform (inh : Str → Option Str) (owns : List (Str → Option Str)) :
    nested inh owns "transform".toList = spaced ((inh "transform".toList).toList ++ owns.filterMap (· "transform".toList)) := by
  have key : ∀ (v t : Str) (l : List Str), spaced ((v ++ ' ' :: t) :: l) = spaced (v :: t :: l) := by
    intro v t l
    unfold spaced
    rw [if_neg (by simp), if_neg (by simp)]
    cases l with
    | nil => simp [List.intercalate_cons_cons]
    | cons a l => simp [List.intercalate_cons_cons]
  induction owns generalizing inh with
  | nil =>
    show inh "transform".toList = spaced ((inh "transform".toList).toList ++ [])
    generalize inh "transform".toList = x
    cases x <;> simp [spaced]
  | cons o owns ih =>
    show nested (allValues o inh) owns _ = _
    rw [ih]
    have hd : handedDown inh "transform".toList = inh "transform".toList := by unfold handedDown; rw [if_neg (by decide +kernel)]
    have : allValues o inh "transform".toList = match o "transform".toList, inh "transform".toList with
        | some t, some v => some (v ++ ' ' :: t)
        | some t, none => some t
        | none, v => v := by
      unfold allValues computed
      rw [if_neg (by rintro ⟨h | h, _⟩ <;> exact absurd h (by decide)), if_pos rfl, hd]
      cases o "transform".toList <;> cases inh "transform".toList <;> rfl
    rw [this, List.filterMap_cons]
    generalize o "transform".toList = x
    generalize inh "transform".toList = y
    generalize owns.filterMap _ = l
    cases x <;> cases y <;> simp [key]

/-- C134: `currentColor` is never left as a fill or stroke that an element has of its own, if the colour itself is not written so. -/
theorem C134_currentColor (own inh : Str → Option Str) (k : Str) (hk : k = "fill".toList ∨ k = "stroke".toList)
    (h : own k = some "currentColor".toList) (hc : inh "color".toList ≠ none) :
    allValues own inh k = allValues own inh "color".toList ∧ allValues own inh k ≠ none := by
  have hd : handedDown inh "color".toList = inh "color".toList := by unfold handedDown; rw [if_neg (by decide +kernel)]
  have e1 : computed own (handedDown inh) k = (own "color".toList).or (inh "color".toList) := by
    unfold computed; rw [if_pos ⟨hk, h⟩, hd]
  have e2 : computed own (handedDown inh) "color".toList = own "color".toList := by
    unfold computed
    rw [if_neg (by rintro ⟨h | h, _⟩ <;> exact absurd h (by decide)), if_neg (by decide)]
  unfold allValues
  rw [e1, e2, hd]
  generalize own "color".toList = y
  generalize inh "color".toList = x at hc ⊢
  cases x with
  | none => exact absurd rfl hc
  | some c => cases y <;> simp

/-- a group with a transform and a style sheet in it, two rectangles after the sheet, and a hidden group -/
def sampleMarkup : Markup :=
  .elem "svg".toList [("id".toList, "r".toList), ("color".toList, "green".toList)] none
    [.elem "g".toList [("transform".toList, "scale(2)".toList)] none
      [.elem "rect".toList [] none [], .elem "style".toList [] (some "rect{fill:currentColor;}".toList) [],
       .elem "rect".toList [("transform".toList, "scale(3)".toList)] none []],
     .elem "g".toList [("display".toList, "none".toList)] none [.elem "rect".toList [("display".toList, "inline".toList)] none []],
     .elem "rect".toList [] none []]

example : SoundIn sampleMarkup := by
  unfold sampleMarkup
  simp only [SoundIn, SoundOf]
  decide +kernel

example : (shownIn ownValues [] (dictGet (initial "black".toList none)) sampleMarkup).map
      (fun v => (v "tag".toList, v "fill".toList, v "transform".toList, v "id".toList)) =
    [(some "svg".toList, some "black".toList, none, some "r".toList),
     (some "g".toList, some "black".toList, some "scale(2)".toList, none),
     (some "rect".toList, some "black".toList, some "scale(2)".toList, none),
     (some "style".toList, some "black".toList, some "scale(2)".toList, none),
     (some "rect".toList, some "green".toList, some "scale(2) scale(3)".toList, none),
     (some "rect".toList, some "green".toList, none, none)] := by decide +kernel

/-- C134 fails for a `style` element without a text: reading the document ends with a TypeError. -/
theorem C134_empty_style_wrong :
    Css.run ⟨[], [], initial "black".toList none, []⟩ (markupEvents (.elem "svg".toList [] none [.elem "style".toList [] none []])) =
      .error .typeError := by rfl

/-- the fill and the `d` of the second `path` in `<svg><path xmlns:pre="uri"/><path/></svg>` -/
def afterNamespace (pre uri : Str) : Except PyErr (Option (Option Str × Option Str)) :=
  (Css.run ⟨[], [], initial "black".toList none, []⟩
    [.start "svg".toList [], .ns pre uri, .start "path".toList [], .stop "path".toList none, .start "path".toList [],
     .stop "path".toList none, .stop "svg".toList none]).map
    fun s => (s.out[2]?).map fun v => (dictGet v "fill".toList, dictGet v "d".toList)

/-- C134 fails for namespaces: a prefix declared at an element is taken for a value of the elements after it, so that
`xmlns:fill="uri"` paints the next element with "uri". Only the prefix `d` is left alone. -/
theorem C134_namespace_wrong : afterNamespace "fill".toList "uri".toList = .ok (some (some "uri".toList, none)) ∧
    afterNamespace "d".toList "uri".toList = .ok (some (some "black".toList, none)) ∧
    afterNamespace "x".toList "uri".toList = .ok (some (some "black".toList, none)) := ⟨by rfl, by rfl, by rfl⟩

end Svgio.Props
