import Verif.Lemmas.Css

/-!
C132: how style sheets are read. C133: which declarations hold for an element.
-/

namespace Svgio.Props

open Svgio.Css Svgio.Spec Svgio.Regex
open Svgio.Dom (Str Dict dictGet dictSet update)

/-! ### declarations -/

theorem decl_semi {k v t : Str} (h : DeclText k v t) : ';' ∉ t := by
  obtain ⟨_, _, hk, hv, a, b, ha, hb, rfl⟩ := h
  simp only [List.mem_append, List.mem_cons, not_or]
  exact ⟨around_not ha semi_not_space hk.2, by decide, around_not hb semi_not_space hv.2⟩

theorem decl_apply {k v t : Str} (h : DeclText k v t) (d : Dict Str) : applyPart d t = dictSet d k v := by
  obtain ⟨hk0, hv0, hk, hv, a, b, ha, hb, rfl⟩ := h
  unfold applyPart
  rw [split_sep (around_not ha colon_not_space hk.1), split_none (around_not hb colon_not_space hv.1)]
  simp only [strip_around hk0 ha, strip_around hv0 hb]

theorem white_apply {w : Str} (h : White w) (d : Dict Str) : applyPart d w = d := by
  unfold applyPart
  rw [split_none (white_not h colon_not_space)]

theorem decls_apply {l : List (Str × Str)} {t : Str} (h : DeclsText l t) : ∀ d : Dict Str, applyStyle d t = update d l := by
  unfold applyStyle
  induction h with
  | none hw => intro d; rw [split_none (white_not hw semi_not_space), List.foldl_cons, white_apply hw]; rfl
  | one h => intro d; rw [split_none (decl_semi h), List.foldl_cons, decl_apply h]; rfl
  | more h _ ih => intro d; rw [split_sep (decl_semi h), List.foldl_cons, decl_apply h, ih]; rfl
  | skip hw _ ih => intro d; rw [split_sep (white_not hw semi_not_space), List.foldl_cons, white_apply hw, ih]

theorem decls_semi {l m : List (Str × Str)} {s t : Str} (h : DeclsText l s) (h' : DeclsText m t) : DeclsText (l ++ m) (s ++ ';' :: t) := by
  induction h with
  | none hw => exact .skip hw h'
  | one h => exact .more h h'
  | more h _ ih => rw [List.append_assoc, List.cons_append]; exact .more h ih
  | skip hw _ ih => rw [List.append_assoc, List.cons_append]; exact .skip hw ih

theorem decls_glue {l m : List (Str × Str)} {s t : Str} (h : DeclsText l s) (h' : DeclsText m t) (hs : s = [] ∨ s.getLast? = some ';') :
    DeclsText (l ++ m) (s ++ t) := by
  have last : ∀ (t r : Str), (t ++ ';' :: r = [] ∨ (t ++ ';' :: r).getLast? = some ';') → r = [] ∨ r.getLast? = some ';' := by
    intro t r h
    cases r with
    | nil => exact Or.inl rfl
    | cons c r =>
      refine Or.inr ?_
      rcases h with h | h
      · simp at h
      · rwa [List.getLast?_append_of_ne_nil _ (by simp), List.getLast?_cons_cons] at h
  induction h with
  | none hw =>
    rcases hs with rfl | hs
    · exact h'
    · exact absurd (List.mem_of_getLast? hs) (white_not hw semi_not_space)
  | one h =>
    rcases hs with rfl | hs
    · obtain ⟨_, _, _, _, a, b, _, _, h⟩ := h
      simp at h
    · exact absurd (List.mem_of_getLast? hs) (decl_semi h)
  | more h _ ih => rw [List.append_assoc, List.cons_append]; exact .more h (ih (last _ _ hs))
  | skip hw _ ih => rw [List.append_assoc, List.cons_append]; exact .skip hw (ih (last _ _ hs))

/-! ### rules -/

/-- what the dictionary of styles tells about rules -/
def Reads (styles : Dict Str) (rs : List Rule) : Prop := ∀ sel,
  (dictGet styles sel = none ∧ ∀ r ∈ rs, sel ∉ r.selectors) ∨
  ∃ t, dictGet styles sel = some t ∧ DeclsText (declared rs sel) t ∧ (Closed rs sel → t.getLast? = some ';') ∧
    ∃ r ∈ rs, sel ∈ r.selectors

theorem declared_append (a b : List Rule) (sel : Str) : declared (a ++ b) sel = declared a sel ++ declared b sel := by
  simp [declared]

theorem declared_not (a : List Rule) (sel : Str) (h : ∀ r ∈ a, sel ∉ r.selectors) : declared a sel = [] := by
  unfold declared
  rw [List.flatMap_eq_nil_iff]
  intro r hr
  have : r.selectors.filter (· = sel) = [] := by
    rw [List.filter_eq_nil_iff]
    intro s hs
    simp only [decide_eq_true_eq]
    rintro rfl
    exact h r hr hs
  rw [this]; rfl

theorem declared_one (s body : Str) (ds : List (Str × Str)) (sel : Str) : declared [⟨[s], body, ds⟩] sel = if s = sel then ds else [] := by
  unfold declared
  by_cases h : s = sel <;> simp [h]

theorem reads_selector {styles : Dict Str} {rs : List Rule} (h : Reads styles rs) (s t body : Str) (ds : List (Str × Str))
    (hs : strip t = s) (hb : DeclsText ds body) (hb0 : body ≠ []) : Reads (addSelector body styles t) (rs ++ [⟨[s], body, ds⟩]) := by
  have key : ∃ u, addSelector body styles t = dictSet styles s u ∧ DeclsText (declared rs s ++ ds) u ∧
      (body.getLast? = some ';' → u.getLast? = some ';') := by
    unfold addSelector
    simp only [hs]
    rcases h s with ⟨h1, h2⟩ | ⟨v, h1, h2, _⟩
    · exact ⟨body, by rw [h1], by rw [declared_not rs s h2]; exact hb, id⟩
    · rw [h1]
      refine ⟨_, rfl, ?_, fun hc => ?_⟩
      · by_cases hv : endsSemi v = true
        · rw [if_pos hv]
          exact decls_glue h2 hb (Or.inr (by simpa [endsSemi] using hv))
        · rw [if_neg hv, List.append_assoc]
          exact decls_semi h2 hb
      · rw [List.getLast?_append_of_ne_nil _ hb0]; exact hc
  obtain ⟨u, h1, h2, h3⟩ := key
  intro sel
  rw [h1, get_set, declared_append, declared_one]
  by_cases hsel : s = sel
  · subst hsel
    rw [if_pos rfl, if_pos rfl]
    exact Or.inr ⟨u, rfl, h2, fun hc => h3 (hc ⟨[s], body, ds⟩ (by simp) (by simp)), ⟨[s], body, ds⟩, by simp, by simp⟩
  · rw [if_neg hsel, if_neg hsel, List.append_nil]
    rcases h sel with ⟨h4, h5⟩ | ⟨v, h4, h5, h6, r0, h7, h8⟩
    · refine Or.inl ⟨h4, fun r hr => ?_⟩
      rcases List.mem_append.1 hr with hr | hr
      · exact h5 r hr
      · rw [List.mem_singleton] at hr
        subst hr
        simpa using fun hc : sel = s => hsel hc.symm
    · exact Or.inr ⟨v, h4, h5, fun hc => h6 fun r hr => hc r (by simp [hr]), r0, by simp [h7], h8⟩

theorem reads_selectors (body : Str) (ds : List (Str × Str)) (hb : DeclsText ds body) (hb0 : body ≠ []) :
    ∀ (l : List Str) (styles : Dict Str) (rs : List Rule), Reads styles rs →
      Reads (l.foldl (addSelector body) styles) (rs ++ (l.map strip).map fun s => ⟨[s], body, ds⟩)
  | [], styles, rs, h => by simpa using h
  | t :: l, styles, rs, h => by
    have := reads_selectors body ds hb hb0 l _ _ (reads_selector h (strip t) t body ds rfl hb hb0)
    simpa using this

theorem reads_same {styles : Dict Str} {a b : List Rule} (h : Reads styles a) (h1 : ∀ sel, declared a sel = declared b sel)
    (h2 : ∀ sel, (∀ r ∈ a, sel ∉ r.selectors) ↔ ∀ r ∈ b, sel ∉ r.selectors) (h3 : ∀ sel, Closed b sel → Closed a sel) : Reads styles b := by
  intro sel
  rcases h sel with ⟨h4, h5⟩ | ⟨v, h4, h5, h6, r, h7, h8⟩
  · exact Or.inl ⟨h4, (h2 sel).1 h5⟩
  · refine Or.inr ⟨v, h4, h1 sel ▸ h5, fun hc => h6 (h3 sel hc), ?_⟩
    by_contra hn
    push Not at hn
    exact (h2 sel).2 hn r h7 h8

theorem reads_rule {styles : Dict Str} {rs : List Rule} (h : Reads styles rs) {sels : List Str} {key body b : Str} {ds : List (Str × Str)}
    (hk : SelectorsText sels key) (hd : DeclsText ds body) (hb1 : Trimmed body) (hb0 : body ≠ []) (hb : Around body b) :
    Reads (addRule styles (key, b)) (rs ++ [⟨sels, body, ds⟩]) := by
  unfold addRule
  obtain ⟨key', hk1, hk2, _, hk3⟩ := selectors_strip hk
  simp only [strip_around hk2 hk1, strip_around hb1 hb]
  have := reads_selectors body ds hd hb0 (splitC ',' key') styles rs h
  rw [selectors_split hk3] at this
  refine reads_same this (fun sel => ?_) (fun sel => ?_) (fun sel => ?_)
  · rw [declared_append, declared_append]
    congr 1
    clear this hk hk3
    induction sels with
    | nil => rfl
    | cons s l ih =>
      rw [List.map_cons, ← List.singleton_append, declared_append, ih, declared_one]
      unfold declared
      by_cases hs : s = sel <;> simp [hs]
  · simp only [List.mem_append, List.mem_map, List.mem_singleton]
    constructor
    · rintro h r (hr | rfl)
      · exact h r (Or.inl hr)
      · intro hc
        exact h ⟨[sel], body, ds⟩ (Or.inr ⟨sel, hc, rfl⟩) (by simp)
    · rintro h r (hr | ⟨s, hs, rfl⟩)
      · exact h r (Or.inl hr)
      · intro hc
        obtain rfl : sel = s := by simpa using hc
        exact h _ (Or.inr rfl) hs
  · intro hc r hr hsel
    simp only [List.mem_append, List.mem_map] at hr
    rcases hr with hr | ⟨s, hs, rfl⟩
    · exact hc r (by simp [hr]) hsel
    · obtain rfl : sel = s := by simpa using hsel
      exact hc ⟨sels, body, ds⟩ (by simp) hs

/-- the groups of a match, as `findall` shows them -/
def cssPair (q : St) : Str × Str := ((q.group 1).getD [], (q.group 2).getD [])

theorem reads_sheet {rs : List Rule} {text : Str} (h : SheetText rs text) : ∀ (fuel n : ℕ) (styles : Dict Str) (rs0 : List Rule),
    text.length < fuel → Reads styles rs0 → Reads (((findallAt reCss fuel n text).map cssPair).foldl addRule styles) (rs0 ++ rs) := by
  induction h with
  | none hw =>
    intro fuel n styles rs0 _ hr
    rw [css_findall_none _ fuel n hw]
    simpa using hr
  | @rule sels ds key body b rs rest hk hd hb1 hb0 hbc hb _ ih =>
    intro fuel n styles rs0 hf hr
    obtain ⟨w, w', hw, hw', rfl⟩ := hb
    obtain ⟨f, rfl⟩ : ∃ f, fuel = f + 1 := ⟨fuel - 1, by omega⟩
    obtain ⟨m, hm⟩ := css_match n key (body ++ w') w rest (selectors_open hk).2 (selectors_open hk).1 hw (by simp [hb0])
      (by simp only [List.mem_append, not_or]; exact ⟨hbc, white_not hw' close_not_space⟩)
      (by
        obtain ⟨c, t, rfl⟩ := List.exists_cons_of_ne_nil hb0
        simpa using hb1.1)
    have e : key ++ '{' :: (w ++ (body ++ w') ++ '}' :: rest) = key ++ '{' :: (w ++ (body ++ w' ++ '}' :: rest)) := by simp
    rw [e] at hf ⊢
    rw [findallAt.eq_def]
    simp only [hm, List.map_cons, List.foldl_cons]
    have hp : cssPair ⟨m, rest, [(2, body ++ w'), (1, key)]⟩ = (key, body ++ w') := rfl
    rw [hp]
    have := ih f m _ (rs0 ++ [⟨sels, body, ds⟩]) (by simp at hf; omega)
      (reads_rule (b := body ++ w') hr hk hd hb1 hb0 ⟨[], w', by simp [White], hw', by simp⟩)
    simpa using this

theorem rules_eq (text : Str) : rules text = (findall reCss text).map cssPair := by
  unfold rules
  rw [css_eq]
  rfl

theorem reads_addSheet {styles : Dict Str} {rs rs0 : List Rule} {text : Str} (h : SheetText rs text) (hr : Reads styles rs0) :
    Reads (addSheet styles text) (rs0 ++ rs) := by
  unfold addSheet
  rw [rules_eq]
  exact reads_sheet h _ _ _ _ (by omega) hr

theorem reads_sheets {rss : List (List Rule)} {texts : List Str} (h : List.Forall₂ SheetText rss texts) :
    ∀ (styles : Dict Str) (rs0 : List Rule), Reads styles rs0 → Reads (texts.foldl addSheet styles) (rs0 ++ rss.flatten) := by
  induction h with
  | nil => intro styles rs0 hr; simpa using hr
  | cons h1 _ ih =>
    intro styles rs0 hr
    have := ih _ _ (reads_addSheet h1 hr)
    simpa using this

theorem reads_nil : Reads [] [] := fun _ => Or.inl ⟨rfl, by simp⟩

/-- C132: after any number of style sheets, the style kept for a selector is a text with exactly the declarations that the rules with
this selector have, in the order of the sheets; there is none if no rule has the selector. A rule with several selectors counts for each
of them. -/
theorem C132_sheets_partial (rss : List (List Rule)) (texts : List Str) (h : List.Forall₂ SheetText rss texts) (sel : Str) :
    (dictGet (texts.foldl addSheet []) sel = none ↔ ∀ r ∈ rss.flatten, sel ∉ r.selectors) ∧
    ∀ t, dictGet (texts.foldl addSheet []) sel = some t → DeclsText (declared rss.flatten sel) t := by
  have := reads_sheets h [] [] reads_nil sel
  rw [List.nil_append] at this
  rcases this with ⟨h1, h2⟩ | ⟨t, h1, h2, _, r, h3, h4⟩
  · exact ⟨⟨fun _ => h2, fun _ => h1⟩, fun t ht => by rw [h1] at ht; cases ht⟩
  · refine ⟨⟨fun hc => ?_, fun hc => ?_⟩, fun t' ht => ?_⟩
    · rw [h1] at hc; cases hc
    · exact absurd h4 (hc r h3)
    · rw [h1] at ht
      cases ht
      exact h2

theorem around_self (s : Str) : Around s s := ⟨[], [], by simp [White], by simp [White], by simp⟩

theorem example_sheet : SheetText [⟨["rect".toList, ".a".toList], "fill: red;".toList, [("fill".toList, "red".toList)]⟩,
    ⟨["rect".toList], "x:1;fill:blue".toList, [("x".toList, "1".toList), ("fill".toList, "blue".toList)]⟩]
    "rect, .a { fill: red; }\nrect{x:1;fill:blue} ".toList := by
  have w1 : White " ".toList := by unfold White; decide +kernel
  have d1 : DeclText "fill".toList "red".toList "fill: red".toList :=
    ⟨by unfold Trimmed; decide +kernel, by unfold Trimmed; decide +kernel, by decide, by decide, "fill".toList, " red".toList,
      around_self _, ⟨" ".toList, [], w1, by simp [White], by decide⟩, by decide⟩
  have d2 : DeclText "x".toList "1".toList "x:1".toList :=
    ⟨by unfold Trimmed; decide +kernel, by unfold Trimmed; decide +kernel, by decide, by decide, "x".toList, "1".toList,
      around_self _, around_self _, by decide⟩
  have d3 : DeclText "fill".toList "blue".toList "fill:blue".toList :=
    ⟨by unfold Trimmed; decide +kernel, by unfold Trimmed; decide +kernel, by decide, by decide, "fill".toList, "blue".toList,
      around_self _, around_self _, by decide⟩
  have s1 : SelectorText "rect".toList := ⟨by decide, by unfold Trimmed; decide +kernel, by decide, by decide⟩
  have s2 : SelectorText ".a".toList := ⟨by decide, by unfold Trimmed; decide +kernel, by decide, by decide⟩
  refine SheetText.rule (key := "rect, .a ".toList) (body := "fill: red;".toList) (b := " fill: red; ".toList)
    (rest := "\nrect{x:1;fill:blue} ".toList)
    (.more (t := "rect".toList) (r := " .a ".toList) s1 (around_self _) (.one s2 ⟨" ".toList, " ".toList, w1, w1, by decide⟩))
    (.more (t := "fill: red".toList) (r := []) d1 (.none (by simp [White])))
    (by unfold Trimmed; decide +kernel) (by decide) (by decide) ⟨" ".toList, " ".toList, w1, w1, by decide⟩ ?_
  exact SheetText.rule (key := "\nrect".toList) (body := "x:1;fill:blue".toList) (b := "x:1;fill:blue".toList) (rest := " ".toList)
    (.one s1 ⟨"\n".toList, [], by unfold White; decide +kernel, by simp [White], by decide⟩)
    (.more (t := "x:1".toList) (r := "fill:blue".toList) d2 (.one d3))
    (by unfold Trimmed; decide +kernel) (by decide) (by decide) (around_self _) (.none (by decide))

/-- a sheet with two rules for `rect`, one of them also for `.a` -/
example : ∃ rss texts, List.Forall₂ SheetText rss texts ∧ rss.length = 2 ∧
    (declared rss.flatten "rect".toList).length = 6 ∧ (declared rss.flatten ".a".toList).length = 2 :=
  ⟨_, _, .cons example_sheet (.cons example_sheet .nil), rfl, by decide +kernel, by decide +kernel⟩

/-- C132 fails for an empty rule: the rule after it is kept under a wrong selector, and so lost. -/
theorem C132_empty_rule_wrong : dictGet (addSheet [] "c{}d{fill:red}".toList) "d".toList = none ∧
    addSheet [] "c{}d{fill:red}".toList = [("}d".toList, "fill:red".toList)] := by decide +kernel

/-- C132 fails with comments: a comment before a rule becomes a part of its selector. -/
theorem C132_comment_wrong : dictGet (addSheet [] "/* note */ d{fill:red}".toList) "d".toList = none ∧
    addSheet [] "/* note */ d{fill:red}".toList = [("/* note */ d".toList, "fill:red".toList)] := by decide +kernel

/-! ### the cascade -/

theorem reads_declared_none {styles : Dict Str} {rs : List Rule} (h : Reads styles rs) {sel : Str} (hn : dictGet styles sel = none) :
    declared rs sel = [] := by
  rcases h sel with ⟨_, h2⟩ | ⟨t, h1, _⟩
  · exact declared_not rs sel h2
  · rw [h1] at hn; cases hn

theorem reads_some {styles : Dict Str} {rs : List Rule} (h : Reads styles rs) {sel t : Str} (hn : dictGet styles sel = some t) :
    DeclsText (declared rs sel) t ∧ (Closed rs sel → t.getLast? = some ';') ∧ ∃ r ∈ rs, sel ∈ r.selectors := by
  rcases h sel with ⟨h1, _⟩ | ⟨u, h1, h2⟩
  · rw [h1] at hn; cases hn
  · rw [h1] at hn
    cases hn
    exact h2

/-- the end of a text does not run into what comes after it -/
def Open (s : Str) : Prop := s = [] ∨ s.getLast? = some ';'

theorem join_decls {styles : Dict Str} {rs : List Rule} (h : Reads styles rs) {l : List (Str × Str)} {s : Str} (hs : DeclsText l s)
    (sel : Str) : DeclsText (l ++ declared rs sel) (joinStyle styles s sel) ∧ (Open s → Closed rs sel → Open (joinStyle styles s sel)) := by
  unfold joinStyle
  cases hd : dictGet styles sel with
  | none => rw [reads_declared_none h hd, List.append_nil]; exact ⟨hs, fun h _ => h⟩
  | some t =>
    obtain ⟨h1, h2, _⟩ := reads_some h hd
    constructor
    · by_cases hl : s.length ≠ 0
      · simp only [if_pos hl, List.append_assoc]
        exact decls_semi hs h1
      · simp only [if_neg hl]
        exact decls_glue hs h1 (Or.inl (by simpa using hl))
    · intro _ hc
      refine Or.inr ?_
      have ht := h2 hc
      have : t ≠ [] := by rintro rfl; simp at ht
      simp only
      rw [List.getLast?_append_of_ne_nil _ this]
      exact ht

theorem glue_decls {styles : Dict Str} {rs : List Rule} (h : Reads styles rs) {l : List (Str × Str)} {s : Str} (hs : DeclsText l s)
    (sel : Str) (ho : Open s ∨ ∀ r ∈ rs, sel ∉ r.selectors) :
    DeclsText (l ++ declared rs sel) (glueStyle styles s sel) ∧ (Open s → Closed rs sel → Open (glueStyle styles s sel)) := by
  unfold glueStyle
  cases hd : dictGet styles sel with
  | none => rw [reads_declared_none h hd, List.append_nil]; exact ⟨hs, fun h _ => h⟩
  | some t =>
    obtain ⟨h1, h2, r, h3, h4⟩ := reads_some h hd
    have ho : Open s := ho.resolve_right fun hc => hc r h3 h4
    constructor
    · exact decls_glue hs h1 ho
    · intro _ hc
      refine Or.inr ?_
      have ht := h2 hc
      have : t ≠ [] := by rintro rfl; simp at ht
      simp only
      rw [List.getLast?_append_of_ne_nil _ this]
      exact ht

theorem classes_decls {styles : Dict Str} {rs : List Rule} (h : Reads styles rs) (tag : Str) : ∀ (cs : List Str) (l : List (Str × Str))
    (s : Str), DeclsText l s →
    DeclsText (l ++ (cs.flatMap fun c => ['.' :: c, tag ++ '.' :: c]).flatMap (declared rs)) (cs.foldl (classStyle styles tag) s) ∧
    (Open s → (∀ sel ∈ cs.flatMap fun c => ['.' :: c, tag ++ '.' :: c], Closed rs sel) → Open (cs.foldl (classStyle styles tag) s))
  | [], l, s, hs => by simpa using hs
  | c :: cs, l, s, hs => by
    have h1 := join_decls h hs ('.' :: c)
    have h2 := join_decls h h1.1 (tag ++ '.' :: c)
    have ih := classes_decls h tag cs _ _ h2.1
    refine ⟨by simpa [classStyle] using ih.1, fun ho hc => ih.2 (h2.2 (h1.2 ho (hc _ (by simp))) (hc _ (by simp))) fun sel hsel => hc sel ?_⟩
    rw [List.flatMap_cons]
    exact List.mem_append_right _ hsel

theorem split_classes {cs : List Str} {t : Str} (h : ClassText cs t) : splitC ' ' t = cs := by
  obtain ⟨h0, h1, rfl⟩ := h
  induction cs with
  | nil => exact absurd rfl h0
  | cons c cs ih =>
    cases cs with
    | nil => simpa using split_none (h1 c (by simp))
    | cons d cs =>
      have := ih (by simp) fun e he => h1 e (by simp [he])
      rw [List.intercalate_cons_cons, List.append_assoc, List.singleton_append, split_sep (h1 c (by simp)), this]

/-- the declarations in the style text of an element -/
theorem style_decls {styles : Dict Str} {rs : List Rule} (h : Reads styles rs) (tag : Str) (attributes : Dict Str) (classes : List Str)
    (own : List (Str × Str))
    (hc : match dictGet attributes "class".toList with | none => classes = [] | some t => ClassText classes t)
    (hs : match dictGet attributes "style".toList with | none => own = [] | some t => DeclsText own t)
    (h1 : (∀ r ∈ rs, tag ∉ r.selectors) ∨ Closed rs ['*'])
    (h2 : dictGet attributes "style".toList = none ∨ ∀ sel ∈ selectorsFor tag (dictGet attributes "id".toList) classes, Closed rs sel) :
    DeclsText (declsFor rs tag (dictGet attributes "id".toList) classes own) (styleText styles tag attributes) := by
  unfold styleText
  have a0 : DeclsText [] [] := .none (by simp [White])
  have a1 := glue_decls h a0 ['*'] (Or.inl (Or.inl rfl))
  have a2 := glue_decls h a1.1 tag (h1.symm.imp (a1.2 (Or.inl rfl)) id)
  simp only [List.nil_append] at a1 a2
  have a2o : (∀ sel ∈ selectorsFor tag (dictGet attributes "id".toList) classes, Closed rs sel) →
      Open (glueStyle styles (glueStyle styles [] ['*']) tag) := fun hall =>
    a2.2 (a1.2 (Or.inl rfl) (hall _ (by simp [selectorsFor]))) (hall _ (by simp [selectorsFor]))
  have a2d := a2.1
  show DeclsText _ (match dictGet attributes "style".toList with
    | none => match dictGet attributes "class".toList with
      | none => match dictGet attributes "id".toList with
        | none => glueStyle styles (glueStyle styles [] ['*']) tag
        | some i => joinStyle styles (glueStyle styles (glueStyle styles [] ['*']) tag) ('#' :: i)
      | some c => (splitC ' ' c).foldl (classStyle styles tag) (match dictGet attributes "id".toList with
        | none => glueStyle styles (glueStyle styles [] ['*']) tag
        | some i => joinStyle styles (glueStyle styles (glueStyle styles [] ['*']) tag) ('#' :: i))
    | some s => (match dictGet attributes "class".toList with
      | none => match dictGet attributes "id".toList with
        | none => glueStyle styles (glueStyle styles [] ['*']) tag
        | some i => joinStyle styles (glueStyle styles (glueStyle styles [] ['*']) tag) ('#' :: i)
      | some c => (splitC ' ' c).foldl (classStyle styles tag) (match dictGet attributes "id".toList with
        | none => glueStyle styles (glueStyle styles [] ['*']) tag
        | some i => joinStyle styles (glueStyle styles (glueStyle styles [] ['*']) tag) ('#' :: i))) ++ s)
  generalize glueStyle styles (glueStyle styles [] ['*']) tag = s2 at *
  clear a1 a2
  have a3 : DeclsText (declared rs ['*'] ++ declared rs tag ++
        ((dictGet attributes "id".toList).toList.map ('#' :: ·)).flatMap (declared rs))
      (match dictGet attributes "id".toList with
        | none => s2
        | some i => joinStyle styles s2 ('#' :: i)) ∧
      ((∀ sel ∈ selectorsFor tag (dictGet attributes "id".toList) classes, Closed rs sel) →
        Open (match dictGet attributes "id".toList with
        | none => s2
        | some i => joinStyle styles s2 ('#' :: i))) := by
    cases hid : dictGet attributes "id".toList with
    | none => rw [hid] at a2o; exact ⟨by simpa using a2d, a2o⟩
    | some i =>
      rw [hid] at a2o
      have := join_decls h a2d ('#' :: i)
      exact ⟨by simpa using this.1, fun hall => this.2 (a2o hall) (hall _ (by simp [selectorsFor]))⟩
  generalize (match dictGet attributes "id".toList with
        | none => s2
        | some i => joinStyle styles s2 ('#' :: i)) = s3 at *
  have a4 : DeclsText ((selectorsFor tag (dictGet attributes "id".toList) classes).flatMap (declared rs))
      (match dictGet attributes "class".toList with
        | none => s3
        | some c => (splitC ' ' c).foldl (classStyle styles tag) s3) ∧
      ((∀ sel ∈ selectorsFor tag (dictGet attributes "id".toList) classes, Closed rs sel) →
        Open (match dictGet attributes "class".toList with
        | none => s3
        | some c => (splitC ' ' c).foldl (classStyle styles tag) s3)) := by
    cases hcl : dictGet attributes "class".toList with
    | none =>
      rw [hcl] at hc
      subst hc
      exact ⟨by simpa [selectorsFor] using a3.1, a3.2⟩
    | some c =>
      rw [hcl] at hc
      simp only [split_classes hc]
      have := classes_decls h tag classes _ _ a3.1
      refine ⟨by simpa [selectorsFor] using this.1, fun hall => this.2 (a3.2 hall) fun sel hsel => hall sel ?_⟩
      unfold selectorsFor
      exact List.mem_cons_of_mem _ (List.mem_cons_of_mem _ (List.mem_append_right _ hsel))
  generalize (match dictGet attributes "class".toList with
        | none => s3
        | some c => (splitC ' ' c).foldl (classStyle styles tag) s3) = s4 at *
  unfold declsFor
  cases hst : dictGet attributes "style".toList with
  | none =>
    rw [hst] at hs
    subst hs
    simpa using a4.1
  | some t =>
    rw [hst] at hs h2
    exact decls_glue a4.1 hs (a4.2 (h2.resolve_left (by simp)))

theorem get_update_last (l : List (Str × Str)) : ∀ (d : Dict Str) (k : Str), dictGet (update d l) k = (lastDecl l k).or (dictGet d k) := by
  induction l with
  | nil => intro d k; rfl
  | cons a l ih =>
    intro d k
    show dictGet (update (dictSet d a.1 a.2) l) k = _
    rw [ih, get_set]
    unfold lastDecl
    rw [List.reverse_cons, List.find?_append]
    cases l.reverse.find? (fun d => d.1 = k) with
    | some x => rfl
    | none =>
      by_cases h : a.1 = k
      · simp [h]
      · simp [h]

theorem color_get (values attributes : Dict Str) (key : Str) (hk : key ≠ "color".toList) (hv : dictGet values "color".toList ≠ none) :
    ∃ d, currentColor values key attributes = .ok d ∧ (IsDict attributes → IsDict d) ∧ ∀ k, dictGet d k =
      if k = key ∧ dictGet attributes k = some "currentColor".toList then (dictGet attributes "color".toList).or (dictGet values "color".toList)
      else dictGet attributes k := by
  unfold currentColor
  by_cases h : dictGet attributes key = some "currentColor".toList
  · rw [if_pos h]
    cases hc : dictGet attributes "color".toList with
    | some c =>
      refine ⟨_, rfl, isDict_set _ _ _, fun k => ?_⟩
      rw [get_set]
      by_cases hk : key = k
      · subst hk; rw [if_pos rfl, if_pos ⟨rfl, h⟩]; rfl
      · rw [if_neg hk, if_neg (fun hc => hk hc.1.symm)]
    | none =>
      cases hd : dictGet values "color".toList with
      | none => exact absurd hd hv
      | some c =>
        refine ⟨_, rfl, isDict_set _ _ _, fun k => ?_⟩
        rw [get_set]
        by_cases hk : key = k
        · subst hk; rw [if_pos rfl, if_pos ⟨rfl, h⟩]; rfl
        · rw [if_neg hk, if_neg (fun hc => hk hc.1.symm)]
  · rw [if_neg h]
    refine ⟨_, rfl, id, fun k => ?_⟩
    rw [if_neg]
    rintro ⟨rfl, h'⟩
    exact h h'

theorem transform_get (values attributes : Dict Str) (k : Str) : dictGet (joinTransform values attributes) k =
    if k = "transform".toList then
      match dictGet attributes k, dictGet values k with
      | some t, some v => some (v ++ ' ' :: t)
      | o, _ => o
    else dictGet attributes k := by
  unfold joinTransform
  by_cases hk : k = "transform".toList
  · subst hk
    rw [if_pos rfl]
    cases h1 : dictGet attributes "transform".toList with
    | none => simp only; exact h1
    | some t =>
      cases h2 : dictGet values "transform".toList with
      | none => simp only; exact h1
      | some v => simp only; rw [get_set, if_pos rfl]
  · rw [if_neg hk]
    split
    · rw [get_set, if_neg (fun hc => hk hc.symm)]
    · rfl

theorem isDict_transform (values attributes : Dict Str) (h : IsDict attributes) : IsDict (joinTransform values attributes) := by
  unfold joinTransform
  split
  · exact isDict_set _ _ _ h
  · exact h

theorem isDict_applyStyle (t : Str) (d : Dict Str) (h : IsDict d) : IsDict (applyStyle d t) := by
  unfold applyStyle
  generalize splitC ';' t = l
  induction l generalizing d with
  | nil => exact h
  | cons a l ih =>
    rw [List.foldl_cons]
    refine ih _ ?_
    unfold applyPart
    split
    · exact isDict_set _ _ _ h
    · exact h

/-- the attributes of an element with the style text worked in -/
def styled (styles : Dict Str) (tag : Str) (attrib : Dict Str) : Dict Str :=
  applyStyle (dictSet attrib "tag".toList tag) (styleText styles tag (dictSet attrib "tag".toList tag))

theorem compiled_get (styles values : Dict Str) (tag : Str) (attrib : Dict Str) (hv : dictGet values "color".toList ≠ none)
    (ha : IsDict attrib) : ∃ d, compiled styles values tag attrib = .ok d ∧ IsDict d ∧
      ∀ k, dictGet d k = computed (dictGet (styled styles tag attrib)) (dictGet values) k := by
  unfold compiled
  have hd : IsDict (styled styles tag attrib) := isDict_applyStyle _ _ (isDict_set _ _ _ ha)
  show ∃ d, (currentColor values "fill".toList (styled styles tag attrib) >>= fun a =>
    currentColor values "stroke".toList a >>= fun a => pure (joinTransform values a)) = .ok d ∧ _
  generalize styled styles tag attrib = a at *
  obtain ⟨b, h1, h2, h3⟩ := color_get values a "fill".toList (by decide) hv
  obtain ⟨c, h4, h5, h6⟩ := color_get values b "stroke".toList (by decide) hv
  refine ⟨joinTransform values c, ?_, isDict_transform _ _ (h5 (h2 hd)), fun k => ?_⟩
  · rw [h1]
    show (currentColor values "stroke".toList b >>= fun a => pure (joinTransform values a)) = _
    rw [h4]
    rfl
  · rw [transform_get]
    have e1 : dictGet b "color".toList = dictGet a "color".toList := by rw [h3, if_neg (fun hc => absurd hc.1 (by decide))]
    unfold computed
    by_cases k1 : k = "fill".toList
    · subst k1
      rw [if_neg (by decide), h6, if_neg (fun hc => absurd hc.1 (by decide)), h3]
      by_cases h : dictGet a "fill".toList = some "currentColor".toList
      · rw [if_pos ⟨rfl, h⟩, if_pos ⟨Or.inl rfl, h⟩]
      · rw [if_neg (fun hc => h hc.2), if_neg (fun hc => h hc.2), if_neg (by decide)]
    by_cases k2 : k = "stroke".toList
    · subst k2
      have e2 : dictGet b "stroke".toList = dictGet a "stroke".toList := by rw [h3, if_neg (fun hc => absurd hc.1 (by decide))]
      rw [if_neg (by decide), h6, e1, e2]
      by_cases h : dictGet a "stroke".toList = some "currentColor".toList
      · rw [if_pos ⟨rfl, h⟩, if_pos ⟨Or.inr rfl, h⟩]
      · rw [if_neg (fun hc => h hc.2), if_neg (fun hc => h hc.2), if_neg (by decide)]
    have e3 : dictGet c k = dictGet a k := by
      rw [h6, if_neg (fun hc => k2 hc.1), h3, if_neg (fun hc => k1 hc.1)]
    have e4 : ¬ ((k = "fill".toList ∨ k = "stroke".toList) ∧ dictGet a k = some "currentColor".toList) := by
      rintro ⟨h | h, _⟩
      · exact k1 h
      · exact k2 h
    rw [e3]
    conv_rhs => rw [if_neg e4]
    rfl

theorem styled_get (rss : List (List Rule)) (texts : List Str) (h : List.Forall₂ SheetText rss texts) (tag : Str)
    (attrib : Dict Str) (classes : List Str) (own : List (Str × Str))
    (hc : match dictGet attrib "class".toList with | none => classes = [] | some t => ClassText classes t)
    (hs : match dictGet attrib "style".toList with | none => own = [] | some t => DeclsText own t)
    (h1 : (∀ r ∈ rss.flatten, tag ∉ r.selectors) ∨ Closed rss.flatten ['*'])
    (h2 : dictGet attrib "style".toList = none ∨
      ∀ sel ∈ selectorsFor tag (dictGet attrib "id".toList) classes, Closed rss.flatten sel) :
    dictGet (styled (texts.foldl addSheet []) tag attrib) =
      cascaded (declsFor rss.flatten tag (dictGet attrib "id".toList) classes own) tag (dictGet attrib) := by
  funext j
  have hr : Reads (texts.foldl addSheet []) rss.flatten := by simpa using reads_sheets h [] [] reads_nil
  have e : ∀ n : Str, "tag".toList ≠ n → dictGet (dictSet attrib "tag".toList tag) n = dictGet attrib n := fun n hn => by
    rw [get_set, if_neg hn]
  have e1 := e "class".toList (by decide)
  have e2 := e "style".toList (by decide)
  have e3 := e "id".toList (by decide)
  have := style_decls hr tag (dictSet attrib "tag".toList tag) classes own (by rw [e1]; exact hc) (by rw [e2]; exact hs) h1
    (by rw [e2, e3]; exact h2)
  unfold styled
  rw [decls_apply this, get_update_last, e3]
  unfold cascaded
  rw [get_set]
  by_cases hj : j = "tag".toList
  · rw [if_pos hj, if_pos hj.symm]
  · rw [if_neg hj, if_neg (fun hc => hj hc.symm)]

/-- C133: an element gets the value of a property from the last declaration of it, in this order: rules for `*`, for its tag, for its
`#id`, for each `.class` and `tag.class`, and its style attribute; without a declaration its attribute counts. `currentColor` stands for
the colour of the element, or else of its parent, and a transform comes behind the one of the parent. Reading the attributes of an element
never fails.

Partial: rules for `*` must end with `;` if there are rules for the tag, and with a style attribute all rules for the element must
(`C133_separator_wrong`); the classes have one space between them (`C133_class_wrong`). -/
theorem C133_cascade_partial (rss : List (List Rule)) (texts : List Str) (h : List.Forall₂ SheetText rss texts) (values : Dict Str) (tag : Str)
    (attrib : Dict Str) (classes : List Str) (own : List (Str × Str)) (hv : dictGet values "color".toList ≠ none) (ha : IsDict attrib)
    (hc : match dictGet attrib "class".toList with | none => classes = [] | some t => ClassText classes t)
    (hs : match dictGet attrib "style".toList with | none => own = [] | some t => DeclsText own t)
    (h1 : (∀ r ∈ rss.flatten, tag ∉ r.selectors) ∨ Closed rss.flatten ['*'])
    (h2 : dictGet attrib "style".toList = none ∨
      ∀ sel ∈ selectorsFor tag (dictGet attrib "id".toList) classes, Closed rss.flatten sel) :
    ∃ d, compiled (texts.foldl addSheet []) values tag attrib = .ok d ∧ ∀ k, dictGet d k =
      computed (cascaded (declsFor rss.flatten tag (dictGet attrib "id".toList) classes own) tag (dictGet attrib)) (dictGet values) k := by
  obtain ⟨d, h3, _, h4⟩ := compiled_get (texts.foldl addSheet []) values tag attrib hv ha
  refine ⟨d, h3, fun k => ?_⟩
  rw [h4]
  rw [styled_get rss texts h tag attrib classes own hc hs h1 h2]

/-- the sheet from above, an element with a class and a transform, inside of one with a transform -/
example : ∃ d, compiled (addSheet [] "rect, .a { fill: red; }\nrect{x:1;fill:blue} ".toList)
      [("color".toList, "black".toList), ("transform".toList, "scale(2)".toList)] "rect".toList
      [("class".toList, "b a".toList), ("x".toList, "7".toList), ("transform".toList, "scale(3)".toList)] = .ok d ∧
    dictGet d "fill".toList = some "red".toList ∧ dictGet d "x".toList = some "1".toList ∧
    dictGet d "transform".toList = some "scale(2) scale(3)".toList := by
  obtain ⟨d, h1, h2⟩ := C133_cascade_partial _ _ (.cons example_sheet .nil)
    [("color".toList, "black".toList), ("transform".toList, "scale(2)".toList)] "rect".toList
    [("class".toList, "b a".toList), ("x".toList, "7".toList), ("transform".toList, "scale(3)".toList)] ["b".toList, "a".toList] []
    (by decide) (by unfold IsDict; decide) ⟨by decide, by decide, by decide⟩ rfl (Or.inr (by unfold Closed; decide +kernel)) (Or.inl rfl)
  refine ⟨d, h1, ?_, ?_, ?_⟩ <;> · rw [h2]; decide +kernel

/-- C133 fails without semicolons: a rule for the class and a style attribute are run together, and so are rules for `*` and for the tag.
Both declarations are lost. -/
theorem C133_separator_wrong :
    (∃ d, compiled (addSheet [] ".a{fill:red}".toList) (initial "black".toList none) "rect".toList
        [("class".toList, "a".toList), ("style".toList, "stroke:blue".toList)] = .ok d ∧
      dictGet d "fill".toList = none ∧ dictGet d "stroke".toList = none) ∧
    ∃ d, compiled (addSheet [] "*{fill:red} rect{stroke:blue}".toList) (initial "black".toList none) "rect".toList [] = .ok d ∧
      dictGet d "fill".toList = none ∧ dictGet d "stroke".toList = none :=
  ⟨⟨_, rfl, by decide +kernel⟩, ⟨_, rfl, by decide +kernel⟩⟩

/-- C133 fails for classes that have a line break between them, which the rules of SVG allow. -/
theorem C133_class_wrong : ∃ d, compiled (addSheet [] ".a{fill:red}".toList) (initial "black".toList none) "rect".toList
    [("class".toList, "a\nb".toList)] = .ok d ∧ dictGet d "fill".toList = none := ⟨_, rfl, by decide +kernel⟩

end Svgio.Props
