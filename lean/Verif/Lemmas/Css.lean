import Verif.Model.Css
import Verif.Spec.Css
import Verif.Lemmas.RegexMore
import Verif.Props.ColorFun
import Verif.Props.DomInherit

/-!
Style sheets: stripping, splitting, and the regular expression for rules.
-/

namespace Svgio.Css

open Svgio.Color Svgio.Spec Svgio.Regex
open Svgio.Dom (Str Dict dictGet dictSet)

theorem notWs_iff (c : Char) : isWs c = false ↔ c ∉ spaces := by
  rw [← Props.isWs_iff]; simp

theorem drop_white {w : Str} (hw : White w) (s : Str) : (w ++ s).dropWhile isWs = s.dropWhile isWs := by
  induction w with
  | nil => rfl
  | cons c w ih =>
    have hc : isWs c = true := (Props.isWs_iff c).2 (hw c (by simp))
    rw [List.cons_append, List.dropWhile_cons, if_pos hc]
    exact ih fun d hd => hw d (by simp [hd])

theorem white_reverse {w : Str} (hw : White w) : White w.reverse := fun c hc => hw c (by simpa using hc)

theorem drop_trimmed {s : Str} (h : ∀ c ∈ s.head?, c ∉ spaces) : s.dropWhile isWs = s := by
  cases s with
  | nil => rfl
  | cons c t =>
    have : isWs c = false := (notWs_iff c).2 (h c (by simp))
    rw [List.dropWhile_cons, if_neg (by simp [this])]

theorem strip_around {s t : Str} (hs : Trimmed s) (h : Around s t) : strip t = s := by
  obtain ⟨w, w', hw, hw', rfl⟩ := h
  unfold strip
  rw [drop_white hw]
  cases s with
  | nil =>
    have : (([] : Str) ++ w').dropWhile isWs = [] := by
      have := drop_white hw' []
      simpa using this
    rw [this]
    rfl
  | cons c s =>
    have h1 : (c :: s ++ w').dropWhile isWs = c :: s ++ w' := drop_trimmed (by simpa using hs.1)
    rw [h1, List.reverse_append, drop_white (white_reverse hw'), drop_trimmed, List.reverse_reverse]
    intro d hd
    rw [List.head?_reverse] at hd
    exact hs.2 d hd

theorem split_none {c : Char} : ∀ {t : Str}, c ∉ t → splitC c t = [t]
  | [], _ => rfl
  | d :: t, h => by
    simp only [List.mem_cons, not_or] at h
    rw [splitC, if_neg (fun hc => h.1 hc.symm), split_none h.2]

theorem split_sep {c : Char} : ∀ {t : Str}, c ∉ t → ∀ r, splitC c (t ++ c :: r) = t :: splitC c r
  | [], _, r => by rw [List.nil_append, splitC, if_pos rfl]
  | d :: t, h, r => by
    simp only [List.mem_cons, not_or] at h
    rw [List.cons_append, splitC, if_neg (fun hc => h.1 hc.symm), split_sep h.2]

theorem white_not {w : Str} (hw : White w) {c : Char} (hc : c ∉ spaces) : c ∉ w := fun h => hc (hw c h)

theorem around_not {s t : Str} (h : Around s t) {c : Char} (hc : c ∉ spaces) (hs : c ∉ s) : c ∉ t := by
  obtain ⟨w, w', hw, hw', rfl⟩ := h
  simp only [List.mem_append, not_or]
  exact ⟨white_not hw hc, hs, white_not hw' hc⟩

/-! ### selectors -/

theorem selectors_front {l : List Str} {r w : Str} (hw : White w) (h : SelectorsText l r) : SelectorsText l (w ++ r) := by
  have key : ∀ {s t : Str}, Around s t → Around s (w ++ t) := by
    rintro s t ⟨a, b, ha, hb, rfl⟩
    refine ⟨w ++ a, b, fun c hc => ?_, hb, by simp⟩
    rcases List.mem_append.1 hc with h | h
    · exact hw c h
    · exact ha c h
  cases h with
  | one h1 h2 => exact .one h1 (key h2)
  | more h1 h2 h3 =>
    rw [← List.append_assoc]
    exact .more h1 (key h2) h3

theorem selectors_strip {l : List Str} {r : Str} (h : SelectorsText l r) :
    ∃ r', Around r' r ∧ Trimmed r' ∧ r' ≠ [] ∧ SelectorsText l r' := by
  induction h with
  | @one s t h1 h2 =>
    exact ⟨s, h2, h1.2.1, h1.1, .one h1 ⟨[], [], by simp [White], by simp [White], by simp⟩⟩
  | @more s t l r h1 h2 h3 ih =>
    obtain ⟨w, w', hw, hw', rfl⟩ := h2
    obtain ⟨r', ⟨u, u', hu, hu', rfl⟩, hr1, hr2, hr3⟩ := ih
    refine ⟨(s ++ w') ++ ',' :: (u ++ r'), ⟨w, u', hw, hu', by simp⟩, ⟨?_, ?_⟩, by simp, ?_⟩
    · intro c hc
      obtain ⟨d, s', rfl⟩ := List.exists_cons_of_ne_nil h1.1
      exact h1.2.1.1 c (by simpa using hc)
    · intro c hc
      refine hr1.2 c ?_
      have : ((s ++ w') ++ ',' :: (u ++ r')) = (s ++ w' ++ ',' :: u) ++ r' := by simp
      rw [this, List.getLast?_append_of_ne_nil _ hr2] at hc
      exact hc
    · exact .more h1 ⟨[], w', by simp [White], hw', by simp⟩ (selectors_front hu hr3)

theorem comma_not_space : ',' ∉ spaces := by decide +kernel
theorem semi_not_space : ';' ∉ spaces := by decide +kernel
theorem colon_not_space : ':' ∉ spaces := by decide +kernel
theorem open_not_space : '{' ∉ spaces := by decide +kernel
theorem close_not_space : '}' ∉ spaces := by decide +kernel

theorem selectors_split {l : List Str} {r : Str} (h : SelectorsText l r) : (splitC ',' r).map strip = l := by
  induction h with
  | one h1 h2 =>
    rw [split_none (around_not h2 comma_not_space h1.2.2.1), List.map_singleton, strip_around h1.2.1 h2]
  | more h1 h2 h3 ih =>
    rw [split_sep (around_not h2 comma_not_space h1.2.2.1), List.map_cons, strip_around h1.2.1 h2, ih]

theorem selectors_open {l : List Str} {r : Str} (h : SelectorsText l r) : '{' ∉ r ∧ r ≠ [] := by
  induction h with
  | one h1 h2 =>
    refine ⟨around_not h2 open_not_space h1.2.2.2, ?_⟩
    rintro rfl
    obtain ⟨w, w', _, _, h⟩ := h2
    simp only [List.nil_eq, List.append_eq_nil_iff] at h
    exact h1.1 h.2.1
  | more h1 h2 h3 ih =>
    refine ⟨?_, by simp⟩
    simp only [List.mem_append, List.mem_cons, not_or]
    exact ⟨around_not h2 open_not_space h1.2.2.2, by decide, ih.1⟩

/-! ### the regular expression -/

def reNotOpen : Re := .set true [.range '{' '{']
def reNotClose : Re := .set true [.range '}' '}']

theorem single_notOpen : Single reNotOpen (fun c => decide (c ≠ '{')) :=
  single_set _ _ _ fun c => by simp [test, Item.test, char_range]

theorem single_notClose : Single reNotClose (fun c => decide (c ≠ '}')) :=
  single_set _ _ _ fun c => by simp [test, Item.test, char_range]

/-- from the brace on -/
def reCss2 : Re :=
  .cat (.rep 0 none reWs) (.cat (one '{') (.cat (.rep 0 none reWs) (.cat (.grp 2 (.cat (.rep 1 none reNotClose) .eps))
    (.cat (.rep 0 none reWs) (.cat (one '}') .eps)))))

def reCss : Re := .cat (.grp 1 (.cat (.rep 1 none reNotOpen) .eps)) reCss2

theorem css_eq : REGEX_CSS_STYLE = some reCss := by decide +kernel

theorem head_cat {a b : Re} {st x y : St} (h1 : (Regex.run a st).head? = some x) (h2 : (Regex.run b x).head? = some y) :
    (Regex.run (.cat a b) st).head? = some y := by
  rw [run_cat]
  cases h : Regex.run a st with
  | nil => rw [h] at h1; cases h1
  | cons z l =>
    rw [h] at h1
    obtain rfl : z = x := by simpa using h1
    rw [List.flatMap_cons]
    cases h' : Regex.run b z with
    | nil => rw [h'] at h2; cases h2
    | cons u m => rw [h'] at h2; simpa using h2

theorem head_grp {a : Re} {i : ℕ} {st x : St} (h : (Regex.run a st).head? = some x) :
    (Regex.run (.grp i a) st).head? = some { x with caps := (i, st.rest.take (st.rest.length - x.rest.length)) :: x.caps } := by
  rw [Regex.run, List.head?_map, h]
  rfl

theorem head_one (a : Char) (n t k) : (Regex.run (one a) ⟨n, a :: t, k⟩).head? = some ⟨n + 1, t, k⟩ := by
  rw [(single_one a).yes n a t k (by simp)]
  rfl

theorem take_all {p : Char → Bool} : ∀ {s : Str}, (∀ c ∈ s, p c = true) → ∀ r, (∀ c ∈ r.head?, p c = false) →
    (s ++ r).takeWhile p = s ∧ (s ++ r).dropWhile p = r
  | [], _, r, hr => by
    cases r with
    | nil => simp
    | cons c r => simp [hr c (by simp)]
  | d :: s, h, r, hr => by
    have := take_all (s := s) (fun c hc => h c (by simp [hc])) r hr
    simp [h d (by simp), this]

theorem head_star {r p} (h : Single r p) (s t : Str) (hs : ∀ c ∈ s, p c = true) (ht : ∀ c ∈ t.head?, p c = false) (n k) :
    (Regex.run (.rep 0 none r) ⟨n, s ++ t, k⟩).head? = some ⟨n + s.length, t, k⟩ := by
  have := (star_led' h (s ++ t) n k).head
  rwa [(take_all hs t ht).1, (take_all hs t ht).2] at this

theorem head_plus {r p} (h : Single r p) (s t : Str) (h0 : s ≠ []) (hs : ∀ c ∈ s, p c = true) (ht : ∀ c ∈ t.head?, p c = false) (n k) :
    (Regex.run (.rep 1 none r) ⟨n, s ++ t, k⟩).head? = some ⟨n + s.length, t, k⟩ := by
  have := (plus_led h (s ++ t) n k (by rw [(take_all hs t ht).1]; exact h0)).head
  rwa [(take_all hs t ht).1, (take_all hs t ht).2] at this

theorem css_match (n : ℕ) (key b w rest : Str) (hk0 : key ≠ []) (hk : '{' ∉ key) (hw : White w) (hb0 : b ≠ []) (hb : '}' ∉ b)
    (hb1 : ∀ c ∈ b.head?, c ∉ spaces) :
    ∃ m, matchAt reCss n (key ++ '{' :: (w ++ (b ++ '}' :: rest))) = some ⟨m, rest, [(2, b), (1, key)]⟩ := by
  unfold matchAt reCss reCss2
  refine ⟨n + key.length + 1 + w.length + b.length + 1, head_cat (head_grp (head_cat (head_plus single_notOpen key _ hk0 ?_ ?_ n []) rfl)) ?_⟩
  · intro c hc
    simp only [ne_eq, decide_eq_true_eq]
    rintro rfl; exact hk hc
  · simp
  refine head_cat (x := ⟨n + key.length, '{' :: (w ++ (b ++ '}' :: rest)), [(1, key)]⟩) ?_ ?_
  · have := head_star single_ws [] ('{' :: (w ++ (b ++ '}' :: rest))) (by simp) (by simp; decide) (n + key.length) [(1, key)]
    simpa [take_sub rfl] using this
  refine head_cat (head_one '{' _ _ _) ?_
  refine head_cat (head_star single_ws w _ (fun c hc => (Props.isWs_iff c).2 (hw c hc)) ?_ _ _) ?_
  · intro c hc
    obtain ⟨d, b', rfl⟩ := List.exists_cons_of_ne_nil hb0
    exact (notWs_iff c).2 (hb1 c (by simpa using hc))
  refine head_cat (head_grp (head_cat (head_plus single_notClose b _ hb0 ?_ ?_ _ _) rfl)) ?_
  · intro c hc
    simp only [ne_eq, decide_eq_true_eq]
    rintro rfl; exact hb hc
  · simp
  refine head_cat (x := ⟨n + key.length + 1 + w.length + b.length, '}' :: rest, [(2, b), (1, key)]⟩) ?_ ?_
  · have := head_star single_ws [] ('}' :: rest) (by simp) (by simp; decide) (n + key.length + 1 + w.length + b.length) [(2, b), (1, key)]
    simpa [take_sub rfl] using this
  exact head_cat (head_one '}' _ _ _) rfl

theorem css_no_match (n : ℕ) (s : Str) (h : '{' ∉ s) : matchAt reCss n s = none := by
  have key : ∀ st : St, '{' ∉ st.rest → Regex.run reCss2 st = [] := by
    intro st hst
    unfold reCss2
    rw [run_cat, List.flatMap_eq_nil_iff]
    intro q hq
    have h1 := (run_suffix _ _ q hq).subset
    rw [run_cat]
    have : Regex.run (one '{') q = [] := by
      obtain ⟨m, r, k⟩ := q
      cases r with
      | nil => exact (single_one '{').nil m k
      | cons c t =>
        refine (single_one '{').no m c t k ?_
        simp only [decide_eq_false_iff_not]
        rintro rfl
        exact hst (h1 (by simp))
    rw [this]; rfl
  unfold matchAt
  have : Regex.run reCss ⟨n, s, []⟩ = [] := by
    unfold reCss
    rw [run_cat, List.flatMap_eq_nil_iff]
    intro q hq
    exact key q fun hc => h ((run_suffix _ _ q hq).subset hc)
  rw [this]; rfl

theorem css_findall_none (s : Str) : ∀ (fuel n : ℕ), '{' ∉ s → findallAt reCss fuel n s = [] := by
  induction s with
  | nil =>
    intro fuel n h
    cases fuel with
    | zero => rfl
    | succ f => rw [findallAt, css_no_match n _ h]
  | cons c t ih =>
    intro fuel n h
    cases fuel with
    | zero => rfl
    | succ f =>
      rw [findallAt, css_no_match n _ h]
      exact ih f (n + 1) fun hc => h (by simp [hc])

end Svgio.Css
