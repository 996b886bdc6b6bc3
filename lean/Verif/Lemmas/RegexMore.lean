import Verif.Lemmas.RegexText
import Verif.Model.Transform
import Verif.Model.Dom
import Verif.Model.RegexLex

/-!
Lengths, transforms, hexadecimal colours, references and `findall`: the matchers of the model against the patterns.
-/

namespace Svgio.Regex

open Color (isWs skipWs lit litWord)
open Spec Lexer

variable {β : Type}

/-! ### `findall` -/

/-- a matcher of the model and a pattern agree at every place of a text -/
def Agree {α : Type} (f : List Char → Option (α × List Char)) (r : Re) (g : St → α) : Prop :=
  ∀ (n : ℕ) (s : List Char), f s = (matchAt r n s).map (fun q => (g q, q.rest))

theorem findAll_nil {α : Type} (f : List Char → Option (α × List Char)) (k : ℕ) : findAll f k [] = [] := by
  cases k <;> rfl

theorem findAll_skip {α : Type} (f : List Char → Option (α × List Char)) : ∀ (k : ℕ) (s : List Char),
    findAll f k s = findAll f 0 (s.drop k)
  | 0, s => rfl
  | k + 1, [] => by rw [findAll_nil, List.drop_nil, findAll_nil]
  | k + 1, c :: s => by
    rw [List.drop_succ_cons, ← findAll_skip f k s]
    rfl

/-- the rest after a match is an end of the text, and shorter -/
def Consumes (r : Re) : Prop := ∀ n s q, matchAt r n s = some q → ∃ t, t ≠ [] ∧ s = t ++ q.rest

theorem findAll_agree {α : Type} {f : List Char → Option (α × List Char)} {r : Re} {g : St → α} (h : Agree f r g)
    (hr : Consumes r) : ∀ (fuel n : ℕ) (s : List Char), s.length < fuel →
    findAll f 0 s = (findallAt r fuel n s).map g
  | 0, n, s, hf => by omega
  | fuel + 1, n, [], _ => by
    rw [findAll_nil]
    unfold findallAt
    cases hm : matchAt r n [] with
    | some q =>
      obtain ⟨t, ht, e⟩ := hr n [] q hm
      have := congrArg List.length e
      have := List.length_pos_iff.2 ht
      simp at *
      omega
    | none => rfl
  | fuel + 1, n, c :: s, hf => by
    rw [findAll, h n (c :: s), findallAt]
    cases hm : matchAt r n (c :: s) with
    | none =>
      simp only [Option.map_none]
      exact findAll_agree h hr fuel (n + 1) s (by simp at hf; omega)
    | some q =>
      obtain ⟨t, ht, e⟩ := hr n _ q hm
      simp only [Option.map_some, List.map_cons]
      rw [findAll_skip]
      have e1 : s.drop (s.length - q.rest.length) = q.rest := by
        cases t with
        | nil => exact absurd rfl ht
        | cons d t =>
          rw [List.cons_append, List.cons.injEq] at e
          rw [e.2]
          simp
      rw [e1]
      have hl : q.rest.length < fuel := by
        have := congrArg List.length e
        have := List.length_pos_iff.2 ht
        simp at *
        omega
      rw [findAll_agree h hr fuel q.pos q.rest hl]

/-- `findAll` of the model is `findall` -/
theorem findAll_findall {α : Type} {f : List Char → Option (α × List Char)} {r : Re} {g : St → α} (h : Agree f r g)
    (hr : Consumes r) (s : List Char) : findAll f 0 s = (findall r s).map g :=
  findAll_agree h hr _ _ s (by omega)

theorem repeated_suffix {f : St → List St} (hf : ∀ st, ∀ q ∈ f st, q.rest <:+ st.rest) :
    ∀ (fuel lo : ℕ) (hi : Option ℕ) (st : St), ∀ q ∈ repeated f fuel lo hi st, q.rest <:+ st.rest
  | 0, lo, hi, st, q, hq => by
    simp only [repeated, List.mem_singleton] at hq
    rw [hq]
  | fuel + 1, lo, hi, st, q, hq => by
    simp only [repeated] at hq
    have key : ∀ q ∈ ((f st).filter (fun q => q.rest.length < st.rest.length)).flatMap
        (repeated f fuel (lo - 1) (hi.map (· - 1))), q.rest <:+ st.rest := by
      intro q hq
      obtain ⟨y, hy, hq⟩ := List.mem_flatMap.1 hq
      exact (repeated_suffix hf fuel _ _ y q hq).trans (hf st y (List.mem_filter.1 hy).1)
    split at hq
    · rw [List.mem_singleton.1 hq]
    · split at hq
      · rcases List.mem_append.1 hq with hq | hq
        · exact key q hq
        · rw [List.mem_singleton.1 hq]
      · exact key q hq

theorem run_suffix : ∀ (r : Re) (st : St), ∀ q ∈ run r st, q.rest <:+ st.rest
  | .eps, st, q, hq => by rw [run, List.mem_singleton] at hq; rw [hq]
  | .set neg is, ⟨n, s, k⟩, q, hq => by
    cases s with
    | nil => simp [run] at hq
    | cons c t =>
      simp only [run] at hq
      split at hq
      · rw [List.mem_singleton] at hq; rw [hq]; exact List.suffix_cons c t
      · cases hq
  | .cat a b, st, q, hq => by
    obtain ⟨y, hy, hq⟩ := List.mem_flatMap.1 hq
    exact (run_suffix b y q hq).trans (run_suffix a st y hy)
  | .alt a b, st, q, hq => by
    rcases List.mem_append.1 hq with hq | hq
    · exact run_suffix a st q hq
    · exact run_suffix b st q hq
  | .rep lo hi r, st, q, hq => repeated_suffix (run_suffix r) _ _ _ _ q hq
  | .grp n r, st, q, hq => by
    obtain ⟨y, hy, rfl⟩ := List.mem_map.1 hq
    exact run_suffix r st y hy
  | .ahead r, st, q, hq => by
    rw [run] at hq
    split at hq
    · cases hq
    · rw [List.mem_singleton.1 hq]
  | .bol, st, q, hq => by
    rw [run] at hq
    split at hq
    · rw [List.mem_singleton.1 hq]
    · cases hq
  | .eol, st, q, hq => by
    rw [run] at hq
    split at hq
    · rw [List.mem_singleton.1 hq]
    · cases hq

/-- every match takes at least one character -/
def Eats (r : Re) : Prop := ∀ st, ∀ q ∈ run r st, q.rest.length < st.rest.length

theorem consumes_of_eats {r : Re} (h : Eats r) : Consumes r := by
  intro n s q hm
  have hq : q ∈ run r ⟨n, s, []⟩ := by
    unfold matchAt at hm
    cases hl : run r ⟨n, s, []⟩ with
    | nil => rw [hl] at hm; cases hm
    | cons a l => rw [hl] at hm; cases hm; simp
  obtain ⟨t, ht⟩ := run_suffix r _ q hq
  have hlt := h _ q hq
  refine ⟨t, ?_, ht.symm⟩
  rintro rfl
  simp only [List.nil_append] at ht
  rw [ht] at hlt
  exact absurd hlt (lt_irrefl _)

theorem eats_left {a b : Re} (h : Eats a) : Eats (.cat a b) := by
  intro st q hq
  obtain ⟨y, hy, hq⟩ := List.mem_flatMap.1 hq
  exact lt_of_le_of_lt (run_le b y q hq) (h st y hy)

theorem eats_right {a b : Re} (h : Eats b) : Eats (.cat a b) := by
  intro st q hq
  obtain ⟨y, hy, hq⟩ := List.mem_flatMap.1 hq
  exact lt_of_lt_of_le (h y q hq) (run_le a st y hy)

theorem eats_grp {n : ℕ} {a : Re} (h : Eats a) : Eats (.grp n a) := by
  intro st q hq
  obtain ⟨y, hy, rfl⟩ := List.mem_map.1 hq
  exact h st y hy

theorem eats_one (a : Char) : Eats (one a) := by
  rintro ⟨n, s, k⟩ q hq
  rw [single_one a n s k] at hq
  cases s with
  | nil => cases hq
  | cons c t =>
    simp only at hq
    split at hq
    · rw [List.mem_singleton] at hq; rw [hq]; simp
    · cases hq

theorem eats_float : Eats reFloat := by
  rintro ⟨n, s, k⟩ q hq
  -- a digit is always taken
  have hp : Eats (.rep 1 none reDig) := by
    rintro ⟨n, s, k⟩ q hq
    cases s with
    | nil => rw [plus_nil single_dig] at hq; cases hq
    | cons c t =>
      cases hc : isDig c with
      | false => rw [plus_no single_dig n c t k hc] at hq; cases hq
      | true =>
        rw [plus_yes single_dig n c t k hc] at hq
        have := run_le _ _ q hq
        simp only [List.length_cons] at this ⊢
        omega
  exact eats_right (a := .rep 0 (some 1) reSign) (eats_right (eats_right (eats_left hp))) _ q hq

/-! ### numbers -/

theorem float_agree : ∀ (n : ℕ) (s : List Char),
    matchFloat s = (matchAt reFloat n s).map (fun q => (s.take (s.length - q.rest.length), q.rest)) := by
  intro n s
  unfold matchAt
  cases hm : matchFloat s with
  | none => rw [(float_led n s []).1 hm]; rfl
  | some q =>
    obtain ⟨t, r⟩ := q
    rw [((float_led n s []).2 t r hm).head]
    simp only [Option.map_some, take_sub (matchFloat_sound hm).1]

/-! ### lengths -/

/-- `[A-Za-z%]` -/
def reUnitChar : Re := .set false [.range 'A' 'Z', .range 'a' 'z', .range '%' '%']

/-- constants.py:178 -/
def reLength : Re := .cat (.grp 1 reFloat) (.cat (.grp 2 (.cat (.rep 0 none reUnitChar) .eps)) .eps)

theorem length_eq : REGEX_LENGTH = some reLength := by decide +kernel

theorem single_unit : Single reUnitChar Len.isUnitChar := by
  apply single_set
  intro c
  simp only [test, Item.test, List.any_cons, List.any_nil, char_range, Len.isUnitChar]
  simp [Bool.or_assoc]

theorem length_match (n : ℕ) (s : List Char) : (matchAt reLength n s).map (fun q => ((q.group 1, q.group 2), q.rest))
    = (matchFloat s).map (fun m => ((some m.1, some (m.2.takeWhile Len.isUnitChar)), m.2.dropWhile Len.isUnitChar)) := by
  unfold matchAt
  rw [reLength, run_cat]
  cases hm : matchFloat s with
  | none =>
    rw [run, (float_led n s []).1 hm]
    rfl
  | some q =>
    obtain ⟨t, r⟩ := q
    obtain ⟨tl, e, _⟩ := float_grp_led 1 n s [] t r hm
    rw [e, List.flatMap_cons, run_cat_eps, run, run_cat_eps]
    obtain ⟨tl', e', _⟩ := star_led single_unit r (n + t.length) [(1, t)]
    rw [e', List.map_cons, List.cons_append, List.head?_cons]
    simp only [Option.map_some, St.after]
    rw [take_sub (List.takeWhile_append_dropWhile).symm]
    rfl

/-- the groups of the first match anywhere: `Len.searchLength` -/
theorem length_search : ∀ (s : List Char) (n fuel : ℕ), s.length < fuel → Len.searchLength s
    = (findallAt reLength fuel n s).head?.map (fun q => ((q.group 1).getD [], (q.group 2).getD []))
  | s, n, 0, h => by omega
  | [], n, fuel + 1, _ => by
    have := length_match n []
    rw [matchFloat_nil, Option.map_none, Option.map_eq_none_iff] at this
    rw [findallAt, this]
    rfl
  | c :: s, n, fuel + 1, h => by
    have hm := length_match n (c :: s)
    rw [Len.searchLength, findallAt]
    cases hf : matchFloat (c :: s) with
    | none =>
      rw [hf, Option.map_none, Option.map_eq_none_iff] at hm
      rw [hm]
      exact length_search s (n + 1) fuel (by simp at h; omega)
    | some q =>
      obtain ⟨t, r⟩ := q
      rw [hf] at hm
      cases hq : matchAt reLength n (c :: s) with
      | none => rw [hq] at hm; cases hm
      | some q =>
        rw [hq] at hm
        simp only [Option.map_some, Option.some.injEq, Prod.mk.injEq] at hm
        simp only [List.head?_cons, Option.map_some, hm.1.1, hm.1.2, Option.getD_some]

/-! ### transforms -/

/-- constants.py:117 -/
def reWsT : Re := .set false [.space, .range '\t' '\t', .range '\n' '\n']

theorem single_wsT : Single reWsT isWs := by
  apply single_set
  intro c
  simp only [test, Item.test, List.any_cons, List.any_nil, char_range]
  by_cases h1 : c = '\t'
  · subst h1; decide
  · by_cases h2 : c = '\n'
    · subst h2; decide
    · simp [h1, h2]

/-- one of several words -/
def words : List (List Char) → Re
  | [] => .eps
  | [w] => word w .eps
  | w :: u :: ws => .alt (word w .eps) (words (u :: ws))

/-- `[^)]` -/
def reBody : Re := .set true [.range ')' ')']

theorem single_body : Single reBody (fun c => decide (c ≠ ')')) := by
  apply single_set
  intro c
  simp only [test, Item.test, List.any_cons, List.any_nil, char_range]
  simp

/-- what follows the name, constants.py:159-161 -/
def reTail : Re := .cat (.rep 0 none reWsT) (.cat (one '(') (.cat (.grp 2 (.cat (.rep 1 none reBody) .eps)) (.cat (one ')') .eps)))

/-- constants.py:159-161 -/
def reTemplate : Re := .cat .eps (.cat (.grp 1 (words Transform.names)) reTail)

theorem template_eq : REGEX_TRANSFORM_TEMPLATE = some reTemplate := by decide +kernel

theorem litWord_append : ∀ (w s t : List Char), litWord w s = some t → s = w ++ t
  | [], s, t, h => by simpa [litWord] using h
  | c :: w, s, t, h => by
    cases s with
    | nil => simp [litWord, lit] at h
    | cons d s =>
      simp only [litWord, lit] at h
      by_cases hd : d = c
      · subst hd
        simp only [if_true, Option.bind_some] at h
        rw [litWord_append w s t h]
        rfl
      · simp [hd] at h

/-- one of several words in a group -/
theorem first_words (i : ℕ) (K : St → Option β) (n s k) : ∀ ws : List (List Char), ws ≠ [] →
    first (.grp i (words ws)) K ⟨n, s, k⟩ = ws.findSome? (fun w =>
      match litWord w s with
      | none => none
      | some t => K ⟨n + w.length, t, (i, w) :: k⟩) := by
  have one : ∀ w, first (.grp i (word w .eps)) K ⟨n, s, k⟩ =
      match litWord w s with
      | none => none
      | some t => K ⟨n + w.length, t, (i, w) :: k⟩ := by
    intro w
    have := first_word .eps (fun q => K { q with caps := (i, s.take (s.length - q.rest.length)) :: q.caps }) k w n s
    rw [first] at this ⊢
    rw [run, List.findSome?_map]
    refine Eq.trans this ?_
    cases h : litWord w s with
    | none => rfl
    | some t =>
      simp only [first_eps]
      rw [take_sub (litWord_append w s t h)]
  intro ws hw
  induction ws with
  | nil => exact absurd rfl hw
  | cons w ws ih =>
    cases ws with
    | nil =>
      rw [words, one w]
      simp only [List.findSome?_cons, List.findSome?_nil]
      cases litWord w s with
      | none => rfl
      | some t =>
        simp only
        cases K ⟨n + w.length, t, (i, w) :: k⟩ <;> rfl
    | cons u ws =>
      have ih := ih (by simp)
      rw [List.findSome?_cons, ← ih, ← one w]
      simp only [words, first, run, List.map_append, List.findSome?_append]
      cases List.findSome? K (List.map _ (run (word w .eps) ⟨n, s, k⟩)) <;> rfl

/-- what follows the name: `Transform.matchBody` -/
theorem first_tail (K : St → Option β) (n s k) : ∃ n' : ℕ, first reTail K ⟨n, s, k⟩ =
    match Transform.matchBody s with
    | none => none
    | some (b, r) => K ⟨n', r, (2, b) :: k⟩ := by
  rw [reTail, first_cat, first_star single_wsT]
  swap
  · exact stuck_one _ _ _ _ (by decide)
  rw [first_cat, first_one]
  unfold Transform.matchBody
  rw [show s.dropWhile isWs = skipWs s from rfl]
  generalize n + (s.takeWhile isWs).length = n'
  cases lit '(' (skipWs s) with
  | none => exact ⟨0, rfl⟩
  | some r =>
    simp only
    rw [first_cat]
    have e : first (.grp 2 (.cat (.rep 1 none reBody) .eps)) (first (.cat (one ')') .eps) K) ⟨n' + 1, r, k⟩
        = first (.rep 1 none reBody) (fun q => first (.cat (one ')') .eps) K
            { q with caps := (2, r.take (r.length - q.rest.length)) :: q.caps }) ⟨n' + 1, r, k⟩ := by
      rw [first, run, List.findSome?_map, run_cat_eps]
      rfl
    rw [e, first_plus single_body]
    swap
    · rintro ⟨a, b, c⟩ ⟨d, t, rfl, hd⟩
      exact stuck_one (fun c => c ≠ ')') _ _ _ (by simp) ⟨a, d :: t, _⟩ ⟨d, t, rfl, by simpa using hd⟩
    have hb : (fun c => decide (c ≠ ')')) = (fun c : Char => decide (¬ c = ')')) := rfl
    by_cases h : r.takeWhile (fun c => decide (c ≠ ')')) = []
    · rw [if_pos h, if_pos h]
      exact ⟨0, rfl⟩
    · rw [if_neg h, if_neg h]
      simp only [first_close]
      rw [take_sub (List.takeWhile_append_dropWhile).symm]
      cases hd : r.dropWhile (fun c => decide (c ≠ ')')) with
      | nil => exact ⟨0, rfl⟩
      | cons d t =>
        have := List.head?_dropWhile_not (fun c => decide (c ≠ ')')) r
        rw [hd] at this
        simp only [List.head?_cons, decide_not, Bool.not_eq_eq_eq_not, Bool.not_false, decide_eq_true_eq] at this
        rw [lit_cons, if_pos (by simpa using this)]
        exact ⟨_, rfl⟩

/-- the model's matcher of a transform function is the pattern -/
theorem template_match (n : ℕ) (s : List Char) :
    Transform.matchTemplate s = (matchAt reTemplate n s).map (fun q => (((q.group 1).getD [], (q.group 2).getD []), q.rest)) := by
  rw [matchAt_first, first_map, reTemplate, first_cat, first_eps, first_cat, first_words _ _ _ _ _ _ (by decide)]
  unfold Transform.matchTemplate
  congr 1
  funext w
  cases litWord w s with
  | none => rfl
  | some t =>
    simp only
    obtain ⟨n', e⟩ := first_tail (fun q => (some q).map (fun q => (((q.group 1).getD [], (q.group 2).getD []), q.rest)))
      (n + w.length) t [(1, w)]
    rw [e]
    cases Transform.matchBody t with
    | none => rfl
    | some b => rfl

/-- constants.py:162-164 -/
def reParam : Re := .cat (.grp 1 reFloat) (.cat (.rep 0 none reWsT) (.cat (.rep 0 (some 1) (.grp 2 (words Transform.units))) .eps))

theorem param_eq : REGEX_TRANSFORM_PARAMETER = some reParam := by decide +kernel


theorem eats_word (c : Char) (w : List Char) (r : Re) : Eats (word (c :: w) r) := eats_left (eats_one c)

theorem eats_words : ∀ ws : List (List Char), ws ≠ [] → (∀ w ∈ ws, w ≠ []) → Eats (words ws)
  | [], h, _ => absurd rfl h
  | [w], _, hw => by
    cases w with
    | nil => exact absurd rfl (hw [] (by simp))
    | cons c w => exact eats_word c w _
  | w :: u :: ws, _, hw => by
    intro st q hq
    rcases List.mem_append.1 hq with hq | hq
    · cases w with
      | nil => exact absurd rfl (hw [] (by simp))
      | cons c w => exact eats_word c w _ st q hq
    · exact eats_words (u :: ws) (by simp) (fun w h => hw w (List.mem_cons_of_mem _ h)) st q hq

theorem first_opt_eats {g : Re} (hg : Eats g) (K : St → Option β) (st : St) :
    first (.rep 0 (some 1) g) K st = (first g K st).or (K st) := by
  have : (run g st).filter (fun q => q.rest.length < st.rest.length) = run g st := by
    rw [List.filter_eq_self]
    intro q hq
    simpa using hg st q hq
  rw [first, opt_run, this, List.findSome?_append, first]
  congr 1
  simp only [List.findSome?_cons, List.findSome?_nil]
  cases K st <;> rfl

theorem eats_units : Eats (.grp 2 (words Transform.units)) :=
  eats_grp (eats_words _ (by decide) (by decide))

/-- the model's matcher of a parameter is the pattern -/
theorem param_match (n : ℕ) (s : List Char) :
    Transform.matchParam s = (matchAt reParam n s).map (fun q => ((q.group 1).getD [] ++ (q.group 2).getD [], q.rest)) := by
  rw [matchAt_first, first_map, reParam, first_cat]
  simp only [Option.map_some]
  generalize hK : (fun q : St => some ((q.group 1).getD [] ++ (q.group 2).getD [], q.rest)) = K
  have hK1 : ∀ q, K q ≠ none := by intro q; rw [← hK]; simp
  have ho : ∀ q, first (.cat (.rep 0 (some 1) (.grp 2 (words Transform.units))) .eps) K q
      = (first (.grp 2 (words Transform.units)) K q).or (K q) := by
    intro q
    rw [first_cat, first_eps', first_opt_eats eats_units]
  have ho1 : ∀ q, first (.cat (.rep 0 (some 1) (.grp 2 (words Transform.units))) .eps) K q ≠ none := by
    intro q
    rw [ho]
    intro h
    rw [Option.or_eq_none_iff] at h
    exact hK1 q h.2
  have hs : ∀ n s k, first (.cat (.rep 0 none reWsT) (.cat (.rep 0 (some 1) (.grp 2 (words Transform.units))) .eps)) K ⟨n, s, k⟩
      = first (.cat (.rep 0 (some 1) (.grp 2 (words Transform.units))) .eps) K
          ⟨n + (s.takeWhile isWs).length, skipWs s, k⟩ := by
    intro n s k
    rw [first_cat, first_star_all single_wsT _ _ _ _ ho1]
    rfl
  rw [first_float]
  swap
  · left
    rintro ⟨a, b, c⟩
    rw [hs]
    exact ho1 _
  unfold Transform.matchParam
  cases matchFloat s with
  | none => rfl
  | some q =>
    obtain ⟨t, r⟩ := q
    simp only
    rw [hs, ho, first_words _ _ _ _ _ _ (by decide)]
    generalize n + t.length + (r.takeWhile isWs).length = n'
    have key : ∀ ws : List (List Char), (match ws.findSome? (fun u => (litWord u (skipWs r)).map (fun rest => (u, rest))) with
        | some (u, rest) => some (t ++ u, rest)
        | none => some (t, skipWs r))
        = (ws.findSome? (fun w => match litWord w (skipWs r) with
          | none => none
          | some t_1 => K ⟨n' + w.length, t_1, (2, w) :: (1, t) :: []⟩)).or (K ⟨n', skipWs r, [(1, t)]⟩) := by
      intro ws
      induction ws with
      | nil =>
        subst hK
        simp [St.group]
      | cons w ws ih =>
        rw [List.findSome?_cons, List.findSome?_cons]
        cases litWord w (skipWs r) with
        | none => exact ih
        | some u => subst hK; rfl
    exact key Transform.units

theorem eats_template : Eats reTemplate :=
  eats_right (eats_left (eats_grp (eats_words _ (by decide) (by decide))))

theorem eats_param : Eats reParam := eats_left (eats_grp eats_float)

/-! ### hexadecimal colours -/

/-- `[0-9A-Fa-f]` -/
def reHexDigit : Re := .set false [.range '0' '9', .range 'A' 'F', .range 'a' 'f']

/-- constants.py:165 -/
def reHex : Re := .cat .bol (.cat (.rep 0 (some 1) (one '#')) (.cat (.grp 1 (.cat (.rep 3 (some 8) reHexDigit) .eps)) (.cat .eol .eps)))

theorem hex_eq : REGEX_COLOR_HEX = some reHex := by decide +kernel

theorem single_hex : Single reHexDigit Color.isHex := by
  apply single_set
  intro c
  simp only [test, Item.test, List.any_cons, List.any_nil, Color.isHex]
  cases (decide ('0' ≤ c) && decide (c ≤ '9')) <;> cases (decide ('A' ≤ c) && decide (c ≤ 'F')) <;>
    cases (decide ('a' ≤ c) && decide (c ≤ 'f')) <;> rfl

theorem rep_mem {r p} (h : Single r p) : ∀ (fuel lo hi n : ℕ) (s : List Char) (k) (q : St), lo ≤ hi →
    lo + s.length ≤ fuel → (q ∈ repeated (run r) fuel lo (some hi) ⟨n, s, k⟩ ↔
      ∃ j, lo ≤ j ∧ j ≤ hi ∧ j ≤ (s.takeWhile p).length ∧ q = ⟨n + j, s.drop j, k⟩)
  | 0, lo, hi, n, s, k, q, hl, hf => by
    have h1 : lo = 0 := by omega
    have h2 : s = [] := List.length_eq_zero_iff.1 (by omega)
    subst h1 h2
    simp only [repeated, List.mem_singleton, List.takeWhile_nil, List.length_nil]
    constructor
    · rintro rfl
      exact ⟨0, le_refl _, hl, le_refl _, rfl⟩
    · rintro ⟨j, _, _, hj, rfl⟩
      obtain rfl : j = 0 := by omega
      rfl
  | fuel + 1, lo, hi, n, s, k, q, hl, hf => by
    have z : ((∃ j, lo ≤ j ∧ j ≤ hi ∧ j ≤ (s.takeWhile p).length ∧ q = ⟨n + j, s.drop j, k⟩) ↔
        (lo = 0 ∧ q = ⟨n, s, k⟩) ∨ ∃ j, lo ≤ j + 1 ∧ j + 1 ≤ hi ∧ j + 1 ≤ (s.takeWhile p).length ∧
          q = ⟨n + (j + 1), s.drop (j + 1), k⟩) := by
      constructor
      · rintro ⟨j, h1, h2, h3, rfl⟩
        cases j with
        | zero => exact Or.inl ⟨by omega, rfl⟩
        | succ j => exact Or.inr ⟨j, h1, h2, h3, rfl⟩
      · rintro (⟨h1, rfl⟩ | ⟨j, h1, h2, h3, rfl⟩)
        · exact ⟨0, by omega, by omega, by omega, rfl⟩
        · exact ⟨j + 1, h1, h2, h3, rfl⟩
    rw [z]
    unfold repeated
    by_cases hh : hi = 0
    · subst hh
      rw [if_pos rfl, List.mem_singleton]
      constructor
      · rintro rfl
        exact Or.inl ⟨by omega, rfl⟩
      · rintro (⟨_, rfl⟩ | ⟨j, _, h2, _⟩)
        · rfl
        · omega
    · rw [if_neg (by simpa using hh)]
      have more : q ∈ ((run r ⟨n, s, k⟩).filter (fun q => q.rest.length < s.length)).flatMap
          (repeated (run r) fuel (lo - 1) ((some hi).map (· - 1))) ↔
          ∃ j, lo ≤ j + 1 ∧ j + 1 ≤ hi ∧ j + 1 ≤ (s.takeWhile p).length ∧ q = ⟨n + (j + 1), s.drop (j + 1), k⟩ := by
        cases s with
        | nil => simp [h.nil]
        | cons c t =>
          cases hc : p c with
          | false => simp [h.no n c t k hc, hc]
          | true =>
            rw [h.yes n c t k hc]
            have hlen : decide (t.length < (c :: t).length) = true := by simp
            rw [List.filter_cons_of_pos (by simpa using hlen), List.filter_nil, List.flatMap_cons, List.flatMap_nil,
              List.append_nil, Option.map_some,
              rep_mem h fuel (lo - 1) (hi - 1) (n + 1) t k q (by omega) (by simp at hf; omega)]
            constructor
            · rintro ⟨j, h1, h2, h3, rfl⟩
              refine ⟨j, by omega, by omega, by simp [hc]; omega, ?_⟩
              simp; omega
            · rintro ⟨j, h1, h2, h3, rfl⟩
              refine ⟨j, by omega, by omega, by simp [hc] at h3; omega, ?_⟩
              simp; omega
      by_cases hlo : lo = 0
      · rw [if_pos hlo, List.mem_append, List.mem_singleton, more]
        constructor
        · rintro (h | h)
          · exact Or.inr h
          · exact Or.inl ⟨hlo, h⟩
        · rintro (h | h)
          · exact Or.inr h.2
          · exact Or.inl h
      · rw [if_neg hlo, more]
        constructor
        · exact Or.inr
        · rintro (h | h)
          · exact absurd h.1 hlo
          · exact h

theorem matchAt_isSome (r : Re) (n s) : (matchAt r n s).isSome = true ↔ ∃ q, q ∈ run r ⟨n, s, []⟩ := by
  unfold matchAt
  cases run r ⟨n, s, []⟩ with
  | nil => simp
  | cons a l => simp

/-- hexadecimal digits up to the end of the line -/
theorem hex_tail (n s k) : (∃ q, q ∈ run (.cat (.grp 1 (.cat (.rep 3 (some 8) reHexDigit) .eps)) (.cat .eol .eps)) ⟨n, s, k⟩) ↔
    3 ≤ (s.takeWhile Color.isHex).length ∧ (s.takeWhile Color.isHex).length ≤ 8 ∧
      (s.dropWhile Color.isHex = [] ∨ s.dropWhile Color.isHex = ['\n']) := by
  have e : ∀ q : St, q ∈ run (.cat .eol .eps) q ↔ (q.rest = [] ∨ q.rest = ['\n']) := by
    intro q
    rw [run_cat_eps, run]
    split
    · rename_i h; simp [h]
    · rename_i h; simp [h]
  have hdrop : ∀ j, j ≤ (s.takeWhile Color.isHex).length → (s.drop j = [] ∨ s.drop j = ['\n']) →
      j = (s.takeWhile Color.isHex).length := by
    intro j hj hd
    by_contra hne
    have e0 := List.takeWhile_append_dropWhile (p := Color.isHex) (l := s)
    have e1 : s.drop j = (s.takeWhile Color.isHex).drop j ++ s.dropWhile Color.isHex := by
      conv_lhs => rw [← e0]
      rw [List.drop_append_of_le_length hj]
    cases hx : (s.takeWhile Color.isHex).drop j with
    | nil =>
      have := congrArg List.length hx
      simp at this
      omega
    | cons c u =>
      have hc : Color.isHex c = true := by
        have : c ∈ s.takeWhile Color.isHex := List.mem_of_mem_drop (by rw [hx]; simp)
        exact List.all_eq_true.1 (List.all_takeWhile (p := Color.isHex) (l := s)) c this
      rw [e1, hx] at hd
      rcases hd with hd | hd
      · simp at hd
      · simp only [List.cons_append, List.cons.injEq] at hd
        rw [hd.1] at hc
        exact absurd hc (by decide)
  have hw : s.drop (s.takeWhile Color.isHex).length = s.dropWhile Color.isHex := by
    have := List.drop_left (l₁ := s.takeWhile Color.isHex) (l₂ := s.dropWhile Color.isHex)
    rwa [List.takeWhile_append_dropWhile] at this
  constructor
  · rintro ⟨q, hq⟩
    obtain ⟨y, hy, hq⟩ := List.mem_flatMap.1 hq
    obtain ⟨x, hx, rfl⟩ := List.mem_map.1 hy
    rw [run_cat_eps] at hx
    obtain ⟨j, h1, h2, h3, rfl⟩ := (rep_mem single_hex _ 3 8 n s k x (by omega) (le_refl _)).1 hx
    rw [run_cat_eps, run] at hq
    split at hq
    · rename_i hr
      have := hdrop j h3 hr
      subst this
      rw [← hw]
      exact ⟨h1, h2, hr⟩
    · cases hq
  · rintro ⟨h1, h2, h3⟩
    refine ⟨_, List.mem_flatMap.2 ⟨_, List.mem_map.2
      ⟨⟨n + (s.takeWhile Color.isHex).length, s.drop (s.takeWhile Color.isHex).length, k⟩, ?_, rfl⟩, (e _).2 ?_⟩⟩
    · rw [run_cat_eps]
      exact (rep_mem single_hex _ 3 8 n s k _ (by omega) (le_refl _)).2 ⟨_, h1, h2, le_refl _, rfl⟩
    · simp only [hw]
      exact h3

/-- the model's test for hexadecimal colours is the pattern -/
theorem hex_match (s : List Char) : Color.matchHex s = (matchAt reHex 0 s).isSome := by
  rw [Bool.eq_iff_iff, matchAt_isSome, reHex]
  have h0 : ∀ r : Re, run (.cat .bol r) ⟨0, s, []⟩ = run r ⟨0, s, []⟩ := by
    intro r
    simp [run_cat, run]
  rw [h0]
  unfold Color.matchHex
  simp only [Bool.and_eq_true, Bool.or_eq_true, decide_eq_true_eq]
  cases s with
  | nil =>
    simp only [Color.optHash]
    rw [run_cat, opt_nil (single_one '#'), List.flatMap_cons, List.flatMap_nil, List.append_nil, hex_tail]
    rw [and_assoc]
  | cons c t =>
    by_cases hc : c = '#'
    · subst hc
      simp only [Color.optHash, if_true]
      rw [run_cat, opt_yes (single_one '#') _ _ _ _ (by simp)]
      simp only [List.flatMap_cons, List.flatMap_nil, List.append_nil, List.mem_append]
      rw [and_assoc, ← hex_tail (0 + 1) t []]
      constructor
      · rintro ⟨q, h⟩
        exact ⟨q, Or.inl h⟩
      · rintro ⟨q, h | h⟩
        · exact ⟨q, h⟩
        · have := (hex_tail 0 ('#' :: t) []).1 ⟨q, h⟩
          have h1 := this.1
          rw [List.takeWhile_cons] at h1
          simp [show Color.isHex '#' = false by decide] at h1
    · simp only [Color.optHash, hc, if_false]
      rw [run_cat, opt_no (single_one '#') _ _ _ _ (by simp [hc]), List.flatMap_cons, List.flatMap_nil, List.append_nil,
        hex_tail, and_assoc]


/-! ### references -/

/-- constants.py:154 -/
def reIri : Re :=
  word "url(".toList (.cat (.rep 0 (some 1) (one '#')) (.cat (.grp 1 (.cat (.rep 0 none dot) .eps)) (.cat (one ')') .eps)))

theorem iri_eq : REGEX_IRI = some reIri := by decide +kernel

theorem single_dot : Single dot (fun c => decide (c ≠ '\n')) := by
  apply single_set
  intro c
  simp only [test, Item.test, List.any_cons, List.any_nil, char_range]
  simp

theorem upToClose_nl (t : List Char) : Dom.upToClose ('\n' :: t) = none := rfl

theorem upToClose_cons (c : Char) (t : List Char) (hc : c ≠ '\n') : Dom.upToClose (c :: t) =
    ((Dom.upToClose t).map (c :: ·)).or (if c = ')' then some [] else none) := by
  unfold Dom.upToClose
  simp only [List.takeWhile_cons, hc, ne_eq, not_false_eq_true, decide_true, if_true, List.reverse_cons]
  rw [List.dropWhile_append]
  cases h : List.dropWhile (fun x => decide ¬x = ')') (List.takeWhile (fun x => decide ¬x = '\n') t).reverse with
  | nil =>
    by_cases h2 : c = ')'
    · subst h2; simp
    · simp [h2]
  | cons d u => simp

/-- `(.*)\)`: the group is the longest beginning of the line before a closing parenthesis -/
theorem star_close (s0 : List Char) : ∀ (s pre : List Char) (n : ℕ) (k), s0 = pre ++ s →
    first (.rep 0 none dot) (fun q => first (.cat (one ')') .eps) (fun q => some (q.group 1))
        { q with caps := (1, s0.take (s0.length - q.rest.length)) :: q.caps }) ⟨n, s, k⟩
      = (Dom.upToClose s).map (fun x => some (pre ++ x))
  | [], pre, n, k, _ => by
    rw [first, star_nil]
    simp only [List.findSome?_cons, List.findSome?_nil, first_close]
    rfl
  | c :: t, pre, n, k, h0 => by
    have hthis : ∀ m k', first (.cat (one ')') .eps) (fun q => some (q.group 1))
        ⟨m, c :: t, (1, s0.take (s0.length - (c :: t).length)) :: k'⟩ = if c = ')' then some (some pre) else none := by
      intro m k'
      rw [first_close, lit_cons, take_sub h0]
      by_cases hc : c = ')'
      · simp [hc, St.group]
      · simp [hc]
    by_cases hn : c = '\n'
    · subst hn
      rw [first, star_no single_dot n '\n' t k (by simp)]
      simp only [List.findSome?_cons, List.findSome?_nil]
      rw [hthis, if_neg (by decide), upToClose_nl]
      rfl
    · rw [first, star_yes single_dot n c t k (by simp [hn]), List.findSome?_append]
      have ih := star_close s0 t (pre ++ [c]) (n + 1) k (by rw [h0]; simp)
      rw [first] at ih
      rw [ih]
      simp only [List.findSome?_cons, List.findSome?_nil]
      rw [hthis, upToClose_cons c t hn]
      cases Dom.upToClose t with
      | none =>
        by_cases hc : c = ')'
        · simp [hc]
        · simp [hc]
      | some x => simp

theorem iri_tail (n s k) : first (.cat (.grp 1 (.cat (.rep 0 none dot) .eps)) (.cat (one ')') .eps))
    (fun q => some (q.group 1)) ⟨n, s, k⟩ = (Dom.upToClose s).map some := by
  have := star_close s s [] n k rfl
  simp only [List.nil_append] at this
  rw [← this, first_cat, first, run, List.findSome?_map, run_cat_eps]
  rfl

theorem isPrefixOf_litWord : ∀ (w s : List Char), (w.isPrefixOf s = true → litWord w s = some (s.drop w.length)) ∧
    (w.isPrefixOf s = false → litWord w s = none)
  | [], s => ⟨fun _ => rfl, fun h => by simp at h⟩
  | c :: w, [] => ⟨fun h => by simp at h, fun _ => rfl⟩
  | c :: w, d :: s => by
    obtain ⟨h1, h2⟩ := isPrefixOf_litWord w s
    by_cases hd : d = c
    · subst hd
      constructor
      · intro h
        simp only [List.isPrefixOf, beq_self_eq_true, Bool.true_and] at h
        simp [litWord, lit, h1 h]
      · intro h
        simp only [List.isPrefixOf, beq_self_eq_true, Bool.true_and] at h
        simp [litWord, lit, h2 h]
    · constructor
      · intro h
        simp only [List.isPrefixOf, Bool.and_eq_true, beq_iff_eq] at h
        exact absurd h.1.symm hd
      · intro _
        simp [litWord, lit, hd]

/-- a match of `url(..)` here -/
theorem iri_match (n : ℕ) (s : List Char) : (matchAt reIri n s).map (fun q => q.group 1) =
    if "url(".toList.isPrefixOf s then
      (Dom.upToClose (if (s.drop 4).head? = some '#' then (s.drop 4).tail else s.drop 4)).map some
    else none := by
  rw [matchAt_first, first_map]
  simp only [Option.map_some]
  rw [reIri, first_word]
  obtain ⟨h1, h2⟩ := isPrefixOf_litWord "url(".toList s
  cases hp : "url(".toList.isPrefixOf s with
  | false => rw [h2 hp]; rfl
  | true =>
    rw [h1 hp, show "url(".toList.length = 4 from rfl]
    simp only [if_true]
    rw [first_cat]
    generalize s.drop 4 = t
    rw [first_opt (single_one '#')]
    cases t with
    | nil => rw [iri_tail]; rfl
    | cons c t =>
      by_cases hc : c = '#'
      · subst hc
        simp only [decide_true, if_true, List.head?_cons, List.tail_cons]
        rw [iri_tail, iri_tail, upToClose_cons _ _ (by decide)]
        cases Dom.upToClose t <;> rfl
      · simp only [hc, decide_false, Bool.false_eq_true, if_false, List.head?_cons, Option.some.injEq]
        rw [iri_tail]

/-- the first reference anywhere: `Dom.findIri` -/
theorem iri_find : ∀ (s : List Char) (n fuel : ℕ), s.length < fuel →
    Dom.findIri s = (findallAt reIri fuel n s).head?.bind (fun q => q.group 1)
  | s, n, 0, h => by omega
  | [], n, fuel + 1, _ => by
    have := iri_match n []
    rw [if_neg (by decide), Option.map_eq_none_iff] at this
    rw [findallAt, this]
    rfl
  | c :: s, n, fuel + 1, h => by
    have hm := iri_match n (c :: s)
    rw [Dom.findIri, findallAt]
    have ih := iri_find s (n + 1) fuel (by simp at h; omega)
    simp only
    cases hp : "url(".toList.isPrefixOf (c :: s) with
    | false =>
      rw [hp, if_neg (by simp), Option.map_eq_none_iff] at hm
      rw [hm, if_neg (by simp)]
      exact ih
    | true =>
      rw [hp, if_pos rfl] at hm
      rw [if_pos rfl]
      cases hu : Dom.upToClose (if (List.drop 4 (c :: s)).head? = some '#' then (List.drop 4 (c :: s)).tail
          else List.drop 4 (c :: s)) with
      | none =>
        rw [hu, Option.map_none, Option.map_eq_none_iff] at hm
        rw [hm]
        exact ih
      | some x =>
        rw [hu] at hm
        cases hq : matchAt reIri n (c :: s) with
        | none => rw [hq] at hm; cases hm
        | some q =>
          rw [hq] at hm
          simp only [Option.map_some, Option.some.injEq] at hm
          simp only [List.head?_cons, Option.bind_some, hm]

/-! ### path data -/

/-- constants.py:184 -/
def reCmd : Re := .set false ("MmZzLlHhVvCcSsQqTtAa".toList.map (fun c => .range c c))
/-- constants.py:119, one character -/
def reSep : Re := .set false [.range ' ' ' ', .range ',' ',', .range '\t' '\t', .range '\n' '\n', .range '\t' '\t', .range '\n' '\n',
  .range '\x0c' '\x0c', .range '\r' '\r']
/-- constants.py:186 -/
def reZ : Re := .set false [.range 'Z' 'Z', .range 'z' 'z']
/-- constants.py:188 -/
def reFlag : Re := .set false [.range '0' '0', .range '1' '1']
/-- a group -/
def part (i : ℕ) (r : Re) : Re := .cat (.grp i (.cat r .eps)) .eps

theorem svg_eq : svg_re = some (.alt (part 1 reCmd) (part 2 (.rep 1 none reSep))) := by decide +kernel
theorem num_eq : num_re = some (.alt (.cat (.grp 1 reFloat) .eps) (.alt (part 2 reZ) (part 3 (.rep 1 none reSep)))) := by decide +kernel
theorem flag_eq : flag_re = some (.alt (part 1 reFlag) (part 2 (.rep 1 none reSep))) := by decide +kernel

theorem single_cmd : Single reCmd isCmd := by
  apply single_set
  intro c
  simp only [test, isCmd, bne, List.any_map, List.contains_eq_any_beq]
  rw [show (false == List.any "MmZzLlHhVvCcSsQqTtAa".toList (Item.test c ∘ fun c => Item.range c c))
    = !List.any "MmZzLlHhVvCcSsQqTtAa".toList (Item.test c ∘ fun c => Item.range c c) by
      cases List.any "MmZzLlHhVvCcSsQqTtAa".toList (Item.test c ∘ fun c => Item.range c c) <;> rfl, Bool.not_not]
  congr 1
  funext d
  simp only [Function.comp, Item.test, char_range]
  rfl

theorem single_sep : Single reSep isSep := by
  apply single_set
  intro c
  simp only [test, Item.test, List.any_cons, List.any_nil, char_range, isSep]
  by_cases h1 : c = '\t'
  · subst h1; decide
  · by_cases h2 : c = '\n'
    · subst h2; decide
    · simp [h1, h2, Bool.or_assoc]

theorem single_z : Single reZ isZ := by
  apply single_set
  intro c
  simp only [test, Item.test, List.any_cons, List.any_nil, char_range, isZ]
  simp [Bool.or_comm]

theorem single_flag : Single reFlag (fun c => decide (c = '0') || decide (c = '1')) := by
  apply single_set
  intro c
  simp only [test, Item.test, List.any_cons, List.any_nil, char_range]
  simp

theorem part_single {r p} (h : Single r p) (i n s) : (run (part i r) ⟨n, s, []⟩).head? =
    match s with
    | [] => none
    | c :: t => if p c then some ⟨n + 1, t, [(i, [c])]⟩ else none := by
  rw [part, run_cat_eps, run, run_cat_eps, h n s []]
  cases s with
  | nil => rfl
  | cons c t =>
    cases hc : p c with
    | false => simp [hc]
    | true => simp [hc]

theorem part_plus {r p} (h : Single r p) (i n s) : (run (part i (.rep 1 none r)) ⟨n, s, []⟩).head? =
    if s.takeWhile p = [] then none
    else some ⟨n + (s.takeWhile p).length, s.dropWhile p, [(i, s.takeWhile p)]⟩ := by
  rw [part, run_cat_eps, run, run_cat_eps]
  by_cases hs : s.takeWhile p = []
  · rw [plus_none h s n [] hs, if_pos hs]; rfl
  · obtain ⟨tl, e, _⟩ := plus_led h s n [] hs
    rw [e, if_neg hs, List.map_cons, List.head?_cons]
    simp only [St.after]
    rw [take_sub (List.takeWhile_append_dropWhile).symm]

theorem matchAt_alt (a b : Re) (n s) : matchAt (.alt a b) n s = (run a ⟨n, s, []⟩).head?.or (run b ⟨n, s, []⟩).head? := by
  rw [matchAt, run_alt, List.head?_append]


theorem skip_skip (s : List Char) : skip (skip s) = skip s := by
  unfold skip
  induction s with
  | nil => rfl
  | cons c t ih =>
    cases hc : isSep c with
    | true => simp only [List.dropWhile_cons, hc, if_true]; exact ih
    | false => simp [List.dropWhile_cons, hc]

theorem skip_len (c : Char) (t : List Char) (hc : isSep c = true) : (skip (c :: t)).length < (c :: t).length := by
  unfold skip
  simp only [List.dropWhile_cons, hc, if_true, List.length_cons]
  have := (List.dropWhile_suffix isSep (l := t)).length_le
  omega

theorem skip_no (c : Char) (t : List Char) (hc : isSep c = false) : skip (c :: t) = c :: t := by
  simp [skip, List.dropWhile_cons, hc]

theorem sep_not_cmd (c : Char) (h : isSep c = true) : isCmd c = false := by
  simp only [isSep, Bool.or_eq_true, decide_eq_true_eq] at h
  rcases h with ((((rfl | rfl) | rfl) | rfl) | rfl) | rfl <;> decide

theorem sep_not_z (c : Char) (h : isSep c = true) : isZ c = false := by
  simp only [isSep, Bool.or_eq_true, decide_eq_true_eq] at h
  rcases h with ((((rfl | rfl) | rfl) | rfl) | rfl) | rfl <;> decide

theorem sep_not_flag (c : Char) (h : isSep c = true) : c ≠ '0' ∧ c ≠ '1' := by
  simp only [isSep, Bool.or_eq_true, decide_eq_true_eq] at h
  rcases h with ((((rfl | rfl) | rfl) | rfl) | rfl) | rfl <;> decide

theorem sep_not_num (c : Char) (t : List Char) (h : isSep c = true) : matchFloat (c :: t) = none := by
  apply matchFloat_cons_none
  simp only [isSep, Bool.or_eq_true, decide_eq_true_eq] at h
  unfold IsDigit
  rcases h with ((((rfl | rfl) | rfl) | rfl) | rfl) | rfl <;> decide

/-- a match of `svg_re` or of `flag_re` -/
theorem two_match {r p} (h : Single r p) (c : Char) (t : List Char) :
    matchAt (.alt (part 1 r) (part 2 (.rep 1 none reSep))) 0 (c :: t) =
    if p c then some ⟨0 + 1, t, [(1, [c])]⟩
    else if isSep c then some ⟨0 + ((c :: t).takeWhile isSep).length, skip (c :: t), [(2, (c :: t).takeWhile isSep)]⟩
    else none := by
  rw [matchAt_alt, part_single h, part_plus single_sep]
  simp only
  cases hp : p c with
  | true => rfl
  | false =>
    cases hs : isSep c with
    | true => simp [hs, skip]
    | false => simp [hs]

theorem lastgroup_cons (n s i v k) : St.lastgroup ⟨n, s, (i, v) :: k⟩ = some i := rfl

theorem text_one (n c t k) : St.text ⟨n, t, k⟩ (c :: t) = [c] := by
  simp [St.text]

theorem command_loop (r : Re) (hr : svg_re = some r) : ∀ (fuel : ℕ) (l : Lx), l.rest.length < fuel →
    commandLoop r fuel l = ((command l).1.map (fun c => [c]), (command l).2)
  | 0, l, h => by omega
  | fuel + 1, ⟨s, i⟩, h => by
    have he := svg_eq.symm.trans hr
    rw [Option.some.injEq] at he
    unfold commandLoop
    cases s with
    | nil => rfl
    | cons c t =>
      rw [if_neg (by simp)]
      simp only
      rw [← he, two_match single_cmd]
      cases hc : isCmd c with
      | true =>
        have hs : isSep c = false := by
          cases hs : isSep c with
          | false => rfl
          | true => rw [sep_not_cmd c hs] at hc; cases hc
        simp [lastgroup_cons, command, skip_no c t hs, hc, text_one]
      | false =>
        cases hs : isSep c with
        | false => simp [command, skip_no c t hs, hc]
        | true =>
          simp only [Bool.false_eq_true, if_false, if_true, St.lastgroup, List.head?_cons, Option.map_some]
          have := command_loop r hr fuel ⟨skip (c :: t), i⟩ (by
            have := skip_len c t hs
            simp only at this h ⊢
            omega)
          rw [← he] at this
          rw [this]
          simp only [command, skip_skip]

theorem flag_loop (r : Re) (hr : flag_re = some r) : ∀ (fuel : ℕ) (l : Lx), l.rest.length < fuel →
    flagLoop r fuel l = ((flag l).1.map (fun b => if b then ['1'] else ['0']), (flag l).2)
  | 0, l, h => by omega
  | fuel + 1, ⟨s, i⟩, h => by
    have he := flag_eq.symm.trans hr
    rw [Option.some.injEq] at he
    unfold flagLoop
    cases s with
    | nil => rfl
    | cons c t =>
      rw [if_neg (by simp)]
      simp only
      rw [← he, two_match single_flag]
      by_cases hc : c = '0' ∨ c = '1'
      · have hs : isSep c = false := by
          cases hs : isSep c with
          | false => rfl
          | true =>
            have := sep_not_flag c hs
            rcases hc with hc | hc
            · exact absurd hc this.1
            · exact absurd hc this.2
        rw [if_pos (by simpa using hc)]
        rcases hc with rfl | rfl
        · simp [lastgroup_cons, flag, skip_no _ t hs, text_one]
        · simp [lastgroup_cons, flag, skip_no _ t hs, text_one]
      · rw [if_neg (by simpa using hc)]
        push Not at hc
        cases hs : isSep c with
        | false => simp [flag, skip_no c t hs, hc.1, hc.2]
        | true =>
          simp only [if_true, St.lastgroup, List.head?_cons, Option.map_some]
          have := flag_loop r hr fuel ⟨skip (c :: t), i⟩ (by
            have := skip_len c t hs
            simp only at this h ⊢
            omega)
          rw [← he] at this
          rw [this]
          simp only [flag, skip_skip]

/-- a match of `num_re` -/
theorem num_match (c : Char) (t : List Char) :
    matchAt (.alt (.cat (.grp 1 reFloat) .eps) (.alt (part 2 reZ) (part 3 (.rep 1 none reSep)))) 0 (c :: t) =
    match matchFloat (c :: t) with
    | some (v, r) => some ⟨0 + v.length, r, [(1, v)]⟩
    | none =>
      if isZ c then some ⟨0 + 1, t, [(2, [c])]⟩
      else if isSep c then some ⟨0 + ((c :: t).takeWhile isSep).length, skip (c :: t), [(3, (c :: t).takeWhile isSep)]⟩
      else none := by
  rw [matchAt_alt, run_cat_eps, run_alt, List.head?_append, part_single single_z, part_plus single_sep]
  cases hm : matchFloat (c :: t) with
  | some q =>
    obtain ⟨v, r⟩ := q
    rw [(float_grp_led 1 0 (c :: t) [] v r hm).head]
    rfl
  | none =>
    rw [run, (float_led 0 (c :: t) []).1 hm]
    simp only [List.map_nil, List.head?_nil, Option.none_or]
    cases hp : isZ c with
    | true => rfl
    | false =>
      cases hs : isSep c with
      | true => simp [hs, skip]
      | false => simp [hs]

theorem num_not_sep (c : Char) (t : List Char) (q) (h : matchFloat (c :: t) = some q) : isSep c = false := by
  cases hs : isSep c with
  | false => rfl
  | true => rw [sep_not_num c t hs] at h; cases h

theorem z_not_sep (c : Char) (h : isZ c = true) : isSep c = false := by
  cases hs : isSep c with
  | false => rfl
  | true => rw [sep_not_z c hs] at h; cases h

theorem more_loop (r : Re) (hr : num_re = some r) : ∀ (fuel : ℕ) (l : Lx), l.rest.length < fuel →
    moreLoop r fuel l = more l
  | 0, l, h => by omega
  | fuel + 1, ⟨s, i⟩, h => by
    have he := num_eq.symm.trans hr
    rw [Option.some.injEq] at he
    unfold moreLoop
    cases s with
    | nil => rfl
    | cons c t =>
      rw [if_neg (by simp)]
      simp only
      rw [← he, num_match]
      cases hm : matchFloat (c :: t) with
      | some q =>
        obtain ⟨v, r'⟩ := q
        have hs := num_not_sep c t _ hm
        simp [more, skip_no c t hs, hm, St.lastgroup]
      | none =>
        simp only
        cases hz : isZ c with
        | true =>
          have hs := z_not_sep c hz
          simp [lastgroup_cons, more, skip_no c t hs, hm, hz, text_one]
        | false =>
          cases hs : isSep c with
          | false => simp [more, skip_no c t hs, hm, hz]
          | true =>
            simp only [Bool.false_eq_true, if_false, if_true, lastgroup_cons]
            rw [if_neg (by decide)]
            have := more_loop r hr fuel ⟨skip (c :: t), i⟩ (by
              have := skip_len c t hs
              simp only at this h ⊢
              omega)
            rw [← he] at this
            rw [this]
            simp only [more, skip_skip]

theorem number_loop {K : Type} [Field K] [LinearOrder K] (rd : List Char → K) (r : Re) (hr : num_re = some r) :
    ∀ (fuel : ℕ) (l : Lx), l.rest.length < fuel →
    ((numberLoop r fuel l).1.map rd, (numberLoop r fuel l).2) = number rd l
  | 0, l, h => by omega
  | fuel + 1, ⟨s, i⟩, h => by
    have he := num_eq.symm.trans hr
    rw [Option.some.injEq] at he
    unfold numberLoop
    cases s with
    | nil => rfl
    | cons c t =>
      rw [if_neg (by simp)]
      simp only
      rw [← he, num_match]
      cases hm : matchFloat (c :: t) with
      | some q =>
        obtain ⟨v, r'⟩ := q
        have hs := num_not_sep c t _ hm
        have e : St.text ⟨0 + v.length, r', [(1, v)]⟩ (c :: t) = v := take_sub (matchFloat_sound hm).1
        simp only [lastgroup_cons]
        rw [e]
        simp [number, skip_no c t hs, hm]
      | none =>
        simp only
        cases hz : isZ c with
        | true =>
          have hs := z_not_sep c hz
          simp [lastgroup_cons, number, skip_no c t hs, hm, hz, text_one]
        | false =>
          cases hs : isSep c with
          | false => simp [number, skip_no c t hs, hm, hz]
          | true =>
            simp only [Bool.false_eq_true, if_false, if_true, lastgroup_cons]
            rw [if_neg (by decide)]
            have := number_loop rd r hr fuel ⟨skip (c :: t), i⟩ (by
              have := skip_len c t hs
              simp only at this h ⊢
              omega)
            rw [← he] at this
            rw [this]
            simp only [number, skip_skip]

end Svgio.Regex
