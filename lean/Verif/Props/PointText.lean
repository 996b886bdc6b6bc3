import Verif.Lemmas.PointText
import Verif.Spec.Pair
import Verif.Props.ColorFun
import Verif.Props.PrintFloat
import Verif.Props.NumberValue

/-!
C130: points from texts.
-/

namespace Svgio.Props

open Spec Regex PointText Color

theorem white_ws {w : List Char} (h : White w) : ∀ c ∈ w, isWs c = true := fun c hc => (isWs_iff c).2 (h c hc)

theorem ws_numChar {c : Char} (hw : isWs c = true) (hn : NumChar c) : False := by
  obtain ⟨h1, h2, h3, h4⟩ := ws_not_num c hw
  unfold NumChar at hn
  rcases hn with h | h | h | h | h | h
  all_goals first | exact absurd h ‹_› | (subst h; exact absurd hw (by decide))

/-- the first character of a number -/
theorem number_head {t r : List Char} (h : IsNumber t) : ∀ c ∈ (t ++ r).head?, isWs c = false ∧ c ≠ ',' := by
  obtain ⟨c, t', rfl⟩ : ∃ c t', t = c :: t' := by
    cases t with
    | cons c t' => exact ⟨c, t', rfl⟩
    | nil =>
      exfalso
      obtain ⟨sg, m, ex, e, -, ⟨ip, fp, rfl, -, hf⟩, -⟩ := h
      simp only [List.nil_eq, List.append_eq_nil_iff] at e
      obtain ⟨-, ⟨rfl, rfl⟩, -⟩ := e
      rcases hf with ⟨-, h⟩ | ⟨ds, h, -⟩
      · exact h rfl
      · cases h
  intro d hd
  simp only [List.cons_append, List.head?_cons, Option.mem_def, Option.some.injEq] at hd
  subst hd
  have hn : NumChar c := isNumber_chars h c (by simp)
  constructor
  · cases hw : isWs c with
    | false => rfl
    | true => exact (ws_numChar hw hn).elim
  · rintro rfl
    revert hn
    unfold NumChar IsDigit
    decide

/-- the last character of a number -/
theorem number_last {t : List Char} (h : IsNumber t) : ∃ u d, t = u ++ [d] ∧ IsDigit d := by
  obtain ⟨sg, m, ex, rfl, -, ⟨ip, fp, rfl, hip, hf⟩, hex⟩ := h
  have last : ∀ ds : List Char, ds ≠ [] → Digits ds → ∃ u d, ds = u ++ [d] ∧ IsDigit d := by
    intro ds hne hds
    rcases List.eq_nil_or_concat ds with rfl | ⟨u, d, rfl⟩
    · exact absurd rfl hne
    · exact ⟨u, d, by simp, hds d (by simp)⟩
  rcases hex with rfl | ⟨c, sg', ds, -, rfl, -, hne, hds⟩
  · rcases hf with ⟨rfl, hne⟩ | ⟨ds, rfl, hne, hds⟩
    · obtain ⟨u, d, rfl, hd⟩ := last ip hne hip
      exact ⟨sg ++ u, d, by simp, hd⟩
    · obtain ⟨u, d, rfl, hd⟩ := last ds hne hds
      exact ⟨sg ++ (ip ++ '.' :: u), d, by simp, hd⟩
  · obtain ⟨u, d, rfl, hd⟩ := last ds hne hds
    exact ⟨sg ++ (ip ++ fp ++ c :: (sg' ++ u)), d, by simp, hd⟩

/-- a number ends before a minus sign -/
theorem stops_minus {t r : List Char} (h : IsNumber t) : Stops t ('-' :: r) := by
  intro p q hr hne hn
  obtain ⟨u, d, rfl, hd⟩ := number_last h
  cases p with
  | nil => exact hne rfl
  | cons c p =>
    simp only [List.cons_append, List.cons.injEq] at hr
    obtain ⟨rfl, -⟩ := hr
    have hde : ¬ (d = 'e' ∨ d = 'E') := by
      rintro (rfl | rfl) <;> revert hd <;> unfold IsDigit <;> decide
    have hdm : ¬ IsDigit '-' := by unfold IsDigit; decide
    obtain ⟨sg, m, ex, e, hsg, ⟨ip, fp, rfl, hip, hf⟩, hex⟩ := hn
    have hm : ¬ '-' ∈ ip ++ fp := by
      intro hc
      rcases List.mem_append.1 hc with hc | hc
      · exact hdm (hip _ hc)
      · rcases hf with ⟨rfl, -⟩ | ⟨ds, rfl, -, hds⟩
        · cases hc
        · rcases List.mem_cons.1 hc with hc | hc
          · cases hc
          · exact hdm (hds _ hc)
    have hex0 : ∀ v, ex ≠ '-' :: v := by
      rintro v rfl
      rcases hex with h | ⟨c, sg', ds, hc, h, -⟩
      · cases h
      · simp only [List.cons.injEq] at h
        obtain ⟨rfl, -⟩ := h
        rcases hc with hc | hc <;> cases hc
    have hd1 : ¬ OptSign (u ++ [d]) := by
      rintro (h | h | h)
      · simp at h
      all_goals
        cases u with
        | nil => simp at h; subst h; revert hd; unfold IsDigit; decide
        | cons a u => simp at h
    rcases List.append_eq_append_iff.1 e with ⟨a', rfl, e2⟩ | ⟨a', e1, e2⟩
    · cases a' with
      | nil => rw [List.append_nil] at hsg; exact hd1 hsg
      | cons a a' =>
        rcases hsg with h | h | h
        · simp at h
        all_goals simp [List.append_eq_cons_iff] at h
    · rcases List.append_eq_append_iff.1 e2.symm with ⟨b', e3, e4⟩ | ⟨b', e3, e4⟩
      · cases b' with
        | nil => exact hex0 _ e4.symm
        | cons b b' =>
          simp only [List.cons_append, List.cons.injEq] at e4
          obtain ⟨rfl, -⟩ := e4
          exact hm (by rw [e3]; simp)
      · cases b' with
        | nil => exact hex0 _ e4
        | cons b b' =>
          rcases hex with h | ⟨c, sg', ds, hc, h, hsg', -, hds⟩
          · rw [h] at e4; cases e4
          · rw [h] at e4
            simp only [List.cons_append, List.cons.injEq] at e4
            obtain ⟨rfl, e4⟩ := e4
            cases b' with
            | nil =>
              rw [e3, ← List.append_assoc, ← List.concat_eq_append, ← List.concat_eq_append] at e1
              have := (List.concat_inj.1 e1).2
              subst this
              exact hde hc
            | cons b1 b' =>
              rcases hsg' with rfl | rfl | rfl
              · exact hdm (hds _ (by rw [List.nil_append] at e4; rw [e4]; simp))
              all_goals
                simp only [List.cons_append, List.cons.injEq, List.nil_append] at e4
                exact hdm (hds _ (by rw [e4.2]; simp))

theorem pairAt_of_pair {s x y : List Char} (h : Pair s x y) : pairAt s = some (x, y) := by
  obtain ⟨hx, hy, gap, post, rfl, hg, hp⟩ := h
  have hyp := matchFloat_of_stops hy hp
  have hh := fun c hc => (number_head (r := post) hy c hc).1
  have key : Stops x (gap ++ (y ++ post)) ∧ gapNum (gap ++ (y ++ post)) = some (y, post) := by
    cases hg with
    | comma w w' t hw hw' =>
      constructor
      · apply stops_of_head
        intro c hc
        cases w with
        | nil =>
          simp only [List.nil_append, List.cons_append, List.head?_cons, Option.mem_def, Option.some.injEq] at hc
          subst hc
          unfold NumChar IsDigit; decide
        | cons d w =>
          simp only [List.cons_append, List.head?_cons, Option.mem_def, Option.some.injEq] at hc
          subst hc
          exact fun hn => ws_numChar (white_ws hw d (by simp)) hn
      · have e : Color.comma (w ++ ',' :: w' ++ (y ++ post)) = some (y ++ post) := by
          unfold Color.comma
          rw [show w ++ ',' :: w' ++ (y ++ post) = w ++ (',' :: (w' ++ (y ++ post))) by simp,
            skipWs_white hw (by intro c hc; simp at hc; subst hc; decide), lit_cons, if_pos rfl, Option.map_some, skipWs_white hw' hh]
        rw [gapNum, e]
        exact hyp
    | white w t hw hne =>
      obtain ⟨d, w', rfl⟩ := List.exists_cons_of_ne_nil hne
      have hd := white_ws hw d (by simp)
      constructor
      · apply stops_of_head
        intro c hc
        simp only [List.cons_append, List.head?_cons, Option.mem_def, Option.some.injEq] at hc
        subst hc
        exact fun hn => ws_numChar hd hn
      · have e : skipWs (d :: w' ++ (y ++ post)) = y ++ post := skipWs_white hw hh
        have e2 : Color.comma (d :: w' ++ (y ++ post)) = none := by
          unfold Color.comma
          rw [e]
          cases hc : y ++ post with
          | nil => rfl
          | cons c r =>
            rw [lit_cons, if_neg (number_head (r := post) hy c (by rw [hc]; simp)).2]
            rfl
        rw [gapNum, e2]
        simp only
        rw [if_neg (by rw [List.cons_append, List.takeWhile_cons_of_pos hd]; simp), e]
        exact hyp
    | minus t =>
      constructor
      · exact stops_minus hx
      · have e2 : Color.comma ([] ++ ('-' :: t ++ post)) = none := by
          unfold Color.comma
          rw [List.nil_append, List.cons_append, skipWs, List.dropWhile_cons_of_neg (by decide), lit_cons, if_neg (by decide)]
          rfl
        rw [gapNum, e2]
        simp only
        rw [if_pos (by rw [List.nil_append, List.cons_append, List.takeWhile_cons_of_neg (by decide)])]
        simpa using hyp
  rw [pairAt, matchFloat_of_stops hx key.1, Option.bind_some]
  simp only
  rw [key.2]
  rfl

theorem takeWhile_white (r : List Char) : White (r.takeWhile isWs) := by
  intro c hc
  have := List.all_takeWhile (p := isWs) (l := r)
  rw [List.all_eq_true] at this
  exact (isWs_iff c).1 (this c hc)

theorem pair_of_pairAt {s x y : List Char} (h : pairAt s = some (x, y)) : Pair s x y := by
  unfold pairAt at h
  cases hx : matchFloat s with
  | none => rw [hx] at h; cases h
  | some p =>
    obtain ⟨x', r⟩ := p
    rw [hx, Option.bind_some] at h
    simp only at h
    obtain ⟨hs, hxn⟩ := matchFloat_sound hx
    cases hg : gapNum r with
    | none => rw [hg] at h; cases h
    | some q =>
      obtain ⟨y', post⟩ := q
      rw [hg] at h
      simp only [Option.map_some, Option.some.injEq, Prod.mk.injEq] at h
      obtain ⟨rfl, rfl⟩ := h
      have hw := takeWhile_white r
      have hr : r = r.takeWhile isWs ++ skipWs r := (List.takeWhile_append_dropWhile).symm
      have fin : ∀ gap z, r = gap ++ z → matchFloat z = some (y', post) → Gap gap y' → Pair s x' y' := by
        intro gap z e hz hgap
        obtain ⟨e2, hyn⟩ := matchFloat_sound hz
        exact ⟨hxn, hyn, gap, post, by rw [hs, e, e2], hgap, matchFloat_maximal hz⟩
      unfold gapNum at hg
      cases hc : Color.comma r with
      | some t =>
        rw [hc] at hg
        simp only at hg
        unfold Color.comma at hc
        cases hk : skipWs r with
        | nil => rw [hk] at hc; cases hc
        | cons c u =>
          rw [hk, lit_cons] at hc
          by_cases hcc : c = ','
          · rw [if_pos hcc, Option.map_some, Option.some.injEq] at hc
            subst hcc
            refine fin (r.takeWhile isWs ++ ',' :: u.takeWhile isWs) t ?_ hg (.comma _ _ _ hw (takeWhile_white u))
            have : u = u.takeWhile isWs ++ t := by rw [← hc]; exact (List.takeWhile_append_dropWhile).symm
            calc r = r.takeWhile isWs ++ ',' :: u := by rw [← hk]; exact hr
              _ = r.takeWhile isWs ++ ',' :: (u.takeWhile isWs ++ t) := by rw [← this]
              _ = _ := by simp
          · rw [if_neg hcc] at hc; cases hc
      | none =>
        rw [hc] at hg
        simp only at hg
        by_cases h0 : r.takeWhile isWs = []
        · rw [if_pos h0] at hg
          by_cases h1 : r.head? = some '-'
          · rw [if_pos h1] at hg
            refine fin [] r rfl hg ?_
            obtain ⟨e2, hyn⟩ := matchFloat_sound hg
            cases y' with
            | nil =>
              obtain ⟨u, d, e, -⟩ := number_last hyn
              simp at e
            | cons c y' =>
              rw [e2] at h1
              simp only [List.cons_append, List.head?_cons, Option.some.injEq] at h1
              subst h1
              exact .minus _
          · rw [if_neg h1] at hg; cases hg
        · rw [if_neg h0] at hg
          exact fin _ _ hr hg (.white _ _ hw h0)

theorem pair_iff (s x y : List Char) : Pair s x y ↔ pairAt s = some (x, y) := ⟨pairAt_of_pair, pair_of_pairAt⟩

theorem ofText_eq (fl : ℚ → ℚ) (s : List Char) : ofText fl s =
    match s.tails.findSome? pairAt with
    | none => .error .indexError
    | some g => .ok ⟨fl (floatVal g.1), fl (floatVal g.2)⟩ := by
  have h := findall_tails rePair groups2 (fun s => (pairAt s).map (fun g => (some g.1, some g.2))) pair_match (s.length + 1) 0 s
    (by omega)
  have h2 : s.tails.findSome? (fun s => (pairAt s).map (fun g => (some g.1, some g.2)))
      = (s.tails.findSome? pairAt).map (fun g => (some g.1, some g.2)) := by
    induction s.tails with
    | nil => rfl
    | cons a l ih =>
      rw [List.findSome?_cons, List.findSome?_cons]
      cases pairAt a with
      | none => exact ih
      | some g => rfl
  rw [h2] at h
  unfold ofText
  rw [pair_eq]
  simp only
  unfold findall
  cases hf : findallAt rePair (s.length + 1) 0 s with
  | nil =>
    rw [hf] at h
    cases hp : s.tails.findSome? pairAt with
    | none => rfl
    | some g => rw [hp] at h; cases h
  | cons q l =>
    rw [hf] at h
    cases hp : s.tails.findSome? pairAt with
    | none => rw [hp] at h; cases h
    | some g =>
      rw [hp] at h
      simp only [List.head?_cons, Option.map_some, Option.some.injEq, groups2, Prod.mk.injEq] at h
      simp only [ofMatch, h.1, h.2, Option.getD_some]

/-- **C130**: `Point(text)` is the first pair of numbers in the text. -/
theorem C130_reads (fl : ℚ → ℚ) {pre s tx ty : List Char} {x y : ℚ} (h : Pair s tx ty) (hx : Value tx x) (hy : Value ty y)
    (hpre : ∀ u v, pre = u ++ v → v ≠ [] → ∀ a b, ¬ Pair (v ++ s) a b) : ofText fl (pre ++ s) = .ok ⟨fl x, fl y⟩ := by
  have key : (pre ++ s).tails.findSome? pairAt = some (tx, ty) := by
    induction pre with
    | nil =>
      have := pairAt_of_pair h
      cases s with
      | nil => rw [List.nil_append, List.tails, List.findSome?_cons, this]
      | cons c s => rw [List.nil_append, List.tails_cons, List.findSome?_cons, this]
    | cons c pre ih =>
      have h0 : pairAt (c :: pre ++ s) = none := by
        cases hp : pairAt (c :: pre ++ s) with
        | none => rfl
        | some g => exact absurd (pair_of_pairAt hp) (hpre [] (c :: pre) rfl (by simp) _ _)
      rw [List.cons_append] at h0 ⊢
      rw [List.tails_cons, List.findSome?_cons, h0]
      exact ih (fun u v e hv a b => hpre (c :: u) v (by rw [e]; rfl) hv a b)
  rw [ofText_eq, key]
  simp only
  rw [(value_floatVal hx), (value_floatVal hy)]

/-- **C130**: a text with no pair of numbers raises IndexError, and nothing else is raised. -/
theorem C130_error (fl : ℚ → ℚ) (s : List Char) (e : PyErr) :
    ofText fl s = .error e ↔ e = .indexError ∧ ∀ u v, s = u ++ v → ∀ a b, ¬ Pair v a b := by
  rw [ofText_eq]
  cases hp : s.tails.findSome? pairAt with
  | none =>
    rw [List.findSome?_eq_none_iff] at hp
    simp only [Except.error.injEq]
    refine ⟨fun h => ⟨h.symm, ?_⟩, fun h => h.1.symm⟩
    intro u v e a b hpair
    have := hp v ((List.mem_tails _ _).2 ⟨u, e.symm⟩)
    rw [pairAt_of_pair hpair] at this
    cases this
  | some g =>
    obtain ⟨v, hv, hg⟩ := List.exists_of_findSome?_eq_some hp
    obtain ⟨u, hu⟩ := (List.mem_tails _ _).1 hv
    simp only [reduceCtorEq, false_iff, not_and]
    intro _ hno
    exact hno u v hu.symm _ _ (pair_of_pairAt hg)

example : ofText (fun x => x) "at 1.5-2e1;3".toList = .ok ⟨3 / 2, -20⟩ := by decide +kernel

example : ofText (fun x => x) "1;2".toList = .error .indexError := by decide +kernel

theorem ofText_ptText (fl : ℚ → ℚ) (p : Pt ℚ) : ofText fl (Print.ptText p)
    = .ok ⟨fl (floatVal (Print.coordText p.x)), fl (floatVal (Print.coordText p.y))⟩ := by
  have hx := (C46_coordinate_partial p.x).1
  have hy := (C46_coordinate_partial p.y).1
  have hp : Pair (Print.ptText p) (Print.coordText p.x) (Print.coordText p.y) :=
    ⟨hx, hy, [','], [], by simp [Print.ptText], .comma [] [] _ (by simp [White]) (by simp [White]), stops_of_head (by simp)⟩
  have := pairAt_of_pair hp
  rw [ofText_eq]
  have ht : (Print.ptText p).tails.findSome? pairAt = some (Print.coordText p.x, Print.coordText p.y) := by
    cases hs : Print.ptText p with
    | nil => rw [hs] at this; rw [List.tails, List.findSome?_cons, this]
    | cons c s => rw [hs] at this; rw [List.tails_cons, List.findSome?_cons, this]
  rw [ht]

/-- **C130**: a point is written as text and read back. Coordinates that are floats with at most 12 digits come back exactly; any
coordinates, unless tiny, are written the same way again. The full claim would have no condition on the exponents; see
`C130_str_wrong`. -/
theorem C130_str_partial (F : FloatRounding) (p : Pt ℚ) :
    (TwelveDigits p.x → ¬ RoundExponent p.x → F.fl p.x = p.x → TwelveDigits p.y → ¬ RoundExponent p.y → F.fl p.y = p.y →
      ofText F.fl (Print.ptText p) = .ok p) ∧
    (NotTiny p.x → NotTiny p.y → PrintsWell p.x → PrintsWell p.y →
      (ofText F.fl (Print.ptText p)).map Print.ptText = .ok (Print.ptText p)) := by
  rw [ofText_ptText]
  constructor
  · intro a b c d e f
    rw [C46_exact_partial a b, C46_exact_partial d e, c, f]
  · intro a b c d
    simp only [Except.map, Print.ptText]
    rw [C126_same_number F a c, C126_same_number F b d]

/-- C130 fails for shortened exponents: (1.5e-10, 0) is read back as (0.15, 0). -/
theorem C130_str_wrong (F : FloatRounding) :
    ofText F.fl (Print.ptText ⟨15 / 10 ^ 11, 0⟩) = .ok ⟨F.fl (15 / 100), F.fl 0⟩ := by
  rw [ofText_ptText]
  simp only
  rw [C46_exponent_wrong.2, show floatVal (Print.coordText 0) = 0 by decide +kernel]

example : TwelveDigits (-5 / 4) ∧ ¬ RoundExponent (-5 / 4) := decimals_ok (j := 2) (k := -125) (by norm_num) (by norm_num) (by norm_num)

end Svgio.Props
