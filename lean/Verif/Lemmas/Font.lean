import Verif.Model.Font
import Verif.Lemmas.RegexMore
import Verif.Spec.Font

/-! The pattern of fonts, constants.py:180-182. -/

namespace Svgio.Regex

open Color (isWs skipWs lit litWord)

variable {β : Type}

theorem first_grp (i : ℕ) (r : Re) (K : St → Option β) (st : St) : first (.grp i r) K st =
    first r (fun q => K { q with caps := (i, st.rest.take (st.rest.length - q.rest.length)) :: q.caps }) st := by
  simp only [first, run, List.findSome?_map]
  rfl

/-- some words, or something else -/
def wordsOr (ws : List (List Char)) (last : Re) : Re := ws.foldr (fun w r => .alt (word w .eps) r) last

theorem first_wordsOr (i : ℕ) (last : Re) (K : St → Option β) (n s k) : ∀ ws : List (List Char),
    first (.grp i (wordsOr ws last)) K ⟨n, s, k⟩ = (ws.findSome? (fun w =>
      match litWord w s with
      | none => none
      | some t => K ⟨n + w.length, t, (i, w) :: k⟩)).or (first (.grp i last) K ⟨n, s, k⟩)
  | [] => rfl
  | w :: ws => by
    have h := first_words i K n s k [w] (by simp)
    have ih := first_wordsOr i last K n s k ws
    have e : first (.grp i (wordsOr (w :: ws) last)) K ⟨n, s, k⟩ =
        (first (.grp i (word w .eps)) K ⟨n, s, k⟩).or (first (.grp i (wordsOr ws last)) K ⟨n, s, k⟩) := by
      show first (.grp i (.alt (word w .eps) (wordsOr ws last))) K ⟨n, s, k⟩ = _
      simp only [first, run, List.map_append, List.findSome?_append]
    rw [words] at h
    rw [e, h, ih]
    simp only [List.findSome?_cons, List.findSome?_nil]
    cases litWord w s with
    | none => rfl
    | some t =>
      simp only
      cases K ⟨n + w.length, t, (i, w) :: k⟩ <;> rfl

theorem repeated_fuel (F : St → List St) : ∀ (m f g : ℕ) (st : St), st.rest.length ≤ m → m ≤ f → m ≤ g →
    repeated F f 0 none st = repeated F g 0 none st
  | 0, f, g, st, h, _, _ => by
    have key : ∀ f, repeated F f 0 none st = [st] := by
      intro f
      cases f with
      | zero => rfl
      | succ f =>
        have : (F st).filter (fun q => q.rest.length < st.rest.length) = [] := by
          rw [List.filter_eq_nil_iff]
          intro q _
          simp
          omega
        simp [repeated, this]
    rw [key, key]
  | m + 1, 0, g, st, h, h1, h2 => by omega
  | m + 1, f + 1, 0, st, h, h1, h2 => by omega
  | m + 1, f + 1, g + 1, st, h, h1, h2 => by
    simp only [repeated, reduceCtorEq, if_false, if_true, Option.map_none, Nat.zero_sub]
    congr 1
    apply List.flatMap_congr
    intro q hq
    have : q.rest.length < st.rest.length := by simpa using (List.mem_filter.1 hq).2
    exact repeated_fuel F m f g q (by omega) (by omega) (by omega)

/-- one more repetition, or none -/
theorem first_rep {r : Re} (hr : Eats r) (K : St → Option β) (st : St) :
    first (.rep 0 none r) K st = (first r (first (.rep 0 none r) K) st).or (K st) := by
  have hrun : run (.rep 0 none r) st = (run r st).flatMap (run (.rep 0 none r)) ++ [st] := by
    cases hl : st.rest.length with
    | zero =>
      have : run r st = [] := by
        rw [List.eq_nil_iff_forall_not_mem]
        intro q hq
        have := hr st q hq
        omega
      simp [run, hl, repeated, this]
    | succ m =>
      have hf : (run r st).filter (fun q => q.rest.length < st.rest.length) = run r st := by
        rw [List.filter_eq_self]
        intro q hq
        simpa using hr st q hq
      simp only [run, hl, Nat.zero_add]
      rw [repeated]
      simp only [reduceCtorEq, if_false, if_true, Option.map_none, Nat.zero_sub, hf]
      congr 1
      apply List.flatMap_congr
      intro q hq
      have := hr st q hq
      exact repeated_fuel (run r) q.rest.length _ _ q le_rfl (by omega) le_rfl
  simp only [first, hrun, List.findSome?_append, findSome_flatMap, List.findSome?_cons, List.findSome?_nil]
  congr 1
  cases K st <;> rfl

/-- a greedy repetition of one character that has to give back all of `b` -/
theorem first_star_back {r w} (hr : Single r w) (K : St → Option β) (b : List Char) : ∀ (a : List Char) (n : ℕ) (k),
    (∀ c ∈ a ++ b, w c = true) → (∀ m u t, u ≠ [] → u ++ t = b → K ⟨m, t, k⟩ = none) →
    (K ⟨n + a.length, b, k⟩).isSome → first (.rep 0 none r) K ⟨n, a ++ b, k⟩ = K ⟨n + a.length, b, k⟩ := by
  -- nothing beyond `b`
  have stop : ∀ (t : List Char) (m : ℕ) (k), (∀ c ∈ t, w c = true) → (∀ m u v, u ++ v = t → K ⟨m, v, k⟩ = none) →
      (run (.rep 0 none r) ⟨m, t, k⟩).findSome? K = none := by
    intro t
    induction t with
    | nil =>
      intro m k _ h
      rw [star_nil]
      simp [h m [] [] rfl]
    | cons c t ih =>
      intro m k hw h
      rw [star_yes hr m c t k (hw c (by simp)), List.findSome?_append,
        ih (m + 1) k (fun d hd => hw d (by simp [hd])) (fun m u v e => h m (c :: u) v (by simp [e]))]
      simp [h m [] (c :: t) rfl]
  intro a
  induction a with
  | nil =>
    intro n k hw h hK
    simp only [List.nil_append, List.length_nil, Nat.add_zero] at hw hK ⊢
    cases b with
    | nil =>
      rw [first, star_nil]
      simp only [List.findSome?_cons, List.findSome?_nil]
      cases K ⟨n, [], k⟩ <;> rfl
    | cons c t =>
      rw [first, star_yes hr n c t k (hw c (by simp)), List.findSome?_append,
        stop t (n + 1) k (fun d hd => hw d (by simp [hd])) (fun m u v e => h m (c :: u) v (by simp) (by simp [e]))]
      simp only [List.findSome?_cons, List.findSome?_nil]
      cases K ⟨n, c :: t, k⟩ <;> rfl
  | cons c a ih =>
    intro n k hw h hK
    have e : n + (c :: a).length = n + 1 + a.length := by simp; omega
    rw [e] at hK ⊢
    have := ih (n + 1) k (fun d hd => hw d (by simp at hd ⊢; tauto)) h hK
    rw [first] at this
    rw [List.cons_append, first, star_yes hr n c (a ++ b) k (hw c (by simp)), List.findSome?_append, this]
    obtain ⟨x, hx⟩ := Option.isSome_iff_exists.1 hK
    rw [hx]
    rfl

end Svgio.Regex

namespace Svgio.Font
open Regex

/-- `\d` -/
def reD : Re := .set false [.digit]

theorem single_d : Single reD isDig := single_set _ _ _ fun c => by simp [test, Item.test]

def styles : List (List Char) := ["normal".toList, "italic".toList, "oblique".toList]
def variants : List (List Char) := ["normal".toList, "small-caps".toList]
def weights : List (List Char) := ["normal".toList, "bold".toList, "bolder".toList, "lighter".toList]
def stretches : List (List Char) := ["normal".toList, "ultra-condensed".toList, "extra-condensed".toList, "condensed".toList,
  "semi-condensed".toList, "semi-expanded".toList, "expanded".toList, "extra-expanded".toList, "ultra-expanded".toList]
def sizes : List (List Char) := ["xx-small".toList, "x-small".toList, "small".toList, "medium".toList, "large".toList, "x-large".toList,
  "xx-large".toList, "larger".toList, "smaller".toList]
def sp : Re := .cat reWs .eps

/-- one of the words before the size -/
def reItem : Re :=
  .alt (.cat (.grp 1 (words styles)) sp) (.alt (.cat (.grp 2 (words variants)) sp)
    (.alt (.cat (.grp 3 (wordsOr weights (.cat (.rep 3 (some 3) reD) .eps))) sp) (.cat (.grp 4 (words stretches)) sp)))

def reSize (i : ℕ) : Re := .grp i (wordsOr sizes (.cat (.rep 1 none reD) (.cat (words fontUnits) .eps)))

def reEnd : Re :=
  .cat (.rep 0 (some 1) (one ',')) (.cat (.rep 1 none reWs) (.cat (.grp 8 (words families)) (.cat (.rep 0 (some 1) (one ';')) .eps)))

def reFont : Re :=
  .cat (.rep 0 none reItem) (.cat (.rep 0 none reWs) (.cat (reSize 5) (.cat (.rep 0 (some 1) (.cat (one '/') (.cat (reSize 6) .eps)))
    (.cat (.rep 0 none reWs) (.cat (.grp 7 (.cat (.rep 0 none dot) .eps)) reEnd)))))

theorem font_eq : REGEX_CSS_FONT = some reFont := by decide +kernel

theorem parseFont_some {r : Re} (h : REGEX_CSS_FONT = some r) (s : List Char) : parseFont s = ofMatches (findall r s) := by
  unfold parseFont
  generalize REGEX_CSS_FONT = x at h
  subst h
  rfl

theorem parseFont_eq (s : List Char) : parseFont s = ofMatches (findall reFont s) := parseFont_some font_eq s

open Color (isWs lit litWord)

variable {β : Type}

theorem first_sp (K : St → Option β) (n s k) : first sp K ⟨n, s, k⟩ =
    match s with
    | [] => none
    | c :: t => if isWs c then K ⟨n + 1, t, k⟩ else none := by
  rw [sp, first_cat, first_eps', first_single single_ws]
  rfl

theorem eats_sp : Eats sp := by
  rintro ⟨n, s, k⟩ q hq
  rw [sp, run_cat_eps, single_ws n s k] at hq
  cases s with
  | nil => cases hq
  | cons c t =>
    simp only at hq
    split at hq
    · rw [List.mem_singleton] at hq; rw [hq]; simp
    · cases hq

theorem eats_alt {a b : Re} (ha : Eats a) (hb : Eats b) : Eats (.alt a b) := by
  intro st q hq
  rw [run] at hq
  rcases List.mem_append.1 hq with h | h
  · exact ha st q h
  · exact hb st q h

theorem eats_item : Eats reItem :=
  eats_alt (eats_right eats_sp) (eats_alt (eats_right eats_sp) (eats_alt (eats_right eats_sp) (eats_right eats_sp)))

theorem item_first (K : St → Option β) (n s k) : first reItem K ⟨n, s, k⟩ =
    (first (.grp 1 (words styles)) (first sp K) ⟨n, s, k⟩).or ((first (.grp 2 (words variants)) (first sp K) ⟨n, s, k⟩).or
      (((weights.findSome? (fun w =>
        match litWord w s with
        | none => none
        | some t => first sp K ⟨n + w.length, t, (3, w) :: k⟩)).or
        (first (.grp 3 (.cat (.rep 3 (some 3) reD) .eps)) (first sp K) ⟨n, s, k⟩)).or
        (first (.grp 4 (words stretches)) (first sp K) ⟨n, s, k⟩))) := by
  simp only [reItem, first_alt, first_cat, first_wordsOr]

/-- three digits -/
theorem run_ddd (n s k) : run (.rep 3 (some 3) reD) ⟨n, s, k⟩ =
    match s with
    | a :: b :: c :: t => if isDig a && isDig b && isDig c then [⟨n + 3, t, k⟩] else []
    | _ => [] := by
  have e : run (.rep 3 (some 3) reD) ⟨n, s, k⟩ = repeated (run reD) (3 + s.length) 3 (some 3) ⟨n, s, k⟩ := rfl
  have z : ∀ f (q : St), repeated (run reD) f 0 (some 0) q = [q] := by
    intro f q
    cases f <;> simp [repeated]
  rw [e, show 3 + s.length = s.length + 1 + 1 + 1 by omega]
  have one : ∀ f lo n s k, repeated (run reD) (f + 1) (lo + 1) (some (lo + 1)) ⟨n, s, k⟩ =
      match s with
      | [] => []
      | c :: t => if isDig c then repeated (run reD) f lo (some lo) ⟨n + 1, t, k⟩ else [] := by
    intro f lo n s k
    rw [repeated]
    simp only [Option.some.injEq, Nat.add_eq_zero_iff, one_ne_zero, and_false, if_false, single_d n s k, Option.map_some, Nat.add_sub_cancel]
    cases s with
    | nil => rfl
    | cons c t =>
      by_cases hc : isDig c = true
      · simp [hc]
      · simp [hc]
  rw [one]
  cases s with
  | nil => rfl
  | cons a s =>
    simp only
    by_cases ha : isDig a = true
    · rw [if_pos ha, one]
      cases s with
      | nil => rfl
      | cons b s =>
        simp only
        by_cases hb : isDig b = true
        · rw [if_pos hb, one]
          cases s with
          | nil => rfl
          | cons c s =>
            simp only
            by_cases hc : isDig c = true
            · rw [if_pos hc, z]; simp [ha, hb, hc]
            · simp [hc]
        · rw [if_neg hb]
          cases s <;> simp [hb]
    · rw [if_neg ha]
      rcases s with _ | ⟨b, _ | ⟨c, s⟩⟩ <;> simp [ha]

theorem first_ddd (K : St → Option β) (n s k) : first (.grp 3 (.cat (.rep 3 (some 3) reD) .eps)) K ⟨n, s, k⟩ =
    match s with
    | a :: b :: c :: t => if isDig a && isDig b && isDig c then K ⟨n + 3, t, (3, [a, b, c]) :: k⟩ else none
    | _ => none := by
  rw [first_grp, first_cat, first_eps', first, run_ddd]
  rcases s with _ | ⟨a, _ | ⟨b, _ | ⟨c, t⟩⟩⟩
  · rfl
  · rfl
  · rfl
  · simp only
    by_cases h : (isDig a && isDig b && isDig c) = true
    · rw [if_pos h, if_pos h]
      simp only [List.findSome?_cons, List.findSome?_nil]
      have : (a :: b :: c :: t).take ((a :: b :: c :: t).length - t.length) = [a, b, c] :=
        take_sub (show a :: b :: c :: t = [a, b, c] ++ t from rfl)
      rw [this]
      cases K ⟨n + 3, t, (3, [a, b, c]) :: k⟩ <;> rfl
    · rw [if_neg h, if_neg h]
      rfl

/-- the words a text begins with, and what follows them -/
def pick (ws : List (List Char)) (s : List Char) : List (List Char × List Char) := ws.filterMap fun w => (litWord w s).map fun t => (w, t)

theorem findSome_pick (i : ℕ) (K : St → Option β) (n s k) : ∀ ws : List (List Char), ws.findSome? (fun w =>
      match litWord w s with
      | none => none
      | some t => K ⟨n + w.length, t, (i, w) :: k⟩) = (pick ws s).findSome? fun p => K ⟨n + p.1.length, p.2, (i, p.1) :: k⟩
  | [] => rfl
  | w :: ws => by
    rw [List.findSome?_cons, findSome_pick i K n s k ws]
    simp only [pick, List.filterMap_cons]
    cases litWord w s with
    | none => rfl
    | some t => rfl

theorem first_pick (i : ℕ) (K : St → Option β) (n s k) (ws : List (List Char)) (h : ws ≠ []) :
    first (.grp i (words ws)) K ⟨n, s, k⟩ = (pick ws s).findSome? fun p => K ⟨n + p.1.length, p.2, (i, p.1) :: k⟩ := by
  rw [first_words _ _ _ _ _ ws h]
  exact findSome_pick i K n s k ws

theorem item_pick (K : St → Option β) (n s k) : first reItem K ⟨n, s, k⟩ =
    ((pick styles s).findSome? fun p => first sp K ⟨n + p.1.length, p.2, (1, p.1) :: k⟩).or
    (((pick variants s).findSome? fun p => first sp K ⟨n + p.1.length, p.2, (2, p.1) :: k⟩).or
    ((((pick weights s).findSome? fun p => first sp K ⟨n + p.1.length, p.2, (3, p.1) :: k⟩).or
      (match s with
        | a :: b :: c :: t => if isDig a && isDig b && isDig c then first sp K ⟨n + 3, t, (3, [a, b, c]) :: k⟩ else none
        | _ => none)).or
    ((pick stretches s).findSome? fun p => first sp K ⟨n + p.1.length, p.2, (4, p.1) :: k⟩))) := by
  rw [item_first, first_pick _ _ _ _ _ styles (by decide), first_pick _ _ _ _ _ variants (by decide),
    first_pick _ _ _ _ _ stretches (by decide), first_ddd, findSome_pick]

/-- what the four kinds make of a word -/
def picks (s : List Char) : List (List Char × List Char) × List (List Char × List Char) × List (List Char × List Char) × List (List Char × List Char) :=
  (pick styles s, pick variants s, pick weights s, pick stretches s)

theorem item_of_picks (K : St → Option β) (n d : ℕ) (s k) (w rest : List Char) (g : ℕ) (x : β)
    (hK : K ⟨n + d + 1, rest, (g, w) :: k⟩ = some x) (hd : d = w.length)
    (h : (picks s).1 = [(w, ' ' :: rest)] ∧ g = 1 ∨
      ((picks s).1 = [] ∧ (picks s).2.1 = [(w, ' ' :: rest)] ∧ g = 2) ∨
      ((picks s).1 = [] ∧ (picks s).2.1 = [] ∧ (picks s).2.2.1 = [(w, ' ' :: rest)] ∧ g = 3) ∨
      ((picks s).1 = [] ∧ (picks s).2.1 = [] ∧ (∃ u v e, (picks s).2.2.1 = [(u, e :: v), (w, ' ' :: rest)] ∧ isWs e = false) ∧ g = 3) ∨
      ((picks s).1 = [] ∧ (picks s).2.1 = [] ∧ (picks s).2.2.1 = [] ∧ (∃ a t, s = a :: t ∧ isDig a = false) ∧
        (picks s).2.2.2 = [(w, ' ' :: rest)] ∧ g = 4)) :
    first reItem K ⟨n, s, k⟩ = some x := by
  subst hd
  have hsp : isWs ' ' = true := by decide
  rw [item_pick]
  simp only [picks] at h
  rcases h with ⟨h1, rfl⟩ | ⟨h1, h2, rfl⟩ | ⟨h1, h2, h3, rfl⟩ | ⟨h1, h2, ⟨u, v, e, h3, he⟩, rfl⟩ | ⟨h1, h2, h3, ⟨a, t, rfl, ha⟩, h4, rfl⟩
  · rw [h1]; simp [first_sp, hsp, hK]
  · rw [h1, h2]; simp [first_sp, hsp, hK]
  · rw [h1, h2, h3]; simp [first_sp, hsp, hK]
  · rw [h1, h2, h3]; simp [first_sp, hsp, hK, he]
  · rw [h1, h2, h3, h4]
    rcases t with _ | ⟨b, _ | ⟨c, t⟩⟩ <;> simp [first_sp, hsp, hK, ha]

theorem item_word (it : List Char × ℕ) (hit : it ∈ table) (K : St → Option β) (n rest k x)
    (hK : K ⟨n + it.1.length + 1, rest, (it.2, it.1) :: k⟩ = some x) : first reItem K ⟨n, it.1 ++ ' ' :: rest, k⟩ = some x := by
  refine item_of_picks K n it.1.length _ k it.1 rest it.2 x hK rfl ?_
  clear hK
  simp only [table, List.mem_cons, List.not_mem_nil, or_false] at hit
  rcases hit with rfl | rfl | rfl | rfl | rfl | rfl | rfl | rfl | rfl | rfl | rfl | rfl | rfl | rfl | rfl
  · exact .inl ⟨rfl, rfl⟩
  · exact .inl ⟨rfl, rfl⟩
  · exact .inl ⟨rfl, rfl⟩
  · exact .inr (.inl ⟨rfl, rfl, rfl⟩)
  · exact .inr (.inr (.inl ⟨rfl, rfl, rfl, rfl⟩))
  · exact .inr (.inr (.inr (.inl ⟨rfl, rfl, ⟨_, _, _, rfl, by decide⟩, rfl⟩)))
  · exact .inr (.inr (.inl ⟨rfl, rfl, rfl, rfl⟩))
  all_goals exact .inr (.inr (.inr (.inr ⟨rfl, rfl, rfl, ⟨_, _, rfl, by decide⟩, rfl, rfl⟩)))

theorem head_nodig (ws : List (List Char)) (h : (ws.all fun w => match w with | [] => false | d :: _ => !isDig d) = true) :
    ∀ w ∈ ws, ∃ d t, w = d :: t ∧ isDig d = false := by
  intro w hw
  have := List.all_eq_true.1 h w hw
  cases w with
  | nil => cases this
  | cons d t => exact ⟨d, t, rfl, by simpa using this⟩

theorem item_digits (K : St → Option β) (n rest k x) {a b c : Char} (ha : isDig a = true) (hb : isDig b = true) (hc : isDig c = true)
    (hK : K ⟨n + 3 + 1, rest, (3, [a, b, c]) :: k⟩ = some x) : first reItem K ⟨n, a :: b :: c :: ' ' :: rest, k⟩ = some x := by
  have hsp : isWs ' ' = true := by decide
  have no : ∀ ws : List (List Char), (∀ w ∈ ws, ∃ d t, w = d :: t ∧ isDig d = false) → pick ws (a :: b :: c :: ' ' :: rest) = [] := by
    intro ws h
    rw [pick, List.filterMap_eq_nil_iff]
    intro w hw
    obtain ⟨d, t, rfl, hd⟩ := h w hw
    have : a ≠ d := by rintro rfl; rw [ha] at hd; cases hd
    simp [litWord, lit, this]
  rw [item_pick, no styles (head_nodig _ (by decide)), no variants (head_nodig _ (by decide)), no weights (head_nodig _ (by decide)),
    no stretches (head_nodig _ (by decide))]
  simp [ha, hb, hc, first_sp, hsp, hK]

/-- a text that begins with a character that begins none of the words, and is not three digits and a space -/
theorem item_none (K : St → Option β) (n s k) (h1 : pick styles s = []) (h2 : pick variants s = []) (h3 : pick weights s = [])
    (h4 : pick stretches s = []) (h5 : ∀ a b c d t, s = a :: b :: c :: d :: t → isDig a = true → isDig b = true → isDig c = true →
      isWs d = false) : first reItem K ⟨n, s, k⟩ = none := by
  rw [item_pick, h1, h2, h3, h4]
  rcases s with _ | ⟨a, _ | ⟨b, _ | ⟨c, _ | ⟨d, t⟩⟩⟩⟩
  · rfl
  · rfl
  · rfl
  · simp [first_sp]
  · simp only [List.findSome?_nil, Option.none_or, Option.or_none]
    by_cases h : (isDig a && isDig b && isDig c) = true
    · rw [if_pos h]
      simp only [Bool.and_eq_true] at h
      rw [first_sp]
      simp [h5 a b c d t rfl h.1.1 h.1.2 h.2]
    · rw [if_neg h]

/-! ### the end of the text -/

theorem eats_plus {r w} (hr : Single r w) : Eats (.rep 1 none r) := by
  rintro ⟨n, s, k⟩ q hq
  cases s with
  | nil => rw [plus_nil hr] at hq; cases hq
  | cons c t =>
    cases hc : w c with
    | false => rw [plus_no hr n c t k hc] at hq; cases hq
    | true =>
      rw [plus_yes hr n c t k hc] at hq
      have := run_le _ _ q hq
      simp only [List.length_cons] at this ⊢
      omega

theorem eats_end : Eats reEnd := eats_right (eats_left (eats_plus single_ws))

theorem eats_font : Eats reFont := eats_right (eats_right (eats_right (eats_right (eats_right (eats_right eats_end)))))

theorem font_nil (n : ℕ) : matchAt reFont n [] = none := by
  cases h : matchAt reFont n [] with
  | none => rfl
  | some q =>
    obtain ⟨t, ht, e⟩ := consumes_of_eats eats_font n [] q h
    have := congrArg List.length e
    have := List.length_pos_iff.2 ht
    simp at *
    omega

theorem family_chars : ∀ fam ∈ families, ∀ c ∈ fam, isWs c = false ∧ c ≠ ',' ∧ c ≠ '\n' := by decide +kernel

/-- no white space and no comma: no end -/
theorem end_none (K : St → Option β) (m t k) (h : ∀ c ∈ t, isWs c = false ∧ c ≠ ',') : first reEnd K ⟨m, t, k⟩ = none := by
  rw [reEnd, first_cat]
  cases t with
  | nil =>
    rw [first, opt_nil (single_one ',')]
    simp only [List.findSome?_cons, List.findSome?_nil, first_cat]
    rw [first, plus_nil single_ws]
    rfl
  | cons c t =>
    obtain ⟨h1, h2⟩ := h c (by simp)
    rw [first, opt_no (single_one ',') m c t k (by simp [h2])]
    simp only [List.findSome?_cons, List.findSome?_nil, first_cat]
    rw [first, plus_no single_ws m c t k h1]
    rfl

theorem end_some (m k) (fam : List Char) (hf : fam ∈ families) :
    ∃ m', first reEnd some ⟨m, ' ' :: fam, k⟩ = some ⟨m', [], (8, fam) :: k⟩ := by
  have hp : pick families fam = [(fam, [])] := by
    revert fam
    decide +kernel
  obtain ⟨c, t, e⟩ : ∃ c t, fam = c :: t := by
    cases fam with
    | nil => exact absurd hf (by decide)
    | cons c t => exact ⟨c, t, rfl⟩
  have hc : isWs c = false := (family_chars fam hf c (by rw [e]; simp)).1
  refine ⟨m + 1 + fam.length, ?_⟩
  rw [reEnd, first_cat, first, opt_no (single_one ',') m ' ' fam k (by decide)]
  simp only [List.findSome?_cons, List.findSome?_nil]
  have h2 : first (.cat (.rep 1 none reWs) (.cat (.grp 8 (words families)) (.cat (.rep 0 (some 1) (one ';')) .eps))) some ⟨m, ' ' :: fam, k⟩
      = some ⟨m + 1 + fam.length, [], (8, fam) :: k⟩ := by
    rw [first_cat, first, plus_yes single_ws m ' ' fam k (by decide)]
    rw [e, star_no single_ws (m + 1) c t k hc, ← e]
    simp only [List.findSome?_cons, List.findSome?_nil]
    rw [first_cat, first_pick _ _ _ _ _ families (by decide), hp]
    simp only [List.findSome?_cons, List.findSome?_nil]
    have : first (.cat (.rep 0 (some 1) (one ';')) .eps) some ⟨m + 1 + fam.length, [], (8, fam) :: k⟩ =
        some ⟨m + 1 + fam.length, [], (8, fam) :: k⟩ := by
      rw [first_cat, first, opt_nil (single_one ';')]
      simp [first_eps]
    rw [this]
  rw [h2]

def reTail : Re :=
  .cat (.rep 0 (some 1) (.cat (one '/') (.cat (reSize 6) .eps)))
    (.cat (.rep 0 none reWs) (.cat (.grp 7 (.cat (.rep 0 none dot) .eps)) reEnd))

theorem opt_slash (n c t k) (hc : c ≠ '/') (b : Re) : run (.rep 0 (some 1) (.cat (one '/') b)) ⟨n, c :: t, k⟩ = [⟨n, c :: t, k⟩] := by
  rw [opt_run, run_cat, (single_one '/').no n c t k (by simp [hc])]
  simp

theorem tail_some (m k) (sps face fam : List Char) (hs : ∀ c ∈ sps, isWs c = true) (hf : fam ∈ families)
    (hface : ∃ f fs, face = f :: fs ∧ isWs f = false ∧ (sps = [] → f ≠ '/')) (hnl : '\n' ∉ face) :
    ∃ m', first reTail some ⟨m, sps ++ (face ++ ' ' :: fam), k⟩ = some ⟨m', [], (8, fam) :: (7, face) :: k⟩ := by
  obtain ⟨f, fs, e, hf1, hf2⟩ := hface
  -- the slash
  have h1 : ∀ K : St → Option St, first (.rep 0 (some 1) (.cat (one '/') (.cat (reSize 6) .eps))) K ⟨m, sps ++ (face ++ ' ' :: fam), k⟩
      = K ⟨m, sps ++ (face ++ ' ' :: fam), k⟩ := by
    intro K
    have : ∃ c t, sps ++ (face ++ ' ' :: fam) = c :: t ∧ c ≠ '/' := by
      cases sps with
      | nil => exact ⟨f, _, by rw [e]; rfl, hf2 rfl⟩
      | cons c t =>
        refine ⟨c, _, rfl, ?_⟩
        rintro rfl
        exact absurd (hs '/' (by simp)) (by decide)
    obtain ⟨c, t, e2, hc⟩ := this
    rw [e2, first, opt_slash m c t k hc]
    simp only [List.findSome?_cons, List.findSome?_nil]
    cases K ⟨m, c :: t, k⟩ <;> rfl
  -- the face
  have h3 : ∀ m, ∃ m', first (.cat (.grp 7 (.cat (.rep 0 none dot) .eps)) reEnd) some ⟨m, face ++ ' ' :: fam, k⟩ =
      some ⟨m', [], (8, fam) :: (7, face) :: k⟩ := by
    intro m
    rw [first_cat, first_grp, first_cat, first_eps']
    obtain ⟨m', hm⟩ := end_some (m + face.length) ((7, face) :: k) fam hf
    refine ⟨m', ?_⟩
    have hat : first reEnd some ⟨m + face.length, ' ' :: fam,
        (7, (face ++ ' ' :: fam).take ((face ++ ' ' :: fam).length - (' ' :: fam).length)) :: k⟩ =
        some ⟨m', [], (8, fam) :: (7, face) :: k⟩ := by
      rw [take_sub rfl, hm]
    rw [← hat]
    refine first_star_back single_dot (fun q => first reEnd some
      { q with caps := (7, (face ++ ' ' :: fam).take ((face ++ ' ' :: fam).length - q.rest.length)) :: q.caps }) (' ' :: fam) face m k ?_ ?_ ?_
    · intro c hc
      simp only [List.mem_append, List.mem_cons] at hc
      simp only [ne_eq, decide_eq_true_eq]
      rintro rfl
      rcases hc with hc | hc | hc
      · exact hnl hc
      · exact absurd hc (by decide)
      · exact (family_chars fam hf _ hc).2.2 rfl
    · intro m u t hu he
      apply end_none
      intro c hc
      have : c ∈ fam := by
        cases u with
        | nil => exact absurd rfl hu
        | cons a u =>
          rw [List.cons_append] at he
          have := (List.cons.inj he).2
          rw [← this]
          simp [hc]
      exact ⟨(family_chars fam hf c this).1, (family_chars fam hf c this).2.1⟩
    · show (first reEnd some ⟨m + face.length, ' ' :: fam,
        (7, (face ++ ' ' :: fam).take ((face ++ ' ' :: fam).length - (' ' :: fam).length)) :: k⟩).isSome = true
      rw [hat]
      rfl
  -- the spaces before it
  obtain ⟨m', h3⟩ := h3 (m + sps.length)
  refine ⟨m', ?_⟩
  rw [reTail, first_cat, h1, first_cat]
  have ht : (sps ++ (face ++ ' ' :: fam)).takeWhile isWs = sps := by
    rw [List.takeWhile_append_of_pos hs, e]
    simp [hf1]
  have hd : (sps ++ (face ++ ' ' :: fam)).dropWhile isWs = face ++ ' ' :: fam := by
    rw [List.dropWhile_append_of_pos hs, e]
    simp [hf1]
  have L := (star_led' single_ws (sps ++ (face ++ ' ' :: fam)) m k).find (first (.cat (.grp 7 (.cat (.rep 0 none dot) .eps)) reEnd) some)
    (Or.inl (by rw [ht, hd, h3]; simp))
  rw [ht, hd, h3] at L
  exact L

/-! ### the size -/

theorem size_digits (i : ℕ) (K : St → Option β) (n k) (ds u t : List Char) (hd : ds ≠ []) (hds : ∀ c ∈ ds, isDig c = true)
    (hu : u ∈ fontUnits) : first (reSize i) K ⟨n, ds ++ (u ++ t), k⟩ = K ⟨n + (ds ++ u).length, t, (i, ds ++ u) :: k⟩ := by
  obtain ⟨a, ds', e⟩ : ∃ a t, ds = a :: t := by
    cases ds with
    | nil => exact absurd rfl hd
    | cons a t => exact ⟨a, t, rfl⟩
  have ha : isDig a = true := hds a (by rw [e]; simp)
  have hu1 : ∃ b v, u = b :: v ∧ isDig b = false := head_nodig fontUnits (by decide) u hu
  obtain ⟨b, v, eu, hb⟩ := hu1
  have hw : ∀ w ∈ sizes, litWord w (ds ++ (u ++ t)) = none := by
    intro w hw
    have : ∃ d x, w = d :: x ∧ isDig d = false := head_nodig sizes (by decide) w hw
    obtain ⟨d, x, rfl, hdd⟩ := this
    have : a ≠ d := by rintro rfl; rw [ha] at hdd; cases hdd
    simp [e, litWord, lit, this]
  rw [reSize, first_wordsOr]
  have : (sizes.findSome? (fun w =>
      match litWord w (ds ++ (u ++ t)) with
      | none => none
      | some t => K ⟨n + w.length, t, (i, w) :: k⟩)) = none := by
    rw [List.findSome?_eq_none_iff]
    intro w hww
    rw [hw w hww]
  refine (congrArg (fun o => Option.or o _) this).trans ?_
  rw [Option.none_or, first_grp, first_cat, first_plus single_d]
  · have ht : (ds ++ (u ++ t)).takeWhile isDig = ds := by
      rw [List.takeWhile_append_of_pos hds, eu]
      simp [hb]
    have hdr : (ds ++ (u ++ t)).dropWhile isDig = u ++ t := by
      rw [List.dropWhile_append_of_pos hds, eu]
      simp [hb]
    simp only [ht, hdr, if_neg hd]
    rw [first_cat, first_eps']
    have hg := first_pick 99 (fun q : St => K { q with caps := (i, (ds ++ (u ++ t)).take ((ds ++ (u ++ t)).length - q.rest.length)) :: q.caps.tail })
      (n + ds.length) (u ++ t) k fontUnits (by decide)
    rw [first_grp] at hg
    refine hg.trans ?_
    have hp : pick fontUnits (u ++ t) = [(u, t)] := by
      simp only [fontUnits, List.mem_cons, List.not_mem_nil, or_false] at hu
      rcases hu with rfl | rfl | rfl | rfl | rfl <;> rfl
    rw [hp]
    simp only [List.findSome?_cons, List.findSome?_nil, List.tail_cons]
    rw [take_sub (show ds ++ (u ++ t) = (ds ++ u) ++ t by simp), List.length_append, ← Nat.add_assoc]
    cases K ⟨n + ds.length + u.length, t, (i, ds ++ u) :: k⟩ <;> rfl
  · rintro ⟨m, s, k'⟩ ⟨c, s', rfl, hc⟩
    rw [first_cat, first_eps']
    have hg := first_pick 99 (fun q : St => K { q with caps := (i, (ds ++ (u ++ t)).take ((ds ++ (u ++ t)).length - q.rest.length)) :: q.caps.tail })
      m (c :: s') k' fontUnits (by decide)
    rw [first_grp] at hg
    refine hg.trans ?_
    have hp : pick fontUnits (c :: s') = [] := by
      rw [pick, List.filterMap_eq_nil_iff]
      intro w hw
      have : ∃ d x, w = d :: x ∧ isDig d = false := head_nodig fontUnits (by decide) w hw
      obtain ⟨d, x, rfl, hdd⟩ := this
      have : c ≠ d := by rintro rfl; rw [hc] at hdd; cases hdd
      simp [litWord, lit, this]
    rw [hp]
    rfl

/-! ### the words before the size -/

/-- the groups after the words -/
def itemCaps (its : List (List Char × ℕ)) (k : List (ℕ × List Char)) : List (ℕ × List Char) :=
  its.foldl (fun k it => (it.2, it.1) :: k) k

theorem items_first (K : St → Option β) (P : β → Prop) (rest : List Char) : ∀ (its : List (List Char × ℕ)), (∀ it ∈ its, IsItem it) →
    ∀ (n : ℕ) (k : List (ℕ × List Char)), (∀ m, ∃ x, first (.rep 0 none reItem) K ⟨m, rest, itemCaps its k⟩ = some x ∧ P x) →
    ∃ x, first (.rep 0 none reItem) K ⟨n, itemsText its ++ rest, k⟩ = some x ∧ P x
  | [], _, n, k, h => h n
  | it :: its, hits, n, k, h => by
    have ih := items_first K P rest its (fun i hi => hits i (by simp [hi]))
    obtain ⟨x, hx, hP⟩ := ih (n + it.1.length + 1) ((it.2, it.1) :: k) h
    refine ⟨x, ?_, hP⟩
    rw [first_rep eats_item]
    have e : itemsText (it :: its) ++ rest = it.1 ++ ' ' :: (itemsText its ++ rest) := by simp [itemsText]
    rw [e]
    have : first reItem (first (.rep 0 none reItem) K) ⟨n, it.1 ++ ' ' :: (itemsText its ++ rest), k⟩ = some x := by
      rcases hits it (by simp) with ht | ⟨a, b, c, rfl, hd⟩
      · exact item_word it ht _ n _ k x hx
      · exact item_digits _ n _ k x (isDig_iff.2 (hd a (by simp))) (isDig_iff.2 (hd b (by simp))) (isDig_iff.2 (hd c (by simp))) hx
    rw [this]
    rfl

/-- no word before the size -/
theorem items_none (K : St → Option β) (n s k) (h1 : ∀ K : St → Option β, first reItem K ⟨n, s, k⟩ = none) :
    first (.rep 0 none reItem) K ⟨n, s, k⟩ = K ⟨n, s, k⟩ := by
  rw [first_rep eats_item, h1, Option.none_or]

theorem item_none_digits (K : St → Option β) (n k) (ds u t : List Char) (hd : ds ≠ []) (hds : ∀ c ∈ ds, isDig c = true)
    (hu : u ∈ fontUnits) : first reItem K ⟨n, ds ++ (u ++ t), k⟩ = none := by
  obtain ⟨a, ds', e⟩ : ∃ a t, ds = a :: t := by
    cases ds with
    | nil => exact absurd rfl hd
    | cons a t => exact ⟨a, t, rfl⟩
  have ha : isDig a = true := hds a (by rw [e]; simp)
  have no : ∀ ws : List (List Char), (∀ w ∈ ws, ∃ d t, w = d :: t ∧ isDig d = false) → pick ws (ds ++ (u ++ t)) = [] := by
    intro ws h
    rw [pick, List.filterMap_eq_nil_iff]
    intro w hw
    obtain ⟨d, t, rfl, hd⟩ := h w hw
    have : a ≠ d := by rintro rfl; rw [ha] at hd; cases hd
    simp [e, litWord, lit, this]
  refine item_none K n _ k (no _ (head_nodig _ (by decide))) (no _ (head_nodig _ (by decide))) (no _ (head_nodig _ (by decide)))
    (no _ (head_nodig _ (by decide))) ?_
  intro a b c d t' he _ hb hc
  obtain ⟨v, w, eu, hv⟩ := head_nodig fontUnits (by decide) u hu
  have hvw : isWs v = false := by
    have : ∀ u ∈ fontUnits, ∀ c ∈ u, isWs c = false := by decide +kernel
    exact this u hu v (by rw [eu]; simp)
  -- digits are followed by digits or by the unit
  have dw : ∀ c, isDig c = true → isWs c = false := by
    intro c hc
    by_contra h
    have hw : isWs c = true := by simpa using h
    simp only [isDig, Bool.and_eq_true, decide_eq_true_eq] at hc
    have h1 : 48 ≤ c.toNat := hc.1
    have h2 : c.toNat ≤ 57 := hc.2
    simp [isWs] at hw
    omega
  rw [eu] at he
  rcases ds with _ | ⟨d1, _ | ⟨d2, _ | ⟨d3, _ | ⟨d4, ds⟩⟩⟩⟩
  · exact absurd rfl hd
  · simp only [List.cons_append, List.nil_append, List.cons.injEq] at he
    rw [← he.2.1, hv] at hb; cases hb
  · simp only [List.cons_append, List.nil_append, List.cons.injEq] at he
    rw [← he.2.2.1, hv] at hc; cases hc
  · simp only [List.cons_append, List.nil_append, List.cons.injEq] at he
    rw [← he.2.2.2.1]; exact hvw
  · simp only [List.cons_append, List.cons.injEq] at he
    rw [← he.2.2.2.1]; exact dw _ (hds _ (by simp))

/-- a keyword for the size: the pattern takes `large` and `small` out of `larger` and `smaller` -/
def sizeSplit : List (List Char × List Char × List Char) :=
  [("xx-small".toList, "xx-small".toList, []), ("x-small".toList, "x-small".toList, []), ("small".toList, "small".toList, []),
    ("medium".toList, "medium".toList, []), ("large".toList, "large".toList, []), ("x-large".toList, "x-large".toList, []),
    ("xx-large".toList, "xx-large".toList, []), ("larger".toList, "large".toList, "r".toList), ("smaller".toList, "small".toList, "er".toList)]

theorem size_word (i : ℕ) (K : St → Option β) (n k t x) (z : List Char × List Char × List Char) (hz : z ∈ sizeSplit)
    (hK : K ⟨n + z.2.1.length, z.2.2 ++ ' ' :: t, (i, z.2.1) :: k⟩ = some x) : first (reSize i) K ⟨n, z.1 ++ ' ' :: t, k⟩ = some x := by
  have hp : ∃ l, pick sizes (z.1 ++ ' ' :: t) = (z.2.1, z.2.2 ++ ' ' :: t) :: l := by
    clear hK
    simp only [sizeSplit, List.mem_cons, List.not_mem_nil, or_false] at hz
    rcases hz with rfl | rfl | rfl | rfl | rfl | rfl | rfl | rfl | rfl <;> exact ⟨_, rfl⟩
  obtain ⟨l, hp⟩ := hp
  rw [reSize, first_wordsOr]
  have e := findSome_pick i K n (z.1 ++ ' ' :: t) k sizes
  rw [hp, List.findSome?_cons] at e
  simp only [hK] at e
  refine (congrArg (fun o => Option.or o _) e).trans ?_
  rfl

theorem item_none_word (K : St → Option β) (n k t) (z : List Char × List Char × List Char) (hz : z ∈ sizeSplit) :
    first reItem K ⟨n, z.1 ++ ' ' :: t, k⟩ = none := by
  have key : picks (z.1 ++ ' ' :: t) = ([], [], [], []) ∧ ∃ a s, z.1 ++ ' ' :: t = a :: s ∧ isDig a = false := by
    simp only [sizeSplit, List.mem_cons, List.not_mem_nil, or_false] at hz
    rcases hz with rfl | rfl | rfl | rfl | rfl | rfl | rfl | rfl | rfl <;> exact ⟨rfl, _, _, rfl, by decide⟩
  obtain ⟨h, a, s, e, ha⟩ := key
  simp only [picks, Prod.mk.injEq] at h
  refine item_none K n _ k h.1 h.2.1 h.2.2.1 h.2.2.2 ?_
  intro a' b c d t' he h1
  rw [e] at he
  rw [← (List.cons.inj he).1, ha] at h1
  cases h1

/-- no face: the white space goes back to the family -/
theorem tail_bare (m k) (fam : List Char) (hf : fam ∈ families) :
    ∃ m', first reTail some ⟨m, ' ' :: fam, k⟩ = some ⟨m', [], (8, fam) :: (7, []) :: k⟩ := by
  obtain ⟨c, t, e⟩ : ∃ c t, fam = c :: t := by
    cases fam with
    | nil => exact absurd hf (by decide)
    | cons c t => exact ⟨c, t, rfl⟩
  have hc : isWs c = false := (family_chars fam hf c (by rw [e]; simp)).1
  obtain ⟨m', hm⟩ := end_some m ((7, []) :: k) fam hf
  refine ⟨m', ?_⟩
  rw [reTail, first_cat, first, opt_slash m ' ' fam k (by decide)]
  simp only [List.findSome?_cons, List.findSome?_nil]
  have nl : ∀ c ∈ ' ' :: fam, decide (c ≠ '\n') = true := by
    intro c hc
    simp only [List.mem_cons] at hc
    simp only [ne_eq, decide_eq_true_eq]
    rintro rfl
    rcases hc with hc | hc
    · exact absurd hc (by decide)
    · exact (family_chars fam hf _ hc).2.2 rfl
  have no : ∀ m k, ∀ u v : List Char, u ++ v = fam → first reEnd some ⟨m, v, k⟩ = none := by
    intro m k u v he
    apply end_none
    intro c hc
    have : c ∈ fam := by rw [← he]; simp [hc]
    exact ⟨(family_chars fam hf c this).1, (family_chars fam hf c this).2.1⟩
  have hat : ∀ m, first (.cat (.grp 7 (.cat (.rep 0 none dot) .eps)) reEnd) some ⟨m, fam, k⟩ = none := by
    intro m
    rw [first_cat, first_grp, first_cat, first_eps', first, List.findSome?_eq_none_iff]
    intro q hq
    obtain ⟨u, hu⟩ := run_suffix _ _ q hq
    exact no _ _ u q.rest hu
  have hbk : first (.cat (.grp 7 (.cat (.rep 0 none dot) .eps)) reEnd) some ⟨m, ' ' :: fam, k⟩ = some ⟨m', [], (8, fam) :: (7, []) :: k⟩ := by
    rw [first_cat, first_grp, first_cat, first_eps']
    have at0 : first reEnd some ⟨m, ' ' :: fam, (7, (' ' :: fam).take ((' ' :: fam).length - (' ' :: fam).length)) :: k⟩ =
        some ⟨m', [], (8, fam) :: (7, []) :: k⟩ := by
      rw [Nat.sub_self, List.take_zero, hm]
    rw [← at0]
    refine first_star_back single_dot (fun q => first reEnd some
      { q with caps := (7, (' ' :: fam).take ((' ' :: fam).length - q.rest.length)) :: q.caps }) (' ' :: fam) [] m k nl ?_ ?_
    · intro m u t hu he
      cases u with
      | nil => exact absurd rfl hu
      | cons a u => exact no _ _ u t (List.cons.inj he).2
    · show (first reEnd some ⟨m, ' ' :: fam, (7, (' ' :: fam).take ((' ' :: fam).length - (' ' :: fam).length)) :: k⟩).isSome = true
      rw [at0]
      rfl
  have hw : first (.cat (.rep 0 none reWs) (.cat (.grp 7 (.cat (.rep 0 none dot) .eps)) reEnd)) some ⟨m, ' ' :: fam, k⟩ =
      some ⟨m', [], (8, fam) :: (7, []) :: k⟩ := by
    rw [first_cat, first, star_yes single_ws m ' ' fam k (by decide), e, star_no single_ws (m + 1) c t k hc, ← e]
    simp only [List.cons_append, List.nil_append, List.findSome?_cons, List.findSome?_nil, hat, hbk]
  rw [hw]

/-- a match of all of a text -/
def Whole (size face fam : List Char) (its : List (List Char × ℕ)) (q : St) : Prop :=
  q.rest = [] ∧ q.caps = (8, fam) :: (7, face) :: (5, size) :: itemCaps its []

theorem star_ws_none (n s k) (h : ∀ c t, s = c :: t → isWs c = false) (K : St → Option β) : first (.rep 0 none reWs) K ⟨n, s, k⟩ = K ⟨n, s, k⟩ := by
  cases s with
  | nil =>
    rw [first, star_nil]
    simp only [List.findSome?_cons, List.findSome?_nil]
    cases K ⟨n, [], k⟩ <;> rfl
  | cons c t =>
    rw [first, star_no single_ws n c t k (h c t rfl)]
    simp only [List.findSome?_cons, List.findSome?_nil]
    cases K ⟨n, c :: t, k⟩ <;> rfl

theorem whole_match (its : List (List Char × ℕ)) (hits : ∀ it ∈ its, IsItem it) (size face fam s : List Char)
    (hitem : ∀ (K : St → Option St) n k, first reItem K ⟨n, s, k⟩ = none) (hs : ∀ c t, s = c :: t → isWs c = false)
    (htail : ∀ n k, ∃ m', first (.cat (reSize 5) reTail) some ⟨n, s, k⟩ = some ⟨m', [], (8, fam) :: (7, face) :: (5, size) :: k⟩) :
    ∃ q, matchAt reFont 0 (itemsText its ++ s) = some q ∧ Whole size face fam its q := by
  rw [matchAt_first]
  show ∃ q, first (.cat (.rep 0 none reItem) (.cat (.rep 0 none reWs) (.cat (reSize 5) reTail))) some ⟨0, itemsText its ++ s, []⟩ = some q ∧ _
  rw [first_cat]
  refine items_first _ (Whole size face fam its) s its hits 0 [] fun m => ?_
  rw [items_none _ _ _ _ (fun K => hitem K m _), first_cat, star_ws_none m s _ hs]
  obtain ⟨m', h⟩ := htail m (itemCaps its [])
  exact ⟨_, h, rfl, rfl⟩

theorem itemCaps_group (i : ℕ) : ∀ (its : List (List Char × ℕ)) (k : List (ℕ × List Char)),
    ((itemCaps its k).find? (fun c => c.1 = i)).map (·.2) =
      (((its.filter (fun it => it.2 = i)).getLast?).map (·.1)).or ((k.find? (fun c => c.1 = i)).map (·.2))
  | [], k => rfl
  | it :: its, k => by
    rw [itemCaps, List.foldl_cons]
    have := itemCaps_group i its ((it.2, it.1) :: k)
    rw [itemCaps] at this
    rw [this, List.find?_cons, List.filter_cons]
    by_cases h : it.2 = i
    · simp only [h, decide_true, if_true]
      cases hl : (its.filter (fun it => it.2 = i)).getLast? with
      | none =>
        rw [List.getLast?_eq_none_iff] at hl
        rw [hl]
        rfl
      | some z =>
        obtain ⟨y, hy⟩ : ∃ y, its.filter (fun it => it.2 = i) = y := ⟨_, rfl⟩
        rw [hy] at hl ⊢
        rw [List.getLast?_cons, hl]
        rfl
    · simp only [h, decide_false, Bool.false_eq_true, if_false]

theorem findall_whole {s : List Char} {q : St} (h : matchAt reFont 0 s = some q) (hq : q.rest = []) : findall reFont s = [q] := by
  unfold findall
  rw [findallAt.eq_def]
  simp only [h]
  rw [hq]
  cases hs : s with
  | nil => rw [hs, font_nil] at h; cases h
  | cons c t =>
    rw [List.length_cons, findallAt.eq_def]
    simp only [font_nil]

/-- the weight of the last weight word -/
def weightRun : Option (List Char) → Except PyErr (Option ℤ)
  | none => .ok none
  | some w => (parseFontWeight w).map some

theorem parse_whole {s size face fam : List Char} {its : List (List Char × ℕ)} {q : St} (h : matchAt reFont 0 s = some q)
    (hq : Whole size face fam its q) (hsize : size ≠ []) (hfam : fam ≠ []) (hne : ∀ it ∈ its, it.1 ≠ []) :
    parseFont s = (weightRun (lastWeight its)).bind fun weight =>
        (Len.value {} (Len.ofString size)).bind fun v =>
          .ok { weight := weight, size := some v, face := if face = [] then none else some (dropComma face), family := some fam } := by
  rw [parseFont_eq]
  simp only [findall_whole h hq.1]
  obtain ⟨-, hc⟩ := hq
  have g8 : q.group 8 = some fam := by rw [St.group, hc]; rfl
  have g7 : q.group 7 = some face := by rw [St.group, hc]; rfl
  have g5 : q.group 5 = some size := by rw [St.group, hc]; rfl
  have g3 : q.group 3 = lastWeight its := by
    rw [St.group, hc]
    have := itemCaps_group 3 its []
    simp only [List.find?_nil, Option.map_none, Option.or_none] at this
    rw [lastWeight, ← this]
    rfl
  unfold ofMatches ofGroups
  simp only [g8, g7, g5, g3, Option.getD_some, List.length_pos_iff, if_pos hsize, if_pos hfam]
  cases hw : lastWeight its with
  | none =>
    simp only [Option.getD_none, ne_eq, not_true_eq_false, if_false, weightRun]
    cases Len.value {} (Len.ofString size) with
    | error e => rfl
    | ok v => by_cases hf : face = [] <;> simp [hf, Except.bind, bind, Except.map]
  | some w =>
    have hwne : w ≠ [] := by
      rw [lastWeight, Option.map_eq_some_iff] at hw
      obtain ⟨it, h1, rfl⟩ := hw
      exact hne it (List.mem_of_mem_filter (List.mem_of_getLast? h1))
    simp only [Option.getD_some, if_pos hwne, weightRun]
    cases parseFontWeight w with
    | error e => rfl
    | ok v =>
      cases Len.value {} (Len.ofString size) with
      | error e => rfl
      | ok v => by_cases hf : face = [] <;> simp [hf, Except.bind, bind, Except.map]

theorem item_ne {it : List Char × ℕ} (h : IsItem it) : it.1 ≠ [] := by
  rcases h with h | ⟨a, b, c, rfl, -⟩
  · have : ∀ it ∈ table, it.1 ≠ [] := by decide
    exact this it h
  · simp

/-! ### texts without a family -/

theorem family_needed (n s k) (q : St) (h : q ∈ run reFont ⟨n, s, k⟩) : ∃ fam ∈ families, fam <:+: s := by
  obtain ⟨q1, h1, h⟩ := List.mem_flatMap.1 h
  obtain ⟨q2, h2, h⟩ := List.mem_flatMap.1 h
  obtain ⟨q3, h3, h⟩ := List.mem_flatMap.1 h
  obtain ⟨q4, h4, h⟩ := List.mem_flatMap.1 h
  obtain ⟨q5, h5, h⟩ := List.mem_flatMap.1 h
  obtain ⟨q6, h6, h⟩ := List.mem_flatMap.1 h
  obtain ⟨q7, h7, h⟩ := List.mem_flatMap.1 h
  obtain ⟨q8, h8, h⟩ := List.mem_flatMap.1 h
  obtain ⟨q9, h9, -⟩ := List.mem_flatMap.1 h
  have suf : q8.rest <:+ s := (run_suffix _ _ _ h8).trans <| (run_suffix _ _ _ h7).trans <| (run_suffix _ _ _ h6).trans <|
    (run_suffix _ _ _ h5).trans <| (run_suffix _ _ _ h4).trans <| (run_suffix _ _ _ h3).trans <| (run_suffix _ _ _ h2).trans
    (run_suffix _ _ _ h1)
  have hn : first (.grp 8 (words families)) some q8 ≠ none := by
    rw [first, Ne, List.findSome?_eq_none_iff]
    intro hh
    exact absurd (hh q9 h9) (by simp)
  obtain ⟨n8, s8, k8⟩ := q8
  rw [first_words _ _ _ _ _ families (by decide), Ne, List.findSome?_eq_none_iff] at hn
  push Not at hn
  obtain ⟨w, hw, hne⟩ := hn
  refine ⟨w, hw, ?_⟩
  cases hl : litWord w s8 with
  | none => rw [hl] at hne; exact absurd rfl hne
  | some t =>
    have := litWord_append w s8 t hl
    exact List.IsInfix.trans ⟨[], t, by rw [this]; simp⟩ suf.isInfix

theorem findall_no_family : ∀ (fuel n : ℕ) (s : List Char), (∀ fam ∈ families, ¬ fam <:+: s) → findallAt reFont fuel n s = []
  | 0, _, _, _ => rfl
  | fuel + 1, n, s, h => by
    rw [findallAt.eq_def]
    have hm : matchAt reFont n s = none := by
      unfold matchAt
      cases hr : run reFont ⟨n, s, []⟩ with
      | nil => rfl
      | cons q l =>
        obtain ⟨fam, hf, hi⟩ := family_needed n s [] q (by rw [hr]; simp)
        exact absurd hi (h fam hf)
    simp only [hm]
    cases s with
    | nil => rfl
    | cons c t =>
      exact findall_no_family fuel (n + 1) t fun fam hf hi => h fam hf (hi.trans (List.suffix_cons c t).isInfix)

theorem parse_no_family (s : List Char) (h : ∀ fam ∈ families, ¬ fam <:+: s) : parseFont s = .error .indexError := by
  rw [parseFont_eq]
  simp only [findall, findall_no_family _ _ s h, ofMatches]

end Svgio.Font
