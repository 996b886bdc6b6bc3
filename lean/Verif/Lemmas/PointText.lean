import Verif.Lemmas.RegexMore
import Verif.Model.PointText

/-!
The pattern of a pair of coordinates.
-/

namespace Svgio.Regex

open Spec Color

/-- `(?:\s*,\s*|\s+|(?=-))` -/
def reGap : Re :=
  .alt (com .eps) (.alt (.cat (.rep 1 none reWs) .eps) (.cat (.ahead (.cat (one '-') .eps)) .eps))

/-- `(F)gap(F)` -/
def rePair : Re := .cat (.grp 1 reFloat) (.cat reGap (.cat (.grp 2 reFloat) .eps))

theorem pair_eq : REGEX_COORD_PAIR = some rePair := by decide +kernel

/-- what follows the first number -/
def gapNum (r : List Char) : Option (List Char × List Char) :=
  match Color.comma r with
  | some t => matchFloat t
  | none =>
    if r.takeWhile isWs = [] then (if r.head? = some '-' then matchFloat r else none) else matchFloat (skipWs r)

/-- a pair at the beginning -/
def pairAt (s : List Char) : Option (List Char × List Char) :=
  (matchFloat s).bind (fun p => (gapNum p.2).map (fun q => (p.1, q.1)))

/-- the groups of a pair -/
def groups2 (q : St) : Option (List Char) × Option (List Char) := (q.group 1, q.group 2)

/-- the second number, as a continuation -/
def K2 (st : St) : Option (Option (List Char) × Option (List Char)) :=
  (matchFloat st.rest).map (fun q => groups2 ⟨0, [], (2, q.1) :: st.caps⟩)

theorem groups2_eq (n n' : ℕ) (s s' : List Char) (k) : groups2 ⟨n, s, k⟩ = groups2 ⟨n', s', k⟩ := rfl

theorem first_second : first (.cat (.grp 2 reFloat) .eps) (fun q => some (groups2 q)) = K2 := by
  funext ⟨n, s, k⟩
  rw [first_cat, first_eps', first_float 2 _ n s k (Or.inl (by simp))]
  unfold K2
  cases matchFloat s with
  | none => rfl
  | some q => rfl

theorem stuck_K2 (p : Char → Prop) (hp : ∀ c, p c → c ≠ '+' ∧ c ≠ '-' ∧ c ≠ '.' ∧ ¬ IsDigit c) : Stuck p K2 := by
  rw [← first_second]
  exact stuck_float p 2 .eps _ hp

theorem first_ahead (K : St → Option (Option (List Char) × Option (List Char))) (n s k) :
    first (.cat (.ahead (.cat (one '-') .eps)) .eps) K ⟨n, s, k⟩ = if s.head? = some '-' then K ⟨n, s, k⟩ else none := by
  rw [first_cat, first_eps']
  unfold first
  rw [run, run]
  cases s with
  | nil => rfl
  | cons c t =>
    by_cases hc : c = '-'
    · subst hc
      simp [one, run, test, Item.test]
    · have : (test false [.range '-' '-'] c) = false := by
        simp only [test, Item.test, List.any_cons, List.any_nil, Bool.or_false, Bool.false_bne, Bool.and_eq_false_iff,
          decide_eq_false_iff_not]
        by_contra h
        push Not at h
        exact hc (Char.le_antisymm h.2 h.1)
      simp [one, run, this, hc]

theorem first_gap (n s k) : first reGap K2 ⟨n, s, k⟩ = (gapNum s).map (fun q => groups2 ⟨0, [], (2, q.1) :: k⟩) := by
  have hw : Stuck (fun c => isWs c = true) K2 := stuck_K2 _ ws_not_num
  obtain ⟨n', h1⟩ := first_com (.eps) K2 n s k (by rw [first_eps']; exact hw)
  rw [reGap, first_alt, first_alt, h1, first_eps', first_cat, first_eps', first_plus single_ws K2 n s k hw, first_ahead]
  unfold gapNum
  cases hc : Color.comma s with
  | none =>
    simp only [Option.none_or]
    by_cases h0 : s.takeWhile isWs = []
    · rw [if_pos h0, if_pos h0, Option.none_or]
      by_cases h1 : s.head? = some '-'
      · rw [if_pos h1, if_pos h1]; rfl
      · rw [if_neg h1, if_neg h1]; rfl
    · rw [if_neg h0, if_neg h0]
      have : ¬ s.head? = some '-' := by
        intro h
        cases s with
        | nil => cases h
        | cons c t =>
          rw [List.head?_cons, Option.some.injEq] at h
          subst h
          exact h0 (by rw [List.takeWhile_cons_of_neg (by decide)])
      rw [if_neg this, Option.or_none]
      rfl
  | some t =>
    have hs : ∃ u, skipWs s = ',' :: u := by
      unfold Color.comma at hc
      cases hk : skipWs s with
      | nil => rw [hk] at hc; simp [lit] at hc
      | cons c u =>
        rw [hk, lit_cons] at hc
        by_cases h : c = ','
        · exact ⟨u, by rw [h]⟩
        · rw [if_neg h] at hc; simp at hc
    obtain ⟨u, hu⟩ := hs
    have e2 : (if s.takeWhile isWs = [] then none
        else K2 ⟨n + (s.takeWhile isWs).length, s.dropWhile isWs, k⟩) = none := by
      split
      · rfl
      · refine stuck_K2 (fun c => c = ',') (by rintro c rfl; exact ⟨by decide, by decide, by decide, by unfold IsDigit; decide⟩) _
          ⟨',', u, hu, rfl⟩
    have e3 : (if s.head? = some '-' then K2 ⟨n, s, k⟩ else none) = none := by
      rw [if_neg]
      intro h
      cases s with
      | nil => cases h
      | cons c t =>
        rw [List.head?_cons, Option.some.injEq] at h
        subst h
        rw [skipWs, List.dropWhile_cons_of_neg (by decide)] at hu
        cases hu
    rw [e2, e3]
    simp only [Option.or_none]
    rfl

theorem stuck_gap : Stuck Cut (first reGap K2) := by
  rintro ⟨n, s, k⟩ ⟨c, t, e, hc⟩
  simp only at e
  subst e
  have hw := cut_not_ws c hc
  have h1 : c ≠ ',' := cut_ne c ',' hc (by decide)
  have h2 : c ≠ '-' := cut_ne c '-' hc (by decide)
  have hm : Color.comma (c :: t) = none := by
    rw [Color.comma, skipWs, List.dropWhile_cons_of_neg (by rw [hw]; decide), lit_cons, if_neg h1]; rfl
  rw [first_gap, gapNum, hm]
  simp only
  rw [if_pos (List.takeWhile_cons_of_neg (by rw [hw]; decide)), if_neg (by simpa using h2)]
  rfl

theorem pair_match (n : ℕ) (s : List Char) :
    (matchAt rePair n s).map groups2 = (pairAt s).map (fun g => (some g.1, some g.2)) := by
  have hk : first (.cat reGap (.cat (.grp 2 reFloat) .eps)) (fun q => (some q).map groups2) = first reGap K2 := by
    funext st
    rw [first_cat, ← first_second]
    rfl
  rw [matchAt_first, first_map, rePair, first_cat, hk, first_float 1 _ n s [] (Or.inr stuck_gap)]
  unfold pairAt
  cases matchFloat s with
  | none => rfl
  | some p =>
    obtain ⟨t, r⟩ := p
    simp only [Option.bind_some]
    rw [first_gap]
    cases gapNum r with
    | none => rfl
    | some q => rfl

/-- the first match of `findall` is at the first suffix that matches -/
theorem findall_tails {α : Type} (r : Re) (g : St → α) (f : List Char → Option α) (h : ∀ n s, (matchAt r n s).map g = f s) :
    ∀ (fuel n : ℕ) (s : List Char), s.length < fuel → (findallAt r fuel n s).head?.map g = s.tails.findSome? f
  | 0, n, s, hf => by omega
  | fuel + 1, n, [], _ => by
    have := h n []
    rw [findallAt]
    cases hm : matchAt r n [] with
    | none => rw [hm] at this; simp [← this]
    | some q => rw [hm] at this; simp [← this]
  | fuel + 1, n, c :: s, hf => by
    have := h n (c :: s)
    have ih := findall_tails r g f h fuel (n + 1) s (by simp at hf; omega)
    rw [findallAt]
    cases hm : matchAt r n (c :: s) with
    | none =>
      rw [hm] at this
      simp only [List.tails_cons, List.findSome?_cons, ← this, Option.map_none]
      exact ih
    | some q => rw [hm] at this; simp [← this]

end Svgio.Regex
