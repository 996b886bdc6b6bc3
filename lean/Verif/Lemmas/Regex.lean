import Verif.Model.Regex
import Mathlib.Tactic

/-!
Facts about the regular expressions of Model/Regex.lean: repetitions of one character, and the pattern of numbers.
-/

namespace Svgio.Regex

/-- the state behind the text `t` -/
def St.after (st : St) (t r : List Char) : St := ⟨st.pos + t.length, r, st.caps⟩

/-- the pattern matches exactly one character, one for which `p` holds -/
def Single (r : Re) (p : Char → Bool) : Prop :=
  ∀ (n : ℕ) (s : List Char) (k : List (ℕ × List Char)), run r ⟨n, s, k⟩ =
    match s with
    | [] => []
    | c :: t => if p c then [⟨n + 1, t, k⟩] else []

theorem single_set (neg : Bool) (is : List Item) (p : Char → Bool) (h : ∀ c, test neg is c = p c) :
    Single (.set neg is) p := by
  intro n s k
  cases s with
  | nil => rfl
  | cons c t => simp only [run, h]

theorem Single.nil {r p} (h : Single r p) (n k) : run r ⟨n, [], k⟩ = [] := h n [] k

theorem Single.yes {r p} (h : Single r p) (n c t k) (hc : p c = true) : run r ⟨n, c :: t, k⟩ = [⟨n + 1, t, k⟩] := by
  rw [h n (c :: t) k]; simp [hc]

theorem Single.no {r p} (h : Single r p) (n c t k) (hc : p c = false) : run r ⟨n, c :: t, k⟩ = [] := by
  rw [h n (c :: t) k]; simp [hc]

/-! ### repetitions -/

theorem star_fuel {r p} (h : Single r p) : ∀ (s : List Char) (f g n : ℕ) (k), s.length ≤ f → s.length ≤ g →
    repeated (run r) f 0 none ⟨n, s, k⟩ = repeated (run r) g 0 none ⟨n, s, k⟩
  | [], f, g, n, k, _, _ => by
    have : ∀ f, repeated (run r) f 0 none ⟨n, [], k⟩ = [⟨n, [], k⟩] := by
      intro f
      cases f with
      | zero => rfl
      | succ f => simp [repeated]
    rw [this f, this g]
  | c :: t, f, g, n, k, hf, hg => by
    obtain ⟨f, rfl⟩ : ∃ f', f = f' + 1 := ⟨f - 1, by simp at hf; omega⟩
    obtain ⟨g, rfl⟩ : ∃ g', g = g' + 1 := ⟨g - 1, by simp at hg; omega⟩
    simp only [List.length_cons, add_le_add_iff_right] at hf hg
    cases hc : p c with
    | false => simp [repeated, h.no n c t k hc]
    | true => simp [repeated, h.yes n c t k hc, star_fuel h t f g (n + 1) k hf hg]

theorem star_nil {r} (n k) : run (.rep 0 none r) ⟨n, [], k⟩ = [⟨n, [], k⟩] := by
  simp [run, repeated]

theorem star_yes {r p} (h : Single r p) (n c t k) (hc : p c = true) :
    run (.rep 0 none r) ⟨n, c :: t, k⟩ = run (.rep 0 none r) ⟨n + 1, t, k⟩ ++ [⟨n, c :: t, k⟩] := by
  have e : 0 + (c :: t).length = t.length + 1 := by simp
  simp only [run]
  rw [e]
  simp [repeated, h.yes n c t k hc]

theorem star_no {r p} (h : Single r p) (n c t k) (hc : p c = false) :
    run (.rep 0 none r) ⟨n, c :: t, k⟩ = [⟨n, c :: t, k⟩] := by
  have e : 0 + (c :: t).length = t.length + 1 := by simp
  simp only [run]
  rw [e]
  simp [repeated, h.no n c t k hc]

theorem plus_nil {r p} (h : Single r p) (n k) : run (.rep 1 none r) ⟨n, [], k⟩ = [] := by
  simp [run, repeated, h.nil n k]

theorem plus_yes {r p} (h : Single r p) (n c t k) (hc : p c = true) :
    run (.rep 1 none r) ⟨n, c :: t, k⟩ = run (.rep 0 none r) ⟨n + 1, t, k⟩ := by
  have e : 1 + (c :: t).length = (t.length + 1) + 1 := by simp; omega
  simp only [run]
  rw [e]
  simp only [repeated, h.yes n c t k hc]
  simp
  exact star_fuel h t (t.length + 1) t.length (n + 1) k (by omega) (le_refl _)

theorem plus_no {r p} (h : Single r p) (n c t k) (hc : p c = false) :
    run (.rep 1 none r) ⟨n, c :: t, k⟩ = [] := by
  have e : 1 + (c :: t).length = (t.length + 1) + 1 := by simp; omega
  simp only [run]
  rw [e]
  simp [repeated, h.no n c t k hc]

theorem opt_run (r : Re) (st : St) : run (.rep 0 (some 1) r) st =
    (run r st).filter (fun q => q.rest.length < st.rest.length) ++ [st] := by
  obtain ⟨n, s, k⟩ := st
  have z : ∀ f (q : St), repeated (run r) f 0 (some 0) q = [q] := by
    intro f q
    cases f <;> simp [repeated]
  cases s with
  | nil => simp [run, repeated]
  | cons c t =>
    have e : 0 + (c :: t).length = t.length + 1 := by simp
    simp only [run]
    rw [e]
    simp only [repeated, Option.map_some, Nat.sub_self, Nat.zero_sub, if_true]
    rw [if_neg (by simp)]
    congr 1
    have : repeated (run r) t.length 0 (some 0) = fun q => [q] := funext (z t.length)
    rw [this]
    simp

theorem opt_yes {r p} (h : Single r p) (n c t k) (hc : p c = true) :
    run (.rep 0 (some 1) r) ⟨n, c :: t, k⟩ = [⟨n + 1, t, k⟩, ⟨n, c :: t, k⟩] := by
  rw [opt_run, h.yes n c t k hc]; simp

theorem opt_no {r p} (h : Single r p) (n c t k) (hc : p c = false) :
    run (.rep 0 (some 1) r) ⟨n, c :: t, k⟩ = [⟨n, c :: t, k⟩] := by
  rw [opt_run, h.no n c t k hc]; simp

theorem opt_nil {r p} (h : Single r p) (n k) : run (.rep 0 (some 1) r) ⟨n, [], k⟩ = [⟨n, [], k⟩] := by
  rw [opt_run, h.nil n k]; simp

/-! ### lists of matches with a leader -/

/-- `x` comes first, and all others are the same or have a rest of the kind `B` -/
def Led (B : List Char → Prop) (x : St) (l : List St) : Prop := ∃ tl, l = x :: tl ∧ ∀ y ∈ tl, y = x ∨ B y.rest

theorem Led.self (B : List Char → Prop) (x : St) : Led B x [x] := ⟨[], rfl, by simp⟩

theorem Led.append {B x l m} (h : Led B x l) (hm : ∀ y ∈ m, y = x ∨ B y.rest) : Led B x (l ++ m) := by
  obtain ⟨tl, rfl, ht⟩ := h
  refine ⟨tl ++ m, rfl, fun y hy => ?_⟩
  rcases List.mem_append.1 hy with hy | hy
  · exact ht y hy
  · exact hm y hy

theorem Led.mem {B x l} (h : Led B x l) : ∀ y ∈ l, y = x ∨ B y.rest := by
  obtain ⟨tl, rfl, ht⟩ := h
  intro y hy
  rcases List.mem_cons.1 hy with rfl | hy
  · exact Or.inl rfl
  · exact ht y hy

theorem Led.mono {B C : List Char → Prop} {x l} (h : Led B x l) (hBC : ∀ s, B s → C s) : Led C x l := by
  obtain ⟨tl, rfl, ht⟩ := h
  exact ⟨tl, rfl, fun y hy => (ht y hy).imp id (hBC _)⟩

theorem Led.flatMap {B C : List Char → Prop} {x x' l} {f : St → List St} (h : Led B x l) (hx : Led C x' (f x))
    (hf : ∀ y ∈ l, B y.rest → ∀ z ∈ f y, z = x' ∨ C z.rest) : Led C x' (l.flatMap f) := by
  obtain ⟨tl, rfl, ht⟩ := h
  rw [List.flatMap_cons]
  refine hx.append fun z hz => ?_
  obtain ⟨y, hy, hz⟩ := List.mem_flatMap.1 hz
  rcases ht y hy with rfl | hb
  · exact hx.mem z hz
  · exact hf y (List.mem_cons_of_mem _ hy) hb z hz

theorem Led.find {B x l} {β : Type} (h : Led B x l) (k : St → Option β)
    (hk : k x ≠ none ∨ ∀ y, B y.rest → k y = none) : l.findSome? k = k x := by
  obtain ⟨tl, rfl, ht⟩ := h
  rw [List.findSome?_cons]
  cases hx : k x with
  | some b => rfl
  | none =>
    rcases hk with hk | hk
    · exact absurd hx hk
    · simp only
      rw [List.findSome?_eq_none_iff]
      intro y hy
      rcases ht y hy with rfl | hb
      · exact hx
      · exact hk y hb

theorem Led.head {B x l} (h : Led B x l) : l.head? = some x := by
  obtain ⟨tl, rfl, _⟩ := h
  rfl

/-- the rest begins with a character of the kind `p` -/
def Head (p : Char → Prop) (s : List Char) : Prop := ∃ c t, s = c :: t ∧ p c

/-- a greedy repetition of one character: all of them first -/
theorem star_led {r p} (h : Single r p) : ∀ (s : List Char) (n : ℕ) (k),
    Led (fun s' => Head (fun c => p c = true) s' ∧ s'.dropWhile p = s.dropWhile p)
      (St.after ⟨n, s, k⟩ (s.takeWhile p) (s.dropWhile p)) (run (.rep 0 none r) ⟨n, s, k⟩)
  | [], n, k => by
    rw [star_nil]
    exact Led.self _ _
  | c :: t, n, k => by
    cases hc : p c with
    | false =>
      rw [star_no h n c t k hc]
      simp only [List.takeWhile_cons, List.dropWhile_cons, hc, Bool.false_eq_true, if_false]
      exact Led.self _ _
    | true =>
      rw [star_yes h n c t k hc]
      have ih := star_led h t (n + 1) k
      have e : St.after ⟨n, c :: t, k⟩ ((c :: t).takeWhile p) ((c :: t).dropWhile p)
          = St.after ⟨n + 1, t, k⟩ (t.takeWhile p) (t.dropWhile p) := by
        simp [St.after, hc]; omega
      have e2 : (c :: t).dropWhile p = t.dropWhile p := by simp [hc]
      rw [e, e2]
      refine ih.append fun y hy => ?_
      rw [List.mem_singleton] at hy
      subst hy
      exact Or.inr ⟨⟨c, t, rfl, hc⟩, e2⟩

theorem star_led' {r p} (h : Single r p) (s : List Char) (n : ℕ) (k) :
    Led (Head (fun c => p c = true)) ⟨n + (s.takeWhile p).length, s.dropWhile p, k⟩ (run (.rep 0 none r) ⟨n, s, k⟩) :=
  (star_led h s n k).mono fun _ h => h.1

theorem plus_led {r p} (h : Single r p) (s : List Char) (n : ℕ) (k) (hs : s.takeWhile p ≠ []) :
    Led (fun s' => Head (fun c => p c = true) s' ∧ s'.dropWhile p = s.dropWhile p)
      (St.after ⟨n, s, k⟩ (s.takeWhile p) (s.dropWhile p)) (run (.rep 1 none r) ⟨n, s, k⟩) := by
  cases s with
  | nil => simp at hs
  | cons c t =>
    cases hc : p c with
    | false => simp [hc] at hs
    | true =>
      rw [plus_yes h n c t k hc]
      have ih := star_led h t (n + 1) k
      have e : St.after ⟨n, c :: t, k⟩ ((c :: t).takeWhile p) ((c :: t).dropWhile p)
          = St.after ⟨n + 1, t, k⟩ (t.takeWhile p) (t.dropWhile p) := by
        simp [St.after, hc]; omega
      have e2 : (c :: t).dropWhile p = t.dropWhile p := by simp [hc]
      rw [e, e2]
      exact ih

theorem plus_none {r p} (h : Single r p) (s : List Char) (n : ℕ) (k) (hs : s.takeWhile p = []) :
    run (.rep 1 none r) ⟨n, s, k⟩ = [] := by
  cases s with
  | nil => exact plus_nil h n k
  | cons c t =>
    cases hc : p c with
    | false => exact plus_no h n c t k hc
    | true => simp [hc] at hs

/-! ### numbers -/

/-- `[0-9]` -/
def reDig : Re := .set false [.range '0' '9']
/-- `[-+]` -/
def reSign : Re := .set false [.range '-' '-', .range '+' '+']
/-- `[eE]` -/
def reE : Re := .set false [.range 'e' 'e', .range 'E' 'E']
/-- `[eE][-+]?[0-9]+` -/
def reExp : Re := .cat reE (.cat (.rep 0 (some 1) reSign) (.cat (.rep 1 none reDig) .eps))
/-- `[0-9]*\.?[0-9]+` followed by `r` -/
def reMant (r : Re) : Re := .cat (.rep 0 none reDig) (.cat (.rep 0 (some 1) (one '.')) (.cat (.rep 1 none reDig) r))
/-- PATTERN_FLOAT -/
def reFloat : Re := .cat (.rep 0 (some 1) reSign) (reMant (.cat (.rep 0 (some 1) reExp) .eps))

theorem float_eq : REGEX_FLOAT = some reFloat := by decide +kernel

theorem char_range (a c : Char) : (decide (a ≤ c) && decide (c ≤ a)) = decide (c = a) := by
  rw [← Bool.decide_and]
  congr 1
  exact propext ⟨fun h => Char.le_antisymm h.2 h.1, fun h => by subst h; exact ⟨Char.le_refl _, Char.le_refl _⟩⟩

theorem single_one (a : Char) : Single (one a) (fun c => decide (c = a)) :=
  single_set _ _ _ fun c => by simp [test, Item.test, char_range]

theorem single_dig : Single reDig isDig := single_set _ _ _ fun c => by simp [test, Item.test, isDig]

theorem single_sign : Single reSign (fun c => decide (c = '-') || decide (c = '+')) :=
  single_set _ _ _ fun c => by simp [test, Item.test, char_range]

theorem single_e : Single reE (fun c => decide (c = 'e') || decide (c = 'E')) :=
  single_set _ _ _ fun c => by simp [test, Item.test, char_range]

theorem run_cat (a b : Re) (st : St) : run (.cat a b) st = (run a st).flatMap (run b) := rfl
theorem run_alt (a b : Re) (st : St) : run (.alt a b) st = run a st ++ run b st := rfl
theorem run_eps (st : St) : run .eps st = [st] := rfl
theorem run_cat_eps (a : Re) (st : St) : run (.cat a .eps) st = run a st := by
  rw [run_cat]
  have : run .eps = fun q => [q] := rfl
  rw [this]
  simp

/-- the mantissa alone -/
theorem mant_split (r : Re) (st : St) : run (reMant r) st = (run (reMant .eps) st).flatMap (run r) := by
  simp only [reMant, run_cat, List.flatMap_assoc, run_eps]
  simp
  rfl

theorem dot_not_dig : isDig '.' = false := by decide

/-- what can follow a number that is cut short, without its exponent -/
def MantBad : List Char → Prop := Head (fun c => isDig c = true ∨ c = '.')

theorem mant_cons (n c t k) (hc : isDig c = true) : run (reMant .eps) ⟨n, c :: t, k⟩
    = run (reMant .eps) ⟨n + 1, t, k⟩ ++ run (.rep 1 none reDig) ⟨n, c :: t, k⟩ := by
  have hd : decide (c = '.') = false := by
    rw [decide_eq_false_iff_not]
    rintro rfl
    exact absurd hc (by decide)
  simp only [reMant, run_cat (.rep 0 none reDig)]
  rw [star_yes single_dig n c t k hc, List.flatMap_append]
  congr 1
  simp only [List.flatMap_cons, List.flatMap_nil, List.append_nil]
  rw [run_cat, opt_no (single_one '.') n c t k hd]
  simp only [List.flatMap_cons, List.flatMap_nil, List.append_nil]
  rw [run_cat_eps]

theorem mant_stop (n c t k) (hc : isDig c = false) : run (reMant .eps) ⟨n, c :: t, k⟩
    = if c = '.' then run (.rep 1 none reDig) ⟨n + 1, t, k⟩ else [] := by
  simp only [reMant, run_cat (.rep 0 none reDig)]
  rw [star_no single_dig n c t k hc]
  simp only [List.flatMap_cons, List.flatMap_nil, List.append_nil]
  rw [run_cat]
  by_cases hd : c = '.'
  · subst hd
    rw [opt_yes (single_one '.') n _ t k (by simp), if_pos rfl]
    simp only [List.flatMap_cons, List.flatMap_nil, List.append_nil]
    rw [run_cat_eps, run_cat_eps, plus_no single_dig _ _ _ _ hc, List.append_nil]
  · rw [opt_no (single_one '.') n c t k (by simp [hd]), if_neg hd]
    simp only [List.flatMap_cons, List.flatMap_nil, List.append_nil]
    rw [run_cat_eps, plus_no single_dig _ _ _ _ hc]

theorem mant_end (n k) : run (reMant .eps) ⟨n, [], k⟩ = [] := by
  simp only [reMant, run_cat (.rep 0 none reDig)]
  rw [star_nil]
  simp only [List.flatMap_cons, List.flatMap_nil, List.append_nil]
  rw [run_cat, opt_nil (single_one '.')]
  simp only [List.flatMap_cons, List.flatMap_nil, List.append_nil]
  rw [run_cat_eps, plus_nil single_dig]


theorem takeMant_dig (c t) (hc : isDig c = true) : takeMant (c :: t)
    = match takeMant t with
      | none => some ([c], t)
      | some (m, r) => some (c :: m, r) := by
  have e1 : (c :: t).takeWhile isDig = c :: t.takeWhile isDig := by simp [hc]
  have e2 : (c :: t).dropWhile isDig = t.dropWhile isDig := by simp [hc]
  unfold takeMant
  simp only [e1, e2]
  have e3 := List.takeWhile_append_dropWhile (p := isDig) (l := t)
  generalize t.takeWhile isDig = ds at *
  generalize t.dropWhile isDig = r at *
  subst e3
  split
  · rename_i r
    by_cases hf : r.takeWhile isDig = []
    · by_cases hd : ds = []
      · subst hd; simp [hf]
      · simp [hf, hd]
    · simp [hf]
  · by_cases hd : ds = []
    · subst hd; simp
    · simp [hd]

theorem takeMant_stop (c t) (hc : isDig c = false) : takeMant (c :: t)
    = if c = '.' then (if t.takeWhile isDig = [] then none else some ('.' :: t.takeWhile isDig, t.dropWhile isDig))
      else none := by
  have e1 : (c :: t).takeWhile isDig = [] := by simp [hc]
  have e2 : (c :: t).dropWhile isDig = c :: t := by simp [hc]
  unfold takeMant
  simp only [e1, e2]
  by_cases hd : c = '.'
  · subst hd
    simp
  · rw [if_neg hd]
    split
    · rename_i h
      exact absurd (List.cons.inj h).1 hd
    · simp

theorem takeMant_shape (s m r) (h : takeMant s = some (m, r)) :
    (m = s.takeWhile isDig ∧ r = s.dropWhile isDig) ∨ MantBad (s.dropWhile isDig) := by
  unfold takeMant at h
  simp only at h
  split at h
  · rename_i e
    right
    rw [e]
    exact ⟨_, _, rfl, Or.inr rfl⟩
  · split at h
    · cases h
    · simp only [Option.some.injEq, Prod.mk.injEq] at h
      exact Or.inl ⟨h.1.symm, h.2.symm⟩

theorem takeMant_none (t) (h : takeMant t = none) : t.takeWhile isDig = [] := by
  cases t with
  | nil => rfl
  | cons c t =>
    cases hc : isDig c with
    | false => simp [hc]
    | true =>
      rw [takeMant_dig c t hc] at h
      split at h <;> cases h

/-- the mantissa: `takeMant` is the first match, all others leave a digit or a point -/
theorem mant_led : ∀ (s : List Char) (n : ℕ) (k),
    (takeMant s = none → run (reMant .eps) ⟨n, s, k⟩ = []) ∧
    ∀ m r, takeMant s = some (m, r) → Led MantBad ⟨n + m.length, r, k⟩ (run (reMant .eps) ⟨n, s, k⟩)
  | [], n, k => ⟨fun _ => mant_end n k, fun m r h => by simp [takeMant] at h⟩
  | c :: t, n, k => by
    cases hc : isDig c with
    | false =>
      rw [mant_stop n c t k hc, takeMant_stop c t hc]
      by_cases hd : c = '.'
      · rw [if_pos hd, if_pos hd]
        by_cases ht : t.takeWhile isDig = []
        · rw [if_pos ht]
          exact ⟨fun _ => plus_none single_dig t _ k ht, fun m r h => by cases h⟩
        · rw [if_neg ht]
          refine ⟨fun h => (Option.some_ne_none _ h).elim, fun m r h => ?_⟩
          simp only [Option.some.injEq, Prod.mk.injEq] at h
          obtain ⟨rfl, rfl⟩ := h
          have := plus_led single_dig t (n + 1) k ht
          rw [show St.after ⟨n + 1, t, k⟩ (t.takeWhile isDig) (t.dropWhile isDig)
            = ⟨n + ('.' :: t.takeWhile isDig).length, t.dropWhile isDig, k⟩ by simp [St.after]; omega] at this
          exact this.mono fun s hs => by
            obtain ⟨⟨c, t, e, h⟩, _⟩ := hs
            exact ⟨c, t, e, Or.inl h⟩
      · rw [if_neg hd, if_neg hd]
        exact ⟨fun _ => rfl, fun m r h => by cases h⟩
    | true =>
      obtain ⟨i1, i2⟩ := mant_led t (n + 1) k
      rw [mant_cons n c t k hc]
      have hp := plus_led single_dig (c :: t) n k (by simp [hc])
      refine ⟨fun h => ?_, fun m r h => ?_⟩
      · rw [takeMant_dig c t hc] at h
        split at h <;> cases h
      · have hs := takeMant_shape _ _ _ h
        rw [takeMant_dig c t hc] at h
        cases ht : takeMant t with
        | none =>
          rw [ht] at h
          simp only [Option.some.injEq, Prod.mk.injEq] at h
          obtain ⟨rfl, rfl⟩ := h
          rw [i1 ht, List.nil_append]
          have e := takeMant_none t ht
          have e2 : t.dropWhile isDig = t := by
            have := List.takeWhile_append_dropWhile (p := isDig) (l := t)
            rwa [e, List.nil_append] at this
          simp only [St.after, List.takeWhile_cons, List.dropWhile_cons, hc, if_true, e, e2] at hp
          exact hp.mono fun s hs => by
            obtain ⟨⟨c, t, e, h⟩, _⟩ := hs
            exact ⟨c, t, e, Or.inl h⟩
        | some q =>
          obtain ⟨m', r'⟩ := q
          rw [ht] at h
          simp only [Option.some.injEq, Prod.mk.injEq] at h
          obtain ⟨rfl, rfl⟩ := h
          have l1 := i2 m' r' ht
          rw [show n + 1 + m'.length = n + (c :: m').length by simp; omega] at l1
          refine l1.append fun y hy => ?_
          rcases hp.mem y hy with rfl | ⟨⟨c, t, e, h⟩, _⟩
          · rcases hs with ⟨e1, e2⟩ | hb
            · left
              rw [e1, e2]
              rfl
            · exact Or.inr hb
          · exact Or.inr ⟨c, t, e, Or.inl h⟩

/-! the exponent -/

theorem takeSign_eq (s : List Char) : takeSign s = match s with
    | [] => ([], [])
    | c :: t => if c = '-' ∨ c = '+' then ([c], t) else ([], c :: t) := by
  cases s with
  | nil => rfl
  | cons c t =>
    by_cases h1 : c = '-'
    · subst h1; simp [takeSign]
    · by_cases h2 : c = '+'
      · subst h2; simp [takeSign]
      · simp only [h1, h2, or_self, if_false]
        unfold takeSign
        split
        · rename_i h; exact absurd (List.cons.inj h).1 h1
        · rename_i h; exact absurd (List.cons.inj h).1 h2
        · rfl

/-- an optional sign, before a pattern that does not begin with a sign -/
theorem sign_then (b : Re) (n : ℕ) (s : List Char) (k)
    (hb : ∀ n c t k, c = '-' ∨ c = '+' → run b ⟨n, c :: t, k⟩ = []) :
    run (.cat (.rep 0 (some 1) reSign) b) ⟨n, s, k⟩
      = run b ⟨n + (takeSign s).1.length, (takeSign s).2, k⟩ := by
  rw [run_cat, takeSign_eq]
  cases s with
  | nil => rw [opt_nil single_sign]; simp
  | cons c t =>
    by_cases hc : c = '-' ∨ c = '+'
    · rw [opt_yes single_sign n c t k (by simpa using hc)]
      simp only [hc, if_true, List.flatMap_cons, List.flatMap_nil, List.append_nil]
      rw [hb n c t k hc, List.append_nil]
      rfl
    · rw [opt_no single_sign n c t k (by simpa using hc)]
      simp [hc]

theorem sign_not_dig (c : Char) (h : c = '-' ∨ c = '+') : isDig c = false := by
  rcases h with rfl | rfl <;> decide

/-- what can follow a number that is cut short -/
def FloatBad : List Char → Prop := Head (fun c => isDig c = true ∨ c = '.' ∨ c = 'e' ∨ c = 'E')

theorem exp_run (n : ℕ) (s : List Char) (k) : (takeExp s).1 = [] ∧ (takeExp s).2 = s ∧ run reExp ⟨n, s, k⟩ = [] ∨
    (takeExp s).1 ≠ [] ∧ (∃ c t, s = c :: t ∧ (c = 'e' ∨ c = 'E')) ∧ (takeExp s).1 ++ (takeExp s).2 = s ∧
    Led (Head (fun c => isDig c = true)) ⟨n + (takeExp s).1.length, (takeExp s).2, k⟩ (run reExp ⟨n, s, k⟩) := by
  cases s with
  | nil =>
    left
    refine ⟨rfl, rfl, ?_⟩
    rw [reExp, run_cat, single_e.nil]
    rfl
  | cons c t =>
    by_cases hc : c = 'e' ∨ c = 'E'
    · have er : run reExp ⟨n, c :: t, k⟩
          = run (.rep 1 none reDig) ⟨n + 1 + (takeSign t).1.length, (takeSign t).2, k⟩ := by
        rw [reExp, run_cat, single_e.yes n c t k (by simpa using hc)]
        simp only [List.flatMap_cons, List.flatMap_nil, List.append_nil]
        rw [sign_then, run_cat_eps]
        intro n c t k h
        rw [run_cat_eps]
        exact plus_no single_dig n c t k (sign_not_dig c h)
      rw [er]
      simp only [takeExp, hc, if_true]
      have e0 : (takeSign t).1 ++ (takeSign t).2 = t := by
        rw [takeSign_eq]
        cases t with
        | nil => rfl
        | cons d t =>
          by_cases hd : d = '-' ∨ d = '+'
          · simp [hd]
          · simp [hd]
      by_cases hd : (takeSign t).2.takeWhile isDig = []
      · left
        simp only [hd, if_true]
        exact ⟨trivial, trivial, plus_none single_dig _ _ _ hd⟩
      · right
        simp only [hd, if_false]
        refine ⟨by simp, ⟨c, t, rfl, hc⟩, ?_, ?_⟩
        · rw [List.cons_append, List.append_assoc, List.takeWhile_append_dropWhile, e0]
        · have := plus_led single_dig (takeSign t).2 (n + 1 + (takeSign t).1.length) k hd
          rw [show St.after ⟨n + 1 + (takeSign t).1.length, (takeSign t).2, k⟩ ((takeSign t).2.takeWhile isDig)
              ((takeSign t).2.dropWhile isDig)
            = ⟨n + (c :: ((takeSign t).1 ++ (takeSign t).2.takeWhile isDig)).length, (takeSign t).2.dropWhile isDig, k⟩
            by simp [St.after]; omega] at this
          exact this.mono fun s hs => hs.1
    · left
      simp only [takeExp, hc, if_false]
      refine ⟨trivial, trivial, ?_⟩
      rw [reExp, run_cat, single_e.no n c t k (by simpa using hc)]
      rfl

theorem exp_led (n : ℕ) (s : List Char) (k) :
    Led FloatBad ⟨n + (takeExp s).1.length, (takeExp s).2, k⟩ (run (.cat (.rep 0 (some 1) reExp) .eps) ⟨n, s, k⟩) := by
  rw [run_cat_eps, opt_run]
  rcases exp_run n s k with ⟨h1, h2, h3⟩ | ⟨h1, ⟨c, t, hs, hc⟩, h2, h3⟩
  · rw [h1, h2, h3]
    exact Led.self _ _
  · obtain ⟨tl, hl, ht⟩ := h3
    have hlen : (takeExp s).2.length < s.length := by
      conv_rhs => rw [← h2]
      rw [List.length_append]
      have := List.length_pos_iff.2 h1
      omega
    rw [hl]
    refine Led.append (l := List.filter _ _) ⟨tl.filter (fun q => q.rest.length < s.length), ?_, ?_⟩ ?_
    · rw [List.filter_cons_of_pos (by simpa using hlen)]
    · intro y hy
      refine (ht y (List.mem_of_mem_filter hy)).imp id ?_
      rintro ⟨c, t, e, h⟩
      exact ⟨c, t, e, Or.inl h⟩
    · intro y hy
      rw [List.mem_singleton] at hy
      subst hy
      exact Or.inr ⟨c, t, hs, hc.elim (fun h => Or.inr (Or.inr (Or.inl h))) (fun h => Or.inr (Or.inr (Or.inr h)))⟩

theorem exp_none (st : St) (h : MantBad st.rest) : run (.cat (.rep 0 (some 1) reExp) .eps) st = [st] := by
  obtain ⟨n, s, k⟩ := st
  obtain ⟨c, t, e, hc⟩ := h
  simp only at e
  subst e
  have hn : ¬ (c = 'e' ∨ c = 'E') := by
    rcases hc with hc | rfl
    · rintro (rfl | rfl) <;> exact absurd hc (by decide)
    · decide
  rw [run_cat_eps, opt_run, reExp, run_cat, single_e.no n c t k (by simpa using hn)]
  rfl

theorem mant_sign (n c t k) (h : c = '-' ∨ c = '+') (r : Re) : run (reMant r) ⟨n, c :: t, k⟩ = [] := by
  rw [mant_split, mant_stop n c t k (sign_not_dig c h), if_neg (by rcases h with rfl | rfl <;> decide)]
  rfl

/-- **numbers**: `matchFloat` is the first match of the pattern, and every other match is cut short before a digit, a
point, or an exponent -/
theorem float_led (n : ℕ) (s : List Char) (k) :
    (matchFloat s = none → run reFloat ⟨n, s, k⟩ = []) ∧
    ∀ t r, matchFloat s = some (t, r) → Led FloatBad ⟨n + t.length, r, k⟩ (run reFloat ⟨n, s, k⟩) := by
  have e : run reFloat ⟨n, s, k⟩ = run (reMant (.cat (.rep 0 (some 1) reExp) .eps))
      ⟨n + (takeSign s).1.length, (takeSign s).2, k⟩ := by
    rw [reFloat, sign_then]
    intro n c t k h
    exact mant_sign n c t k h _
  rw [e, mant_split]
  obtain ⟨m1, m2⟩ := mant_led (takeSign s).2 (n + (takeSign s).1.length) k
  unfold matchFloat
  simp only
  cases hm : takeMant (takeSign s).2 with
  | none =>
    simp only
    refine ⟨fun _ => by rw [m1 hm]; rfl, fun t r h => by cases h⟩
  | some q =>
    obtain ⟨m, r⟩ := q
    simp only
    refine ⟨fun h => (Option.some_ne_none _ h).elim, fun t r' h => ?_⟩
    simp only [Option.some.injEq, Prod.mk.injEq] at h
    obtain ⟨rfl, rfl⟩ := h
    have l1 := m2 m r hm
    have l2 := exp_led (n + (takeSign s).1.length + m.length) r k
    rw [show n + (takeSign s).1.length + m.length + (takeExp r).1.length
      = n + ((takeSign s).1 ++ m ++ (takeExp r).1).length by simp; omega] at l2
    refine l1.flatMap l2 fun y _ hb z hz => ?_
    rw [exp_none y hb, List.mem_singleton] at hz
    subst hz
    obtain ⟨c, t, e, h⟩ := hb
    exact Or.inr ⟨c, t, e, h.elim Or.inl (fun h => Or.inr (Or.inl h))⟩

end Svgio.Regex
