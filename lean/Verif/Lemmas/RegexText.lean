import Verif.Lemmas.Regex
import Verif.Lemmas.Number
import Verif.Lemmas.PathLex

/-!
The matchers of the model against the patterns of the library.
-/

namespace Svgio.Regex

open Color (isWs skipWs lit litWord)
open Spec Lexer

/-- the first match after which `K` succeeds -/
def first {β : Type} (r : Re) (K : St → Option β) (st : St) : Option β := (run r st).findSome? K

variable {β : Type}

theorem findSome_flatMap {α γ : Type} (l : List α) (f : α → List γ) (K : γ → Option β) :
    (l.flatMap f).findSome? K = l.findSome? (fun a => (f a).findSome? K) := by
  induction l with
  | nil => rfl
  | cons a l ih =>
    rw [List.flatMap_cons, List.findSome?_append, List.findSome?_cons, ih]
    cases (f a).findSome? K <;> rfl

theorem first_cat (a b : Re) (K : St → Option β) (st : St) : first (.cat a b) K st = first a (first b K) st := by
  simp only [first, run_cat, findSome_flatMap]
  rfl

theorem first_alt (a b : Re) (K : St → Option β) (st : St) :
    first (.alt a b) K st = (first a K st).or (first b K st) := by
  simp only [first, run_alt, List.findSome?_append]

theorem first_eps (K : St → Option β) (st : St) : first .eps K st = K st := by
  simp only [first, run_eps, List.findSome?_cons, List.findSome?_nil]
  cases K st <;> rfl

theorem first_eps' (K : St → Option β) : first .eps K = K := funext (first_eps K)

theorem matchAt_first (r : Re) (n : ℕ) (s : List Char) : matchAt r n s = first r some ⟨n, s, []⟩ := by
  simp only [matchAt, first]
  cases run r ⟨n, s, []⟩ <;> rfl

theorem first_map {γ : Type} (r : Re) (K : St → Option β) (g : β → γ) (st : St) :
    (first r K st).map g = first r (fun q => (K q).map g) st := by
  simp only [first]
  induction run r st with
  | nil => rfl
  | cons a l ih =>
    rw [List.findSome?_cons, List.findSome?_cons]
    cases K a with
    | none => exact ih
    | some b => rfl

theorem first_single {r p} (h : Single r p) (K : St → Option β) (n s k) : first r K ⟨n, s, k⟩ =
    match s with
    | [] => none
    | c :: t => if p c then K ⟨n + 1, t, k⟩ else none := by
  cases s with
  | nil => simp only [first, h.nil]; rfl
  | cons c t =>
    cases hc : p c with
    | false => simp [first, h.no n c t k hc, hc]
    | true =>
      simp only [first, h.yes n c t k hc, List.findSome?_cons, List.findSome?_nil, hc, if_true]
      cases K ⟨n + 1, t, k⟩ <;> rfl

theorem first_one (a : Char) (K : St → Option β) (n s k) : first (one a) K ⟨n, s, k⟩ =
    match lit a s with
    | none => none
    | some t => K ⟨n + 1, t, k⟩ := by
  rw [first_single (single_one a)]
  cases s with
  | nil => rfl
  | cons c t =>
    by_cases h : c = a
    · simp [lit, h]
    · simp [lit, h]

/-! ### what cannot go on -/

/-- `K` fails where the text begins with a character of the kind `p` -/
def Stuck (p : Char → Prop) (K : St → Option β) : Prop := ∀ q : St, Head p q.rest → K q = none

theorem stuck_one (p : Char → Prop) (a : Char) (b : Re) (K : St → Option β) (h : ¬ p a) :
    Stuck p (first (.cat (one a) b) K) := by
  rintro ⟨n, s, k⟩ ⟨c, t, rfl, hc⟩
  rw [first_cat, first_one]
  have : c ≠ a := fun e => h (e ▸ hc)
  simp [lit, this]

theorem stuck_star {r w} (hr : Single r w) (p : Char → Prop) (b : Re) (K : St → Option β) (hp : ∀ c, p c → w c = false)
    (h : Stuck p (first b K)) : Stuck p (first (.cat (.rep 0 none r) b) K) := by
  rintro ⟨n, s, k⟩ ⟨c, t, rfl, hc⟩
  rw [first_cat, first, star_no hr n c t k (hp c hc)]
  simp only [List.findSome?_cons, List.findSome?_nil]
  rw [h _ ⟨c, t, rfl, hc⟩]

theorem stuck_float (p : Char → Prop) (i : ℕ) (b : Re) (K : St → Option β)
    (hp : ∀ c, p c → c ≠ '+' ∧ c ≠ '-' ∧ c ≠ '.' ∧ ¬ IsDigit c) :
    Stuck p (first (.cat (.grp i reFloat) b) K) := by
  rintro ⟨n, s, k⟩ ⟨c, t, rfl, hc⟩
  rw [first_cat, first, run, (float_led n (c :: t) k).1 (matchFloat_cons_none (hp c hc))]
  rfl

/-! ### parts of patterns -/

theorem first_star {r w} (hr : Single r w) (K : St → Option β) (n s k) (h : Stuck (fun c => w c = true) K) :
    first (.rep 0 none r) K ⟨n, s, k⟩ = K ⟨n + (s.takeWhile w).length, s.dropWhile w, k⟩ :=
  (star_led' hr s n k).find K (Or.inr h)

theorem first_star_all {r w} (hr : Single r w) (K : St → Option β) (n s k) (h : ∀ q, K q ≠ none) :
    first (.rep 0 none r) K ⟨n, s, k⟩ = K ⟨n + (s.takeWhile w).length, s.dropWhile w, k⟩ :=
  (star_led' hr s n k).find K (Or.inl (h _))

theorem first_plus {r w} (hr : Single r w) (K : St → Option β) (n s k) (h : Stuck (fun c => w c = true) K) :
    first (.rep 1 none r) K ⟨n, s, k⟩
      = if s.takeWhile w = [] then none else K ⟨n + (s.takeWhile w).length, s.dropWhile w, k⟩ := by
  by_cases hs : s.takeWhile w = []
  · rw [first, plus_none hr s n k hs, if_pos hs]; rfl
  · rw [if_neg hs]
    exact ((plus_led hr s n k hs).mono fun s h => h.1).find K (Or.inr h)

theorem Led.map {B x l} (h : Led B x l) (f : St → St) (hf : ∀ q, (f q).rest = q.rest) : Led B (f x) (l.map f) := by
  obtain ⟨tl, rfl, ht⟩ := h
  refine ⟨tl.map f, rfl, fun y hy => ?_⟩
  obtain ⟨q, hq, rfl⟩ := List.mem_map.1 hy
  rcases ht q hq with rfl | hb
  · exact Or.inl rfl
  · right; rw [hf]; exact hb

theorem take_sub {s t r : List Char} (h : s = t ++ r) : s.take (s.length - r.length) = t := by
  subst h; simp

theorem float_grp_led (i n s k t r) (h : matchFloat s = some (t, r)) :
    Led FloatBad ⟨n + t.length, r, (i, t) :: k⟩ (run (.grp i reFloat) ⟨n, s, k⟩) := by
  have := ((float_led n s k).2 t r h).map
    (fun q => { q with caps := (i, s.take (s.length - q.rest.length)) :: q.caps }) (fun q => rfl)
  simp only [take_sub (matchFloat_sound h).1] at this
  exact this

theorem first_float (i : ℕ) (K : St → Option β) (n s k)
    (h : (∀ q, K q ≠ none) ∨ Stuck (fun c => isDig c = true ∨ c = '.' ∨ c = 'e' ∨ c = 'E') K) :
    first (.grp i reFloat) K ⟨n, s, k⟩ =
    match matchFloat s with
    | none => none
    | some (t, r) => K ⟨n + t.length, r, (i, t) :: k⟩ := by
  cases hm : matchFloat s with
  | none =>
    rw [first, run, (float_led n s k).1 hm]
    rfl
  | some q =>
    obtain ⟨t, r⟩ := q
    exact (float_grp_led i n s k t r hm).find K (h.imp (fun h => h _) (fun h q hq => h q hq))

/-- a literal word before `r` -/
def word (w : List Char) (r : Re) : Re := w.foldr (fun c r => .cat (one c) r) r

theorem first_word (r : Re) (K : St → Option β) (k) : ∀ (w : List Char) (n : ℕ) (s : List Char),
    first (word w r) K ⟨n, s, k⟩ =
    match litWord w s with
    | none => none
    | some t => first r K ⟨n + w.length, t, k⟩
  | [], n, s => rfl
  | c :: w, n, s => by
    change first (.cat (one c) (word w r)) K ⟨n, s, k⟩ = _
    rw [first_cat, first_one]
    simp only [litWord]
    cases lit c s with
    | none => rfl
    | some t =>
      simp only [Option.bind_some]
      rw [first_word r K k w (n + 1) t]
      have : n + 1 + w.length = n + (c :: w).length := by simp; omega
      rw [this]

/-! ### matching never goes back -/

theorem repeated_le {f : St → List St} : ∀ (fuel lo : ℕ) (hi : Option ℕ) (st : St),
    ∀ q ∈ repeated f fuel lo hi st, q.rest.length ≤ st.rest.length
  | 0, lo, hi, st, q, hq => by
    simp only [repeated, List.mem_singleton] at hq
    rw [hq]
  | fuel + 1, lo, hi, st, q, hq => by
    simp only [repeated] at hq
    have key : ∀ q ∈ ((f st).filter (fun q => q.rest.length < st.rest.length)).flatMap
        (repeated f fuel (lo - 1) (hi.map (· - 1))), q.rest.length ≤ st.rest.length := by
      intro q hq
      obtain ⟨y, hy, hq⟩ := List.mem_flatMap.1 hq
      have h1 := repeated_le fuel _ _ y q hq
      have h2 : y.rest.length < st.rest.length := by simpa using (List.mem_filter.1 hy).2
      omega
    split at hq
    · rw [List.mem_singleton.1 hq]
    · split at hq
      · rcases List.mem_append.1 hq with hq | hq
        · exact key q hq
        · rw [List.mem_singleton.1 hq]
      · exact key q hq

theorem run_le : ∀ (r : Re) (st : St), ∀ q ∈ run r st, q.rest.length ≤ st.rest.length
  | .eps, st, q, hq => by rw [run, List.mem_singleton] at hq; rw [hq]
  | .set neg is, ⟨n, s, k⟩, q, hq => by
    cases s with
    | nil => simp [run] at hq
    | cons c t =>
      simp only [run] at hq
      split at hq
      · rw [List.mem_singleton] at hq; rw [hq]; simp
      · cases hq
  | .cat a b, st, q, hq => by
    obtain ⟨y, hy, hq⟩ := List.mem_flatMap.1 hq
    exact (run_le b y q hq).trans (run_le a st y hy)
  | .alt a b, st, q, hq => by
    rcases List.mem_append.1 hq with hq | hq
    · exact run_le a st q hq
    · exact run_le b st q hq
  | .rep lo hi r, st, q, hq => repeated_le _ _ _ _ q hq
  | .grp n r, st, q, hq => by
    obtain ⟨y, hy, rfl⟩ := List.mem_map.1 hq
    exact run_le r st y hy
  | .ahead r, st, q, hq => by
    rw [run] at hq
    split at hq
    · cases hq
    · rw [List.mem_singleton.1 hq]
  | .bol, st, q, hq => by
    rw [run] at hq
    split at hq
    · rw [List.mem_singleton.1 hq]
    · cases hq
  | .eol, st, q, hq => by
    rw [run] at hq
    split at hq
    · rw [List.mem_singleton.1 hq]
    · cases hq

/-- an optional part that begins with a literal character -/
theorem first_opt_lit (a : Char) (g : Re) (K : St → Option β) (st : St) :
    first (.rep 0 (some 1) (.cat (one a) g)) K st = (first (.cat (one a) g) K st).or (K st) := by
  have : (run (.cat (one a) g) st).filter (fun q => q.rest.length < st.rest.length) = run (.cat (one a) g) st := by
    rw [List.filter_eq_self]
    intro q hq
    obtain ⟨y, hy, hq⟩ := List.mem_flatMap.1 hq
    have h1 := run_le g y q hq
    obtain ⟨n, s, k⟩ := st
    rw [single_one a n s k] at hy
    cases s with
    | nil => cases hy
    | cons c t =>
      simp only at hy
      split at hy
      · rw [List.mem_singleton] at hy
        subst hy
        simp only [List.length_cons, decide_eq_true_eq] at h1 ⊢
        omega
      · cases hy
  rw [first, opt_run, this, List.findSome?_append, first]
  congr 1
  simp only [List.findSome?_cons, List.findSome?_nil]
  cases K st <;> rfl

theorem first_opt {r w} (hr : Single r w) (K : St → Option β) (n s k) :
    first (.rep 0 (some 1) r) K ⟨n, s, k⟩ =
    match s with
    | [] => K ⟨n, [], k⟩
    | c :: t => if w c then (K ⟨n + 1, t, k⟩).or (K ⟨n, c :: t, k⟩) else K ⟨n, c :: t, k⟩ := by
  cases s with
  | nil =>
    rw [first, opt_nil hr]
    simp only [List.findSome?_cons, List.findSome?_nil]
    cases K ⟨n, [], k⟩ <;> rfl
  | cons c t =>
    cases hc : w c with
    | true =>
      rw [first, opt_yes hr n c t k hc]
      simp only [List.findSome?_cons, List.findSome?_nil, hc, if_true]
      cases K ⟨n + 1, t, k⟩ <;> cases K ⟨n, c :: t, k⟩ <;> rfl
    | false =>
      rw [first, opt_no hr n c t k hc]
      simp only [List.findSome?_cons, List.findSome?_nil, hc, Bool.false_eq_true, if_false]
      cases K ⟨n, c :: t, k⟩ <;> rfl

/-! ### white space -/

/-- `\s` -/
def reWs : Re := .set false [.space]

theorem single_ws : Single reWs isWs := single_set _ _ _ fun c => by simp [test, Item.test]

theorem ws_not_num (c : Char) (h : isWs c = true) : c ≠ '+' ∧ c ≠ '-' ∧ c ≠ '.' ∧ ¬ IsDigit c := by
  refine ⟨?_, ?_, ?_, ?_⟩
  · rintro rfl; exact absurd h (by decide)
  · rintro rfl; exact absurd h (by decide)
  · rintro rfl; exact absurd h (by decide)
  · intro hd
    have : ∀ n, 48 ≤ n → n ≤ 57 → c.toNat = n → False := by
      intro n h1 h2 e
      rw [isWs] at h
      simp only [e] at h
      interval_cases n <;> simp at h
    exact this c.toNat hd.1 hd.2 rfl


/-- `\s*` before `r` -/
def ws (r : Re) : Re := .cat (.rep 0 none reWs) r

theorem first_ws (r : Re) (K : St → Option β) (n s k) (h : Stuck (fun c => isWs c = true) (first r K)) :
    first (ws r) K ⟨n, s, k⟩ = first r K ⟨n + (s.takeWhile isWs).length, skipWs s, k⟩ := by
  rw [ws, first_cat, first_star single_ws _ _ _ _ h]
  rfl

/-! ### functional notations of colours -/

/-- `%` before `r`, or nothing -/
def pct (p : Bool) (r : Re) : Re := if p then .cat (one '%') r else r

/-- `\s*,\s*` before `r` -/
def com (r : Re) : Re := ws (.cat (one ',') (ws r))

/-- `(?:,\s*(F)\s*)?\)` -/
def reLast : Re :=
  .cat (.rep 0 (some 1) (.cat (one ',') (ws (.cat (.grp 4 reFloat) (ws .eps))))) (.cat (one ')') .eps)

/-- `(F)p\s*,\s*` before `r` -/
def reArg (i : ℕ) (p : Bool) (r : Re) : Re := .cat (.grp i reFloat) (pct p (com r))

/-- the patterns of constants.py:166-177 -/
def reFun (name : List Char) (p1 p2 p3 : Bool) : Re :=
  word name (.cat (.rep 0 (some 1) (one 'a')) (.cat (one '(') (ws (reArg 1 p1 (reArg 2 p2
    (.cat (.grp 3 reFloat) (pct p3 (ws reLast))))))))

theorem rgb_eq : REGEX_COLOR_RGB = some (reFun "rgb".toList false false false) := by decide +kernel
theorem rgbp_eq : REGEX_COLOR_RGB_PERCENT = some (reFun "rgb".toList true true true) := by decide +kernel
theorem hsl_eq : REGEX_COLOR_HSL = some (reFun "hsl".toList false true true) := by decide +kernel

/-- what follows a number that is cut short -/
abbrev Cut (c : Char) : Prop := isDig c = true ∨ c = '.' ∨ c = 'e' ∨ c = 'E'

theorem cut_not_ws (c : Char) (h : Cut c) : isWs c = false := by
  rcases h with h | rfl | rfl | rfl
  · cases hw : isWs c with
    | false => rfl
    | true =>
      have := (ws_not_num c hw).2.2.2
      rw [isDig, Bool.and_eq_true, decide_eq_true_eq, decide_eq_true_eq] at h
      exact absurd h this
  · decide
  · decide
  · decide

theorem cut_ne (c a : Char) (h : Cut c) (ha : isDig a = false ∧ a ≠ '.' ∧ a ≠ 'e' ∧ a ≠ 'E') : c ≠ a := by
  rintro rfl
  rcases h with h | h | h | h
  · rw [ha.1] at h; cases h
  · exact ha.2.1 h
  · exact ha.2.2.1 h
  · exact ha.2.2.2 h

theorem stuck_com_cut (r : Re) (K : St → Option β) : Stuck Cut (first (com r) K) :=
  stuck_star single_ws _ _ _ cut_not_ws (stuck_one _ _ _ _ (fun h => cut_ne _ ',' h (by decide) rfl))

theorem stuck_pct_cut (p : Bool) (r : Re) (K : St → Option β) (h : Stuck Cut (first r K)) :
    Stuck Cut (first (pct p r) K) := by
  cases p with
  | false => exact h
  | true => exact stuck_one _ _ _ _ (fun h => cut_ne _ '%' h (by decide) rfl)

theorem first_pct (p : Bool) (r : Re) (K : St → Option β) (n s k) : first (pct p r) K ⟨n, s, k⟩ =
    if p then (match lit '%' s with
      | none => none
      | some t => first r K ⟨n + 1, t, k⟩)
    else first r K ⟨n, s, k⟩ := by
  cases p with
  | false => rfl
  | true => simp only [pct, if_true, first_cat, first_one]

theorem first_num (i : ℕ) (p : Bool) (r : Re) (K : St → Option β) (n s k) (h : Stuck Cut (first r K)) :
    ∃ n' : List Char → List Char → ℕ, first (.cat (.grp i reFloat) (pct p r)) K ⟨n, s, k⟩ =
    match Color.num p s with
    | none => none
    | some (v, t) => first r K ⟨n' v t, t, (i, v) :: k⟩ := by
  refine ⟨fun v t => n + v.length + (if p then 1 else 0), ?_⟩
  rw [first_cat, first_float _ _ _ _ _ (Or.inr (stuck_pct_cut p r K h))]
  unfold Color.num
  cases matchFloat s with
  | none => rfl
  | some q =>
    obtain ⟨v, t⟩ := q
    simp only [first_pct]
    cases p with
    | false => rfl
    | true =>
      simp only [if_true]
      cases lit '%' t <;> rfl

theorem first_com (r : Re) (K : St → Option β) (n s k) (h : Stuck (fun c => isWs c = true) (first r K)) :
    ∃ n' : ℕ, first (com r) K ⟨n, s, k⟩ =
    match Color.comma s with
    | none => none
    | some t => first r K ⟨n', t, k⟩ := by
  rw [com, first_ws]
  swap
  · exact stuck_one _ _ _ _ (by decide)
  rw [first_cat, first_one]
  unfold Color.comma
  cases lit ',' (skipWs s) with
  | none => exact ⟨0, rfl⟩
  | some t =>
    simp only [Option.map_some]
    exact ⟨_, first_ws r K _ t k h⟩

theorem lit_cons (c a : Char) (t : List Char) : lit a (c :: t) = if c = a then some t else none := rfl

theorem skipWs_head (s : List Char) (c : Char) (t : List Char) (h : skipWs s = c :: t) : isWs c = false := by
  have := List.head?_dropWhile_not isWs s
  rw [show s.dropWhile isWs = c :: t from h] at this
  simpa using this

theorem first_close (K : St → Option β) (n s k) : first (.cat (one ')') .eps) K ⟨n, s, k⟩ =
    match lit ')' s with
    | none => none
    | some u => K ⟨n + 1, u, k⟩ := by
  rw [first_cat, first_eps', first_one]

theorem stuck_close (p : Char → Prop) (K : St → Option β) (h : ¬ p ')') : Stuck p (first (.cat (one ')') .eps) K) :=
  stuck_one _ _ _ _ h

theorem num_false (s : List Char) : Color.num false s = matchFloat s := by
  unfold Color.num
  cases matchFloat s <;> rfl

/-- `,\s*(F)\s*` and then the closing parenthesis -/
theorem first_fourth (K : St → Option β) (n r k) :
    ∃ n' : ℕ, first (.cat (one ',') (ws (.cat (.grp 4 reFloat) (ws .eps)))) (first (.cat (one ')') .eps) K) ⟨n, ',' :: r, k⟩ =
    match Color.num false (skipWs r) with
    | none => none
    | some (v, t) =>
      match lit ')' (skipWs t) with
      | none => none
      | some u => K ⟨n', u, (4, v) :: k⟩ := by
  rw [first_cat, first_one, lit_cons, if_pos rfl]
  simp only
  rw [first_ws]
  swap
  · exact stuck_float _ _ _ _ ws_not_num
  rw [first_cat]
  have hw : first (ws .eps) (first (.cat (one ')') .eps) K)
      = fun q => first (.cat (one ')') .eps) K ⟨q.pos + (q.rest.takeWhile isWs).length, skipWs q.rest, q.caps⟩ := by
    funext q
    obtain ⟨a, b, c⟩ := q
    rw [first_ws]
    · rw [first_eps]
    · rw [first_eps']
      exact stuck_close _ _ (by decide)
  rw [first_float, num_false]
  swap
  · right
    refine stuck_star single_ws _ _ _ cut_not_ws ?_
    rw [first_eps']
    exact stuck_close _ _ (fun h => cut_ne _ ')' h (by decide) rfl)
  cases matchFloat (skipWs r) with
  | none => exact ⟨0, rfl⟩
  | some q =>
    obtain ⟨v, t⟩ := q
    simp only [hw, first_close]
    exact ⟨_, rfl⟩

theorem first_last (K : St → Option β) (n s k) :
    ∃ n' m' : ℕ, first (ws reLast) K ⟨n, s, k⟩ =
    match skipWs s with
    | [] => none
    | c :: r =>
      if c = ',' then
        match Color.num false (skipWs r) with
        | none => none
        | some (v, t) =>
          match lit ')' (skipWs t) with
          | none => none
          | some u => K ⟨n', u, (4, v) :: k⟩
      else
        match lit ')' (c :: r) with
        | none => none
        | some u => K ⟨m', u, k⟩ := by
  have hl : ∀ n s k, first reLast K ⟨n, s, k⟩
      = (first (.cat (one ',') (ws (.cat (.grp 4 reFloat) (ws .eps)))) (first (.cat (one ')') .eps) K) ⟨n, s, k⟩).or
        (first (.cat (one ')') .eps) K ⟨n, s, k⟩) := by
    intro n s k
    rw [reLast, first_cat, first_opt_lit]
  rw [first_ws]
  swap
  · rintro ⟨n, s, k⟩ ⟨c, t, rfl, hc⟩
    rw [hl, stuck_one (fun c => isWs c = true) _ _ _ (by decide) _ ⟨c, t, rfl, hc⟩,
      stuck_one (fun c => isWs c = true) _ _ _ (by decide) _ ⟨c, t, rfl, hc⟩]
    rfl
  rw [hl]
  generalize n + (s.takeWhile isWs).length = n'
  cases skipWs s with
  | nil =>
    rw [first_close, first_cat, first_one]
    exact ⟨0, 0, rfl⟩
  | cons c r =>
    simp only
    by_cases hc : c = ','
    · subst hc
      obtain ⟨m, e⟩ := first_fourth K n' r k
      rw [e, first_close, lit_cons, if_neg (by decide)]
      exact ⟨m, 0, by rw [if_pos rfl]; simp⟩
    · rw [stuck_one (fun d => d = c) _ _ _ (fun h => hc h.symm) _ ⟨c, r, rfl, rfl⟩, Option.none_or, first_close]
      exact ⟨0, n' + 1, by rw [if_neg hc]⟩

theorem stuck_arg_ws (i : ℕ) (p : Bool) (r : Re) (K : St → Option β) :
    Stuck (fun c => isWs c = true) (first (reArg i p r) K) := stuck_float _ _ _ _ ws_not_num

theorem first_arg (i : ℕ) (p : Bool) (r : Re) (K : St → Option β) (n s k)
    (h : Stuck (fun c => isWs c = true) (first r K)) :
    ∃ n' : ℕ, first (reArg i p r) K ⟨n, s, k⟩ =
    match Color.num p s with
    | none => none
    | some (v, t) =>
      match Color.comma t with
      | none => none
      | some t => first r K ⟨n', t, (i, v) :: k⟩ := by
  obtain ⟨n', e⟩ := first_num i p (com r) K n s k (stuck_com_cut r K)
  rw [reArg, e]
  cases Color.num p s with
  | none => exact ⟨0, rfl⟩
  | some q =>
    obtain ⟨v, t⟩ := q
    exact first_com r K _ t _ h

/-- the groups after a match of a colour function -/
def groups4 (q : St) : Option (List Char) × Option (List Char) × Option (List Char) × Option (List Char) :=
  (q.group 1, q.group 2, q.group 3, q.group 4)

theorem stuck_last_cut (K : St → Option β) : Stuck Cut (first (ws reLast) K) := by
  refine stuck_star single_ws _ _ _ cut_not_ws ?_
  rintro ⟨n, s, k⟩ ⟨c, t, rfl, hc⟩
  rw [reLast, first_cat, first_opt_lit,
    stuck_one Cut _ _ _ (fun h => cut_ne _ ',' h (by decide) rfl) _ ⟨c, t, rfl, hc⟩,
    stuck_one Cut _ _ _ (fun h => cut_ne _ ')' h (by decide) rfl) _ ⟨c, t, rfl, hc⟩]
  rfl

/-- the `a` of `rgba` -/
def optA (s : List Char) : List Char :=
  match s with
  | 'a' :: r => r
  | r => r

/-- the end of a colour function -/
def close4 (v1 v2 v3 s : List Char) : Option (List Char × List Char × List Char × Option (List Char)) :=
  match s with
  | ',' :: r => (Color.num false (skipWs r)).bind fun x => (lit ')' (skipWs x.2)).bind fun _ => some (v1, v2, v3, some x.1)
  | s => (lit ')' s).bind fun _ => some (v1, v2, v3, none)

theorem matchFun_eq (name : List Char) (p1 p2 p3 : Bool) (s : List Char) : Color.matchFun name p1 p2 p3 s =
    (litWord name s).bind fun s => (lit '(' (optA s)).bind fun s => (Color.num p1 (skipWs s)).bind fun x =>
      (Color.comma x.2).bind fun s => (Color.num p2 s).bind fun y => (Color.comma y.2).bind fun s =>
      (Color.num p3 s).bind fun z => close4 x.1 y.1 z.1 (skipWs z.2) := rfl

theorem optA_cons (c : Char) (t : List Char) : optA (c :: t) = if c = 'a' then t else c :: t := by
  by_cases hc : c = 'a'
  · subst hc; rfl
  · rw [if_neg hc]
    unfold optA
    split
    · rename_i h; exact absurd (List.cons.inj h).1 hc
    · rfl

theorem close4_cons (v1 v2 v3 : List Char) (c : Char) (r : List Char) : close4 v1 v2 v3 (c :: r) =
    if c = ',' then
      (Color.num false (skipWs r)).bind fun x => (lit ')' (skipWs x.2)).bind fun _ => some (v1, v2, v3, some x.1)
    else (lit ')' (c :: r)).bind fun _ => some (v1, v2, v3, none) := by
  by_cases hc : c = ','
  · subst hc; rfl
  · rw [if_neg hc]
    unfold close4
    split
    · rename_i h; exact absurd (List.cons.inj h).1 hc
    · rfl

/-- the model's matcher of colour functions is the pattern -/
theorem fun_match (name : List Char) (p1 p2 p3 : Bool) (s : List Char) :
    (matchAt (reFun name p1 p2 p3) 0 s).map groups4
      = (Color.matchFun name p1 p2 p3 s).map (fun g => (some g.1, some g.2.1, some g.2.2.1, g.2.2.2)) := by
  rw [matchAt_first, first_map]
  simp only [Option.map_some]
  generalize hK : (fun q => some (groups4 q)) = K
  rw [reFun, first_word]
  rw [matchFun_eq]
  cases litWord name s with
  | none => rfl
  | some s =>
    simp only [Option.bind_some]
    generalize 0 + name.length = n
    -- the optional `a`
    obtain ⟨n', hn⟩ : ∃ n', ∀ (r : Re), first (.cat (.rep 0 (some 1) (one 'a')) (.cat (one '(') r)) K ⟨n, s, []⟩
        = first (.cat (one '(') r) K ⟨n', optA s, []⟩ := by
      cases s with
      | nil =>
        refine ⟨n, fun r => ?_⟩
        rw [first_cat, first_opt (single_one 'a')]
        rfl
      | cons c t =>
        rw [optA_cons]
        by_cases hc : c = 'a'
        · subst hc
          refine ⟨n + 1, fun r => ?_⟩
          rw [first_cat, first_opt (single_one 'a')]
          simp only [decide_true, if_true]
          rw [stuck_one (fun d => d = 'a') _ _ _ (by decide) ⟨n, 'a' :: t, []⟩ ⟨'a', t, rfl, rfl⟩, Option.or_none]
        · refine ⟨n, fun r => ?_⟩
          rw [first_cat, first_opt (single_one 'a')]
          simp only [hc, decide_false, Bool.false_eq_true, if_false]
    rw [hn, first_cat, first_one]
    generalize optA s = s
    cases lit '(' s with
    | none => rfl
    | some s =>
      simp only [Option.bind_some]
      rw [first_ws _ _ _ _ _ (stuck_arg_ws _ _ _ _)]
      obtain ⟨a, e⟩ := first_arg 1 p1 (reArg 2 p2 (.cat (.grp 3 reFloat) (pct p3 (ws reLast)))) K
        (n' + 1 + (s.takeWhile isWs).length) (skipWs s) [] (stuck_arg_ws _ _ _ _)
      rw [e]
      cases Color.num p1 (skipWs s) with
      | none => rfl
      | some q =>
        obtain ⟨v1, s⟩ := q
        simp only [Option.bind_some]
        cases Color.comma s with
        | none => rfl
        | some s =>
          simp only [Option.bind_some]
          obtain ⟨a, e⟩ := first_arg 2 p2 (.cat (.grp 3 reFloat) (pct p3 (ws reLast))) K a s [(1, v1)]
            (stuck_float _ _ _ _ ws_not_num)
          rw [e]
          cases Color.num p2 s with
          | none => rfl
          | some q =>
            obtain ⟨v2, s⟩ := q
            simp only [Option.bind_some]
            cases Color.comma s with
            | none => rfl
            | some s =>
              simp only [Option.bind_some]
              obtain ⟨a, e⟩ := first_num 3 p3 (ws reLast) K a s [(2, v2), (1, v1)] (stuck_last_cut K)
              rw [e]
              cases Color.num p3 s with
              | none => rfl
              | some q =>
                obtain ⟨v3, s⟩ := q
                simp only [Option.bind_some]
                obtain ⟨a, b, e⟩ := first_last K (a v3 s) s [(3, v3), (2, v2), (1, v1)]
                rw [e]
                cases skipWs s with
                | nil => rfl
                | cons c r =>
                  by_cases hc : c = ','
                  · subst hc
                    rw [close4_cons]
                    simp only [if_true]
                    cases Color.num false (skipWs r) with
                    | none => rfl
                    | some q =>
                      obtain ⟨v4, t⟩ := q
                      simp only [Option.bind_some]
                      cases lit ')' (skipWs t) with
                      | none => rfl
                      | some u => subst hK; rfl
                  · rw [close4_cons]
                    simp only [hc, if_false]
                    cases lit ')' (c :: r) with
                    | none => rfl
                    | some u => subst hK; rfl

end Svgio.Regex
