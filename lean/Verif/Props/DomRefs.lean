import Verif.Props.DomInherit
import Verif.Props.ColorChannels
import Mathlib.Data.List.TakeWhile

/-!
C71: paint; C72: url() references; C73: shadow traversal.
-/

namespace Svgio.Props

open Svgio.Dom Svgio.Spec

/-! ### paint -/

section
variable (F : FloatRounding) (pyInt : Str → Option ℤ) (pyFloat : Str → Option ℚ)

/-- C71: `fill` is None without an inherited `fill`, otherwise its colour. If an opacity is inherited as well and is a number, alpha is
the nearest integer to 255 times the opacity, up to float error, between 0 and 255, and the other channels stay. -/
theorem C71_fill (d : Dom Str) (hd : Reachable d) (i : ℕ) (hi : i < d.nodes.length) (hA : HaveAttrs d i) :
    ((¬ ∃ s, Inherited d i "fill".toList s) → fill F pyInt pyFloat d i = .ok none) ∧
    ∀ s c, Inherited d i "fill".toList s → Color.parse F pyInt (some s) = .ok c →
      ((¬ ∃ o, Inherited d i "fill-opacity".toList o) → fill F pyInt pyFloat d i = .ok (some c)) ∧
      ∀ o, Inherited d i "fill-opacity".toList o →
        (pyFloat o = none ∨ c = none → fill F pyInt pyFloat d i = .ok (some c)) ∧
        ∀ x v, pyFloat o = some x → c = some v → ∃ w n, fill F pyInt pyFloat d i = .ok (some (some w)) ∧
          Color.alpha (some w) = some (clampI n) ∧ |(n : ℚ) - 255 * x| ≤ 1 / 2 + (|255 * x| / 2 ^ 53 + 1 / 2 ^ 1074) ∧
          Color.red (some w) = Color.red (some v) ∧ Color.green (some w) = Color.green (some v) ∧
          Color.blue (some w) = Color.blue (some v) := by
  obtain ⟨vals, h1, h2, h3⟩ := C68_inherited_partial d hd i hi hA
  simp only [fill, h1]
  refine ⟨fun h => ?_, fun s c hs hc => ?_⟩
  · rw [(h3 _).2 h]
  · rw [(h2 _ _).2 hs]
    simp only [hc]
    refine ⟨fun h => ?_, fun o ho => ?_⟩
    · rw [(h3 _).2 h]
    · rw [(h2 _ _).2 ho]
      refine ⟨fun h => ?_, fun x v hx hv => ?_⟩
      · cases c with
        | none => rfl
        | some v => rcases h with h | h
                    · simp only [h]
                    · simp at h
      · subst hv
        obtain ⟨w, n, hw, hrest⟩ := C08_opacity_set F v x
        refine ⟨w, n, ?_, hrest⟩
        simp only [hx, hw]

/-- C71: `stroke` is None without an inherited `stroke`, otherwise its colour, if no opacity is inherited.

Partial: with an inherited `stroke-opacity`, it always raises RecursionError (`C71_stroke_wrong`). -/
theorem C71_stroke_partial (d : Dom Str) (hd : Reachable d) (i : ℕ) (hi : i < d.nodes.length) (hA : HaveAttrs d i)
    (ho : ¬ ∃ o, Inherited d i "stroke-opacity".toList o) (depth : ℕ) :
    ((¬ ∃ s, Inherited d i "stroke".toList s) → stroke F pyInt pyFloat d i (depth + 1) = .ok none) ∧
    ∀ s c, Inherited d i "stroke".toList s → Color.parse F pyInt (some s) = .ok c →
      stroke F pyInt pyFloat d i (depth + 1) = .ok (some c) := by
  obtain ⟨vals, h1, h2, h3⟩ := C68_inherited_partial d hd i hi hA
  simp only [stroke, h1, (h3 _).2 ho]
  refine ⟨fun h => ?_, fun s c hs hc => ?_⟩
  · rw [(h3 _).2 h]
  · rw [(h2 _ _).2 hs]
    simp only [hc]

/-- C71 fails for strokes: with an inherited `stroke-opacity`, and a `stroke` that is a colour or not given, the property calls
itself without end, whatever depth of calls is allowed. -/
theorem C71_stroke_wrong (d : Dom Str) (hd : Reachable d) (i : ℕ) (hi : i < d.nodes.length) (hA : HaveAttrs d i)
    (ho : ∃ o, Inherited d i "stroke-opacity".toList o)
    (hs : ∀ s, Inherited d i "stroke".toList s → ∃ c, Color.parse F pyInt (some s) = .ok c) (depth : ℕ) :
    stroke F pyInt pyFloat d i depth = .error .recursionError := by
  obtain ⟨vals, h1, h2, h3⟩ := C68_inherited_partial d hd i hi hA
  obtain ⟨o, ho⟩ := ho
  induction depth with
  | zero => rfl
  | succ n ih =>
    simp only [stroke, h1, ih]
    cases hst : dictGet vals "stroke".toList with
    | none => simp only [(h2 _ _).2 ho]
    | some s =>
      obtain ⟨c, hc⟩ := hs s ((h2 _ _).1 hst)
      simp only [(h2 _ _).2 ho, hc]

end

/-- a group with an opacity and a rectangle with a colour -/
example : ∃ d : Dom Str, load [.start "g".toList [("fill-opacity".toList, "0.5".toList), ("stroke-opacity".toList, "1".toList)],
    .start "rect".toList [("fill".toList, "#112233".toList)], .stop, .stop] = .ok d ∧
    fill FloatRounding.id (fun s => some (if s = "112233".toList then 0x112233 else 0)) (fun _ => some (1 / 2)) d 2 =
      .ok (some (some 0x11223380)) ∧ Inherited d 2 "stroke-opacity".toList "1".toList := by
  refine ⟨_, rfl, ?_, .up rfl rfl (by decide +kernel) rfl (.own rfl rfl (by decide +kernel))⟩
  decide +kernel

/-! ### references -/

theorem upToClose_spec (name : Str) (h : '\n' ∉ name) (rest : Str) (hr : ')' ∉ rest) (hn : '\n' ∉ rest) :
    upToClose (name ++ ')' :: rest) = some name := by
  have h1 : (name ++ ')' :: rest).takeWhile (· ≠ '\n') = name ++ ')' :: rest := by
    rw [List.takeWhile_eq_self_iff]
    intro c hc
    simp only [List.mem_append, List.mem_cons] at hc
    simp only [ne_eq, decide_eq_true_eq]
    rintro rfl
    rcases hc with hc | hc | hc
    · exact h hc
    · simp at hc
    · exact hn hc
  have h2 : ((name ++ ')' :: rest).reverse).dropWhile (· ≠ ')') = ')' :: name.reverse := by
    rw [List.reverse_append, List.reverse_cons, List.append_assoc, List.dropWhile_append_of_pos]
    · simp
    · intro c hc
      rw [List.mem_reverse] at hc
      simp only [ne_eq, decide_eq_true_eq]
      rintro rfl
      exact hr hc
  simp only [upToClose, h1, h2, List.reverse_reverse]

/-- C72: `get_element_by_url("url(#name)")` is `get_element_by_id("name")`, for every name on one line, also if text without
closing parenthesis follows.

Partial: names with a line break are not found (`C72_newline_wrong`). -/
theorem C72_url_partial (d : Dom Str) (name : Str) (h : '\n' ∉ name) (rest : Str) (hr : ')' ∉ rest) (hn : '\n' ∉ rest) :
    getElementByUrl d ("url(#".toList ++ name ++ ")".toList ++ rest) = getElementById d name := by
  have : findIri ("url(#".toList ++ name ++ ")".toList ++ rest) = some name := by
    have e : "url(#".toList ++ name ++ ")".toList ++ rest = 'u' :: 'r' :: 'l' :: '(' :: '#' :: (name ++ ')' :: rest) := by simp
    rw [e, findIri]
    have hp : "url(".toList.isPrefixOf ('u' :: 'r' :: 'l' :: '(' :: '#' :: (name ++ ')' :: rest)) = true := rfl
    simp only [hp, if_true, List.drop_succ_cons, List.drop_zero, List.head?_cons, List.tail_cons, upToClose_spec name h rest hr hn]
  simp only [getElementByUrl, this]

/-- C72: with the theorem on ids: in a loaded document, `url(#name)` finds the last element with the id `name`. -/
theorem C72_finds_partial (x : Xml Str) (evs : List (Ev Str)) (he : evs.filter (· ≠ .ns) = events x) (d : Dom Str)
    (h : load evs = .ok d) (name : Str) (hn : '\n' ∉ name) (j : ℕ) :
    getElementByUrl d ("url(#".toList ++ name ++ ")".toList) = some j ↔
      ∃ k, j = k + 1 ∧ LastWithId (elements x) name k := by
  have := C72_url_partial d name hn [] (by simp) (by simp)
  rw [List.append_nil] at this
  rw [this, (C67_load_partial x evs he d h name).1]

/-- C72 fails for names with a line break. -/
theorem C72_newline_wrong (d : Dom Str) : getElementByUrl d "url(#a\nb)".toList = none := rfl

/-- C72 does not extend to quoted references, `url('#name')`: it looks for the id `'#name'`. -/
theorem C72_quotes_wrong (d : Dom Str) (name : Str) (h : '\n' ∉ name) :
    getElementByUrl d ("url('#".toList ++ name ++ "')".toList) = getElementById d ("'#".toList ++ name ++ "'".toList) := by
  have : findIri ("url('#".toList ++ name ++ "')".toList) = some ("'#".toList ++ name ++ "'".toList) := by
    have e : "url('#".toList ++ name ++ "')".toList =
        'u' :: 'r' :: 'l' :: '(' :: (("'#".toList ++ name ++ "'".toList) ++ ')' :: []) := by simp
    rw [e, findIri]
    have hp : "url(".toList.isPrefixOf ('u' :: 'r' :: 'l' :: '(' :: (("'#".toList ++ name ++ "'".toList) ++ ')' :: [])) = true := rfl
    have hh : (("'#".toList ++ name ++ "'".toList) ++ [')']).head? ≠ some '#' := by simp
    simp only [hp, if_true, List.drop_succ_cons, List.drop_zero, if_neg hh]
    rw [upToClose_spec _ (by simpa using h) [] (by simp) (by simp)]
  simp only [getElementByUrl, this]

/-- C72 does not extend to texts with two references: the name found reaches to the last parenthesis. -/
theorem C72_two_wrong : findIri "url(#a) url(#b)".toList = some "a) url(#b".toList := by decide +kernel

/-! ### shadow traversal -/

section
variable {T E : Type} [DecidableEq T] [DecidableEq E]

/-- a finished tree is put into the innermost open element, or outside -/
def putIn (s : List (T × E × List (Item T E)) × List (Item T E)) (xs : List (Item T E)) :
    List (T × E × List (Item T E)) × List (Item T E) :=
  match s with
  | ([], done) => ([], done ++ xs)
  | ((t, e, ks) :: stack, done) => ((t, e, ks ++ xs) :: stack, done)

omit [DecidableEq T] [DecidableEq E] in
theorem putIn_nil (s : List (T × E × List (Item T E)) × List (Item T E)) : putIn s [] = s := by
  obtain ⟨stack, done⟩ := s
  cases stack with
  | nil => simp [putIn]
  | cons a stack => obtain ⟨t, e, ks⟩ := a; simp [putIn]

omit [DecidableEq T] [DecidableEq E] in
theorem putIn_cons (s : List (T × E × List (Item T E)) × List (Item T E)) (x : Item T E) (xs : List (Item T E)) :
    putIn (putIn s [x]) xs = putIn s (x :: xs) := by
  obtain ⟨stack, done⟩ := s
  cases stack with
  | nil => simp [putIn]
  | cons a stack => obtain ⟨t, e, ks⟩ := a; simp [putIn]

mutual
theorem feed_iter (x : Item T E) (hx : IsTree x) : ∀ (s : List (T × E × List (Item T E)) × List (Item T E))
    (rest : List (T × Bool × E)), feed s (shadowIter x ++ rest) = feed (putIn s [x]) rest := by
  cases x with
  | bad => exact absurd hx (by simp [IsTree])
  | node t e ks =>
    intro s rest
    obtain ⟨stack, done⟩ := s
    rw [shadowIter, List.append_assoc, List.cons_append, feed, feed_kids ks hx, List.cons_append, List.nil_append]
    simp only [putIn, List.nil_append]
    cases stack with
    | nil => simp [feed]
    | cons a stack => obtain ⟨t2, e2, ks2⟩ := a; simp [feed]
theorem feed_kids (xs : List (Item T E)) (hx : AreTrees xs) : ∀ (s : List (T × E × List (Item T E)) × List (Item T E))
    (rest : List (T × Bool × E)), feed s (shadowKids xs ++ rest) = feed (putIn s xs) rest := by
  cases xs with
  | nil => intro s rest; simp [shadowKids, putIn_nil]
  | cons x xs =>
    intro s rest
    cases x with
    | bad => exact absurd hx.1 (by simp [IsTree])
    | node t e ks =>
      rw [shadowKids, List.append_assoc, feed_iter (.node t e ks) hx.1, feed_kids xs hx.2, putIn_cons]
end

/-- C73: the events of `_shadow_iter` are well nested, and the tree can be rebuilt from them. -/
theorem C73_rebuild (x : Item T E) (hx : IsTree x) : rebuild (shadowIter x) = some [x] := by
  have := feed_iter x hx ([], []) []
  rw [List.append_nil] at this
  simp [rebuild, this, feed, putIn]

mutual
theorem starts_iter (x : Item T E) (hx : IsTree x) :
    (shadowIter x).filterMap (fun v => if v.2.1 then some (v.1, v.2.2) else none) = inOrder x := by
  cases x with
  | bad => exact absurd hx (by simp [IsTree])
  | node t e ks => simp [shadowIter, inOrder, starts_kids ks hx]
theorem starts_kids (xs : List (Item T E)) (hx : AreTrees xs) :
    (shadowKids xs).filterMap (fun v => if v.2.1 then some (v.1, v.2.2) else none) = inOrderList xs := by
  cases xs with
  | nil => simp [shadowKids, inOrderList]
  | cons x xs =>
    cases x with
    | bad => exact absurd hx.1 (by simp [IsTree])
    | node t e ks =>
      rw [shadowKids, List.filterMap_append, starts_iter (.node t e ks) hx.1, starts_kids xs hx.2, inOrderList]
end

mutual
theorem ends_iter (x : Item T E) (hx : IsTree x) :
    ((shadowIter x).filterMap (fun v => if v.2.1 then none else some (v.1, v.2.2))).Perm (inOrder x) := by
  cases x with
  | bad => exact absurd hx (by simp [IsTree])
  | node t e ks =>
    have := ends_kids ks hx
    simp only [shadowIter, List.cons_append, List.filterMap_cons, List.filterMap_append, List.filterMap_nil, inOrder, if_true]
    exact (List.perm_append_singleton _ _).trans (this.cons _)
theorem ends_kids (xs : List (Item T E)) (hx : AreTrees xs) :
    ((shadowKids xs).filterMap (fun v => if v.2.1 then none else some (v.1, v.2.2))).Perm (inOrderList xs) := by
  cases xs with
  | nil => simp [shadowKids, inOrderList]
  | cons x xs =>
    cases x with
    | bad => exact absurd hx.1 (by simp [IsTree])
    | node t e ks =>
      rw [shadowKids, List.filterMap_append, inOrderList]
      exact (ends_iter (.node t e ks) hx.1).append (ends_kids xs hx.2)
end

/-- C73: there is one start for each element, in document order, and one end. -/
theorem C73_once (x : Item T E) (hx : IsTree x) :
    (shadowIter x).filterMap (fun v => if v.2.1 then some (v.1, v.2.2) else none) = inOrder x ∧
    ((shadowIter x).filterMap (fun v => if v.2.1 then none else some (v.1, v.2.2))).Perm (inOrder x) :=
  ⟨starts_iter x hx, ends_iter x hx⟩

/-- what happens with something else among the children: it and all later children are left out, and no error is raised -/
theorem C73_bad (t : T) (e : E) (l r : List (Item T E)) (hl : AreTrees l) :
    shadowIter (.node t e (l ++ .bad :: r)) = shadowIter (.node t e l) := by
  have : shadowKids (l ++ .bad :: r) = shadowKids l := by
    induction l with
    | nil => simp [shadowKids]
    | cons x l ih =>
      cases x with
      | bad => exact absurd hl.1 (by simp [IsTree])
      | node t e ks => rw [List.cons_append, shadowKids, shadowKids, ih hl.2]
  rw [shadowIter, shadowIter, this]

end

example : IsTree (.node 1 'a' [.node 2 'b' [], .node 2 'c' [.node 3 'd' []]]) := by simp [IsTree, AreTrees]

end Svgio.Props
