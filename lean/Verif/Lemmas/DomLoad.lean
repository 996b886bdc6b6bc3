import Verif.Spec.Dom
import Mathlib.Tactic.Linarith

/-!
The state after loading a tree, in closed form.
-/

namespace Svgio.Dom

open Svgio.Spec

variable {V : Type} [DecidableEq V]

mutual
/-- the number of elements -/
def size : Xml V → ℕ
  | .elem _ _ ks => 1 + sizeList ks
def sizeList : List (Xml V) → ℕ
  | [] => 0
  | x :: r => size x + sizeList r
end

/-- the addresses of consecutive trees from `i` on -/
def starts (i : ℕ) : List (Xml V) → List ℕ
  | [] => []
  | x :: r => i :: starts (i + size x) r

mutual
/-- the nodes of a tree placed at `i` below `p` -/
def layout (i p : ℕ) : Xml V → List (NodeRec V)
  | .elem tag attrs ks => ⟨clsOf tag, some attrs, some p, some 0, starts (i + 1) ks⟩ :: layoutList (i + 1) i ks
def layoutList (i p : ℕ) : List (Xml V) → List (NodeRec V)
  | [] => []
  | x :: r => layout i p x ++ layoutList (i + size x) p r
end

mutual
theorem layout_length (x : Xml V) : ∀ i p, (layout i p x).length = size x := by
  cases x with
  | elem tag attrs ks => intro i p; simp [layout, size, layoutList_length ks, add_comm]
theorem layoutList_length (xs : List (Xml V)) : ∀ i p, (layoutList i p xs).length = sizeList xs := by
  cases xs with
  | nil => intro i p; simp [layoutList, sizeList]
  | cons x r => intro i p; simp [layoutList, sizeList, layout_length x, layoutList_length r]
end

/-- the ids registered for elements at consecutive addresses -/
def register (o : List (V × ℕ)) : ℕ → List (Str × Dict V) → List (V × ℕ)
  | _, [] => o
  | a, e :: r => register (match dictGet e.2 "id".toList with
    | none => o
    | some x => dictSet o x a) (a + 1) r

theorem register_append (l r : List (Str × Dict V)) : ∀ (o : List (V × ℕ)) (a : ℕ),
    register o a (l ++ r) = register (register o a l) (a + l.length) r := by
  induction l with
  | nil => intro o a; rfl
  | cons e l ih => intro o a; simp only [List.cons_append, register, ih, List.length_cons]; congr 1; omega

mutual
theorem elements_length (x : Xml V) : (elements x).length = size x := by
  cases x with
  | elem tag attrs ks => simp [elements, size, elementsList_length ks, add_comm]
theorem elementsList_length (xs : List (Xml V)) : (elementsList xs).length = sizeList xs := by
  cases xs with
  | nil => rfl
  | cons x r => simp [elementsList, sizeList, elements_length x, elementsList_length r]
end

mutual
/-- loading does not fail: no constructor that needs arguments, no mask with children -/
def Loads : Xml V → Prop
  | .elem tag _ ks => needsArgs (clsOf tag) = false ∧ (clsOf tag = .mask → ks = []) ∧ LoadsList ks
def LoadsList : List (Xml V) → Prop
  | [] => True
  | x :: r => Loads x ∧ LoadsList r
end

/-- placing a list of trees below `p` -/
def place (d : Dom V) (p : ℕ) (xs : List (Xml V)) : Dom V :=
  { nodes := d.nodes.modify p (fun r => { r with kids := r.kids ++ starts d.nodes.length xs }) ++
      layoutList d.nodes.length p xs
    objects := register d.objects d.nodes.length (elementsList xs) }

theorem modify_id {α : Type} (l : List α) (p : ℕ) (f : α → α) (h : ∀ a, f a = a) : l.modify p f = l := by
  have : f = id := funext h
  rw [this, List.modify_id]

theorem modify_modify {α : Type} (l : List α) (p : ℕ) (f g : α → α) : (l.modify p f).modify p g = l.modify p (g ∘ f) :=
  List.modify_modify_eq f g p l

theorem modify_append_lt {α : Type} (l r : List α) (p : ℕ) (f : α → α) (h : p < l.length) :
    (l ++ r).modify p f = l.modify p f ++ r := by
  induction l generalizing p with
  | nil => simp at h
  | cons a l ih =>
    cases p with
    | zero => rfl
    | succ p => simp only [List.cons_append, List.modify_succ_cons]; rw [ih p (by simpa using h)]

theorem modify_append_at {α : Type} (l r : List α) (a : α) (f : α → α) :
    (l ++ a :: r).modify l.length f = l ++ f a :: r := by
  induction l with
  | nil => rfl
  | cons b l ih => simp only [List.cons_append, List.length_cons, List.modify_succ_cons, ih]

theorem modify_append_at' {α : Type} (l r : List α) (a : α) (f : α → α) (n : ℕ) (h : n = l.length) :
    (l ++ a :: r).modify n f = l ++ f a :: r := by
  subst h; exact modify_append_at l r a f

theorem place_nil (d : Dom V) (p : ℕ) : place d p [] = d := by
  cases d with
  | mk nodes objects =>
    simp only [place, starts, layoutList, elementsList, register, List.append_nil]
    rw [modify_id _ _ _ (fun a => by cases a; simp)]

theorem place_cons (d : Dom V) (p : ℕ) (x : Xml V) (r : List (Xml V)) (hp : p < d.nodes.length) :
    place (place d p [x]) p r = place d p (x :: r) := by
  cases d with
  | mk nodes objects =>
    simp only at hp
    simp only [place, starts, layoutList, elementsList, List.append_nil, List.length_append, List.length_modify, layout_length]
    congr 1
    · rw [modify_append_lt _ _ _ _ (by simpa using hp), modify_modify]
      simp [Function.comp_def]
    · rw [register_append, elements_length]

mutual
theorem run_events (x : Xml V) (hx : Loads x) : ∀ (d : Dom V) (p : ℕ) (r : NodeRec V), d.nodes[p]? = some r → r.cls ≠ .mask →
    ∀ rest, run (some 0) d (some p) (events x ++ rest) = run (some 0) (place d p [x]) (some p) rest := by
  cases x with
  | elem tag attrs ks =>
    intro d p r hr hm rest
    obtain ⟨h1, h2, h3⟩ := hx
    have hp : p < d.nodes.length := (List.getElem?_eq_some_iff.1 hr).1
    set n0 : NodeRec V := ⟨clsOf tag, some attrs, some p, some 0, []⟩ with hn0
    set d1 : Dom V := { (append d p n0) with objects := (match dictGet attrs "id".toList with
        | none => d.objects
        | some x => dictSet d.objects x d.nodes.length) } with hd1
    have hs : step (some 0) d (some p) (.start tag attrs) = .ok (d1, some d.nodes.length) := by
      simp only [step, h1, hr, hm, Bool.false_eq_true, if_false]
      cases hg : dictGet attrs "id".toList with
      | none => simp only [hd1, hg, append, hn0]
      | some v => simp only [hd1, hg, append, hn0, if_true]
    have hl : d1.nodes = d.nodes.modify p (fun r => { r with kids := r.kids ++ [d.nodes.length] }) ++ [n0] := rfl
    have hlen : d1.nodes.length = d.nodes.length + 1 := by simp [hl]
    have hml : (d.nodes.modify p (fun r => { r with kids := r.kids ++ [d.nodes.length] })).length = d.nodes.length := by simp
    have hat : d1.nodes[d.nodes.length]? = some n0 := by
      rw [hl, List.getElem?_append_right (by simp)]; simp
    have hk : place d1 d.nodes.length ks = place d p [.elem tag attrs ks] := by
      simp only [place, starts, layoutList, layout, elementsList, elements, List.append_nil, hlen, register]
      congr 1
      rw [hl]
      rw [modify_append_at' _ _ _ _ _ hml.symm, List.append_assoc]
      simp [hn0]
    have hat2 : (place d p [.elem tag attrs ks]).nodes[d.nodes.length]? =
        some { n0 with kids := starts (d.nodes.length + 1) ks } := by
      simp only [place, layoutList, layout, List.append_nil]
      rw [List.getElem?_append_right (by simp)]; simp [hn0]
    have hstop : step (some 0) (place d p [.elem tag attrs ks]) (some d.nodes.length) .stop =
        .ok (place d p [.elem tag attrs ks], some p) := by
      simp only [step, Option.bind_some, hat2, hn0]
    rw [events, List.append_assoc, List.cons_append, run, hs]
    simp only
    by_cases hmask : clsOf tag = .mask
    · have := h2 hmask
      subst this
      rw [place_nil] at hk
      rw [eventsList, List.nil_append, List.cons_append, List.nil_append, run, hk, hstop]
    · rw [run_eventsList ks h3 d1 d.nodes.length n0 hat hmask, hk, List.cons_append, List.nil_append, run, hstop]
theorem run_eventsList (xs : List (Xml V)) (hx : LoadsList xs) : ∀ (d : Dom V) (p : ℕ) (r : NodeRec V), d.nodes[p]? = some r →
    r.cls ≠ .mask →
    ∀ rest, run (some 0) d (some p) (eventsList xs ++ rest) = run (some 0) (place d p xs) (some p) rest := by
  cases xs with
  | nil => intro d p r hr hm rest; rw [place_nil, eventsList, List.nil_append]
  | cons x xs =>
    intro d p r hr hm rest
    have hp : p < d.nodes.length := (List.getElem?_eq_some_iff.1 hr).1
    rw [eventsList, List.append_assoc, run_events x hx.1 d p r hr hm,
      run_eventsList xs hx.2 (place d p [x]) p { r with kids := r.kids ++ starts d.nodes.length [x] } (by
        simp only [place]
        rw [List.getElem?_append_left (by simpa using hp)]
        simp [hr]) hm, place_cons d p x xs hp]
end

theorem place_get (d : Dom V) (p : ℕ) (r : NodeRec V) (xs : List (Xml V)) (hr : d.nodes[p]? = some r) :
    (place d p xs).nodes[p]? = some { r with kids := r.kids ++ starts d.nodes.length xs } := by
  have hp : p < d.nodes.length := (List.getElem?_eq_some_iff.1 hr).1
  simp only [place]
  rw [List.getElem?_append_left (by simpa using hp)]
  simp [hr]

mutual
theorem loads_of_run (x : Xml V) : ∀ (d : Dom V) (p : ℕ) (r : NodeRec V), d.nodes[p]? = some r → r.cls ≠ .mask →
    ∀ rest q, run (some 0) d (some p) (events x ++ rest) = .ok q → Loads x := by
  cases x with
  | elem tag attrs ks =>
    intro d p r hr hm rest q h
    rw [events, List.append_assoc, List.cons_append, run] at h
    have h1 : needsArgs (clsOf tag) = false := by
      by_contra hc
      rw [Bool.not_eq_false] at hc
      simp [step, hc] at h
    set n0 : NodeRec V := ⟨clsOf tag, some attrs, some p, some 0, []⟩ with hn0
    set d1 : Dom V := { (append d p n0) with objects := (match dictGet attrs "id".toList with
        | none => d.objects
        | some x => dictSet d.objects x d.nodes.length) } with hd1
    have hs : step (some 0) d (some p) (.start tag attrs) = .ok (d1, some d.nodes.length) := by
      simp only [step, h1, hr, hm, Bool.false_eq_true, if_false]
      cases hg : dictGet attrs "id".toList with
      | none => simp only [hd1, hg, append, hn0]
      | some v => simp only [hd1, hg, append, hn0, if_true]
    have hl : d1.nodes = d.nodes.modify p (fun r => { r with kids := r.kids ++ [d.nodes.length] }) ++ [n0] := rfl
    have hat : d1.nodes[d.nodes.length]? = some n0 := by
      rw [hl, List.getElem?_append_right (by simp)]; simp
    rw [hs] at h
    simp only at h
    by_cases hmask : clsOf tag = .mask
    · have hks : ks = [] := by
        cases ks with
        | nil => rfl
        | cons x ks =>
          cases x with
          | elem t a k =>
            rw [eventsList, events, List.cons_append, List.cons_append, List.cons_append, run] at h
            exfalso
            revert h
            simp only [step]
            by_cases hna : needsArgs (clsOf t) = true
            · simp [hna]
            · simp [hna, hat, hn0, hmask]
      exact ⟨h1, fun _ => hks, by subst hks; trivial⟩
    · exact ⟨h1, fun hc => absurd hc hmask, loadsList_of_run ks d1 _ n0 hat hmask _ _ h⟩
theorem loadsList_of_run (xs : List (Xml V)) : ∀ (d : Dom V) (p : ℕ) (r : NodeRec V), d.nodes[p]? = some r → r.cls ≠ .mask →
    ∀ rest q, run (some 0) d (some p) (eventsList xs ++ rest) = .ok q → LoadsList xs := by
  cases xs with
  | nil => intros; trivial
  | cons x xs =>
    intro d p r hr hm rest q h
    rw [eventsList, List.append_assoc] at h
    have hx := loads_of_run x d p r hr hm _ _ h
    rw [run_events x hx d p r hr hm] at h
    exact ⟨hx, loadsList_of_run xs _ p _ (place_get d p r [x] hr) hm _ _ h⟩
end

theorem run_ns (evs : List (Ev V)) : ∀ (d : Dom V) (a : Option ℕ),
    run (some 0) d a evs = run (some 0) d a (evs.filter (· ≠ .ns)) := by
  induction evs with
  | nil => intro d a; rfl
  | cons e r ih =>
    intro d a
    by_cases he : e = .ns
    · subst he
      simp only [run, step, ih]
      simp
    · rw [List.filter_cons_of_pos (by simpa using he), run, run]
      cases step (some 0) d a e with
      | error x => rfl
      | ok q => exact ih _ _

theorem load_eq (x : Xml V) (hx : Loads x) (evs : List (Ev V)) (he : evs.filter (· ≠ .ns) = events x) :
    load evs = .ok (place newDocument 0 [x]) := by
  have h := run_events x hx newDocument 0 ⟨.document, some [], none, some 0, []⟩ rfl (by simp) []
  rw [List.append_nil, ← he, ← run_ns] at h
  simp only [load, parseAt, newDocument, List.getElem?_cons_zero]
  rw [if_neg (by simp)]
  simp only [newDocument] at h
  rw [h]
  rfl

theorem load_ok (x : Xml V) (evs : List (Ev V)) (he : evs.filter (· ≠ .ns) = events x) (d : Dom V) (h : load evs = .ok d) :
    Loads x ∧ d = place newDocument 0 [x] := by
  have hx : Loads x := by
    simp only [load, parseAt, newDocument, List.getElem?_cons_zero] at h
    rw [if_neg (by simp), run_ns, he] at h
    cases hr : run (some 0) (⟨[⟨.document, some [], none, some 0, []⟩], []⟩ : Dom V) (some 0) (events x) with
    | error e => rw [hr] at h; simp at h
    | ok q =>
      exact loads_of_run x _ 0 ⟨.document, some [], none, some 0, []⟩ rfl (by simp) [] q (by rw [List.append_nil]; exact hr)
  refine ⟨hx, ?_⟩
  rw [load_eq x hx evs he] at h
  simpa using h.symm

end Svgio.Dom
