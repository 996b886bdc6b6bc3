import Verif.Props.DomLoad
import Mathlib.Data.List.Nodup

/-!
C66: parent links and child lists agree.
-/

namespace Svgio.Props

open Svgio.Dom Svgio.Spec

variable {V : Type} [DecidableEq V]

/-- keys of a Python dict are distinct -/
def IsDict (a : Dict V) : Prop := (a.map (·.1)).Nodup

/-- The states reached from an empty document by loading (also when it fails half way) and builder calls, in any order. Loading takes
any list of events, whether it is well nested or not. -/
inductive Reachable : Dom V → Prop
  | new : Reachable newDocument
  | parsed {d d' i evs} : Reachable d → (∀ tag a, Ev.start tag a ∈ evs → IsDict a) → parseAt d i evs = .ok d' → Reachable d'
  | failed {d d' i evs e} : Reachable d → (∀ tag a, Ev.start tag a ∈ evs → IsDict a) → parseAt d i evs = .error (e, d') →
      Reachable d'
  | built {d d' i name args kwargs} : Reachable d → build d i name args kwargs = .ok d' → Reachable d'

theorem append_get (d : Dom V) (p : ℕ) (n : NodeRec V) (j : ℕ) : (append d p n).nodes[j]? =
    if j = d.nodes.length then some n
    else if j = p then (d.nodes[j]?).map (fun r => { r with kids := r.kids ++ [d.nodes.length] }) else d.nodes[j]? := by
  simp only [append]
  by_cases h1 : j = d.nodes.length
  · subst h1
    rw [if_pos rfl, List.getElem?_append_right (by simp)]
    simp
  · rw [if_neg h1]
    by_cases h2 : j < d.nodes.length
    · rw [List.getElem?_append_left (by simpa using h2), List.getElem?_modify]
      by_cases h3 : p = j
      · simp [h3]
      · rw [if_neg (fun h => h3 h.symm)]
        simp [h3]
    · have h4 : d.nodes[j]? = none := by rw [List.getElem?_eq_none_iff]; omega
      rw [List.getElem?_eq_none (by simp; omega), h4]
      split <;> rfl

theorem consistent_append (d : Dom V) (hC : Consistent d) (p : ℕ) (r : NodeRec V) (hr : d.nodes[p]? = some r) (n : NodeRec V)
    (h1 : n.parent = some p) (h2 : n.doc = some 0) (h3 : n.kids = []) : Consistent (append d p n) := by
  have hp : p < d.nodes.length := (List.getElem?_eq_some_iff.1 hr).1
  have old : ∀ (j : ℕ) (m : NodeRec V), d.nodes[j]? = some m → ∃ m', (append d p n).nodes[j]? = some m' ∧ m'.cls = m.cls ∧
      m'.parent = m.parent ∧ m'.doc = m.doc ∧ m'.kids = if j = p then m.kids ++ [d.nodes.length] else m.kids := by
    intro j m hj
    have hl : j < d.nodes.length := (List.getElem?_eq_some_iff.1 hj).1
    rw [append_get, if_neg (by omega), hj]
    by_cases hjp : j = p
    · simp [hjp]
    · simp [hjp]
  have new : (append d p n).nodes[d.nodes.length]? = some n := by rw [append_get, if_pos rfl]
  have inv : ∀ (j : ℕ) (m' : NodeRec V), (append d p n).nodes[j]? = some m' → (j = d.nodes.length ∧ m' = n) ∨
      ∃ m, d.nodes[j]? = some m ∧ m'.cls = m.cls ∧ m'.parent = m.parent ∧ m'.doc = m.doc ∧
        m'.kids = if j = p then m.kids ++ [d.nodes.length] else m.kids := by
    intro j m' hj
    by_cases hl : j = d.nodes.length
    · subst hl
      rw [new] at hj
      exact .inl ⟨rfl, by simpa using hj.symm⟩
    · right
      rw [append_get, if_neg hl] at hj
      by_cases hjp : j = p
      · subst hjp
        rw [if_pos rfl, hr] at hj
        simp only [Option.map_some, Option.some.injEq] at hj
        subst hj
        exact ⟨r, hr, by simp⟩
      · rw [if_neg hjp] at hj
        exact ⟨m', hj, by simp [hjp]⟩
  refine ⟨?_, ?_, ?_, ?_, ?_⟩
  · obtain ⟨q, hq, hc, hpn⟩ := hC.root
    obtain ⟨m', h4, h5, h6, _⟩ := old 0 q hq
    exact ⟨m', h4, by rw [h5, hc], by rw [h6, hpn]⟩
  · intro i m hi h0
    rcases inv i m hi with ⟨rfl, rfl⟩ | ⟨m0, h4, h5, h6, _⟩
    · exact ⟨p, hp, h1⟩
    · rw [h6]; exact hC.parent i m0 h4 h0
  · intro i m hi
    rcases inv i m hi with ⟨rfl, rfl⟩ | ⟨m0, h4, h5, h6, h7, _⟩
    · exact h2
    · rw [h7]; exact hC.doc i m0 h4
  · intro q m hq c
    have hnew : ∀ q', (∃ k, (append d p n).nodes[c]? = some k ∧ k.parent = some q') ↔
        (∃ k, d.nodes[c]? = some k ∧ k.parent = some q') ∨ (c = d.nodes.length ∧ q' = p) := by
      intro q'
      constructor
      · rintro ⟨k, hk, hk2⟩
        rcases inv c k hk with ⟨rfl, rfl⟩ | ⟨m0, h4, h5, h6, _⟩
        · exact .inr ⟨rfl, by rw [h1] at hk2; simpa using hk2.symm⟩
        · exact .inl ⟨m0, h4, by rw [← h6]; exact hk2⟩
      · rintro (⟨k, hk, hk2⟩ | ⟨rfl, rfl⟩)
        · obtain ⟨m', h4, h5, h6, _⟩ := old c k hk
          exact ⟨m', h4, by rw [h6]; exact hk2⟩
        · exact ⟨n, new, h1⟩
    rw [hnew q]
    rcases inv q m hq with ⟨rfl, rfl⟩ | ⟨m0, h4, h5, h6, h7, h8⟩
    · rw [h3]
      simp only [List.not_mem_nil, false_iff, not_or, not_exists, not_and]
      refine ⟨fun k hk hk2 => ?_, fun _ hc => by omega⟩
      by_cases hc0 : c = 0
      · subst hc0
        obtain ⟨q, hq0, _, hpn⟩ := hC.root
        rw [hk] at hq0
        simp only [Option.some.injEq] at hq0
        rw [hq0, hpn] at hk2
        simp at hk2
      · obtain ⟨p', hp', hp2⟩ := hC.parent c k hk hc0
        have : c < d.nodes.length := (List.getElem?_eq_some_iff.1 hk).1
        rw [hk2] at hp2
        simp only [Option.some.injEq] at hp2
        omega
    · rw [h8, ← hC.kids q m0 h4 c]
      by_cases hqp : q = p
      · simp [hqp]
      · simp [hqp]
  · intro q m hq
    rcases inv q m hq with ⟨rfl, rfl⟩ | ⟨m0, h4, h5, h6, h7, h8⟩
    · rw [h3]; exact List.nodup_nil
    · rw [h8]
      have := hC.once q m0 h4
      split
      · rw [List.nodup_append]
        refine ⟨this, List.nodup_singleton _, ?_⟩
        intro a ha b hb
        rw [List.mem_singleton] at hb
        obtain ⟨k, hk, _⟩ := (hC.kids q m0 h4 a).1 ha
        have : a < d.nodes.length := (List.getElem?_eq_some_iff.1 hk).1
        omega
      · exact this

theorem consistent_objects (d : Dom V) (h : Consistent d) (o : List (V × ℕ)) : Consistent { d with objects := o } :=
  ⟨h.root, h.parent, h.doc, h.kids, h.once⟩

/-- all attributes are dicts, and every node has some except those made by the builders for images and masks -/
def AttrsOk (d : Dom V) : Prop := ∀ (i : ℕ) (n : NodeRec V), d.nodes[i]? = some n → ∀ a, n.attrs = some a → IsDict a

theorem attrsOk_append (d : Dom V) (h : AttrsOk d) (p : ℕ) (n : NodeRec V) (hn : ∀ a, n.attrs = some a → IsDict a) :
    AttrsOk (append d p n) := by
  intro i m hi a ha
  rw [append_get] at hi
  split at hi
  · simp only [Option.some.injEq] at hi
    subst hi
    exact hn a ha
  · split at hi
    · rw [Option.map_eq_some_iff] at hi
      obtain ⟨r, hr, rfl⟩ := hi
      exact h i r hr a ha
    · exact h i m hi a ha

/-- the invariant of the loop -/
def Good (d : Dom V) : Prop := Consistent d ∧ AttrsOk d

theorem step_good (d : Dom V) (h : Good d) (a : Option ℕ) (e : Ev V) (he : ∀ tag b, e = .start tag b → IsDict b) :
    (∀ d' a', step (some 0) d a e = .ok (d', a') → Good d') ∧ (∀ x d', step (some 0) d a e = .error (x, d') → Good d') := by
  cases e with
  | ns => simp [step, h]
  | stop =>
    simp only [step]
    cases a.bind (d.nodes[·]?) with
    | none => simp [h]
    | some n => simp [h]
  | start tag b =>
    simp only [step]
    by_cases h1 : needsArgs (clsOf tag) = true
    · simp [h1, h]
    · rw [if_neg h1]
      cases a with
      | none => simp [h]
      | some p =>
        simp only
        cases hr : d.nodes[p]? with
        | none => simp [h]
        | some r =>
          simp only
          by_cases h2 : r.cls = .mask
          · simp [h2, h]
          · rw [if_neg h2]
            have hg : Good (append d p ⟨clsOf tag, some b, some p, some 0, []⟩) :=
              ⟨consistent_append d h.1 p r hr _ rfl rfl rfl, attrsOk_append d h.2 p _ (by
                intro c hc
                simp only [Option.some.injEq] at hc
                subst hc
                exact he tag _ rfl)⟩
            cases dictGet b "id".toList with
            | none => simpa using hg
            | some v =>
              simp only [if_true]
              refine ⟨fun d' a' h' => ?_, fun x d' h' => by simp at h'⟩
              simp only [Except.ok.injEq, Prod.mk.injEq] at h'
              rw [← h'.1]
              exact ⟨consistent_objects _ hg.1 _, hg.2⟩

theorem run_good (evs : List (Ev V)) : ∀ (d : Dom V) (_ : Good d) (a : Option ℕ) (_ : ∀ tag b, Ev.start tag b ∈ evs → IsDict b),
    (∀ d' a', run (some 0) d a evs = .ok (d', a') → Good d') ∧ (∀ x d', run (some 0) d a evs = .error (x, d') → Good d') := by
  induction evs with
  | nil =>
    intro d h a _
    simp only [run]
    refine ⟨fun d' a' h' => ?_, fun x d' h' => by simp at h'⟩
    simp only [Except.ok.injEq, Prod.mk.injEq] at h'
    rw [← h'.1]; exact h
  | cons e r ih =>
    intro d h a he
    have hs := step_good d h a e (fun tag b hb => he tag b (by simp [hb]))
    simp only [run]
    cases hst : step (some 0) d a e with
    | error q =>
      obtain ⟨x, d1⟩ := q
      simp only
      refine ⟨fun d' a' h' => by simp at h', fun y d' h' => ?_⟩
      simp only [Except.error.injEq, Prod.mk.injEq] at h'
      rw [← h'.2]
      exact hs.2 x d1 hst
    | ok q =>
      obtain ⟨d1, a1⟩ := q
      simp only
      exact ih d1 (hs.1 d1 a1 hst) a1 (fun tag b hb => he tag b (List.mem_cons_of_mem _ hb))

theorem parseAt_good (d : Dom V) (h : Good d) (i : ℕ) (evs : List (Ev V)) (he : ∀ tag b, Ev.start tag b ∈ evs → IsDict b) :
    (∀ d', parseAt d i evs = .ok d' → Good d') ∧ (∀ x d', parseAt d i evs = .error (x, d') → Good d') := by
  unfold parseAt
  cases hn : d.nodes[i]? with
  | none => simp [h]
  | some n =>
    simp only
    by_cases hm : n.cls = .mask
    · simp [hm, h]
    · rw [if_neg hm, h.1.doc i n hn]
      have hr := run_good evs d h (some i) he
      cases hrun : run (some 0) d (some i) evs with
      | error q =>
        obtain ⟨x, d1⟩ := q
        simp only
        refine ⟨fun d' h' => by simp at h', fun y d' h' => ?_⟩
        simp only [Except.error.injEq, Prod.mk.injEq] at h'
        rw [← h'.2]
        exact hr.2 x d1 hrun
      | ok q =>
        obtain ⟨d1, a1⟩ := q
        simp only
        refine ⟨fun d' h' => ?_, fun y d' h' => by simp at h'⟩
        simp only [Except.ok.injEq] at h'
        rw [← h']
        exact hr.1 d1 a1 hrun

theorem build_eq (d d' : Dom V) (i : ℕ) (name : Str) (args : List V) (kwargs : Dict V)
    (h : build d i name args kwargs = .ok d') : ∃ n c a, d.nodes[i]? = some n ∧ n.cls ≠ .mask ∧
      dictGet bootstrap (dashes name) = some c ∧ construct c args kwargs = .ok a ∧ d' = append d i ⟨c, a, some i, n.doc, []⟩ := by
  unfold build at h
  cases hn : d.nodes[i]? with
  | none => simp [hn] at h
  | some n =>
    simp only [hn] at h
    by_cases hm : n.cls = .mask
    · simp [hm] at h
    · rw [if_neg hm] at h
      cases hb : dictGet bootstrap (dashes name) with
      | none => simp [hb] at h
      | some c =>
        simp only [hb] at h
        cases hc : construct c args kwargs with
        | error e => simp [hc] at h
        | ok a =>
          simp only [hc, Except.ok.injEq] at h
          exact ⟨n, c, a, rfl, hm, rfl, hc, h.symm⟩

theorem keys_set {K W : Type} [DecidableEq K] (l : List (K × W)) (k : K) (v : W) :
    (dictSet l k v).map (·.1) = if k ∈ l.map (·.1) then l.map (·.1) else l.map (·.1) ++ [k] := by
  induction l with
  | nil => simp [dictSet]
  | cons a l ih =>
    obtain ⟨x, y⟩ := a
    simp only [dictSet]
    by_cases h : x = k
    · simp [h]
    · rw [if_neg h, List.map_cons, ih]
      by_cases h2 : k ∈ l.map (·.1)
      · simp [h2]
      · rw [if_neg h2, if_neg (by simp only [List.map_cons, List.mem_cons, not_or]; exact ⟨fun hc => h hc.symm, h2⟩)]
        rfl

theorem isDict_set (l : Dict V) (k : Str) (v : V) (h : IsDict l) : IsDict (dictSet l k v) := by
  unfold IsDict at *
  rw [keys_set]
  split
  · exact h
  · rename_i hk
    rw [List.nodup_append]
    refine ⟨h, List.nodup_singleton _, fun a ha b hb => ?_⟩
    rw [List.mem_singleton] at hb
    rintro rfl
    exact hk (hb ▸ ha)

theorem isDict_update (e : Dict V) : ∀ (l : Dict V), IsDict l → IsDict (update l e) := by
  induction e with
  | nil => intro l h; exact h
  | cons a e ih => intro l h; exact ih _ (isDict_set _ _ _ h)

theorem construct_isDict (c : Cls) (args : List V) (kwargs : Dict V) (a : Dict V) (h : construct c args kwargs = .ok (some a)) :
    IsDict a := by
  unfold construct at h
  split at h
  · split at h <;> simp at h
  · split at h
    · split at h
      · simp only [Except.ok.injEq, Option.some.injEq] at h
        rw [← h]; exact List.nodup_nil
      · simp at h
    · simp only [Except.ok.injEq, Option.some.injEq] at h
      rw [← h]; exact isDict_update _ [] List.nodup_nil

theorem reachable_good (d : Dom V) (h : Reachable d) : Good d := by
  induction h with
  | new =>
    refine ⟨⟨⟨_, rfl, rfl, rfl⟩, ?_, ?_, ?_, ?_⟩, ?_⟩
    · intro i n hi h0
      cases i with
      | zero => exact absurd rfl h0
      | succ i => simp [newDocument] at hi
    · intro i n hi
      cases i with
      | zero => simp [newDocument] at hi; rw [← hi]
      | succ i => simp [newDocument] at hi
    · intro p r hp c
      have hr : r.kids = [] := by
        cases p with
        | zero => simp [newDocument] at hp; rw [← hp]
        | succ i => simp [newDocument] at hp
      rw [hr]
      simp only [List.not_mem_nil, false_iff, not_exists, not_and]
      intro n hn
      cases c with
      | zero => simp [newDocument] at hn; rw [← hn]; simp
      | succ i => simp [newDocument] at hn
    · intro p r hp
      cases p with
      | zero => simp [newDocument] at hp; rw [← hp]; exact List.nodup_nil
      | succ i => simp [newDocument] at hp
    · intro i n hi a ha
      cases i with
      | zero => simp [newDocument] at hi; rw [← hi] at ha; simp at ha; rw [ha]; exact List.nodup_nil
      | succ i => simp [newDocument] at hi
  | parsed _ he h ih => exact (parseAt_good _ ih _ _ he).1 _ h
  | failed _ he h ih => exact (parseAt_good _ ih _ _ he).2 _ _ h
  | built _ h ih =>
    obtain ⟨n, c, a, h1, h2, h3, h4, rfl⟩ := build_eq _ _ _ _ _ _ h
    refine ⟨consistent_append _ ih.1 _ n h1 _ rfl (ih.1.doc _ n h1) rfl, attrsOk_append _ ih.2 _ _ (fun b hb => ?_)⟩
    simp only at hb
    subst hb
    exact construct_isDict _ _ _ _ h4

/-- C66: in every document reached by loading, even if it fails half way, and builder calls, in any order: the children of a node are
exactly the nodes whose parent it is, each once, and every node belongs to the document. -/
theorem C66_consistent (d : Dom V) (h : Reachable d) : Consistent d := (reachable_good d h).1

/-- C66: a builder call adds one node. It is the last child of the node whose builder was called, has that node as parent and no
children, and belongs to the document. Nothing else changes: other nodes, the other children of that node and its attributes, and
the ids known to the document. -/
theorem C66_builder (d d' : Dom V) (hd : Reachable d) (i : ℕ) (name : Str) (args : List V) (kwargs : Dict V)
    (h : build d i name args kwargs = .ok d') :
    ∃ r n, d.nodes[i]? = some r ∧ d'.nodes.length = d.nodes.length + 1 ∧ d'.nodes[d.nodes.length]? = some n ∧
      n.parent = some i ∧ n.doc = some 0 ∧ n.kids = [] ∧
      d'.nodes[i]? = some { r with kids := r.kids ++ [d.nodes.length] } ∧
      (∀ j, j ≠ i → j < d.nodes.length → d'.nodes[j]? = d.nodes[j]?) ∧ d'.objects = d.objects := by
  obtain ⟨n, c, a, h1, h2, h3, h4, rfl⟩ := build_eq _ _ _ _ _ _ h
  have hi : i < d.nodes.length := (List.getElem?_eq_some_iff.1 h1).1
  refine ⟨n, ⟨c, a, some i, n.doc, []⟩, h1, by simp [append], by rw [append_get, if_pos rfl], rfl,
    (C66_consistent d hd).doc i n h1, rfl, ?_, fun j h5 h6 => ?_, rfl⟩
  · rw [append_get, if_neg (by omega), if_pos rfl, h1]; rfl
  · rw [append_get, if_neg (by omega), if_neg h5]

/-- a loaded document, and a builder call on its root element -/
example : ∃ d d' : Dom Str, Reachable d ∧ build d 1 "rect".toList [] [] = .ok d' ∧ d.nodes.length = 3 := by
  refine ⟨_, _, .parsed (i := 0) (evs := [.start "svg".toList [], .start "g".toList [], .stop, .stop]) .new (fun tag a ha => ?_) rfl, rfl, rfl⟩
  simp at ha
  rcases ha with ⟨_, rfl⟩ | ⟨_, rfl⟩ <;> exact List.nodup_nil

/-- C66: `document.add(node)` breaks it: the node is then in two lists. -/
theorem C66_add_wrong : ∃ d : Dom Str, Reachable d ∧ ¬ Consistent (add d 2) ∧
    (∃ r, (add d 2).nodes[0]? = some r ∧ 2 ∈ r.kids) ∧ ∃ r, (add d 2).nodes[1]? = some r ∧ 2 ∈ r.kids := by
  refine ⟨_, .parsed (i := 0) (evs := [.start "svg".toList [], .start "g".toList [], .stop, .stop]) .new (fun tag a ha => ?_) rfl,
    ?_, ⟨_, rfl, ?_⟩, ⟨_, rfl, ?_⟩⟩
  · simp at ha
    rcases ha with ⟨_, rfl⟩ | ⟨_, rfl⟩ <;> exact List.nodup_nil
  · intro hC
    have := (hC.kids 0 _ rfl 2).1 (by decide +kernel)
    obtain ⟨n, h1, h2⟩ := this
    have h3 : (some n : Option (NodeRec Str)) = some ⟨.group, some [], some 1, some 0, []⟩ := by rw [← h1]; rfl
    simp only [Option.some.injEq] at h3
    rw [h3] at h2
    simp at h2
  · decide +kernel
  · decide +kernel

end Svgio.Props
