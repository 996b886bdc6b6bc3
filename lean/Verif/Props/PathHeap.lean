import Verif.Lemmas.PathHeap

namespace Svgio.Props

open Svgio.Path

variable {K : Type} [Field K] [LinearOrder K]

/-! ### invariants of programs -/

theorem refs_none (w : World K) (h : Store K) (r : List ℕ) (i : ℕ) :
    (⟨h, w.paths ++ [r]⟩ : World K).refs i = if i = w.paths.length then r else w.refs i := by
  unfold World.refs
  simp only [List.getD_eq_getElem?_getD, List.getElem?_append]
  by_cases h1 : i < w.paths.length
  · rw [if_pos h1, if_neg (by omega)]
  · rw [if_neg h1]
    by_cases h2 : i = w.paths.length
    · subst h2; simp
    · rw [if_neg h2, List.getElem?_eq_none (l := w.paths) (by omega), List.getElem?_eq_none]
      simp; omega

theorem refs_some (w : World K) (h : Store K) (r : List ℕ) (i k : ℕ) :
    (⟨h, w.paths.set i r⟩ : World K).refs k = if k = i ∧ i < w.paths.length then r else w.refs k := by
  unfold World.refs
  simp only [List.getD_eq_getElem?_getD, List.getElem?_set]
  by_cases h1 : i = k
  · subst h1
    by_cases h2 : i < w.paths.length
    · simp [h2]
    · simp [h2]
  · rw [if_neg h1, if_neg (by intro h; exact h1 h.1.symm)]

theorem step_ok {w w' : World K} {c : Cmd K} (h : w.step c = .ok w') :
    ∃ x, w.act c = .ok x ∧ w' = ⟨x.1, match c.target with
      | none => w.paths ++ [x.2]
      | some i => w.paths.set i x.2⟩ := by
  unfold World.step at h
  cases ha : w.act c with
  | error e => rw [ha] at h; simp at h
  | ok x =>
    rw [ha] at h
    simp only [Except.ok.injEq] at h
    exact ⟨x, rfl, h.symm⟩

/-- The references of a path after a command: those it gets, for the path that is edited or made, or those it had -/
theorem step_refs {w w' : World K} {c : Cmd K} {x : Store K × List ℕ} (hx : w.act c = .ok x) (hs : w.step c = .ok w') (k : ℕ) :
    w'.refs k = w.refs k ∨ w'.refs k = x.2 := by
  obtain ⟨y, hy, e⟩ := step_ok hs
  rw [hx] at hy
  cases hy
  subst e
  cases hc : c.target with
  | none =>
    simp only [refs_none]
    split_ifs
    · exact Or.inr rfl
    · exact Or.inl rfl
  | some i =>
    simp only [refs_some]
    split_ifs
    · exact Or.inr rfl
    · exact Or.inl rfl

theorem uses_bound {w : World K} (hb : Bounded w) (c : Cmd K) : ∀ a ∈ (Spec.uses c).flatMap w.refs, a < w.store.next := by
  intro a ha
  obtain ⟨i, -, hi⟩ := List.mem_flatMap.1 ha
  exact hb i a hi

theorem bounded_step {w w' : World K} {c : Cmd K} (hb : Bounded w) (hs : w.step c = .ok w') : Bounded w' := by
  obtain ⟨x, hx, e⟩ := step_ok hs
  have ed := act_edit hb c hx
  intro i a ha
  have hst : w'.store = x.1 := by rw [e]
  rw [hst]
  rcases step_refs hx hs i with h1 | h1
  · rw [h1] at ha; exact lt_of_lt_of_le (hb i a ha) ed.next
  · rw [h1] at ha; exact ed.bound (uses_bound hb c) a ha

theorem bounded_empty : Bounded (World.empty : World K) := by
  intro i a ha
  simp [World.refs, World.empty] at ha

theorem bounded_run {w w' : World K} {cs : List (Cmd K)} (hb : Bounded w) (h : w.run cs = .ok w') : Bounded w' := by
  induction cs generalizing w with
  | nil =>
    simp only [World.run, Except.ok.injEq] at h
    subst h; exact hb
  | cons c cs ih =>
    unfold World.run at h
    cases hs : w.step c with
    | error e => rw [hs] at h; simp at h
    | ok w1 =>
      rw [hs] at h
      exact ih (bounded_step hb hs) h

theorem uses_fresh {c : Cmd K} (hf : c.fresh = true) : Spec.uses c = c.target.toList := by
  cases c <;> first | rfl | simp [Cmd.fresh] at hf

theorem owned_step {w w' : World K} {c : Cmd K} (ho : Owned w) (hf : c.fresh = true) (hs : w.step c = .ok w') : Owned w' := by
  obtain ⟨x, hx, e⟩ := step_ok hs
  have hb := ho.bounded
  have ed := act_edit hb c hx
  rw [uses_fresh hf] at ed
  have hb' := bounded_step hb hs
  cases hc : c.target with
  | none =>
    rw [hc] at e ed
    simp only [Option.toList_none, List.flatMap_nil] at ed
    simp only [] at e
    have hnew : ∀ a ∈ x.2, w.store.next ≤ a := by
      intro a ha
      rcases ed.refs a ha with h1 | h1
      · simp at h1
      · exact h1.1
    subst e
    refine ⟨hb', ?_, ?_⟩
    · intro i
      rw [refs_none]
      split_ifs
      · exact ed.nodup (by simp) (by simp)
      · exact ho.nodup i
    · intro i j hij a
      rw [refs_none, refs_none]
      split_ifs with h1 h2 h2
      · exact absurd (h1.trans h2.symm) hij
      · intro ha hc
        have := hnew a ha
        have := hb j a hc
        omega
      · intro ha hc
        have := hnew a hc
        have := hb i a ha
        omega
      · exact ho.apart i j hij a
  | some t =>
    rw [hc] at e ed
    simp only [Option.toList_some, List.flatMap_cons, List.flatMap_nil, List.append_nil] at ed
    simp only [] at e
    subst e
    have other : ∀ k, k ≠ t → ∀ a ∈ x.2, a ∉ w.refs k := by
      intro k hk a ha hc
      rcases ed.refs a ha with h1 | h1
      · exact ho.apart t k (Ne.symm hk) a h1 hc
      · have := hb k a hc
        omega
    refine ⟨hb', ?_, ?_⟩
    · intro i
      rw [refs_some]
      split_ifs
      · exact ed.nodup (ho.nodup t) (hb t)
      · exact ho.nodup i
    · intro i j hij a
      rw [refs_some, refs_some]
      split_ifs with h1 h2 h2
      · exact absurd (h1.1.trans h2.1.symm) hij
      · intro ha
        exact other j (fun e => hij (h1.1.trans e.symm)) a ha
      · intro ha hc
        exact other i (fun e => hij (e.trans h2.1.symm)) a hc ha
      · exact ho.apart i j hij a

theorem owned_empty : Owned (World.empty : World K) := by
  refine ⟨bounded_empty, ?_, ?_⟩
  · intro i; simp [World.refs, World.empty]
  · intro i j _ a ha; simp [World.refs, World.empty] at ha

theorem owned_run {w w' : World K} {cs : List (Cmd K)} (ho : Owned w) (hf : ∀ c ∈ cs, c.fresh = true)
    (h : w.run cs = .ok w') : Owned w' := by
  induction cs generalizing w with
  | nil =>
    simp only [World.run, Except.ok.injEq] at h
    subst h; exact ho
  | cons c cs ih =>
    unfold World.run at h
    cases hs : w.step c with
    | error e => rw [hs] at h; simp at h
    | ok w1 =>
      rw [hs] at h
      exact ih (owned_step ho (hf c (by simp)) hs) (fun d hd => hf d (by simp [hd])) h

theorem step_view {w : World K} (ho : Owned w) (c : Cmd K) (hf : c.fresh = true) :
    (w.step c).map World.contents = Spec.stepAlone w.contents c := by
  have hv := act_view ho c hf
  unfold World.step Spec.stepAlone
  cases hx : w.act c with
  | error e =>
    rw [hx] at hv
    rw [← hv]
    rfl
  | ok x =>
    rw [hx] at hv
    rw [← hv]
    have ed := act_edit ho.bounded c hx
    rw [uses_fresh hf] at ed
    show Except.ok _ = Except.ok _
    congr 1
    cases hc : c.target with
    | none =>
      rw [hc] at ed
      show (w.paths ++ [x.2]).map x.1.view = w.paths.map w.store.view ++ [x.1.view x.2]
      rw [List.map_append, List.map_singleton]
      congr 1
      apply List.map_congr_left
      intro r hr
      obtain ⟨i, hi⟩ := List.getElem?_of_mem hr
      apply List.map_congr_left
      intro a ha
      have : w.refs i = r := by simp [World.refs, List.getD_eq_getElem?_getD, hi]
      exact ed.seg a (ho.bounded i a (this ▸ ha)) (by simp)
    | some t =>
      rw [hc] at ed
      simp only [Option.toList_some, List.flatMap_cons, List.flatMap_nil, List.append_nil] at ed
      show (w.paths.set t x.2).map x.1.view = (w.paths.map w.store.view).set t (x.1.view x.2)
      apply List.ext_getElem?
      intro i
      rw [List.getElem?_map, List.getElem?_set, List.getElem?_set, List.getElem?_map, List.length_map]
      by_cases hi : t = i
      · subst hi
        simp
      · rw [if_neg hi, if_neg hi]
        cases hr : w.paths[i]? with
        | none => rfl
        | some r =>
          have : w.refs i = r := by simp [World.refs, List.getD_eq_getElem?_getD, hr]
          simp only [Option.map_some, Option.some.injEq]
          apply List.map_congr_left
          intro a ha
          rw [← this] at ha
          exact ed.seg a (ho.bounded i a ha) (ho.apart i t (Ne.symm hi) a ha)

theorem run_view {w : World K} (ho : Owned w) (cs : List (Cmd K)) (hf : ∀ c ∈ cs, c.fresh = true) :
    (w.run cs).map World.contents = Spec.runAlone w.contents cs := by
  induction cs generalizing w with
  | nil => rfl
  | cons c cs ih =>
    have hv := step_view ho c (hf c (by simp))
    unfold World.run Spec.runAlone
    cases hs : w.step c with
    | error e =>
      rw [hs] at hv
      rw [← hv]
      rfl
    | ok w1 =>
      rw [hs] at hv
      rw [← hv]
      exact ih (owned_step ho (hf c (by simp)) hs) (fun d hd => hf d (by simp [hd]))

/-! ### C140 -/

/-- C140. Full statement: whatever a program does with its paths, each of them holds what its own edits make of it. Proved for every
history in which the segments given to paths are new objects: the paths hold, after every history, exactly what the same commands
make of separate lists of segments, and the same exception ends both. Missing: segments that two paths hold, see
`C140_shared_wrong`. -/
theorem C140_history_partial (cs : List (Cmd K)) (hf : ∀ c ∈ cs, c.fresh = true) :
    (World.empty.run cs).map World.contents = Spec.runAlone [] cs :=
  run_view owned_empty cs hf

/-- C140, in the words of the documentation of `Path`: each segment exists only once in each path, and it is in one path only, after
every history in which the segments given to paths are new. -/
theorem C140_unique_partial {cs : List (Cmd K)} (hf : ∀ c ∈ cs, c.fresh = true) {w : World K} (h : World.empty.run cs = .ok w)
    {i j m n a : ℕ} (hi : (w.refs i)[m]? = some a) (hj : (w.refs j)[n]? = some a) : i = j ∧ m = n := by
  have ho := owned_run owned_empty hf h
  have hij : i = j := by
    by_contra hne
    exact ho.apart i j hne a (List.mem_of_getElem? hi) (List.mem_of_getElem? hj)
  subst hij
  refine ⟨rfl, ?_⟩
  obtain ⟨l1, e1⟩ := List.getElem?_eq_some_iff.1 hi
  obtain ⟨l2, e2⟩ := List.getElem?_eq_some_iff.1 hj
  exact (ho.nodup i).getElem_inj_iff.1 (e1.trans e2.symm)

/-- C140, for every history, also one that shares segments: a command leaves every path as it is that holds no segment of the paths the
command edits or takes segments from. -/
theorem C140_frame {cs : List (Cmd K)} {w w' : World K} (h : World.empty.run cs = .ok w) {c : Cmd K} (hs : w.step c = .ok w')
    {j : ℕ} (hj : j < w.paths.length) (ht : c.target ≠ some j)
    (hd : ∀ i ∈ Spec.uses c, ∀ a ∈ w.refs i, a ∉ w.refs j) :
    Spec.pathOf w'.contents j = Spec.pathOf w.contents j := by
  have hb := bounded_run bounded_empty h
  obtain ⟨x, hx, e⟩ := step_ok hs
  have ed := act_edit hb c hx
  have hr : w'.refs j = w.refs j := by
    rw [e]
    cases hc : c.target with
    | none => simp only [refs_none]; rw [if_neg (by omega)]
    | some i =>
      simp only [refs_some]
      rw [if_neg]
      rintro ⟨h1, -⟩
      exact ht (by rw [hc, h1])
  have hst : w'.store = x.1 := by rw [e]
  rw [pathOf_contents, pathOf_contents, hr, hst]
  apply List.map_congr_left
  intro a ha
  refine ed.seg a (hb j a ha) ?_
  intro hc
  obtain ⟨i, hi, hia⟩ := List.mem_flatMap.1 hc
  exact hd i hi a hia ha

section Examples

/-- `M 0,0 L 1,0` -/
def exPair : List (Seg ℚ) :=
  [{ kind := .move, start := none, stop := some ⟨0, 0⟩ }, { kind := .line, start := some ⟨0, 0⟩, stop := some ⟨1, 0⟩ }]

/-- two paths, edited in turn -/
def exHistory : List (Cmd ℚ) :=
  [.create exPair, .create exPair, .append 0 (fun p => { kind := .line, start := currentPoint p, stop := some ⟨1, 1⟩ }),
   .iadd 1 0, .subImul 0 (0, 3) ⟨2, 0, 0, 2, 0, 0⟩, .reverse 1, .del 0 (-1), .iadd 1 1]

example : ∀ c ∈ exHistory, c.fresh = true := by decide

example : (World.empty.run exHistory).toOption.map (fun w => w.paths.map List.length) = some [2, 10] := by decide +kernel

/-- the ends of the segments of the first path after a history, or none when an exception ends it -/
def exFirst (cs : List (Cmd ℚ)) : Option (List (Option (Pt ℚ) × Option (Pt ℚ))) :=
  (World.empty.run cs).toOption.map (fun w => (Spec.pathOf w.contents 0).map (fun s => (s.start, s.stop)))

/-- C140 is false when a segment is given to a second path. The path `M 0,0 L 1,0` is changed by each of the following, none of which
is an edit of it: `q.append(p[1])` moves the start of its line to the end of `q`; `Path(subpath)` and `Path(p[0:2])` make paths that
are transformed together with it; `segment + subpath` moves the start of the first segment of the subpath. And a path that holds one
segment twice transforms it twice. -/
theorem C140_shared_wrong :
    exFirst [.create exPair] = some [(none, some ⟨0, 0⟩), (some ⟨0, 0⟩, some ⟨1, 0⟩)] ∧
    exFirst [.create exPair, .create [{ kind := .move, start := none, stop := some ⟨5, 5⟩ }], .appendOf 1 0 1] =
      some [(none, some ⟨0, 0⟩), (some ⟨5, 5⟩, some ⟨1, 0⟩)] ∧
    exFirst [.create exPair, .createSub 0 (0, 2), .subImul 1 (0, 2) ⟨2, 0, 0, 2, 1, 0⟩] =
      some [(none, some ⟨1, 0⟩), (some ⟨1, 0⟩, some ⟨3, 0⟩)] ∧
    exFirst [.create exPair, .createSlice 0 (some 0) (some 2), .subImul 1 (0, 2) ⟨2, 0, 0, 2, 1, 0⟩] =
      some [(none, some ⟨1, 0⟩), (some ⟨1, 0⟩, some ⟨3, 0⟩)] ∧
    exFirst [.create exPair, .raddSeg { kind := .line, start := none, stop := some ⟨5, 5⟩ } 0 (1, 2)] =
      some [(none, some ⟨0, 0⟩), (some ⟨5, 5⟩, some ⟨1, 0⟩)] ∧
    exFirst [.create exPair, .appendOf 0 0 1, .subImul 0 (0, 3) ⟨2, 0, 0, 2, 0, 0⟩] =
      some [(none, some ⟨0, 0⟩), (some ⟨4, 0⟩, some ⟨4, 0⟩), (some ⟨4, 0⟩, some ⟨4, 0⟩)] := by
  refine ⟨?_, ?_, ?_, ?_, ?_, ?_⟩ <;> decide +kernel

/-- three paths of which the last two share a segment: transforming the third leaves the first alone -/
example {w w' : World ℚ} (h : World.empty.run [.create exPair, .create exPair, .createSub 1 (0, 2)] = .ok w)
    (hs : w.step (.subImul 2 (0, 2) ⟨2, 0, 0, 2, 0, 0⟩) = .ok w') : Spec.pathOf w'.contents 0 = Spec.pathOf w.contents 0 := by
  cases h
  exact C140_frame (cs := [.create exPair, .create exPair, .createSub 1 (0, 2)]) rfl hs (by decide) (by decide) (by decide +kernel)

/-- a subpath of one Close: `self[-2]` and `self[0]` are the Close itself, which collapses to a point -/
example : Path.subReverse [({ kind := .close, start := some ⟨0, 0⟩, stop := some ⟨3, 4⟩ } : Seg ℚ)] (0, 1) =
    [{ kind := .close, start := some ⟨3, 4⟩, stop := some ⟨3, 4⟩ }] := by decide +kernel

end Examples

end Svgio.Props
