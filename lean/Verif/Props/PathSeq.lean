import Verif.Model.PathSeq
import Verif.Spec.Alike
import Verif.Props.PathEditClose
import Verif.Props.PathSlice

/-!
C138: comparing segments and paths. C139: a path as a mutable sequence.
-/

namespace Svgio.Props
open Spec

variable {K : Type} [Field K] [LinearOrder K]

theorem ptEq_near (p q : Pt K) : p.eq q = true ↔ Near p q := by
  unfold Pt.eq Near err
  simp

theorem optEq_near (p q : Option (Pt K)) : optEq p q = true ↔ NearOpt p q := by
  cases p <;> cases q <;> simp [optEq, NearOpt, ptEq_near]

/-- C138: two segments are equal exactly if they are of the same class and their points are near each other. -/
theorem C138_segment (s o : Seg K) : (s.eq o = true ↔ SegAlike s o) ∧ (s.ne o = true ↔ ¬ SegAlike s o) := by
  have h : s.eq o = true ↔ SegAlike s o := by
    unfold Seg.eq SegAlike SegKindAlike
    rw [Bool.and_eq_true, Bool.and_eq_true, optEq_near, optEq_near]
    cases s.kind <;> cases o.kind <;> simp [optEq_near, ptEq_near] <;> tauto
  refine ⟨h, ?_⟩
  unfold Seg.ne
  rw [← h]
  simp

section
variable [IsStrictOrderedRing K]

theorem near_symm {p q : Pt K} (h : Near p q) : Near q p := by
  unfold Near at *
  rwa [abs_sub_comm q.x, abs_sub_comm q.y]

theorem near_refl' (p : Pt K) : Near p p := by
  unfold Near
  simp only [sub_self, abs_zero, and_self]
  positivity

theorem nearOpt_symm {p q : Option (Pt K)} (h : NearOpt p q) : NearOpt q p := by
  cases p <;> cases q <;> simp only [NearOpt] at *
  exact near_symm h

theorem nearOpt_refl (p : Option (Pt K)) : NearOpt p p := by
  cases p <;> simp [NearOpt, near_refl']

theorem alike_symm {s o : Seg K} (h : SegAlike s o) : SegAlike o s := by
  obtain ⟨h1, h2, h3⟩ := h
  refine ⟨?_, nearOpt_symm h2, nearOpt_symm h3⟩
  revert h1
  cases s.kind <;> cases o.kind <;> simp only [SegKindAlike, false_implies, imp_self]
  · exact nearOpt_symm
  · exact fun h => ⟨nearOpt_symm h.1, nearOpt_symm h.2⟩
  · exact fun h => ⟨near_symm h.1, near_symm h.2.1, near_symm h.2.2.1, h.2.2.2.symm⟩

theorem alike_refl (s : Seg K) : SegAlike s s := by
  refine ⟨?_, nearOpt_refl _, nearOpt_refl _⟩
  cases s.kind <;> simp [SegKindAlike, nearOpt_refl, near_refl']

theorem zip_all (p q : List (Seg K)) (h : p.length = q.length) : ((q.zip p).all fun so => so.1.eq so.2) = true ↔ List.Forall₂ SegAlike p q := by
  induction p generalizing q with
  | nil => cases q with
    | nil => simp
    | cons => simp at h
  | cons a p ih => cases q with
    | nil => simp at h
    | cons b q =>
      rw [List.zip_cons_cons, List.all_cons, Bool.and_eq_true, List.forall₂_cons, ih q (by simpa using h), (C138_segment b a).1]
      exact and_congr_left fun _ => ⟨alike_symm, alike_symm⟩

/-- C138: two paths are equal exactly if they have as many segments and these are equal one by one. -/
theorem C138_path (p q : List (Seg K)) : (Path.eq p q = true ↔ List.Forall₂ SegAlike p q) ∧ (Path.ne p q = true ↔ ¬ List.Forall₂ SegAlike p q) := by
  have h : Path.eq p q = true ↔ List.Forall₂ SegAlike p q := by
    unfold Path.eq
    by_cases hl : p.length = q.length
    · rw [if_neg (not_not.2 hl)]
      exact zip_all p q hl
    · rw [if_pos hl]
      exact ⟨fun h => (by cases h), fun h => absurd h.length_eq hl⟩
  refine ⟨h, ?_⟩
  unfold Path.ne
  rw [← h]
  simp

/-- C138: every path equals itself, and the order in which two paths are compared does not matter. -/
theorem C138_laws_partial (p q : List (Seg K)) : Path.eq p p = true ∧ Path.eq p q = Path.eq q p := by
  refine ⟨(C138_path p p).1.2 (List.forall₂_same.2 fun s _ => alike_refl s), ?_⟩
  rw [Bool.eq_iff_iff, (C138_path p q).1, (C138_path q p).1]
  exact ⟨fun h => h.flip.imp fun _ _ => alike_symm, fun h => h.flip.imp fun _ _ => alike_symm⟩

end

/-- C138: of three paths the first can equal the second and the second the third, but not the first the third. -/
theorem C138_transitive_wrong : ∃ p q r : List (Seg ℚ), Path.eq p q = true ∧ Path.eq q r = true ∧ Path.eq p r = false := by
  refine ⟨[⟨.move, none, some ⟨0, 0⟩, false, true⟩], [⟨.move, none, some ⟨1 / 10 ^ 12, 0⟩, false, true⟩],
    [⟨.move, none, some ⟨2 / 10 ^ 12, 0⟩, false, true⟩], ?_⟩
  decide +kernel

/-! ### places -/

theorem indexGo_iff (v : Seg K) (stop : Option ℤ) (i : ℕ) (l : List (Seg K)) (k : ℕ) :
    Path.indexGo v stop i l = .ok k ↔ i ≤ k ∧ (∀ e, stop = some e → (k : ℤ) < e) ∧ (∃ s, l[k - i]? = some s ∧ SegAlike s v) ∧
      ∀ j s, i ≤ j → j < k → l[j - i]? = some s → ¬ SegAlike s v := by
  induction l generalizing i with
  | nil => simp [Path.indexGo]
  | cons a l ih =>
    have step : (if a.eq v then (.ok i : Except PyErr ℕ) else Path.indexGo v stop (i + 1) l) = .ok k ∧ (∀ e, stop = some e → (i : ℤ) < e) ↔
        i ≤ k ∧ (∀ e, stop = some e → (k : ℤ) < e) ∧ (∃ s, (a :: l)[k - i]? = some s ∧ SegAlike s v) ∧
        ∀ j s, i ≤ j → j < k → (a :: l)[j - i]? = some s → ¬ SegAlike s v := by
      by_cases ha : a.eq v = true
      · rw [if_pos ha]
        have ha' := (C138_segment a v).1.1 ha
        constructor
        · rintro ⟨h, he⟩
          obtain rfl : i = k := Except.ok.inj h
          exact ⟨le_refl _, he, ⟨a, by simp, ha'⟩, fun j s h1 h2 => absurd h1 (by omega)⟩
        · rintro ⟨h1, h2, h3, h4⟩
          rcases Nat.lt_or_eq_of_le h1 with h | rfl
          · exact absurd ha' (h4 i a (le_refl _) h (by simp))
          · exact ⟨rfl, h2⟩
      · rw [if_neg ha, ih]
        have ha' : ¬ SegAlike a v := fun h => ha ((C138_segment a v).1.2 h)
        constructor
        · rintro ⟨⟨h1, h2, ⟨s, h3, h5⟩, h4⟩, he⟩
          refine ⟨by omega, h2, ⟨s, by rw [show k - i = (k - (i + 1)) + 1 by omega, List.getElem?_cons_succ]; exact h3, h5⟩, ?_⟩
          intro j t j1 j2 jt
          rcases Nat.lt_or_eq_of_le j1 with h | rfl
          · rw [show j - i = (j - (i + 1)) + 1 by omega, List.getElem?_cons_succ] at jt
            exact h4 j t h j2 jt
          · rw [Nat.sub_self, List.getElem?_cons_zero] at jt
            cases jt
            exact ha'
        · rintro ⟨h1, h2, ⟨s, h3, h5⟩, h4⟩
          have hk : i ≠ k := by
            rintro rfl
            rw [Nat.sub_self, List.getElem?_cons_zero] at h3
            cases h3
            exact ha' h5
          refine ⟨⟨by omega, h2, ⟨s, ?_, h5⟩, ?_⟩, fun e he => by have := h2 e he; omega⟩
          · rw [show k - i = (k - (i + 1)) + 1 by omega, List.getElem?_cons_succ] at h3
            exact h3
          · intro j t j1 j2 jt
            refine h4 j t (by omega) j2 ?_
            rw [show j - i = (j - (i + 1)) + 1 by omega, List.getElem?_cons_succ]
            exact jt
    rw [← step]
    cases stop with
    | none => simp [Path.indexGo]
    | some e =>
      simp only [Path.indexGo]
      by_cases he : (i : ℤ) < e
      · rw [if_pos he]
        simp [he]
      · rw [if_neg he]
        simp [he]

theorem indexGo_error (v : Seg K) (stop : Option ℤ) (i : ℕ) (l : List (Seg K)) (e : PyErr) (h : Path.indexGo v stop i l = .error e) :
    e = .valueError := by
  induction l generalizing i with
  | nil => cases h; rfl
  | cons a l ih =>
    unfold Path.indexGo at h
    repeat' split at h
    all_goals first | cases h; rfl | exact ih _ h | cases h

/-- C139: `path.index(segment, start, stop)` is the first place in `path[start:stop]` with an equal segment, and ValueError if there is none. -/
theorem C139_index (p : List (Seg K)) (v : Seg K) (start : ℤ) (stop : Option ℤ) (lo hi : ℕ) (h : Places p.length (some start) stop lo hi) :
    (∀ i, Path.index p v start stop = .ok i ↔ First (SegAlike · v) p lo hi i) ∧
    ((∀ i, ¬ First (SegAlike · v) p lo hi i) → Path.index p v start stop = .error .valueError) := by
  have key : ∀ i, Path.index p v start stop = .ok i ↔ First (SegAlike · v) p lo hi i := by
    intro i
    obtain ⟨h1, e, h2, rfl⟩ := h
    unfold Path.index First
    simp only
    rw [indexGo_iff]
    generalize hs : (if start < 0 then max ((p.length : ℤ) + start) 0 else start) = s0
    have hs0 : (s0.toNat = lo ∨ (p.length ≤ s0.toNat ∧ lo = p.length)) := by
      unfold Place at h1
      split_ifs at hs <;> omega
    have hd : ∀ j, s0.toNat ≤ j → (p.drop s0.toNat)[j - s0.toNat]? = p[j]? := by
      intro j hj
      rw [List.getElem?_drop]
      congr 1
      omega
    have hlt : ∀ (j : ℕ) (s : Seg K), p[j]? = some s → j < p.length := fun j s hj => (List.getElem?_eq_some_iff.1 hj).1
    have he : ∀ i : ℕ, i < p.length → lo ≤ i → ((∀ x, stop.map (fun (e : ℤ) => if e < 0 then e + p.length else e) = some x → (i : ℤ) < x) ↔ i < max lo e) := by
      intro i hi hl
      cases stop with
      | none => simp only at h2; simp; omega
      | some x =>
        simp only at h2
        simp only [Option.map_some, Option.some.injEq, forall_eq']
        unfold Place at h2
        split_ifs <;> omega
    constructor
    · rintro ⟨a1, a2, ⟨s, a3, a4⟩, a5⟩
      rw [hd i a1] at a3
      have := hlt _ _ a3
      obtain hs1 : s0.toNat = lo := by omega
      refine ⟨by omega, (he i this (by omega)).1 a2, ⟨s, a3, a4⟩, ?_⟩
      intro j t j1 j2 j3
      exact a5 j t (by omega) j2 (by rw [hd j (by omega)]; exact j3)
    · rintro ⟨a1, a2, ⟨s, a3, a4⟩, a5⟩
      have := hlt _ _ a3
      obtain hs1 : s0.toNat = lo := by omega
      refine ⟨by omega, (he i this (by omega)).2 a2, ⟨s, by rw [hd i (by omega)]; exact a3, a4⟩, ?_⟩
      intro j t j1 j2 j3
      rw [hd j j1] at j3
      exact a5 j t (by omega) j2 j3
  refine ⟨key, fun hn => ?_⟩
  cases hr : Path.index p v start stop with
  | ok i => exact absurd ((key i).1 hr) (hn i)
  | error e =>
    unfold Path.index at hr
    rw [indexGo_error _ _ _ _ _ hr]

open Classical in
/-- C139: `segment in path` and `path.count(segment)` look for equal segments. -/
theorem C139_count (p : List (Seg K)) (v : Seg K) :
    (Path.contains p v = true ↔ ∃ s ∈ p, SegAlike s v) ∧ Path.count p v = (p.filter fun s => SegAlike s v).length := by
  constructor
  · unfold Path.contains
    rw [List.any_eq_true]
    exact ⟨fun ⟨s, h1, h2⟩ => ⟨s, h1, (C138_segment s v).1.1 h2⟩, fun ⟨s, h1, h2⟩ => ⟨s, h1, (C138_segment s v).1.2 h2⟩⟩
  · unfold Path.count
    have : ∀ n, p.foldl (fun n s => if s.eq v then n + 1 else n) n = n + (p.filter fun s => SegAlike s v).length := by
      induction p with
      | nil => simp
      | cons a p ih =>
        intro n
        rw [List.foldl_cons, ih, List.filter_cons]
        by_cases ha : a.eq v = true
        · rw [if_pos ha, if_pos (by simpa using (C138_segment a v).1.1 ha), List.length_cons]
          omega
        · rw [if_neg ha, if_neg (by simpa using fun h => ha ((C138_segment a v).1.2 h))]
    rw [this, Nat.zero_add]

/-! ### taking segments away -/

theorem conn_prefix {R S : Pt K → Pt K → Prop} {l r : List (Seg K)} (h : Conn R S (l ++ r)) : Conn R S l := by
  have hp : ∀ (i : ℕ) (s : Seg K), l[i]? = some s → (l ++ r)[i]? = some s := by
    intro i s hi
    rw [List.getElem?_append_left (List.getElem?_eq_some_iff.1 hi).1, hi]
  have hb : ∀ (i : ℕ) (s : Seg K), i < l.length → (l ++ r)[i]? = some s → l[i]? = some s := by
    intro i s hl hi
    rwa [List.getElem?_append_left hl] at hi
  refine ⟨fun i a b h1 h2 => h.1 i a b (hp _ _ h1) (hp _ _ h2), ?_⟩
  intro i s h1 h2
  have hl := (List.getElem?_eq_some_iff.1 h1).1
  obtain ⟨q, u, h3, h4⟩ := h.2 i s (hp _ _ h1) h2
  refine ⟨q, u, ?_, h4⟩
  rcases h3 with ⟨j, m, a1, a2, a3⟩ | ⟨a1, t, a2, a3⟩
  · exact Or.inl ⟨j, m, a1, hb _ _ (by omega) a2, a3.1, a3.2.1, fun k s k1 k2 k3 => a3.2.2 k s k1 k2 (hp _ _ k3)⟩
  · exact Or.inr ⟨fun k s k1 k2 => a1 k s k1 (hp _ _ k2), t, hb _ _ (by omega) a2, a3⟩

/-- C139: `path.pop()` gives the last segment and takes it away, nothing else changes, and a connected path stays connected. From an empty
path it raises IndexError. -/
theorem C139_pop_last (l : List (Seg K)) (a : Seg K) :
    Path.pop (l ++ [a]) = .ok (a, l) ∧ (∀ R : Pt K → Pt K → Prop, Connected R (l ++ [a]) → Connected R l) ∧
    Path.pop ([] : List (Seg K)) = .error .indexError := by
  refine ⟨?_, fun R h => conn_prefix h, rfl⟩
  have hi : Path.pyIdx (l ++ [a]).length (-1) = some l.length := by
    unfold Path.pyIdx
    rw [if_neg (by decide), if_pos (by simp)]
    simp
  have hg : (l ++ [a])[l.length]? = some a := by simp
  have he : (l ++ [a]).eraseIdx l.length = l := by simp [List.eraseIdx_append_of_length_le]
  have hd : Path.delItem (l ++ [a]) (-1) = .ok l := by
    unfold Path.delItem
    rw [hi]
    simp only [hg, he]
    have hv : Path.validateConnection l (-1 - 1) = l := by
      unfold Path.validateConnection
      rw [if_pos (by decide)]
    have hs : Path.validateSubpath l (-1) = l := by
      unfold Path.validateSubpath
      rw [if_pos (Or.inl (by decide))]
    rw [hv, hs, ite_self]
  have hget : Path.getItem (l ++ [a]) (-1) = .ok a := by
    unfold Path.getItem
    rw [hi]
    simp only [hg]
  unfold Path.pop
  rw [hget, hd]
  rfl

/-- C139: `path.clear()` ends, and the path is empty then. -/
theorem C139_clear (p : List (Seg K)) (n : ℕ) (h : p.length < n) : Path.clear n p = some (.ok []) := by
  induction n generalizing p with
  | zero => omega
  | succ n ih =>
    rcases List.eq_nil_or_concat p with rfl | ⟨l, a, rfl⟩
    · rfl
    · rw [List.concat_eq_append] at h ⊢
      unfold Path.clear
      rw [(C139_pop_last l a).1]
      exact ih l (by simpa using h)

theorem pop_nat {p p' : List (Seg K)} {x : Seg K} {i : ℕ} (hi : p[i]? = some x) (hd : Path.delItem p i = .ok p') :
    Path.pop p i = .ok (x, p') := by
  unfold Path.pop Path.getItem
  rw [pyIdx_nat (List.getElem?_eq_some_iff.1 hi).1, hd]
  simp only [hi]
  rfl

variable [IsStrictOrderedRing K]

/-- C139: `path.pop(i)` gives the segment at the place and takes it away; what is left is connected, with the same segments, except for
their starts and the ends of closes. Partial: with the conditions of `C49_delitem_partial`. -/
theorem C139_pop_partial {p : List (Seg K)} (hp : Sound p) {x : Seg K} {i : ℕ} (hi : p[i]? = some x)
    (h0 : i = 0 → ∀ f, p[1]? = some f → f.kind = .move) (hm : 0 < i → x.kind = .move → OpenFrom p (i + 1)) :
    ∃ p', Path.pop p i = .ok (x, p') ∧ Sound p' ∧ List.Forall₂ Repairs (p.eraseIdx i) p' := by
  obtain ⟨p', h1, h2, h3⟩ := C49_delitem_partial hp hi h0 hm
  exact ⟨p', pop_nat hi h1, h2, h3⟩

/-- C139: `path.remove(segment)` takes the first equal segment away, as `C139_pop_partial`, and raises ValueError if there is none. -/
theorem C139_remove_partial {p : List (Seg K)} (hp : Sound p) (v : Seg K) :
    (∀ i x, First (SegAlike · v) p 0 p.length i → p[i]? = some x → (i = 0 → ∀ f, p[1]? = some f → f.kind = .move) →
      (0 < i → x.kind = .move → OpenFrom p (i + 1)) →
      ∃ p', Path.remove p v = .ok p' ∧ Sound p' ∧ List.Forall₂ Repairs (p.eraseIdx i) p') ∧
    ((∀ s ∈ p, ¬ SegAlike s v) → Path.remove p v = .error .valueError) := by
  have hpl : Places p.length (some 0) none 0 p.length :=
    ⟨Or.inl ⟨le_refl _, by omega, rfl⟩, p.length, rfl, by simp⟩
  obtain ⟨k1, k2⟩ := C139_index p v 0 none 0 p.length hpl
  constructor
  · intro i x hf hi h0 hm
    obtain ⟨p', h1, h2, h3⟩ := C49_delitem_partial hp hi h0 hm
    refine ⟨p', ?_, h2, h3⟩
    unfold Path.remove
    rw [(k1 i).2 hf]
    exact h1
  · intro h
    unfold Path.remove
    rw [k2]
    · rfl
    · rintro i ⟨_, _, ⟨s, h1, h2⟩, _⟩
      exact h s (List.mem_of_getElem? h1) h2

/-- C139: `path.pop(-2)` leaves a gap. -/
theorem C139_pop_wrong : ∃ x p', Path.pop exEdit (-2) = .ok (x, p') ∧ HasEnds p' ∧ ¬ Connected Near p' := by
  obtain ⟨p', h1, h2, h3⟩ := C49_not_connected.2.2.1
  have hg : Path.getItem exEdit (-2) = .ok ⟨.line, some ⟨5, 5⟩, some ⟨6, 5⟩, false, true⟩ := rfl
  exact ⟨_, p', by unfold Path.pop; rw [hg, h1]; rfl, h2, h3⟩

/-- the place of a line of the sample, and what is left without it -/
example : ∃ i x p', First (SegAlike · ⟨.line, some ⟨1, 0⟩, some ⟨2, 0⟩, false, true⟩) exEdit 0 exEdit.length i ∧ exEdit[i]? = some x ∧
    Path.remove exEdit ⟨.line, some ⟨1, 0⟩, some ⟨2, 0⟩, false, true⟩ = .ok p' ∧ Sound p' := by
  have hf : First (SegAlike · ⟨.line, some ⟨1, 0⟩, some ⟨2, 0⟩, false, true⟩) exEdit 0 exEdit.length 2 := by
    refine ⟨by omega, by decide, ⟨_, rfl, alike_refl _⟩, ?_⟩
    intro j s _ hj hs
    rw [← (C138_segment _ _).2]
    obtain rfl | rfl : j = 0 ∨ j = 1 := by omega
    · cases hs; decide +kernel
    · cases hs; decide +kernel
  obtain ⟨p', h1, h2, _⟩ := (C139_remove_partial exEdit_sound _).1 2 _ hf rfl (by simp) (by simp)
  exact ⟨2, _, p', hf, rfl, h1, h2⟩

/-- the places of the slice `1:-2` of seven segments -/
example : Places exEdit.length (some 1) (some (-2)) 1 5 :=
  ⟨Or.inl ⟨by decide, by decide, rfl⟩, 5, Or.inr (Or.inr (Or.inl ⟨by decide, by decide, rfl⟩)), rfl⟩

end Svgio.Props
