import Verif.Lemmas.Chain
import Mathlib.Tactic.IntervalCases

/-!
C48: `validate_connections()` and `Path(list_of_segments)`.
-/

namespace Svgio.Props
open Spec

variable {K : Type} [Field K] [LinearOrder K]

theorem near_iff {p q : Pt K} : p.eq q = true ↔ Near p q := by
  unfold Pt.eq Near err; simp

/-- every drawn segment and move has an end; only a close that is not the first segment may lack it -/
def DrawnEnds (p : List (Seg K)) : Prop :=
  ∀ i s, p[i]? = some s → i = 0 ∨ s.kind ≠ .close → s.stop ≠ none

/-- what the repaired segment keeps: its kind and flags, and its end unless it is a close -/
def Repairs (s s' : Seg K) : Prop :=
  s'.kind = s.kind ∧ s'.relative = s.relative ∧ s'.smooth = s.smooth ∧ (s.kind ≠ .close → s'.stop = s.stop)

/-- the tail of the repaired path -/
def rep : Pt K → Pt K → List (Seg K) → List (Seg K)
  | _, _, [] => []
  | z, e, s :: r =>
    let z1 := if s.isMove then s.stop.getD z else z
    let s1 := (Path.link ⟨.move, none, some e, false, true⟩ s).2
    let s2 := if s.isClose ∧ ¬ optEq s1.stop (some z1) then { s1 with stop := some z1 } else s1
    s2 :: rep z1 (s2.stop.getD e) r

theorem link_some {a s : Seg K} {e : Pt K} (h : a.stop = some e) :
    Path.link a s = (a, (Path.link ⟨.move, none, some e, false, true⟩ s).2) := by
  unfold Path.link
  rw [h]
  cases s.start with
  | none => rfl
  | some v => simp only; split_ifs <;> first | rfl | simp_all

theorem link_snd (e : Pt K) (s : Seg K) :
    ∃ v, (Path.link ⟨.move, none, some e, false, true⟩ s).2 = { s with start := some v } ∧
      (e.eq v = true ∨ v = e) ∧ (∀ w, s.start = some w → e.eq w = true → v = w) := by
  unfold Path.link
  cases hs : s.start with
  | none => exact ⟨e, rfl, Or.inr rfl, by simp⟩
  | some v =>
    simp only
    by_cases h : e.eq v = true
    · rw [if_pos h]
      refine ⟨v, ?_, Or.inl h, by simp⟩
      rw [← hs]
    · rw [if_neg h]
      refine ⟨e, rfl, Or.inr rfl, ?_⟩
      intro w hw hw'
      cases hw
      exact absurd hw' h

theorem vcGo_eq (z e : Pt K) (last : Seg K) (r : List (Seg K)) (hl : last.stop = some e)
    (hr : ∀ s ∈ r, s.kind ≠ .close → s.stop ≠ none) : Path.vcGo (some z) last r = last :: rep z e r := by
  induction r generalizing z e last with
  | nil => rfl
  | cons s r ih =>
    unfold Path.vcGo rep
    simp only [link_some hl]
    obtain ⟨v, hv, -, -⟩ := link_snd e s
    have hz : (if some z = none ∨ s.isMove = true then s.stop else some z) =
        some (if s.isMove then s.stop.getD z else z) := by
      cases hm : s.isMove with
      | false => simp
      | true =>
        have : s.kind ≠ .close := by rw [isMove_iff] at hm; rw [hm]; simp
        obtain ⟨u, hu⟩ := Option.ne_none_iff_exists'.mp (hr s (by simp) this)
        simp [hu]
    rw [hz, hv]
    simp only [reduceCtorEq, not_false_eq_true, ne_eq, true_and]
    congr 1
    generalize (if s.isMove = true then s.stop.getD z else z) = z1
    apply ih
    · split_ifs with h
      · rfl
      · simp only
        have : s.stop ≠ none := by
          intro hn
          apply h
          by_cases hc : s.isClose = true
          · exact ⟨hc, by rw [hn]; simp [optEq]⟩
          · exact absurd hn (hr s (by simp) (fun hk => hc (isClose_iff.mpr hk)))
        obtain ⟨u, hu⟩ := Option.ne_none_iff_exists'.mp this
        simp [hu]
    · intro t ht; exact hr t (by simp [ht])

variable [IsStrictOrderedRing K]

theorem near_refl (p : Pt K) : Near p p := near_iff.mp (Pt.eq_self p)

theorem rep_chain (z e : Pt K) (r : List (Seg K)) (hr : ∀ s ∈ r, s.kind ≠ .close → s.stop ≠ none) :
    Chain Near Near z e (rep z e r) ∧ List.Forall₂ Repairs r (rep z e r) := by
  induction r generalizing z e with
  | nil => exact ⟨trivial, .nil⟩
  | cons s r ih =>
    unfold rep
    simp only
    obtain ⟨v, hv, hv1, -⟩ := link_snd e s
    rw [hv]
    simp only
    generalize hz1 : (if s.isMove then s.stop.getD z else z) = z1
    have hev : Near e v := by
      rcases hv1 with h | h
      · exact near_iff.mp h
      · rw [h]; exact near_refl e
    have hr' : ∀ t ∈ r, t.kind ≠ .close → t.stop ≠ none := fun t ht => hr t (by simp [ht])
    split_ifs with h
    · have hm : s.isMove = false := by
        have := h.1
        rw [isClose_iff] at this
        unfold Seg.isMove; rw [this]
      have hz : z1 = z := by rw [← hz1, hm]; rfl
      subst hz
      obtain ⟨i1, i2⟩ := ih z1 z1 hr'
      refine ⟨⟨v, z1, rfl, rfl, hev, fun _ => near_refl z1, ?_⟩, .cons ⟨rfl, rfl, rfl, fun hk => absurd (isClose_iff.mp h.1) hk⟩ i2⟩
      have : Seg.isMove { s with start := some v, stop := some z1 } = false := hm
      rw [this]
      exact i1
    · have hs : s.stop ≠ none := by
        intro hn
        apply h
        by_cases hc : s.isClose = true
        · exact ⟨hc, by rw [hn]; simp [optEq]⟩
        · exact absurd hn (hr s (by simp) (fun hk => hc (isClose_iff.mpr hk)))
      obtain ⟨u, hu⟩ := Option.ne_none_iff_exists'.mp hs
      simp only [hu, Option.getD_some]
      obtain ⟨i1, i2⟩ := ih z1 u hr'
      refine ⟨⟨v, u, rfl, rfl, hev, ?_, ?_⟩, .cons ⟨rfl, rfl, rfl, fun _ => hu.symm⟩ i2⟩
      · intro hc
        have hc : s.isClose = true := hc
        have hm : s.isMove = false := by
          rw [isClose_iff] at hc
          unfold Seg.isMove; rw [hc]
        have hz : z1 = z := by rw [← hz1, hm]; rfl
        subst hz
        by_contra hn
        apply h
        refine ⟨hc, ?_⟩
        rw [hu]
        simp only [optEq]
        intro he
        apply hn
        rw [near_iff] at he
        unfold Near at he ⊢
        rw [abs_sub_comm, abs_sub_comm z1.y]
        exact he
      · have hm : Seg.isMove { s with start := some v, stop := some u } = s.isMove := rfl
        rw [hm]
        have : (if s.isMove = true then u else z) = z1 := by rw [← hz1, hu]; rfl
        rw [this]
        exact i1

/-- a chain is left alone -/
theorem rep_fix (z e : Pt K) (r : List (Seg K)) (h : Chain Near Near z e r) : rep z e r = r := by
  induction r generalizing z e with
  | nil => rfl
  | cons s r ih =>
    obtain ⟨v, u, h1, h2, h3, h4, h5⟩ := h
    unfold rep
    simp only
    obtain ⟨v', hv, -, hv2⟩ := link_snd e s
    have : v' = v := hv2 v h1 (near_iff.mpr h3)
    subst this
    rw [hv]
    have hs : ({ s with start := some v' } : Seg K) = s := by rw [← h1]
    rw [hs, h2]
    simp only [Option.getD_some]
    have hn : ¬ (s.isClose = true ∧ ¬ optEq (some u) (some (if s.isMove = true then u else z)) = true) := by
      rintro ⟨hc, ho⟩
      apply ho
      have hm : s.isMove = false := by
        rw [isClose_iff] at hc
        unfold Seg.isMove; rw [hc]
      rw [hm]
      simp only [optEq, near_iff]
      have := h4 hc
      unfold Near at this ⊢
      rw [abs_sub_comm, abs_sub_comm u.y]
      exact this
    rw [if_neg hn, h2]
    simp only [Option.getD_some]
    rw [ih _ _ h5]

/-- **C48**: `validate_connections()` - and so `Path(list_of_segments)` - on any list of segments whose first
segment, drawn segments and moves have an end: the result is connected (up to the library's tolerance 1e-12),
every segment has an end, the segments and the ends of all segments other than closes are kept, and a second
run changes nothing. -/
theorem C48_validate_connections {p : List (Seg K)} (h : DrawnEnds p) :
    Connected Near (Path.validateConnections p) ∧ HasEnds (Path.validateConnections p) ∧
    List.Forall₂ Repairs p (Path.validateConnections p) ∧
    Path.validateConnections (Path.validateConnections p) = Path.validateConnections p := by
  cases p with
  | nil => exact ⟨Connected.nil, by intro s hs; simp [Path.validateConnections] at hs, .nil, rfl⟩
  | cons s r =>
    obtain ⟨u, hu⟩ := Option.ne_none_iff_exists'.mp (h 0 s (by simp) (Or.inl rfl))
    have hr : ∀ t ∈ r, t.kind ≠ .close → t.stop ≠ none := by
      intro t ht hk
      obtain ⟨i, hi⟩ := List.getElem?_of_mem ht
      exact h (i + 1) t (by simpa using hi) (Or.inr hk)
    have e1 : Path.validateConnections (s :: r) = s :: rep u u r := by
      change Path.vcGo s.stop s r = _
      rw [hu]
      exact vcGo_eq u u s r hu hr
    obtain ⟨c1, c2⟩ := rep_chain u u r hr
    have hc := (connected_iff (R := Near) (S := Near) (s := s) near_refl).mpr ⟨u, hu, c1⟩
    rw [e1]
    refine ⟨hc.1, hc.2, .cons ⟨rfl, rfl, rfl, fun _ => rfl⟩ c2, ?_⟩
    change Path.vcGo s.stop s (rep u u r) = _
    rw [hu, vcGo_eq u u s _ hu (fun t ht hk => chain_ends c1 t ht), rep_fix _ _ _ c1]

/-- the code's own check says exactly whether a path with all ends is connected -/
theorem C48_is_valid {p : List (Seg K)} (h : HasEnds p) : Path.isValid p = true ↔ Connected Near p := by
  cases p with
  | nil => exact ⟨fun _ => Connected.nil, fun _ => rfl⟩
  | cons s r =>
    obtain ⟨u, hu⟩ := Option.ne_none_iff_exists'.mp (h s (by simp))
    have key : ∀ (r : List (Seg K)) (z e : Pt K) (last : Seg K), last.stop = some e → HasEnds r →
        (Path.isValidGo (some z) last r = true ↔ Chain Near Near z e r) := by
      intro r
      induction r with
      | nil => intro z e last _ _; simp [Path.isValidGo, Chain]
      | cons t r ih =>
        intro z e last hl he
        obtain ⟨w, hw⟩ := Option.ne_none_iff_exists'.mp (he t (by simp))
        have he' : HasEnds r := fun t ht => he t (by simp [ht])
        unfold Path.isValidGo Chain
        simp only [hl]
        cases hst : t.start with
        | none => simp
        | some v =>
          have hz : (if some z = none ∨ t.isMove = true then t.stop else some z) = some (if t.isMove then w else z) := by
            cases t.isMove <;> simp [hw]
          simp only [hz]
          rw [hw]
          have hm : t.isClose = true → t.isMove = false := by
            intro hc; rw [isClose_iff] at hc; unfold Seg.isMove; rw [hc]
          have hz2 : t.isClose = true → (if t.isMove = true then w else z) = z := by
            intro hc; rw [hm hc]; rfl
          generalize hz3 : (if t.isMove = true then w else z) = z1 at hz2 ⊢
          constructor
          · intro hv
            split_ifs at hv with h1 h2
            refine ⟨v, w, rfl, rfl, ?_, ?_, hz3.symm ▸ (ih _ w t hw he').mp hv⟩
            · rw [← near_iff]; simpa using h1
            · intro hc
              rw [hz2 hc] at h2
              simp [hc, optEq] at h2
              rw [near_iff] at h2
              unfold Near at h2 ⊢
              rw [abs_sub_comm, abs_sub_comm z.y]
              exact h2
          · rintro ⟨v', w', hv', hw', h3, h4, h5⟩
            cases hv'
            cases hw'
            rw [if_neg (by simp [near_iff.mpr h3]), if_neg ?_]
            · exact (ih _ w t hw he').mpr (hz3 ▸ h5)
            · intro hc
              simp only [Bool.and_eq_true, Option.isSome_some, and_true, Bool.not_eq_true'] at hc
              have := h4 hc.1
              rw [hz2 hc.1] at hc
              have hn : Near w z := by
                unfold Near at this ⊢
                rw [abs_sub_comm, abs_sub_comm w.y]
                exact this
              have := near_iff.mpr hn
              simp [optEq, this] at hc
    change Path.isValidGo s.stop s r = true ↔ _
    rw [hu, key r u u s hu (fun t ht => h t (by simp [ht]))]
    constructor
    · intro hc; exact ((connected_iff near_refl).mpr ⟨u, hu, hc⟩).1
    · intro hc
      obtain ⟨u', hu', hch⟩ := (connected_iff near_refl).mp ⟨hc, h⟩
      rw [hu] at hu'; cases hu'
      exact hch

/-- a path with a missing start, a wrong start and an endless close -/
def exBroken : List (Seg ℚ) :=
  [⟨.move, none, some ⟨1, 1⟩, false, true⟩, ⟨.line, none, some ⟨2, 2⟩, false, true⟩,
    ⟨.line, some ⟨7, 7⟩, some ⟨3, 3⟩, false, true⟩, ⟨.close, none, none, false, true⟩]

example : DrawnEnds exBroken := by
  intro i s h hk
  have hi : i < 4 := getElem?_lt h
  interval_cases i <;> simp [exBroken] at h <;> subst h <;> simp at hk ⊢
example : Path.isValid exBroken = false ∧ Path.isValid (Path.validateConnections exBroken) = true := by decide +kernel

end Svgio.Props
