import Verif.Props.PathEdit
import Verif.Model.Subpath

/-!
C52, C53: subpaths as windows on a path; C55: copies and sums; C56: `direct_close`.
-/

namespace Svgio.Props
open Spec

variable {K : Type} [Field K] [LinearOrder K]

/-! ### C52 -/

/-- `ws` cuts the path `p` into consecutive windows: each window after the first starts with a move, and no
window holds another move -/
structure Cuts (p : List (Seg K)) (ws : List (ℕ × ℕ)) : Prop where
  first : ∃ w, ws.head? = some w ∧ w.1 = 0
  last : ∃ w, ws.getLast? = some w ∧ w.2 = p.length
  next : ∀ i w w', ws[i]? = some w → ws[i + 1]? = some w' → w'.1 = w.2
  nonempty : ∀ w ∈ ws, w.1 < w.2
  moves : ∀ i w s, ws[i + 1]? = some w → p[w.1]? = some s → s.kind = .move
  inner : ∀ w ∈ ws, ∀ k s, w.1 < k → k < w.2 → p[k]? = some s → s.kind ≠ .move

omit [Field K] [LinearOrder K] in
theorem drop_eq_cons {α} {p r : List α} {n : ℕ} {s : α} (h : p.drop n = s :: r) :
    p[n]? = some s ∧ p.drop (n + 1) = r ∧ n < p.length := by
  have h1 : p[n]? = some s := by
    have := congrArg (fun t => t[0]?) h
    simpa using this
  refine ⟨h1, ?_, getElem?_lt h1⟩
  have := congrArg (List.drop 1) h
  rw [List.drop_drop] at this
  simpa using this

omit [Field K] [LinearOrder K] in
theorem windowsGo_cuts (p : List (Seg K)) : ∀ (r : List (Seg K)) (last cur : ℕ), p.drop cur = r → cur ≤ p.length →
    (last < cur ∨ (last = cur ∧ r ≠ [])) → (∀ k s, last < k → k < cur → p[k]? = some s → s.kind ≠ .move) →
    let ws := Path.windowsGo last cur r
    (∃ w, ws.head? = some w ∧ w.1 = last) ∧ (∃ w, ws.getLast? = some w ∧ w.2 = p.length) ∧
    (∀ i w w', ws[i]? = some w → ws[i + 1]? = some w' → w'.1 = w.2) ∧ (∀ w ∈ ws, w.1 < w.2) ∧
    (∀ i w s, ws[i + 1]? = some w → p[w.1]? = some s → s.kind = .move) ∧
    (∀ w ∈ ws, ∀ k s, w.1 < k → k < w.2 → p[k]? = some s → s.kind ≠ .move) ∧
    ws.flatMap (Path.subSegments p) = p.drop last ∧
    ws.length = 1 + (if last = cur then r.tail else r).countP Seg.isMove := by
  intro r
  induction r with
  | nil =>
    intro last cur hr hc hl hn
    have hcur : cur = p.length := by
      have := congrArg List.length hr; simp at this; omega
    have hlc : last < cur := by rcases hl with h | h; exact h; exact absurd rfl h.2
    have hne : last ≠ cur := by omega
    unfold Path.windowsGo
    refine ⟨⟨_, rfl, rfl⟩, ⟨_, rfl, hcur⟩, by simp, by simpa using hlc, by simp, ?_, ?_, by simp⟩
    · intro w hw k s h1 h2 h3
      simp at hw; subst hw
      exact hn k s h1 h2 h3
    · simp [Path.subSegments, hcur]
  | cons s r ih =>
    intro last cur hr hc hl hn
    obtain ⟨h1, h2, h3⟩ := drop_eq_cons hr
    unfold Path.windowsGo
    simp only
    by_cases hm : cur ≠ last ∧ s.isMove = true
    · rw [if_pos hm]
      have hlc : last < cur := by rcases hl with h | h; exact h; exact absurd h.1.symm hm.1
      obtain ⟨⟨w0, i1, i1'⟩, ⟨wl, i2, i2'⟩, i3, i4, i5, i6, i7, i8⟩ :=
        ih cur (cur + 1) h2 (by omega) (Or.inl (by omega)) (fun k s a b => by omega)
      generalize Path.windowsGo cur (cur + 1) r = ws at *
      refine ⟨⟨_, rfl, rfl⟩, ⟨wl, by rw [List.getLast?_cons, i2]; rfl, i2'⟩, ?_, ?_, ?_, ?_, ?_, ?_⟩
      · intro i w w' hw hw'
        cases i with
        | zero =>
          simp at hw hw'
          subst hw
          rw [List.head?_eq_getElem?, hw'] at i1
          cases i1
          exact i1'
        | succ i => exact i3 i w w' (by simpa using hw) (by simpa using hw')
      · intro w hw
        rcases List.mem_cons.mp hw with rfl | hw
        · exact hlc
        · exact i4 w hw
      · intro i w t hw ht
        cases i with
        | zero =>
          simp at hw
          rw [List.head?_eq_getElem?, hw] at i1
          cases i1
          rw [i1', h1] at ht
          cases ht
          exact isMove_iff.mp hm.2
        | succ i => exact i5 i w t (by simpa using hw) ht
      · intro w hw k t a b c
        rcases List.mem_cons.mp hw with rfl | hw
        · exact hn k t a b c
        · exact i6 w hw k t a b c
      · rw [List.flatMap_cons, i7]
        unfold Path.subSegments
        simp only
        have : (p.take cur).drop last ++ p.drop cur = (p.take cur ++ p.drop cur).drop last := by
          rw [List.drop_append_of_le_length (by rw [List.length_take]; omega)]
        rw [this, List.take_append_drop]
      · rw [List.length_cons, i8, if_neg (by omega), if_neg (by omega)]
        simp [List.countP_cons, hm.2]; omega
    · rw [if_neg hm]
      have hnm : last ≠ cur → s.isMove = false := by
        intro h
        by_contra hc
        exact hm ⟨fun h' => h h'.symm, by simpa using hc⟩
      obtain ⟨i1, i2, i3, i4, i5, i6, i7, i8⟩ := ih last (cur + 1) h2 (by omega)
        (Or.inl (by rcases hl with h | h <;> omega)) (by
          intro k t a b c
          by_cases hk : k = cur
          · subst hk
            rw [h1] at c; cases c
            intro h
            have := hnm (by omega)
            rw [isMove_iff.mpr h] at this; cases this
          · exact hn k t a (by omega) c)
      refine ⟨i1, i2, i3, i4, i5, i6, i7, ?_⟩
      rw [i8, if_neg (by rcases hl with h | h <;> omega)]
      by_cases h : last = cur
      · rw [if_pos h]; rfl
      · rw [if_neg h, List.countP_cons, hnm h]; simp

omit [Field K] [LinearOrder K] in
/-- **C52**: for every non-empty path, `as_subpaths` yields consecutive non-empty windows from the first
segment to the last, each after the first starting with a move and none holding another move; their
segments together are the segments of the path; `count_subpaths` counts them, and there is one for the
beginning and one for each later move. -/
theorem C52_subpaths {p : List (Seg K)} (hp : p ≠ []) :
    Cuts p (Path.windows p) ∧ (Path.windows p).flatMap (Path.subSegments p) = p ∧
    Path.countSubpaths p = (Path.windows p).length ∧ Path.countSubpaths p = 1 + p.tail.countP Seg.isMove := by
  obtain ⟨i1, i2, i3, i4, i5, i6, i7, i8⟩ := windowsGo_cuts p p 0 0 rfl (by omega) (Or.inr ⟨rfl, hp⟩) (by intro k s a b; omega)
  exact ⟨⟨i1, i2, i3, i4, i5, i6⟩, i7, rfl, by unfold Path.countSubpaths Path.windows; simpa using i8⟩

example : Path.windows exEdit = [(0, 4), (4, 7)] := by decide +kernel

/-! ### C53 -/

omit [Field K] [LinearOrder K] in
theorem subIterGo_eq (p : List (Seg K)) : ∀ (k n : ℕ), Path.subIterGo p n k = (p.drop n).take k := by
  intro k
  induction k with
  | zero => intro n; simp [Path.subIterGo]
  | succ k ih =>
    intro n
    unfold Path.subIterGo
    cases h : p[n]? with
    | none =>
      rw [List.getElem?_eq_none_iff] at h
      simp [List.drop_eq_nil_iff.mpr h]
    | some s =>
      have : p.drop n = s :: p.drop (n + 1) := by
        rw [List.drop_eq_getElem_cons (getElem?_lt h)]
        rw [List.getElem?_eq_getElem (getElem?_lt h)] at h
        rw [Option.some.inj h]
      simp only
      rw [ih, this]; rfl

omit [Field K] [LinearOrder K] in
/-- **C53**, partial: for a window of a path, `subpath[i]` for `0 ≤ i < len` is the i-th segment of the
window and `subpath[-i]` for `1 ≤ i ≤ len` the i-th from its end; iterating visits exactly the window.
Missing: indices outside `-len ≤ i < len` do not raise IndexError, see `C53_out_of_range_leaks`. -/
theorem C53_indices_partial {p : List (Seg K)} {a b : ℕ} (h1 : a ≤ b) (h2 : b ≤ p.length) :
    Path.subLen (a, b) = b - a ∧
    (∀ (i : ℕ) s, i < b - a → p[a + i]? = some s → Path.subGet p (a, b) i = .ok s) ∧
    (∀ (i : ℕ) s, 1 ≤ i → i ≤ b - a → p[b - i]? = some s → Path.subGet p (a, b) (-(i : ℤ)) = .ok s) ∧
    (Path.subIter p (a, b)).length = b - a ∧
    (∀ i : ℕ, i < b - a → (Path.subIter p (a, b))[i]? = p[a + i]?) := by
  refine ⟨rfl, ?_, ?_, ?_, ?_⟩
  · intro i s hi hs
    have hn : Path.numericIndex (a, b) (i : ℤ) = ((a + i : ℕ) : ℤ) := by
      unfold Path.numericIndex; rw [if_neg (by omega)]; push_cast; rfl
    unfold Path.subGet
    rw [hn, pyIdx_nat (by omega)]
    simp [hs]
  · intro i s hi hi' hs
    have hn : Path.numericIndex (a, b) (-(i : ℤ)) = ((b - i : ℕ) : ℤ) := by
      unfold Path.numericIndex; rw [if_pos (by omega)]; simp only; omega
    unfold Path.subGet
    rw [hn, pyIdx_nat (by omega)]
    simp [hs]
  · unfold Path.subIter
    rw [subIterGo_eq]; simp; omega
  · intro i hi
    unfold Path.subIter
    rw [subIterGo_eq, List.getElem?_take_of_lt (by simpa using hi), List.getElem?_drop]

omit [Field K] [LinearOrder K] in
theorem subIter_eq (p : List (Seg K)) (w : ℕ × ℕ) : Path.subIter p w = Path.subSegments p w := by
  unfold Path.subIter Path.subSegments
  rw [subIterGo_eq, List.drop_take]

/-- An index outside the window gives a segment of the neighbouring subpath instead of IndexError: the first
subpath of `M0,0 L1,0 L2,0 Z M5,5 L6,5 Z` has four segments, but its element 4 is the move to 5,5, and
element -5 of the second one is also taken from the first. -/
theorem C53_out_of_range_leaks :
    Path.windows exEdit = [(0, 4), (4, 7)] ∧ Path.subLen (0, 4) = 4 ∧
    Path.subGet exEdit (0, 4) 4 = .ok ⟨.move, some ⟨0, 0⟩, some ⟨5, 5⟩, false, true⟩ ∧
    Path.subLen (4, 7) = 3 ∧
    Path.subGet exEdit (4, 7) (-5) = .ok ⟨.line, some ⟨1, 0⟩, some ⟨2, 0⟩, false, true⟩ := by
  refine ⟨by decide +kernel, rfl, by rfl, rfl, by rfl⟩

example : (0 : ℕ) ≤ 4 ∧ 4 ≤ exEdit.length := by decide +kernel

/-! ### C55 -/

variable [IsStrictOrderedRing K]

theorem sound_copy {q : List (Seg K)} (h : Sound q) : Sound (q.map Path.copySeg) :=
  have hc := conn_copy (R := Near) (S := Eq) ⟨h.1, h.2.1⟩
  ⟨hc.1, hc.2, ends_copy h.2.2⟩

theorem sound_append {p q : List (Seg K)} {u : Pt K} (hp : Sound p) (hu : Path.currentPoint p = some u) (hq : Sound q)
    (hm : ∀ s, q.head? = some s → s.kind = .move) : Sound (p ++ relink u q) := by
  obtain ⟨l, a, rfl⟩ : ∃ l a, p = l ++ [a] := by
    rcases List.eq_nil_or_concat p with h | ⟨p', a, h⟩
    · subst h; simp [Path.currentPoint] at hu
    · exact ⟨p', a, by simpa using h⟩
  have ha : a.stop = some u := by simpa [Path.currentPoint] using hu
  obtain ⟨z, e, he, -, hback, -⟩ := sound_split hp
  rw [ha] at he; cases he
  rw [List.append_assoc]
  apply hback
  cases q with
  | nil => trivial
  | cons f r =>
    have hf := hm f rfl
    obtain ⟨w, hw, hcu⟩ := sound_cons.mp hq
    obtain ⟨v, hv, hv1⟩ := relink_cons u f r
    rw [hv]
    refine ⟨v, w, rfl, hw, ?_, ?_, ?_⟩
    · rcases hv1 with h | h
      · exact near_iff.mp h
      · rw [h]; exact near_refl _
    · intro hcl
      have : f.kind = .close := isClose_iff.mp hcl
      rw [hf] at this; cases this
    · have : ({ f with start := some v } : Seg K).isMove = true := isMove_iff.mpr hf
      rw [if_pos this]; exact hcu

theorem extend_sound {p q : List (Seg K)} {u : Pt K} (hp : Sound p) (hu : Path.currentPoint p = some u) (hq : Sound q)
    (hm : ∀ s, q.head? = some s → s.kind = .move) : Path.extend p q = p ++ relink u q := by
  have hs := sound_append hp hu hq hm
  obtain ⟨l, a, rfl⟩ : ∃ l a, p = l ++ [a] := by
    rcases List.eq_nil_or_concat p with h | ⟨p', a, h⟩
    · subst h; simp [Path.currentPoint] at hu
    · exact ⟨p', a, by simpa using h⟩
  have ha : a.stop = some u := by simpa [Path.currentPoint] using hu
  unfold Path.extend
  have hv : Path.validateConnection (l ++ [a] ++ q) (((l ++ [a]).length : ℤ) - 1) = l ++ [a] ++ relink u q := by
    have e1 : l ++ [a] ++ q = l ++ a :: q := by simp
    rw [e1, vc_at ha (by simp)]; simp
  rw [hv, validateSubpath_sound hs]

/-- **C55**, partial: `p += q` has the segments of `p` followed by those of `q`, of which only the start of the
first may change, when both are connected (as built by the operations of C47) and `q` is empty or starts with
a move. Full statement: this, and `copy(p)` equals `p`, and `p + q` has the segments of `p` followed by those
of `q`. The rest is false of the code: see `C55_copy_empty` and `C55_sum_drops_first`. -/
theorem C55_iadd_partial {p q : List (Seg K)} (hp : Sound p) (hq : Sound q)
    (hm : ∀ s, q.head? = some s → s.kind = .move) :
    ∃ q', Path.iadd p q = p ++ q' ∧ q'.length = q.length ∧ ∀ i s, q[i]? = some s → ∃ s', q'[i]? = some s' ∧
      s'.kind = s.kind ∧ s'.stop = s.stop ∧ s'.relative = s.relative ∧ (p = [] ∨ 0 < i → s'.start = s.start) := by
  have hm' : ∀ s, (q.map Path.copySeg).head? = some s → s.kind = .move := by
    intro s hs
    cases q with
    | nil => simp at hs
    | cons t r => simp at hs; subst hs; exact hm t rfl
  by_cases hne : p = []
  · subst hne
    refine ⟨q.map Path.copySeg, ?_, by simp, ?_⟩
    · unfold Path.iadd Path.extend
      simp [Path.validateSubpath, Path.validateConnection]
    · intro i s hs
      exact ⟨Path.copySeg s, by rw [List.getElem?_map, hs]; rfl, rfl, rfl, rfl, fun _ => rfl⟩
  · obtain ⟨u, hu⟩ := Good.cur (R := Near) (S := Eq) ⟨hne, hp.2.2, hp.1, hp.2.1⟩
    refine ⟨relink u (q.map Path.copySeg), extend_sound hp hu (sound_copy hq) hm', ?_, ?_⟩
    · have := (relink_repairs u (q.map Path.copySeg)).length_eq
      rw [← this]; simp
    · intro i s hs
      cases q with
      | nil => simp at hs
      | cons f r =>
        rw [List.map_cons]
        obtain ⟨v, hv, -⟩ := relink_cons u (Path.copySeg f) (r.map Path.copySeg)
        rw [hv]
        cases i with
        | zero =>
          simp at hs; subst hs
          exact ⟨_, rfl, rfl, rfl, rfl, fun h => by rcases h with h | h; exact absurd h hne; omega⟩
        | succ i =>
          simp at hs
          exact ⟨Path.copySeg s, by simp [hs], rfl, rfl, rfl, fun _ => rfl⟩

omit [IsStrictOrderedRing K] in
/-- A copy of any path is empty, and so equal to it only if it was empty. -/
theorem C55_copy_empty (p : List (Seg K)) : Path.copy p = [] ∧ (Path.eq (Path.copy p) p = true ↔ p = []) := by
  refine ⟨rfl, ?_⟩
  unfold Path.eq Path.copy
  constructor
  · intro h
    by_contra hne
    rw [if_pos (by simpa using (List.length_pos_iff.mpr hne).ne)] at h
    cases h
  · rintro rfl; rfl

omit [IsStrictOrderedRing K] in
/-- `p + q` loses all segments of `p`. -/
theorem C55_sum_drops_first (p q : List (Seg K)) : Path.add p q = q.map Path.copySeg := by
  unfold Path.add Path.copy Path.iadd Path.extend
  simp [Path.validateSubpath, Path.validateConnection]

example : Sound exEdit ∧ ∀ s, exEdit.head? = some s → s.kind = .move :=
  ⟨exEdit_sound, by intro s hs; simp [exEdit] at hs; subst hs; rfl⟩

/-! ### C56 -/

/-- what `direct_close` is meant to do with a segment: a close that is not of zero length becomes a line and a
close of zero length -/
def direct (s : Seg K) : List (Seg K) :=
  if s.kind = .close ∧ s.start ≠ none ∧ s.start ≠ s.stop then
    [{ kind := .line, start := s.start, stop := s.stop }, { s with start := s.stop }]
  else [s]

theorem relink_near {e v : Pt K} {s : Seg K} {r : List (Seg K)} (hs : s.start = some v) (h : Near e v) :
    relink e (s :: r) = s :: r := by
  obtain ⟨w, hw, -, h2⟩ := link_snd e s
  change (Path.link { kind := Kind.move, start := none, stop := some e } s).2 :: r = s :: r
  rw [hw, h2 v hs (near_iff.mpr h), ← hs]

theorem directGo_eq : ∀ (a b : List (Seg K)), Joined Near a → HasEnds a →
    Path.directGo a.length (a ++ b) = a.flatMap direct ++ b := by
  intro a
  induction a using List.reverseRecOn with
  | nil => intro b _ _; rfl
  | append_singleton a s ih =>
    intro b hj he
    have hj' : Joined Near a := by
      intro i x y hx hy
      have h1 := getElem?_lt hx
      have h2 := getElem?_lt hy
      exact hj i x y (by rw [getElem?_snoc, if_pos h1]; exact hx) (by rw [getElem?_snoc, if_pos h2]; exact hy)
    have he' : HasEnds a := fun t ht => he t (by simp [ht])
    obtain ⟨u, hu⟩ := Option.ne_none_iff_exists'.mp (he s (by simp))
    rw [List.length_append, List.length_singleton]
    unfold Path.directGo
    have hg : (a ++ [s] ++ b)[a.length]? = some s := by simp
    rw [hg]
    simp only
    rw [List.flatMap_append]
    by_cases hc : s.kind = .close ∧ s.start ≠ none ∧ s.start ≠ s.stop
    · rw [if_pos ⟨isClose_iff.mpr hc.1, hc.2.1, by rw [hu]; simp, hc.2.2⟩]
      obtain ⟨v, hv⟩ := Option.ne_none_iff_exists'.mp hc.2.1
      have hset : (a ++ [s] ++ b).set a.length { s with start := s.stop } = a ++ { s with start := s.stop } :: b := by
        simp
      have hins : Path.insert (a ++ { s with start := s.stop } :: b) (a.length : ℤ)
          ({ kind := .line, start := s.start, stop := s.stop } : Seg K) =
          .ok (a ++ { kind := .line, start := s.start, stop := s.stop } :: { s with start := s.stop } :: b) := by
        unfold Path.insert
        have hpos : Path.insertPos (a ++ { s with start := s.stop } :: b).length (a.length : ℤ) = a.length := by
          unfold Path.insertPos
          rw [if_pos (by omega)]; simp
        have hid : (a ++ { s with start := s.stop } :: b).insertIdx a.length
            ({ kind := .line, start := s.start, stop := s.stop } : Seg K) =
            a ++ { kind := .line, start := s.start, stop := s.stop } :: { s with start := s.stop } :: b := by
          clear * -
          induction a with
          | nil => rfl
          | cons x a ih => simp [ih]
        rw [hpos, hid]
        have hv1 : Path.validateConnection (a ++ { kind := .line, start := s.start, stop := s.stop } :: { s with start := s.stop } :: b)
            ((a.length : ℤ) - 1) = a ++ { kind := .line, start := s.start, stop := s.stop } :: { s with start := s.stop } :: b := by
          rcases List.eq_nil_or_concat a with rfl | ⟨a', x, rfl⟩
          · exact vc_neg (by simp)
          · rw [List.concat_eq_append] at hj ⊢
            obtain ⟨e, w, h1, h2, h3⟩ := hj a'.length x s (by simp) (by simp)
            have e1 : a' ++ [x] ++ { kind := .line, start := s.start, stop := s.stop } :: { s with start := s.stop } :: b =
                a' ++ x :: { kind := .line, start := s.start, stop := s.stop } :: { s with start := s.stop } :: b := by simp
            rw [e1, vc_at h1 (by simp), relink_near (s := { kind := .line, start := s.start, stop := s.stop }) (v := w) h2 h3]
        have hv2 : Path.validateConnection (a ++ { kind := .line, start := s.start, stop := s.stop } :: { s with start := s.stop } :: b)
            (a.length : ℤ) = a ++ { kind := .line, start := s.start, stop := s.stop } :: { s with start := s.stop } :: b := by
          rw [vc_at (e := u) (by simpa using hu) rfl, relink_near (v := u) (by simpa using hu) (near_refl u)]
        simp only [hv1, hv2]
        simp [Seg.isMove, Seg.isClose]
      rw [hset, hins]
      have hd : [s].flatMap direct = [{ kind := .line, start := s.start, stop := s.stop }, { s with start := s.stop }] := by
        simp [direct, if_pos hc]
      simp only [Except.toOption, Option.getD_some]
      rw [ih _ hj' he', hd]
      simp
    · rw [if_neg (by
        rintro ⟨h1, h2, -, h3⟩
        exact hc ⟨isClose_iff.mp h1, h2, h3⟩)]
      have hd : [s].flatMap direct = [s] := by simp [direct, if_neg hc]
      rw [List.append_assoc, ih _ hj' he', hd, List.append_assoc]

theorem direct_chain {R S : Pt K → Pt K → Prop} (hR : ∀ x, R x x) : ∀ (r : List (Seg K)) (z e : Pt K), Chain R S z e r →
    Chain R S z e (r.flatMap direct) := by
  intro r
  induction r with
  | nil => intro z e h; exact h
  | cons s r ih =>
    intro z e ⟨v, u, h1, h2, h3, h4, h5⟩
    rw [List.flatMap_cons]
    by_cases hc : s.kind = .close ∧ s.start ≠ none ∧ s.start ≠ s.stop
    · unfold direct
      rw [if_pos hc]
      have hm : ¬ s.isMove = true := by rw [isMove_iff, hc.1]; simp
      rw [if_neg hm] at h5
      refine ⟨v, u, h1, h2, h3, by simp [Seg.isClose], u, u, h2, h2, hR u, fun _ => h4 (isClose_iff.mpr hc.1), ?_⟩
      have : ¬ Seg.isMove { s with start := s.stop } = true := hm
      rw [if_neg this]
      simp only [Seg.isMove, Bool.false_eq_true, if_false]
      exact ih _ _ h5
    · unfold direct
      rw [if_neg hc]
      exact ⟨v, u, h1, h2, h3, h4, ih _ _ h5⟩

/-- **C56**: `direct_close()` on a connected path replaces each close of non-zero length by a line to where it
ends and a close there, and changes nothing else; afterwards every close that has a start starts where it
ends, and the path is still connected (in the sense of C47). -/
theorem C56_direct_close {p : List (Seg K)} (hp : Sound p) :
    Path.directClose p = p.flatMap direct ∧ Sound (Path.directClose p) ∧
    (∀ s ∈ Path.directClose p, s.kind = .close → s.start ≠ none → s.start = s.stop) := by
  have heq : Path.directClose p = p.flatMap direct := by
    have := directGo_eq p [] hp.1 hp.2.2
    simpa [Path.directClose] using this
  refine ⟨heq, ?_, ?_⟩
  · rw [heq]
    cases p with
    | nil => exact sound_nil
    | cons f r =>
      obtain ⟨u, hu, hch⟩ := sound_cons.mp hp
      have hch' := direct_chain near_refl r u u hch
      rw [List.flatMap_cons]
      unfold direct
      split_ifs with hc
      · refine sound_cons.mpr ⟨u, hu, ⟨u, u, hu, hu, near_refl u, fun _ => rfl, ?_⟩⟩
        have hm : ¬ Seg.isMove { f with start := f.stop } = true := by rw [isMove_iff]; simp [hc.1]
        rw [if_neg hm]
        exact hch'
      · exact sound_cons.mpr ⟨u, hu, hch'⟩
  · rw [heq]
    intro s hs hk hst
    obtain ⟨t, ht, hs⟩ := List.mem_flatMap.mp hs
    unfold direct at hs
    split_ifs at hs with hc
    · simp at hs
      rcases hs with rfl | rfl
      · simp at hk
      · rfl
    · simp at hs
      subst hs
      by_contra hn
      exact hc ⟨hk, hst, hn⟩

example : Path.directClose exEdit = exEdit.flatMap direct ∧ (exEdit.flatMap direct).length = 9 :=
  ⟨(C56_direct_close exEdit_sound).1, by decide +kernel⟩

end Svgio.Props
