import Verif.Props.PathValidate
import Verif.Props.PathParse

/-!
C47: building a path, operation by operation, keeps it connected.
-/

namespace Svgio.Props
open Spec Lexer

variable {K : Type} [Field K] [LinearOrder K]

/-- the operations that add to a path -/
inductive BuildOp (K : Type)
  | move (t : Path.Target K) (relative : Bool)
  | line (t : Path.Target K) (relative : Bool)
  | horizontal (x : Option K) (relative : Bool)
  | vertical (y : Option K) (relative : Bool)
  | quad (c t : Path.Target K) (relative : Bool)
  | smoothQuad (t : Path.Target K) (relative : Bool)
  | cubic (c1 c2 t : Path.Target K) (relative : Bool)
  | smoothCubic (c2 t : Path.Target K) (relative : Bool)
  | arc (rx ry rotation : Option K) (large sweep : Option Bool) (t : Path.Target K) (relative : Bool)
  | closed (relative : Bool)
  /-- `append(segment)`, `path += segment` -/
  | append (s : Seg K)
  /-- `path += text` -/
  | text (t : List Char)

/-- the path after an operation; one that raises leaves the path as it is, except for `path += text`, which
keeps what it read before the error -/
def BuildOp.run (rd : List Char → K) (mk : Path.ArcCtor K) (p : List (Seg K)) : BuildOp K → List (Seg K)
  | .move t r => Path.move p t r
  | .line t r => Path.line p t r
  | .horizontal x r => (Path.horizontal p x r).toOption.getD p
  | .vertical y r => (Path.vertical p y r).toOption.getD p
  | .quad c t r => Path.quad p c t r
  | .smoothQuad t r => (Path.smoothQuad p t r).toOption.getD p
  | .cubic a b t r => (Path.cubic p a b t r).toOption.getD p
  | .smoothCubic b t r => (Path.smoothCubic p b t r).toOption.getD p
  | .arc a b c d e t r => (Path.arc mk p a b c d e t r).toOption.getD p
  | .closed r => Path.closed p r
  | .append s => Path.append p s
  | .text t => (parse rd mk p t).1.path

/-- the operation gives its segments an end: a target is a point, or there is a subpath start for "z" to
mean; a segment given to `append` has an end (a close needs none unless it is the first); text for an empty
path starts with a moveto -/
def BuildOp.HasEnd (p : List (Seg K)) : BuildOp K → Prop
  | .move t _ | .line t _ | .quad _ t _ | .smoothQuad t _ | .cubic _ _ t _ | .smoothCubic _ t _ => t ≠ .z ∨ p ≠ []
  | .horizontal _ _ | .vertical _ _ | .arc .. => True
  | .closed _ => p ≠ []
  | .append s => s.stop ≠ none ∨ (s.kind = .close ∧ p ≠ [])
  | .text t => p ≠ [] ∨ StartsWithMove t

/-- the paths that can be built, starting with `Path()`, and by `extend(path)` or `path += path` with such a
path that starts with a move -/
inductive Built (rd : List Char → K) (mk : Path.ArcCtor K) : List (Seg K) → Prop
  | empty : Built rd mk []
  | step {p : List (Seg K)} (op : BuildOp K) : Built rd mk p → op.HasEnd p → Built rd mk (op.run rd mk p)
  | extend {p q : List (Seg K)} : Built rd mk p → Built rd mk q → (∀ s, q.head? = some s → s.kind = .move) →
      Built rd mk (Path.iadd p q)

variable [IsStrictOrderedRing K]

instance : Std.Refl (Near : Pt K → Pt K → Prop) := ⟨near_refl⟩

/-- appending any segment with an end -/
theorem near_append {p : List (Seg K)} (hp : p = [] ∨ Good Near Eq p) {s : Seg K}
    (hs : s.stop ≠ none ∨ (s.kind = .close ∧ p ≠ [])) : Good Near Eq (Path.append p s) := by
  rcases hp with rfl | hp
  · have hs : s.stop ≠ none := by rcases hs with h | h; exact h; exact absurd rfl h.2
    have : Path.append [] s = [s] := by
      unfold Path.append
      simp only [List.nil_append, List.length_nil]
      have : Path.validateConnection [s] (((0 : ℕ) : ℤ) - 1) = [s] := by
        unfold Path.validateConnection; simp
      rw [this]
      split_ifs with h
      · simp only [Path.validateClose, Path.closeTarget]
        have hm : s.isMove = false := by
          rw [isClose_iff] at h; unfold Seg.isMove; rw [h]
        simp [hm]
      · rfl
    rw [this]
    obtain ⟨u, hu⟩ := Option.ne_none_iff_exists'.mp hs
    have := (connected_iff (R := Near) (S := Eq) (s := s) (r := []) (fun _ => rfl)).mpr ⟨u, hu, trivial⟩
    exact ⟨by simp, this.2, this.1⟩
  · obtain ⟨u, hu⟩ := hp.cur
    obtain ⟨q, hq⟩ := zPoint_some hp.ne hp.ends
    obtain ⟨p', a, rfl⟩ : ∃ p' a, p = p' ++ [a] := by
      rcases List.eq_nil_or_concat p with h | ⟨p', a, h⟩
      · exact absurd h hp.ne
      · exact ⟨p', a, by simpa using h⟩
    have ha : a.stop = some u := by simpa [Path.currentPoint] using hu
    obtain ⟨v, hv, hv1, -⟩ := link_snd u s
    have hlink : Path.validateConnection (p' ++ [a] ++ [s]) (((p' ++ [a]).length : ℤ) - 1) =
        p' ++ [a] ++ [{ s with start := some v }] := by
      unfold Path.validateConnection
      rw [if_neg (by simp)]
      have : (((p' ++ [a]).length : ℤ) - 1).toNat = p'.length := by simp
      rw [this]
      simp only [List.append_assoc, List.cons_append, List.nil_append]
      rw [show (p' ++ [a, s])[p'.length]? = some a by simp, show (p' ++ [a, s])[p'.length + 1]? = some s by
        rw [List.getElem?_append_right (by omega)]; simp]
      simp only [link_some ha, hv]
      rw [List.set_append_right _ _ (by omega), List.set_append_right _ _ (by simp)]
      simp
    have hR : Near u v := by
      rcases hv1 with h | h
      · exact near_iff.mp h
      · rw [h]; exact near_refl u
    by_cases hc : s.isClose = true
    · have hm : s.isMove = false := by
        rw [isClose_iff] at hc; unfold Seg.isMove; rw [hc]
      have : Path.append (p' ++ [a]) s = p' ++ [a] ++ [{ s with start := some v, stop := some q }] := by
        unfold Path.append
        simp only [hlink, hc, if_true]
        unfold Path.validateClose
        rw [closeTarget_eq (s := { s with start := some v }) hm (by simp) hp.ends, hq]
        have : (p' ++ [a] ++ [({ s with start := some v } : Seg K)])[(p' ++ [a]).length]? = some { s with start := some v } := by simp
        rw [this]
        simp only
        rw [List.set_append_right _ _ (le_refl _)]
        simp
      rw [this]
      refine ⟨by simp, HasEnds.snoc hp.ends (by simp), Connected.snoc hp.conn hp.ne hu rfl hR ?_⟩
      intro _
      exact ⟨q, q, subpathStart_zPoint hp.ends hq, rfl, rfl⟩
    · have : Path.append (p' ++ [a]) s = p' ++ [a] ++ [{ s with start := some v }] := by
        unfold Path.append
        simp only [hlink]
        rw [if_neg hc]
      have hstop : s.stop ≠ none := by
        rcases hs with h | h
        · exact h
        · exact absurd (isClose_iff.mpr h.1) hc
      rw [this]
      refine ⟨by simp, HasEnds.snoc hp.ends hstop, Connected.snoc hp.conn hp.ne hu rfl hR ?_⟩
      intro hk
      exact absurd (isClose_iff.mpr hk) hc

theorem near_get {p : List (Seg K)} (hp : p = [] ∨ Good Near Eq p) {t : Path.Target K} (ht : t ≠ .z ∨ p ≠ []) :
    t.get p ≠ none := by
  cases t with
  | pt q => simp [Path.Target.get]
  | z =>
    have hne : p ≠ [] := by rcases ht with h | h; exact absurd rfl h; exact h
    rcases hp with h | h
    · exact absurd h hne
    · obtain ⟨q, hq⟩ := zPoint_some h.ne h.ends
      simp [Path.Target.get, hq]

omit [Field K] [LinearOrder K] [IsStrictOrderedRing K] in
theorem conn_copy {R S : Pt K → Pt K → Prop} {q : List (Seg K)} (h : Conn R S q) : Conn R S (q.map Path.copySeg) := by
  have hg : ∀ (i : ℕ) (s : Seg K), (q.map Path.copySeg)[i]? = some s → ∃ t, q[i]? = some t ∧ s.kind = t.kind ∧ s.start = t.start ∧ s.stop = t.stop := by
    intro i s hs
    rw [List.getElem?_map] at hs
    cases ht : q[i]? with
    | none => rw [ht] at hs; simp at hs
    | some t => rw [ht] at hs; simp at hs; subst hs; exact ⟨t, rfl, rfl, rfl, rfl⟩
  constructor
  · intro i a b ha hb
    obtain ⟨a', ha', -, -, h1⟩ := hg i a ha
    obtain ⟨b', hb', -, h2, -⟩ := hg _ b hb
    rw [h1, h2]
    exact h.1 i a' b' ha' hb'
  · intro i s hs hk
    obtain ⟨s', hs', h1, h2, h3⟩ := hg i s hs
    obtain ⟨z, u, hz, hu, hR⟩ := h.2 i s' hs' (h1 ▸ hk)
    refine ⟨z, u, ?_, by rw [h3]; exact hu, hR⟩
    rcases hz with ⟨j, m, hj, hm, hmk, hms, hn⟩ | ⟨hn, f, hf, hfs⟩
    · left
      refine ⟨j, Path.copySeg m, hj, by rw [List.getElem?_map, hm]; rfl, hmk, hms, ?_⟩
      intro k t h1 h2 ht
      obtain ⟨t', ht', e, -, -⟩ := hg k t ht
      rw [e]; exact hn k t' h1 h2 ht'
    · right
      refine ⟨?_, Path.copySeg f, by rw [List.getElem?_map, hf]; rfl, hfs⟩
      intro k t h1 ht
      obtain ⟨t', ht', e, -, -⟩ := hg k t ht
      rw [e]; exact hn k t' h1 ht'

omit [Field K] [LinearOrder K] [IsStrictOrderedRing K] in
theorem ends_copy {q : List (Seg K)} (h : HasEnds q) : HasEnds (q.map Path.copySeg) := by
  intro s hs
  obtain ⟨t, ht, rfl⟩ := List.mem_map.mp hs
  exact h t ht

theorem near_extend {p q : List (Seg K)} (hp : p = [] ∨ Good Near Eq p) (hq : Conn Near Eq q) (he : HasEnds q)
    (hm : ∀ s, q.head? = some s → s.kind = .move) : Path.iadd p q = [] ∨ Good Near Eq (Path.iadd p q) := by
  unfold Path.iadd
  replace hq := conn_copy hq
  replace he := ends_copy he
  replace hm : ∀ s, (q.map Path.copySeg).head? = some s → s.kind = .move := by
    intro s hs
    cases q with
    | nil => simp at hs
    | cons t r => simp at hs; subst hs; exact hm t rfl
  generalize q.map Path.copySeg = q at hq he hm
  unfold Path.extend
  rcases hp with rfl | hp
  · have : Path.validateSubpath (Path.validateConnection ([] ++ q) ((([] : List (Seg K)).length : ℤ) - 1))
        ((([] : List (Seg K)).length : ℤ) - 1) = q := by
      simp [Path.validateSubpath, Path.validateConnection]
    rw [this]
    by_cases h : q = []
    · exact Or.inl h
    · exact Or.inr ⟨h, he, hq⟩
  · right
    obtain ⟨u, hu⟩ := hp.cur
    obtain ⟨p', a, rfl⟩ : ∃ p' a, p = p' ++ [a] := by
      rcases List.eq_nil_or_concat p with h | ⟨p', a, h⟩
      · exact absurd h hp.ne
      · exact ⟨p', a, by simpa using h⟩
    have ha : a.stop = some u := by simpa [Path.currentPoint] using hu
    have hidx : (((p' ++ [a]).length : ℤ) - 1).toNat = p'.length := by simp
    cases q with
    | nil =>
      have : Path.validateSubpath (Path.validateConnection (p' ++ [a] ++ []) (((p' ++ [a]).length : ℤ) - 1))
          (((p' ++ [a]).length : ℤ) - 1) = p' ++ [a] := by
        have h1 : Path.validateConnection (p' ++ [a]) (((p' ++ [a]).length : ℤ) - 1) = p' ++ [a] := by
          unfold Path.validateConnection
          rw [if_neg (by simp), hidx]
          have : (p' ++ [a])[p'.length + 1]? = none := by simp
          rw [this]
          simp
        rw [List.append_nil, h1]
        unfold Path.validateSubpath
        rw [if_pos (by simp)]
      rw [this]
      exact hp
    | cons s r =>
      have hmk := hm s rfl
      have hmv : s.isMove = true := isMove_iff.mpr hmk
      obtain ⟨v, hv, hv1, -⟩ := link_snd u s
      have hR : Near u v := by
        rcases hv1 with h | h
        · exact near_iff.mp h
        · rw [h]; exact near_refl u
      have hlink : Path.validateConnection (p' ++ [a] ++ s :: r) (((p' ++ [a]).length : ℤ) - 1) =
          p' ++ [a] ++ { s with start := some v } :: r := by
        unfold Path.validateConnection
        rw [if_neg (by simp), hidx]
        simp only [List.append_assoc, List.cons_append, List.nil_append]
        rw [show (p' ++ a :: s :: r)[p'.length]? = some a by simp,
          show (p' ++ a :: s :: r)[p'.length + 1]? = some s by
            rw [List.getElem?_append_right (by omega)]; simp]
        simp only [link_some ha, hv]
        rw [List.set_append_right _ _ (by omega), List.set_append_right _ _ (by simp)]
        simp
      rw [hlink]
      have hmv' : ({ s with start := some v } : Seg K).isMove = true := hmv
      -- the close that ends the old path already ends at its subpath's start
      have hct : a.isClose = true →
          Path.closeTarget (p' ++ [a] ++ { s with start := some v } :: r) p'.length = a.stop := by
        intro hca
        have hma : a.isMove = false := by
          rw [isClose_iff] at hca; unfold Seg.isMove; rw [hca]
        have e0 : Path.closeTarget (p' ++ [a] ++ { s with start := some v } :: r) p'.length =
            Path.closeTarget (p' ++ [a]) p'.length := by
          unfold Path.closeTarget
          have : (p' ++ [a] ++ { s with start := some v } :: r).take (p'.length + 1) = (p' ++ [a]).take (p'.length + 1) := by
            rw [List.take_append_of_le_length (by simp)]
          rw [this]
          have : (p' ++ [a] ++ { s with start := some v } :: r).head? = (p' ++ [a]).head? := by
            cases p' <;> rfl
          rw [this]
        rw [e0]
        by_cases hp' : p' = []
        · subst hp'; simp [Path.closeTarget, hma]
        · have he' : HasEnds p' := fun t ht => hp.ends t (by simp [ht])
          rw [closeTarget_eq hma hp' he']
          have := (connected_snoc_iff hp' he').mp hp.conn
          obtain ⟨-, _, _, -, -, -, h⟩ := this
          obtain ⟨q', w, h1, h2, h3⟩ := h (isClose_iff.mp hca)
          rw [h1, h2, h3]
      have hsub : Path.validateSubpath (p' ++ [a] ++ { s with start := some v } :: r) (((p' ++ [a]).length : ℤ) - 1) =
          p' ++ [a] ++ { s with start := some v } :: r := by
        unfold Path.validateSubpath
        rw [if_neg (by simp), hidx]
        have e1 : (p' ++ [a] ++ { s with start := some v } :: r).take p'.length = p' := by simp
        have e2 : (p' ++ [a] ++ { s with start := some v } :: r).drop p'.length = a :: { s with start := some v } :: r := by simp
        rw [e1, e2]
        unfold Path.closeNext
        by_cases hma : a.isMove = true
        · simp [hma]
        · rw [if_neg hma]
          by_cases hca : a.isClose = true
          · rw [if_pos hca, hct hca]; simp
          · rw [if_neg hca]
            unfold Path.closeNext
            rw [if_pos hmv']
            simp
      rw [hsub]
      obtain ⟨f, p0, hf⟩ : ∃ f p0, p' ++ [a] = f :: p0 := List.exists_cons_of_ne_nil (by simp)
      rw [hf] at hp hu ⊢
      obtain ⟨w, hw, hch⟩ := (connected_iff (R := Near) (S := Eq) (fun _ => rfl)).mp ⟨hp.conn, hp.ends⟩
      obtain ⟨u', hu', hch'⟩ := (connected_iff (R := Near) (S := Eq) (fun _ => rfl)).mp ⟨hq, he⟩
      have hcur := after_cur hw (chain_ends hch)
      rw [hu] at hcur
      have hall := (connected_iff (R := Near) (S := Eq) (s := f) (r := p0 ++ { s with start := some v } :: r)
        (fun _ => rfl)).mpr ⟨w, hw, chain_append.mpr ⟨hch, v, u', rfl, hu', ?_, ?_, ?_⟩⟩
      · exact ⟨by simp, hall.2, hall.1⟩
      · rw [← Option.some.inj hcur]; exact hR
      · intro hc
        have hc : s.kind = .close := isClose_iff.mp hc
        rw [hmk] at hc; cases hc
      · rw [if_pos hmv']; exact hch'

theorem ok_getD {p : List (Seg K)} (hp : p = [] ∨ Good Near Eq p) {x : Except PyErr (List (Seg K))}
    (h : ∀ p', x = .ok p' → p' = [] ∨ Good Near Eq p') : x.toOption.getD p = [] ∨ Good Near Eq (x.toOption.getD p) := by
  cases x with
  | error e => exact hp
  | ok p' => exact h p' rfl

theorem built_good {rd : List Char → K} {mk : Path.ArcCtor K} {p : List (Seg K)} (h : Built rd mk p) :
    p = [] ∨ Good Near Eq p := by
  induction h with
  | empty => exact Or.inl rfl
  | extend _ _ hm ihp ihq =>
    rcases ihq with rfl | ihq
    · exact near_extend ihp Connected.nil (by intro s hs; simp at hs) hm
    · exact near_extend ihp ihq.conn ihq.ends hm
  | @step p op _ hop ih =>
    cases op with
    | move t r =>
      exact Or.inr (near_append ih (s := { kind := .move, start := Path.currentPoint p, stop := t.get p, relative := r })
         (Or.inl (near_get ih hop)))
    | line t r =>
      exact Or.inr (near_append ih (s := { kind := .line, start := Path.currentPoint p, stop := t.get p, relative := r })
         (Or.inl (near_get ih hop)))
    | quad c t r =>
      exact Or.inr (near_append ih (s := { kind := .quad (c.get p), start := Path.currentPoint p, stop := t.get p, relative := r, smooth := false })
         (Or.inl (near_get ih hop)))
    | closed r =>
      exact Or.inr (near_append ih (s := { kind := .close, start := Path.currentPoint p, stop := Path.zPoint p, relative := r })
        (Or.inr ⟨rfl, hop⟩))
    | append s => exact Or.inr (near_append ih hop)
    | text t =>
      refine good_parse ?_
      rcases ih with h | h
      · exact Or.inr ⟨h, by rcases hop with h' | h'; exact absurd h h'; exact h'⟩
      · exact Or.inl h
    | horizontal x r =>
      refine ok_getD ih (fun p' h => Or.inr ?_)
      unfold Path.horizontal at h
      split at h
      · cases h
      · split at h
        · split_ifs at h
        · cases h; exact near_append ih (Or.inl (by simp))
    | vertical x r =>
      refine ok_getD ih (fun p' h => Or.inr ?_)
      unfold Path.vertical at h
      split at h
      · cases h
      · split at h
        · split_ifs at h; cases h; exact near_append ih (Or.inl (by simp))
        · cases h; exact near_append ih (Or.inl (by simp))
    | smoothQuad t r =>
      refine ok_getD ih (fun p' h => Or.inr ?_)
      unfold Path.smoothQuad at h
      split at h
      · cases h
      · cases h; exact near_append ih (Or.inl (near_get ih hop))
    | cubic a b t r =>
      refine ok_getD ih (fun p' h => Or.inr ?_)
      unfold Path.cubic at h
      split at h
      · cases h
      · rename_i hs; cases h
        exact near_append ih (Or.inl (by rw [(mkCubic_pts hs).2]; exact near_get ih hop))
    | smoothCubic b t r =>
      refine ok_getD ih (fun p' h => Or.inr ?_)
      unfold Path.smoothCubic at h
      split at h
      · cases h
      · split at h
        · cases h
        · rename_i hs; cases h
          exact near_append ih (Or.inl (by rw [(mkCubic_pts hs).2]; exact near_get ih hop))
    | arc a b c d e t r =>
      refine ok_getD ih (fun p' h => Or.inr ?_)
      unfold Path.arc at h
      split at h
      · split at h
        · cases h
        · cases h; exact near_append ih (Or.inl (by simp))
      · cases h

/-- **C47**: after any sequence of move, line, horizontal, vertical, quad, smooth_quad, cubic, smooth_cubic,
arc, closed, append, `+=` of segments, of text and of paths that start with a move, each of which gives its
segments an end, the path is connected: each segment starts, up to the library's tolerance, where the one
before it ends, and every close ends exactly at the start of its subpath. -/
theorem C47_building_connected {rd : List Char → K} {mk : Path.ArcCtor K} {p : List (Seg K)} (h : Built rd mk p) :
    Joined Near p ∧ ClosesBack Eq p ∧ HasEnds p := by
  rcases built_good h with rfl | h
  · exact ⟨(Connected.nil (R := Near) (S := Eq)).1, (Connected.nil (R := Near) (S := Eq)).2, by intro s hs; simp at hs⟩
  · exact ⟨h.conn.1, h.conn.2, h.ends⟩

/-- `path += fragment`: a path that does not start with a move may hold a close that is not in the subpath of
the old path's last segment; it is then not corrected. Here M0,0 Z is extended by L1,1 L2,2 Z, which closes
at its own first segment's end. -/
theorem C47_extend_fragment_not_connected :
    let p : List (Seg ℚ) := [⟨.move, none, some ⟨0, 0⟩, false, true⟩, ⟨.close, some ⟨0, 0⟩, some ⟨0, 0⟩, false, true⟩]
    let q : List (Seg ℚ) := [⟨.line, none, some ⟨1, 1⟩, false, true⟩, ⟨.line, some ⟨1, 1⟩, some ⟨2, 2⟩, false, true⟩,
      ⟨.close, some ⟨2, 2⟩, some ⟨1, 1⟩, false, true⟩]
    Connected Near p ∧ HasEnds p ∧ Connected Near q ∧ HasEnds q ∧ ¬ Connected Near (Path.iadd p q) := by
  intro p q
  have hp : HasEnds p := by intro s hs; simp [p] at hs; rcases hs with rfl | rfl <;> simp
  have hq : HasEnds q := by intro s hs; simp [q] at hs; rcases hs with rfl | rfl | rfl <;> simp
  refine ⟨(C48_is_valid hp).mp (by decide +kernel), hp, (C48_is_valid hq).mp (by decide +kernel), hq, ?_⟩
  have hpq : HasEnds (Path.iadd p q) := by
    have : (Path.iadd p q).all (fun s => s.stop.isSome) = true := by decide +kernel
    intro s hs hn
    have := List.all_eq_true.mp this s hs
    rw [hn] at this; simp at this
  intro h
  have := (C48_is_valid hpq).mpr h
  revert this
  decide +kernel

example : Built floatVal dummyArc (K := ℚ) (Path.iadd
    (BuildOp.run floatVal dummyArc (BuildOp.run floatVal dummyArc [] (.text "M1,1 l2,2".toList)) (.closed false))
    (BuildOp.run floatVal dummyArc (BuildOp.run floatVal dummyArc [] (.move (.pt ⟨3, 3⟩) false)) (.append ⟨.line, some ⟨9, 9⟩, some ⟨4, 4⟩, false, true⟩))) := by
  refine .extend (.step _ (.step _ .empty (Or.inr ⟨[], 'M', _, rfl, by simp [AllSep], by simp⟩)) ?_)
    (.step _ (.step _ .empty (Or.inl (by simp))) (Or.inl (by simp))) ?_
  · show _ ≠ _
    decide +kernel
  · intro s hs
    have : (BuildOp.run floatVal dummyArc (BuildOp.run floatVal dummyArc [] (.move (.pt ⟨3, 3⟩) false))
      (.append ⟨.line, some ⟨9, 9⟩, some ⟨4, 4⟩, false, true⟩)).head? = some ⟨.move, none, some (⟨3, 3⟩ : Pt ℚ), false, true⟩ := by
      decide +kernel
    rw [this] at hs
    cases hs
    rfl

end Svgio.Props
