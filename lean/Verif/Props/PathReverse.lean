import Verif.Lemmas.Reverse

/-!
C54: reversing a path.
-/

namespace Svgio.Props
open Spec

variable {K : Type} [Field K] [LinearOrder K]

/-- a subpath: a move, drawn segments, and perhaps a close -/
structure Block (K : Type) where
  move : Seg K
  drawn : List (Seg K)
  close : Option (Seg K)

/-- the segments of the subpath -/
def Block.segs (b : Block K) : List (Seg K) := b.move :: (b.drawn ++ b.close.toList)

/-- the path made of these subpaths -/
def joinBlocks (bs : List (Block K)) : List (Seg K) := bs.flatMap Block.segs

/-- the three parts are of the right classes -/
structure Block.Wf (b : Block K) : Prop where
  move : b.move.kind = .move
  drawn : ∀ s ∈ b.drawn, s.kind ≠ .move ∧ s.kind ≠ .close
  close : ∀ s, b.close = some s → s.kind = .close

/-- where the drawn segments end -/
def Block.far (b : Block K) : Option (Pt K) := match b.drawn.getLast? with | none => b.move.stop | some s => s.stop

/-- where the subpath ends -/
def Block.stop (b : Block K) : Option (Pt K) := if b.close = none then b.far else b.move.stop

/-- each segment starts exactly where the one before ends -/
def Block.Exact (b : Block K) : Prop :=
  ∃ z, b.move.stop = some z ∧ Chain Eq Eq z z (b.drawn ++ b.close.toList)

/-- what the code makes of the subpath, before copying -/
def Block.rev (b : Block K) : Block K :=
  ⟨{ b.move with stop := b.far }, (b.drawn.map Seg.reverse).reverse,
    b.close.map (fun c => { c with start := b.move.stop, stop := b.far })⟩

/-- subpaths of the right form, exact inside, each starting up to `R` where the one before ends -/
def Linked (R : Pt K → Pt K → Prop) : Option (Pt K) → List (Block K) → Prop
  | _, [] => True
  | e, b :: bs => b.Wf ∧ b.Exact ∧ (∀ u, e = some u → ∃ v, b.move.start = some v ∧ R u v) ∧ Linked R b.stop bs

/-- the windows of consecutive subpaths -/
def wins : ℕ → List (Block K) → List (ℕ × ℕ)
  | _, [] => []
  | n, b :: bs => (n, n + b.segs.length) :: wins (n + b.segs.length) bs

omit [Field K] [LinearOrder K] in
theorem linked_wf {R : Pt K → Pt K → Prop} : ∀ {bs : List (Block K)} {e}, Linked R e bs → ∀ b ∈ bs, b.Wf ∧ b.Exact := by
  intro bs
  induction bs with
  | nil => intro e _ b hb; simp at hb
  | cons a bs ih =>
    intro e ⟨h1, h2, _, h4⟩ b hb
    rcases List.mem_cons.mp hb with rfl | hb
    · exact ⟨h1, h2⟩
    · exact ih h4 b hb

omit [Field K] [LinearOrder K] in
theorem Block.Wf.tail {b : Block K} (h : b.Wf) : ∀ s ∈ b.drawn ++ b.close.toList, s.isMove = false := by
  intro s hs
  rw [Bool.eq_false_iff]
  intro hm
  rw [isMove_iff] at hm
  rcases List.mem_append.mp hs with h' | h'
  · exact (h.drawn s h').1 hm
  · have := h.close s (by simpa using h')
    rw [hm] at this; cases this

omit [Field K] [LinearOrder K] in
theorem windowsGo_flat : ∀ (bs : List (Block K)), (∀ b ∈ bs, b.Wf) → ∀ (t : List (Seg K)) (last cur : ℕ), last < cur →
    (∀ s ∈ t, s.isMove = false) →
    Path.windowsGo last cur (t ++ joinBlocks bs) = (last, cur + t.length) :: wins (cur + t.length) bs := by
  intro bs
  induction bs with
  | nil =>
    intro _ t
    induction t with
    | nil => intro last cur _ _; simp [joinBlocks, Path.windowsGo, wins]
    | cons s t ih =>
      intro last cur hl ht
      rw [List.cons_append]
      unfold Path.windowsGo
      rw [ht s (by simp)]
      simp only [Bool.false_eq_true, and_false, if_false]
      rw [ih last (cur + 1) (by omega) (fun x hx => ht x (by simp [hx]))]
      simp [wins]; omega
  | cons b bs ihb =>
    intro hw t
    induction t with
    | nil =>
      intro last cur hl _
      have hf : joinBlocks (b :: bs) = b.move :: ((b.drawn ++ b.close.toList) ++ joinBlocks bs) := by
        simp [joinBlocks, Block.segs]
      have hwb := hw b (by simp)
      rw [List.nil_append, hf]
      unfold Path.windowsGo
      rw [isMove_iff.mpr hwb.move, if_pos ⟨by omega, rfl⟩,
        ihb (fun x hx => hw x (by simp [hx])) _ cur (cur + 1) (by omega) hwb.tail]
      simp only [wins, List.length_nil, Nat.add_zero]
      have : cur + 1 + (b.drawn ++ b.close.toList).length = cur + b.segs.length := by
        simp [Block.segs]; omega
      rw [this]
    | cons s t ih =>
      intro last cur hl ht
      rw [List.cons_append]
      unfold Path.windowsGo
      rw [ht s (by simp)]
      simp only [Bool.false_eq_true, and_false, if_false]
      rw [ih last (cur + 1) (by omega) (fun x hx => ht x (by simp [hx]))]
      have : cur + 1 + t.length = cur + (s :: t).length := by simp; omega
      rw [this]

omit [Field K] [LinearOrder K] in
theorem windows_flat {bs : List (Block K)} (hne : bs ≠ []) (hw : ∀ b ∈ bs, b.Wf) : Path.windows (joinBlocks bs) = wins 0 bs := by
  cases bs with
  | nil => exact absurd rfl hne
  | cons b bs =>
    have hwb := hw b (by simp)
    have hf : joinBlocks (b :: bs) = b.move :: ((b.drawn ++ b.close.toList) ++ joinBlocks bs) := by
      simp [joinBlocks, Block.segs]
    unfold Path.windows
    rw [hf]
    unfold Path.windowsGo
    rw [if_neg (by simp), windowsGo_flat bs (fun x hx => hw x (by simp [hx])) _ 0 (0 + 1) (by omega) hwb.tail]
    simp only [wins]
    have : 0 + 1 + (b.drawn ++ b.close.toList).length = 0 + b.segs.length := by
      simp [Block.segs]; omega
    rw [this]

omit [LinearOrder K] in
theorem rev_length (b : Block K) : b.rev.segs.length = b.segs.length := by
  cases h : b.close <;> simp [Block.rev, Block.segs, h]

omit [Field K] [LinearOrder K] in
/-- the far end of an exact subpath -/
theorem far_after {R S : Pt K → Pt K → Prop} : ∀ {ds : List (Seg K)} {z e : Pt K}, Chain R S z e ds → ∀ (d : Seg K),
    ds.getLast? = some d → d.stop = some (after z e ds).2 := by
  intro ds
  induction ds with
  | nil => intro z e _ d hd; simp at hd
  | cons s ds ih =>
    intro z e h d hd
    obtain ⟨v, u, h1, h2, h3, h4, h5⟩ := h
    rw [after_cons h2]
    cases ds with
    | nil => simp at hd; subst hd; simpa [after] using h2
    | cons t ds => exact ih h5 d (by simpa using hd)

variable [IsStrictOrderedRing K]

theorem Block.reverse_step {b : Block K} (hw : b.Wf) (hx : b.Exact) (l r : List (Seg K))
    (hr : ∀ f, r.head? = some f → ∃ e v, b.stop = some e ∧ f.start = some v ∧ Near e v) :
    ∃ r', Path.subReverse (l ++ (b.segs ++ r)) (l.length, l.length + b.segs.length) = l ++ (b.rev.segs ++ r') ∧
      (r' = r ∨ ∃ z, r' = relink z r) := by
  obtain ⟨z, hz, hch⟩ := hx
  obtain ⟨m, ds, c⟩ := b
  obtain ⟨hm, hd, hcl⟩ := hw
  simp only at hm hd hcl hz hch
  rw [chain_append] at hch
  obtain ⟨hch1, hch2⟩ := hch
  cases ds with
  | nil =>
    cases c with
    | none =>
      refine ⟨r, ?_, Or.inl rfl⟩
      have := subReverse_move (l := l) (r := r) hm hz (by
        intro f hf
        obtain ⟨e, v, h1, h2, h3⟩ := hr f hf
        simp only [Block.stop, Block.far, List.getLast?_nil, if_true] at h1
        rw [hz] at h1; cases h1
        exact ⟨v, h2, h3⟩)
      simpa [Block.segs, Block.rev, Block.far] using this
    | some c =>
      refine ⟨r, ?_, Or.inl rfl⟩
      obtain ⟨v, u, h1, h2, h3, h4, -⟩ := hch2
      simp only [after] at h3 h4
      have hk := hcl c rfl
      have h4 := h4 (isClose_iff.mpr hk)
      subst h3 h4
      have := subReverse_move_close (l := l) (r := r) hm hz hk h1 h2
      have e : ({ c with start := some z, stop := some z } : Seg K) = c := by
        cases c; simp_all
      have e' : ({ m with stop := some z } : Seg K) = m := by
        cases m; simp_all
      simpa [Block.segs, Block.rev, Block.far, hz, e, e'] using this
  | cons d0 ds =>
    obtain ⟨dl, hdl⟩ : ∃ dl, (d0 :: ds).getLast? = some dl := ⟨_, List.getLast?_eq_some_getLast (by simp)⟩
    have hdle := far_after hch1 dl hdl
    have hd0 : d0.start = some z := by
      obtain ⟨v, u, h1, h2, h3, -⟩ := hch1
      rw [h1, h3]
    have hmem : dl ∈ d0 :: ds := List.mem_of_getLast? hdl
    have hfar : (⟨m, d0 :: ds, c⟩ : Block K).far = some (after z z (d0 :: ds)).2 := by
      unfold Block.far; simp only [hdl]; exact hdle
    cases c with
    | none =>
      refine ⟨relink z r, ?_, Or.inr ⟨z, rfl⟩⟩
      have := subReverse_open (l := l) (r := r) hm hz rfl hdl hd0 hdle (hd dl hmem).2 (hd d0 (by simp)).2
      rw [← hfar] at this
      simpa [Block.segs, Block.rev] using this
    | some c =>
      refine ⟨r, ?_, Or.inl rfl⟩
      have hz1 : (after z z (d0 :: ds)).1 = z := by
        have : ∀ (t : List (Seg K)) (z e : Pt K), (∀ s ∈ t, s.kind ≠ .move ∧ s.kind ≠ .close) → (after z e t).1 = z := by
          intro t
          induction t with
          | nil => intro z e _; rfl
          | cons s t ih =>
            intro z e h
            unfold after
            rw [if_neg (by rw [isMove_iff]; exact (h s (by simp)).1)]
            exact ih _ _ (fun x hx => h x (by simp [hx]))
        exact this _ z z hd
      obtain ⟨v, u, h1, h2, h3, h4, -⟩ := hch2
      have hk := hcl c rfl
      have h4 := h4 (isClose_iff.mpr hk)
      rw [hz1] at h4
      subst h3 h4
      have := subReverse_closed (l := l) (r := r) hm hz rfl hdl hd0 hdle hk h1 h2
      rw [← hfar, ← hz] at this
      simpa [Block.segs, Block.rev] using this

/-- `b'` is `b` reversed, except for where its move starts -/
def RevTo (b b' : Block K) : Prop := ∃ v, b' = { b.rev with move := { b.rev.move with start := v } }

theorem foldl_subReverse : ∀ (n : ℕ) (bs : List (Block K)) (e : Option (Pt K)) (l : List (Seg K)), bs.length = n →
    Linked Near e bs →
    ∃ bs', (wins l.length bs).foldl Path.subReverse (l ++ joinBlocks bs) = l ++ joinBlocks bs' ∧ List.Forall₂ RevTo bs bs' := by
  intro n
  induction n with
  | zero =>
    intro bs e l hn _
    rw [List.length_eq_zero_iff] at hn
    subst hn
    exact ⟨[], rfl, .nil⟩
  | succ n ih =>
    intro bs e l hn hb
    obtain ⟨b, bs, rfl⟩ : ∃ b bs', bs = b :: bs' := by
      cases bs with
      | nil => simp at hn
      | cons b bs => exact ⟨b, bs, rfl⟩
    have hn : bs.length = n := by simpa using hn
    obtain ⟨hw, hx, -, hl⟩ := hb
    have hr : ∀ f, (joinBlocks bs).head? = some f → ∃ e v, b.stop = some e ∧ f.start = some v ∧ Near e v := by
      intro f hf
      cases bs with
      | nil => simp [joinBlocks] at hf
      | cons b2 bs =>
        have : f = b2.move := by simpa [joinBlocks, Block.segs] using hf.symm
        subst this
        have hstop : ∃ e, b.stop = some e := by
          obtain ⟨z, hz, hch⟩ := hx
          unfold Block.stop
          split_ifs
          · unfold Block.far
            cases h : b.drawn.getLast? with
            | none => exact ⟨z, hz⟩
            | some d => exact ⟨_, far_after (chain_append.mp hch).1 d h⟩
          · exact ⟨z, hz⟩
        obtain ⟨e, he⟩ := hstop
        obtain ⟨v, h1, h2⟩ := hl.2.2.1 e he
        exact ⟨e, v, he, h1, h2⟩
    obtain ⟨r', h1, h2⟩ := Block.reverse_step hw hx l (joinBlocks bs) hr
    obtain ⟨bs2, hb2, hl2, hf2, hw2, hn2⟩ : ∃ bs2, r' = joinBlocks bs2 ∧ (∃ e, Linked Near e bs2) ∧
        (∀ bs', List.Forall₂ RevTo bs2 bs' → List.Forall₂ RevTo bs bs') ∧ (∀ n, wins n bs2 = wins n bs) ∧
        bs2.length = bs.length := by
      rcases h2 with rfl | ⟨z, rfl⟩
      · exact ⟨bs, rfl, ⟨_, hl⟩, fun _ h => h, fun _ => rfl, rfl⟩
      · cases bs with
        | nil => exact ⟨[], rfl, ⟨_, hl⟩, fun _ h => h, fun _ => rfl, rfl⟩
        | cons b2 bs =>
          obtain ⟨v, hv, -⟩ := relink_cons z b2.move ((b2.drawn ++ b2.close.toList) ++ joinBlocks bs)
          refine ⟨{ b2 with move := { b2.move with start := some v } } :: bs, ?_, ⟨none, ?_⟩, ?_, ?_, rfl⟩
          · rw [show joinBlocks (b2 :: bs) = b2.move :: ((b2.drawn ++ b2.close.toList) ++ joinBlocks bs) by simp [joinBlocks, Block.segs], hv]
            simp [joinBlocks, Block.segs]
          · obtain ⟨w, x, -, t⟩ := hl
            exact ⟨⟨w.1, w.2, w.3⟩, x, by simp, t⟩
          · intro bs' h
            cases h with
            | cons h t =>
              obtain ⟨v', hv'⟩ := h
              exact .cons ⟨v', hv'⟩ t
          · intro n
            simp [wins, Block.segs]
    obtain ⟨e2, hl2⟩ := hl2
    obtain ⟨bs', hb', hf'⟩ := ih bs2 e2 (l ++ b.rev.segs) (hn2.trans hn) hl2
    refine ⟨b.rev :: bs', ?_, .cons ⟨_, rfl⟩ (hf2 bs' hf')⟩
    rw [show joinBlocks (b :: bs) = b.segs ++ joinBlocks bs by simp [joinBlocks]]
    simp only [wins, List.foldl_cons]
    rw [h1, hb2, ← hw2, ← List.append_assoc]
    have : l.length + b.segs.length = (l ++ b.rev.segs).length := by rw [List.length_append, rev_length]
    rw [this, hb']
    simp [joinBlocks]

omit [Field K] [LinearOrder K] [IsStrictOrderedRing K] in
theorem wins_congr {bs bs' : List (Block K)} (h : List.Forall₂ (fun b b' => b'.segs.length = b.segs.length) bs bs') :
    ∀ n, wins n bs' = wins n bs := by
  induction h with
  | nil => intro n; rfl
  | cons h _ ih => intro n; simp only [wins, h]; rw [ih]

omit [Field K] [LinearOrder K] [IsStrictOrderedRing K] in
theorem wins_iter : ∀ (bs : List (Block K)) (l : List (Seg K)),
    (wins l.length bs).map (Path.subIter (l ++ joinBlocks bs)) = bs.map Block.segs := by
  intro bs
  induction bs with
  | nil => intro l; rfl
  | cons b bs ih =>
    intro l
    have hf : l ++ joinBlocks (b :: bs) = l ++ b.segs ++ joinBlocks bs := by simp [joinBlocks]
    simp only [wins, List.map_cons]
    have := ih (l ++ b.segs)
    rw [List.length_append] at this
    rw [hf, this]
    congr 1
    rw [subIter_eq]
    unfold Path.subSegments
    simp only
    rw [List.take_append_of_le_length (by simp), List.take_of_length_le (by simp)]
    simp

/-- the copy of a subpath -/
def Block.copy (b : Block K) : Block K := ⟨Path.copySeg b.move, b.drawn.map Path.copySeg, b.close.map Path.copySeg⟩

omit [Field K] [LinearOrder K] [IsStrictOrderedRing K] in
theorem copy_segs (b : Block K) : b.copy.segs = b.segs.map Path.copySeg := by
  cases h : b.close <;> simp [Block.copy, Block.segs, h]

omit [Field K] [LinearOrder K] [IsStrictOrderedRing K] in
theorem chain_copy {R S : Pt K → Pt K → Prop} : ∀ {r : List (Seg K)} {z e : Pt K}, Chain R S z e r →
    Chain R S z e (r.map Path.copySeg) := by
  intro r
  induction r with
  | nil => intro z e h; exact h
  | cons s r ih =>
    intro z e ⟨v, u, h1, h2, h3, h4, h5⟩
    exact ⟨v, u, h1, h2, h3, h4, ih h5⟩

omit [Field K] [LinearOrder K] [IsStrictOrderedRing K] in
theorem copy_wf {b : Block K} (hw : b.Wf) (hx : b.Exact) : b.copy.Wf ∧ b.copy.Exact ∧ b.copy.stop = b.stop ∧ b.copy.far = b.far := by
  have hfar : b.copy.far = b.far := by
    unfold Block.far Block.copy
    simp only [List.getLast?_map]
    cases b.drawn.getLast? <;> rfl
  refine ⟨⟨hw.move, ?_, ?_⟩, ?_, ?_, hfar⟩
  · intro s hs
    obtain ⟨t, ht, rfl⟩ := List.mem_map.mp hs
    exact hw.drawn t ht
  · intro s hs
    obtain ⟨t, ht, rfl⟩ := Option.map_eq_some_iff.mp hs
    exact hw.close t ht
  · obtain ⟨z, hz, hch⟩ := hx
    refine ⟨z, hz, ?_⟩
    have := chain_copy hch
    cases h : b.close <;> simpa [Block.copy, h] using this
  · unfold Block.stop
    rw [hfar]
    cases h : b.close <;> simp [Block.copy, h, Path.copySeg]

omit [IsStrictOrderedRing K] in
theorem rev_chain : ∀ (ds : List (Seg K)) (z e z' : Pt K), (∀ s ∈ ds, s.kind ≠ .move ∧ s.kind ≠ .close) →
    Chain Eq Eq z e ds → Chain Eq Eq z' (after z e ds).2 (ds.map Seg.reverse).reverse ∧
      after z' (after z e ds).2 (ds.map Seg.reverse).reverse = (z', e) := by
  intro ds
  induction ds with
  | nil => intro z e z' _ _; exact ⟨trivial, rfl⟩
  | cons s ds ih =>
    intro z e z' hk h
    obtain ⟨v, u, h1, h2, h3, h4, h5⟩ := h
    subst h3
    have hm : ¬ s.isMove = true := by rw [isMove_iff]; exact (hk s (by simp)).1
    rw [after_cons h2]
    rw [if_neg hm] at h5 ⊢
    obtain ⟨i1, i2⟩ := ih z u z' (fun x hx => hk x (by simp [hx])) h5
    rw [List.map_cons, List.reverse_cons]
    have hr1 : s.reverse.start = some u := h2
    have hr2 : s.reverse.stop = some e := h1
    have hkm : ¬ s.reverse.isMove = true := by
      rw [isMove_iff]; unfold Seg.reverse; simp only
      have := (hk s (by simp)).1
      cases hs : s.kind <;> simp_all
    have hkc : ¬ s.reverse.isClose = true := by
      rw [isClose_iff]; unfold Seg.reverse; simp only
      have := (hk s (by simp)).2
      cases hs : s.kind <;> simp_all
    refine ⟨chain_append.mpr ⟨i1, ?_⟩, ?_⟩
    · rw [i2]
      exact ⟨u, e, hr1, hr2, rfl, fun h => absurd h hkc, trivial⟩
    · rw [after_append, i2]
      simp [after, hkm, hr2]

omit [Field K] [LinearOrder K] [IsStrictOrderedRing K] in
theorem after_z_drawn : ∀ (t : List (Seg K)) (z e : Pt K), (∀ s ∈ t, s.kind ≠ .move ∧ s.kind ≠ .close) →
    (after z e t).1 = z := by
  intro t
  induction t with
  | nil => intro z e _; rfl
  | cons s t ih =>
    intro z e h
    unfold after
    rw [if_neg (by rw [isMove_iff]; exact (h s (by simp)).1)]
    exact ih _ _ (fun x hx => h x (by simp [hx]))

omit [Field K] [LinearOrder K] [IsStrictOrderedRing K] in
theorem far_eq {b : Block K} {z : Pt K} (hz : b.move.stop = some z) (hch : Chain Eq Eq z z b.drawn) :
    b.far = some (after z z b.drawn).2 := by
  unfold Block.far
  cases h : b.drawn.getLast? with
  | none =>
    rw [List.getLast?_eq_none_iff] at h
    rw [h]; exact hz
  | some d => exact far_after hch d h

omit [IsStrictOrderedRing K] in
theorem rev_wf {b : Block K} (hw : b.Wf) (hx : b.Exact) : b.rev.Wf ∧ b.rev.Exact ∧ b.rev.far = b.move.stop := by
  obtain ⟨z, hz, hch⟩ := hx
  obtain ⟨h1, h2⟩ := chain_append.mp hch
  have hfar := far_eq hz h1
  have hz1 := after_z_drawn b.drawn z z hw.drawn
  obtain ⟨i1, i2⟩ := rev_chain b.drawn z z (after z z b.drawn).2 hw.drawn h1
  refine ⟨⟨hw.move, ?_, ?_⟩, ?_, ?_⟩
  · intro s hs
    simp only [Block.rev, List.mem_reverse, List.mem_map] at hs
    obtain ⟨t, ht, rfl⟩ := hs
    have := hw.drawn t ht
    unfold Seg.reverse
    cases hk : t.kind <;> simp_all
  · intro s hs
    obtain ⟨t, ht, rfl⟩ := Option.map_eq_some_iff.mp hs
    exact hw.close t ht
  · refine ⟨(after z z b.drawn).2, hfar, ?_⟩
    refine chain_append.mpr ⟨i1, ?_⟩
    have i2' : after (after z z b.drawn).2 (after z z b.drawn).2 b.rev.drawn = _ := i2
    rw [i2']
    cases hc : b.close with
    | none => simp [Block.rev, hc, Chain]
    | some c =>
      simp only [Block.rev, hc, Option.map_some, Option.toList_some]
      exact ⟨z, _, hz, hfar, rfl, fun _ => rfl, trivial⟩
  · have := far_eq (b := b.rev) (z := (after z z b.drawn).2) hfar i1
    rw [this, hz]
    have i2' : after (after z z b.drawn).2 (after z z b.drawn).2 b.rev.drawn = _ := i2
    rw [i2']

theorem block_sound {b : Block K} (hx : b.Exact) : Sound b.segs := by
  obtain ⟨z, hz, hch⟩ := hx
  refine sound_cons.mpr ⟨z, hz, ?_⟩
  have : ∀ (r : List (Seg K)) (z e : Pt K), Chain Eq Eq z e r → Chain Near Eq z e r := by
    intro r
    induction r with
    | nil => intro z e h; exact h
    | cons s r ih =>
      intro z e ⟨v, u, h1, h2, h3, h4, h5⟩
      exact ⟨v, u, h1, h2, h3 ▸ near_refl _, h4, ih _ _ h5⟩
  exact this _ _ _ hch

omit [Field K] [LinearOrder K] [IsStrictOrderedRing K] in
theorem block_cur {b : Block K} (hw : b.Wf) (hx : b.Exact) (q : List (Seg K)) : Path.currentPoint (q ++ b.segs) = b.stop := by
  obtain ⟨z, hz, hch⟩ := hx
  unfold Path.currentPoint Block.segs Block.stop
  cases hc : b.close with
  | none =>
    unfold Block.far
    rw [if_pos rfl]
    cases hd : b.drawn.getLast? with
    | none =>
      rw [List.getLast?_eq_none_iff] at hd
      simp [hd]
    | some d =>
      obtain ⟨t, ht⟩ := List.getLast?_eq_some_iff.mp hd
      rw [ht]
      simp [List.getLast?_append, List.getLast?_cons]
  | some c =>
    rw [if_neg (by simp)]
    rw [hc] at hch
    obtain ⟨h1, v, u, h2, h3, h4, h5, -⟩ := chain_append.mp hch
    have := h5 (isClose_iff.mpr (hw.close c hc))
    rw [after_z_drawn b.drawn z z hw.drawn] at this
    simp [List.getLast?_append, List.getLast?_cons, h3, hz, this]

/-- `b'` is a copy of `b`, except for where its move starts -/
def CopyTo (b b' : Block K) : Prop := ∃ v, b' = { b.copy with move := { b.copy.move with start := v } }

theorem foldl_iadd : ∀ (bs : List (Block K)), (∀ b ∈ bs, b.Wf ∧ b.Exact) → ∀ (q : List (Seg K)) (u : Pt K), Sound q →
    Path.currentPoint q = some u → ∃ bs', bs.foldl (fun q b => Path.iadd q b.segs) q = q ++ joinBlocks bs' ∧
      Sound (q ++ joinBlocks bs') ∧ Linked Near (some u) bs' ∧ List.Forall₂ CopyTo bs bs' := by
  intro bs
  induction bs with
  | nil => intro _ q u hq hu; exact ⟨[], by simp [joinBlocks], by simpa [joinBlocks] using hq, trivial, .nil⟩
  | cons b bs ih =>
    intro hb q u hq hu
    obtain ⟨hw, hx⟩ := hb b (by simp)
    obtain ⟨cw, cx, cs, cf⟩ := copy_wf hw hx
    have hhead : ∀ s, b.copy.segs.head? = some s → s.kind = .move := by
      intro s hs
      simp [Block.segs] at hs
      subst hs; exact cw.move
    have hext := extend_sound hq hu (block_sound cx) hhead
    have hsnd := sound_append hq hu (block_sound cx) hhead
    obtain ⟨v, hv, hv1⟩ := relink_cons u b.copy.move (b.copy.drawn ++ b.copy.close.toList)
    let b1 : Block K := { b.copy with move := { b.copy.move with start := some v } }
    have hb1 : relink u b.copy.segs = b1.segs := hv
    have w1 : b1.Wf := ⟨cw.1, cw.2, cw.3⟩
    have x1 : b1.Exact := cx
    have hst : ∃ e, b1.stop = some e := by
      obtain ⟨z, hz, hch⟩ := x1
      unfold Block.stop
      split_ifs
      · exact ⟨_, far_eq hz (chain_append.mp hch).1⟩
      · exact ⟨z, hz⟩
    obtain ⟨e, he⟩ := hst
    rw [hb1] at hext hsnd
    obtain ⟨bs', h1, h2, h3, h4⟩ := ih (fun x hx => hb x (by simp [hx])) (q ++ b1.segs) e hsnd
      ((block_cur w1 x1 q).trans he)
    refine ⟨b1 :: bs', ?_, ?_, ⟨w1, x1, ?_, by rw [he]; exact h3⟩, .cons ⟨_, rfl⟩ h4⟩
    · rw [List.foldl_cons]
      have : Path.iadd q b.segs = q ++ b1.segs := by
        unfold Path.iadd; rw [← copy_segs, hext]
      rw [this, h1]
      simp [joinBlocks]
    · simpa [joinBlocks] using h2
    · intro u' hu'
      cases hu'
      refine ⟨v, rfl, ?_⟩
      rcases hv1 with h | h
      · exact near_iff.mp h
      · rw [h]; exact near_refl _

/-- `b'` is a copy of `b` reversed, except for where its move starts -/
def RevCopy (b b' : Block K) : Prop := ∃ v, b' = { b.rev.copy with move := { b.rev.copy.move with start := v } }

theorem revCopy_of {b1 b2 b3 : Block K} (h : RevTo b1 b2) (h' : CopyTo b2 b3) : RevCopy b1 b3 := by
  obtain ⟨v, rfl⟩ := h
  obtain ⟨w, rfl⟩ := h'
  exact ⟨w, rfl⟩

theorem forall₂_mem_right {α β} {R : α → β → Prop} {l : List α} {l' : List β} (h : List.Forall₂ R l l') {y : β} (hy : y ∈ l') :
    ∃ x ∈ l, R x y := by
  induction h with
  | nil => simp at hy
  | cons h _ ih =>
    rcases List.mem_cons.mp hy with rfl | hy
    · exact ⟨_, by simp, h⟩
    · obtain ⟨x, hx, hr⟩ := ih hy
      exact ⟨x, by simp [hx], hr⟩

theorem reverse_flat {bs : List (Block K)} (hne : bs ≠ []) (hl : Linked Near none bs) :
    ∃ bs', Path.reverse (joinBlocks bs) = joinBlocks bs' ∧ List.Forall₂ RevCopy bs.reverse bs' ∧ Linked Near none bs' ∧
      Sound (joinBlocks bs') ∧ bs'.head?.map (fun b => b.move.start) = bs.head?.map (fun b => b.move.start) := by
  obtain ⟨b, bt, rfl⟩ : ∃ b bs', bs = b :: bs' := by
    cases bs with
    | nil => exact absurd rfl hne
    | cons b bs => exact ⟨b, bs, rfl⟩
  let b0 : Block K := { b with move := { b.move with start := none } }
  have hl0 : Linked Near none (b0 :: bt) := by
    obtain ⟨w, x, -, t⟩ := hl
    exact ⟨⟨w.1, w.2, w.3⟩, x, by simp, t⟩
  obtain ⟨bs1, h1, h2⟩ := foldl_subReverse _ (b0 :: bt) none [] rfl hl0
  have hlen1 : ∀ n, wins n bs1 = wins n (b0 :: bt) := by
    apply wins_congr
    refine h2.imp ?_
    rintro x y ⟨v, rfl⟩
    have := rev_length x
    simpa [Block.segs] using this
  have hok1 : ∀ x ∈ bs1, x.Wf ∧ x.Exact := by
    intro x hx
    obtain ⟨y, hy, v, rfl⟩ := forall₂_mem_right h2 hx
    obtain ⟨hw, hxx⟩ := linked_wf hl0 y hy
    obtain ⟨r1, r2, -⟩ := rev_wf hw hxx
    exact ⟨⟨r1.1, r1.2, r1.3⟩, r2⟩
  have hfl : joinBlocks (b :: bt) = b.move :: ((b.drawn ++ b.close.toList) ++ joinBlocks bt) := by simp [joinBlocks, Block.segs]
  have hfl0 : joinBlocks (b0 :: bt) = { b.move with start := none } :: ((b.drawn ++ b.close.toList) ++ joinBlocks bt) := by
    simp [joinBlocks, Block.segs, b0]
  have hwin : Path.windows (joinBlocks (b0 :: bt)) = wins 0 (b0 :: bt) :=
    windows_flat (by simp) (fun x hx => (linked_wf hl0 x hx).1)
  simp only [List.nil_append, List.length_nil] at h1
  have hfold : (wins 0 (b0 :: bt)).reverse.foldl (fun q w => Path.iadd q (Path.subIter (joinBlocks bs1) w)) [] =
      bs1.reverse.foldl (fun q b => Path.iadd q b.segs) [] := by
    have e1 := wins_iter bs1 []
    simp only [List.nil_append, List.length_nil] at e1
    rw [← hlen1]
    rw [← List.foldl_map (f := Path.subIter (joinBlocks bs1)) (g := Path.iadd), List.map_reverse, e1, ← List.map_reverse, List.foldl_map]
  obtain ⟨c, cs, hcs⟩ : ∃ c cs, bs1.reverse = c :: cs := by
    cases h : bs1.reverse with
    | nil =>
      have := h2.length_eq
      rw [List.reverse_eq_nil_iff] at h
      rw [h] at this; simp at this
    | cons c cs => exact ⟨c, cs, rfl⟩
  have hmem : ∀ x ∈ c :: cs, x.Wf ∧ x.Exact := by
    intro x hx; rw [← hcs] at hx; exact hok1 x (by simpa using hx)
  obtain ⟨cw, cx⟩ := hmem c (by simp)
  obtain ⟨kw, kx, ks, kf⟩ := copy_wf cw cx
  have hfirst : Path.iadd [] c.segs = c.copy.segs := by
    unfold Path.iadd Path.extend
    rw [copy_segs]
    simp [Path.validateSubpath, Path.validateConnection]
  have hst : ∃ e, c.copy.stop = some e := by
    obtain ⟨z, hz, hch⟩ := kx
    unfold Block.stop
    split_ifs
    · exact ⟨_, far_eq hz (chain_append.mp hch).1⟩
    · exact ⟨z, hz⟩
  obtain ⟨e, he⟩ := hst
  obtain ⟨cs', g1, g2, g3, g4⟩ := foldl_iadd cs (fun x hx => hmem x (by simp [hx])) c.copy.segs e (block_sound kx)
    (by simpa [he] using block_cur kw kx [])
  let c' : Block K := { c.copy with move := { c.copy.move with start := b.move.start } }
  refine ⟨c' :: cs', ?_, ?_, ⟨⟨kw.1, kw.2, kw.3⟩, kx, by simp, ?_⟩, ?_, rfl⟩
  · rw [hfl]
    unfold Path.reverse
    simp only
    rw [← hfl0, hwin, h1, hfold, hcs, List.foldl_cons, hfirst, g1]
    simp [joinBlocks, Block.segs, c']
  · have h2' : List.Forall₂ RevTo (b :: bt) bs1 := by
      cases h2 with
      | cons h t => exact .cons h t
    have h2r : List.Forall₂ RevTo (b :: bt).reverse bs1.reverse := List.forall₂_reverse_iff.mpr h2'
    rw [hcs] at h2r
    have hc : List.Forall₂ CopyTo (c :: cs) (c' :: cs') := .cons ⟨_, rfl⟩ g4
    generalize (b :: bt).reverse = x at h2r
    generalize c :: cs = y at h2r hc
    generalize c' :: cs' = z at hc
    clear * - h2r hc
    induction h2r generalizing z with
    | nil => cases hc; exact .nil
    | cons h t ih =>
      cases hc with
      | cons h' t' => exact .cons (revCopy_of h h') (ih _ t')
  · have : c'.stop = some e := he
    rw [this]; exact g3
  · have : Sound (c.copy.move :: ((c.copy.drawn ++ c.copy.close.toList) ++ joinBlocks cs')) := by
      simpa [joinBlocks, Block.segs] using g2
    obtain ⟨u, hu, hch⟩ := sound_cons.mp this
    have : Sound (c'.move :: ((c.copy.drawn ++ c.copy.close.toList) ++ joinBlocks cs')) := sound_cons.mpr ⟨u, hu, hch⟩
    simpa [joinBlocks, Block.segs] using this

omit [Field K] [LinearOrder K] [IsStrictOrderedRing K] in
theorem after_stop {b : Block K} {z : Pt K} (hw : b.Wf) (hz : b.move.stop = some z)
    (hch : Chain Eq Eq z z (b.drawn ++ b.close.toList)) : b.stop = some (after z z (b.drawn ++ b.close.toList)).2 := by
  have h1 := block_cur hw ⟨z, hz, hch⟩ []
  have h2 := after_cur hz (chain_ends hch)
  rw [List.nil_append] at h1
  rw [← h1, ← h2]; rfl

omit [Field K] [LinearOrder K] [IsStrictOrderedRing K] in
theorem linked_of_chain : ∀ (bs : List (Block K)) (z e : Pt K), (∀ b ∈ bs, b.Wf) → Chain Eq Eq z e (joinBlocks bs) →
    Linked Eq (some e) bs := by
  intro bs
  induction bs with
  | nil => intro z e _ _; trivial
  | cons b bs ih =>
    intro z e hw h
    have hwb := hw b (by simp)
    rw [show joinBlocks (b :: bs) = b.move :: ((b.drawn ++ b.close.toList) ++ joinBlocks bs) by simp [joinBlocks, Block.segs]] at h
    obtain ⟨v, u, h1, h2, h3, -, h5⟩ := h
    rw [if_pos (isMove_iff.mpr hwb.move)] at h5
    obtain ⟨h6, h7⟩ := chain_append.mp h5
    refine ⟨hwb, ⟨u, h2, h6⟩, ?_, ?_⟩
    · intro e' he'
      cases he'
      exact ⟨v, h1, h3⟩
    · rw [after_stop hwb h2 h6]
      exact ih _ _ (fun x hx => hw x (by simp [hx])) h7

omit [Field K] [LinearOrder K] [IsStrictOrderedRing K] in
theorem linked_of_conn {bs : List (Block K)} (hw : ∀ b ∈ bs, b.Wf) (hc : Connected Eq (joinBlocks bs)) (he : HasEnds (joinBlocks bs)) :
    Linked Eq none bs := by
  cases bs with
  | nil => trivial
  | cons b bs =>
    have hwb := hw b (by simp)
    have hf : joinBlocks (b :: bs) = b.move :: ((b.drawn ++ b.close.toList) ++ joinBlocks bs) := by simp [joinBlocks, Block.segs]
    rw [hf] at hc he
    obtain ⟨u, h2, h5⟩ := (connected_iff (fun _ => rfl)).mp ⟨hc, he⟩
    obtain ⟨h6, h7⟩ := chain_append.mp h5
    refine ⟨hwb, ⟨u, h2, h6⟩, by simp, ?_⟩
    rw [after_stop hwb h2 h6]
    exact linked_of_chain _ _ _ (fun x hx => hw x (by simp [hx])) h7

omit [Field K] [LinearOrder K] [IsStrictOrderedRing K] in
theorem linked_mono {R S : Pt K → Pt K → Prop} (h : ∀ x y, R x y → S x y) : ∀ {bs : List (Block K)} {e}, Linked R e bs →
    Linked S e bs := by
  intro bs
  induction bs with
  | nil => intro e _; trivial
  | cons b bs ih =>
    intro e ⟨h1, h2, h3, h4⟩
    refine ⟨h1, h2, ?_, ih h4⟩
    intro u hu
    obtain ⟨v, hv, hr⟩ := h3 u hu
    exact ⟨v, hv, h _ _ hr⟩

theorem optEq_self (o : Option (Pt K)) : optEq o o = true := by
  cases o with
  | none => rfl
  | some p => exact Pt.eq_self p

theorem seg_eq_of {s t : Seg K} (h1 : t.kind = s.kind) (h2 : optEq s.start t.start = true) (h3 : t.stop = s.stop) :
    s.eq t = true := by
  unfold Seg.eq
  rw [h1, h2, h3, optEq_self]
  cases s.kind <;> simp [optEq_self, Pt.eq_self]

/-- equality as the library sees it, segment by segment -/
abbrev SegsEq (p q : List (Seg K)) : Prop := List.Forall₂ (fun s t : Seg K => s.eq t = true) p q

omit [IsStrictOrderedRing K] in
theorem path_eq_of {p q : List (Seg K)} (h : SegsEq q p) : Path.eq p q = true := by
  unfold Path.eq
  rw [if_neg (by simpa using h.length_eq.symm)]
  induction h with
  | nil => rfl
  | cons h _ ih => simp only [List.zip_cons_cons, List.all_cons, h, ih, Bool.and_self]

theorem twice_seg (s : Seg K) : s.eq (Path.copySeg (Path.copySeg s.reverse).reverse) = true := by
  apply seg_eq_of
  · unfold Path.copySeg Seg.reverse
    cases s.kind <;> simp
  · exact optEq_self _
  · rfl

/-- a subpath reversed twice, up to where its move starts -/
theorem twice_block {b b1 b2 : Block K} (hw : b.Wf) (hx : b.Exact) (h1 : RevCopy b b1) (h2 : RevCopy b1 b2) :
    b2.stop = b.stop ∧ b2.move.kind = b.move.kind ∧ b2.move.stop = b.move.stop ∧
      SegsEq (b.drawn ++ b.close.toList) (b2.drawn ++ b2.close.toList) := by
  obtain ⟨rw1, rx1, rf1⟩ := rev_wf hw hx
  obtain ⟨cw1, cx1, cs1, cf1⟩ := copy_wf rw1 rx1
  obtain ⟨z, hz, hch⟩ := hx
  obtain ⟨hd, hc⟩ := chain_append.mp hch
  obtain ⟨v, rfl⟩ := h1
  obtain ⟨w, rfl⟩ := h2
  generalize hB : ({ b.rev.copy with move := { b.rev.copy.move with start := v } } : Block K) = B
  have hBfar : B.far = b.move.stop := by subst hB; exact cf1.trans rf1
  have hBmove : B.move.stop = b.far := by subst hB; rfl
  have hBw : B.Wf := by subst hB; exact ⟨cw1.1, cw1.2, cw1.3⟩
  have hBx : B.Exact := by subst hB; exact cx1
  obtain ⟨rw2, rx2, rf2⟩ := rev_wf hBw hBx
  obtain ⟨cw2, cx2, cs2, cf2⟩ := copy_wf rw2 rx2
  have hBc : B.close = b.close.map (fun c => Path.copySeg { c with start := b.move.stop, stop := b.far }) := by
    subst hB; simp only [Block.copy, Block.rev, Option.map_map]; rfl
  have hBd : B.drawn = (b.drawn.map (fun s => Path.copySeg s.reverse)).reverse := by
    subst hB; simp [Block.copy, Block.rev, Function.comp_def]
  have hkind : B.move.kind = b.move.kind := by subst hB; rfl
  have hstop : B.rev.copy.move.stop = b.move.stop := by
    show B.far = _
    exact hBfar
  have hd2 : B.rev.copy.drawn = b.drawn.map (fun s => Path.copySeg (Path.copySeg s.reverse).reverse) := by
    simp only [Block.copy, Block.rev, hBd]
    simp [Function.comp_def]
  have hc2 : B.rev.copy.close = b.close.map (fun c => Path.copySeg { Path.copySeg { c with start := b.move.stop, stop := b.far } with
      start := b.far, stop := b.move.stop }) := by
    simp only [Block.copy, Block.rev, hBc, Option.map_map, hBfar, hBmove]
    rfl
  refine ⟨?_, hkind, hstop, ?_⟩
  · show B.rev.copy.stop = b.stop
    unfold Block.stop
    rw [cf2, rf2, hBmove, hc2, hstop]
    cases b.close <;> simp
  · simp only
    rw [hd2, hc2]
    refine List.rel_append ?_ ?_
    · exact List.forall₂_map_right_iff.mpr (List.forall₂_same.mpr (fun s _ => twice_seg s))
    · cases hbc : b.close with
      | none => exact .nil
      | some c =>
        rw [hbc] at hc
        obtain ⟨v', u', c1, c2, c3, c4, -⟩ := hc
        have c4 := c4 (isClose_iff.mpr (hw.close c hbc))
        rw [after_z_drawn b.drawn z z hw.drawn] at c4
        refine .cons (seg_eq_of ?_ ?_ ?_) .nil
        · simp [Path.copySeg]
        · show optEq c.start b.far = true
          rw [c1, ← c3, far_eq hz hd]
          exact optEq_self _
        · show b.move.stop = c.stop
          rw [hz, c2, c4]

theorem twice_flat : ∀ {bs bs2 : List (Block K)} {e : Option (Pt K)}, Linked Eq e bs → Linked Near e bs2 →
    List.Forall₂ (fun b b2 => ∃ b1, RevCopy b b1 ∧ RevCopy b1 b2) bs bs2 →
    (e = none → bs2.head?.map (fun b => b.move.start) = bs.head?.map (fun b => b.move.start)) →
    SegsEq (joinBlocks bs) (joinBlocks bs2) := by
  intro bs bs2 e h1 h2 h3 h4
  induction h3 generalizing e with
  | nil => exact .nil
  | @cons b b2 bs bs2 h t ih =>
    obtain ⟨b1, r1, r2⟩ := h
    obtain ⟨w, x, l, n⟩ := h1
    obtain ⟨w2, x2, l2, n2⟩ := h2
    obtain ⟨e1, e2, e3, e4⟩ := twice_block w x r1 r2
    rw [show joinBlocks (b :: bs) = b.move :: ((b.drawn ++ b.close.toList) ++ joinBlocks bs) by simp [joinBlocks, Block.segs],
      show joinBlocks (b2 :: bs2) = b2.move :: ((b2.drawn ++ b2.close.toList) ++ joinBlocks bs2) by simp [joinBlocks, Block.segs]]
    refine .cons (seg_eq_of e2 ?_ e3) (List.rel_append e4 ?_)
    · cases e with
      | none =>
        have := h4 rfl
        simp at this
        rw [this]; exact optEq_self _
      | some u =>
        obtain ⟨v, hv, rfl⟩ := l u rfl
        obtain ⟨v2, hv2, hn⟩ := l2 u rfl
        rw [hv, hv2]
        exact near_iff.mpr hn
    · rw [e1] at n2
      refine ih n n2 ?_
      intro hno
      exfalso
      obtain ⟨z, hz, hch⟩ := x
      rw [after_stop w hz hch] at hno
      cases hno

/-! ### the statement -/

/-- a segment class run backwards: the control points swap, the arc turns the other way -/
def backKind : Kind K → Kind K
  | .cubic c1 c2 => .cubic c2 c1
  | .arc a => .arc { a with sweep := -a.sweep }
  | k => k

/-- `s'` is `s` run backwards -/
def Backwards (s s' : Seg K) : Prop :=
  s'.kind = backKind s.kind ∧ s'.start = s.stop ∧ s'.stop = s.start ∧ s'.relative = s.relative

/-- `b'` is the subpath `b` run backwards: it starts where the drawn segments of `b` end, draws them backwards
in the opposite order, and is closed, to its own start, when `b` is -/
structure ReversedBlock (b b' : Block K) : Prop where
  wf : b'.Wf
  start : b'.move.stop = b.far
  drawn : List.Forall₂ Backwards b.drawn.reverse b'.drawn
  closed : b'.close.isSome = b.close.isSome
  close : ∀ c, b'.close = some c → c.start = b.move.stop ∧ c.stop = b.far

theorem reversed_of {b b' : Block K} (hw : b.Wf) (hx : b.Exact) (h : RevCopy b b') : ReversedBlock b b' := by
  obtain ⟨rw1, rx1, -⟩ := rev_wf hw hx
  obtain ⟨cw, -, -, -⟩ := copy_wf rw1 rx1
  obtain ⟨v, rfl⟩ := h
  refine ⟨⟨cw.1, cw.2, cw.3⟩, rfl, ?_, ?_, ?_⟩
  · simp only [Block.copy, Block.rev, ← List.map_reverse, List.map_map]
    refine List.forall₂_map_right_iff.mpr (List.forall₂_same.mpr ?_)
    intro s _
    refine ⟨?_, rfl, rfl, rfl⟩
    simp only [Function.comp, Path.copySeg, Seg.reverse, backKind]
    cases s.kind <;> rfl
  · simp [Block.copy, Block.rev]
  · intro c hc
    simp only [Block.copy, Block.rev, Option.map_map] at hc
    obtain ⟨d, -, rfl⟩ := Option.map_eq_some_iff.mp hc
    exact ⟨rfl, rfl⟩

/-- **C54**, partial: a connected path (exactly, as `C36` proves for parsed ones) made of subpaths that start
with a move and whose only close, if any, is their last segment, is reversed subpath by subpath, in the
opposite order; the result is connected and has the same number of segments, and reversing it again gives a
path equal to the first one. Missing: paths in which drawn segments follow a close without a move
(`C54_after_close_wrong` shows that the code fails there), and ends that agree only up to the tolerance. -/
theorem C54_reverse_partial {bs : List (Block K)} (hne : bs ≠ []) (hw : ∀ b ∈ bs, b.Wf) (hc : Connected Eq (joinBlocks bs))
    (he : HasEnds (joinBlocks bs)) :
    ∃ bs', Path.reverse (joinBlocks bs) = joinBlocks bs' ∧ List.Forall₂ ReversedBlock bs.reverse bs' ∧
      (Conn Near Eq (joinBlocks bs') ∧ HasEnds (joinBlocks bs')) ∧ (joinBlocks bs').length = (joinBlocks bs).length ∧
      Path.eq (Path.reverse (Path.reverse (joinBlocks bs))) (joinBlocks bs) = true := by
  have hl := linked_of_conn hw hc he
  have hln : Linked Near none bs := linked_mono (fun x y h => h ▸ near_refl x) hl
  obtain ⟨bs', h1, h2, h3, h4, h5⟩ := reverse_flat hne hln
  have hne' : bs' ≠ [] := by
    rintro rfl
    have := h2.length_eq
    simp at this
    exact hne this
  obtain ⟨bs2, g1, g2, g3, g4, g5⟩ := reverse_flat hne' h3
  have hok : ∀ b ∈ bs.reverse, b.Wf ∧ b.Exact := fun b hb => linked_wf hl b (by simpa using hb)
  have hcomp : ∀ {x y z : List (Block K)}, List.Forall₂ RevCopy x y → List.Forall₂ RevCopy y z →
      List.Forall₂ (fun b b2 => ∃ b1, RevCopy b b1 ∧ RevCopy b1 b2) x z := by
    intro x y z hxy
    induction hxy generalizing z with
    | nil => intro h; cases h; exact .nil
    | cons h t ih =>
      intro h'
      cases h' with
      | cons h'' t' => exact .cons ⟨_, h, h''⟩ (ih t')
  have h2r : List.Forall₂ RevCopy bs bs'.reverse := by
    rw [← List.forall₂_reverse_iff, List.reverse_reverse]; exact h2
  have hsegs := twice_flat hl g3 (hcomp h2r g2) (fun _ => g5.trans h5)
  refine ⟨bs', h1, ?_, ⟨⟨h4.1, h4.2.1⟩, h4.2.2⟩, ?_, ?_⟩
  · generalize bs.reverse = x at h2 hok
    clear * - h2 hok
    induction h2 with
    | nil => exact .nil
    | cons h t ih =>
      exact .cons (reversed_of (hok _ (by simp)).1 (hok _ (by simp)).2 h) (ih (fun b hb => hok b (by simp [hb])))
  · have hlen : ∀ {x y : List (Block K)}, List.Forall₂ RevCopy x y → (joinBlocks y).length = (joinBlocks x).length := by
      intro x y h
      induction h with
      | nil => rfl
      | @cons b _ _ _ h t ih =>
        obtain ⟨v, rfl⟩ := h
        rw [show ∀ (b : Block K) bs, joinBlocks (b :: bs) = b.segs ++ joinBlocks bs from fun _ _ => by simp [joinBlocks],
          show ∀ (b : Block K) bs, joinBlocks (b :: bs) = b.segs ++ joinBlocks bs from fun _ _ => by simp [joinBlocks],
          List.length_append, List.length_append, ih]
        congr 1
        have e1 := rev_length b
        have e2 := congrArg List.length (copy_segs b.rev)
        rw [List.length_map] at e2
        rw [← e1, ← e2]
        simp [Block.segs]
    have := hlen h2
    rw [this]
    simp [joinBlocks]
  · rw [h1, g1]
    exact path_eq_of hsegs

/-- `M0,0 L1,0 L1,1 Z M5,5 L6,5` -/
def exBlocks : List (Block ℚ) :=
  [⟨⟨.move, none, some ⟨0, 0⟩, false, true⟩,
    [⟨.line, some ⟨0, 0⟩, some ⟨1, 0⟩, false, true⟩, ⟨.line, some ⟨1, 0⟩, some ⟨1, 1⟩, false, true⟩],
    some ⟨.close, some ⟨1, 1⟩, some ⟨0, 0⟩, false, true⟩⟩,
   ⟨⟨.move, some ⟨0, 0⟩, some ⟨5, 5⟩, false, true⟩, [⟨.line, some ⟨5, 5⟩, some ⟨6, 5⟩, false, true⟩], none⟩]

example : (∀ b ∈ exBlocks, b.Wf) ∧ Connected Eq (joinBlocks exBlocks) ∧ HasEnds (joinBlocks exBlocks) := by
  refine ⟨?_, (connected_iff (fun _ => rfl)).mpr ⟨⟨0, 0⟩, rfl, ?_⟩⟩
  · intro b hb
    simp only [exBlocks, List.mem_cons, List.not_mem_nil, or_false] at hb
    rcases hb with rfl | rfl
    · exact ⟨rfl, by simp, by simp⟩
    · exact ⟨rfl, by simp, by simp⟩
  · exact ⟨_, _, rfl, rfl, rfl, by decide, _, _, rfl, rfl, rfl, by decide, _, _, rfl, rfl, rfl, fun _ => rfl,
      _, _, rfl, rfl, rfl, by decide, _, _, rfl, rfl, rfl, by decide, trivial⟩

/-- `M0,0 L1,0 Z L0,1 L2,2` -/
def exAfterClose : List (Seg ℚ) :=
  [⟨.move, none, some ⟨0, 0⟩, false, true⟩, ⟨.line, some ⟨0, 0⟩, some ⟨1, 0⟩, false, true⟩,
   ⟨.close, some ⟨1, 0⟩, some ⟨0, 0⟩, false, true⟩, ⟨.line, some ⟨0, 0⟩, some ⟨0, 1⟩, false, true⟩,
   ⟨.line, some ⟨0, 1⟩, some ⟨2, 2⟩, false, true⟩]

/-- Reversing `M0,0 L1,0 Z L0,1 L2,2`, which is connected, gives a path that is not: its close ends at 1,0
although the subpath starts at 2,2. -/
theorem C54_after_close_wrong : Sound exAfterClose ∧ HasEnds (Path.reverse exAfterClose) ∧
    ¬ Connected Near (Path.reverse exAfterClose) := by
  refine ⟨sound_of_chain ⟨0, 0⟩ rfl ?_, not_connected_of_broken (by decide +kernel)⟩
  exact ⟨_, _, rfl, rfl, near_refl _, by decide, _, _, rfl, rfl, near_refl _, fun _ => rfl,
      _, _, rfl, rfl, near_refl _, by decide, _, _, rfl, rfl, near_refl _, by decide, trivial⟩

end Svgio.Props
