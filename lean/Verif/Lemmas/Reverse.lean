import Verif.Props.Subpaths

/-! Reversing one subpath of a path. -/

namespace Svgio
open Spec Props

variable {K : Type} [Field K] [LinearOrder K]

omit [LinearOrder K] in
theorem swapRev_one (l r : List (Seg K)) (x : Seg K) :
    Path.swapRev (l ++ x :: r) l.length l.length = l ++ x.reverse :: r := by
  unfold Path.swapRev
  rw [show (l ++ x :: r)[l.length]? = some x by simp]
  simp

omit [LinearOrder K] in
theorem swapRev_two (l m r : List (Seg K)) (x y : Seg K) :
    Path.swapRev (l ++ x :: (m ++ y :: r)) l.length (l.length + 1 + m.length) =
      l ++ y.reverse :: (m ++ x.reverse :: r) := by
  unfold Path.swapRev
  rw [show (l ++ x :: (m ++ y :: r))[l.length]? = some x by simp,
    show (l ++ x :: (m ++ y :: r))[l.length + 1 + m.length]? = some y by
      rw [show l ++ x :: (m ++ y :: r) = (l ++ x :: m) ++ y :: r by simp,
        List.getElem?_append_right (by simp; omega)]
      simp [Nat.add_assoc, Nat.add_comm 1]]
  simp only
  rw [if_neg (by omega), show (l ++ x :: (m ++ y :: r)).set l.length y.reverse = (l ++ y.reverse :: m) ++ y :: r by simp,
    List.set_append_right _ _ (by simp; omega)]
  simp [Nat.add_assoc, Nat.add_comm 1]

omit [LinearOrder K] in
theorem revLoop_stop (n : ℕ) (p : List (Seg K)) {s e : ℤ} (h : e < s) : Path.revLoop n p s e = p := by
  cases n with
  | zero => rfl
  | succ n => unfold Path.revLoop; rw [if_neg (by omega)]

omit [LinearOrder K] in
theorem revLoop_eq : ∀ (n : ℕ) (l m r : List (Seg K)), m.length ≤ n →
    Path.revLoop n (l ++ (m ++ r)) l.length ((l.length : ℤ) + m.length - 1) = l ++ ((m.map Seg.reverse).reverse ++ r) := by
  intro n
  induction n using Nat.strong_induction_on with
  | _ n ih =>
    intro l m r hm
    cases m with
    | nil => rw [revLoop_stop _ _ (by simp)]; simp
    | cons x m =>
      obtain ⟨k, rfl⟩ : ∃ k, n = k + 1 := ⟨n - 1, by simp at hm; omega⟩
      unfold Path.revLoop
      rw [if_pos (by push_cast [List.length_cons]; omega)]
      rcases List.eq_nil_or_concat m with rfl | ⟨m, y, rfl⟩
      · have : ((l.length : ℤ) + ([x] : List (Seg K)).length - 1).toNat = l.length := by simp
        rw [this, Int.toNat_natCast, revLoop_stop _ _ (by simp; omega)]
        have := swapRev_one l r x
        simpa using this
      · rw [List.concat_eq_append] at hm ⊢
        have h1 : ((l.length : ℤ) + (x :: (m ++ [y])).length - 1).toNat = l.length + 1 + m.length := by
          simp; omega
        rw [h1, Int.toNat_natCast]
        have h2 : l ++ (x :: (m ++ [y]) ++ r) = l ++ x :: (m ++ y :: r) := by simp
        rw [h2, swapRev_two]
        have h3 := ih k (by omega) (l ++ [y.reverse]) m (x.reverse :: r) (by simp at hm; omega)
        have e1 : ((l ++ [y.reverse]).length : ℤ) = (l.length : ℤ) + 1 := by simp
        have e2 : ((l.length : ℤ) + (x :: (m ++ [y])).length - 1 - 1) = ((l ++ [y.reverse]).length : ℤ) + m.length - 1 := by
          simp; omega
        rw [e2, ← e1]
        have e3 : l ++ y.reverse :: (m ++ x.reverse :: r) = l ++ [y.reverse] ++ (m ++ x.reverse :: r) := by simp
        rw [e3, h3]
        simp

theorem vc_pref {l r : List (Seg K)} {x y : Seg K} {e v : Pt K} (hx : x.stop = some e) (hy : y.start = some v) {i : ℤ}
    (hi : i = l.length) : ∃ u, Path.validateConnection (l ++ x :: y :: r) i true = l ++ { x with stop := some u } :: y :: r ∧
      (e.eq v = true → u = e) := by
  subst hi
  unfold Path.validateConnection
  rw [if_neg (by omega)]
  simp only [Int.toNat_natCast]
  rw [show (l ++ x :: y :: r)[l.length]? = some x by simp,
    show (l ++ x :: y :: r)[l.length + 1]? = some y by
      rw [List.getElem?_append_right (by omega)]; simp]
  simp only
  unfold Path.link
  rw [hx, hy]
  simp only
  by_cases h : e.eq v = true
  · refine ⟨e, ?_, fun _ => rfl⟩
    rw [if_pos h, List.set_append_right _ _ (by omega), List.set_append_right _ _ (by simp)]
    simp [← hx]
  · refine ⟨v, ?_, fun h' => absurd h' h⟩
    rw [if_neg h, if_pos trivial, List.set_append_right _ _ (by omega), List.set_append_right _ _ (by simp)]
    simp

theorem vc_end {l : List (Seg K)} {i : ℤ} {b : Bool} (hi : (l.length : ℤ) - 1 ≤ i) : Path.validateConnection l i b = l := by
  unfold Path.validateConnection
  split_ifs with h
  · rfl
  · rw [show l[i.toNat + 1]? = none by rw [List.getElem?_eq_none_iff]; omega]
    cases l[i.toNat]? <;> rfl

omit [Field K] [LinearOrder K] in
theorem get_at (l r : List (Seg K)) (x : Seg K) {n : ℕ} (h : n = l.length) : (l ++ x :: r)[n]? = some x := by
  subst h; simp

omit [LinearOrder K] in
theorem rev_head {ds : List (Seg K)} {dl : Seg K} (hl : ds.getLast? = some dl) :
    ∃ rt, (ds.map Seg.reverse).reverse = dl.reverse :: rt := by
  obtain ⟨t, ht⟩ := List.getLast?_eq_some_iff.mp hl
  exact ⟨(t.map Seg.reverse).reverse, by rw [ht]; simp⟩

omit [LinearOrder K] in
theorem rev_last {ds : List (Seg K)} {d0 : Seg K} (h0 : ds.head? = some d0) :
    ∃ rl, (ds.map Seg.reverse).reverse = rl ++ [d0.reverse] ∧ ds.length = rl.length + 1 := by
  cases ds with
  | nil => simp at h0
  | cons a t => simp at h0; subst h0; exact ⟨(t.map Seg.reverse).reverse, by simp, by simp⟩

/-- `_reverse_segments` on the drawn segments after a move -/
theorem reverseSegments_eq {l ds r : List (Seg K)} {m d0 dl : Seg K} {z e : Pt K} {w : ℕ × ℕ} (hw : w.1 = l.length)
    (hz : m.stop = some z) (h0 : ds.head? = some d0) (hl : ds.getLast? = some dl) (h0z : d0.start = some z)
    (hle : dl.stop = some e) : ∃ u,
    Path.reverseSegments (l ++ m :: (ds ++ r)) w 1 (ds.length : ℤ) =
      l ++ { m with stop := some u } :: ((ds.map Seg.reverse).reverse ++ relink z r) := by
  obtain ⟨rt, hrt⟩ := rev_head hl
  obtain ⟨rl, hrl, hlen⟩ := rev_last h0
  have n1 : Path.numericIndex w 1 = ((l ++ [m]).length : ℤ) := by
    unfold Path.numericIndex; rw [if_neg (by omega), hw]; simp
  have n2 : Path.numericIndex w (ds.length : ℤ) = ((l ++ [m]).length : ℤ) + ds.length - 1 := by
    unfold Path.numericIndex; rw [if_neg (by omega), hw]; simp; omega
  unfold Path.reverseSegments
  simp only
  rw [n1, n2, show l ++ m :: (ds ++ r) = (l ++ [m]) ++ (ds ++ r) by simp,
    revLoop_eq _ _ _ _ (by simp; omega)]
  have e1 : l ++ [m] ++ ((ds.map Seg.reverse).reverse ++ r) = l ++ m :: dl.reverse :: (rt ++ r) := by
    rw [hrt]; simp
  have hst : dl.reverse.start = some e := hle
  obtain ⟨u, hu, -⟩ := vc_pref (l := l) (r := rt ++ r) (x := m) (y := dl.reverse) hz hst
    (i := ((l ++ [m]).length : ℤ) - 1) (by simp)
  rw [e1, hu]
  refine ⟨u, ?_⟩
  have hsp : d0.reverse.stop = some z := h0z
  have e2 : l ++ { m with stop := some u } :: dl.reverse :: (rt ++ r) =
      (l ++ { m with stop := some u } :: rl) ++ d0.reverse :: r := by
    have : dl.reverse :: (rt ++ r) = rl ++ d0.reverse :: r := by
      rw [← List.cons_append, ← hrt, hrl]; simp
    rw [this]; simp
  rw [e2, vc_at (l := l ++ { m with stop := some u } :: rl) (x := d0.reverse) hsp (by simp; omega), hrl]
  simp

/-- `subReverse` for a subpath of a move and drawn segments. -/
theorem subReverse_open {l ds r : List (Seg K)} {m d0 dl : Seg K} {z e : Pt K} (hm : m.kind = .move)
    (hz : m.stop = some z) (h0 : ds.head? = some d0) (hl : ds.getLast? = some dl) (h0z : d0.start = some z)
    (hle : dl.stop = some e) (hdl : dl.kind ≠ .close) (hd0 : d0.kind ≠ .close) :
    Path.subReverse (l ++ m :: (ds ++ r)) (l.length, l.length + (ds.length + 1)) =
      l ++ { m with stop := some e } :: ((ds.map Seg.reverse).reverse ++ relink z r) := by
  obtain ⟨rt, hrt⟩ := rev_head hl
  obtain ⟨rl, hrl, hlen⟩ := rev_last h0
  unfold Path.subReverse
  simp only
  have hsize : Path.subLen (l.length, l.length + (ds.length + 1)) = ds.length + 1 := by
    unfold Path.subLen; simp
  rw [hsize, if_neg (by omega)]
  have g1 : (l ++ m :: (ds ++ r))[l.length]? = some m := get_at l _ m rfl
  have g2 : (l ++ m :: (ds ++ r))[l.length + (ds.length + 1) - 1]? = some dl := by
    obtain ⟨t, ht⟩ := List.getLast?_eq_some_iff.mp hl
    rw [show l ++ m :: (ds ++ r) = (l ++ m :: t) ++ dl :: r by rw [ht]; simp]
    exact get_at _ _ _ (by rw [ht]; simp)
  rw [g1, g2]
  simp only
  have hdc : dl.isClose = false := by
    rw [Bool.eq_false_iff]; intro h; exact hdl (isClose_iff.mp h)
  have hmm : m.isMove = true := isMove_iff.mpr hm
  rw [hdc, hmm]
  simp only [if_true, Bool.false_eq_true, if_false]
  have hn : ((ds.length + 1 : ℕ) : ℤ) - 1 = (ds.length : ℤ) := by push_cast; omega
  obtain ⟨u, hu⟩ := reverseSegments_eq (l := l) (r := r) (w := (l.length, l.length + (ds.length + 1))) rfl hz h0 hl h0z hle
  rw [hn, hu, if_pos (by omega), get_at l _ _ rfl]
  have g3 : (l ++ { m with stop := some u } :: ((ds.map Seg.reverse).reverse ++ relink z r))[l.length + 1]? = some dl.reverse := by
    rw [hrt, show l ++ { m with stop := some u } :: (dl.reverse :: rt ++ relink z r) =
      (l ++ [{ m with stop := some u }]) ++ dl.reverse :: (rt ++ relink z r) by simp]
    exact get_at _ _ _ (by simp)
  rw [g3]
  simp only
  have hmu : Seg.isMove { m with stop := some u } = true := hmm
  rw [if_pos hmu]
  have hst : dl.reverse.start = some e := hle
  rw [hst]
  have g4 : (l ++ { m with stop := some u } :: ((ds.map Seg.reverse).reverse ++ relink z r)).set l.length
      { m with stop := some e } = l ++ { m with stop := some e } :: ((ds.map Seg.reverse).reverse ++ relink z r) := by
    simp
  rw [g4]
  have g5 : (l ++ { m with stop := some e } :: ((ds.map Seg.reverse).reverse ++ relink z r))[l.length + (ds.length + 1) - 1]? =
      some d0.reverse := by
    rw [hrl, show l ++ { m with stop := some e } :: (rl ++ [d0.reverse] ++ relink z r) =
      (l ++ { m with stop := some e } :: rl) ++ d0.reverse :: relink z r by simp]
    exact get_at _ _ _ (by simp; omega)
  unfold Path.revClose
  rw [g5]
  have hc0 : d0.reverse.isClose = false := by
    rw [Bool.eq_false_iff]; intro h
    have := isClose_iff.mp h
    unfold Seg.reverse at this
    simp only at this
    cases hk : d0.kind <;> rw [hk] at this <;> first | exact hd0 hk | cases this
  simp only
  rw [hc0]
  rfl

/-- `revClose` for a window of two segments or more -/
theorem revClose_apart {p : List (Seg K)} {a b : ℕ} {x y f : Seg K} (hab : a + 2 ≤ b) (hb : b ≤ p.length) (hx : p[b - 1]? = some x)
    (hy : Path.subGet p (a, b) (-2) = .ok y) (hf : p[a]? = some f) :
    Path.revClose p (a, b) =
      if x.isClose then
        p.set (b - 1)
          (if optEq (if optEq x.reverse.start y.stop then x.reverse else { x.reverse with start := y.stop }).stop f.stop then
            (if optEq x.reverse.start y.stop then x.reverse else { x.reverse with start := y.stop })
          else { (if optEq x.reverse.start y.stop then x.reverse else { x.reverse with start := y.stop }) with stop := f.stop })
      else p := by
  unfold Path.revClose
  simp only [hx]
  by_cases hc : x.isClose
  · rw [if_pos hc, if_pos hc]
    have hg : ∀ s, Path.subGet (p.set (b - 1) s) (a, b) (-2) = .ok y := by
      intro s
      unfold Path.subGet at hy ⊢
      have hi : Path.numericIndex (a, b) (-2) = ((b - 2 : ℕ) : ℤ) := by unfold Path.numericIndex; simp; omega
      have hp : Path.pyIdx p.length (Path.numericIndex (a, b) (-2)) = some (b - 2) := by
        rw [hi]; unfold Path.pyIdx; rw [if_pos (by omega), if_pos (by omega)]; simp
      rw [hp] at hy
      rw [List.length_set, hp]
      simp only [Option.bind_some] at hy ⊢
      rw [List.getElem?_set_ne (by omega)]
      exact hy
    have hg' : (Path.subGet (p.set (b - 1) x.reverse) (a, b) (-2)).toOption = some y := by rw [hg]; rfl
    have hf' : ∀ s, (p.set (b - 1) s)[a]? = some f := fun s => by rw [List.getElem?_set_ne (by omega), hf]
    simp only [hg', List.set_set, hf']
  · rw [if_neg hc, if_neg hc]

variable [IsStrictOrderedRing K]

/-- `subReverse` for a subpath of a move, drawn segments and a close. -/
theorem subReverse_closed {l ds r : List (Seg K)} {m d0 dl c : Seg K} {z e : Pt K} (hm : m.kind = .move)
    (hz : m.stop = some z) (h0 : ds.head? = some d0) (hl : ds.getLast? = some dl) (h0z : d0.start = some z)
    (hle : dl.stop = some e) (hc : c.kind = .close) (hcs : c.start = some e) (hce : c.stop = some z) :
    Path.subReverse (l ++ m :: (ds ++ c :: r)) (l.length, l.length + (ds.length + 2)) =
      l ++ { m with stop := some e } :: ((ds.map Seg.reverse).reverse ++ { c with start := some z, stop := some e } :: r) := by
  obtain ⟨rt, hrt⟩ := rev_head hl
  obtain ⟨rl, hrl, hlen⟩ := rev_last h0
  unfold Path.subReverse
  simp only
  have hsize : Path.subLen (l.length, l.length + (ds.length + 2)) = ds.length + 2 := by
    unfold Path.subLen; simp
  rw [hsize, if_neg (by omega)]
  have g1 : (l ++ m :: (ds ++ c :: r))[l.length]? = some m := get_at l _ m rfl
  have g2 : (l ++ m :: (ds ++ c :: r))[l.length + (ds.length + 2) - 1]? = some c := by
    rw [show l ++ m :: (ds ++ c :: r) = (l ++ m :: ds) ++ c :: r by simp]
    exact get_at _ _ _ (by simp)
  rw [g1, g2]
  simp only
  have hcc : c.isClose = true := isClose_iff.mpr hc
  have hmm : m.isMove = true := isMove_iff.mpr hm
  rw [hcc, hmm]
  simp only [if_true]
  have hn : ((ds.length + 2 : ℕ) : ℤ) - 2 = (ds.length : ℤ) := by push_cast; omega
  obtain ⟨u, hu⟩ := reverseSegments_eq (l := l) (r := c :: r) (w := (l.length, l.length + (ds.length + 2))) rfl hz h0 hl h0z hle
  obtain ⟨v, hrel, hve⟩ : ∃ v, relink z (c :: r) = { c with start := some v } :: r ∧ (v = e ∨ v.eq e = false) := by
    by_cases h : z.eq e = true
    · refine ⟨e, ?_, Or.inl rfl⟩
      simp [relink, Path.link, hcs, h]
      rw [← hcs]
    · refine ⟨z, ?_, Or.inr (by simpa using h)⟩
      simp [relink, Path.link, hcs, h]
  rw [hn, hu, hrel, if_pos (by omega), get_at l _ _ rfl]
  have g3 : (l ++ { m with stop := some u } :: ((ds.map Seg.reverse).reverse ++ { c with start := some v } :: r))[l.length + 1]? =
      some dl.reverse := by
    rw [hrt, show l ++ { m with stop := some u } :: (dl.reverse :: rt ++ { c with start := some v } :: r) =
      (l ++ [{ m with stop := some u }]) ++ dl.reverse :: (rt ++ { c with start := some v } :: r) by simp]
    exact get_at _ _ _ (by simp)
  rw [g3]
  simp only
  have hmu : Seg.isMove { m with stop := some u } = true := hmm
  rw [if_pos hmu]
  have hst : dl.reverse.start = some e := hle
  rw [hst]
  have g4 : (l ++ { m with stop := some u } :: ((ds.map Seg.reverse).reverse ++ { c with start := some v } :: r)).set l.length
      { m with stop := some e } =
      l ++ { m with stop := some e } :: ((ds.map Seg.reverse).reverse ++ { c with start := some v } :: r) := by
    simp
  rw [g4]
  have hA : l ++ { m with stop := some e } :: ((ds.map Seg.reverse).reverse ++ { c with start := some v } :: r) =
      (l ++ { m with stop := some e } :: (rl ++ [d0.reverse])) ++ { c with start := some v } :: r := by
    rw [hrl]; simp
  have g5 : (l ++ { m with stop := some e } :: ((ds.map Seg.reverse).reverse ++ { c with start := some v } :: r))[l.length + (ds.length + 2) - 1]? =
      some { c with start := some v } := by
    rw [hA]
    exact get_at _ _ _ (by simp; omega)
  have g6 : Path.subGet (l ++ { m with stop := some e } :: ((ds.map Seg.reverse).reverse ++ { c with start := some v } :: r))
      (l.length, l.length + (ds.length + 2)) (-2) = .ok d0.reverse := by
    refine (C53_indices_partial (a := l.length) (b := l.length + (ds.length + 2)) (by omega) ?_).2.2.1 2 _ (by omega) (by omega) ?_
    · simp
    · rw [hA, show (l ++ { m with stop := some e } :: (rl ++ [d0.reverse])) ++ { c with start := some v } :: r =
        (l ++ { m with stop := some e } :: rl) ++ d0.reverse :: { c with start := some v } :: r by simp]
      exact get_at _ _ _ (by simp; omega)
  rw [revClose_apart (p := l ++ { m with stop := some e } :: ((ds.map Seg.reverse).reverse ++ { c with start := some v } :: r))
    (by simp) (by simp) g5 g6 (get_at l _ _ rfl)]
  have hcv : Seg.isClose { c with start := some v } = true := hcc
  rw [if_pos hcv]
  have hr0 : d0.reverse.stop = some z := h0z
  have hrc : Seg.reverse { c with start := some v } = { c with start := some z, stop := some v } := by
    unfold Seg.reverse; simp only [hc, hce]
  rw [hrc, hr0]
  simp only
  rw [if_pos (show optEq (some z) (some z) = true from Pt.eq_self z)]
  have : (if optEq (some v) (some e) = true then ({ c with start := some z, stop := some v } : Seg K)
      else { c with start := some z, stop := some e }) = { c with start := some z, stop := some e } := by
    rcases hve with rfl | h
    · rw [if_pos (show optEq (some v) (some v) = true from Pt.eq_self v)]
    · rw [if_neg (show ¬ optEq (some v) (some e) = true by simp only [optEq, h]; simp)]
  rw [this, hA, List.set_append_right _ _ (by simp; omega)]
  rw [show l.length + (ds.length + 2) - 1 - (l ++ { m with stop := some e } :: (rl ++ [d0.reverse])).length = 0 by
    simp; omega]
  rw [hrl]
  simp

/-- `subReverse` for a move and a close. -/
theorem subReverse_move_close {l r : List (Seg K)} {m c : Seg K} {z : Pt K} (hm : m.kind = .move)
    (hz : m.stop = some z) (hc : c.kind = .close) (hcs : c.start = some z) (hce : c.stop = some z) :
    Path.subReverse (l ++ m :: c :: r) (l.length, l.length + 2) = l ++ m :: c :: r := by
  unfold Path.subReverse
  simp only
  have hsize : Path.subLen (l.length, l.length + 2) = 2 := by unfold Path.subLen; simp
  rw [hsize, if_neg (by omega)]
  have hA : l ++ m :: c :: r = (l ++ [m]) ++ c :: r := by simp
  have g1 : (l ++ m :: c :: r)[l.length]? = some m := get_at l _ m rfl
  have g2 : (l ++ m :: c :: r)[l.length + 1]? = some c := by
    rw [hA]; exact get_at _ _ _ (by simp)
  have g2' : (l ++ m :: c :: r)[l.length + 2 - 1]? = some c := g2
  have hcc : c.isClose = true := isClose_iff.mpr hc
  have hmm : m.isMove = true := isMove_iff.mpr hm
  rw [g1, g2']
  simp only
  rw [hcc, hmm]
  simp only [if_true]
  have hrs : Path.reverseSegments (l ++ m :: c :: r) (l.length, l.length + 2) 1 (((2 : ℕ) : ℤ) - 2) = l ++ m :: c :: r := by
    unfold Path.reverseSegments
    have n1 : Path.numericIndex (l.length, l.length + 2) 1 = (l.length : ℤ) + 1 := rfl
    have n2 : Path.numericIndex (l.length, l.length + 2) (((2 : ℕ) : ℤ) - 2) = (l.length : ℤ) := by
      unfold Path.numericIndex; simp
    simp only [n1, n2]
    rw [revLoop_stop _ _ (by omega)]
    obtain ⟨u, hu, hu'⟩ := vc_pref (l := l) (r := r) (x := m) (y := c) hz hcs (i := (l.length : ℤ) + 1 - 1) (by omega)
    rw [hu' (Pt.eq_self z)] at hu
    rw [hu, vc_at (l := l) (x := { m with stop := some z }) rfl rfl,
      relink_near hcs (near_refl z), ← hz]
  rw [hrs, if_pos (by omega), g1, g2]
  simp only
  rw [if_pos hmm, hcs, ← hz]
  have g4 : (l ++ m :: c :: r).set l.length m = l ++ m :: c :: r := by simp
  rw [g4]
  have g6 : Path.subGet (l ++ m :: c :: r) (l.length, l.length + 2) (-2) = .ok m := by
    refine (C53_indices_partial (a := l.length) (b := l.length + 2) (by omega) ?_).2.2.1 2 _ (by omega) (by omega) ?_
    · simp
    · simpa using g1
  rw [revClose_apart (by simp) (by simp) g2' g6 g1]
  simp only
  rw [if_pos hcc]
  have hrc : Seg.reverse c = c := by
    unfold Seg.reverse
    rw [hc, hce, ← hcs, ← hc]
    cases c
    simp_all
  rw [hrc, hcs, hz, if_pos (show optEq (some z) (some z) = true from Pt.eq_self z), hce,
    if_pos (show optEq (some z) (some z) = true from Pt.eq_self z)]
  rw [hA, List.set_append_right _ _ (by simp)]
  simp

/-- `subReverse` for a move alone, before a segment that starts at its end. -/
theorem subReverse_move {l r : List (Seg K)} {m : Seg K} {z : Pt K} (hm : m.kind = .move) (hz : m.stop = some z)
    (hr : ∀ f, r.head? = some f → ∃ v, f.start = some v ∧ Near z v) :
    Path.subReverse (l ++ m :: r) (l.length, l.length + 1) = l ++ m :: r := by
  unfold Path.subReverse
  simp only
  have hsize : Path.subLen (l.length, l.length + 1) = 1 := by unfold Path.subLen; simp
  rw [hsize, if_neg (by omega)]
  have g1 : (l ++ m :: r)[l.length]? = some m := get_at l _ m rfl
  have g2 : (l ++ m :: r)[l.length + 1 - 1]? = some m := g1
  have hmm : m.isMove = true := isMove_iff.mpr hm
  have hcc : m.isClose = false := by
    rw [Bool.eq_false_iff]; intro h
    have := isClose_iff.mp h
    rw [hm] at this; cases this
  rw [g1, g2]
  simp only
  rw [hcc, hmm]
  simp only [if_true, Bool.false_eq_true, if_false]
  have hrs : Path.reverseSegments (l ++ m :: r) (l.length, l.length + 1) 1 (((1 : ℕ) : ℤ) - 1) = l ++ m :: r := by
    unfold Path.reverseSegments
    have n1 : Path.numericIndex (l.length, l.length + 1) 1 = (l.length : ℤ) + 1 := rfl
    have n2 : Path.numericIndex (l.length, l.length + 1) (((1 : ℕ) : ℤ) - 1) = (l.length : ℤ) := by
      unfold Path.numericIndex; simp
    simp only [n1, n2]
    rw [revLoop_stop _ _ (by omega)]
    cases r with
    | nil => rw [vc_end (l := l ++ [m]) (b := true) (by simp), vc_end (by simp)]
    | cons f r =>
      obtain ⟨v, hv, hn⟩ := hr f rfl
      obtain ⟨u, hu, hu'⟩ := vc_pref (l := l) (r := r) (x := m) (y := f) hz hv (i := (l.length : ℤ) + 1 - 1) (by omega)
      have := hu' (near_iff.mpr hn)
      rw [this] at hu
      rw [hu, vc_at (l := l) (x := { m with stop := some z }) rfl rfl, relink_near hv hn, ← hz]
  rw [hrs, if_neg (by omega)]
  unfold Path.revClose
  simp only
  rw [g2]
  simp only
  rw [hcc]
  rfl

end Svgio
