import Verif.Props.PathSeq
import Verif.Model.Sequence

/-!
C170: positions in paths are those of Python lists.
-/

namespace Svgio.Props

open Svgio Spec

/-- the index `i` of Python means position `k` in a list of `n` -/
inductive Means (n : ℕ) : ℤ → ℕ → Prop
  | front {k : ℕ} (h : k < n) : Means n k k
  | back {k : ℕ} (h : k < n) : Means n ((k : ℤ) - n) k

theorem pyIdx_means (n : ℕ) (i : ℤ) (k : ℕ) : Path.pyIdx n i = some k ↔ Means n i k := by
  constructor
  · intro h
    unfold Path.pyIdx at h
    split_ifs at h with h1 h2 h2
    · obtain rfl := Option.some.inj h
      have e : ((i.toNat : ℕ) : ℤ) = i := Int.toNat_of_nonneg h1
      have := Means.front (n := n) (k := i.toNat) (by omega)
      rwa [e] at this
    · obtain rfl := Option.some.inj h
      have := Means.back (n := n) (k := (i + n).toNat) (by omega)
      rwa [show (((i + n).toNat : ℕ) : ℤ) - n = i by omega] at this
  · rintro (h | h)
    · unfold Path.pyIdx
      rw [if_pos (by omega), if_pos (by omega)]
      simp
    · unfold Path.pyIdx
      rw [if_neg (by omega), if_pos (by omega)]
      congr 1
      omega

theorem pyIdx_none (n : ℕ) (i : ℤ) : Path.pyIdx n i = none ↔ ∀ k, ¬ Means n i k := by
  constructor
  · intro h k hk
    rw [← pyIdx_means, h] at hk
    cases hk
  · intro h
    cases e : Path.pyIdx n i with
    | none => rfl
    | some k => exact absurd ((pyIdx_means n i k).1 e) (h k)

variable {K : Type} [Field K] [LinearOrder K]

/-- what a segment is apart from its ends: its class with controls or radii, and its flags -/
def shape (s : Seg K) : Kind K × Bool × Bool := (s.kind, s.relative, s.smooth)

theorem link_shape (a b : Seg K) (f : Bool) : shape (Path.link a b f).1 = shape a ∧ shape (Path.link a b f).2 = shape b := by
  unfold Path.link
  split
  · exact ⟨rfl, rfl⟩
  · exact ⟨rfl, rfl⟩
  · exact ⟨rfl, rfl⟩
  · split_ifs <;> exact ⟨rfl, rfl⟩

omit [Field K] [LinearOrder K] in
theorem set_shape {p : List (Seg K)} {i : ℕ} {a b : Seg K} (h : p[i]? = some a) (e : shape b = shape a) : (p.set i b).map shape = p.map shape := by
  rw [List.map_set, e]
  apply List.ext_getElem?
  intro j
  rw [List.getElem?_set]
  split_ifs with h1 h2
  · subst h1
    simp [h]
  · subst h1
    rw [List.getElem?_eq_none (by omega)]
  · rfl

theorem connection_shape (p : List (Seg K)) (i : ℤ) (f : Bool) : (Path.validateConnection p i f).map shape = p.map shape := by
  unfold Path.validateConnection
  split_ifs
  · rfl
  · split
    · rename_i a b ha hb
      have hl := link_shape a b f
      have hb' : (p.set i.toNat (Path.link a b f).1)[i.toNat + 1]? = some b := by
        rw [List.getElem?_set_ne (by omega), hb]
      dsimp only
      rw [set_shape hb' hl.2, set_shape ha hl.1]
    · rfl

omit [Field K] [LinearOrder K] in
theorem closeNext_shape (z : Option (Pt K)) (p : List (Seg K)) : (Path.closeNext z p).map shape = p.map shape := by
  induction p with
  | nil => rfl
  | cons s r ih =>
    unfold Path.closeNext
    split_ifs
    · rfl
    · rfl
    · rw [List.map_cons, List.map_cons, ih]

omit [Field K] [LinearOrder K] in
theorem take_drop_shape (z : Option (Pt K)) (p : List (Seg K)) (k : ℕ) :
    (p.take k ++ Path.closeNext z (p.drop k)).map shape = p.map shape := by
  rw [List.map_append, closeNext_shape, ← List.map_append, List.take_append_drop]

omit [Field K] [LinearOrder K] in
theorem move_shape (p : List (Seg K)) (i : ℤ) : (Path.validateMove p i).map shape = p.map shape := by
  unfold Path.validateMove
  split
  · rfl
  · split
    · rfl
    · split_ifs
      · exact take_drop_shape _ _ _
      · exact take_drop_shape _ _ _
      · exact closeNext_shape _ _

omit [Field K] [LinearOrder K] in
theorem close_shape (p : List (Seg K)) (i : ℤ) : (Path.validateCloseAt p i).map shape = p.map shape := by
  unfold Path.validateCloseAt
  split
  · rfl
  · split_ifs
    · unfold Path.validateClose
      split
      · rfl
      · rename_i h
        exact set_shape h rfl
    · split
      · rename_i h _
        exact set_shape h rfl
      · rfl

omit [Field K] [LinearOrder K] in
theorem subpath_shape (p : List (Seg K)) (i : ℤ) : (Path.validateSubpath p i).map shape = p.map shape := by
  unfold Path.validateSubpath
  split_ifs
  · rfl
  · exact take_drop_shape _ _ _

omit [Field K] [LinearOrder K] in
/-- **C170** for `path[i]`: the segment at the position that the index means, or IndexError. -/
theorem C170_getitem (p : List (Seg K)) (i : ℤ) :
    (∀ k, Means p.length i k → ∃ s, p[k]? = some s ∧ Path.getItem p i = .ok s) ∧
    ((∀ k, ¬ Means p.length i k) → Path.getItem p i = .error .indexError) := by
  refine ⟨fun k h => ?_, fun h => ?_⟩
  · have hk : k < p.length := by cases h <;> assumption
    refine ⟨p[k], List.getElem?_eq_getElem hk, ?_⟩
    unfold Path.getItem
    rw [(pyIdx_means _ _ _).2 h]
    simp [List.getElem?_eq_getElem hk]
  · unfold Path.getItem
    rw [(pyIdx_none _ _).2 h]

/-- **C170** for `path[i] = s`: the segment at the position that the index means is replaced, and no other segment is changed but for
its ends; otherwise IndexError. -/
theorem C170_setitem (p : List (Seg K)) (i : ℤ) (s : Seg K) :
    (∀ k, Means p.length i k → ∃ q, Path.setItem p i s = .ok q ∧ q.map shape = (p.set k s).map shape) ∧
    ((∀ k, ¬ Means p.length i k) → Path.setItem p i s = .error .indexError) := by
  refine ⟨fun k h => ?_, fun h => ?_⟩
  · unfold Path.setItem
    rw [(pyIdx_means _ _ _).2 h]
    refine ⟨_, rfl, ?_⟩
    split_ifs <;> simp only [close_shape, move_shape, connection_shape]
  · unfold Path.setItem
    rw [(pyIdx_none _ _).2 h]

/-- **C170** for `del path[i]`: the segment at the position that the index means is taken out, and no other segment is changed but for
its ends; otherwise IndexError. -/
theorem C170_delitem (p : List (Seg K)) (i : ℤ) :
    (∀ k, Means p.length i k → ∃ q, Path.delItem p i = .ok q ∧ q.map shape = (p.eraseIdx k).map shape) ∧
    ((∀ k, ¬ Means p.length i k) → Path.delItem p i = .error .indexError) := by
  refine ⟨fun k h => ?_, fun h => ?_⟩
  · have hk : k < p.length := by cases h <;> assumption
    unfold Path.delItem
    rw [(pyIdx_means _ _ _).2 h]
    simp only [List.getElem?_eq_getElem hk]
    refine ⟨_, rfl, ?_⟩
    split_ifs <;> simp only [subpath_shape, connection_shape]
  · unfold Path.delItem
    rw [(pyIdx_none _ _).2 h]

/-- **C170** for `path.insert(i, s)` with a position within the path: from the front `0` to the length, or from the back. The segment is
then before the one that was at the position, and no other segment is changed but for its ends. -/
theorem C170_insert (p : List (Seg K)) (i : ℤ) (s : Seg K) {k : ℕ} (h : Means p.length i k ∨ i = p.length ∧ k = p.length) :
    ∃ q, Path.insert p i s = .ok q ∧ q.map shape = (p.take k ++ s :: p.drop k).map shape := by
  have hk : k ≤ p.length ∧ Path.insertPos p.length i = k ∧ -(p.length : ℤ) ≤ i ∧ i ≤ p.length := by
    unfold Path.insertPos
    rcases h with (h | h) | ⟨rfl, rfl⟩
    · exact ⟨h.le, by rw [if_pos (by omega)]; omega, by omega, by omega⟩
    · exact ⟨h.le, by rw [if_neg (by omega)]; omega, by omega, by omega⟩
    · exact ⟨le_rfl, by rw [if_pos (by omega)]; omega, by omega, le_rfl⟩
  obtain ⟨h1, h2, h3, h4⟩ := hk
  have hi : p.insertIdx k s = p.take k ++ s :: p.drop k := by
    apply List.ext_getElem?
    intro j
    rw [List.getElem?_insertIdx, List.getElem?_append, List.length_take, min_eq_left h1]
    split_ifs with a b c
    · rw [List.getElem?_take_of_lt a]
    · subst b; simp
    · subst b; omega
    · obtain ⟨m, rfl⟩ : ∃ m, j = k + 1 + m := ⟨j - (k + 1), by omega⟩
      rw [show k + 1 + m - k = m + 1 by omega, List.getElem?_cons_succ, List.getElem?_drop]
      congr 1
      omega
  have hlen : ∀ {a b : List (Seg K)}, a.map shape = b.map shape → a.length = b.length := fun e => by simpa using congrArg List.length e
  unfold Path.insert
  dsimp only
  rw [h2, hi]
  have hl : (p.take k ++ s :: p.drop k).length = p.length + 1 := by simp; omega
  generalize hq : p.take k ++ s :: p.drop k = q at hl ⊢
  have e1 : (Path.validateConnection (Path.validateConnection q (i - 1)) i).map shape = q.map shape := by simp only [connection_shape]
  generalize Path.validateConnection (Path.validateConnection q (i - 1)) i = q1 at e1 ⊢
  have e2 : (if s.isMove then Path.validateMove q1 i else q1).map shape = q.map shape := by
    split_ifs
    · rw [move_shape, e1]
    · exact e1
  generalize (if s.isMove then Path.validateMove q1 i else q1) = q2 at e2 ⊢
  have n1 := hlen e1
  have n2 := hlen e2
  rw [if_neg (by omega)]
  split_ifs
  · cases hx : Path.pyIdx q2.length i with
    | none =>
      exfalso
      unfold Path.pyIdx at hx
      split_ifs at hx <;> omega
    | some j => exact ⟨_, rfl, by rw [close_shape, e2]⟩
  · exact ⟨_, rfl, e2⟩

/-- **C170** for `segment + segment`, and for the copies in `path += path`: the segments in this order, with their class and flags. -/
theorem C170_sums (s o : Seg K) (p q : List (Seg K)) (hq : ∀ s ∈ q, (∀ c, s.kind ≠ .quad c) → (∀ c d, s.kind ≠ .cubic c d) → s.smooth = true) :
    Path.segAdd s o = [s] ++ [o] ∧ (Path.iadd p q).map shape = (p ++ q).map shape := by
  refine ⟨rfl, ?_⟩
  have hc : q.map Path.copySeg = q := by
    conv_rhs => rw [← List.map_id q]
    refine List.map_congr_left fun s hs => ?_
    have := hq s hs
    obtain ⟨k, a, b, r, sm⟩ := s
    cases k <;> simp_all [Path.copySeg]
  unfold Path.iadd Path.extend
  rw [hc, subpath_shape, connection_shape]

/-- the last but one segment of four, and a segment put before it -/
example : Means 4 (-2) 2 ∧ (∀ k, ¬ Means 4 4 k) ∧ (∀ k, ¬ Means 4 (-5) k) ∧
    (match Path.insert ([⟨.move, none, some ⟨0, 0⟩, false, true⟩, ⟨.line, some ⟨0, 0⟩, some ⟨1, 1⟩, false, true⟩] : List (Seg ℚ)) (-1)
      ⟨.quad (some ⟨5, 5⟩), none, some ⟨6, 6⟩, false, false⟩ with
      | .ok q => q.map shape | .error _ => []) = [(.move, false, true), (.quad (some ⟨5, 5⟩), false, false), (.line, false, true)] := by
  refine ⟨(pyIdx_means 4 (-2) 2).1 (by decide), ?_, ?_, by decide +kernel⟩
  · exact (pyIdx_none _ _).1 (by decide)
  · exact (pyIdx_none _ _).1 (by decide)

end Svgio.Props
