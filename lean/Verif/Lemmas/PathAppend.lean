import Verif.Model.Path
import Verif.Spec.PathData
import Mathlib.Algebra.Order.Ring.Abs

/-! Appending a segment that starts at the current point. -/

namespace Svgio

variable {K : Type} [Field K] [LinearOrder K] [IsStrictOrderedRing K]

theorem err_pos : (0 : K) < err := by unfold err; positivity

theorem Pt.eq_self (p : Pt K) : p.eq p = true := by
  have := (err_pos (K := K)).le
  simp [Pt.eq, this]

namespace Path

/-- The state of a path from which drawing goes on: its current point, its last move's target and the
point that smooth commands reflect to. -/
structure At (p : List (Seg K)) (cur start smooth : Pt K) : Prop where
  cur : currentPoint p = some cur
  move : (p.reverse.find? Seg.isMove).bind Seg.stop = some start
  smooth : smoothPoint p = .ok (some smooth)

theorem At.z {p : List (Seg K)} {a b c} (h : At p a b c) : zPoint p = some b := by
  unfold zPoint
  rw [h.move]

theorem validateConnection_append (p : List (Seg K)) (s : Seg K) (h : s.start = currentPoint p) :
    validateConnection (p ++ [s]) ((p.length : ℤ) - 1) = p ++ [s] := by
  rcases List.eq_nil_or_concat p with rfl | ⟨q, a, rfl⟩
  · simp [validateConnection]
  · have hc : s.start = a.stop := by simpa [currentPoint] using h
    have e : (((q.concat a).length : ℤ) - 1) = (q.length : ℤ) := by simp
    rw [e]
    have e1 : (q.concat a ++ [s])[q.length]? = some a := by simp
    have e2 : (q.concat a ++ [s])[q.length + 1]? = some s := by simp
    have hl : link a s = (a, s) := by
      unfold link
      rw [hc]
      cases a.stop with
      | none => rfl
      | some e => simp [Pt.eq_self]
    unfold validateConnection
    rw [if_neg (by omega)]
    simp only [Int.toNat_natCast, e1, e2, hl]
    have f1 : (q.concat a ++ [s]).set q.length a = q.concat a ++ [s] := by
      apply List.ext_getElem? ; intro i
      rw [List.getElem?_set]
      split
      · rename_i hi; subst hi; simp
      · rfl
    rw [f1]
    apply List.ext_getElem? ; intro i
    rw [List.getElem?_set]
    split
    · rename_i hi; subst hi; simp
    · rfl

theorem append_eq (p : List (Seg K)) (s : Seg K) (h : s.start = currentPoint p) (hc : s.isClose = false) :
    append p s = p ++ [s] := by
  unfold append
  rw [validateConnection_append p s h]
  simp [hc]

theorem find_move_concat (p : List (Seg K)) (s : Seg K) :
    (p ++ [s]).reverse.find? Seg.isMove = if s.isMove then some s else p.reverse.find? Seg.isMove := by
  rw [List.reverse_append]
  simp only [List.reverse_cons, List.reverse_nil, List.nil_append, List.cons_append, List.find?_cons]
  cases s.isMove <;> rfl

theorem closeTarget_append {p : List (Seg K)} {s : Seg K} {b : Pt K}
    (hs : s.isMove = false) (h : (p.reverse.find? Seg.isMove).bind Seg.stop = some b) :
    closeTarget (p ++ [s]) p.length = some b := by
  unfold closeTarget
  rw [show p.length + 1 = (p ++ [s]).length by simp, List.take_length, find_move_concat, hs]
  cases hf : p.reverse.find? Seg.isMove with
  | none => rw [hf] at h; simp at h
  | some m => rw [hf] at h; simpa using h

theorem closed_eq {p : List (Seg K)} {a b c : Pt K} (h : At p a b c) (rel : Bool) :
    closed p rel = p ++ [⟨.close, some a, some b, rel, true⟩] := by
  unfold closed append
  rw [h.cur, h.z]
  rw [validateConnection_append _ _ (by rw [h.cur])]
  simp only [Seg.isClose, if_true]
  unfold validateClose
  rw [closeTarget_append (by rfl) h.move]
  simp

/-- the state after a drawn segment -/
theorem At.snoc {p : List (Seg K)} {a b c : Pt K} (h : At p a b c) {s : Seg K} {q r : Pt K}
    (hs : s.stop = some q) (hm : s.isMove = false) (hr : smoothPoint [s] = .ok (some r)) :
    At (p ++ [s]) q b r := by
  constructor
  · simp [currentPoint, hs]
  · rw [find_move_concat, hm]; exact h.move
  · rw [← hr]; unfold smoothPoint; simp

theorem At.snoc_move {p : List (Seg K)} {s : Seg K} {q : Pt K} (hs : s.stop = some q)
    (hm : s.kind = .move) : At (p ++ [s]) q q q := by
  constructor
  · simp [currentPoint, hs]
  · rw [find_move_concat]; simp [Seg.isMove, hm, hs]
  · unfold smoothPoint; simp [hm, hs]

end Path
end Svgio
