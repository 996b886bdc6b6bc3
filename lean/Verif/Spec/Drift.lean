import Verif.Model.Seg

/-! Two paths that differ only in the position of their points, and by how much. -/

namespace Svgio.Spec

/-- the points differ by at most `e` in each coordinate -/
def PtNear (e : ℚ) (p' p : Pt ℚ) : Prop := |p'.x - p.x| ≤ e ∧ |p'.y - p.y| ≤ e

/-- both are missing, or both are there and differ by at most `e` in each coordinate -/
def OptNear (e : ℚ) : Option (Pt ℚ) → Option (Pt ℚ) → Prop
  | none, none => True
  | some p', some p => PtNear e p' p
  | _, _ => False

/-- segments of the same class, the control points differ by at most `f`; the ellipses of arcs are not compared -/
def KindNear (f : ℚ) : Kind ℚ → Kind ℚ → Prop
  | .move, .move => True
  | .close, .close => True
  | .line, .line => True
  | .quad c', .quad c => OptNear f c' c
  | .cubic c' d', .cubic c d => OptNear f c' c ∧ OptNear f d' d
  | .arc _, .arc _ => True
  | _, _ => False

/-- segments of the same class with the same flags, the end points differ by at most `e`, the control points by at most `f` -/
structure SegNear (e f : ℚ) (s' s : Seg ℚ) : Prop where
  kind : KindNear f s'.kind s.kind
  start : OptNear e s'.start s.start
  stop : OptNear e s'.stop s.stop
  relative : s'.relative = s.relative
  smooth : s'.smooth = s.smooth

/-- paths with as many segments, the n-th segments (counted from 1) differ by at most `E n` and `G n` -/
def PathNear (E G : ℕ → ℚ) (p' p : List (Seg ℚ)) : Prop :=
  p'.length = p.length ∧ ∀ i s' s, p'[i]? = some s' → p[i]? = some s → SegNear (E (i + 1)) (G (i + 1)) s' s

/-- the coordinates of the point, if it is there, are at most `M` in size -/
def PtIn (M : ℚ) (p : Option (Pt ℚ)) : Prop := ∀ q, p = some q → |q.x| ≤ M ∧ |q.y| ≤ M

/-- end points and control points of the segment are at most `M` in size -/
def SegIn (M : ℚ) (s : Seg ℚ) : Prop :=
  PtIn M s.start ∧ PtIn M s.stop ∧
  match s.kind with
  | .quad c => PtIn M c
  | .cubic c d => PtIn M c ∧ PtIn M d
  | _ => True

/-- the segment is a curve written with T, t, S or s -/
def IsSmooth (s : Seg ℚ) : Prop :=
  match s.kind with
  | .quad _ | .cubic _ _ => s.smooth = true
  | _ => False

end Svgio.Spec
