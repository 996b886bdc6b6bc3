import Verif.Spec.Connected

/-!
When segments are the same for a user.
-/

namespace Svgio.Spec

variable {K : Type} [Field K] [LinearOrder K]

/-- both points are missing, or both are there and near each other -/
def NearOpt : Option (Pt K) → Option (Pt K) → Prop
  | none, none => True
  | some p, some q => Near p q
  | _, _ => False

/-- the same class of segments, and what only this class has: near control points, near centres and ends of the axes, the same sweep -/
def SegKindAlike : Kind K → Kind K → Prop
  | .move, .move => True
  | .close, .close => True
  | .line, .line => True
  | .quad c, .quad c' => NearOpt c c'
  | .cubic c d, .cubic c' d' => NearOpt c c' ∧ NearOpt d d'
  | .arc a, .arc a' => Near a.center a'.center ∧ Near a.prx a'.prx ∧ Near a.pry a'.pry ∧ a.sweep = a'.sweep
  | _, _ => False

/-- segments of the same class with near points -/
def SegAlike (s o : Seg K) : Prop := SegKindAlike s.kind o.kind ∧ NearOpt s.start o.start ∧ NearOpt s.stop o.stop

/-- `i` is the first place of the list from `lo` on and before `hi` at which `P` holds -/
def First {α : Type} (P : α → Prop) (l : List α) (lo hi i : ℕ) : Prop :=
  lo ≤ i ∧ i < hi ∧ (∃ s, l[i]? = some s ∧ P s) ∧ ∀ j s, lo ≤ j → j < i → l[j]? = some s → ¬ P s

end Svgio.Spec
