import Verif.Model.Seg

/-!
What it means for a path to be connected.
-/

namespace Svgio.Spec

variable {K : Type} [Field K] [LinearOrder K]

/-- two points equal up to the library's tolerance `1e-12` in each coordinate -/
def Near (p q : Pt K) : Prop := |p.x - q.x| ≤ 1 / 10 ^ 12 ∧ |p.y - q.y| ≤ 1 / 10 ^ 12

omit [Field K] [LinearOrder K]

/-- every segment has an end point -/
def HasEnds (p : List (Seg K)) : Prop := ∀ s ∈ p, s.stop ≠ none

/-- each segment starts where the previous one ends, up to `R` -/
def Joined (R : Pt K → Pt K → Prop) (p : List (Seg K)) : Prop :=
  ∀ i a b, p[i]? = some a → p[i + 1]? = some b → ∃ u v, a.stop = some u ∧ b.start = some v ∧ R u v

/-- `q` is where the subpath containing position `i` starts: the target of the latest move before `i`,
or, when there is none, the end of the first segment. -/
def SubpathStart (p : List (Seg K)) (i : ℕ) (q : Pt K) : Prop :=
  (∃ j m, j < i ∧ p[j]? = some m ∧ m.kind = .move ∧ m.stop = some q ∧
    ∀ k s, j < k → k < i → p[k]? = some s → s.kind ≠ .move) ∨
  ((∀ k s, k < i → p[k]? = some s → s.kind ≠ .move) ∧ ∃ s, p[0]? = some s ∧ s.stop = some q)

/-- every close ends at the start of its subpath, up to `R` -/
def ClosesBack (R : Pt K → Pt K → Prop) (p : List (Seg K)) : Prop :=
  ∀ i s, p[i]? = some s → s.kind = .close → ∃ q u, SubpathStart p i q ∧ s.stop = some u ∧ R q u

/-- joined up to `R`, closing up to `S` -/
def Conn (R S : Pt K → Pt K → Prop) (p : List (Seg K)) : Prop := Joined R p ∧ ClosesBack S p

/-- joined and closing up to `R` -/
abbrev Connected (R : Pt K → Pt K → Prop) (p : List (Seg K)) : Prop := Conn R R p

end Svgio.Spec
