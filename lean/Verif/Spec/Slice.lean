import Mathlib.Data.Int.Order.Basic
import Mathlib.Algebra.Order.Ring.Int

/-!
What the bounds of a Python slice mean.
-/

namespace Svgio.Spec

/-- the bound `i` of a slice of a list of length `n` means the place before its `k`-th item: counted from the beginning, or, when
negative, from the end; bounds outside mean the nearer end -/
def Place (n : ℕ) (i : ℤ) (k : ℕ) : Prop :=
  (0 ≤ i ∧ i ≤ n ∧ (k : ℤ) = i) ∨ ((n : ℤ) < i ∧ k = n) ∨ (-(n : ℤ) ≤ i ∧ i < 0 ∧ (k : ℤ) = n + i) ∨ (i < -(n : ℤ) ∧ k = 0)

/-- the slice `a:b` goes from the place `lo` to the place `hi`, or is the empty one at `lo` -/
def Places (n : ℕ) (a b : Option ℤ) (lo hi : ℕ) : Prop :=
  (match a with | none => lo = 0 | some i => Place n i lo) ∧
  ∃ h, (match b with | none => h = n | some i => Place n i h) ∧ hi = max lo h

/-- the items of a list between two places -/
def part {α : Type} (p : List α) (lo hi : ℕ) : List α := (p.take hi).drop lo

/-- the list with the items between two places replaced -/
def splice {α : Type} (p : List α) (lo hi : ℕ) (v : List α) : List α := p.take lo ++ v ++ p.drop hi

end Svgio.Spec
