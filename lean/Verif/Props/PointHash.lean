import Verif.Model.PointHash
import Mathlib.Tactic.Linarith
import Mathlib.Tactic.Ring
import Mathlib.Tactic.NormNum
import Mathlib.Tactic.Positivity
import Mathlib.Algebra.Order.Archimedean.Basic
import Mathlib.Algebra.Order.Ring.Rat

/-!
C111: equal points have equal hashes.
-/

namespace Svgio.Props

open Svgio

/-- C111: points with the same coordinates are equal and have the same hash. -/
theorem C111_same_partial {K : Type} [Field K] [LinearOrder K] [IsStrictOrderedRing K] (hash2 : K × K → ℤ) (p q : Pt K)
    (hx : p.x = q.x) (hy : p.y = q.y) : p.eq q = true ∧ p.hash hash2 = q.hash hash2 := by
  have : (0 : K) ≤ err := by unfold err; positivity
  simp [Pt.eq, Pt.hash, hx, hy, this]

example : (⟨1 / 2, 3⟩ : Pt ℚ).x = (⟨2 / 4, 3⟩ : Pt ℚ).x := by norm_num

/-- C111: the hash is as good as Python's hash of pairs: where that tells the two pairs of coordinates apart, points have the same hash only
if both coordinates are the same. -/
theorem C111_separates {K : Type} (hash2 : K × K → ℤ) (p q : Pt K)
    (h : hash2 (p.x, p.y) = hash2 (q.x, q.y) → (p.x, p.y) = (q.x, q.y)) : p.hash hash2 = q.hash hash2 ↔ p.x = q.x ∧ p.y = q.y := by
  constructor
  · intro e
    have := h e
    exact ⟨congrArg Prod.fst this, congrArg Prod.snd this⟩
  · rintro ⟨hx, hy⟩
    unfold Pt.hash
    rw [hx, hy]

example : (⟨0, 1⟩ : Pt ℤ).hash (fun z => z.1 + 3 * z.2) = (⟨0, 2⟩ : Pt ℤ).hash (fun z => z.1 + 3 * z.2) ↔ (0 : ℤ) = 0 ∧ (1 : ℤ) = 2 :=
  C111_separates _ _ _ (by simp)

/-- If points that compare equal have equal hashes, a chain of small steps carries the hash to distant points. -/
theorem hash_steps (h : ℚ × ℚ → ℤ) (he : ∀ p q : Pt ℚ, p.eq q = true → p.hash h = q.hash h) (p d : Pt ℚ)
    (hd : |d.x| ≤ err) (hd' : |d.y| ≤ err) (n : ℕ) : (⟨p.x + n * d.x, p.y + n * d.y⟩ : Pt ℚ).hash h = p.hash h := by
  induction n with
  | zero => simp [Pt.hash]
  | succ n ih =>
    rw [← ih]
    apply he
    simp only [Pt.eq, Bool.and_eq_true, decide_eq_true_eq]
    constructor
    · rw [show p.x + ((n + 1 : ℕ) : ℚ) * d.x - (p.x + n * d.x) = d.x by push_cast; ring]; exact hd
    · rw [show p.y + ((n + 1 : ℕ) : ℚ) * d.y - (p.y + n * d.y) = d.y by push_cast; ring]; exact hd'

/-- C111 is false: whatever hash of pairs is used, unless it gives all points the same value, there are points that compare equal
and have different hashes. -/
theorem C111_hash_wrong (hash2 : ℚ × ℚ → ℤ) (p q : Pt ℚ) (h : p.hash hash2 ≠ q.hash hash2) :
    ∃ a b : Pt ℚ, a.eq b = true ∧ a.hash hash2 ≠ b.hash hash2 := by
  by_contra hc
  have he : ∀ a b : Pt ℚ, a.eq b = true → a.hash hash2 = b.hash hash2 := by
    intro a b hab
    by_contra hh
    exact hc ⟨a, b, hab, hh⟩
  obtain ⟨n, hn⟩ := exists_nat_gt ((|q.x - p.x| + |q.y - p.y|) * 10 ^ 12)
  have hn0 : (0 : ℚ) < n := lt_of_le_of_lt (by positivity) hn
  have bound : ∀ z : ℚ, |z| ≤ |q.x - p.x| + |q.y - p.y| → |z / n| ≤ err := by
    intro z hz
    rw [abs_div, abs_of_pos hn0, div_le_iff₀ hn0, err]
    linarith
  have := hash_steps hash2 he p ⟨(q.x - p.x) / n, (q.y - p.y) / n⟩ (bound _ (by linarith [abs_nonneg (q.y - p.y)]))
    (bound _ (by linarith [abs_nonneg (q.x - p.x)])) n
  apply h
  rw [← this]
  have e1 : p.x + n * ((q.x - p.x) / n) = q.x := by rw [mul_div_cancel₀ _ hn0.ne']; ring
  have e2 : p.y + n * ((q.y - p.y) / n) = q.y := by rw [mul_div_cancel₀ _ hn0.ne']; ring
  simp only [e1, e2]

example : (⟨0, 0⟩ : Pt ℚ).hash (fun z => ⌊z.1⌋ + 3 * ⌊z.2⌋) ≠ (⟨1, 0⟩ : Pt ℚ).hash (fun z => ⌊z.1⌋ + 3 * ⌊z.2⌋) := by
  simp [Pt.hash]

end Svgio.Props
