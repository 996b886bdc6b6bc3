import Verif.Props.Length

/-!
C169: lengths in pixels and in inches.
-/

namespace Svgio.Props

open Svgio Spec Len

section
variable {K : Type} [Field K] [LinearOrder K] [IsStrictOrderedRing K]

omit [IsStrictOrderedRing K] in
/-- **C169** for pixels and plain numbers: `in_pixels()` is the value of the length. Partial: false for points and picas, see
`C169_pixels_wrong`. -/
theorem C169_pixels_partial (l : Len K) (hu : l.units = .px ∨ l.units = .none) :
    ∃ v, inPixels l = some v ∧ inInches l = none ∧ ∀ ctx, value ctx l = .ok (.num v) := by
  obtain ⟨y, u⟩ := l
  rcases hu with rfl | rfl <;> exact ⟨y, rfl, rfl, fun _ => rfl⟩

/-- **C169**: `in_inches()` times the pixels per inch is the value of a length in millimetres, centimetres or inches. -/
theorem C169_inches (l : Len K) (hu : l.units ∈ [Units.mm, .cm, .inch]) :
    ∃ v, inInches l = some v ∧ inPixels l = none ∧ ∀ ctx p, ctx.ppi = some p → value ctx l = .ok (.num (v * p)) := by
  obtain ⟨y, u⟩ := l
  cases u <;> simp at hu
  · refine ⟨y * (393701 / 1000000), rfl, rfl, fun ctx p hp => ?_⟩
    rw [(C18_resolve_partial ctx _ (by simp)).1 (p * (393701 / 1000000)) (by simp [pixelsPer, hp])]
    congr 2
    ring
  · refine ⟨y * (393701 / 10000000), rfl, rfl, fun ctx p hp => ?_⟩
    rw [(C18_resolve_partial ctx _ (by simp)).1 (p * (393701 / 10000000)) (by simp [pixelsPer, hp])]
    congr 2
    ring
  · exact ⟨y, rfl, rfl, fun ctx p hp => (C18_resolve_partial ctx _ (by simp)).1 p (by simp [pixelsPer, hp])⟩

omit [LinearOrder K] [IsStrictOrderedRing K] in
/-- **C169**: a length whose value is known from nothing but the number of pixels per inch is the only one with a size in pixels or in
inches; for all others both are None. -/
theorem C169_none (l : Len K) (hu : l.units ∉ [Units.none, .px, .pt, .pc, .mm, .cm, .inch]) : inPixels l = none ∧ inInches l = none := by
  obtain ⟨y, u⟩ := l
  cases u <;> simp at hu <;> exact ⟨rfl, rfl⟩

/-- C169 fails for points and picas: `in_pixels()` divides by the pixels per unit where the value is the product. The value of a length in
points is 1.7777 times as large, and that of a length in picas 256 times. -/
theorem C169_pixels_wrong (l : Len K) (h0 : l.amount ≠ 0) (hu : l.units = .pt ∨ l.units = .pc) :
    ∃ v x, inPixels l = some v ∧ (∀ ctx, value ctx l = .ok (.num x)) ∧ v ≠ x ∧ (l.units = .pt → x = (13333 / 10000) ^ 2 * v) ∧
      (l.units = .pc → x = 256 * v) := by
  obtain ⟨y, u⟩ := l
  simp only at h0 hu
  have hm : ∀ k : K, k ≠ 1 → ∀ v, v ≠ 0 → v ≠ k * v := fun k hk v hv h => hk (mul_right_cancel₀ hv (by rw [one_mul]; exact h.symm))
  rcases hu with rfl | rfl
  · have e : y * (13333 / 10000) = (13333 / 10000) ^ 2 * (y / (13333 / 10000)) := by field_simp
    refine ⟨y / (13333 / 10000), y * (13333 / 10000), rfl, fun _ => rfl, ?_, fun _ => e, by simp⟩
    rw [e]
    exact hm _ (by norm_num) _ (div_ne_zero h0 (by norm_num))
  · have e : y * 16 = 256 * (y / 16) := by ring
    refine ⟨y / 16, y * 16, rfl, fun _ => rfl, ?_, by simp, fun _ => e⟩
    rw [e]
    exact hm _ (by norm_num) _ (div_ne_zero h0 (by norm_num))

end

/-- half an inch, in millimetres; a pica, which is 16 pixels, is given as a sixteenth of a pixel -/
example : inInches (⟨127 / 10, .mm⟩ : Len ℚ) = some (127 / 10 * (393701 / 10000000)) ∧ inPixels (⟨1, .pc⟩ : Len ℚ) = some (1 / 16) ∧
    value {} (⟨1, .pc⟩ : Len ℚ) = .ok (.num 16) ∧ inPixels (⟨3, .em⟩ : Len ℚ) = none := by decide +kernel

end Svgio.Props
