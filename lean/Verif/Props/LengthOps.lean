import Verif.Model.LengthOps
import Verif.Props.Length
import Verif.Props.LengthText

/-!
C113: signs, reversed operators and percentages of lengths; C18 with a relative length given as text.
-/

namespace Svgio.Props

open Svgio Spec Len

section
variable {K : Type} [Field K] [LinearOrder K] [IsStrictOrderedRing K]

/-- **C113**: minus a length, its absolute value, and its product with a number on either side resolve to minus the value, its absolute
value, and the product; the absolute value if one unit is not resolved to a negative number. -/
theorem C113_signs (ctx : Ctx K) (a : Len K) (x k : K) (ha : value ctx a = .ok (.num x)) :
    value ctx (neg a) = .ok (.num (-x)) ∧ value ctx (rmul k a) = .ok (.num (k * x)) ∧
      value ctx (mulNum a k) = .ok (.num (k * x)) ∧
      ∀ c, value ctx ⟨1, a.units⟩ = .ok (.num c) → 0 ≤ c → value ctx (Len.abs a) = .ok (.num |x|) := by
  obtain ⟨c, hc, rfl⟩ := (value_num_iff ctx a x).mp ha
  refine ⟨(value_num_iff _ _ _).mpr ⟨c, hc, by simp [neg]⟩, (value_num_iff _ _ _).mpr ⟨c, hc, by simp only [rmul, mulNum]; ring⟩,
    (value_num_iff _ _ _).mpr ⟨c, hc, by simp only [mulNum]; ring⟩, fun d hd h0 => (value_num_iff _ _ _).mpr ⟨c, hc, ?_⟩⟩
  obtain ⟨e, he, rfl⟩ := (value_num_iff _ _ _).mp hd
  simp only [hc, Option.some.injEq] at he
  subst he
  rw [one_mul] at h0
  rw [abs_mul, abs_of_nonneg h0]
  rfl

/-- **C113**: a number plus or minus a length, when accepted, resolves to the number plus or minus the value. It is refused, with
ValueError, exactly if the length is in a unit that has no common measure with pixels, and neither is 0. -/
theorem C113_reflected (ctx : Ctx K) (a : Len K) (n x : K) (ha : value ctx a = .ok (.num x)) :
    (∀ s, radd n a = .ok s → value ctx s = .ok (.num (n + x))) ∧
      (∀ s, rsub n a = .ok s → value ctx s = .ok (.num (n - x))) ∧
      (radd n a = .error .valueError ↔ ¬ SameMeasure a.units .none ∧ a.amount ≠ 0 ∧ n ≠ 0) ∧
      (rsub n a = .error .valueError ↔ ¬ SameMeasure a.units .none ∧ a.amount ≠ 0 ∧ n ≠ 0) := by
  have hn : value ctx (ofNum n) = .ok (.num n) := by simp [ofNum, value, valueAbs]
  have hp : ∀ u, ¬ PointPica u (ofNum n).units := by intro u h; simp [PointPica, ofNum] at h
  refine ⟨fun s hs => ?_, fun s hs => ?_, (C14_refuses a (ofNum n)).1, ?_⟩
  · rw [(C14_add_partial ctx a (ofNum n) x n (hp _) ha hn).1 s hs, add_comm]
  · have := (C113_signs ctx a x 0 ha).1
    rw [(C14_add_partial ctx (neg a) (ofNum n) (-x) n (hp _) this hn).1 s hs, neg_add_eq_sub]
  · have := (C14_refuses (neg a) (ofNum n)).1
    simpa [neg, ofNum, rsub] using this

/-- a value, which is a number or a length, resolves to this number -/
def ResolvesTo (ctx : Ctx K) (v : Val K) (x : K) : Prop :=
  match v with
  | .num y => y = x
  | .len l => value ctx l = .ok (.num x)

/-- **C113**: a percentage times a length, in either order, is that part of the length. Partial: the length is not 0 (`C113_zero_wrong`)
nor itself a percentage. -/
theorem C113_percent_partial (ctx : Ctx K) (a : Len K) (p x : K) (ha : value ctx a = .ok (.num x)) (h0 : a.amount ≠ 0)
    (hu : a.units ≠ .percent) :
    (∃ v, mul ⟨p, .percent⟩ a = .ok v ∧ ResolvesTo ctx v (p / 100 * x)) ∧
      ∃ v, mul a ⟨p, .percent⟩ = .ok v ∧ ResolvesTo ctx v (p / 100 * x) := by
  obtain ⟨c, hc, rfl⟩ := (value_num_iff ctx a x).mp ha
  have hu' : ¬ Units.percent = a.units := fun h => hu h.symm
  by_cases hp : p = 0
  · subst hp
    refine ⟨⟨.num 0, by simp [mul], by simp [ResolvesTo]⟩, ⟨.len ⟨0, a.units⟩, by simp [mul, h0], ?_⟩⟩
    exact (value_num_iff _ _ _).mpr ⟨c, hc, by simp⟩
  · refine ⟨⟨.len ⟨p * a.amount / 100, a.units⟩, by simp [mul, h0, hp, hu'], ?_⟩,
      ⟨.len ⟨a.amount * p / 100, a.units⟩, by simp [mul, h0, hp, hu], ?_⟩⟩ <;>
      exact (value_num_iff _ _ _).mpr ⟨c, hc, by simp only; ring⟩

/-- 3cm, 50% of it, and 5px subtracted from 20 -/
example : value { ppi := some (96 : ℚ) } ⟨3, .cm⟩ = .ok (.num (3 * (96 * (393701 / 1000000)))) ∧
    rsub (20 : ℚ) ⟨5, .px⟩ = .ok ⟨15, .px⟩ ∧ mul (⟨50, .percent⟩ : Len ℚ) ⟨3, .cm⟩ = .ok (.len ⟨3 / 2, .cm⟩) := by
  refine ⟨?_, ?_, ?_⟩ <;> norm_num [value, valueAbs, cCm, rsub, add, neg, ofNum, mul] <;> simp

/-- C113 is false of a percentage of a length 0: the product is 0%, which is not resolved without a relative length. -/
theorem C113_zero_wrong (p : K) (hp : p ≠ 0) : mul ⟨p, .percent⟩ (⟨0, .px⟩ : Len K) = .ok (.len ⟨0, .percent⟩) ∧
    value {} (⟨0, .percent⟩ : Len K) = .ok (.len ⟨0, .percent⟩) := by
  simp [mul, hp, value]

/-- C113 is false of percentages of percentages: the product is a hundred times too large. 50% of 50% is 2500%. -/
theorem C113_percent_wrong (ctx : Ctx K) (p q x : K) (hp : p ≠ 0) (hq : q ≠ 0) (hx : value ctx ⟨q, .percent⟩ = .ok (.num x)) :
    mul ⟨p, .percent⟩ (⟨q, .percent⟩ : Len K) = .ok (.len ⟨p * q, .percent⟩) ∧
      value ctx ⟨p * q, .percent⟩ = .ok (.num (100 * (p / 100 * x))) := by
  refine ⟨by simp [mul, hp, hq], ?_⟩
  obtain ⟨c, hc, rfl⟩ := (value_num_iff ctx _ x).mp hx
  exact (value_num_iff ctx _ _).mpr ⟨c, hc, by ring⟩

example : value { relative := some (.num (200 : ℚ)) } ⟨50, .percent⟩ = .ok (.num (50 / 100 * 200)) := (C18_percent _ _).2.1 _ rfl

end

/-- **C18**, a relative length given as text: the same as for that length (`C18_percent`). Partial: the text is not a length 0
(`C18_text_wrong`), nor a percentage, vmin or vmax. -/
theorem C18_text_partial (ctx : Ctx ℚ) (a : ℚ) (text : List Char) (h0 : (ofString text).amount ≠ 0)
    (hu : (ofString text).units ∉ [Units.vmin, .vmax, .percent]) (c : ℚ) (hc : pixelsPer ctx (ofString text).units = some c) :
    valueText ctx text ⟨a, .percent⟩ = .ok (.num (a / 100 * ((ofString text).amount * c))) := by
  have hv := (C18_resolve_partial { ctx with relative := none } (ofString text) hu).1 c (by rw [← hc]; rfl)
  have hp : (ofString text).units ≠ .percent := fun h => hu (by simp [h])
  obtain ⟨v, h1, h2⟩ := (C113_percent_partial { ctx with relative := none } (ofString text) a _ hv h0 hp).1
  simp only [valueText, if_true, h1]
  cases v with
  | num y => simp only [ResolvesTo] at h2; rw [h2]
  | len l => exact h2

example : ofString "30cm".toList = ⟨30, .cm⟩ ∧
    valueText { ppi := some 96 } "30cm".toList ⟨12, .percent⟩ = .ok (.num (12 / 100 * (30 * (96 * (393701 / 1000000))))) := by
  have e : ofString "30cm".toList = ⟨30, .cm⟩ := by decide +kernel
  refine ⟨e, ?_⟩
  have := C18_text_partial { ppi := some 96 } 12 "30cm".toList (by rw [e]; norm_num) (by rw [e]; simp) (96 * (393701 / 1000000)) (by
    rw [e]; simp [pixelsPer])
  rw [this, e]

/-- C18 is false of a percentage of the text "0px": it is not resolved, whereas one of the length 0px is 0. -/
theorem C18_text_wrong : valueText {} "0px".toList ⟨50, .percent⟩ = .ok (.len ⟨0, .percent⟩) ∧
    value { relative := some (.len (ofString "0px".toList)) } ⟨50, .percent⟩ = .ok (.num 0) := by
  have e : ofString "0px".toList = ⟨0, .px⟩ := by decide +kernel
  unfold valueText
  rw [e]
  simp [value, mul]

end Svgio.Props
