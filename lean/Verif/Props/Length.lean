import Verif.Spec.Length
import Mathlib.Tactic.Ring
import Mathlib.Tactic.FieldSimp
import Mathlib.Tactic.LinearCombination
import Mathlib.Tactic.Linarith
import Mathlib.Tactic.NormNum

/-!
Arithmetic, comparison, equality and resolution of lengths: C14, C15, C16, C17, C18.
-/

namespace Svgio.Props

open Svgio Spec Len

section
variable {K : Type} [Field K] [LinearOrder K] [IsStrictOrderedRing K]

theorem len_cPt_ne : (cPt : K) ≠ 0 := by unfold cPt; norm_num
theorem len_cMm_ne : (cMm : K) ≠ 0 := by unfold cMm; norm_num
theorem len_cCm_ne : (cCm : K) ≠ 0 := by unfold cCm; norm_num

/-- the number of pixels in one unit as the code computes it; differs from `pixelsPer` for vmin and vmax -/
def codePer (ctx : Ctx K) : Units → Option K
  | .vmin | .vmax => ctx.viewbox.map (fun v => v.2 / 100)
  | u => pixelsPer ctx u

/-- what a percentage of one percent resolves to -/
def percentPer (ctx : Ctx K) : Option K :=
  match ctx.relative with
  | none => none
  | some (.num r) => some (r / 100)
  | some (.len r) => if r.amount = 0 then some 0 else (codePer ctx r.units).map (· * r.amount / 100)

/-- resolution of a length that is not a percentage -/
theorem valueAbs_eq (ctx : Ctx K) (l : Len K) :
    valueAbs ctx l = match codePer ctx l.units with | some c => .num (l.amount * c) | none => .len l := by
  obtain ⟨x, u⟩ := l
  cases u <;> simp only [valueAbs, codePer, pixelsPer, cPt, cMm, cCm, toFloat] <;>
    first
    | (cases ctx.ppi <;> simp [mul_assoc]; done)
    | (cases ctx.fontSize <;> simp; done)
    | (cases ctx.fontHeight <;> simp; done)
    | (cases ctx.viewbox <;> simp [mul_div_assoc]; done)
    | simp

/-- pixels per unit, percentages included -/
def perUnit (ctx : Ctx K) (u : Units) : Option K := if u = .percent then percentPer ctx else codePer ctx u

/-- A length resolves to a number exactly when its unit has a factor, and then to amount times factor. -/
theorem value_num_iff (ctx : Ctx K) (l : Len K) (x : K) :
    value ctx l = .ok (.num x) ↔ ∃ c, perUnit ctx l.units = some c ∧ x = l.amount * c := by
  obtain ⟨a, u⟩ := l
  by_cases hu : u = .percent
  · subst hu
    simp only [value, perUnit, if_true, percentPer]
    cases hr : ctx.relative with
    | none => simp
    | some r =>
      cases r with
      | num r =>
        simp only [Except.ok.injEq, Val.num.injEq, Option.some.injEq, exists_eq_left']
        constructor <;> (rintro rfl; ring)
      | len r =>
        obtain ⟨ra, ru⟩ := r
        simp only [mul]
        by_cases h0 : ra = 0
        · subst h0; simp [eq_comm]
        · simp only [h0, if_false]
          have hc : codePer { ctx with relative := none } ru = codePer ctx ru := by
            cases ru <;> rfl
          by_cases ha : a = 0
          · subst ha
            simp only [if_true, valueAbs_eq, hc]
            cases codePer ctx ru <;> simp [eq_comm]
          · simp only [ha, if_false]
            by_cases hp : ru = .percent
            · subst hp
              simp [valueAbs_eq, codePer, pixelsPer]
            · simp only [hp, if_false, if_true, valueAbs_eq, hc]
              cases codePer ctx ru with
              | none => simp
              | some c =>
                simp only [Except.ok.injEq, Val.num.injEq, Option.map_some, Option.some.injEq, exists_eq_left']
                constructor <;> (rintro rfl; ring)
  · simp only [value, perUnit, hu, if_false, valueAbs_eq]
    cases codePer ctx u <;> simp [eq_comm]

/-- The unit of a sum, and its number of pixels. -/
theorem add_resolves {ctx : Ctx K} {a b s : Len K} {ca cb : K} (hs : add a b = .ok s)
    (hp : ¬ PointPica a.units b.units) (ha : perUnit ctx a.units = some ca) (hb : perUnit ctx b.units = some cb) :
    ∃ cs, perUnit ctx s.units = some cs ∧ (cs = ca ∨ cs = cb) ∧ s.amount * cs = a.amount * ca + b.amount * cb := by
  obtain ⟨x, u⟩ := a
  obtain ⟨y, v⟩ := b
  simp only at ha hb hp
  unfold add at hs
  simp only at hs
  by_cases huv : u = v
  · subst huv
    rw [if_pos rfl] at hs
    obtain rfl := Except.ok.inj hs
    rw [ha] at hb
    obtain rfl := Option.some.inj hb
    exact ⟨ca, ha, Or.inl rfl, by ring⟩
  rw [if_neg huv] at hs
  by_cases hx : x = 0
  · rw [if_pos hx] at hs
    obtain rfl := Except.ok.inj hs
    exact ⟨cb, hb, Or.inr rfl, by rw [hx]; ring⟩
  rw [if_neg hx] at hs
  by_cases hy : y = 0
  · rw [if_pos hy] at hs
    obtain rfl := Except.ok.inj hs
    exact ⟨ca, ha, Or.inl rfl, by rw [hy]; ring⟩
  rw [if_neg hy] at hs
  refine ⟨ca, ?_⟩
  cases u <;> simp only [reduceCtorEq] at hs <;> cases v <;> simp only [reduceCtorEq, Except.ok.injEq] at hs <;>
    first
    | exact absurd rfl huv
    | exact absurd (Or.inl ⟨rfl, rfl⟩) hp
    | exact absurd (Or.inr ⟨rfl, rfl⟩) hp
    | (subst hs
       refine ⟨ha, Or.inl rfl, ?_⟩
       cases hppi : ctx.ppi <;>
         simp [perUnit, codePer, pixelsPer, hppi] at ha hb <;> subst ha <;> subst hb <;>
         simp only [cPt, cMm, cCm] <;> ring)

/-- Two lengths can be added exactly when their units have a common measure or one of them is zero. -/
theorem add_accepts (a b : Len K) :
    ((∃ s, add a b = .ok s) ↔ SameMeasure a.units b.units ∨ a.amount = 0 ∨ b.amount = 0) ∧
      (¬ (SameMeasure a.units b.units ∨ a.amount = 0 ∨ b.amount = 0) → add a b = .error .valueError) := by
  obtain ⟨x, u⟩ := a
  obtain ⟨y, v⟩ := b
  simp only
  by_cases hx : x = 0
  · by_cases huv : u = v <;> simp [add, hx, huv]
  by_cases hy : y = 0
  · by_cases huv : u = v <;> simp [add, hx, hy, huv]
  by_cases huv : u = v
  · simp [add, huv, SameMeasure]
  cases u <;> cases v <;>
    first
    | exact absurd rfl huv
    | (simp [add, hx, hy, SameMeasure]; done)
    | (simp [add, hx, hy, SameMeasure] at huv ⊢; simp [huv])

/-- C14, for all pairs of units except a point and a pica: an accepted sum or difference resolves to the sum or
difference of the resolved values. The full claim is false for points and picas: `C14_point_pica`. -/
theorem C14_add_partial (ctx : Ctx K) (a b : Len K) (x y : K) (hp : ¬ PointPica a.units b.units)
    (ha : value ctx a = .ok (.num x)) (hb : value ctx b = .ok (.num y)) :
    (∀ s, add a b = .ok s → value ctx s = .ok (.num (x + y))) ∧
      (∀ s, sub a b = .ok s → value ctx s = .ok (.num (x - y))) := by
  obtain ⟨ca, hca, rfl⟩ := (value_num_iff ctx a x).mp ha
  obtain ⟨cb, hcb, rfl⟩ := (value_num_iff ctx b y).mp hb
  constructor
  · intro s hs
    obtain ⟨cs, h1, -, h2⟩ := add_resolves hs hp hca hcb
    exact (value_num_iff ctx s _).mpr ⟨cs, h1, h2.symm⟩
  · intro s hs
    obtain ⟨cs, h1, -, h2⟩ := add_resolves (b := neg b) hs hp hca hcb
    refine (value_num_iff ctx s _).mpr ⟨cs, h1, ?_⟩
    rw [h2]; simp only [neg]; ring

/-- C14: a sum is refused, with ValueError, exactly when the units have no common measure and neither length is
zero. -/
theorem C14_refuses (a b : Len K) :
    (add a b = .error .valueError ↔ ¬ SameMeasure a.units b.units ∧ a.amount ≠ 0 ∧ b.amount ≠ 0) ∧
      (sub a b = .error .valueError ↔ ¬ SameMeasure a.units b.units ∧ a.amount ≠ 0 ∧ b.amount ≠ 0) := by
  have key : ∀ a b : Len K,
      add a b = .error .valueError ↔ ¬ SameMeasure a.units b.units ∧ a.amount ≠ 0 ∧ b.amount ≠ 0 := by
    intro a b
    have h := add_accepts a b
    constructor
    · intro he
      by_contra hn
      obtain ⟨s, hs⟩ := h.1.mpr (by tauto)
      rw [hs] at he; cases he
    · intro hn
      exact h.2 (by tauto)
  refine ⟨key a b, ?_⟩
  have := key a (neg b)
  simpa [sub, neg] using this

/-- C14 fails for a point and a pica: 1pt + 1pc is 13pt, which is not 1.3333 + 16 pixels. -/
theorem C14_point_pica :
    ∃ a b s : Len ℚ, ∃ x y z : ℚ, add a b = .ok s ∧ value {} a = .ok (.num x) ∧ value {} b = .ok (.num y) ∧
      value {} s = .ok (.num z) ∧ z ≠ x + y :=
  ⟨⟨1, .pt⟩, ⟨1, .pc⟩, ⟨13, .pt⟩, 13333 / 10000, 16, 13 * (13333 / 10000), by
    refine ⟨?_, ?_, ?_, ?_, ?_⟩ <;> norm_num [add, value, valueAbs, cPt] <;> simp⟩

/-- non-trivial instance: 20in + 3cm at 96 ppi -/
example : ∃ s, add (⟨20, .inch⟩ : Len ℚ) ⟨3, .cm⟩ = .ok s ∧
    value { ppi := some (96 : ℚ) } s = .ok (.num (20 * 96 + 3 * (96 * (393701 / 1000000)))) := by
  refine ⟨⟨20 + 3 * (393701 / 1000000), .inch⟩, ?_, ?_⟩ <;> norm_num [add, value, valueAbs, cCm] <;> simp

/-- C15, whenever the code answers, for all units but a point against a pica, where pixels per unit are positive:
the answers are those of the resolved values, so exactly one of `a < b` and `a >= b` holds. Missing: 1in < 100px at
a known ppi raises ValueError (`C15_raises`) and points against picas (`C15_point_pica`). -/
theorem C15_compare_partial (ctx : Ctx K) (a b : Len K) (x y ca cb : K) (hp : ¬ PointPica a.units b.units)
    (ha : value ctx a = .ok (.num x)) (hb : value ctx b = .ok (.num y))
    (hpa : value ctx ⟨1, a.units⟩ = .ok (.num ca)) (hpb : value ctx ⟨1, b.units⟩ = .ok (.num cb))
    (posa : 0 < ca) (posb : 0 < cb)
    (hm : SameMeasure a.units b.units ∨ a.amount = 0 ∨ b.amount = 0) :
    lt a b = .ok (decide (x < y)) ∧ le a b = .ok (decide (x ≤ y)) ∧ gt a b = .ok (decide (x > y)) ∧
      ge a b = .ok (decide (x ≥ y)) := by
  obtain ⟨ka, hka, rfl⟩ := (value_num_iff ctx a x).mp ha
  obtain ⟨kb, hkb, rfl⟩ := (value_num_iff ctx b y).mp hb
  obtain ⟨ka', hka', e1⟩ := (value_num_iff ctx _ ca).mp hpa
  obtain ⟨kb', hkb', e2⟩ := (value_num_iff ctx _ cb).mp hpb
  simp only [hka, hkb, Option.some.injEq] at hka' hkb'
  subst hka' hkb'
  rw [one_mul] at e1 e2
  subst e1 e2
  have hm' : SameMeasure a.units (neg b).units ∨ a.amount = 0 ∨ (neg b).amount = 0 := by
    simpa [neg] using hm
  obtain ⟨s, hs⟩ := (add_accepts a (neg b)).1.mpr hm'
  obtain ⟨cs, -, h3, h2⟩ := add_resolves (b := neg b) hs hp hka hkb
  have pos : 0 < cs := by rcases h3 with rfl | rfl <;> assumption
  have h4 : s.amount * cs = a.amount * ca - b.amount * cb := by rw [h2]; simp only [neg]; ring
  have hsub : sub a b = .ok s := hs
  have e : ∀ P Q : Prop, ∀ [Decidable P] [Decidable Q], (P ↔ Q) → decide P = decide Q := by
    intro P Q _ _ h; simp [h]
  have k1 : s.amount < 0 ↔ a.amount * ca < b.amount * cb := by
    rw [← sub_neg (a := a.amount * ca), ← h4]; exact ⟨fun h => mul_neg_of_neg_of_pos h pos, fun h => by
      by_contra hn; exact absurd h (not_lt.mpr (mul_nonneg (not_lt.mp hn) pos.le))⟩
  have k2 : 0 < s.amount ↔ b.amount * cb < a.amount * ca := by
    rw [← sub_pos (a := a.amount * ca), ← h4]; exact ⟨fun h => mul_pos h pos, fun h => by
      by_contra hn; exact absurd h (not_lt.mpr (mul_nonpos_of_nonpos_of_nonneg (not_lt.mp hn) pos.le))⟩
  simp only [lt, le, gt, ge, hsub, Except.ok.injEq]
  refine ⟨e _ _ k1, e _ _ ?_, e _ _ k2, e _ _ ?_⟩
  · rw [← not_lt, k2, not_lt]
  · change 0 ≤ s.amount ↔ b.amount * cb ≤ a.amount * ca
    rw [← not_lt, k1, not_lt]

/-- C15 fails: at 96 pixels per inch 1in and 100px both resolve, but comparing them raises ValueError. -/
theorem C15_raises : ∃ a b : Len ℚ, ∃ x y : ℚ, value { ppi := some (96 : ℚ) } a = .ok (.num x) ∧
    value { ppi := some (96 : ℚ) } b = .ok (.num y) ∧ lt a b = .error .valueError ∧ ge a b = .error .valueError :=
  ⟨⟨1, .inch⟩, ⟨100, .px⟩, 96, 100, by
    refine ⟨?_, ?_, ?_, ?_⟩ <;> norm_num [value, valueAbs, lt, ge, sub, add, neg] <;> simp⟩

/-- C15 fails for a point and a pica: 12pt is not less than 1pc for the code, though 15.9996 < 16. -/
theorem C15_point_pica : ∃ a b : Len ℚ, ∃ x y : ℚ, value {} a = .ok (.num x) ∧ value {} b = .ok (.num y) ∧
    x < y ∧ lt a b = .ok false :=
  ⟨⟨12, .pt⟩, ⟨1, .pc⟩, 12 * (13333 / 10000), 16, by
    refine ⟨?_, ?_, ?_, ?_⟩ <;> norm_num [value, valueAbs, lt, sub, add, neg, cPt] <;> simp⟩

/-- non-trivial instance: 1in against 3cm -/
example : lt (⟨1, .inch⟩ : Len ℚ) ⟨3, .cm⟩ = .ok true := by norm_num [lt, sub, add, neg, cCm] <;> simp

/-- C16, for all units but a point and a pica: an accepted quotient times the resolved divisor is the resolved
dividend. The full claim is false: `C16_point_pica`. -/
theorem C16_quotient_partial (ctx : Ctx K) (a b : Len K) (x y q : K) (hp : ¬ PointPica a.units b.units)
    (ha : value ctx a = .ok (.num x)) (hb : value ctx b = .ok (.num y)) (hq : div a b = .ok q) : q * y = x := by
  obtain ⟨ca, hca, rfl⟩ := (value_num_iff ctx a x).mp ha
  obtain ⟨cb, hcb, rfl⟩ := (value_num_iff ctx b y).mp hb
  obtain ⟨m, u⟩ := a
  obtain ⟨n, v⟩ := b
  simp only at hca hcb hp ⊢
  unfold div at hq
  simp only at hq
  by_cases hm : m = 0
  · rw [if_pos hm] at hq
    obtain rfl := Except.ok.inj hq
    rw [hm]; ring
  rw [if_neg hm] at hq
  have hd : ∀ {z : K}, pyDiv m z = .ok q → z ≠ 0 ∧ q = m / z := by
    intro z h
    unfold pyDiv at h
    split at h
    · cases h
    · rename_i hz; exact ⟨hz, (Except.ok.inj h).symm⟩
  by_cases huv : u = v
  · subst huv
    rw [if_pos rfl] at hq
    obtain ⟨hn, rfl⟩ := hd hq
    rw [hca] at hcb
    obtain rfl := Option.some.inj hcb
    field_simp
  rw [if_neg huv] at hq
  cases u <;> simp only [reduceCtorEq] at hq <;> cases v <;> simp only [reduceCtorEq] at hq <;>
    first
    | exact absurd rfl huv
    | exact absurd (Or.inl ⟨rfl, rfl⟩) hp
    | exact absurd (Or.inr ⟨rfl, rfl⟩) hp
    | (obtain ⟨hz, rfl⟩ := hd hq
       have hn : n ≠ 0 := by rintro rfl; simp at hz
       cases hppi : ctx.ppi <;>
         simp [perUnit, codePer, pixelsPer, hppi] at hca hcb <;> subst hca <;> subst hcb <;>
         (try simp only [cPt, cMm, cCm]) <;> field_simp <;> ring)

/-- C16: dividing by a number divides the amount and keeps the unit; by zero it raises. -/
theorem C16_number (a : Len K) (x : K) :
    (x ≠ 0 → ∃ c : Len K, divNum a x = .ok c ∧ c.amount * x = a.amount ∧ c.units = a.units) ∧
      (x = 0 → divNum a x = .error .zeroDivisionError) := by
  constructor
  · intro h
    refine ⟨⟨a.amount / x, a.units⟩, by simp [divNum, pyDiv, h], ?_, rfl⟩
    simp only; field_simp
  · rintro rfl; simp [divNum, pyDiv]

/-- C16 fails for a point and a pica: 12pt / 1pc is 1, but 16 is not 15.9996. -/
theorem C16_point_pica : ∃ a b : Len ℚ, ∃ x y q : ℚ, value {} a = .ok (.num x) ∧ value {} b = .ok (.num y) ∧
    div a b = .ok q ∧ q * y ≠ x :=
  ⟨⟨12, .pt⟩, ⟨1, .pc⟩, 12 * (13333 / 10000), 16, 1, by
    refine ⟨?_, ?_, ?_, ?_⟩ <;> norm_num [value, valueAbs, div, pyDiv, cPt] <;> simp⟩

/-- non-trivial instance: 30cm / 10mm is 30 -/
example : div (⟨30, .cm⟩ : Len ℚ) ⟨10, .mm⟩ = .ok 30 := by norm_num [div, pyDiv] <;> simp

/-- C17, for the units that are neither pixels, points, picas nor physical: equal exactly when amount and unit are
the same. The full claim is false for all the other units: `C17_all_equal`. -/
theorem C17_equal_partial (a b : Len K) (hu : a.units ∉ [Units.none, .px, .pt, .pc, .mm, .cm, .inch]) :
    Len.eq a b = true ↔ a = b := by
  obtain ⟨x, u⟩ := a
  obtain ⟨y, v⟩ := b
  cases u <;> simp at hu <;> simp [Len.eq, inPixels, inInches]

/-- C17 fails: a length in pixels, points, picas, mm, cm or inches equals every length. -/
theorem C17_all_equal (a b : Len K) (hu : a.units ∈ [Units.none, .px, .pt, .pc, .mm, .cm, .inch]) :
    Len.eq a b = true := by
  have e : (0 : K) ≤ err := by unfold err; positivity
  obtain ⟨x, u⟩ := a
  cases u <;> simp at hu <;> simp [Len.eq, inPixels, inInches, e]

/-- C17: against a number, a length in pixels is equal within 1e-12. -/
theorem C17_number_partial (a : Len K) (x : K) (hu : a.units = .px ∨ a.units = .none) :
    eqNum a x = true ↔ |a.amount - x| ≤ 1 / 10 ^ 12 := by
  obtain ⟨y, u⟩ := a
  rcases hu with rfl | rfl <;> simp [eqNum, inPixels, err]

/-- C17 fails against a number: 3pt is 3.9999 pixels but is not equal to it. -/
theorem C17_points : ∃ a : Len ℚ, ∃ x, value {} a = .ok (.num x) ∧ eqNum a x = false :=
  ⟨⟨3, .pt⟩, 3 * (13333 / 10000), by
    refine ⟨?_, ?_⟩ <;> norm_num [value, valueAbs, eqNum, inPixels, cPt, err, abs_of_neg] <;> simp⟩

example : Len.eq (⟨1, .px⟩ : Len ℚ) ⟨2, .px⟩ = true := C17_all_equal _ _ (by simp)
example : Len.eq (⟨1, .em⟩ : Len ℚ) ⟨2, .em⟩ = false := by
  rw [Bool.eq_false_iff, Ne, C17_equal_partial _ _ (by simp)]; simp

/-- C18, for all units but vmin and vmax: a length resolves to amount times pixels per unit when the context gives
them, and to itself when it does not. -/
theorem C18_resolve_partial (ctx : Ctx K) (l : Len K) (hu : l.units ∉ [Units.vmin, .vmax, .percent]) :
    (∀ c, pixelsPer ctx l.units = some c → value ctx l = .ok (.num (l.amount * c))) ∧
      (pixelsPer ctx l.units = none → value ctx l = .ok (.len l)) := by
  obtain ⟨x, u⟩ := l
  have h : codePer ctx u = pixelsPer ctx u := by cases u <;> simp at hu <;> rfl
  have hp : u ≠ .percent := by rintro rfl; simp at hu
  simp only [value, hp, if_false, valueAbs_eq, h]
  exact ⟨fun c hc => by rw [hc], fun hc => by rw [hc]⟩

/-- C18, percentages: of a number, of nothing, and of a length in a unit with known pixels. -/
theorem C18_percent (ctx : Ctx K) (a : K) :
    (ctx.relative = none → value ctx ⟨a, .percent⟩ = .ok (.len ⟨a, .percent⟩)) ∧
      (∀ r, ctx.relative = some (.num r) → value ctx ⟨a, .percent⟩ = .ok (.num (a / 100 * r))) ∧
      (∀ r c, ctx.relative = some (.len r) → r.units ∉ [Units.vmin, .vmax, .percent] →
        pixelsPer ctx r.units = some c → value ctx ⟨a, .percent⟩ = .ok (.num (a / 100 * (r.amount * c)))) := by
  refine ⟨fun h => by simp [value, h], fun r h => by simp [value, h], fun r c h hu hc => ?_⟩
  rw [value_num_iff]
  have h' : codePer ctx r.units = some c := by
    rw [← hc]; obtain ⟨y, v⟩ := r; cases v <;> simp at hu <;> rfl
  simp only [perUnit, if_true, percentPer, h, h', Option.map_some]
  by_cases h0 : r.amount = 0
  · exact ⟨0, by rw [if_pos h0], by rw [h0]; ring⟩
  · exact ⟨_, by rw [if_neg h0], by ring⟩

/-- C18: resolution is linear in the amount, for every unit and context. -/
theorem C18_linear (ctx : Ctx K) (u : Units) (a b x y k : K) (ha : value ctx ⟨a, u⟩ = .ok (.num x))
    (hb : value ctx ⟨b, u⟩ = .ok (.num y)) : value ctx ⟨k * a + b, u⟩ = .ok (.num (k * x + y)) := by
  obtain ⟨c, hc, rfl⟩ := (value_num_iff ctx _ x).mp ha
  obtain ⟨d, hd, rfl⟩ := (value_num_iff ctx _ y).mp hb
  simp only at hc hd
  rw [hc] at hd
  obtain rfl := Option.some.inj hd
  exact (value_num_iff ctx _ _).mpr ⟨c, hc, by ring⟩

/-- C18 fails for vmin and vmax: both use the height of the viewbox, whatever its width. -/
theorem C18_vmin_vmax (a w h : K) :
    value { viewbox := some (w, h) } ⟨a, .vmin⟩ = .ok (.num (a * h / 100)) ∧
      value { viewbox := some (w, h) } ⟨a, .vmax⟩ = .ok (.num (a * h / 100)) := by
  simp [value, valueAbs]

example : value { viewbox := some ((100 : ℚ), 200) } ⟨50, .vmin⟩ ≠ .ok (.num (50 * min 100 200 / 100)) := by
  rw [(C18_vmin_vmax _ _ _).1]; norm_num
example : value { relative := some (.len ⟨30, .cm⟩), ppi := some (96 : ℚ) } ⟨12, .percent⟩ =
    .ok (.num (12 / 100 * (30 * (96 * (393701 / 1000000))))) :=
  (C18_percent _ _).2.2 ⟨30, .cm⟩ _ rfl (by simp) rfl

end

end Svgio.Props
