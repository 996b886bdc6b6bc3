import Verif.Model.Print
import Verif.Model.SegGeom
import Mathlib.Analysis.Calculus.Deriv.Basic
import Mathlib.Analysis.Calculus.Deriv.Mul
import Mathlib.Analysis.Calculus.Deriv.Pow
import Mathlib.Analysis.Calculus.Deriv.Add

/-!
C161: what `is_smooth_from` says about two curves.
-/

namespace Svgio.Props

open Print Seg

/-- `v` is the velocity of a moving point `f` at the time `t` -/
def Velocity (f : ℚ → Pt ℚ) (t : ℚ) (v : Pt ℚ) : Prop :=
  HasDerivAt (fun u => (f u).x) v.x t ∧ HasDerivAt (fun u => (f u).y) v.y t

/-- each coordinate differs by at most `e` -/
def BothWithin (e : ℚ) (p q : Pt ℚ) : Prop := |p.x - q.x| ≤ e ∧ |p.y - q.y| ≤ e

instance (e : ℚ) (p q : Pt ℚ) : Decidable (BothWithin e p q) := inferInstanceAs (Decidable (_ ∧ _))

namespace SmoothJoin

theorem quad_deriv (p c q t : ℚ) : HasDerivAt (fun u => quadAt p c q u) (2 * (1 - t) * (c - p) + 2 * t * (q - c)) t := by
  have h1 : HasDerivAt (fun u : ℚ => 1 - u) (-1) t := by simpa using (hasDerivAt_id t).const_sub 1
  have h := ((((h1.pow 2).mul_const p).add (((h1.const_mul 2).mul (hasDerivAt_id t)).mul_const c)).add (((hasDerivAt_id t).pow 2).mul_const q))
  refine (h.congr_of_eventuallyEq (Filter.Eventually.of_forall fun u => ?_)).congr_deriv ?_
  · show quadAt p c q u = (1 - u) ^ 2 * p + 2 * (1 - u) * u * c + u ^ 2 * q
    simp only [quadAt]; ring
  · simp; ring

theorem cubic_deriv (p c d q t : ℚ) :
    HasDerivAt (fun u => cubicAt p c d q u) (3 * (1 - t) ^ 2 * (c - p) + 6 * (1 - t) * t * (d - c) + 3 * t ^ 2 * (q - d)) t := by
  have h1 : HasDerivAt (fun u : ℚ => 1 - u) (-1) t := by simpa using (hasDerivAt_id t).const_sub 1
  have hi := hasDerivAt_id t
  have h := (((((h1.pow 3).mul_const p).add ((((h1.pow 2).const_mul 3).mul hi).mul_const c))).add (((h1.const_mul 3).mul (hi.pow 2)).mul_const d)).add
    ((hi.pow 3).mul_const q)
  refine (h.congr_of_eventuallyEq (Filter.Eventually.of_forall fun u => ?_)).congr_deriv ?_
  · simp [cubicAt]; ring
  · simp; ring

theorem eq_within (p q : Pt ℚ) : p.eq q = decide (BothWithin err p q) := by
  rw [Bool.eq_iff_iff, decide_eq_true_iff]
  simp [Pt.eq, BothWithin]

theorem within_scale {k : ℚ} (hk : 0 < k) {p q v w : Pt ℚ} (hx : v.x - w.x = k * (p.x - q.x)) (hy : v.y - w.y = k * (p.y - q.y)) :
    BothWithin (k * err) v w ↔ BothWithin err p q := by
  unfold BothWithin
  rw [hx, hy, abs_mul, abs_mul, abs_of_pos hk, mul_le_mul_iff_right₀ hk, mul_le_mul_iff_right₀ hk]

/-- the points of a quadratic curve that can be drawn, and its velocity -/
theorem quad_points {numpy : Bool} {s : Seg ℚ} {c : Option (Pt ℚ)} {f : ℚ → Pt ℚ} (hk : s.kind = .quad c) (h : ∀ t, s.point numpy t = .ok (f t)) :
    ∃ p d q, s.start = some p ∧ c = some d ∧ s.stop = some q ∧ f 0 = p ∧ f 1 = q ∧
      (∀ v, Velocity f 0 v → v.x = 2 * (d.x - p.x) ∧ v.y = 2 * (d.y - p.y)) ∧
      ∀ v, Velocity f 1 v → v.x = 2 * (q.x - d.x) ∧ v.y = 2 * (q.y - d.y) := by
  unfold Seg.point at h
  simp only [hk] at h
  cases hp : s.start with
  | none => have := h 0; rw [hp] at this; simp at this
  | some p =>
    cases c with
    | none => have := h 0; rw [hp] at this; simp at this
    | some d =>
      cases hq : s.stop with
      | none => have := h 0; rw [hp, hq] at this; simp at this
      | some q =>
        rw [hp, hq] at h
        simp only [Except.ok.injEq] at h
        have hf : f = fun t => ⟨quadAt p.x d.x q.x t, quadAt p.y d.y q.y t⟩ := funext fun t => (h t).symm
        refine ⟨p, d, q, rfl, rfl, rfl, ?_, ?_, ?_, ?_⟩
        · rw [hf]; ext <;> simp [quadAt]
        · rw [hf]; ext <;> simp [quadAt]
        · rintro v ⟨h1, h2⟩
          rw [hf] at h1 h2
          exact ⟨(h1.unique (quad_deriv _ _ _ _)).trans (by ring), (h2.unique (quad_deriv _ _ _ _)).trans (by ring)⟩
        · rintro v ⟨h1, h2⟩
          rw [hf] at h1 h2
          exact ⟨(h1.unique (quad_deriv _ _ _ _)).trans (by ring), (h2.unique (quad_deriv _ _ _ _)).trans (by ring)⟩

/-- the points of a cubic curve that can be drawn, and its velocity -/
theorem cubic_points {numpy : Bool} {s : Seg ℚ} {c c' : Option (Pt ℚ)} {f : ℚ → Pt ℚ} (hk : s.kind = .cubic c c')
    (h : ∀ t, s.point numpy t = .ok (f t)) :
    ∃ p d e q, s.start = some p ∧ c = some d ∧ c' = some e ∧ s.stop = some q ∧ f 0 = p ∧ f 1 = q ∧
      (∀ v, Velocity f 0 v → v.x = 3 * (d.x - p.x) ∧ v.y = 3 * (d.y - p.y)) ∧
      ∀ v, Velocity f 1 v → v.x = 3 * (q.x - e.x) ∧ v.y = 3 * (q.y - e.y) := by
  unfold Seg.point at h
  simp only [hk] at h
  cases hp : s.start with
  | none => have := h 0; rw [hp] at this; simp at this
  | some p =>
    cases c with
    | none => have := h 0; rw [hp] at this; simp at this
    | some d =>
      cases c' with
      | none => have := h 0; rw [hp] at this; simp at this
      | some e =>
        cases hq : s.stop with
        | none => have := h 0; rw [hp, hq] at this; simp at this
        | some q =>
          rw [hp, hq] at h
          simp only [Except.ok.injEq] at h
          have hf : f = fun t => ⟨cubicAt p.x d.x e.x q.x t, cubicAt p.y d.y e.y q.y t⟩ := funext fun t => (h t).symm
          refine ⟨p, d, e, q, rfl, rfl, rfl, rfl, ?_, ?_, ?_, ?_⟩
          · rw [hf]; ext <;> simp [cubicAt]
          · rw [hf]; ext <;> simp [cubicAt]
          · rintro v ⟨h1, h2⟩
            rw [hf] at h1 h2
            exact ⟨(h1.unique (cubic_deriv _ _ _ _ _)).trans (by ring), (h2.unique (cubic_deriv _ _ _ _ _)).trans (by ring)⟩
          · rintro v ⟨h1, h2⟩
            rw [hf] at h1 h2
            exact ⟨(h1.unique (cubic_deriv _ _ _ _ _)).trans (by ring), (h2.unique (cubic_deriv _ _ _ _ _)).trans (by ring)⟩

/-- the test of two curves of the same sort -/
theorem continues_iff {k : ℚ} (hk : 0 < k) {s c e d v w : Pt ℚ} (hvx : v.x = k * (c.x - s.x)) (hvy : v.y = k * (c.y - s.y))
    (hwx : w.x = k * (e.x - d.x)) (hwy : w.y = k * (e.y - d.y)) :
    continues (some s) (some c) (some e) (some d) = .ok (decide (BothWithin err s e ∧ BothWithin (k * err) v w)) := by
  unfold continues optEq
  simp only [eq_within]
  have h : BothWithin (k * err) v w ↔ BothWithin err (c.sub s) (e.sub d) :=
    within_scale hk (by simp [Pt.sub, hvx, hwx]; ring) (by simp [Pt.sub, hvy, hwy]; ring)
  by_cases h1 : BothWithin err s e <;> simp [h1, h]

end SmoothJoin

open SmoothJoin

/-- C161: after a curve of the same sort, `is_smooth_from` says whether this curve begins where the other ends and with the velocity it ends
with, up to the tolerance of points -/
theorem C161_after_curve {numpy : Bool} {a b : Seg ℚ} {f g : ℚ → Pt ℚ} (hf : ∀ t, a.point numpy t = .ok (f t)) (hg : ∀ t, b.point numpy t = .ok (g t))
    {v w : Pt ℚ} (hv : Velocity f 1 v) (hw : Velocity g 0 w) :
    (∀ c d, a.kind = .quad c → b.kind = .quad d →
      isSmoothFrom b (some a) = .ok (decide (BothWithin (1 / 10 ^ 12) (g 0) (f 1) ∧ BothWithin (2 * (1 / 10 ^ 12)) w v))) ∧
    ∀ c c' d d', a.kind = .cubic c c' → b.kind = .cubic d d' →
      isSmoothFrom b (some a) = .ok (decide (BothWithin (1 / 10 ^ 12) (g 0) (f 1) ∧ BothWithin (3 * (1 / 10 ^ 12)) w v)) := by
  constructor
  · intro c d ha hb
    obtain ⟨p, c, q, -, rfl, h2, -, e1, -, h3⟩ := quad_points ha hf
    obtain ⟨p', d, q', h1', rfl, -, e1', -, h3', -⟩ := quad_points hb hg
    rw [e1, e1']
    simp only [isSmoothFrom, ha, hb, h2, h1']
    exact continues_iff (by norm_num) (h3' w hw).1 (h3' w hw).2 (h3 v hv).1 (h3 v hv).2
  · intro c c' d d' ha hb
    obtain ⟨p, c, e, q, -, rfl, rfl, h2, -, e1, -, h3⟩ := cubic_points ha hf
    obtain ⟨p', d, e', q', h1', rfl, rfl, -, e1', -, h3', -⟩ := cubic_points hb hg
    rw [e1, e1']
    simp only [isSmoothFrom, ha, hb, h2, h1']
    exact continues_iff (by norm_num) (h3' w hw).1 (h3' w hw).2 (h3 v hv).1 (h3 v hv).2

/-- C161: first in a path, or after any other segment, `is_smooth_from` says whether this curve begins at rest -/
theorem C161_after_other {numpy : Bool} {b : Seg ℚ} {g : ℚ → Pt ℚ} (hg : ∀ t, b.point numpy t = .ok (g t)) {w : Pt ℚ} (hw : Velocity g 0 w)
    (prev : Option (Seg ℚ)) :
    (∀ d, b.kind = .quad d → (∀ a c, prev = some a → a.kind ≠ .quad c) → isSmoothFrom b prev = .ok (decide (BothWithin (2 * (1 / 10 ^ 12)) w ⟨0, 0⟩))) ∧
    ∀ d d', b.kind = .cubic d d' → (∀ a c c', prev = some a → a.kind ≠ .cubic c c') →
      isSmoothFrom b prev = .ok (decide (BothWithin (3 * (1 / 10 ^ 12)) w ⟨0, 0⟩)) := by
  constructor
  · intro d hb ha
    obtain ⟨p, d, q, h1, rfl, -, -, -, h3, -⟩ := quad_points hb hg
    have h : BothWithin (2 * err) w ⟨0, 0⟩ ↔ BothWithin err d p := within_scale (by norm_num) (by simp [(h3 w hw).1]) (by simp [(h3 w hw).2])
    have e : optEq (some d) (some p) = decide (BothWithin (2 * (1 / 10 ^ 12)) w ⟨0, 0⟩) := by
      rw [show optEq (some d) (some p) = d.eq p from rfl, eq_within]
      exact decide_eq_decide.2 h.symm
    unfold isSmoothFrom
    simp only [hb, h1]
    cases prev with
    | none => simp only [e]
    | some a =>
      cases hk : a.kind with
      | quad c => exact absurd hk (ha a c rfl)
      | _ => simp only [hk, e]
  · intro d d' hb ha
    obtain ⟨p, d, d', q, h1, rfl, rfl, -, -, -, h3, -⟩ := cubic_points hb hg
    have h : BothWithin (3 * err) w ⟨0, 0⟩ ↔ BothWithin err d p := within_scale (by norm_num) (by simp [(h3 w hw).1]) (by simp [(h3 w hw).2])
    have e : optEq (some d) (some p) = decide (BothWithin (3 * (1 / 10 ^ 12)) w ⟨0, 0⟩) := by
      rw [show optEq (some d) (some p) = d.eq p from rfl, eq_within]
      exact decide_eq_decide.2 h.symm
    unfold isSmoothFrom
    simp only [hb, h1]
    cases prev with
    | none => simp only [e]
    | some a =>
      cases hk : a.kind with
      | cubic c c' => exact absurd hk (ha a c c' rfl)
      | _ => simp only [hk, e]

/-- C161: two halves of a wave, and then one that sets out too fast -/
example : isSmoothFrom ⟨.quad (some ⟨3, -1⟩), some ⟨2, 0⟩, some ⟨4, 0⟩, false, true⟩ (some ⟨.quad (some ⟨1, 1⟩), some ⟨0, 0⟩, some ⟨2, 0⟩, false, true⟩) = .ok true ∧
    isSmoothFrom ⟨.quad (some ⟨4, -2⟩), some ⟨2, 0⟩, some ⟨4, 0⟩, false, true⟩ (some ⟨.quad (some ⟨1, 1⟩), some ⟨0, 0⟩, some ⟨2, 0⟩, false, true⟩) =
      .ok false := by
  have v1 : Velocity (fun t => ⟨quadAt 0 1 2 t, quadAt 0 1 0 t⟩) 1 ⟨2, -2⟩ :=
    ⟨(quad_deriv 0 1 2 1).congr_deriv (by norm_num), (quad_deriv 0 1 0 1).congr_deriv (by norm_num)⟩
  have v2 : Velocity (fun t => ⟨quadAt 2 3 4 t, quadAt 0 (-1) 0 t⟩) 0 ⟨2, -2⟩ :=
    ⟨(quad_deriv 2 3 4 0).congr_deriv (by norm_num), (quad_deriv 0 (-1) 0 0).congr_deriv (by norm_num)⟩
  have v3 : Velocity (fun t => ⟨quadAt 2 4 4 t, quadAt 0 (-2) 0 t⟩) 0 ⟨4, -4⟩ :=
    ⟨(quad_deriv 2 4 4 0).congr_deriv (by norm_num), (quad_deriv 0 (-2) 0 0).congr_deriv (by norm_num)⟩
  constructor
  · rw [(C161_after_curve (numpy := true) (fun _ => rfl) (fun _ => rfl) v1 v2).1 _ _ rfl rfl]
    norm_num [BothWithin, quadAt]
  · rw [(C161_after_curve (numpy := true) (fun _ => rfl) (fun _ => rfl) v1 v3).1 _ _ rfl rfl]
    norm_num [BothWithin, quadAt]

/-- C161: a curve that begins at rest, first in a path -/
example : isSmoothFrom ⟨.cubic (some ⟨2, 0⟩) (some ⟨3, 1⟩), some ⟨2, 0⟩, some ⟨4, 0⟩, false, true⟩ none = .ok true := by
  have v : Velocity (fun t => ⟨cubicAt 2 2 3 4 t, cubicAt 0 0 1 0 t⟩) 0 ⟨0, 0⟩ :=
    ⟨(cubic_deriv 2 2 3 4 0).congr_deriv (by norm_num), (cubic_deriv 0 0 1 0 0).congr_deriv (by norm_num)⟩
  rw [(C161_after_other (numpy := true) (fun _ => rfl) v none).2 _ _ rfl (by simp)]
  norm_num [BothWithin]

end Svgio.Props
