import Verif.Model.Point
import Verif.Spec.Plane
import Mathlib.Tactic.Linarith
import Mathlib.Tactic.LinearCombination
import Mathlib.Tactic.FieldSimp
import Mathlib.Tactic.Ring

/-! Geometry of one step of `Point.convex_hull`. -/

namespace Svgio

open Spec

section
variable {K : Type} [Field K] [LinearOrder K] [IsStrictOrderedRing K]

theorem orientation_two {p t e : Pt K} : Pt.orientation p t e = 2 ↔ 0 < area2 p t e := by
  have : (t.y - p.y) * (e.x - t.x) - (t.x - p.x) * (e.y - t.y) = - area2 p t e := by
    simp only [area2]; ring
  simp only [Pt.orientation, this]
  split_ifs with h1 h2
  · simp only [neg_eq_zero] at h1; simp [h1]
  · simp only [gt_iff_lt, neg_pos] at h2; simp; exact h2.le
  · simp only [gt_iff_lt, neg_pos, not_lt] at h2; simp only [neg_eq_zero] at h1
    simp; exact lt_of_le_of_ne h2 (Ne.symm h1)

/-- `t` lies on the ray from `f` through `p`, farther than `p` -/
def Beyond (f p t : Pt K) : Prop := ∃ m : K, 0 < m ∧ t.x - p.x = m * (p.x - f.x) ∧ t.y - p.y = m * (p.y - f.y)

theorem on_ray {f p t : Pt K} (hp : p ≠ f) (h : area2 f p t = 0) :
    ∃ m : K, t.x - p.x = m * (p.x - f.x) ∧ t.y - p.y = m * (p.y - f.y) := by
  simp only [area2] at h
  by_cases hx : p.x - f.x = 0
  · have hy : p.y - f.y ≠ 0 := by
      intro hy; exact hp (Pt.ext (sub_eq_zero.1 hx) (sub_eq_zero.1 hy))
    refine ⟨(t.y - p.y) / (p.y - f.y), ?_, by field_simp⟩
    rw [hx] at h ⊢
    have h' : (p.y - f.y) * (t.x - f.x) = 0 := by linear_combination -h
    have h2 := (mul_eq_zero.1 h').resolve_left hy
    linear_combination h2 - hx
  · refine ⟨(t.x - p.x) / (p.x - f.x), by field_simp, ?_⟩
    field_simp
    linear_combination h

theorem nonpos_of_pos_mul {a x : K} (ha : 0 < a) (h : a * x ≤ 0) : x ≤ 0 := by
  by_contra hx
  exact absurd (mul_pos ha (not_le.1 hx)) (not_lt.2 h)

theorem nonneg_of_pos_mul {a x : K} (ha : 0 < a) (h : 0 ≤ a * x) : 0 ≤ x := by
  by_contra hx
  exact absurd (mul_neg_of_pos_of_neg ha (not_le.1 hx)) (not_lt.2 h)

/-- the next point is above `p` as seen from `f`, or farther on the same ray -/
def Up (f p q : Pt K) : Prop := 0 < area2 f p q ∨ Beyond f p q

/-- no point below `p` is reached from a point above, among the pairs in `B` -/
def Turn (f : Pt K) (l : List (Pt K)) (B : Pt K → Pt K → Prop) (p : Pt K) : Prop :=
  ∀ t ∈ l, ∀ e ∈ l, B e t → area2 f p t < 0 → Up f p e → area2 p t e ≤ 0

/-- the middle ray of three -/
theorem quad_core {f p q t e : Pt K} (h1 : 0 < area2 f p q) (h2 : area2 f q t < 0) (h3 : 0 < area2 f q e)
    (h4 : 0 ≤ area2 p q e) (h5 : 0 ≤ area2 p q t) : area2 q t e ≤ 0 := by
  have id : area2 f p q * area2 q t e = area2 f q t * area2 p q e - area2 f q e * area2 p q t := by
    simp only [area2]; ring
  refine nonpos_of_pos_mul h1 ?_
  rw [id]
  have := mul_nonpos_of_nonpos_of_nonneg h2.le h4
  have := mul_nonneg h3.le h5
  linarith

theorem turn_up {f : Pt K} {l : List (Pt K)} {B : Pt K → Pt K → Prop} {p q : Pt K} (hx : ∀ t ∈ l, f.x ≤ t.x)
    (hpl : p ∈ l) (hql : q ∈ l) (hp : p ≠ f) (hT : Turn f l B p) (hq : Up f p q)
    (hA : ∀ t ∈ l, 0 < area2 f p t → 0 ≤ area2 p q t)
    (hB : ∀ t ∈ l, ∀ e ∈ l, B e t → Beyond f p t → 0 < area2 f p e → area2 f p q = 0) : Turn f l B q := by
  intro t ht e he hb hlow hup
  have Xp := hx p hpl
  have Xq := hx q hql
  have Xt := hx t ht
  have Xe := hx e he
  rcases hq with hq | ⟨m, hm, hmx, hmy⟩
  · rcases hup with hup | ⟨n, hn, hnx, hny⟩
    · -- `e` above `q`
      have id : (q.x - f.x) * area2 f p e = (p.x - f.x) * area2 f q e + (e.x - f.x) * area2 f p q := by
        simp only [area2]; ring
      have n1 := mul_nonneg (sub_nonneg.2 Xp) hup.le
      have n2 := mul_nonneg (sub_nonneg.2 Xe) hq.le
      have hqx : 0 < q.x - f.x := by
        rcases lt_or_eq_of_le (sub_nonneg.2 Xq) with h | h
        · exact h
        · exfalso
          rw [← h, zero_mul] at id
          have z1 : (p.x - f.x) * area2 f q e = 0 := by linarith
          have z1' := (mul_eq_zero.1 z1).resolve_right hup.ne'
          simp only [area2, z1', ← h] at hq
          simp at hq
      have hpe : 0 ≤ area2 f p e := nonneg_of_pos_mul hqx (by rw [id]; linarith)
      rcases lt_or_eq_of_le hpe with hpe | hpe
      · have h4 := hA e he hpe
        rcases lt_trichotomy (area2 f p t) 0 with h | h | h
        · have h6 := hT t ht e he hb h (Or.inl hpe)
          by_cases h5 : 0 ≤ area2 p q t
          · exact quad_core hq hlow hup h4 h5
          · have id2 : area2 q t e = area2 p t e + area2 p q t - area2 p q e := by
              simp only [area2]; ring
            push Not at h5
            linarith
        · obtain ⟨m, hmx, hmy⟩ := on_ray hp h
          by_cases hm : 0 < m
          · exact absurd (hB t ht e he hb ⟨m, hm, hmx, hmy⟩ hpe) hq.ne'
          · have h5 : area2 p q t = - m * area2 f p q := by
              simp only [area2, hmx, hmy]; ring
            push Not at hm
            exact quad_core hq hlow hup h4 (by rw [h5]; exact mul_nonneg (by linarith) hq.le)
        · exact quad_core hq hlow hup h4 (hA t ht h)
      · -- `p` straight below and `e` straight above `f`
        rw [← hpe, mul_zero] at id
        have z1 : (p.x - f.x) * area2 f q e = 0 := by linarith
        have z1' := (mul_eq_zero.1 z1).resolve_right hup.ne'
        have z2 : (e.x - f.x) * area2 f p q = 0 := by linarith
        have z2' := (mul_eq_zero.1 z2).resolve_right hq.ne'
        have e1 : area2 f p q = -(p.y - f.y) * (q.x - f.x) := by simp only [area2, z1']; ring
        have e2 : area2 f p t = -(p.y - f.y) * (t.x - f.x) := by simp only [area2, z1']; ring
        have e3 : area2 f q e = (q.x - f.x) * (e.y - f.y) := by simp only [area2, z2']; ring
        have hpy : 0 < -(p.y - f.y) := by
          by_contra hc
          have := mul_nonpos_of_nonpos_of_nonneg (not_lt.1 hc) hqx.le
          linarith
        have hey : 0 < e.y - f.y := by
          by_contra hc
          have := mul_nonpos_of_nonneg_of_nonpos hqx.le (not_lt.1 hc)
          linarith
        have e4 : area2 q t e = area2 f q t + (e.y - f.y) * (t.x - q.x) := by
          have : e.x = f.x := sub_eq_zero.1 z2'
          simp only [area2, this]; ring
        rcases lt_or_eq_of_le (sub_nonneg.2 Xt) with h | h
        · have h5 := hA t ht (by rw [e2]; exact mul_pos hpy h)
          have e5 : area2 p q t = area2 f q t + -(p.y - f.y) * (q.x - t.x) := by
            have : p.x = f.x := sub_eq_zero.1 z1'
            simp only [area2, this]; ring
          have h6 : 0 < -(p.y - f.y) * (q.x - t.x) := by linarith
          have h7 : 0 < q.x - t.x := by
            by_contra hc
            have := mul_nonpos_of_nonneg_of_nonpos hpy.le (not_lt.1 hc)
            linarith
          have := mul_pos hey h7
          rw [e4]; linarith
        · have := mul_pos hey hqx
          have h8 : t.x = f.x := by linarith
          rw [e4, h8]; linarith
    · -- `e` beyond `q`: excluded
      exfalso
      have e1 : area2 f p e = (1 + n) * area2 f p q := by
        have hx' : e.x = q.x + n * (q.x - f.x) := by linear_combination hnx
        have hy' : e.y = q.y + n * (q.y - f.y) := by linear_combination hny
        simp only [area2, hx', hy']; ring
      have h1 := hA e he (by rw [e1]; exact mul_pos (by linarith) hq)
      have e2 : area2 p q e = - n * area2 f p q := by
        have hx' : e.x = q.x + n * (q.x - f.x) := by linear_combination hnx
        have hy' : e.y = q.y + n * (q.y - f.y) := by linear_combination hny
        simp only [area2, hx', hy']; ring
      have := mul_pos hn hq
      linarith
  · -- `q` beyond `p`
    have hx' : q.x = p.x + m * (p.x - f.x) := by linear_combination hmx
    have hy' : q.y = p.y + m * (p.y - f.y) := by linear_combination hmy
    have sc : ∀ s : Pt K, area2 f q s = (1 + m) * area2 f p s := by
      intro s; simp only [area2, hx', hy']; ring
    have hlow' : area2 f p t < 0 := by
      by_contra hc
      rw [sc] at hlow
      have := mul_nonneg (a := 1 + m) (by linarith) (not_lt.1 hc)
      linarith
    rcases hup with hup | ⟨n, hn, hnx, hny⟩
    · have hup' : 0 < area2 f p e := by
        by_contra hc
        rw [sc] at hup
        have := mul_nonpos_of_nonneg_of_nonpos (a := 1 + m) (by linarith) (not_lt.1 hc)
        linarith
      have h1 := hT t ht e he hb hlow' (Or.inl hup')
      have e1 : area2 q t e = area2 p t e + m * area2 f p t - m * area2 f p e := by
        simp only [area2, hx', hy']; ring
      have := mul_pos hm hup'
      have := mul_neg_of_pos_of_neg hm hlow'
      linarith
    · exfalso
      have ex : e.x - p.x = (m + n * (1 + m)) * (p.x - f.x) := by
        rw [hx'] at hnx; linear_combination hnx
      have ey : e.y - p.y = (m + n * (1 + m)) * (p.y - f.y) := by
        rw [hy'] at hny; linear_combination hny
      have hk : 0 < m + n * (1 + m) := by positivity
      have h1 := hT t ht e he hb hlow' (Or.inr ⟨_, hk, ex, ey⟩)
      have e1 : area2 p t e = -(m + n * (1 + m)) * area2 f p t := by
        have ex' : e.x = p.x + (m + n * (1 + m)) * (p.x - f.x) := by linear_combination ex
        have ey' : e.y = p.y + (m + n * (1 + m)) * (p.y - f.y) := by linear_combination ey
        simp only [area2, ex', ey']; ring
      have := mul_neg_of_pos_of_neg hk hlow'
      linarith

end

end Svgio
