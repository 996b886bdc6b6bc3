import Verif.Lemmas.Hull
import Mathlib.Data.List.Sort
import Mathlib.Data.Finset.Card
import Mathlib.Data.List.Rotate

/-! The run of `Point.convex_hull`. -/

namespace Svgio

open Spec
open Pt (scanStep)

section
variable {K : Type} [Field K] [LinearOrder K] [IsStrictOrderedRing K]

/-- `e` comes before `t` in `l` -/
def Before (l : List (Pt K)) (e t : Pt K) : Prop := ∃ l1 l2, l = l1 ++ t :: l2 ∧ e ∈ l1

theorem hullNext_eq (p : Pt K) (l : List (Pt K)) : Pt.hullNext p l = l.foldl (scanStep p) p := rfl

theorem scanStep_of_ne {p e t : Pt K} (h : p ≠ e) : scanStep p e t = if 0 < area2 p t e then t else e := by
  simp [scanStep, h, orientation_two]

/-- what is known during the scan from `p`, having seen `pre` -/
def ScanInv (f p : Pt K) (pre : List (Pt K)) (e : Pt K) : Prop :=
  (e = f ∧ ∀ t ∈ pre, area2 f p t ≤ 0) ∨
  (e ∈ pre ∧ Up f p e ∧ (∀ t ∈ pre, 0 < area2 f p t → 0 ≤ area2 p e t) ∧
    ∀ t s, Before pre s t → Beyond f p t → 0 < area2 f p s → area2 f p e = 0)

theorem beyond_area {f p t : Pt K} (h : Beyond f p t) : area2 f p t = 0 := by
  obtain ⟨m, -, hx, hy⟩ := h
  have hx' : t.x = p.x + m * (p.x - f.x) := by linear_combination hx
  have hy' : t.y = p.y + m * (p.y - f.y) := by linear_combination hy
  simp only [area2, hx', hy']; ring

theorem up_nonneg {f p e : Pt K} (h : Up f p e) : 0 ≤ area2 f p e := by
  rcases h with h | h
  · exact h.le
  · rw [beyond_area h]

theorem up_ne {f p e : Pt K} (hp : p ≠ f) (h : Up f p e) : p ≠ e := by
  rintro rfl
  rcases h with h | ⟨m, hm, hx, hy⟩
  · simp [area2] at h
    have : (p.x - f.x) * (p.y - f.y) - (p.y - f.y) * (p.x - f.x) = 0 := by ring
    linarith
  · rw [sub_self] at hx hy
    have h1 := (mul_eq_zero.1 hx.symm).resolve_left hm.ne'
    have h2 := (mul_eq_zero.1 hy.symm).resolve_left hm.ne'
    exact hp (Pt.ext (sub_eq_zero.1 h1) (sub_eq_zero.1 h2))

theorem before_snoc {pre : List (Pt K)} {t s u : Pt K} (h : Before (pre ++ [u]) s t) :
    Before pre s t ∨ (t = u ∧ s ∈ pre) := by
  obtain ⟨l1, l2, hl, hs⟩ := h
  rcases List.eq_nil_or_concat l2 with rfl | ⟨l3, v, rfl⟩
  · have := List.append_inj' hl rfl
    simp at this
    exact Or.inr ⟨this.2.symm, this.1 ▸ hs⟩
  · left
    have : pre ++ [u] = (l1 ++ t :: l3) ++ [v] := by simp [hl]
    have := List.append_inj' this rfl
    exact ⟨l1, l3, this.1, hs⟩

theorem scan_step {f p : Pt K} {l pre post : List (Pt K)} {t e : Pt K} (hp : p ≠ f)
    (hT : Turn f l (Before l) p) (hl : l = pre ++ t :: post) (hI : ScanInv f p pre e) :
    ScanInv f p (pre ++ [t]) (scanStep p e t) := by
  rcases hI with ⟨rfl, h0⟩ | ⟨hmem, hup, hA, hB⟩
  · rw [scanStep_of_ne hp]
    have id : area2 p t e = area2 e p t := by simp only [area2]; ring
    rw [id]
    split_ifs with h
    · right
      refine ⟨by simp, Or.inl h, ?_, ?_⟩
      · intro s hs h1
        rcases List.mem_append.1 hs with hs | hs
        · exact absurd (h0 s hs) (not_le.2 h1)
        · rw [List.mem_singleton] at hs; subst hs
          simp only [area2]; apply le_of_eq; ring
      · intro s u hb hbe h1
        rcases before_snoc hb with ⟨l1, l2, hl', hu⟩ | ⟨rfl, hu⟩
        · exact absurd (h0 u (by rw [hl']; simp [hu])) (not_le.2 h1)
        · exact absurd (h0 u hu) (not_le.2 h1)
    · left
      refine ⟨rfl, ?_⟩
      intro s hs
      rcases List.mem_append.1 hs with hs | hs
      · exact h0 s hs
      · rw [List.mem_singleton] at hs; subst hs; exact not_lt.1 h
  · right
    rw [scanStep_of_ne (up_ne hp hup)]
    have hel : e ∈ l := by rw [hl]; simp [hmem]
    have htl : t ∈ l := by rw [hl]; simp
    split_ifs with h
    · have hge : 0 ≤ area2 f p t := by
        by_contra hc
        exact absurd (hT t htl e hel ⟨pre, post, hl, hmem⟩ (not_le.1 hc) hup) (not_le.2 h)
      have hepos : 0 < area2 f p e := by
        rcases hup with hup | ⟨m, hm, hx, hy⟩
        · exact hup
        · exfalso
          have e1 : area2 p t e = - m * area2 f p t := by
            simp only [area2, hx, hy]; ring
          have := mul_nonneg hm.le hge
          linarith
      refine ⟨by simp, ?_, ?_, ?_⟩
      · rcases lt_or_eq_of_le hge with h1 | h1
        · exact Or.inl h1
        · right
          obtain ⟨m, hx, hy⟩ := on_ray hp h1.symm
          refine ⟨m, ?_, hx, hy⟩
          have e1 : area2 p t e = m * area2 f p e := by
            simp only [area2, hx, hy]; ring
          by_contra hc
          have := mul_nonpos_of_nonpos_of_nonneg (not_lt.1 hc) hepos.le
          linarith
      · intro s hs h1
        rcases List.mem_append.1 hs with hs | hs
        · have h2 := hA s hs h1
          have id : area2 f p e * area2 p t s = area2 f p t * area2 p e s + area2 f p s * area2 p t e := by
            simp only [area2]; ring
          refine nonneg_of_pos_mul hepos ?_
          rw [id]
          have := mul_nonneg hge h2
          have := mul_nonneg h1.le h.le
          linarith
        · rw [List.mem_singleton] at hs; subst hs
          simp only [area2]; apply le_of_eq; ring
      · intro s u hb hbe h1
        rcases before_snoc hb with hb | ⟨rfl, hu⟩
        · exact absurd (hB s u hb hbe h1) hepos.ne'
        · exact beyond_area hbe
    · refine ⟨by simp [hmem], hup, ?_, ?_⟩
      · intro s hs h1
        rcases List.mem_append.1 hs with hs | hs
        · exact hA s hs h1
        · rw [List.mem_singleton] at hs; subst hs
          have : area2 p e s = - area2 p s e := by simp only [area2]; ring
          rw [this]; linarith
      · intro s u hb hbe h1
        rcases before_snoc hb with hb | ⟨rfl, hu⟩
        · exact hB s u hb hbe h1
        · obtain ⟨m, hm, hx, hy⟩ := hbe
          have e1 : area2 p s e = m * area2 f p e := by
            simp only [area2, hx, hy]; ring
          have h2 := nonpos_of_pos_mul hm (by rw [← e1]; linarith)
          exact le_antisymm h2 (up_nonneg hup)

theorem scan_fold {f p : Pt K} {l : List (Pt K)} (hp : p ≠ f) (hT : Turn f l (Before l) p) :
    ∀ (post pre : List (Pt K)) (e : Pt K), l = pre ++ post → ScanInv f p pre e →
      ScanInv f p l (post.foldl (scanStep p) e)
  | [], pre, e, hl, hI => by rw [List.append_nil] at hl; rw [hl]; exact hI
  | t :: post, pre, e, hl, hI => by
    rw [List.foldl_cons]
    exact scan_fold hp hT post (pre ++ [t]) _ (by simp [hl]) (scan_step hp hT hl hI)

/-- the scan from a point other than the first -/
theorem scan_result {f p : Pt K} {r : List (Pt K)} (hp : p ≠ f)
    (hT : Turn f (f :: r) (Before (f :: r)) p) : ScanInv f p (f :: r) (Pt.hullNext p (f :: r)) := by
  rw [hullNext_eq, List.foldl_cons]
  refine scan_fold hp hT r [f] _ rfl ?_
  left
  refine ⟨by simp [scanStep], ?_⟩
  intro t ht
  rw [List.mem_singleton] at ht; subst ht
  simp only [area2]; apply le_of_eq; ring

/-- what is known during the scan from the first point -/
def FirstInv (f : Pt K) (pre : List (Pt K)) (e : Pt K) : Prop :=
  e ∈ pre ∧ ∀ s ∈ pre, 0 ≤ area2 f e s ∨ (s.x = f.x ∧ f.x < e.x)

theorem first_fold {f : Pt K} {r : List (Pt K)} (hs : r.Pairwise (fun a b => a.x ≤ b.x)) (hx : ∀ t ∈ r, f.x ≤ t.x)
    (hf : ∀ t ∈ r, t ≠ f) :
    ∀ (post pre : List (Pt K)) (e : Pt K), r = pre ++ post → FirstInv f pre e →
      FirstInv f r (post.foldl (scanStep f) e)
  | [], pre, e, hl, hI => by rw [List.append_nil] at hl; rw [hl]; exact hI
  | t :: post, pre, e, hl, ⟨hmem, hI⟩ => by
    rw [List.foldl_cons]
    refine first_fold hs hx hf post (pre ++ [t]) _ (by simp [hl]) ?_
    have her : e ∈ r := by rw [hl]; simp [hmem]
    have htr : t ∈ r := by rw [hl]; simp
    have Xe := hx e her
    have Xt := hx t htr
    rw [scanStep_of_ne (hf e her).symm]
    split_ifs with h
    · refine ⟨by simp, ?_⟩
      have htpos : f.x < t.x := by
        rcases lt_or_eq_of_le Xt with h1 | h1
        · exact h1
        · exfalso
          have : e.x ≤ t.x := by
            rw [hl, List.pairwise_append] at hs
            exact hs.2.2 e hmem t (by simp)
          have he' : e.x = f.x := le_antisymm (by rw [h1]; exact this) Xe
          simp [area2, he', h1.symm] at h
      intro s hs'
      rcases List.mem_append.1 hs' with hs' | hs'
      · have Xs := hx s (by rw [hl]; simp [hs'])
        rcases lt_or_eq_of_le Xs with h1 | h1
        · left
          have h2 := (hI s hs').resolve_right (by rintro ⟨h3, -⟩; exact h1.ne' h3)
          have hepos : 0 < e.x - f.x := by
            rcases lt_or_eq_of_le (sub_nonneg.2 Xe) with h3 | h3
            · exact h3
            · exfalso
              have e1 : area2 f t e = (t.x - f.x) * (e.y - f.y) := by simp only [area2, ← h3]; ring
              have e2 : area2 f e s = - ((s.x - f.x) * (e.y - f.y)) := by simp only [area2, ← h3]; ring
              have h4 : 0 < e.y - f.y := by
                by_contra hc
                have := mul_nonpos_of_nonneg_of_nonpos (sub_nonneg.2 Xt) (not_lt.1 hc)
                linarith
              have := mul_pos (a := s.x - f.x) (by linarith) h4
              linarith
          have id : (e.x - f.x) * area2 f t s = (t.x - f.x) * area2 f e s + (s.x - f.x) * area2 f t e := by
            simp only [area2]; ring
          refine nonneg_of_pos_mul hepos ?_
          rw [id]
          have := mul_nonneg (sub_nonneg.2 Xt) h2
          have := mul_nonneg (sub_nonneg.2 Xs) h.le
          linarith
        · exact Or.inr ⟨h1.symm, htpos⟩
      · rw [List.mem_singleton] at hs'; subst hs'
        left; simp only [area2]; apply le_of_eq; ring
    · refine ⟨by simp [hmem], ?_⟩
      intro s hs'
      rcases List.mem_append.1 hs' with hs' | hs'
      · exact hI s hs'
      · rw [List.mem_singleton] at hs'; subst hs'
        left
        have : area2 f e s = - area2 f s e := by simp only [area2]; ring
        rw [this]; linarith

theorem first_result {f a : Pt K} {r : List (Pt K)} (hs : (a :: r).Pairwise (fun a b => a.x ≤ b.x))
    (hx : ∀ t ∈ a :: r, f.x ≤ t.x) (hf : ∀ t ∈ a :: r, t ≠ f) :
    FirstInv f (a :: r) (Pt.hullNext f (f :: a :: r)) := by
  rw [hullNext_eq, List.foldl_cons, List.foldl_cons]
  have h1 : scanStep f f f = f := by simp [scanStep]
  have h2 : scanStep f f a = a := by simp [scanStep]
  rw [h1, h2]
  refine first_fold hs hx hf r [a] a rfl ⟨by simp, ?_⟩
  intro s hs'
  rw [List.mem_singleton] at hs'; subst hs'
  left; simp only [area2]; apply le_of_eq; ring

theorem first_turn {f : Pt K} {r : List (Pt K)} {q : Pt K} (hs : (f :: r).Pairwise (fun a b => a.x ≤ b.x))
    (hI : FirstInv f r q) : Turn f (f :: r) (Before (f :: r)) q := by
  intro t ht e he ⟨l1, l2, hl, hel⟩ hlow hup
  have hsf : ∀ s ∈ f :: r, f.x ≤ s.x := by
    intro s hs'
    rcases List.mem_cons.1 hs' with rfl | hs'
    · exact le_rfl
    · exact (List.pairwise_cons.1 hs).1 s hs'
  rcases List.mem_cons.1 ht with rfl | ht'
  · simp only [area2] at hlow; simp at hlow
  · obtain ⟨htx, hqx⟩ := (hI.2 t ht').resolve_left (not_le.2 hlow)
    have hex : e.x = f.x := by
      have : e.x ≤ t.x := by
        rw [hl, List.pairwise_append] at hs
        exact hs.2.2 e hel t (by simp)
      exact le_antisymm (by rw [← htx]; exact this) (hsf e he)
    rcases hup with hup | ⟨m, hm, hx, -⟩
    · have e1 : area2 q t e = area2 f q t - area2 f q e := by
        simp only [area2, hex, htx]; ring
      linarith
    · exfalso
      have := mul_pos hm (sub_pos.2 hqx)
      rw [hex] at hx
      linarith

/-- position of a point as seen from `f`: a number increasing with the angle, and the distance -/
def ang (f p : Pt K) : K := (p.y - f.y) / (p.x - f.x + |p.y - f.y|)
def far (f p : Pt K) : K := p.x - f.x + |p.y - f.y|

theorem far_pos {f p : Pt K} (hp : p ≠ f) (hx : f.x ≤ p.x) : 0 < far f p := by
  unfold far
  rcases lt_or_eq_of_le (sub_nonneg.2 hx) with h | h
  · have := abs_nonneg (p.y - f.y); linarith
  · rw [← h, zero_add]
    apply abs_pos.2
    intro hy
    exact hp (Pt.ext (by linarith) (sub_eq_zero.1 hy))

/-- the points higher than `p` in the order of angle, then distance -/
def Higher (f p t : Pt K) : Prop := ang f p < ang f t ∨ (ang f p = ang f t ∧ far f p < far f t)

theorem higher_trans {f a b c : Pt K} (h1 : Higher f a b) (h2 : Higher f b c) : Higher f a c := by
  rcases h1 with h1 | ⟨h1, h1'⟩ <;> rcases h2 with h2 | ⟨h2, h2'⟩
  · exact Or.inl (h1.trans h2)
  · exact Or.inl (h2 ▸ h1)
  · exact Or.inl (h1 ▸ h2)
  · exact Or.inr ⟨h1.trans h2, h1'.trans h2'⟩

theorem higher_irrefl {f a : Pt K} : ¬ Higher f a a := by
  rintro (h | ⟨-, h⟩) <;> exact lt_irrefl _ h

theorem up_higher {f p q : Pt K} (hp : p ≠ f) (hpx : f.x ≤ p.x) (hqf : q ≠ f) (hqx : f.x ≤ q.x)
    (h : Up f p q) : Higher f p q := by
  have fp := far_pos hp hpx
  have fq := far_pos hqf hqx
  rcases h with h | ⟨m, hm, hx, hy⟩
  · left
    unfold ang
    unfold far at fp fq
    rw [div_lt_div_iff₀ fp fq]
    simp only [area2] at h
    have X := sub_nonneg.2 hpx
    have X' := sub_nonneg.2 hqx
    rcases abs_cases (p.y - f.y) with ⟨h1, h1'⟩ | ⟨h1, h1'⟩ <;>
      rcases abs_cases (q.y - f.y) with ⟨h2, h2'⟩ | ⟨h2, h2'⟩ <;> rw [h1, h2]
    · linarith
    · exfalso
      have := mul_nonpos_of_nonneg_of_nonpos X h2'.le
      have := mul_nonneg h1' X'
      linarith
    · have := mul_nonpos_of_nonpos_of_nonneg h1'.le h2'
      linarith
    · linarith
  · right
    have hx' : q.x - f.x = (1 + m) * (p.x - f.x) := by linear_combination hx
    have hy' : q.y - f.y = (1 + m) * (p.y - f.y) := by linear_combination hy
    have h1 : (0 : K) < 1 + m := by linarith
    have hfar : far f q = (1 + m) * far f p := by
      unfold far
      rw [hx', hy', abs_mul, abs_of_pos h1]; ring
    constructor
    · have : ang f q = (q.y - f.y) / far f q := rfl
      rw [this, hfar, hy', mul_div_mul_left _ _ h1.ne']; rfl
    · rw [hfar]
      have := mul_pos hm fp
      linarith

end

end Svgio
