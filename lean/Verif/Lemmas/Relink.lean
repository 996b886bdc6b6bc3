import Verif.Props.PathBuild

/-! Relinking the segments around an edited position. -/

namespace Svgio
open Spec Props

variable {K : Type} [Field K] [LinearOrder K]

/-- the code's link of a segment that ends at `e` with the first of `r` -/
def relink (e : Pt K) : List (Seg K) → List (Seg K)
  | [] => []
  | s :: r => (Path.link ⟨.move, none, some e, false, true⟩ s).2 :: r

/-- no close before the next move -/
def openList : List (Seg K) → Bool
  | [] => true
  | s :: r => s.isMove || (!s.isClose && openList r)

theorem vc_at {l r : List (Seg K)} {x : Seg K} {e : Pt K} (hx : x.stop = some e) {i : ℤ} (hi : i = l.length) :
    Path.validateConnection (l ++ x :: r) i = l ++ x :: relink e r := by
  subst hi
  unfold Path.validateConnection
  rw [if_neg (by omega)]
  simp only [Int.toNat_natCast]
  rw [show (l ++ x :: r)[l.length]? = some x by simp]
  cases r with
  | nil => simp [relink]
  | cons b r =>
    rw [show (l ++ x :: b :: r)[l.length + 1]? = some b by
      rw [List.getElem?_append_right (by omega)]; simp]
    simp only [link_some hx, relink]
    rw [List.set_append_right _ _ (by omega), List.set_append_right _ _ (by simp)]
    simp

theorem vc_neg {l : List (Seg K)} {i : ℤ} (hi : i < 0) : Path.validateConnection l i = l := by
  unfold Path.validateConnection; rw [if_pos hi]

theorem relink_cons (e : Pt K) (s : Seg K) (r : List (Seg K)) :
    ∃ v, relink e (s :: r) = { s with start := some v } :: r ∧ (e.eq v = true ∨ v = e) := by
  obtain ⟨v, hv, h1, -⟩ := link_snd e s
  exact ⟨v, by simp only [relink, hv], h1⟩

theorem relink_repairs (e : Pt K) (r : List (Seg K)) : List.Forall₂ Repairs r (relink e r) := by
  have hrefl : ∀ t : List (Seg K), List.Forall₂ Repairs t t := fun t =>
    List.forall₂_same.mpr (fun s _ => ⟨rfl, rfl, rfl, fun _ => rfl⟩)
  cases r with
  | nil => exact .nil
  | cons s r =>
    obtain ⟨v, hv, -⟩ := relink_cons e s r
    rw [hv]
    exact .cons ⟨rfl, rfl, rfl, fun _ => rfl⟩ (hrefl r)

theorem openList_relink (e : Pt K) (r : List (Seg K)) : openList (relink e r) = openList r := by
  cases r with
  | nil => rfl
  | cons s r =>
    obtain ⟨v, hv, -⟩ := relink_cons e s r
    rw [hv]; rfl

theorem closeNext_open {t : Option (Pt K)} {r : List (Seg K)} (h : openList r = true) : Path.closeNext t r = r := by
  induction r with
  | nil => rfl
  | cons s r ih =>
    unfold Path.closeNext
    unfold openList at h
    by_cases hm : s.isMove = true
    · rw [if_pos hm]
    · rw [if_neg hm]
      simp only [Bool.or_eq_true, hm, Bool.false_eq_true, false_or, Bool.and_eq_true, Bool.not_eq_true'] at h
      rw [h.1, ih h.2]; rfl

omit [Field K] [LinearOrder K] in
theorem chain_open {R S : Pt K → Pt K → Prop} {z z' e : Pt K} {r : List (Seg K)} (h : Chain R S z e r)
    (ho : openList r = true) : Chain R S z' e r := by
  induction r generalizing e with
  | nil => trivial
  | cons s r ih =>
    obtain ⟨v, u, h1, h2, h3, h4, h5⟩ := h
    unfold openList at ho
    by_cases hm : s.isMove = true
    · rw [if_pos hm] at h5
      refine ⟨v, u, h1, h2, h3, ?_, by rw [if_pos hm]; exact h5⟩
      intro hc
      rw [isClose_iff] at hc
      rw [isMove_iff, hc] at hm
      cases hm
    · simp only [Bool.or_eq_true, hm, Bool.false_eq_true, false_or, Bool.and_eq_true, Bool.not_eq_true'] at ho
      rw [if_neg hm] at h5
      refine ⟨v, u, h1, h2, h3, ?_, by rw [if_neg hm]; exact ih h5 ho.2⟩
      intro hc
      rw [ho.1] at hc; cases hc

theorem closeNext_chain {R : Pt K → Pt K → Prop} {z e : Pt K} {r : List (Seg K)} (h : Chain R Eq z e r) :
    Path.closeNext (some z) r = r := by
  induction r generalizing e with
  | nil => rfl
  | cons s r ih =>
    obtain ⟨v, u, h1, h2, h3, h4, h5⟩ := h
    unfold Path.closeNext
    by_cases hm : s.isMove = true
    · rw [if_pos hm]
    · rw [if_neg hm]
      rw [if_neg hm] at h5
      by_cases hc : s.isClose = true
      · rw [if_pos hc, h4 hc, ← h2]
      · rw [if_neg hc, ih h5]

variable [IsStrictOrderedRing K]

theorem chain_relink {S : Pt K → Pt K → Prop} {z z' e e' : Pt K} {r : List (Seg K)} (h : Chain Near S z e r)
    (hz : z' = z ∨ openList r = true) : Chain Near S z' e' (relink e' r) := by
  have h : Chain Near S z' e r := by
    rcases hz with rfl | ho
    · exact h
    · exact chain_open h ho
  cases r with
  | nil => trivial
  | cons s r =>
    obtain ⟨v', hv, hv1⟩ := relink_cons e' s r
    rw [hv]
    obtain ⟨v, u, h1, h2, h3, h4, h5⟩ := h
    refine ⟨v', u, rfl, h2, ?_, h4, h5⟩
    rcases hv1 with h | h
    · exact near_iff.mp h
    · rw [h]; exact near_refl _

end Svgio
