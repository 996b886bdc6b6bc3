import Verif.Model.SegBox
import Verif.Props.SubpathEdit
import Verif.Props.ArcBox

/-!
C97: the box of a subpath.
-/

namespace Svgio.Props
open Spec Seg Arc

/-- The segment draws the curve `f`: a move draws its end, a line or close the line between its ends, and the curves are those of
C58, C59 and C86, with the conditions of those properties. -/
inductive Draws (ang : ArcData ℝ → Bool) : Seg ℝ → (ℝ → Pt ℝ) → Prop
  | move {q : Pt ℝ} {o : Option (Pt ℝ)} {r s : Bool} (h : ∀ p, o = some p → p = q) : Draws ang ⟨.move, o, some q, r, s⟩ (fun _ => q)
  | line {p q : Pt ℝ} {r s : Bool} : Draws ang ⟨.line, some p, some q, r, s⟩ (between p q)
  | close {p q : Pt ℝ} {r s : Bool} : Draws ang ⟨.close, some p, some q, r, s⟩ (between p q)
  | quad {p c q : Pt ℝ} {r s : Bool} : Draws ang ⟨.quad (some c), some p, some q, r, s⟩ (bezier2 p c q)
  | cubic {p c d q : Pt ℝ} {r s : Bool} (hx : AxisOk p.x c.x d.x q.x) (hy : AxisOk p.y c.y d.y q.y) :
      Draws ang ⟨.cubic (some c) (some d), some p, some q, r, s⟩ (bezier3 p c d q)
  | arc {p q : Pt ℝ} {a : ArcData ℝ} {r s : Bool} {t : ℝ} (ha : 0 < rx a) (hb : 0 < ry a)
      (h1 : p = ellipse a.center (rx a) (ry a) (rotation a) t)
      (h2 : q = ellipse a.center (rx a) (ry a) (rotation a) (t + a.sweep)) (hw : sweepIsZero (ang a) a.sweep = false) :
      Draws ang ⟨.arc a, some p, some q, r, s⟩ (Arc.point (ang a) p q a)

theorem range_const (c : ℝ) : Range (fun _ : ℝ => c) c c :=
  ⟨fun _ _ _ => ⟨le_rfl, le_rfl⟩, ⟨0, le_rfl, zero_le_one, rfl⟩, ⟨0, le_rfl, zero_le_one, rfl⟩⟩

theorem box_of_draws {ang : ArcData ℝ → Bool} {s : Seg ℝ} {f : ℝ → Pt ℝ} (h : Draws ang s f) {fuel : ℕ} (hf : 2 ≤ fuel) :
    ∃ b, Seg.box fuel ang s = .ok b ∧ TightBox f b.xmin b.ymin b.xmax b.ymax := by
  cases h with
  | @move q o r s h =>
    cases o with
    | none => exact ⟨⟨q.x, q.y, q.x, q.y⟩, rfl, range_const _, range_const _⟩
    | some p =>
      rw [h p rfl]
      refine ⟨⟨min q.x q.x, min q.y q.y, max q.x q.x, max q.y q.y⟩, rfl, ?_, ?_⟩ <;> simp only [min_self, max_self] <;>
        exact range_const _
  | line => obtain ⟨x, h1, h2⟩ := C60_box (K := ℝ) _ _; exact ⟨x, h1, h2⟩
  | close => obtain ⟨x, h1, h2⟩ := C60_box (K := ℝ) _ _; exact ⟨x, h1, h2⟩
  | quad => exact ⟨_, rfl, C58_tight _ _ _⟩
  | cubic hx hy => exact ⟨_, rfl, C59_tight_partial _ _ _ _ hx hy⟩
  | arc ha hb h1 h2 hw =>
    obtain ⟨x, e1, e2⟩ := C86_tight_partial ha hb h1 h2 hw
    exact ⟨x, e1 fuel hf, e2⟩

/-- The box holds all the curves, and each side is touched by one of them. -/
def TightAround (fs : List (ℝ → Pt ℝ)) (xmin ymin xmax ymax : ℝ) : Prop :=
  (∀ f ∈ fs, ∀ t, 0 ≤ t → t ≤ 1 → (xmin ≤ (f t).x ∧ (f t).x ≤ xmax) ∧ (ymin ≤ (f t).y ∧ (f t).y ≤ ymax)) ∧
  (∃ f ∈ fs, ∃ t, 0 ≤ t ∧ t ≤ 1 ∧ (f t).x = xmin) ∧ (∃ f ∈ fs, ∃ t, 0 ≤ t ∧ t ≤ 1 ∧ (f t).x = xmax) ∧
  (∃ f ∈ fs, ∃ t, 0 ≤ t ∧ t ≤ 1 ∧ (f t).y = ymin) ∧ (∃ f ∈ fs, ∃ t, 0 ≤ t ∧ t ≤ 1 ∧ (f t).y = ymax)

theorem boxes_draws {ang : ArcData ℝ → Bool} {l : List (Seg ℝ)} {fs : List (ℝ → Pt ℝ)} (h : List.Forall₂ (Draws ang) l fs) {fuel : ℕ}
    (hf : 2 ≤ fuel) : ∃ bs, Path.boxes (Seg.box fuel ang) l = .ok bs ∧
      List.Forall₂ (fun f b => TightBox f b.xmin b.ymin b.xmax b.ymax) fs bs := by
  induction h with
  | nil => exact ⟨[], rfl, .nil⟩
  | cons h _ ih =>
    obtain ⟨b, e1, e2⟩ := box_of_draws h hf
    obtain ⟨bs, e3, e4⟩ := ih
    refine ⟨b :: bs, ?_, .cons e2 e4⟩
    unfold Path.boxes
    rw [e1]; simp only
    rw [e3]

theorem forall₂_right {α β : Type} {R : α → β → Prop} {l : List α} {l' : List β} (h : List.Forall₂ R l l') {b : β} (hb : b ∈ l') :
    ∃ a ∈ l, R a b := by
  induction h with
  | nil => simp at hb
  | cons h1 _ ih =>
    rcases List.mem_cons.mp hb with rfl | hb
    · exact ⟨_, by simp, h1⟩
    · obtain ⟨a, h, h'⟩ := ih hb; exact ⟨a, by simp [h], h'⟩

theorem forall₂_left {α β : Type} {R : α → β → Prop} {l : List α} {l' : List β} (h : List.Forall₂ R l l') {a : α} (ha : a ∈ l) :
    ∃ b ∈ l', R a b := by
  induction h with
  | nil => simp at ha
  | cons h1 _ ih =>
    rcases List.mem_cons.mp ha with rfl | ha
    · exact ⟨_, by simp, h1⟩
    · obtain ⟨b, h, h'⟩ := ih ha; exact ⟨b, by simp [h], h'⟩

/-- **C97**, partial: the box of a subpath holds the curves of all its segments, and each side is touched by one of them. Missing: a
move that starts elsewhere than it ends (`C97_move_wrong`), and the curves that C59 and C86 leave out. -/
theorem C97_tight_partial {ang : ArcData ℝ → Bool} {p : List (Seg ℝ)} {w : ℕ × ℕ} {fs : List (ℝ → Pt ℝ)}
    (h : List.Forall₂ (Draws ang) (Path.subIter p w) fs) (hne : fs ≠ []) {fuel : ℕ} (hf : 2 ≤ fuel) :
    ∃ b, Path.subBBox (Seg.box fuel ang) p w = .ok (some b) ∧ TightAround fs b.xmin b.ymin b.xmax b.ymax := by
  rw [subIter_eq] at h
  obtain ⟨bs, e1, e2⟩ := boxes_draws h hf
  cases bs with
  | nil => cases e2; exact absurd rfl hne
  | cons b r =>
    unfold Path.subBBox
    rw [e1]
    refine ⟨_, rfl, ?_⟩
    have side : ∀ g : BBox ℝ → ℝ, minOf (g b) (r.map g) ∈ (b :: r).map g ∧ maxOf (g b) (r.map g) ∈ (b :: r).map g ∧
        ∀ c ∈ b :: r, minOf (g b) (r.map g) ≤ g c ∧ g c ≤ maxOf (g b) (r.map g) := by
      intro g
      have := minOf_mem (g b) (r.map g)
      rw [← List.map_cons] at this
      refine ⟨this.1, this.2, fun c hc => minOf_le _ _ _ ?_⟩
      rw [← List.map_cons]
      exact List.mem_map.mpr ⟨c, hc, rfl⟩
    refine ⟨?_, ?_, ?_, ?_, ?_⟩
    · intro f hfm t ht0 ht1
      obtain ⟨c, hc, hx, hy⟩ := forall₂_left e2 hfm
      have a1 := (side (·.xmin)).2.2 c hc
      have a2 := (side (·.xmax)).2.2 c hc
      have a3 := (side (·.ymin)).2.2 c hc
      have a4 := (side (·.ymax)).2.2 c hc
      have b1 := hx.1 t ht0 ht1
      have b2 := hy.1 t ht0 ht1
      exact ⟨⟨a1.1.trans b1.1, b1.2.trans a2.2⟩, ⟨a3.1.trans b2.1, b2.2.trans a4.2⟩⟩
    · obtain ⟨c, hc, hm⟩ := List.mem_map.mp (side (·.xmin)).1
      obtain ⟨f, hfm, hx, -⟩ := forall₂_right e2 hc
      obtain ⟨t, h0, h1, ht⟩ := hx.2.1
      exact ⟨f, hfm, t, h0, h1, ht.trans hm⟩
    · obtain ⟨c, hc, hm⟩ := List.mem_map.mp (side (·.xmax)).2.1
      obtain ⟨f, hfm, hx, -⟩ := forall₂_right e2 hc
      obtain ⟨t, h0, h1, ht⟩ := hx.2.2
      exact ⟨f, hfm, t, h0, h1, ht.trans hm⟩
    · obtain ⟨c, hc, hm⟩ := List.mem_map.mp (side (·.ymin)).1
      obtain ⟨f, hfm, -, hy⟩ := forall₂_right e2 hc
      obtain ⟨t, h0, h1, ht⟩ := hy.2.1
      exact ⟨f, hfm, t, h0, h1, ht.trans hm⟩
    · obtain ⟨c, hc, hm⟩ := List.mem_map.mp (side (·.ymax)).2.1
      obtain ⟨f, hfm, -, hy⟩ := forall₂_right e2 hc
      obtain ⟨t, h0, h1, ht⟩ := hy.2.2
      exact ⟨f, hfm, t, h0, h1, ht.trans hm⟩

/-- `subpath.bbox()` is None only for a subpath without segments. -/
theorem C97_none {K : Type} [Field K] [LinearOrder K] (box : Seg K → Except PyErr (BBox K)) (p : List (Seg K)) (w : ℕ × ℕ) :
    Path.subBBox box p w = .ok none ↔ Path.subIter p w = [] := by
  rw [subIter_eq]
  unfold Path.subBBox
  cases Path.subSegments p w with
  | nil => simp [Path.boxes]
  | cons s r =>
    simp only [Path.boxes]
    cases box s with
    | error e => simp
    | ok b => cases Path.boxes box r <;> simp

/-- `M0,0 L3,0 Q4,2 5,0 Z M5,5 L6,5`, with numbers of the reals -/
def exBox : List (Seg ℝ) :=
  [⟨.move, none, some ⟨0, 0⟩, false, true⟩, ⟨.line, some ⟨0, 0⟩, some ⟨3, 0⟩, false, true⟩,
    ⟨.quad (some ⟨4, 2⟩), some ⟨3, 0⟩, some ⟨5, 0⟩, false, true⟩, ⟨.close, some ⟨5, 0⟩, some ⟨0, 0⟩, false, true⟩,
    ⟨.move, some ⟨0, 0⟩, some ⟨5, 5⟩, false, true⟩, ⟨.line, some ⟨5, 5⟩, some ⟨6, 5⟩, false, true⟩]

example (ang : ArcData ℝ → Bool) : List.Forall₂ (Draws ang) (Path.subIter exBox (0, 4))
    [fun _ => ⟨0, 0⟩, between ⟨0, 0⟩ ⟨3, 0⟩, bezier2 ⟨3, 0⟩ ⟨4, 2⟩ ⟨5, 0⟩, between ⟨5, 0⟩ ⟨0, 0⟩] :=
  .cons (.move (by simp)) (.cons .line (.cons .quad (.cons .close .nil)))

/-- The box of the second subpath of a path begins at the end of the first one: that of `M5,5 L6,5` is (0, 0, 6, 5). -/
theorem C97_move_wrong (fuel : ℕ) (ang : ArcData ℝ → Bool) :
    (Path.subIter exBox (4, 6)).map Seg.stop = [some ⟨5, 5⟩, some ⟨6, 5⟩] ∧
    Path.subBBox (Seg.box fuel ang) exBox (4, 6) = .ok (some ⟨0, 0, 6, 5⟩) := by
  refine ⟨rfl, ?_⟩
  have h : Path.subBBox (Seg.box fuel ang) exBox (4, 6) =
      .ok (some ⟨min (min 0 5) (min 5 6), min (min 0 5) (min 5 5), max (max 0 5) (max 5 6), max (max 0 5) (max 5 5)⟩) := rfl
  rw [h]
  norm_num

end Svgio.Props
