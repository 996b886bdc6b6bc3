import Verif.Props.SegGeom

/-!
C109: boxes of segments that are scaled, moved or reversed.
-/

namespace Svgio.Props

open Svgio Svgio.Spec Svgio.Seg

/-- the interval from `lo` to `hi` after `x ↦ k x + c` -/
noncomputable def moved (k c lo hi : ℝ) : ℝ × ℝ := if 0 ≤ k then (k * lo + c, k * hi + c) else (k * hi + c, k * lo + c)

theorem range_unique {f g : ℝ → ℝ} {a b c d : ℝ} (hfg : ∀ t, 0 ≤ t → t ≤ 1 → f t = g t) (hf : Range f a b)
    (hg : Range g c d) : a = c ∧ b = d := by
  obtain ⟨f1, ⟨t1, p1, q1, e1⟩, ⟨t2, p2, q2, e2⟩⟩ := hf
  obtain ⟨g1, ⟨t3, p3, q3, e3⟩, ⟨t4, p4, q4, e4⟩⟩ := hg
  have h1 := (g1 t1 p1 q1).1
  have h2 := (g1 t2 p2 q2).2
  have h3 := (f1 t3 p3 q3).1
  have h4 := (f1 t4 p4 q4).2
  rw [← hfg _ p1 q1, e1] at h1
  rw [← hfg _ p2 q2, e2] at h2
  rw [hfg _ p3 q3, e3] at h3
  rw [hfg _ p4 q4, e4] at h4
  exact ⟨le_antisymm h3 h1, le_antisymm h2 h4⟩

theorem range_moved {f : ℝ → ℝ} {a b : ℝ} (k c : ℝ) (h : Range f a b) :
    Range (fun t => k * f t + c) (moved k c a b).1 (moved k c a b).2 := by
  obtain ⟨f1, ⟨t1, p1, q1, e1⟩, ⟨t2, p2, q2, e2⟩⟩ := h
  unfold moved
  by_cases hk : 0 ≤ k
  · rw [if_pos hk]
    exact ⟨fun t h0 h1 => ⟨by nlinarith [(f1 t h0 h1).1], by nlinarith [(f1 t h0 h1).2]⟩,
      ⟨t1, p1, q1, by simp only [e1]⟩, ⟨t2, p2, q2, by simp only [e2]⟩⟩
  · rw [if_neg hk]
    exact ⟨fun t h0 h1 => ⟨by nlinarith [(f1 t h0 h1).2], by nlinarith [(f1 t h0 h1).1]⟩,
      ⟨t2, p2, q2, by simp only [e2]⟩, ⟨t1, p1, q1, by simp only [e1]⟩⟩

theorem range_reversed {f : ℝ → ℝ} {a b : ℝ} (h : Range f a b) : Range (fun t => f (1 - t)) a b := by
  obtain ⟨f1, ⟨t1, p1, q1, e1⟩, ⟨t2, p2, q2, e2⟩⟩ := h
  refine ⟨fun t h0 h1 => f1 _ (by linarith) (by linarith), ⟨1 - t1, by linarith, by linarith, ?_⟩,
    ⟨1 - t2, by linarith, by linarith, ?_⟩⟩
  · simp only [sub_sub_cancel, e1]
  · simp only [sub_sub_cancel, e2]

/-- the segments with a box that is known to be tight -/
inductive Boxed : Seg ℝ → Prop
  | line (a b : Pt ℝ) (r sm : Bool) : Boxed ⟨.line, some a, some b, r, sm⟩
  | close (a b : Pt ℝ) (r sm : Bool) : Boxed ⟨.close, some a, some b, r, sm⟩
  | quad (a b c : Pt ℝ) (r sm : Bool) : Boxed ⟨.quad (some b), some a, some c, r, sm⟩
  | cubic (a b c d : Pt ℝ) (r sm : Bool) (hx : AxisOk a.x b.x c.x d.x) (hy : AxisOk a.y b.y c.y d.y) :
    Boxed ⟨.cubic (some b) (some c), some a, some d, r, sm⟩

theorem boxed_tight {s : Seg ℝ} (h : Boxed s) (numpy : Bool) : NoArc s ∧ s.kind ≠ .move ∧ ∃ (x : BBox ℝ) (f : ℝ → Pt ℝ),
    bbox s = .ok x ∧ (∀ t, 0 ≤ t → t ≤ 1 → s.point numpy t = .ok (f t)) ∧ TightBox f x.xmin x.ymin x.xmax x.ymax := by
  cases h with
  | line a b r sm =>
    exact ⟨fun a h => by simp at h, by simp, (C60_bbox a a a b numpy r sm).1 _ (by simp)⟩
  | close a b r sm =>
    exact ⟨fun a h => by simp at h, by simp, (C60_bbox a a a b numpy r sm).1 _ (by simp)⟩
  | quad a b c r sm =>
    obtain ⟨x, f, h1, h2, h3⟩ := (C60_bbox a b b c numpy r sm).2.1
    exact ⟨fun a h => by simp at h, by simp, x, f, h1, fun t _ _ => h2 t, h3⟩
  | cubic a b c d r sm hx hy =>
    obtain ⟨x, f, h1, h2, h3⟩ := (C60_bbox a b c d numpy r sm).2.2 hx hy
    exact ⟨fun a h => by simp at h, by simp, x, f, h1, fun t _ _ => h2 t, h3⟩

theorem axisOk_symm {a b c d : ℝ} (h : AxisOk a b c d) : AxisOk d c b a := by
  rcases h with h | ⟨h1, h2⟩
  · left
    rwa [show d - 3 * c + 3 * b - a = -(a - 3 * b + 3 * c - d) by ring, abs_neg]
  · right
    rw [min_comm, max_comm]
    exact ⟨h2, h1⟩

theorem boxed_reverse {s : Seg ℝ} (h : Boxed s) : Boxed s.reverse := by
  cases h with
  | line a b r sm => exact .line b a r sm
  | close a b r sm => exact .close b a r sm
  | quad a b c r sm => exact .quad c b a r sm
  | cubic a b c d r sm hx hy => exact .cubic d c b a r sm (axisOk_symm hx) (axisOk_symm hy)

/-- **C109**: the box of a segment that is scaled along the axes and moved is the box of the segment, scaled and moved; a
negative factor exchanges the two sides. Lines, closes, quadratic curves, and cubic curves whose box is tight (C59). -/
theorem C109_scale_partial (s : Seg ℝ) (m : Mat ℝ) (hb : m.b = 0) (hc : m.c = 0) (h : Boxed s) (h' : Boxed (s.mul m)) :
    ∃ x, bbox s = .ok x ∧ bbox (s.mul m) = .ok
      ⟨(moved m.a m.e x.xmin x.xmax).1, (moved m.d m.f x.ymin x.ymax).1,
        (moved m.a m.e x.xmin x.xmax).2, (moved m.d m.f x.ymin x.ymax).2⟩ := by
  obtain ⟨n1, -, x, f, e1, e2, tx, ty⟩ := boxed_tight h false
  obtain ⟨-, -, x', f', g1, g2, tx', ty'⟩ := boxed_tight h' false
  refine ⟨x, e1, ?_⟩
  have hp : ∀ t, 0 ≤ t → t ≤ 1 → f' t = m.pointInMatrixSpace (f t) := by
    intro t h0 h1
    have := (C57_transform false s n1 m t).1
    rw [g2 t h0 h1, e2 t h0 h1] at this
    exact Except.ok.inj this
  have ux := range_unique (f := fun t => (f' t).x) (g := fun t => m.a * (f t).x + m.e)
    (fun t h0 h1 => by simp only [hp t h0 h1, Mat.pointInMatrixSpace, hc]; ring) tx' (range_moved m.a m.e tx)
  have uy := range_unique (f := fun t => (f' t).y) (g := fun t => m.d * (f t).y + m.f)
    (fun t h0 h1 => by simp only [hp t h0 h1, Mat.pointInMatrixSpace, hb]; ring) ty' (range_moved m.d m.f ty)
  rw [g1, ← ux.1, ← ux.2, ← uy.1, ← uy.2]

/-- **C109**: a reversed segment has the same box. -/
theorem C109_reverse_partial (s : Seg ℝ) (h : Boxed s) : bbox s.reverse = bbox s := by
  have h' := boxed_reverse h
  obtain ⟨n1, n2, x, f, e1, e2, tx, ty⟩ := boxed_tight h false
  obtain ⟨-, -, x', f', g1, g2, tx', ty'⟩ := boxed_tight h' false
  have hp : ∀ t, 0 ≤ t → t ≤ 1 → f' t = f (1 - t) := by
    intro t h0 h1
    have := (C64_reverse false s t).1 n1 n2
    rw [g2 t h0 h1, e2 (1 - t) (by linarith) (by linarith)] at this
    exact Except.ok.inj this
  have ux := range_unique (f := fun t => (f' t).x) (g := fun t => (f (1 - t)).x)
    (fun t h0 h1 => by simp only [hp t h0 h1]) tx' (range_reversed tx)
  have uy := range_unique (f := fun t => (f' t).y) (g := fun t => (f (1 - t)).y)
    (fun t h0 h1 => by simp only [hp t h0 h1]) ty' (range_reversed ty)
  rw [e1, g1]
  congr 1
  obtain ⟨_, _, _, _⟩ := x
  obtain ⟨_, _, _, _⟩ := x'
  simp only at ux uy
  rw [ux.1, ux.2, uy.1, uy.2]

/-- a quadratic curve, and the same mirrored and moved -/
example : Boxed (⟨.quad (some ⟨1, 2⟩), some ⟨0, 0⟩, some ⟨2, 0⟩, false, true⟩) ∧
    Boxed (Seg.mul ⟨.quad (some ⟨1, 2⟩), some ⟨0, 0⟩, some ⟨2, 0⟩, false, true⟩ ⟨-1, 0, 0, 3, 5, 6⟩) :=
  ⟨.quad _ _ _ _ _, .quad _ _ _ _ _⟩

end Svgio.Props
