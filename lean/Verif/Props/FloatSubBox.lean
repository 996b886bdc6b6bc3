import Verif.Props.FloatBox
import Verif.Props.SubpathBox

/-!
C142: the box of a subpath, computed with floats.
-/

namespace Svgio.Props
open Spec

/-- The segment draws the curve `f`, and the box of a segment is computed with an error of at most `e`, by C141: nothing is rounded for
moves and lines; one part in 2^46 of the greatest coordinate `B` for quadratic curves; for cubic curves as in `C141_cubic_partial`. -/
inductive DrawsUpTo (B e : ℚ) : Seg ℚ → (ℝ → Pt ℝ) → Prop
  | move {q : Pt ℚ} {o : Option (Pt ℚ)} {r s : Bool} (h : ∀ p, o = some p → p = q) :
      DrawsUpTo B e ⟨.move, o, some q, r, s⟩ (fun _ => real q)
  | line {p q : Pt ℚ} {r s : Bool} : DrawsUpTo B e ⟨.line, some p, some q, r, s⟩ (between (real p) (real q))
  | close {p q : Pt ℚ} {r s : Bool} : DrawsUpTo B e ⟨.close, some p, some q, r, s⟩ (between (real p) (real q))
  | quad {p c q : Pt ℚ} {r s : Bool} (hp : SizeAtMost B p) (hc : SizeAtMost B c) (hq : SizeAtMost B q)
      (he : B / 2 ^ 46 + 1 / 2 ^ 1068 ≤ e) :
      DrawsUpTo B e ⟨.quad (some c), some p, some q, r, s⟩ (bezier2 (real p) (real c) (real q))
  | cubic {p c d q : Pt ℚ} {ex ey : ℚ} {r s : Bool} (hp : SizeAtMost B p) (hc : SizeAtMost B c) (hd : SizeAtMost B d)
      (hq : SizeAtMost B q) (hx : CubicTol B p.x c.x d.x q.x ex) (hy : CubicTol B p.y c.y d.y q.y ey) (h1 : ex ≤ e) (h2 : ey ≤ e) :
      DrawsUpTo B e ⟨.cubic (some c) (some d), some p, some q, r, s⟩ (bezier3 (real p) (real c) (real d) (real q))

/-- Up to `e`, the box holds all the curves, and each side is touched by one of them. -/
def AroundUpTo (e : ℝ) (fs : List (ℝ → Pt ℝ)) (xmin ymin xmax ymax : ℝ) : Prop :=
  (∀ f ∈ fs, ∀ t, 0 ≤ t → t ≤ 1 → (xmin - e ≤ (f t).x ∧ (f t).x ≤ xmax + e) ∧ (ymin - e ≤ (f t).y ∧ (f t).y ≤ ymax + e)) ∧
  (∃ f ∈ fs, ∃ t, 0 ≤ t ∧ t ≤ 1 ∧ |(f t).x - xmin| ≤ e) ∧ (∃ f ∈ fs, ∃ t, 0 ≤ t ∧ t ≤ 1 ∧ |(f t).x - xmax| ≤ e) ∧
  (∃ f ∈ fs, ∃ t, 0 ≤ t ∧ t ≤ 1 ∧ |(f t).y - ymin| ≤ e) ∧ (∃ f ∈ fs, ∃ t, 0 ≤ t ∧ t ≤ 1 ∧ |(f t).y - ymax| ≤ e)

theorem rangeUpTo_mono {e e' : ℝ} (h : e ≤ e') {f : ℝ → ℝ} {lo hi : ℝ} (hr : RangeUpTo e f lo hi) : RangeUpTo e' f lo hi := by
  obtain ⟨h1, ⟨t, t0, t1, ht⟩, ⟨u, u0, u1, hu⟩⟩ := hr
  refine ⟨fun t a b => ?_, ⟨t, t0, t1, ht.trans h⟩, ⟨u, u0, u1, hu.trans h⟩⟩
  have := h1 t a b
  constructor <;> linarith [this.1, this.2]

theorem rangeUpTo_of_range {e : ℝ} (h : 0 ≤ e) {f : ℝ → ℝ} {lo hi : ℝ} (hr : Range f lo hi) : RangeUpTo e f lo hi := by
  obtain ⟨h1, ⟨t, t0, t1, ht⟩, ⟨u, u0, u1, hu⟩⟩ := hr
  refine ⟨fun t a b => ?_, ⟨t, t0, t1, by simpa [ht] using h⟩, ⟨u, u0, u1, by simpa [hu] using h⟩⟩
  have := h1 t a b
  constructor <;> linarith [this.1, this.2]

theorem box_upTo (F : FloatRounding) (P : Flt.FloatPow) (S : Flt.FloatSqrt) {B e : ℚ} (he : 0 ≤ e) {s : Seg ℚ} {f : ℝ → Pt ℝ}
    (h : DrawsUpTo B e s f) : ∃ b, Flt.bbox F P S s = .ok b ∧ BoxUpTo e e f b := by
  have he' : (0 : ℝ) ≤ (e : ℝ) := by exact_mod_cast he
  cases h with
  | @move q o r s h =>
    have key : BoxUpTo e e (fun _ => real q) ⟨q.x, q.y, q.x, q.y⟩ :=
      ⟨rangeUpTo_of_range he' (range_const _), rangeUpTo_of_range he' (range_const _)⟩
    cases o with
    | none => exact ⟨⟨q.x, q.y, q.x, q.y⟩, rfl, key⟩
    | some p =>
      rw [h p rfl]
      refine ⟨⟨min q.x q.x, min q.y q.y, max q.x q.x, max q.y q.y⟩, rfl, ?_⟩
      simpa only [min_self, max_self] using key
  | line =>
    obtain ⟨x, h1, h2⟩ := C141_line F P S _ _ _ _ .line (by simp)
    exact ⟨x, h1, rangeUpTo_of_range he' h2.1, rangeUpTo_of_range he' h2.2⟩
  | close =>
    obtain ⟨x, h1, h2⟩ := C141_line F P S _ _ _ _ .close (by simp)
    exact ⟨x, h1, rangeUpTo_of_range he' h2.1, rangeUpTo_of_range he' h2.2⟩
  | quad hp hc hq h =>
    obtain ⟨x, h1, h2⟩ := C141_quadratic F P S _ _ hp hc hq
    exact ⟨x, h1, rangeUpTo_mono (by exact_mod_cast h) h2.1, rangeUpTo_mono (by exact_mod_cast h) h2.2⟩
  | cubic hp hc hd hq hx hy l1 l2 =>
    obtain ⟨x, h1, h2⟩ := C141_cubic_partial F P S _ _ hp hc hd hq hx hy
    exact ⟨x, h1, rangeUpTo_mono (by exact_mod_cast l1) h2.1, rangeUpTo_mono (by exact_mod_cast l2) h2.2⟩

theorem boxes_upTo (F : FloatRounding) (P : Flt.FloatPow) (S : Flt.FloatSqrt) {B e : ℚ} (he : 0 ≤ e) {l : List (Seg ℚ)}
    {fs : List (ℝ → Pt ℝ)} (h : List.Forall₂ (DrawsUpTo B e) l fs) :
    ∃ bs, Path.boxes (Flt.bbox F P S) l = .ok bs ∧ List.Forall₂ (fun f b => BoxUpTo e e f b) fs bs := by
  induction h with
  | nil => exact ⟨[], rfl, .nil⟩
  | cons h _ ih =>
    obtain ⟨b, e1, e2⟩ := box_upTo F P S he h
    obtain ⟨bs, e3, e4⟩ := ih
    refine ⟨b :: bs, ?_, .cons e2 e4⟩
    unfold Path.boxes
    rw [e1]; simp only
    rw [e3]

/-- **C142**, partial: with floats, the box of a subpath holds the curves of all its segments, and each side is touched by one of them,
up to the greatest of the errors of C141 for its segments; joining the boxes adds none. Missing: arcs, a move that starts elsewhere than
it ends (`C97_move_wrong`), and the cubic curves that C141 leaves out. -/
theorem C142_tight_partial (F : FloatRounding) (P : Flt.FloatPow) (S : Flt.FloatSqrt) {B e : ℚ} (he : 0 ≤ e) {p : List (Seg ℚ)}
    {w : ℕ × ℕ} {fs : List (ℝ → Pt ℝ)} (h : List.Forall₂ (DrawsUpTo B e) (Path.subIter p w) fs) (hne : fs ≠ []) :
    ∃ b, Path.subBBox (Flt.bbox F P S) p w = .ok (some b) ∧ AroundUpTo e fs b.xmin b.ymin b.xmax b.ymax := by
  rw [subIter_eq] at h
  obtain ⟨bs, e1, e2⟩ := boxes_upTo F P S he h
  cases bs with
  | nil => cases e2; exact absurd rfl hne
  | cons b r =>
    unfold Path.subBBox
    rw [e1]
    refine ⟨_, rfl, ?_⟩
    have side : ∀ g : Seg.BBox ℚ → ℚ, Seg.minOf (g b) (r.map g) ∈ (b :: r).map g ∧ Seg.maxOf (g b) (r.map g) ∈ (b :: r).map g ∧
        ∀ c ∈ b :: r, ((Seg.minOf (g b) (r.map g) : ℚ) : ℝ) ≤ (g c : ℝ) ∧ (g c : ℝ) ≤ ((Seg.maxOf (g b) (r.map g) : ℚ) : ℝ) := by
      intro g
      have := minOf_mem (g b) (r.map g)
      rw [← List.map_cons] at this
      refine ⟨this.1, this.2, fun c hc => ?_⟩
      have h := minOf_le (g b) (r.map g) (g c) (by rw [← List.map_cons]; exact List.mem_map.mpr ⟨c, hc, rfl⟩)
      exact ⟨by exact_mod_cast h.1, by exact_mod_cast h.2⟩
    refine ⟨?_, ?_, ?_, ?_, ?_⟩
    · intro f hfm t ht0 ht1
      obtain ⟨c, hc, hx, hy⟩ := forall₂_left e2 hfm
      have a1 := (side (·.xmin)).2.2 c hc
      have a2 := (side (·.xmax)).2.2 c hc
      have a3 := (side (·.ymin)).2.2 c hc
      have a4 := (side (·.ymax)).2.2 c hc
      have b1 := hx.1 t ht0 ht1
      have b2 := hy.1 t ht0 ht1
      refine ⟨⟨?_, ?_⟩, ?_, ?_⟩
      · have := a1.1; have := b1.1; simp only at *; linarith
      · have := a2.2; have := b1.2; simp only at *; linarith
      · have := a3.1; have := b2.1; simp only at *; linarith
      · have := a4.2; have := b2.2; simp only at *; linarith
    · obtain ⟨c, hc, hm⟩ := List.mem_map.mp (side (·.xmin)).1
      obtain ⟨f, hfm, hx, -⟩ := forall₂_right e2 hc
      obtain ⟨t, h0, h1, ht⟩ := hx.2.1
      exact ⟨f, hfm, t, h0, h1, hm ▸ ht⟩
    · obtain ⟨c, hc, hm⟩ := List.mem_map.mp (side (·.xmax)).2.1
      obtain ⟨f, hfm, hx, -⟩ := forall₂_right e2 hc
      obtain ⟨t, h0, h1, ht⟩ := hx.2.2
      exact ⟨f, hfm, t, h0, h1, hm ▸ ht⟩
    · obtain ⟨c, hc, hm⟩ := List.mem_map.mp (side (·.ymin)).1
      obtain ⟨f, hfm, -, hy⟩ := forall₂_right e2 hc
      obtain ⟨t, h0, h1, ht⟩ := hy.2.1
      exact ⟨f, hfm, t, h0, h1, hm ▸ ht⟩
    · obtain ⟨c, hc, hm⟩ := List.mem_map.mp (side (·.ymax)).2.1
      obtain ⟨f, hfm, -, hy⟩ := forall₂_right e2 hc
      obtain ⟨t, h0, h1, ht⟩ := hy.2.2
      exact ⟨f, hfm, t, h0, h1, hm ▸ ht⟩

/-- With floats too, the box of a subpath without curves is the exact one, whatever the rounding. -/
theorem C142_polygon (F : FloatRounding) (P : Flt.FloatPow) (S : Flt.FloatSqrt) {p : List (Seg ℚ)} {w : ℕ × ℕ} {fs : List (ℝ → Pt ℝ)}
    (h : List.Forall₂ (DrawsUpTo 0 0) (Path.subIter p w) fs) (hne : fs ≠ []) :
    ∃ b, Path.subBBox (Flt.bbox F P S) p w = .ok (some b) ∧ TightAround fs b.xmin b.ymin b.xmax b.ymax := by
  obtain ⟨b, h1, h2, ⟨f3, m3, t3, l3, u3, e3⟩, ⟨f4, m4, t4, l4, u4, e4⟩, ⟨f5, m5, t5, l5, u5, e5⟩, f6, m6, t6, l6, u6, e6⟩ :=
    C142_tight_partial F P S le_rfl h hne
  have z : ∀ {x y : ℝ}, |x - y| ≤ ((0 : ℚ) : ℝ) → x = y := by
    intro x y h
    rw [Rat.cast_zero] at h
    exact sub_eq_zero.1 (abs_nonpos_iff.1 h)
  refine ⟨b, h1, ?_, ⟨f3, m3, t3, l3, u3, z e3⟩, ⟨f4, m4, t4, l4, u4, z e4⟩, ⟨f5, m5, t5, l5, u5, z e5⟩, f6, m6, t6, l6, u6, z e6⟩
  simpa using h2

/-- `M0,0 L3,0 Q4,2 5,0 C6,1 7,2 8,3 Z M5,5 L6,5` -/
def exFloatBox : List (Seg ℚ) :=
  [⟨.move, none, some ⟨0, 0⟩, false, true⟩, ⟨.line, some ⟨0, 0⟩, some ⟨3, 0⟩, false, true⟩,
    ⟨.quad (some ⟨4, 2⟩), some ⟨3, 0⟩, some ⟨5, 0⟩, false, true⟩,
    ⟨.cubic (some ⟨6, 1⟩) (some ⟨7, 2⟩), some ⟨5, 0⟩, some ⟨8, 3⟩, false, true⟩,
    ⟨.close, some ⟨8, 3⟩, some ⟨0, 0⟩, false, true⟩,
    ⟨.move, none, some ⟨5, 5⟩, false, true⟩, ⟨.line, some ⟨5, 5⟩, some ⟨6, 5⟩, false, true⟩]

example : List.Forall₂ (DrawsUpTo 8 (1 / 10 ^ 12)) (Path.subIter exFloatBox (0, 5))
    [fun _ => real ⟨0, 0⟩, between (real ⟨0, 0⟩) (real ⟨3, 0⟩), bezier2 (real ⟨3, 0⟩) (real ⟨4, 2⟩) (real ⟨5, 0⟩),
      bezier3 (real ⟨5, 0⟩) (real ⟨6, 1⟩) (real ⟨7, 2⟩) (real ⟨8, 3⟩), between (real ⟨8, 3⟩) (real ⟨0, 0⟩)] := by
  have small : ∀ n : ℕ, 46 ≤ n → (1 : ℚ) / 2 ^ n ≤ 1 / 2 ^ 46 := fun n hn =>
    one_div_le_one_div_of_le (by positivity) (pow_le_pow_right₀ (by norm_num) hn)
  have s1 := small 1068 (by norm_num)
  have s2 := small 1070 (by norm_num)
  refine .cons (.move (by simp)) (.cons .line (.cons (.quad ?_ ?_ ?_ ?_) (.cons (.cubic (ex := _) (ey := _) ?_ ?_ ?_ ?_
    (.inr ⟨?_, ?_, rfl⟩) (.inr ⟨?_, ?_, rfl⟩) ?_ ?_) (.cons .close .nil))))
  all_goals first
    | (norm_num [SizeAtMost]; done)
    | (norm_num at s1 s2 ⊢; linarith)

example : List.Forall₂ (DrawsUpTo 0 0) (Path.subIter exFloatBox (5, 7))
    [fun _ => real ⟨5, 5⟩, between (real ⟨5, 5⟩) (real ⟨6, 5⟩)] := .cons (.move (by simp)) (.cons .line .nil)

end Svgio.Props
