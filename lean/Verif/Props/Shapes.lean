import Verif.Model.Shapes
import Verif.Props.SubpathBox

/-!
C105: segments and boxes of basic shapes; C106: the box of an image.
-/

namespace Svgio.Props
open Spec Seg Shape

/-- where the transform takes a point, as in SVG 1.1, 7.5 -/
def image (m : Mat ℝ) (p : Pt ℝ) : Pt ℝ := ⟨m.a * p.x + m.c * p.y + m.e, m.b * p.x + m.d * p.y + m.f⟩

theorem image_eq (m : Mat ℝ) (p : Pt ℝ) : m.pointInMatrixSpace p = image m p := by
  unfold Mat.pointInMatrixSpace image; congr 1 <;> ring

theorem image_between (m : Mat ℝ) (p q : Pt ℝ) : between (image m p) (image m q) = fun t => image m (between p q t) := by
  funext t
  simp only [between, image, Pt.mk.injEq]
  constructor <;> ring

/-- the box from segments that draw given curves -/
theorem shape_box {ang : ArcData ℝ → Bool} {l : List (Seg ℝ)} {fs : List (ℝ → Pt ℝ)} (h : List.Forall₂ (Draws ang) l fs)
    (hne : fs ≠ []) {fuel : ℕ} (hf : 2 ≤ fuel) :
    ∃ b, Shape.bbox (Seg.box fuel ang) l = .ok (some b) ∧ TightAround fs b.xmin b.ymin b.xmax b.ymax := by
  have e : Path.subSegments l (0, l.length) = l := by simp [Path.subSegments]
  have := C97_tight_partial (p := l) (w := (0, l.length)) (by rw [subIter_eq, e]; exact h) hne hf
  unfold Path.subBBox at this
  rw [e] at this
  exact this

/-- the corners of a rectangle, in the order in which they are drawn -/
def corners (x y w h : ℝ) : List (Pt ℝ) := [⟨x, y⟩, ⟨x + w, y⟩, ⟨x + w, y + h⟩, ⟨x, y + h⟩]

/-- `l` draws the closed line through the points: a move to the first, lines to the others, and the way back. -/
def DrawsRing (ang : ArcData ℝ → Bool) (l : List (Seg ℝ)) : List (Pt ℝ) → Prop
  | [a, b, c, d] => List.Forall₂ (Draws ang) l [fun _ => a, between a b, between b c, between c d, between d a] ∧
      l.map Seg.kind = [.move, .line, .line, .line, .close] ∧ Connected Eq l
  | _ => False

theorem ring_connected {a b c d : Pt ℝ} {r1 r2 r3 r4 r5 s1 s2 s3 s4 s5 : Bool} :
    Connected Eq [⟨.move, none, some a, r1, s1⟩, ⟨.line, some a, some b, r2, s2⟩, ⟨.line, some b, some c, r3, s3⟩,
      ⟨.line, some c, some d, r4, s4⟩, (⟨.close, some d, some a, r5, s5⟩ : Seg ℝ)] := by
  constructor
  · intro i u v hu hv
    match i with
    | 0 | 1 | 2 | 3 =>
      simp at hu hv; subst hu; subst hv; exact ⟨_, _, rfl, rfl, rfl⟩
    | i + 4 => simp at hv
  · intro i s hs hk
    match i with
    | 0 | 1 | 2 | 3 => simp at hs; subst hs; simp at hk
    | 4 =>
      simp at hs; subst hs
      refine ⟨a, a, Or.inl ⟨0, _, by omega, rfl, rfl, rfl, ?_⟩, rfl, rfl⟩
      intro k s h0 h4 hs
      match k with
      | 0 => omega
      | 1 | 2 | 3 => simp at hs; subst hs; simp
      | k + 4 => omega
    | i + 5 => simp at hs

/-- **C105**, lines, partial: `Line(x1, y1, x2, y2)` has the segments of the line from its first to its second point, taken where the
transform takes it, or as it is if `transformed=False`; and its box is the tight box of this line. Missing: a line without a transform
(`C105_line_wrong`). -/
theorem C105_line_partial (ang : ArcData ℝ → Bool) (p q : Pt ℝ) (m : Mat ℝ) (t : Trafo ℝ) {fuel : ℕ} (hf : 2 ≤ fuel) :
    (∃ l b, lineSegments p.x p.y q.x q.y (.matrix m) true = .ok l ∧
      List.Forall₂ (Draws ang) l [fun _ => image m p, fun t => image m (between p q t)] ∧ Connected Eq l ∧
      Shape.bbox (Seg.box fuel ang) l = .ok (some b) ∧
      TightBox (fun t => image m (between p q t)) b.xmin b.ymin b.xmax b.ymax) ∧
    ∃ l b, lineSegments p.x p.y q.x q.y t false = .ok l ∧
      List.Forall₂ (Draws ang) l [fun _ => p, between p q] ∧ Connected Eq l ∧
      Shape.bbox (Seg.box fuel ang) l = .ok (some b) ∧ TightBox (between p q) b.xmin b.ymin b.xmax b.ymax := by
  have conn : ∀ a b : Pt ℝ, Connected Eq [⟨.move, none, some a, false, true⟩, (⟨.line, some a, some b, false, true⟩ : Seg ℝ)] := by
    intro a b
    constructor
    · intro i u v hu hv
      match i with
      | 0 => simp at hu hv; subst hu; subst hv; exact ⟨_, _, rfl, rfl, rfl⟩
      | i + 1 => simp at hv
    · intro i s hs hk
      match i with
      | 0 | 1 => simp at hs; subst hs; simp at hk
      | i + 2 => simp at hs
  have tight : ∀ a b : Pt ℝ, ∀ x : BBox ℝ, TightAround [fun _ => a, between a b] x.xmin x.ymin x.xmax x.ymax →
      TightBox (between a b) x.xmin x.ymin x.xmax x.ymax := by
    intro a b x ⟨h, h1, h2, h3, h4⟩
    have h0 : between a b 0 = a := by simp [between]
    have in1 : ∀ (g : Pt ℝ → ℝ) (c : ℝ), (∃ f ∈ [fun _ => a, between a b], ∃ t, 0 ≤ t ∧ t ≤ 1 ∧ g (f t) = c) →
        ∃ t, 0 ≤ t ∧ t ≤ 1 ∧ g (between a b t) = c := by
      rintro g c ⟨f, hf, t, t0, t1, e⟩
      simp only [List.mem_cons, List.not_mem_nil, or_false] at hf
      rcases hf with rfl | rfl
      · exact ⟨0, le_rfl, zero_le_one, by rw [h0]; exact e⟩
      · exact ⟨t, t0, t1, e⟩
    have hin := h (between a b) (by simp)
    exact ⟨⟨fun t t0 t1 => (hin t t0 t1).1, in1 (·.x) _ h1, in1 (·.x) _ h2⟩,
      ⟨fun t t0 t1 => (hin t t0 t1).2, in1 (·.y) _ h3, in1 (·.y) _ h4⟩⟩
  have key : ∀ a b : Pt ℝ, ∃ x, List.Forall₂ (Draws ang)
        [⟨.move, none, some a, false, true⟩, (⟨.line, some a, some b, false, true⟩ : Seg ℝ)] [fun _ => a, between a b] ∧
      Shape.bbox (Seg.box fuel ang) [⟨.move, none, some a, false, true⟩, (⟨.line, some a, some b, false, true⟩ : Seg ℝ)] =
        .ok (some x) ∧ TightBox (between a b) x.xmin x.ymin x.xmax x.ymax := by
    intro a b
    have hd : List.Forall₂ (Draws ang) [⟨.move, none, some a, false, true⟩, (⟨.line, some a, some b, false, true⟩ : Seg ℝ)]
      [fun _ => a, between a b] := .cons (.move (by simp)) (.cons .line .nil)
    obtain ⟨x, e1, e2⟩ := shape_box hd (by simp) hf
    exact ⟨x, hd, e1, tight a b x e2⟩
  constructor
  · obtain ⟨x, h1, h2, h3⟩ := key (image m p) (image m q)
    rw [image_between] at h1 h3
    refine ⟨_, x, ?_, h1, conn _ _, h2, h3⟩
    have e : ∀ r : Pt ℝ, Trafo.apply (.matrix m) ⟨r.x, r.y⟩ = .ok (image m r) := fun r => by rw [← image_eq]; rfl
    unfold lineSegments
    rw [if_pos rfl, e p, e q]
  · obtain ⟨x, h1, h2, h3⟩ := key p q
    exact ⟨_, x, rfl, h1, conn _ _, h2, h3⟩

/-- A line without a transform has no segments and no box: `segments()` raises TypeError. -/
theorem C105_line_wrong (x1 y1 x2 y2 : ℝ) : lineSegments x1 y1 x2 y2 .absent true = .error .typeError := rfl

/-- **C105**, rectangles, partial: the segments of `Rect(x, y, width, height, 0, 0)`, if the missing method `is_degenerate()` is added and
answers False, draw the closed line through the four corners, taken where the transform takes them, or as they are if
`transformed=False`; and the box is the tight box of the four sides. Missing: the method (`C105_rect_wrong`), and rectangles without radii
or without a transform. -/
theorem C105_rect_partial (ang : ArcData ℝ → Bool) (arc : ℝ → ℝ → Pt ℝ → Pt ℝ → Seg ℝ) (x y w h : ℝ) (m : Mat ℝ) (t : Trafo ℝ)
    {fuel : ℕ} (hf : 2 ≤ fuel) :
    (∃ l, rectSegments (.ok false) arc x y w h (some 0) (some 0) (.matrix m) true = .ok l ∧
      DrawsRing ang l ((corners x y w h).map (image m))) ∧
    (∃ l, rectSegments (.ok false) arc x y w h (some 0) (some 0) t false = .ok l ∧ DrawsRing ang l (corners x y w h)) ∧
    ∀ a b c d l, DrawsRing ang l [a, b, c, d] → ∃ x, Shape.bbox (Seg.box fuel ang) l = .ok (some x) ∧
      TightAround [between a b, between b c, between c d, between d a] x.xmin x.ymin x.xmax x.ymax := by
  have hr : rectRadii w h (some 0) (some 0) = .ok (0, 0) := by
    unfold rectRadii; simp
  have plain : DrawsRing ang (rectPlain x y w h) (corners x y w h) :=
    ⟨.cons (.move (by simp)) (.cons .line (.cons .line (.cons .line (.cons .close .nil)))), rfl, ring_connected⟩
  have e : ∀ t tr, rectSegments (.ok false) arc x y w h (some 0) (some 0) t tr =
      if tr then match t with
        | .absent => .error .attributeError
        | .matrix m => if m.isIdentity then .ok (rectPlain x y w h) else .ok ((rectPlain x y w h).map fun s => s.mul m)
      else .ok (rectPlain x y w h) := by
    intro t tr
    unfold rectSegments
    simp only [hr, and_self, if_true]
    cases t <;> rfl
  refine ⟨?_, ?_, ?_⟩
  · rw [e]
    simp only [if_true]
    cases hi : m.isIdentity with
    | true =>
      refine ⟨_, rfl, ?_⟩
      have : (corners x y w h).map (image m) = corners x y w h := by
        unfold Mat.isIdentity at hi
        simp only [Bool.and_eq_true, decide_eq_true_eq] at hi
        obtain ⟨⟨⟨⟨⟨ha, hb⟩, hc⟩, hd⟩, he⟩, hff⟩ := hi
        have : ∀ p, image m p = p := fun p => by simp [image, ha, hb, hc, hd, he, hff]
        rw [show image m = id from funext this, List.map_id]
      rw [this]
      exact plain
    | false =>
      refine ⟨_, rfl, ?_⟩
      have : ((rectPlain x y w h).map fun s => s.mul m) =
          [⟨.move, none, some (image m ⟨x, y⟩), false, true⟩,
           ⟨.line, some (image m ⟨x, y⟩), some (image m ⟨x + w, y⟩), false, true⟩,
           ⟨.line, some (image m ⟨x + w, y⟩), some (image m ⟨x + w, y + h⟩), false, true⟩,
           ⟨.line, some (image m ⟨x + w, y + h⟩), some (image m ⟨x, y + h⟩), false, true⟩,
           ⟨.close, some (image m ⟨x, y + h⟩), some (image m ⟨x, y⟩), false, true⟩] := by
        simp only [← image_eq]; rfl
      rw [this]
      exact ⟨.cons (.move (by simp)) (.cons .line (.cons .line (.cons .line (.cons .close .nil)))), rfl, ring_connected⟩
  · rw [e]; exact ⟨_, rfl, plain⟩
  · intro a b c d l hl
    obtain ⟨z, e1, e2⟩ := shape_box hl.1 (by simp) hf
    refine ⟨z, e1, ?_⟩
    obtain ⟨g, g1, g2, g3, g4⟩ := e2
    have h0 : between a b 0 = a := by simp [between]
    have drop : ∀ (k : Pt ℝ → ℝ) (v : ℝ),
        (∃ f ∈ [fun _ => a, between a b, between b c, between c d, between d a], ∃ t, 0 ≤ t ∧ t ≤ 1 ∧ k (f t) = v) →
        ∃ f ∈ [between a b, between b c, between c d, between d a], ∃ t, 0 ≤ t ∧ t ≤ 1 ∧ k (f t) = v := by
      rintro k v ⟨f, hf, t, t0, t1, e⟩
      rcases List.mem_cons.mp hf with rfl | hf
      · exact ⟨between a b, by simp, 0, le_rfl, zero_le_one, by rw [h0]; exact e⟩
      · exact ⟨f, hf, t, t0, t1, e⟩
    exact ⟨fun f hf => g f (List.mem_cons_of_mem _ hf), drop (·.x) _ g1, drop (·.x) _ g2, drop (·.y) _ g3, drop (·.y) _ g4⟩

/-- As it is, `Rect(…).segments()` raises AttributeError for every rectangle: no class has `is_degenerate()`. -/
theorem C105_rect_wrong (arc : ℝ → ℝ → Pt ℝ → Pt ℝ → Seg ℝ) (x y w h : ℝ) (rx ry : Option ℝ) (t : Trafo ℝ) (tr : Bool) :
    rectSegments isDegenerate arc x y w h rx ry t tr = .error .attributeError := rfl

/-- With the method added, a rectangle without radii still has no segments: None cannot be compared with 0. -/
theorem C105_rect_radii_wrong (arc : ℝ → ℝ → Pt ℝ → Pt ℝ → Seg ℝ) (x y w h : ℝ) (ry : Option ℝ) (t : Trafo ℝ) (tr : Bool) :
    rectSegments (.ok false) arc x y w h none ry t tr = .error .typeError := rfl

/-- **C105**, rounded corners, partial: with the method added, the segments of a rectangle with radii that are not negative and not both
0 are connected and closed, whatever arcs `Arc` makes between the given points; and they start on the upper side at `x + rx`. -/
theorem C105_round_partial {arc : ℝ → ℝ → Pt ℝ → Pt ℝ → Seg ℝ} (harc : ∀ rx ry p q, (arc rx ry p q).start = some p ∧
      (arc rx ry p q).stop = some q ∧ (arc rx ry p q).kind ≠ .move ∧ (arc rx ry p q).kind ≠ .close)
    (x y w h : ℝ) {rx ry : ℝ} (h1 : 0 ≤ rx) (h2 : 0 ≤ ry) (h3 : rx ≠ 0 ∨ ry ≠ 0) (t : Trafo ℝ) :
    ∃ l, rectSegments (.ok false) arc x y w h (some rx) (some ry) t false = .ok l ∧ Connected Eq l ∧
      l.map Seg.stop = [⟨x + rx, y⟩, ⟨x + w - rx, y⟩, ⟨x + w, y + ry⟩, ⟨x + w, y + h - ry⟩, ⟨x + w - rx, y + h⟩, ⟨x + rx, y + h⟩,
        ⟨x, y + h - ry⟩, ⟨x, y + ry⟩, ⟨x + rx, y⟩, ⟨x + rx, y⟩].map some := by
  have hr : rectRadii w h (some rx) (some ry) = .ok (rx, ry) := by
    unfold rectRadii; simp [not_lt.mpr h1, not_lt.mpr h2]
  have hne : ¬ (rx = ry ∧ ry = 0) := by
    rintro ⟨rfl, h⟩; rcases h3 with h3 | h3 <;> exact h3 h
  refine ⟨rectRound (arc rx ry) x y w h rx ry, ?_, ⟨?_, ?_⟩, ?_⟩
  · unfold rectSegments
    simp only [hr]
    rw [if_neg hne]; rfl
  · intro i u v hu hv
    unfold rectRound at hu hv
    match i with
    | 0 | 1 | 2 | 3 | 4 | 5 | 6 | 7 | 8 =>
      simp at hu hv; subst hu; subst hv
      simp [harc]
    | i + 9 => simp at hv
  · intro i s hs hk
    have hs' := hs
    unfold rectRound at hs'
    match i with
    | 0 | 1 | 3 | 5 | 7 => simp at hs'; subst hs'; simp at hk
    | 2 | 4 | 6 | 8 => simp at hs'; subst hs'; exact absurd hk (harc _ _ _ _).2.2.2
    | 9 =>
      simp at hs'; subst hs'
      refine ⟨⟨x + rx, y⟩, ⟨x + rx, y⟩, Or.inl ⟨0, _, by omega, rfl, rfl, rfl, ?_⟩, rfl, rfl⟩
      intro k s h0 h9 hs
      unfold rectRound at hs
      match k with
      | 0 => omega
      | 1 | 3 | 5 | 7 => simp at hs; subst hs; simp
      | 2 | 4 | 6 | 8 => simp at hs; subst hs; exact (harc _ _ _ _).2.2.1
      | k + 9 => omega
    | i + 10 => simp at hs'
  · unfold rectRound
    simp [harc]

example : ∃ arc : ℝ → ℝ → Pt ℝ → Pt ℝ → Seg ℝ, ∀ rx ry p q, (arc rx ry p q).start = some p ∧ (arc rx ry p q).stop = some q ∧
    (arc rx ry p q).kind ≠ .move ∧ (arc rx ry p q).kind ≠ .close :=
  ⟨fun rx ry p q => ⟨.arc ⟨p, ⟨rx, 0⟩, ⟨0, ry⟩, 1⟩, some p, some q, false, true⟩, fun _ _ _ _ => ⟨rfl, rfl, by simp, by simp⟩⟩

/-! ### C106 -/

/-- The box holds all points that `f` gives for `0 ≤ u ≤ w` and `0 ≤ v ≤ h`, and each side is touched by one of them. -/
def TightArea (f : Pt ℝ → Pt ℝ) (w h : ℝ) (b : BBox ℝ) : Prop :=
  (∀ u v, 0 ≤ u → u ≤ w → 0 ≤ v → v ≤ h →
    (b.xmin ≤ (f ⟨u, v⟩).x ∧ (f ⟨u, v⟩).x ≤ b.xmax) ∧ b.ymin ≤ (f ⟨u, v⟩).y ∧ (f ⟨u, v⟩).y ≤ b.ymax) ∧
  (∃ u v, (0 ≤ u ∧ u ≤ w ∧ 0 ≤ v ∧ v ≤ h) ∧ (f ⟨u, v⟩).x = b.xmin) ∧ (∃ u v, (0 ≤ u ∧ u ≤ w ∧ 0 ≤ v ∧ v ≤ h) ∧ (f ⟨u, v⟩).x = b.xmax) ∧
  (∃ u v, (0 ≤ u ∧ u ≤ w ∧ 0 ≤ v ∧ v ≤ h) ∧ (f ⟨u, v⟩).y = b.ymin) ∧ ∃ u v, (0 ≤ u ∧ u ≤ w ∧ 0 ≤ v ∧ v ≤ h) ∧ (f ⟨u, v⟩).y = b.ymax

theorem four_sides {a c e w h : ℝ} (hw : 0 ≤ w) (hh : 0 ≤ h) :
    let l := [a * w + c * 0 + e, a * w + c * h + e, a * 0 + c * h + e]
    let lo := minOf (a * 0 + c * 0 + e) l
    let hi := maxOf (a * 0 + c * 0 + e) l
    (∀ u v, 0 ≤ u → u ≤ w → 0 ≤ v → v ≤ h → lo ≤ a * u + c * v + e ∧ a * u + c * v + e ≤ hi) ∧
    (∃ u v, (0 ≤ u ∧ u ≤ w ∧ 0 ≤ v ∧ v ≤ h) ∧ a * u + c * v + e = lo) ∧
    ∃ u v, (0 ≤ u ∧ u ≤ w ∧ 0 ≤ v ∧ v ≤ h) ∧ a * u + c * v + e = hi := by
  intro l lo hi
  have hb := minOf_le (a * 0 + c * 0 + e) l
  have hm := minOf_mem (a * 0 + c * 0 + e) l
  have b0 := hb (a * 0 + c * 0 + e) (by simp)
  have b1 := hb (a * w + c * 0 + e) (by simp [l])
  have b2 := hb (a * w + c * h + e) (by simp [l])
  have b3 := hb (a * 0 + c * h + e) (by simp [l])
  have corner : ∀ z ∈ (a * 0 + c * 0 + e) :: l, ∃ u v, (0 ≤ u ∧ u ≤ w ∧ 0 ≤ v ∧ v ≤ h) ∧ a * u + c * v + e = z := by
    intro z hz
    simp only [l, List.mem_cons, List.not_mem_nil, or_false] at hz
    rcases hz with rfl | rfl | rfl | rfl
    · exact ⟨0, 0, ⟨le_rfl, hw, le_rfl, hh⟩, rfl⟩
    · exact ⟨w, 0, ⟨hw, le_rfl, le_rfl, hh⟩, rfl⟩
    · exact ⟨w, h, ⟨hw, le_rfl, hh, le_rfl⟩, rfl⟩
    · exact ⟨0, h, ⟨le_rfl, hw, hh, le_rfl⟩, rfl⟩
  refine ⟨?_, corner _ hm.1, corner _ hm.2⟩
  change lo ≤ _ ∧ _ ≤ hi at b0 b1 b2 b3
  generalize lo = lo at *
  generalize hi = hi at *
  intro u v u0 u1 v0 v1
  rcases le_total 0 a with ha | ha <;> rcases le_total 0 c with hc | hc <;>
    have x1 := mul_nonneg (abs_nonneg a) u0 <;> constructor <;> clear hb hm corner x1
  all_goals
    have p1 : 0 ≤ u * |a| := by positivity
    have p2 : 0 ≤ (w - u) * |a| := mul_nonneg (by linarith) (abs_nonneg _)
    have p3 : 0 ≤ v * |c| := by positivity
    have p4 : 0 ≤ (h - v) * |c| := mul_nonneg (by linarith) (abs_nonneg _)
    first
      | rw [abs_of_nonneg ha] at p1 p2
      | rw [abs_of_nonpos ha] at p1 p2
    first
      | rw [abs_of_nonneg hc] at p3 p4
      | rw [abs_of_nonpos hc] at p3 p4
    nlinarith

theorem area_box (m : Mat ℝ) {w h : ℝ} (hw : 0 ≤ w) (hh : 0 ≤ h) :
    ∃ b, bboxPoints [image m ⟨0, 0⟩, image m ⟨w, 0⟩, image m ⟨w, h⟩, image m ⟨0, h⟩] = .ok b ∧ TightArea (image m) w h b := by
  refine ⟨_, rfl, ?_⟩
  have hx := four_sides (a := m.a) (c := m.c) (e := m.e) hw hh
  have hy := four_sides (a := m.b) (c := m.d) (e := m.f) hw hh
  exact ⟨fun u v u0 u1 v0 v1 => ⟨hx.1 u v u0 u1 v0 v1, hy.1 u v u0 u1 v0 v1⟩, hx.2.1, hx.2.2, hy.2.1, hy.2.2⟩

/-- **C106**, partial: the box of an image whose size is known is the tight box of the area of the image, taken where the transform takes
it, or as it is if `transformed=False`. Missing: an image without a transform (`C106_no_transform_wrong`) or without a known size
(`C106_no_size_wrong`). -/
theorem C106_tight_partial (m : Mat ℝ) (t : Trafo ℝ) {w h : ℝ} (hw : 0 ≤ w) (hh : 0 ≤ h) :
    (∃ b, imageBBox (some (w, h)) (.matrix m) true = .ok b ∧ TightArea (image m) w h b) ∧
    ∃ b, imageBBox (some (w, h)) t false = .ok b ∧ TightArea id w h b := by
  constructor
  · obtain ⟨b, e1, e2⟩ := area_box m hw hh
    refine ⟨b, ?_, e2⟩
    rw [← e1]
    simp only [← image_eq]
    rfl
  · obtain ⟨b, e1, e2⟩ := area_box ⟨1, 0, 0, 1, 0, 0⟩ hw hh
    have : image ⟨1, 0, 0, 1, 0, 0⟩ = id := funext fun p => by simp [image]
    rw [this] at e1 e2
    exact ⟨b, e1, e2⟩

example : (0 : ℝ) ≤ 640 ∧ (0 : ℝ) ≤ 480 := by norm_num

/-- An image without a transform has no box, unless `transformed=False` and the size is known: `bbox()` raises TypeError. -/
theorem C106_no_transform_wrong (w h : ℝ) (tr : Bool) :
    imageBBox (some (w, h)) .absent true = .error .typeError ∧ imageBBox (K := ℝ) none .absent tr = .error .typeError := ⟨rfl, rfl⟩

/-- Without a known size, the transform is used even if `transformed=False`: the box is the point where the transform takes the origin. -/
theorem C106_no_size_wrong (m : Mat ℝ) (tr : Bool) : imageBBox none (.matrix m) tr = .ok ⟨m.e, m.f, m.e, m.f⟩ := by
  have : m.pointInMatrixSpace ⟨0, 0⟩ = ⟨m.e, m.f⟩ := by rw [image_eq]; simp [image]
  have h : imageBBox none (.matrix m) tr = .ok ⟨(m.pointInMatrixSpace ⟨0, 0⟩).x, (m.pointInMatrixSpace ⟨0, 0⟩).y,
    (m.pointInMatrixSpace ⟨0, 0⟩).x, (m.pointInMatrixSpace ⟨0, 0⟩).y⟩ := rfl
  rw [h, this]

end Svgio.Props
