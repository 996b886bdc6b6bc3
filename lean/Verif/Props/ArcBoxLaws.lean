import Verif.Props.ArcBox
import Verif.Props.ArcTransform
import Verif.Props.ArcReverse
import Verif.Props.BoxLaws

/-!
C109 for arcs: boxes of arcs that are scaled along the axes, moved or reversed.
-/

namespace Svgio.Arc

open Real Svgio.Spec

/-- **C109**, arcs: the box of an arc that is scaled along the axes and moved is the box of the arc, scaled and moved. The arc lies on an
ellipse with axes along the coordinate axes, or the two factors have the same size (otherwise the code does not transform the arc correctly, C79). -/
theorem C109_arc_scale_partial {m : Mat ℝ} {p q : Pt ℝ} {a : ArcData ℝ} {t : ℝ} (ha : 0 < rx a) (hb : 0 < ry a)
    (hperp : Perpendicular a) (hmb : m.b = 0) (hmc : m.c = 0) (hma : m.a ≠ 0) (hmd : m.d ≠ 0)
    (hax : (a.prx.y = a.center.y ∧ a.pry.x = a.center.x) ∨ |m.a| = |m.d|)
    (hp : p = ellipse a.center (rx a) (ry a) (rotation a) t)
    (hq : q = ellipse a.center (rx a) (ry a) (rotation a) (t + a.sweep)) {isAngle isAngle' : Bool}
    (hw : sweepIsZero isAngle a.sweep = false) (hw' : sweepIsZero isAngle' (Seg.imulArc m a).sweep = false) :
    ∃ x, ∀ fuel, 2 ≤ fuel → bbox fuel isAngle p q a = .ok x ∧
      bbox fuel isAngle' (m.pointInMatrixSpace p) (m.pointInMatrixSpace q) (Seg.imulArc m a) = .ok
        ⟨(Props.moved m.a m.e x.xmin x.xmax).1, (Props.moved m.d m.f x.ymin x.ymax).1,
          (Props.moved m.a m.e x.xmin x.xmax).2, (Props.moved m.d m.f x.ymin x.ymax).2⟩ := by
  have hdet : m.determinant ≠ 0 := by
    unfold Mat.determinant
    rw [hmb, hmc]
    simpa using ⟨hma, hmd⟩
  have hsr : SignsRight m := C62_signs_partial m hdet (Or.inr (Or.inl ⟨hmb, hmc⟩))
  have hperp' : Perpendicular (Seg.imulArc m a) := by
    rcases hax with ⟨h1, h2⟩ | h
    · exact perpendicular_scale hmb hmc h1 h2
    · rcases abs_eq_abs.1 h with h | h
      · exact perpendicular_similarity hperp (Or.inl ⟨h, by rw [hmb, hmc, neg_zero]⟩)
      · exact perpendicular_similarity hperp (Or.inr ⟨h, by rw [hmb, hmc]⟩)
  have hpt := fun w => pointAtT_imul ha hb hperp hperp' hdet w
  have hsw : (Seg.imulArc m a).sweep = (if 0 < m.determinant then 1 else -1) * a.sweep := by
    rw [imulArc_sweep]
    rcases hsr with h | h
    · rw [if_pos h.2, if_pos h.1, one_mul]
    · rw [if_neg h.2, if_neg (not_lt.mpr h.1.le), neg_one_mul]
  obtain ⟨x, b1, tx, ty⟩ := C86_tight_partial ha hb hp hq hw
  have hp2 := hp
  have hq2 := hq
  rw [← pointAtT_ellipse] at hp2 hq2
  obtain ⟨ha', hb', e1⟩ := hpt t
  have e2 := (hpt (t + a.sweep)).2.2
  rw [← hp2, pointAtT_ellipse] at e1
  rw [← hq2, pointAtT_ellipse, mul_add, ← hsw] at e2
  obtain ⟨x', b2, tx', ty'⟩ := C86_tight_partial ha' hb' e1 e2 hw'
  have key := C79_transform_partial ha hb hperp hperp' hsr hp2 (q := q) (isAngle := isAngle) (isAngle' := isAngle')
    (by rw [hw, Bool.and_false]) (by rw [hw', Bool.and_false])
  have ux := Props.range_unique (g := fun t => m.a * (point isAngle p q a t).x + m.e)
    (fun t h0 h1 => by rw [key]; simp only [Mat.pointInMatrixSpace, hmc]; ring) tx' (Props.range_moved m.a m.e tx)
  have uy := Props.range_unique (g := fun t => m.d * (point isAngle p q a t).y + m.f)
    (fun t h0 h1 => by rw [key]; simp only [Mat.pointInMatrixSpace, hmb]; ring) ty' (Props.range_moved m.d m.f ty)
  refine ⟨x, fun fuel hf => ⟨b1 fuel hf, ?_⟩⟩
  rw [b2 fuel hf, ← ux.1, ← ux.2, ← uy.1, ← uy.2]

/-- **C109**, arcs: a reversed arc has the same box. -/
theorem C109_arc_reverse_partial {a : ArcData ℝ} {p q : Pt ℝ} {t : ℝ} (r sm : Bool) (ha : 0 < rx a) (hb : 0 < ry a)
    (hp : p = ellipse a.center (rx a) (ry a) (rotation a) t)
    (hq : q = ellipse a.center (rx a) (ry a) (rotation a) (t + a.sweep)) {isAngle isAngle' : Bool}
    (hw : sweepIsZero isAngle a.sweep = false) (hw' : sweepIsZero isAngle' (-a.sweep) = false) :
    ∃ a' p' q' x, Seg.reverse ⟨.arc a, some p, some q, r, sm⟩ = ⟨.arc a', some p', some q', r, sm⟩ ∧
      ∀ fuel, 2 ≤ fuel → bbox fuel isAngle p q a = .ok x ∧ bbox fuel isAngle' p' q' a' = .ok x := by
  obtain ⟨x, b1, tx, ty⟩ := C86_tight_partial ha hb hp hq hw
  have hq' : q = ellipse a.center (rx a) (ry a) (rotation a) (t + a.sweep) := hq
  have hp' : p = ellipse a.center (rx a) (ry a) (rotation a) (t + a.sweep + -a.sweep) := by rw [hp]; congr 1; ring
  obtain ⟨x', b2, tx', ty'⟩ := C86_tight_partial (a := { a with sweep := -a.sweep }) ha hb hq' hp' hw'
  refine ⟨{ a with sweep := -a.sweep }, q, p, x, rfl, fun fuel hf => ⟨b1 fuel hf, ?_⟩⟩
  have key : ∀ u, point isAngle' q p { a with sweep := -a.sweep } u = point isAngle p q a (1 - u) := by
    intro u
    rw [point_wave (a := { a with sweep := -a.sweep }) ha hb hq' hp' hw', point_wave ha hb hp hq hw]
    rw [← pointAtT_ellipse] at hp hq
    have ha' : 0 < rx ({ a with sweep := -a.sweep } : ArcData ℝ) := ha
    have hb' : 0 < ry ({ a with sweep := -a.sweep } : ArcData ℝ) := hb
    have h1 := pointAtT_add { a with sweep := -a.sweep } (endT_pointAtT (a := { a with sweep := -a.sweep }) ha' hb' (t + a.sweep))
      (-a.sweep * u)
    have h2 := pointAtT_add a (endT_pointAtT ha hb t) (a.sweep * (1 - u))
    have e3 : pointAtT { a with sweep := -a.sweep } (t + a.sweep) = q := hq.symm
    rw [e3] at h1
    rw [← hp] at h2
    rw [h1, h2]
    exact congrArg (pointAtT a) (by ring)
  have ux := Props.range_unique (g := fun t => (point isAngle p q a (1 - t)).x) (fun t h0 h1 => by simp only [key]) tx'
    (Props.range_reversed tx)
  have uy := Props.range_unique (g := fun t => (point isAngle p q a (1 - t)).y) (fun t h0 h1 => by simp only [key]) ty'
    (Props.range_reversed ty)
  rw [b2 fuel hf]
  congr 1
  obtain ⟨_, _, _, _⟩ := x
  obtain ⟨_, _, _, _⟩ := x'
  simp only at ux uy
  rw [ux.1, ux.2, uy.1, uy.2]

/-- half of an upright ellipse, mirrored and scaled by different factors, meets the hypotheses of `C109_arc_scale_partial` and of
`C109_arc_reverse_partial` -/
example : ∃ (m : Mat ℝ) (a : ArcData ℝ) (p q : Pt ℝ) (t : ℝ), 0 < rx a ∧ 0 < ry a ∧ Perpendicular a ∧ m.b = 0 ∧ m.c = 0 ∧ m.a = 2 ∧
    m.d = -3 ∧ a.prx.y = a.center.y ∧ a.pry.x = a.center.x ∧ p = ellipse a.center (rx a) (ry a) (rotation a) t ∧
    q = ellipse a.center (rx a) (ry a) (rotation a) (t + a.sweep) ∧ sweepIsZero false a.sweep = false ∧
    sweepIsZero false (-a.sweep) = false ∧ sweepIsZero false (Seg.imulArc m a).sweep = false := by
  have hpi := pi_pos
  refine ⟨⟨2, 0, 0, -3, 5, 7⟩, { center := ⟨0, 0⟩, prx := ⟨4, 0⟩, pry := ⟨0, 1⟩, sweep := π }, _, _, 0, ?_, ?_, ?_, rfl, rfl, rfl,
    rfl, rfl, rfl, rfl, rfl, ?_, ?_, ?_⟩
  · rw [rx_eq]; norm_num
  · rw [ry_eq]; norm_num
  · unfold Perpendicular; norm_num
  · simp [sweepIsZero, hpi.ne']
  · simp [sweepIsZero, hpi.ne']
  · rw [imulArc_sweep]
    norm_num [sweepIsZero, hpi.ne']

end Svgio.Arc
