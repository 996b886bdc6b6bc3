import Verif.Model.Picture
import Verif.Model.Subpath
import Verif.Spec.Arc
import Verif.Props.ArcCurves

/-!
C64 for arcs: reversing an arc reverses its parameter.
-/

namespace Svgio.Props

open Svgio Spec Arc Real

theorem pt_eq_symm (p q : Pt ℝ) : p.eq q = q.eq p := by
  simp only [Pt.eq, abs_sub_comm]

/-- **C64**, arcs: an arc whose ends are on its ellipse, as far apart as its sweep says, is drawn backwards after `reverse()`. `ang`
says whether the sweep of an arc is an `Angle`. Partial: a full turn must not be given as one (`C64_full_wrong`). -/
theorem C64_arc_partial (numpy : Bool) (ang : ArcData ℝ → Bool) (a : ArcData ℝ) (p q : Pt ℝ) (r sm : Bool) (t u : ℝ) (ha : 0 < rx a)
    (hb : 0 < ry a) (hp : p = ellipse a.center (rx a) (ry a) (rotation a) t)
    (hq : q = ellipse a.center (rx a) (ry a) (rotation a) (t + a.sweep))
    (hz : p.eq q = true → a.sweep = 0 ∨
      (sweepIsZero (ang a) a.sweep = false ∧ sweepIsZero (ang { a with sweep := -a.sweep }) (-a.sweep) = false)) :
    (Seg.reverse ⟨.arc a, some p, some q, r, sm⟩).anyPoint numpy ang u =
      Seg.anyPoint numpy ang ⟨.arc a, some p, some q, r, sm⟩ (1 - u) := by
  simp only [Seg.reverse, Seg.anyPoint]
  congr 1
  rw [← pointAtT_ellipse] at hp hq
  have ha' : 0 < rx ({ a with sweep := -a.sweep } : ArcData ℝ) := ha
  have hb' : 0 < ry ({ a with sweep := -a.sweep } : ArcData ℝ) := hb
  have key : pointAtT { a with sweep := -a.sweep } (endT { a with sweep := -a.sweep } q + -a.sweep * u) =
      pointAtT a (endT a p + a.sweep * (1 - u)) := by
    have e2 := endT_pointAtT (a := { a with sweep := -a.sweep }) ha' hb' (t + a.sweep)
    have h1 := pointAtT_add { a with sweep := -a.sweep } e2 (-a.sweep * u)
    have h2 := pointAtT_add a (endT_pointAtT ha hb t) (a.sweep * (1 - u))
    have e3 : pointAtT { a with sweep := -a.sweep } (t + a.sweep) = q := hq.symm
    rw [e3] at h1
    rw [← hp] at h2
    rw [h1, h2]
    exact congrArg (pointAtT a) (by ring)
  have ends : (if u = 0 then q else if u = 1 then p else pointAtT { a with sweep := -a.sweep } (endT { a with sweep := -a.sweep } q + -a.sweep * u)) =
      (if 1 - u = 0 then p else if 1 - u = 1 then q else pointAtT a (endT a p + a.sweep * (1 - u))) := by
    by_cases h0 : u = 0
    · subst h0; simp
    · by_cases h1 : u = 1
      · subst h1; simp
      · rw [if_neg h0, if_neg h1, if_neg (by intro h; apply h1; linarith), if_neg (by intro h; apply h0; linarith), key]
  unfold Arc.point
  rw [pt_eq_symm q p]
  by_cases h : p.eq q = true
  · rcases hz h with h0 | ⟨h1, h2⟩
    · have hpq : p = q := by rw [hp, hq, h0, add_zero]
      have z : ∀ b, sweepIsZero b 0 = true := by
        intro b; cases b <;> simp [sweepIsZero, Angle.eq]
      rw [if_pos (by simp [h, h0, z]), if_pos (by simp [h, h0, z]), hpq]
    · simp only [h1, h2, Bool.and_false, Bool.false_eq_true, if_false]
      exact ends
  · simp only [h, Bool.false_and, Bool.false_eq_true, if_false]
    exact ends

/-- the upper half of the unit circle -/
example : (⟨1, 0⟩ : Pt ℝ) = ellipse ⟨0, 0⟩ 1 1 0 0 ∧ (⟨-1, 0⟩ : Pt ℝ) = ellipse ⟨0, 0⟩ 1 1 0 (0 + π) ∧
    (⟨1, 0⟩ : Pt ℝ).eq ⟨-1, 0⟩ = false ∧ rx ⟨⟨0, 0⟩, ⟨1, 0⟩, ⟨0, 1⟩, π⟩ = 1 ∧ ry ⟨⟨0, 0⟩, ⟨1, 0⟩, ⟨0, 1⟩, π⟩ = 1 ∧
    rotation ⟨⟨0, 0⟩, ⟨1, 0⟩, ⟨0, 1⟩, π⟩ = 0 := by
  refine ⟨by simp [ellipse], by simp [ellipse], by norm_num [Pt.eq, err], by norm_num [rx, Pt.distance], by norm_num [ry, Pt.distance], ?_⟩
  have : (⟨1, 0⟩ : ℂ) = 1 := rfl
  simp [rotation, Arc.angle, atan2, this]

/-- C64 is false of a full turn given as an `Angle`: this is drawn as a single point, because angles compare modulo a turn; `reverse()`
makes the sweep a plain number, and the whole circle is drawn. -/
theorem C64_full_wrong : ∃ a : ArcData ℝ, a.sweep = tau ∧ (∀ u, Arc.point true ⟨1, 0⟩ ⟨1, 0⟩ a u = ⟨1, 0⟩) ∧
    Seg.reverse ⟨.arc a, some ⟨1, 0⟩, some ⟨1, 0⟩, false, true⟩ = ⟨.arc { a with sweep := -tau }, some ⟨1, 0⟩, some ⟨1, 0⟩, false, true⟩ ∧
    Arc.point false ⟨1, 0⟩ ⟨1, 0⟩ { a with sweep := -tau } (1 / 2) = ⟨-1, 0⟩ := by
  have hpi := pi_pos
  have e : (⟨1, 0⟩ : Pt ℝ).eq ⟨1, 0⟩ = true := by norm_num [Pt.eq, err]
  refine ⟨⟨⟨0, 0⟩, ⟨1, 0⟩, ⟨0, 1⟩, tau⟩, rfl, ?_, rfl, ?_⟩
  · intro u
    have z : sweepIsZero true tau = true := by
      have ht : tau ≠ 0 := by unfold tau; positivity
      simp [sweepIsZero, Angle.eq, Angle.pyMod, ht]
    simp [Arc.point, e, z]
  · have ht : tau ≠ 0 := by unfold tau; positivity
    have z : sweepIsZero false (-tau) = false := by simp [sweepIsZero, ht]
    have hr : rotation ⟨⟨0, 0⟩, ⟨1, 0⟩, ⟨0, 1⟩, -tau⟩ = 0 := by
      have : (⟨1, 0⟩ : ℂ) = 1 := rfl
      simp [rotation, Arc.angle, atan2, this]
    have hx : rx ⟨⟨0, 0⟩, ⟨1, 0⟩, ⟨0, 1⟩, -tau⟩ = 1 := by norm_num [rx, Pt.distance]
    have hy : ry ⟨⟨0, 0⟩, ⟨1, 0⟩, ⟨0, 1⟩, -tau⟩ = 1 := by norm_num [ry, Pt.distance]
    have hp : pointAtT ⟨⟨0, 0⟩, ⟨1, 0⟩, ⟨0, 1⟩, -tau⟩ 0 = ⟨1, 0⟩ := by simp [pointAtT, hr, hx, hy]
    have h1 := endT_pointAtT (a := ⟨⟨0, 0⟩, ⟨1, 0⟩, ⟨0, 1⟩, -tau⟩) (by rw [hx]; norm_num) (by rw [hy]; norm_num) 0
    rw [hp] at h1
    have h2 := pointAtT_add ⟨⟨0, 0⟩, ⟨1, 0⟩, ⟨0, 1⟩, -tau⟩ h1 (-tau * (1 / 2))
    unfold Arc.point
    simp only [e, z, Bool.and_false, Bool.false_eq_true, if_false]
    rw [if_neg (by norm_num), if_neg (by norm_num), h2, show 0 + -tau * (1 / 2) = -π by unfold tau; ring]
    simp [pointAtT, hr, hx, hy]

end Svgio.Props
