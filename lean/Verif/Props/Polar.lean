import Verif.Model.Polar
import Verif.Lemmas.Arc
import Verif.Props.Point
import Verif.Props.ArcParams
import Verif.Props.FloatArc

/-! C154: polar coordinates. -/

namespace Svgio.Props
open Spec Arc

/-- `a` and `b` are the same angle up to full turns -/
def SameTurn (a b : ℝ) : Prop := ∃ n : ℤ, a = b + n * (2 * Real.pi)

theorem sameTurn_of {s t : ℝ} (h1 : Real.cos s = Real.cos t) (h2 : Real.sin s = Real.sin t) : SameTurn s t := sameAngle_of h1 h2

theorem polar_dir (p : Pt ℝ) {r : ℝ} (hr : 0 < r) (a : ℝ) : SameTurn (Arc.angle p (Arc.polar p a r)) a := by
  obtain ⟨h1, h2⟩ := angle_polar p hr a
  have e : Arc.polar p a r = ⟨p.x + r * Real.cos a, p.y + r * Real.sin a⟩ := by simp only [Arc.polar, mul_comm]
  rw [e]
  exact sameTurn_of h1 h2

theorem polar_neg (p : Pt ℝ) (a r : ℝ) : Arc.polar p a r = Arc.polar p (a + Real.pi) (-r) := by
  simp [Arc.polar, Real.cos_add_pi, Real.sin_add_pi]

/-- **C154**: `Point.polar(p, a, r)` and `p.polar_to(a, r)` are at the distance `|r|` from `p`, in the direction `a`, or the opposite one if `r`
is negative -/
theorem C154_polar (p : Pt ℝ) (a r : ℝ) :
    p.polarTo a r = Arc.polar p a r ∧ p.distance (Arc.polar p a r) = |r| ∧ p.distanceTo (Arc.polar p a r) = |r| ∧
      (0 < r → SameTurn (p.angleTo (Arc.polar p a r)) a) ∧ (r < 0 → SameTurn (p.angleTo (Arc.polar p a r)) (a + Real.pi)) := by
  have h : p.distance (Arc.polar p a r) = |r| := by
    rw [← Real.sqrt_sq_eq_abs, Pt.distance]
    congr 1
    simp only [Arc.polar]
    linear_combination r ^ 2 * Real.sin_sq_add_cos_sq a
  refine ⟨rfl, h, ?_, fun hr => polar_dir p hr a, fun hr => ?_⟩
  · rw [(C21_distance p (Arc.polar p a r) p p).2.2.2.2.2.1, h]
  · rw [polar_neg]
    exact polar_dir p (by linarith) _

/-- **C154**: going from `p` in the direction of `q` as far as `q` is leads to `q`; the angle is in (-π, π], and seen from `q` the point `p` is in the
opposite direction -/
theorem C154_back (p q : Pt ℝ) :
    Arc.polar p (p.angleTo q) (p.distance q) = q ∧ Arc.polar p (Arc.angle p q) (p.distanceTo q) = q ∧
      -Real.pi < p.angleTo q ∧ p.angleTo q ≤ Real.pi ∧ (p ≠ q → SameTurn (q.angleTo p) (p.angleTo q + Real.pi)) := by
  have hd := (C21_distance p q p p).2.2.2.2.2.1
  have hb : Arc.polar p (p.angleTo q) (p.distance q) = q := by
    have h1 := atan2_cos (q.x - p.x) (q.y - p.y)
    have h2 := atan2_sin (q.x - p.x) (q.y - p.y)
    have e : p.distance q = √((q.x - p.x) ^ 2 + (q.y - p.y) ^ 2) := by
      rw [Pt.distance]
      congr 1
      ring
    apply Pt.ext
    · simp only [Arc.polar, Pt.angleTo, Pt.sub, e]
      linarith
    · simp only [Arc.polar, Pt.angleTo, Pt.sub, e]
      linarith
  refine ⟨hb, by rw [hd]; exact hb, Complex.neg_pi_lt_arg _, Complex.arg_le_pi _, fun hne => ?_⟩
  have pos : 0 < p.distance q := lt_of_le_of_ne (Real.sqrt_nonneg _) (fun h => hne ((C21_distance p q p p).2.2.1.1 h.symm))
  have e : Arc.polar q (p.angleTo q + Real.pi) (p.distance q) = p := by
    have h1 := congrArg Pt.x hb
    have h2 := congrArg Pt.y hb
    simp only [Arc.polar] at h1 h2
    apply Pt.ext
    · simp only [Arc.polar, Real.cos_add_pi]
      linarith
    · simp only [Arc.polar, Real.sin_add_pi]
      linarith
  have := polar_dir q pos (p.angleTo q + Real.pi)
  rw [e] at this
  exact this

theorem polar_axis {c u r : ℚ} {u0 r0 e : ℝ} (he : e ≤ 20 / 2 ^ 53) (he0 : 0 ≤ e) (hu : |(u : ℝ) - u0| ≤ e) (hr : |(r : ℝ) - r0| ≤ |r0| * (9 / 2 ^ 53) + 1 / 2 ^ 536) (h1 : |u0| ≤ 1) :
    |((roundDouble (c + roundDouble (u * r)) : ℚ) : ℝ) - (c + u0 * r0)| ≤ (|(c : ℝ)| + |r0|) / 2 ^ 48 + 1 / 2 ^ 532 := by
  have w0 : (0 : ℝ) ≤ 1 / 2 ^ 536 := by positivity
  have b1 : |u0 * r0| ≤ |r0| := by
    rw [abs_mul]
    exact mul_le_of_le_one_left (abs_nonneg _) h1
  have b2 : |(c : ℝ) + u0 * r0| ≤ |(c : ℝ)| + |r0| := (abs_add_le _ _).trans (by linarith)
  have s1 := near_prod (hu.trans he) hr h1 le_rfl
  have s2 := near_round (q := u * r) (by push_cast; exact s1) b1
  have s3 := s2
  rw [← add_sub_add_left_eq_sub _ _ (c : ℝ), ← Rat.cast_add] at s3
  have s4 := near_round s3 b2
  refine s4.trans ?_
  have e' : (1 : ℝ) / 2 ^ 532 = 16 * (1 / 2 ^ 536) := by
    rw [show (2 : ℝ) ^ 536 = 2 ^ 532 * 16 by rw [show (16 : ℝ) = 2 ^ 4 by norm_num, ← pow_add]]
    rw [div_mul_eq_div_div]
    ring
  rw [e']
  have r0' := abs_nonneg r0
  have c0 := abs_nonneg (c : ℝ)
  generalize (1 : ℝ) / 2 ^ 536 = w at *
  generalize |(c : ℝ)| = k at *
  generalize |r0| = k' at *
  norm_num1
  linarith

/-- **C154**: with floats both coordinates of `Point.polar(p, a, r)` are off by at most `(|p| + |r|) / 2^48` -/
theorem C154_float (T : Flt.FloatTrig) (p : Pt ℚ) (a r : ℚ) :
    |((Flt.polar doubles T p a r).x : ℝ) - (p.x + r * Real.cos a)| ≤ (|(p.x : ℝ)| + |(r : ℝ)|) / 2 ^ 48 + 1 / 2 ^ 532 ∧
      |((Flt.polar doubles T p a r).y : ℝ) - (p.y + r * Real.sin a)| ≤ (|(p.y : ℝ)| + |(r : ℝ)|) / 2 ^ 48 + 1 / 2 ^ 532 := by
  have hr : |(r : ℝ) - (r : ℝ)| ≤ |(r : ℝ)| * (9 / 2 ^ 53) + 1 / 2 ^ 536 := by rw [sub_self, abs_zero]; positivity
  rw [mul_comm, mul_comm (r : ℝ) (Real.sin a)]
  exact ⟨polar_axis (by norm_num) (by norm_num) (T.cos_err a) hr (Real.abs_cos_le_one _),
    polar_axis (by norm_num) (by norm_num) (T.sin_err a) hr (Real.abs_sin_le_one _)⟩

/-- **C154**: with floats, going from `p` in the direction of `q` as far as `q` is leads to `q`, up to the roundings -/
theorem C154_float_back (T : Flt.FloatTrig) (R : Flt.FloatRoot) {p q : Pt ℚ} (hp : DoublePt p) (hq : DoublePt q) :
    |((Flt.polar doubles T p (Flt.angle doubles T p q) (Flt.distance doubles R p q)).x : ℝ) - q.x| ≤ (|(p.x : ℝ)| + dist p q) / 2 ^ 48 + 1 / 2 ^ 532 ∧
      |((Flt.polar doubles T p (Flt.angle doubles T p q) (Flt.distance doubles R p q)).y : ℝ) - q.y| ≤ (|(p.y : ℝ)| + dist p q) / 2 ^ 48 + 1 / 2 ^ 532 := by
  have d0 : 0 ≤ dist p q := Real.sqrt_nonneg _
  have hd := distance_err R hp hq
  have hd' : |(Flt.distance doubles R p q : ℝ) - dist p q| ≤ |dist p q| * (9 / 2 ^ 53) + 1 / 2 ^ 536 := by rwa [abs_of_nonneg d0]
  have fin : ∀ u v : ℝ, |(T.cos (Flt.angle doubles T p q) : ℝ) - u| ≤ 13 / 2 ^ 53 → |(T.sin (Flt.angle doubles T p q) : ℝ) - v| ≤ 13 / 2 ^ 53 → |u| ≤ 1 → |v| ≤ 1 →
      (q.x : ℝ) = p.x + u * dist p q → (q.y : ℝ) = p.y + v * dist p q →
      |((Flt.polar doubles T p (Flt.angle doubles T p q) (Flt.distance doubles R p q)).x : ℝ) - q.x| ≤ (|(p.x : ℝ)| + dist p q) / 2 ^ 48 + 1 / 2 ^ 532 ∧
      |((Flt.polar doubles T p (Flt.angle doubles T p q) (Flt.distance doubles R p q)).y : ℝ) - q.y| ≤ (|(p.y : ℝ)| + dist p q) / 2 ^ 48 + 1 / 2 ^ 532 := by
    intro u v hu hv u1 v1 e1 e2
    have a1 := polar_axis (c := p.x) (by norm_num) (by norm_num) hu hd' u1
    have a2 := polar_axis (c := p.y) (by norm_num) (by norm_num) hv hd' v1
    rw [← e1, abs_of_nonneg d0] at a1
    rw [← e2, abs_of_nonneg d0] at a2
    exact ⟨a1, a2⟩
  by_cases hne : q = p
  · have z : dist p q = 0 := by rw [hne]; simp [dist]
    refine fin _ _ ((T.cos_err _).trans (by norm_num)) ((T.sin_err _).trans (by norm_num)) (Real.abs_cos_le_one _) (Real.abs_sin_le_one _) ?_ ?_ <;>
      rw [z, hne, mul_zero, add_zero]
  · have hφ : Direction p q (Complex.arg ⟨(q.x : ℝ) - p.x, (q.y : ℝ) - p.y⟩) := by
      have e : dist p q = ‖(⟨(q.x : ℝ) - p.x, (q.y : ℝ) - p.y⟩ : ℂ)‖ := by
        rw [dist_comm', Complex.norm_def, Complex.normSq_apply, dist]
        congr 1
        ring
      unfold Direction
      rw [e, Complex.norm_mul_cos_arg, Complex.norm_mul_sin_arg]
      exact ⟨rfl, rfl⟩
    obtain ⟨n1, n2⟩ := angle_near T hp hq hne hφ
    refine fin _ _ ((abs_sub_le _ _ _).trans ((add_le_add (T.cos_err _) n1).trans (by norm_num)))
      ((abs_sub_le _ _ _).trans ((add_le_add (T.sin_err _) n2).trans (by norm_num))) (Real.abs_cos_le_one _) (Real.abs_sin_le_one _) ?_ ?_
    · linarith [hφ.1]
    · linarith [hφ.2]

/-- from (1, 2), 5 away, a quarter turn: the point (1, 7) -/
example : Arc.polar ⟨1, 2⟩ (Real.pi / 2) 5 = ⟨1, 7⟩ ∧ DoublePt ⟨1, 7⟩ ∧ (⟨1, 2⟩ : Pt ℝ) ≠ ⟨1, 7⟩ := by
  refine ⟨by norm_num [Arc.polar], ⟨?_, ?_⟩, by norm_num⟩
  · exact_mod_cast isDouble_int (n := 1) (by norm_num)
  · exact_mod_cast isDouble_int (n := 7) (by norm_num)

end Svgio.Props
