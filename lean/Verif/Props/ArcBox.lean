import Verif.Model.ArcMeasure
import Verif.Props.ArcCurves
import Verif.Props.SegGeom
import Mathlib.Analysis.SpecialFunctions.Trigonometric.Deriv

/-!
C86: the bounding box of an arc.
-/

namespace Svgio.Arc

open Real Spec
open Seg (BBox minOf maxOf)
open Svgio.Props (minOf_le minOf_mem)

/-- `A cos + B sin`, moved up by `c` -/
noncomputable def wave (c A B t : ℝ) : ℝ := c + A * cos t + B * sin t

theorem wave_turn (c A B t : ℝ) (n : ℤ) : wave c A B (t + n * (2 * π)) = wave c A B t := by
  unfold wave
  rw [cos_add_int_mul_two_pi, sin_add_int_mul_two_pi]

/-- where the derivative is zero -/
theorem wave_critical {A B t0 c : ℝ} (h0 : A * sin t0 = B * cos t0) (h : A * sin c = B * cos c) (hAB : A ≠ 0 ∨ B ≠ 0) :
    ∃ k : ℤ, c = t0 + k * π := by
  have hs : sin (c - t0) = 0 := by
    rw [sin_sub]
    rcases hAB with hA | hB
    · have : A * (sin c * cos t0 - cos c * sin t0) = 0 := by linear_combination cos t0 * h - cos c * h0
      exact (mul_eq_zero.1 this).resolve_left hA
    · have : B * (sin c * cos t0 - cos c * sin t0) = 0 := by linear_combination sin t0 * h - sin c * h0
      exact (mul_eq_zero.1 this).resolve_left hB
  obtain ⟨k, hk⟩ := sin_eq_zero_iff.1 hs
  exact ⟨k, by linarith⟩

/-- the greatest value on the first turn is taken at one of its ends or where the derivative is zero -/
theorem wave_max (c A B T w : ℝ) {l : ℝ} (hl : 0 < l) {t0 : ℝ} (h0 : A * sin t0 = B * cos t0) (hw : w ≠ 0) :
    ∃ u, 0 ≤ u ∧ u ≤ l ∧ (∀ t, 0 ≤ t → t ≤ l → wave c A B (T + w * t) ≤ wave c A B (T + w * u)) ∧
      (u = 0 ∨ u = l ∨ ∃ k : ℤ, T + w * u = t0 + k * π) := by
  by_cases hAB : A ≠ 0 ∨ B ≠ 0
  · have hcont : ContinuousOn (fun t => wave c A B (T + w * t)) (Set.Icc 0 l) := by
      unfold wave
      fun_prop
    obtain ⟨u, hu, hmax⟩ := isCompact_Icc.exists_isMaxOn (Set.nonempty_Icc.2 hl.le) hcont
    refine ⟨u, hu.1, hu.2, fun t ht0 ht1 => hmax ⟨ht0, ht1⟩, ?_⟩
    by_cases hu0 : u = 0
    · exact Or.inl hu0
    by_cases hul : u = l
    · exact Or.inr (Or.inl hul)
    right; right
    have hlt : 0 < u := lt_of_le_of_ne hu.1 (Ne.symm hu0)
    have hlt' : u < l := lt_of_le_of_ne hu.2 hul
    have hloc : IsLocalMax (fun t => wave c A B (T + w * t)) u :=
      hmax.isLocalMax (Icc_mem_nhds hlt hlt')
    have hin : HasDerivAt (fun t => T + w * t) w u := by
      simpa using ((hasDerivAt_id u).const_mul w).const_add T
    have hd : HasDerivAt (fun t => wave c A B (T + w * t)) (A * (-sin (T + w * u) * w) + B * (cos (T + w * u) * w)) u := by
      have h1 := (hin.cos.const_mul A).add (hin.sin.const_mul B)
      have h2 := h1.const_add c
      refine h2.congr_of_eventuallyEq (Filter.Eventually.of_forall fun t => ?_)
      simp only [wave, Pi.add_apply]
      ring
    have hz := hloc.hasDerivAt_eq_zero hd
    have : w * (A * sin (T + w * u) - B * cos (T + w * u)) = 0 := by linear_combination -hz
    exact wave_critical h0 (by linarith [(mul_eq_zero.1 this).resolve_left hw]) hAB
  · push Not at hAB
    refine ⟨0, le_rfl, hl.le, fun t _ _ => ?_, Or.inl rfl⟩
    simp [wave, hAB.1, hAB.2]

theorem wave_neg (c A B t : ℝ) : wave (-c) (-A) (-B) t = -wave c A B t := by unfold wave; ring

theorem mem_turnsRange {k : ℤ} (h1 : -4 ≤ k) (h2 : k ≤ 4) : k ∈ turnsRange := by
  unfold turnsRange
  simp only [List.mem_cons, List.not_mem_nil, or_false]
  omega

/-- the position found for a parameter -/
theorem angleInv_eq {w th θ ang : ℝ} (hθ : th = θ * 180 / π) (k : ℤ) (hw : w ≠ 0) :
    angleInv th (w * 360 / (2 * π)) ang k = (ang + k * π - θ) / w := by
  have hpi := pi_pos
  unfold angleInv tau
  rw [hθ]
  field_simp
  ring

theorem mem_extreme {w th θ ang : ℝ} (hθ : th = θ * 180 / π) (hw : w ≠ 0) {u : ℝ} (h0 : 0 ≤ u) (h1 : u ≤ 1) {k : ℤ}
    (hk1 : -4 ≤ k) (hk2 : k ≤ 4) (hu : θ + w * u = ang + k * π) : u ∈ extremePositions th (w * 360 / (2 * π)) ang := by
  unfold extremePositions
  rw [List.mem_filter, List.mem_map]
  refine ⟨⟨k, mem_turnsRange hk1 hk2, ?_⟩, by simp [h0, h1]⟩
  rw [angleInv_eq hθ k hw, div_eq_iff hw]
  linarith

theorem extreme_range {th d ang u : ℝ} (h : u ∈ extremePositions th d ang) : 0 ≤ u ∧ u ≤ 1 := by
  unfold extremePositions at h
  rw [List.mem_filter] at h
  simpa using h.2

/-- one side of the range: nothing is above the greatest of the values looked at -/
theorem wave_le (c A B : ℝ) {T θ w th t0 : ℝ} {n : ℤ} (hn : θ = T + n * (2 * π)) (hθ : th = θ * 180 / π) (h0 : 0 ≤ θ) (h1 : θ < 2 * π)
    (ht0 : |t0| ≤ π / 2) (hc : A * sin t0 = B * cos t0) (hw : w ≠ 0) {t : ℝ} (t1 : 0 ≤ t) (t2 : t ≤ 1) :
    ∃ u, (u = 0 ∨ u = 1 ∨ u ∈ extremePositions th (w * 360 / (2 * π)) t0) ∧ wave c A B (T + w * t) ≤ wave c A B (T + w * u) := by
  have hpi := pi_pos
  have hw' : 0 < |w| := abs_pos.2 hw
  have hper : ∀ s, wave c A B (T + s) = wave c A B (θ + s) := by
    intro s
    rw [hn, show T + n * (2 * π) + s = T + s + n * (2 * π) by ring, wave_turn]
  -- the first turn
  obtain ⟨p, hp⟩ : ∃ p, p = 2 * π / |w| := ⟨_, rfl⟩
  have p0 : 0 < p := by rw [hp]; positivity
  have hpw : |w| * p = 2 * π := by rw [hp]; field_simp
  have hwp : ∃ e : ℤ, w * p = e * (2 * π) := by
    rcases abs_choice w with h | h
    · exact ⟨1, by rw [← hpw, h]; push_cast; ring⟩
    · exact ⟨-1, by rw [← hpw, h]; push_cast; ring⟩
  obtain ⟨e, he⟩ := hwp
  obtain ⟨l, hl⟩ : ∃ l, l = min 1 p := ⟨_, rfl⟩
  have l0 : 0 < l := by rw [hl]; exact lt_min one_pos p0
  obtain ⟨u, u0, ul, hmax, hcase⟩ := wave_max c A B θ w l0 hc hw
  have hl1 : l ≤ 1 := by rw [hl]; exact min_le_left _ _
  have hlp : l ≤ p := by rw [hl]; exact min_le_right _ _
  -- the value at `t` is that at a position of the first turn
  obtain ⟨t', t0', tl', ht'⟩ : ∃ t', 0 ≤ t' ∧ t' ≤ l ∧ wave c A B (θ + w * t) = wave c A B (θ + w * t') := by
    by_cases hp1 : 1 ≤ p
    · exact ⟨t, t1, by rw [hl, min_eq_left hp1]; exact t2, rfl⟩
    · refine ⟨t - ⌊t / p⌋ * p, ?_, ?_, ?_⟩
      · have := Int.floor_le (t / p)
        rw [le_div_iff₀ p0] at this
        linarith
      · rw [hl, min_eq_right (by linarith)]
        have := Int.lt_floor_add_one (t / p)
        rw [div_lt_iff₀ p0] at this
        linarith
      · have : θ + w * t = θ + w * (t - ⌊t / p⌋ * p) + (⌊t / p⌋ * e : ℤ) * (2 * π) := by
          push_cast
          linear_combination (⌊t / p⌋ : ℝ) * he
        rw [this, wave_turn]
  have hle : wave c A B (T + w * t) ≤ wave c A B (T + w * u) := by
    rw [hper, hper, ht']
    exact hmax t' t0' tl'
  have hu1 : u ≤ 1 := ul.trans hl1
  rcases hcase with h | h | ⟨k, hk⟩
  · exact ⟨u, Or.inl h, hle⟩
  · by_cases hp1 : 1 ≤ p
    · exact ⟨u, Or.inr (Or.inl (by rw [h, hl, min_eq_left hp1])), hle⟩
    · refine ⟨0, Or.inl rfl, hle.trans (le_of_eq ?_)⟩
      have : u = p := by rw [h, hl, min_eq_right (by linarith)]
      rw [this, he, mul_zero, add_zero, wave_turn]
  · refine ⟨u, Or.inr (Or.inr ?_), hle⟩
    have hwu : |w * u| ≤ 2 * π := by
      rw [abs_mul, abs_of_nonneg u0, ← hpw]
      exact mul_le_mul_of_nonneg_left (ul.trans hlp) hw'.le
    have b1 := abs_le.1 hwu
    have b2 := abs_le.1 ht0
    have k1 : (-5 : ℝ) < k := by
      by_contra hcon
      push Not at hcon
      nlinarith
    have k2 : (k : ℝ) < 5 := by
      by_contra hcon
      push Not at hcon
      nlinarith
    have k1' : -5 < k := by exact_mod_cast k1
    have k2' : k < 5 := by exact_mod_cast k2
    exact mem_extreme hθ hw u0 hu1 (by omega) (by omega) hk

/-- the least and the greatest value looked at are those of the whole curve -/
theorem wave_range (c A B : ℝ) {T θ w th t0 : ℝ} {n : ℤ} (hn : θ = T + n * (2 * π)) (hθ : th = θ * 180 / π) (h0 : 0 ≤ θ) (h1 : θ < 2 * π)
    (ht0 : |t0| ≤ π / 2) (hc : A * sin t0 = B * cos t0) (hw : w ≠ 0) {f : ℝ → ℝ} (hf : ∀ t, 0 ≤ t → t ≤ 1 → f t = wave c A B (T + w * t)) :
    Range f (minOf (f 0) (f 1 :: (extremePositions th (w * 360 / (2 * π)) t0).map f))
      (maxOf (f 0) (f 1 :: (extremePositions th (w * 360 / (2 * π)) t0).map f)) := by
  obtain ⟨L, hL⟩ : ∃ L, L = f 1 :: (extremePositions th (w * 360 / (2 * π)) t0).map f := ⟨_, rfl⟩
  rw [← hL]
  have hmem : ∀ u, (u = 0 ∨ u = 1 ∨ u ∈ extremePositions th (w * 360 / (2 * π)) t0) → f u ∈ f 0 :: L ∧ 0 ≤ u ∧ u ≤ 1 := by
    rintro u (rfl | rfl | h)
    · exact ⟨by simp, le_rfl, zero_le_one⟩
    · exact ⟨by simp [hL], zero_le_one, le_rfl⟩
    · refine ⟨?_, extreme_range h⟩
      rw [hL]
      simp only [List.mem_cons, List.mem_map]
      exact Or.inr (Or.inr ⟨u, h, rfl⟩)
  have hback : ∀ y ∈ f 0 :: L, ∃ t, 0 ≤ t ∧ t ≤ 1 ∧ f t = y := by
    intro y hy
    rw [hL] at hy
    simp only [List.mem_cons, List.mem_map] at hy
    rcases hy with rfl | rfl | ⟨u, hu, rfl⟩
    · exact ⟨0, le_rfl, zero_le_one, rfl⟩
    · exact ⟨1, zero_le_one, le_rfl, rfl⟩
    · exact ⟨u, (extreme_range hu).1, (extreme_range hu).2, rfl⟩
  refine ⟨fun t t1 t2 => ⟨?_, ?_⟩, hback _ (minOf_mem _ _).1, hback _ (minOf_mem _ _).2⟩
  · obtain ⟨u, hu, hle⟩ := wave_le (-c) (-A) (-B) hn hθ h0 h1 ht0 (by linarith) hw t1 t2
    rw [wave_neg, wave_neg] at hle
    obtain ⟨m1, m2, m3⟩ := hmem u hu
    have := (minOf_le (f 0) L _ m1).1
    rw [hf u m2 m3] at this
    rw [hf t t1 t2]
    linarith
  · obtain ⟨u, hu, hle⟩ := wave_le c A B hn hθ h0 h1 ht0 hc hw t1 t2
    obtain ⟨m1, m2, m3⟩ := hmem u hu
    have := (minOf_le (f 0) L _ m1).2
    rw [hf u m2 m3] at this
    rw [hf t t1 t2]
    linarith

/-! ### the parameters of the code -/

theorem scaledAtan_bound (a angle : ℝ) {b : ℝ} (hb : 0 ≤ b) : |scaledAtan a b angle| ≤ π / 2 := by
  have hpi := pi_pos
  unfold scaledAtan
  split_ifs
  · rw [abs_of_pos (by positivity)]
  · rw [abs_neg, abs_of_pos (by positivity)]
  · unfold atan2
    exact Complex.abs_arg_le_pi_div_two_iff.2 hb

theorem ellipseT_bound (a angle : ℝ) {b : ℝ} (hb : 0 ≤ b) : -(π / 2) ≤ ellipseT a b angle ∧ ellipseT a b angle ≤ 3 * (π / 2) := by
  have hpi := pi_pos
  have h := abs_le.1 (scaledAtan_bound a angle hb)
  unfold ellipseT
  have e12 : tau / 2 = π := by unfold tau; ring
  simp only [e12]
  split_ifs <;> constructor <;> linarith

/-- `theta` is the start's parameter in degrees, from 0 to 360 -/
theorem theta_spec (start : Pt ℝ) (a : ArcData ℝ) : ∃ (θ : ℝ) (n : ℤ), θ = endT a start + n * (2 * π) ∧ 0 ≤ θ ∧ θ < 2 * π ∧
    ∀ fuel, 2 ≤ fuel → theta fuel start a = some (θ * 180 / π) := by
  have hpi := pi_pos
  have hb : 0 ≤ ry a := by rw [ry_eq]; positivity
  obtain ⟨h1, h2⟩ : -(π / 2) ≤ endT a start ∧ endT a start ≤ 3 * (π / 2) := by
    unfold endT tAtPoint
    exact ellipseT_bound _ _ hb
  have hdeg : Angle.asDegrees tau (endT a start) = endT a start * 180 / π := by
    unfold Angle.asDegrees tau
    field_simp
    ring
  by_cases h : endT a start < 0
  · refine ⟨endT a start + 2 * π, 1, by push_cast; ring, by linarith, by linarith, fun fuel hf => ?_⟩
    obtain ⟨f, rfl⟩ : ∃ f, fuel = f + 2 := ⟨fuel - 2, by omega⟩
    unfold theta Angle.asPositiveDegrees
    rw [hdeg, Angle.positiveLoop, if_pos (by rw [div_lt_iff₀ hpi]; linarith), Angle.positiveLoop, if_neg]
    · congr 1
      field_simp
      ring
    · rw [not_lt]
      have : endT a start * 180 / π + 360 = (endT a start + 2 * π) * 180 / π := by field_simp; ring
      rw [this]
      apply div_nonneg _ hpi.le
      linarith
  · push Not at h
    refine ⟨endT a start, 0, by push_cast; ring, h, by linarith, fun fuel hf => ?_⟩
    obtain ⟨f, rfl⟩ : ∃ f, fuel = f + 1 := ⟨fuel - 1, by omega⟩
    unfold theta Angle.asPositiveDegrees
    rw [hdeg, Angle.positiveLoop, if_neg (by rw [not_lt]; positivity)]

theorem arctan_crit {A B q : ℝ} (hq : B = A * q) : A * sin (arctan q) = B * cos (arctan q) := by
  have hc : 0 < cos (arctan q) := cos_arctan_pos q
  have ht := tan_arctan q
  rw [tan_eq_sin_div_cos, div_eq_iff hc.ne'] at ht
  rw [ht, hq]
  ring

theorem arctan_abs (q : ℝ) : |arctan q| ≤ π / 2 := abs_le.2 ⟨(neg_pi_div_two_lt_arctan q).le, (arctan_lt_pi_div_two q).le⟩

theorem atanX_spec {a : ArcData ℝ} (ha : 0 < rx a) : |atanX a| ≤ π / 2 ∧
    rx a * cos (rotation a) * sin (atanX a) = -(ry a * sin (rotation a)) * cos (atanX a) := by
  have hpi := pi_pos
  have e14 : tau / 4 = π / 2 := by unfold tau; ring
  unfold atanX
  simp only [e14]
  split_ifs with h1 h2
  · exact ⟨by rw [abs_of_pos (by positivity)], by rw [h1, cos_pi_div_two]; ring⟩
  · exact ⟨by simp; positivity, by rw [h2]; simp⟩
  · refine ⟨arctan_abs _, arctan_crit ?_⟩
    rw [tan_eq_sin_div_cos]
    field_simp

theorem atanY_spec {a : ArcData ℝ} (ha : 0 < rx a) : |atanY a| ≤ π / 2 ∧
    rx a * sin (rotation a) * sin (atanY a) = ry a * cos (rotation a) * cos (atanY a) := by
  have hpi := pi_pos
  have e14 : tau / 4 = π / 2 := by unfold tau; ring
  unfold atanY
  simp only [e14]
  split_ifs with h1 h2
  · exact ⟨by simp; positivity, by rw [h1]; simp⟩
  · exact ⟨by rw [abs_of_pos (by positivity)], by rw [h2, cos_pi_div_two]; ring⟩
  · refine ⟨arctan_abs _, arctan_crit ?_⟩
    rw [tan_eq_sin_div_cos]
    field_simp

theorem sweep_ne {isAngle : Bool} {w : ℝ} (h : sweepIsZero isAngle w = false) : w ≠ 0 := by
  rintro rfl
  unfold sweepIsZero at h
  cases isAngle
  · simp at h
  · simp [Angle.eq] at h

/-- an arc whose ends are on its ellipse runs along the ellipse -/
theorem point_wave {a : ArcData ℝ} (ha : 0 < rx a) (hb : 0 < ry a) {start stop : Pt ℝ} {t : ℝ}
    (h1 : start = ellipse a.center (rx a) (ry a) (rotation a) t)
    (h2 : stop = ellipse a.center (rx a) (ry a) (rotation a) (t + a.sweep)) {isAngle : Bool} (hw : sweepIsZero isAngle a.sweep = false)
    (u : ℝ) : point isAngle start stop a u = pointAtT a (endT a start + a.sweep * u) := by
  rw [← pointAtT_ellipse] at h1 h2
  have ht := endT_pointAtT ha hb t
  rw [← h1] at ht
  unfold point
  rw [hw, Bool.and_false, if_neg (by simp)]
  split_ifs with u0 u1
  · rw [u0, mul_zero, add_zero, pointAtT_congr a ht.1 ht.2, h1]
  · rw [u1, mul_one, pointAtT_add a ht, h2]
  · rfl

/-- C86: the box of an arc whose ends are on its ellipse holds all points of the arc, and the arc touches each of its sides. -/
theorem C86_tight_partial {a : ArcData ℝ} (ha : 0 < rx a) (hb : 0 < ry a) {start stop : Pt ℝ} {t : ℝ}
    (h1 : start = ellipse a.center (rx a) (ry a) (rotation a) t)
    (h2 : stop = ellipse a.center (rx a) (ry a) (rotation a) (t + a.sweep)) {isAngle : Bool} (hw : sweepIsZero isAngle a.sweep = false) :
    ∃ x, (∀ fuel, 2 ≤ fuel → bbox fuel isAngle start stop a = .ok x) ∧
      TightBox (point isAngle start stop a) x.xmin x.ymin x.xmax x.ymax := by
  obtain ⟨θ, n, e1, e2, e3, e4⟩ := theta_spec start a
  have hp := point_wave ha hb h1 h2 hw
  have p0 : point isAngle start stop a 0 = start := by
    unfold point
    rw [hw, Bool.and_false, if_neg (by simp), if_pos rfl]
  have p1 : point isAngle start stop a 1 = stop := by
    unfold point
    rw [hw, Bool.and_false, if_neg (by simp), if_neg one_ne_zero, if_pos rfl]
  have hd : delta a = a.sweep * 360 / (2 * π) := rfl
  have hx := wave_range a.center.x _ _ e1 rfl e2 e3 (atanX_spec ha).1 (atanX_spec ha).2 (sweep_ne hw)
    (f := fun u => (point isAngle start stop a u).x) (fun u _ _ => by
      rw [hp]; simp only [pointAtT, wave]; ring)
  have hy := wave_range a.center.y _ _ e1 rfl e2 e3 (atanY_spec ha).1 (atanY_spec ha).2 (sweep_ne hw)
    (f := fun u => (point isAngle start stop a u).y) (fun u _ _ => by
      rw [hp]; simp only [pointAtT, wave]; ring)
  simp only [p0, p1] at hx hy
  refine ⟨⟨_, _, _, _⟩, fun fuel hf => ?_, hx, hy⟩
  unfold bbox
  rw [hw, if_neg (by simp), e4 fuel hf]
  simp only [hd]
  rfl

/-- C86 fails for an arc with a radius of 0, which SVG draws as a line: the box has its sides in the wrong order. -/
theorem C86_flat_wrong (fuel : ℕ) : bbox fuel true ⟨1, 0⟩ ⟨0, 0⟩ (svgParameterize ⟨1, 0⟩ 0 1 0 false false ⟨0, 0⟩) =
    .ok ⟨1, 0, 0, 0⟩ := by
  have h1 : svgParameterize ⟨1, 0⟩ 0 1 0 false false ⟨0, 0⟩ = { center := ⟨1, 0⟩, prx := ⟨1, 0⟩, pry := ⟨1, 0⟩, sweep := 0 } := by
    unfold svgParameterize
    rw [if_pos (by right; left; rfl)]
  rw [h1]
  unfold bbox
  rw [if_pos]
  simp [sweepIsZero, Angle.eq]

/-- C86 fails for a full turn given as an `Angle`, which the code takes for no turn: the box of the unit circle is a point. -/
theorem C86_full_turn_wrong (fuel : ℕ) : bbox fuel true ⟨1, 0⟩ ⟨1, 0⟩ { center := ⟨0, 0⟩, prx := ⟨1, 0⟩, pry := ⟨0, 1⟩, sweep := 2 * π } =
    .ok ⟨1, 0, 1, 0⟩ := by
  have hpi := pi_pos
  unfold bbox
  rw [if_pos]
  have : (2 * π) / tau = 1 := by unfold tau; field_simp
  simp only [sweepIsZero, if_true, Angle.eq, Angle.pyMod, this]
  simp [tau]

/-- three quarters of the unit circle meet the hypotheses of C86 -/
example : ∃ (a : ArcData ℝ) (start stop : Pt ℝ) (t : ℝ), 0 < rx a ∧ 0 < ry a ∧
    start = ellipse a.center (rx a) (ry a) (rotation a) t ∧ stop = ellipse a.center (rx a) (ry a) (rotation a) (t + a.sweep) ∧
    sweepIsZero false a.sweep = false := by
  have hpi := pi_pos
  refine ⟨{ center := ⟨0, 0⟩, prx := ⟨1, 0⟩, pry := ⟨0, 1⟩, sweep := 3 * (π / 2) }, _, _, 0, ?_, ?_, rfl, rfl, ?_⟩
  · rw [rx_eq]; norm_num
  · rw [ry_eq]; norm_num
  · simp [sweepIsZero, hpi.ne']

end Svgio.Arc
