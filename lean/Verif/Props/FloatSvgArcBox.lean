import Verif.Props.FloatSvgArcPoints
import Verif.Props.FloatArcBox

/-!
C166: the boxes of arcs built from SVG parameters, with floats.
-/

namespace Svgio.Props

open Svgio.Flt Dir

namespace SvgArcFloat

/-- a number that rounds to a small one is small -/
theorem small_round {x : ℚ} (h : |roundDouble x| ≤ roundDouble (1 / 10 ^ 11)) : |(x : ℝ)| ≤ 2 / 10 ^ 11 := by
  have h1 := rdR x
  have h2 := rdR (1 / 10 ^ 11)
  have wt := w_sixty
  have h3 := (Rat.cast_le (K := ℝ)).2 h
  push_cast at h2 h3
  rw [abs_of_pos (show (0 : ℝ) < 1 / 10 ^ 11 by positivity)] at h2
  have h4 := abs_sub_abs_le_abs_sub (x : ℝ) ((roundDouble x : ℚ) : ℝ)
  rw [abs_sub_comm] at h4
  have h5 := (abs_le.1 h2).2
  generalize (1 : ℝ) / 2 ^ 536 = W at *
  norm_num1 at *
  linarith

/-- a sweep the code takes for 0 is almost a number of turns -/
theorem zero_turns {w : ℚ} (h : sweepIsZero doubles true w = true) : ∃ k : ℤ, |(w : ℝ) - k * ((tau : ℚ) : ℝ)| ≤ 1 / 10 ^ 10 := by
  unfold sweepIsZero at h
  rw [if_pos rfl, decide_eq_true_eq] at h
  have h' : |roundDouble (pyMod doubles w tau - 0)| ≤ roundDouble (1 / 10 ^ 11) := h
  have m := small_round h'
  rw [sub_zero] at m
  unfold Flt.pyMod at m
  dsimp only at m
  split_ifs at m with w0 r0
  · refine ⟨⌊w / tau⌋, ?_⟩
    have e : ((Angle.pyMod w tau : ℚ) : ℝ) = w - (⌊w / tau⌋ : ℤ) * ((tau : ℚ) : ℝ) := by
      unfold Angle.pyMod
      push_cast
      ring
    rw [e] at m
    refine m.trans (by norm_num)
  · refine ⟨-⌊-w / tau⌋, ?_⟩
    have e : ((Angle.pyMod (-w) tau : ℚ) : ℝ) = -w - (⌊-w / tau⌋ : ℤ) * ((tau : ℚ) : ℝ) := by
      unfold Angle.pyMod
      push_cast
      ring
    rw [r0, Rat.cast_zero] at e
    push_cast
    have e2 : (w : ℝ) - -(⌊-w / tau⌋ : ℝ) * ((tau : ℚ) : ℝ) = 0 := by linarith
    rw [e2, abs_zero]
    positivity
  · refine ⟨-⌊-w / tau⌋ - 1, ?_⟩
    have e : ((Angle.pyMod (-w) tau : ℚ) : ℝ) = -w - (⌊-w / tau⌋ : ℤ) * ((tau : ℚ) : ℝ) := by
      unfold Angle.pyMod
      push_cast
      ring
    have k := rdR (tau - Angle.pyMod (-w) tau)
    have m' : |((roundDouble (tau - Angle.pyMod (-w) tau) : ℚ) : ℝ)| ≤ 2 / 10 ^ 11 := m
    push_cast at k ⊢
    rw [e] at k
    have e2 : (w : ℝ) - (-(⌊-w / tau⌋ : ℝ) - 1) * ((tau : ℚ) : ℝ) = ((tau : ℚ) : ℝ) - (-w - (⌊-w / tau⌋ : ℝ) * ((tau : ℚ) : ℝ)) := by ring
    rw [e2]
    generalize ((tau : ℚ) : ℝ) - (-w - (⌊-w / tau⌋ : ℝ) * ((tau : ℚ) : ℝ)) = z at *
    have wt := w_sixty
    have h4 := abs_sub_abs_le_abs_sub z ((roundDouble (tau - Angle.pyMod (-w) tau) : ℚ) : ℝ)
    rw [abs_sub_comm] at h4
    generalize (1 : ℝ) / 2 ^ 536 = W at *
    norm_num1 at *
    linarith

/-- ... that is, of exact turns -/
theorem zero_turns_pi {w : ℚ} (hw : |(w : ℝ)| ≤ 7) (h : sweepIsZero doubles true w = true) : ∃ k : ℤ, |(w : ℝ) - k * (2 * Real.pi)| ≤ 1 / 2 ^ 32 := by
  obtain ⟨k, hk⟩ := zero_turns h
  refine ⟨k, ?_⟩
  have tl := ArcBoxFloat.tau_low
  have th := ArcBoxFloat.tau_high
  have tn := tau_near
  have kb : |(k : ℝ)| ≤ 2 := by
    have h1 := abs_sub_abs_le_abs_sub ((k : ℝ) * ((tau : ℚ) : ℝ)) w
    rw [abs_sub_comm, abs_mul, abs_of_pos (show (0 : ℝ) < ((tau : ℚ) : ℝ) by norm_num1 at *; linarith)] at h1
    norm_num1 at *
    nlinarith [abs_nonneg (k : ℝ)]
  have e : (w : ℝ) - k * (2 * Real.pi) = (w - k * ((tau : ℚ) : ℝ)) + k * (((tau : ℚ) : ℝ) - 2 * Real.pi) := by ring
  rw [e]
  refine (abs_add_le _ _).trans ?_
  rw [abs_mul]
  have : |(k : ℝ)| * |((tau : ℚ) : ℝ) - 2 * Real.pi| ≤ 2 * |((tau : ℚ) : ℝ) - 2 * Real.pi| := by gcongr
  norm_num1 at *
  linarith

/-- after a whole number of turns the end is where the start is -/
theorem ends_meet {N r q θ t w : ℝ} {c start stop : Pt ℚ} (r0 : 0 < r) (q0 : 0 < q) (hN : r + q ≤ N)
    (h1 : Within (N / 2 ^ 39) start (Spec.ellipse (pt c) r q θ t))
    (h2 : Within (N / 2 ^ 39 + (r + q) / 2 ^ 14) stop (Spec.ellipse (pt c) r q θ (t + w))) {k : ℤ} (hk : |w - k * (2 * Real.pi)| ≤ 1 / 2 ^ 32) :
    |(start.x : ℝ) - stop.x| ≤ N / 2 ^ 12 ∧ |(start.y : ℝ) - stop.y| ≤ N / 2 ^ 12 := by
  have e1 := within_vec h1
  have e2 := within_vec h2
  have e3 : ‖unit θ * scale r q (unit t) - unit θ * scale r q (unit (t + w))‖ ≤ (r + q) * (1 / 2 ^ 32) := by
    have k1 : unit θ * scale r q (unit t) - unit θ * scale r q (unit (t + w)) = unit θ * scale r q (unit t - unit (t + w)) := by
      rw [← mul_sub]
      congr 1
      apply Complex.ext <;> simp [scale] <;> ring
    rw [k1, norm_mul, unit_norm, one_mul]
    refine (scale_le r0.le q0.le (show r ≤ r + q by linarith) (show q ≤ r + q by linarith) _).trans ?_
    have k2 : unit (t + w) = unit (t + (w - k * (2 * Real.pi))) := by
      unfold unit
      have : t + w = t + (w - k * (2 * Real.pi)) + k * (2 * Real.pi) := by ring
      rw [this, Real.cos_add_int_mul_two_pi, Real.sin_add_int_mul_two_pi]
    have k3 := unit_lip t (t + (w - k * (2 * Real.pi)))
    rw [k2]
    refine mul_le_mul_of_nonneg_left (k3.trans ?_) (by linarith)
    rw [sub_add_cancel_left, abs_neg]
    exact hk
  have e4 : ‖vec c start - vec c stop‖ ≤ N / 2 ^ 12 := by
    have s1 := norm_sub_le_norm_sub_add_norm_sub (vec c start) (unit θ * scale r q (unit t)) (vec c stop)
    have s2 := norm_sub_le_norm_sub_add_norm_sub (unit θ * scale r q (unit t)) (unit θ * scale r q (unit (t + w))) (vec c stop)
    rw [norm_sub_rev (unit θ * scale r q (unit (t + w)))] at s2
    norm_num1 at *
    linarith
  have f1 := (Complex.abs_re_le_norm _).trans e4
  have f2 := (Complex.abs_im_le_norm _).trans e4
  refine ⟨le_trans (le_of_eq ?_) f1, le_trans (le_of_eq ?_) f2⟩
  · congr 1
    simp [vec]
  · congr 1
    simp [vec]

/-- what is left of the errors -/
theorem box_room {X N C r q D : ℝ} (C2 : 2 ≤ C) (N0 : 0 < N) (hX : X ≤ 31 / 10 * N)
    (hD : D = N / 2 ^ 39 + (r + q) / 2 ^ 14 + C ^ 2 * N / 2 ^ 31) : 2 * D + (4 * C) ^ 3 * X / 2 ^ 41 ≤ (r + q) / 2 ^ 13 + C ^ 3 * N / 2 ^ 30 := by
  have b1 : (4 * C) ^ 3 * X ≤ (4 * C) ^ 3 * (31 / 10 * N) := by gcongr
  have b3 : (4 * C) ^ 3 * (31 / 10 * N) = 64 * 31 / 10 * (C ^ 3 * N) := by ring
  have b2 : 2 * (C ^ 2 * N) ≤ C ^ 3 * N := by
    have : 0 ≤ C ^ 2 * N := by positivity
    nlinarith
  have b5 : 8 * N ≤ C ^ 3 * N := by
    have : (2 : ℝ) ^ 3 ≤ C ^ 3 := by gcongr
    nlinarith
  rw [b3] at b1
  subst hD
  generalize (4 * C) ^ 3 * X = y at *
  generalize C ^ 3 * N = y3 at *
  generalize C ^ 2 * N = y2 at *
  norm_num1 at *
  linarith

end SvgArcFloat

open SvgArcFloat

/-- **C166**, the box of an arc built from SVG parameters, with floats. `r` and `q` are the radii, enlarged by the same factor as little as possible (C163).
Unless the ends are almost the same, all points of the arc are in its box, up to `2⁻¹³` of the radii (the error of the sweep, C163) and `C³ / 2²⁹` of the size;
each side of the box goes through one of them. -/
theorem C166_box (T : FloatTrig) (hT : ∀ x, Spec.IsDouble (T.cos x) ∧ Spec.IsDouble (T.sin x)) (hT0 : T.sin 0 = 0) (R : FloatSqrt) (A : FloatAcos)
    (Q : FloatRoot) (B : FloatAtan) {start stop : Pt ℚ} {rx ry rotation M C : ℚ} (large sweep : Bool) (hd : DoublePt start)
    (h : Flt.eq doubles start stop = false) (hs : SizeAtMost M start) (he : SizeAtMost M stop) (hM : M ≤ 2 ^ 64)
    (rl : 1 / 2 ^ 64 ≤ rx) (ru : rx ≤ 2 ^ 64) (ql : 1 / 2 ^ 64 ≤ ry) (qu : ry ≤ 2 ^ 64) (hr : |rotation| ≤ 720)
    (hC : C ≤ 2 ^ 12) (c1 : M + rx + ry ≤ C * rx) (c2 : M + rx + ry ≤ C * ry) :
    ∃ (a : ArcData ℚ) (r q s : ℝ), svgParameterize doubles T R A start rx ry rotation large sweep stop = .ok a ∧
      |r - rx * s| ≤ rx * s / 2 ^ 51 ∧ |q - ry * s| ≤ ry * s / 2 ^ 51 ∧ 0 < s ∧
      |s ^ 2 - max 1 (need start stop rx ry rotation)| ≤ 1 / 2 ^ 28 * max 1 (need start stop rx ry rotation) ∧
      ((M + r + q) / 2 ^ 12 < |(start.x : ℝ) - stop.x| ∨ (M + r + q) / 2 ^ 12 < |(start.y : ℝ) - stop.y| →
        ∃ (n : ℕ) (b : Seg.BBox ℚ), (∀ fuel, n < fuel → arcBox doubles fuel T B Q true start stop a = .ok b) ∧
          (∀ p : ℚ, 0 ≤ p → p ≤ 1 →
            (b.xmin - ((r + q) / 2 ^ 13 + C ^ 3 * (M + r + q) / 2 ^ 29) ≤ (arcPoint doubles T Q true start stop a p).x ∧
              ((arcPoint doubles T Q true start stop a p).x : ℝ) ≤ b.xmax + ((r + q) / 2 ^ 13 + C ^ 3 * (M + r + q) / 2 ^ 29)) ∧
            (b.ymin - ((r + q) / 2 ^ 13 + C ^ 3 * (M + r + q) / 2 ^ 29) ≤ (arcPoint doubles T Q true start stop a p).y ∧
              ((arcPoint doubles T Q true start stop a p).y : ℝ) ≤ b.ymax + ((r + q) / 2 ^ 13 + C ^ 3 * (M + r + q) / 2 ^ 29))) ∧
          (∃ p : ℚ, 0 ≤ p ∧ p ≤ 1 ∧ (arcPoint doubles T Q true start stop a p).x = b.xmin) ∧
          (∃ p : ℚ, 0 ≤ p ∧ p ≤ 1 ∧ (arcPoint doubles T Q true start stop a p).x = b.xmax) ∧
          (∃ p : ℚ, 0 ≤ p ∧ p ≤ 1 ∧ (arcPoint doubles T Q true start stop a p).y = b.ymin) ∧
          ∃ p : ℚ, 0 ≤ p ∧ p ≤ 1 ∧ (arcPoint doubles T Q true start stop a p).y = b.ymax) := by
  have rx0 : 0 < rx := lt_of_lt_of_le (by positivity) rl
  have ry0 : 0 < ry := lt_of_lt_of_le (by positivity) ql
  have M0 : 0 ≤ M := (abs_nonneg _).trans hs.1
  obtain ⟨a, r, q, s, t, ok, r0, q0, s0, a1, a2, a3, a4, nr, nq, ns, -, sw, -⟩ :=
    C163_arc T hT R A large sweep h hs he hM rl ru ql qu hr (k := C) (by linarith) (by linarith)
  have da : DoubleArc a := by
    obtain ⟨dx, dy, x, y, r, q, s, c, cx, cy, δ, o, B⟩ := built T R A large sweep h hs he hM rl ru ql qu hr
    obtain rfl : a = native doubles T o r q rotation δ := Except.ok.inj (ok.symm.trans B.ok)
    exact ⟨B.oDouble, ⟨roundDouble_isDouble _, roundDouble_isDouble _⟩, roundDouble_isDouble _, roundDouble_isDouble _⟩
  have C0 : 0 ≤ C := by
    by_contra hc
    nlinarith
  have rx0' : (0 : ℝ) < rx := by exact_mod_cast rx0
  have ry0' : (0 : ℝ) < ry := by exact_mod_cast ry0
  have M0' : (0 : ℝ) ≤ M := by exact_mod_cast M0
  have C0' : (0 : ℝ) ≤ C := by exact_mod_cast C0
  have hC' : (C : ℝ) ≤ 2 ^ 12 := by exact_mod_cast hC
  obtain ⟨b1, b2, b3, b4⟩ := enlarged rx0' ry0' s0 M0' C0' hC' nr nq ns (by exact_mod_cast c1) (by exact_mod_cast c2)
  have rl' := (Rat.cast_le (K := ℝ)).2 rl
  have ql' := (Rat.cast_le (K := ℝ)).2 ql
  push_cast at rl' ql'
  have low : (1 : ℝ) / 2 ^ 100 ≤ 1 / 2 ^ 64 / 2 := by norm_num
  have h63 : |(a.sweep : ℝ)| ≤ 63 / 10 := by
    have := Real.pi_lt_d4
    norm_num1 at *
    linarith
  have h63q : |a.sweep| ≤ 63 / 10 := (Rat.cast_le (K := ℝ)).1 (by push_cast; exact h63)
  refine ⟨a, r, q, s, ok, nr, nq, s0, ns.trans ?_, fun far => ?_⟩
  · have n1 : (0 : ℝ) ≤ max 1 (need start stop rx ry rotation) := zero_le_one.trans (le_max_left _ _)
    refine mul_le_mul_of_nonneg_right ?_ n1
    have : (C : ℝ) ^ 2 ≤ 2 ^ 12 * 2 ^ 12 := by nlinarith
    norm_num1 at *
    linarith
  have apart : ∀ k : ℤ, ¬|(a.sweep : ℝ) - k * (2 * Real.pi)| ≤ 1 / 2 ^ 32 := by
    intro k hk
    obtain ⟨m1, m2⟩ := ends_meet r0 q0 (show r + q ≤ M + r + q by linarith) a3 a4 hk
    rcases far with f | f <;> linarith
  have hz : sweepIsZero doubles true a.sweep = false := by
    rw [← Bool.not_eq_true]
    intro hz
    obtain ⟨k, hk⟩ := zero_turns_pi (h63.trans (by norm_num)) hz
    exact apart k hk
  have hw : 1 / 2 ^ 60 ≤ |a.sweep| := by
    by_contra hc
    rw [not_le] at hc
    have hc' := (Rat.cast_lt (K := ℝ)).2 hc
    push_cast at hc'
    refine apart 0 ?_
    rw [Int.cast_zero, zero_mul, sub_zero]
    refine hc'.le.trans (by norm_num)
  obtain ⟨φ, u0, l, hφ, l0, lx, ly, low1, low2, hCr, hCq, tot, C2, N0, core⟩ := frame_near (C := 9 / 8 * C) (by exact_mod_cast hs.1) (by exact_mod_cast hs.2)
    (by linarith) (by linarith) (by linarith) b1 b2 a1 a2 a3
  have D0 : (0 : ℝ) ≤ (r + q) / 2 ^ 14 := by positivity
  obtain ⟨st1, st2⟩ := core 0
  obtain ⟨en1, en2⟩ := core a.sweep
  rw [add_zero, add_zero] at st1 st2
  have near : ∀ {x v e d f : ℝ}, |x - v| ≤ d → |e - v| ≤ f → |x - e| ≤ d + f := by
    intro x v e d f g1 g2
    rw [abs_sub_comm] at g2
    exact (abs_sub_le _ _ _).trans (add_le_add g1 g2)
  obtain ⟨n, b, ok2, inside, t1, t2, t3, t4⟩ := C165_box T hT0 B Q true (stop := stop) da hφ hd l0 lx ly low1 low2 rfl hCr hCq hw h63q hz
    (D := (M + r + q) / 2 ^ 39 + (r + q) / 2 ^ 14 + (9 / 8 * (C : ℝ)) ^ 2 * (M + r + q) / 2 ^ 31)
    ((near a3.1 st1).trans (by linarith)) ((near a3.2 st2).trans (by linarith)) (near a4.1 en1) (near a4.2 en2)
  have fin := (box_room (D := _) C2 N0 tot rfl).trans (show (r + q) / 2 ^ 13 + (9 / 8 * (C : ℝ)) ^ 3 * (M + r + q) / 2 ^ 30 ≤
      (r + q) / 2 ^ 13 + C ^ 3 * (M + r + q) / 2 ^ 29 by
    have : (0 : ℝ) ≤ C ^ 3 * (M + r + q) := by positivity
    have e : (9 / 8 * (C : ℝ)) ^ 3 * (M + r + q) = 729 / 512 * (C ^ 3 * (M + r + q)) := by ring
    rw [e]
    linarith)
  refine ⟨n, b, ok2, fun p p0 p1 => ?_, t1, t2, t3, t4⟩
  obtain ⟨⟨i1, i2⟩, i3, i4⟩ := inside p p0 p1
  exact ⟨⟨(sub_le_sub_left fin _).trans i1, i2.trans (add_le_add le_rfl fin)⟩, (sub_le_sub_left fin _).trans i3, i4.trans (add_le_add le_rfl fin)⟩

/-- there are such mathematical functions -/
theorem SvgArcFloat.trig_atan : ∃ (T : FloatTrig) (_ : FloatAtan), (∀ x, Spec.IsDouble (T.cos x) ∧ Spec.IsDouble (T.sin x)) ∧ T.sin 0 = 0 := by
  obtain ⟨T, hT, -, h0⟩ := trig_zero
  have at1 : ∀ x : ℚ, ∃ q : ℚ, |(q : ℝ) - Real.arctan x| ≤ 1 / 2 ^ 52 := fun x => rat_near _ (by positivity)
  exact ⟨T, ⟨fun x => (at1 x).choose, fun x => (at1 x).choose_spec⟩, hT, h0⟩

/-- the example of C163 and C164 meets the further hypotheses: the ends of a quarter of a circle are far apart, whatever the radii found are -/
example : (∃ (T : FloatTrig) (_ : FloatAtan), (∀ x, Spec.IsDouble (T.cos x) ∧ Spec.IsDouble (T.sin x)) ∧ T.sin 0 = 0) ∧
    ∀ r q s : ℝ, |r - (100 : ℚ) * s| ≤ (100 : ℚ) * s / 2 ^ 51 → |q - (100 : ℚ) * s| ≤ (100 : ℚ) * s / 2 ^ 51 → 0 < s →
      |s ^ 2 - max 1 (need ⟨100, 0⟩ ⟨0, 100⟩ 100 100 30)| ≤ 1 / 2 ^ 28 * max 1 (need ⟨100, 0⟩ ⟨0, 100⟩ 100 100 30) →
      ((100 : ℚ) + r + q) / 2 ^ 12 < |(((⟨100, 0⟩ : Pt ℚ).x : ℚ) : ℝ) - ((⟨0, 100⟩ : Pt ℚ).x : ℚ)| := by
  refine ⟨trig_atan, fun r q s hr hq s0 hs => ?_⟩
  have hn : max 1 (need ⟨100, 0⟩ ⟨0, 100⟩ 100 100 30) = 1 := by
    refine max_eq_left ?_
    unfold need Spec.level middle pt
    have hcs := Real.cos_sq_add_sin_sq (angle 30)
    generalize Real.cos (angle 30) = c at *
    generalize Real.sin (angle 30) = s at *
    norm_num
    nlinarith [sq_nonneg (c - s), sq_nonneg (c + s)]
  rw [hn] at hs
  have h1 := (abs_le.1 hs).2
  have h2 := (abs_le.1 hr).2
  have h3 := (abs_le.1 hq).2
  have h4 : s ≤ 2 := by
    norm_num1 at h1
    nlinarith
  push_cast at h2 h3 ⊢
  rw [abs_of_pos (by norm_num)]
  norm_num1 at *
  linarith

end Svgio.Props
