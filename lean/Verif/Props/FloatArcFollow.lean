import Verif.Props.FloatArc
import Verif.Lemmas.Direction
import Mathlib.Analysis.Real.Pi.Bounds

/-! C151: where on the ellipse the points of arcs computed with floats are. -/

namespace Svgio.Props
open Spec Flt Dir

/-- no double lies between the double `d` and a number `g` that rounds to `d` -/
theorem double_gap {d g x : ℚ} (hx : IsDouble x) (hg : roundDouble g = d) (hd : d < x) (hdg : d ≤ g) : g < x := by
  have h := roundDouble_nearest g hx
  rw [hg] at h
  by_contra hc
  push Not at hc
  rw [abs_sub_comm, abs_sub_comm x, abs_of_nonneg (by linarith), abs_of_nonneg (by linarith)] at h
  linarith

theorem abs_double {x : ℚ} (h : IsDouble x) : IsDouble |x| := by
  rcases abs_cases x with ⟨e, -⟩ | ⟨e, -⟩ <;> rw [e]
  · exact h
  · exact double_neg h

theorem pi_low : (3.14159265358979323846 : ℝ) < Real.pi := Real.pi_gt_d20
theorem pi_high : Real.pi < (3.14159265358979323847 : ℝ) := Real.pi_lt_d20

theorem tau_quarter : doubles.fl (tau / 4) = tau / 4 := by decide +kernel
theorem tau_half : doubles.fl (tau / 2) = tau / 2 := by decide +kernel
theorem tau_three : doubles.fl (3 * (tau / 4)) = 3 * (tau / 4) := by decide +kernel

theorem tauR : ((tau : ℚ) : ℝ) = 884279719003555 / 2 ^ 47 := by
  unfold tau
  push_cast
  ring

/-- the test of path.py:1832 and 1859 tells on which side of the second axis an angle is -/
theorem turn_test {x : ℚ} (hx : IsDouble x) (hb : |x| ≤ 63 / 10) :
    ((doubles.fl (3 * doubles.fl (tau / 4)) ≥ pyMod doubles |x| tau ∧ pyMod doubles |x| tau > doubles.fl (tau / 4)) → Real.cos x < 0) ∧
      (¬(doubles.fl (3 * doubles.fl (tau / 4)) ≥ pyMod doubles |x| tau ∧ pyMod doubles |x| tau > doubles.fl (tau / 4)) → 0 < Real.cos x) := by
  rw [tau_quarter, tau_three]
  have ha := abs_double hx
  have h0 : 0 ≤ |x| := abs_nonneg x
  have hc : Real.cos x = Real.cos ((|x| : ℚ) : ℝ) := by rw [Rat.cast_abs, Real.cos_abs]
  rw [hc]
  have hm : pyMod doubles |x| tau = |x| - tau * ⌊|x| / tau⌋ := by rw [pyMod, if_pos h0, Angle.pyMod]
  rw [hm]
  generalize |x| = y at *
  have t0 : (0 : ℚ) < tau := by decide +kernel
  have l := pi_low
  have u := pi_high
  have g1 : (1.570796326794896619235 : ℝ) = ((1570796326794896619235 / 10 ^ 21 : ℚ) : ℝ) := by norm_num
  by_cases hy : y < tau
  · have hf : ⌊y / tau⌋ = 0 := by
      rw [Int.floor_eq_iff]
      constructor
      · push_cast; positivity
      · push_cast; rw [div_lt_iff₀ t0]; linarith
    rw [hf]
    have e : y - tau * ((0 : ℤ) : ℚ) = y := by push_cast; ring
    rw [e]
    have hy' : (y : ℝ) < 884279719003555 / 2 ^ 47 := by rw [← tauR]; exact_mod_cast hy
    have lowq : y > tau / 4 → Real.pi / 2 < y := by
      intro h
      have := double_gap (g := 1570796326794896619235 / 10 ^ 21) ha (by decide +kernel) h (by decide +kernel)
      have h' : ((1570796326794896619235 / 10 ^ 21 : ℚ) : ℝ) < y := by exact_mod_cast this
      rw [← g1] at h'
      norm_num at h'
      linarith
    have highq : 3 * (tau / 4) < y → 3 * Real.pi / 2 < y := by
      intro h
      have := double_gap (g := 471238898038468985771 / 10 ^ 20) ha (by decide +kernel) h (by decide +kernel)
      have h' : ((471238898038468985771 / 10 ^ 20 : ℚ) : ℝ) < y := by exact_mod_cast this
      push_cast at h'
      norm_num at h'
      linarith
    constructor
    · rintro ⟨h1, h2⟩
      have h1' : (y : ℝ) ≤ 3 * (884279719003555 / 2 ^ 47 / 4) := by rw [← tauR]; exact_mod_cast h1
      apply Real.cos_neg_of_pi_div_two_lt_of_lt (lowq h2)
      norm_num at h1'
      linarith
    · intro h
      by_cases h2 : y > tau / 4
      · have h1 : 3 * (tau / 4) < y := by
          by_contra hh
          push Not at hh
          exact h ⟨hh, h2⟩
        have h3 := highq h1
        rw [← Real.cos_sub_two_pi]
        apply Real.cos_pos_of_mem_Ioo
        norm_num at hy'
        constructor <;> linarith
      · push Not at h2
        have h2' : (y : ℝ) ≤ 884279719003555 / 2 ^ 47 / 4 := by rw [← tauR]; exact_mod_cast h2
        have h0' : (0 : ℝ) ≤ y := by exact_mod_cast h0
        apply Real.cos_pos_of_mem_Ioo
        norm_num at h2'
        constructor <;> linarith
  · push Not at hy
    have hf : ⌊y / tau⌋ = 1 := by
      rw [Int.floor_eq_iff]
      constructor
      · push_cast; rw [le_div_iff₀ t0]; linarith
      · push_cast
        rw [div_lt_iff₀ t0]
        have : (63 / 10 : ℚ) < (1 + 1) * tau := by decide +kernel
        linarith
    rw [hf]
    have hy' : 884279719003555 / 2 ^ 47 ≤ (y : ℝ) := by rw [← tauR]; exact_mod_cast hy
    have hb' : (y : ℝ) ≤ 63 / 10 := by
      have := (Rat.cast_le (K := ℝ)).2 hb
      push_cast at this
      exact this
    have hsmall : ¬(y - tau * ((1 : ℤ) : ℚ) > tau / 4) := by
      push_cast
      have : (63 / 10 : ℚ) < tau * 1 + tau / 4 := by decide +kernel
      linarith
    refine ⟨fun h => absurd h.2 hsmall, fun _ => ?_⟩
    rw [← Real.cos_sub_two_pi]
    apply Real.cos_pos_of_mem_Ioo
    norm_num at hy'
    constructor <;> linarith

/-- the parameter of the ellipse with the radii `a` and `b` in the direction `θ` -/
def ParamOf (a b θ ψ : ℝ) : Prop := ∃ r : ℝ, 0 < r ∧ scale b a (unit θ) = r * unit ψ

theorem unit_unique {r s α β : ℝ} (hr : 0 < r) (hs : 0 < s) (h : (r : ℂ) * unit α = s * unit β) : unit α = unit β := by
  have n := congrArg norm h
  rw [norm_mul, norm_mul, unit_norm, unit_norm, Complex.norm_real, Complex.norm_real, mul_one, mul_one, Real.norm_of_nonneg hr.le,
    Real.norm_of_nonneg hs.le] at n
  rw [n] at h
  exact mul_left_cancel₀ (Complex.ofReal_ne_zero.2 hs.ne') h

theorem unit_pi (α : ℝ) : unit (α + Real.pi) = -unit α := by
  apply Complex.ext <;> simp [unit, Real.cos_add_pi, Real.sin_add_pi]

theorem w_small : (1 : ℝ) / 2 ^ 536 ≤ 1 / 2 ^ 400 * (1 / 2 ^ 60) := by
  rw [div_mul_div_comm, one_mul, ← pow_add]
  exact one_div_le_one_div_of_le (by positivity) (pow_le_pow_right₀ (by norm_num) (by norm_num))

/-- the first result of path.py:1829 with floats -/
theorem atan_near (T : FloatTrig) {A B θ : ℚ} {a b : ℝ} (ha : 1 / 2 ^ 400 ≤ a) (hb : 1 / 2 ^ 400 ≤ b)
    (hA : |(A : ℝ) - a| ≤ a * (10 / 2 ^ 53)) (hB : |(B : ℝ) - b| ≤ b * (10 / 2 ^ 53)) :
    ‖unit (T.atan2 (roundDouble (A * T.tan θ)) B) - unit (Complex.arg ⟨b, a * Real.tan θ⟩)‖ ≤ 64 / 2 ^ 53 ∧
      |(T.atan2 (roundDouble (A * T.tan θ)) B : ℝ)| ≤ 158 / 100 := by
  have q0 : (0 : ℝ) < 1 / 2 ^ 400 := by positivity
  have a0 : 0 < a := q0.trans_le ha
  have b0 : 0 < b := q0.trans_le hb
  have hw : (1 : ℝ) / 2 ^ 536 ≤ b * (1 / 2 ^ 60) := w_small.trans (by gcongr)
  have w0 : (0 : ℝ) ≤ 1 / 2 ^ 536 := by positivity
  have hy : |((roundDouble (A * T.tan θ) : ℚ) : ℝ) - a * Real.tan θ| ≤ |a * Real.tan θ| * (14 / 2 ^ 53) + b * (1 / 2 ^ 60) := by
    have s1 := near_prod hA (T.tan_err θ) (abs_of_pos a0).le le_rfl
    rw [← Rat.cast_mul] at s1
    have s2 := near_round s1 le_rfl
    refine s2.trans ?_
    rw [abs_mul, abs_of_pos a0]
    have g0 : 0 ≤ a * |Real.tan θ| := by positivity
    have e : a * (|Real.tan θ| / 2 ^ 52) + |Real.tan θ| * (a * (10 / 2 ^ 53)) + a * (10 / 2 ^ 53) * (|Real.tan θ| / 2 ^ 52) =
        a * |Real.tan θ| * (12 / 2 ^ 53 + 10 / 2 ^ 53 / 2 ^ 52) := by ring
    rw [e]
    generalize a * |Real.tan θ| = g at *
    generalize (1 : ℝ) / 2 ^ 536 = w at *
    norm_num1
    norm_num1 at hw
    linarith
  have ht := T.atan2_err (roundDouble (A * T.tan θ)) B
  set z : ℂ := ⟨b, a * Real.tan θ⟩ with hz
  set z' : ℂ := ⟨(B : ℝ), ((roundDouble (A * T.tan θ) : ℚ) : ℝ)⟩ with hz'
  have hre : |z.re| ≤ ‖z‖ := Complex.abs_re_le_norm z
  have him : |z.im| ≤ ‖z‖ := Complex.abs_im_le_norm z
  have n0 : 0 < ‖z‖ := lt_of_lt_of_le (abs_pos.2 (show z.re ≠ 0 from b0.ne')) hre
  have hd : ‖z' - z‖ ≤ 28 / 2 ^ 53 * ‖z‖ := by
    have h1 : |(z' - z).re| ≤ b * (10 / 2 ^ 53) := hB
    have h2 : |(z' - z).im| ≤ |a * Real.tan θ| * (14 / 2 ^ 53) + b * (1 / 2 ^ 60) := hy
    refine (norm_le_of h1 h2).trans ?_
    have e1 : b = |z.re| := (abs_of_pos b0).symm
    have e2 : |a * Real.tan θ| = |z.im| := rfl
    rw [e2]
    rw [← e1] at hre
    generalize |z.im| = g at *
    generalize ‖z‖ = n at *
    norm_num1
    linarith
  have hdir : ‖unit (Complex.arg z') - unit (Complex.arg z)‖ ≤ 2 * (28 / 2 ^ 53) := by
    refine direction_lip n0 (norm_nonneg z') ?_
    rw [unit_arg, unit_arg]
    exact hd
  constructor
  · have h1 := unit_lip (T.atan2 (roundDouble (A * T.tan θ)) B) (Complex.arg z')
    have h2 := norm_sub_le_norm_sub_add_norm_sub (unit (T.atan2 (roundDouble (A * T.tan θ)) B)) (unit (Complex.arg z')) (unit (Complex.arg z))
    have h3 := h1.trans ht
    generalize ‖unit (T.atan2 (roundDouble (A * T.tan θ)) B) - unit (Complex.arg z)‖ = x at *
    norm_num1 at *
    linarith
  · have hB0 : 0 ≤ z'.re := by
      show (0 : ℝ) ≤ B
      have := (abs_le.1 hB).1
      norm_num1 at this
      linarith
    have h4 := Complex.abs_arg_le_pi_div_two_iff.2 hB0
    have h5 := abs_sub_abs_le_abs_sub (T.atan2 (roundDouble (A * T.tan θ)) B : ℝ) (Complex.arg z')
    have u := pi_high
    norm_num1 at *
    linarith

/-- path.py:1829-1833 with floats -/
theorem ellipseT_near (T : FloatTrig) {A B θ : ℚ} {a b ψ : ℝ} (ha : 1 / 2 ^ 400 ≤ a) (hb : 1 / 2 ^ 400 ≤ b)
    (hA : |(A : ℝ) - a| ≤ a * (10 / 2 ^ 53)) (hB : |(B : ℝ) - b| ≤ b * (10 / 2 ^ 53)) (hθ : IsDouble θ) (hθb : |θ| ≤ 63 / 10)
    (hψ : ParamOf a b θ ψ) :
    ‖unit (ellipseT doubles T A B θ) - unit ψ‖ ≤ 72 / 2 ^ 53 ∧ |(ellipseT doubles T A B θ : ℝ)| ≤ 48 / 10 := by
  have q0 : (0 : ℝ) < 1 / 2 ^ 400 := by positivity
  have b0 : 0 < b := q0.trans_le hb
  obtain ⟨n1, n2⟩ := atan_near T (θ := θ) ha hb hA hB
  obtain ⟨t1, t2⟩ := turn_test hθ hθb
  obtain ⟨r, r0, hr⟩ := hψ
  have zn : (⟨b, a * Real.tan θ⟩ : ℂ) ≠ 0 := fun h => b0.ne' (congrArg Complex.re h)
  have n0 := norm_pos_iff.2 zn
  have hz : Real.cos θ ≠ 0 → scale b a (unit θ) = (Real.cos θ : ℂ) * ⟨b, a * Real.tan θ⟩ := by
    intro hc
    apply Complex.ext
    · simp only [scale, unit, Complex.re_ofReal_mul]
      ring
    · simp only [scale, unit, Complex.re_ofReal_mul, Complex.im_ofReal_mul, Real.tan_eq_sin_div_cos]
      field_simp
  unfold ellipseT
  simp only
  rw [show doubles.fl = roundDouble from rfl] at *
  split
  · rename_i hc
    have neg := t1 hc
    have e : unit ψ = unit (Complex.arg ⟨b, a * Real.tan θ⟩ + Real.pi) := by
      refine unit_unique r0 (mul_pos (neg_pos.2 neg) n0) ?_
      have hu := unit_arg ⟨b, a * Real.tan θ⟩
      rw [← hr, hz neg.ne, unit_pi, Complex.ofReal_mul, Complex.ofReal_neg]
      linear_combination -(Real.cos θ : ℂ) * hu
    have hw : (1 : ℝ) / 2 ^ 536 ≤ 1 / 2 ^ 53 * (1 / 10) := w_small.trans (by
      have : (1 : ℝ) / 2 ^ 400 ≤ 1 := by
        rw [div_le_one (by positivity)]
        exact one_le_pow₀ (by norm_num)
      calc (1 : ℝ) / 2 ^ 400 * (1 / 2 ^ 60) ≤ 1 * (1 / 2 ^ 60) := by gcongr
        _ ≤ _ := by norm_num)
    have hq := rdR (T.atan2 (roundDouble (A * T.tan θ)) B + roundDouble (tau / 2))
    have th : roundDouble (tau / 2) = tau / 2 := tau_half
    rw [th] at hq ⊢
    generalize hT : T.atan2 (roundDouble (A * T.tan θ)) B = t at *
    have hs : |((t + tau / 2 : ℚ) : ℝ)| ≤ 158 / 100 + 315 / 100 := by
      push_cast
      refine (abs_add_le _ _).trans (add_le_add n2 ?_)
      rw [tauR, abs_of_pos (by norm_num)]
      norm_num
    have hpi : |((t + tau / 2 : ℚ) : ℝ) - (t + Real.pi)| ≤ 2 / 2 ^ 53 := by
      push_cast
      rw [add_sub_add_left_eq_sub, tauR, abs_le]
      have l := pi_low
      have u := pi_high
      norm_num1 at *
      constructor <;> linarith
    have hv : |((roundDouble (t + tau / 2) : ℚ) : ℝ) - (t + Real.pi)| ≤ 8 / 2 ^ 53 := by
      have h3 := (abs_sub_le _ _ _).trans (add_le_add hq hpi)
      refine h3.trans ?_
      generalize (1 : ℝ) / 2 ^ 536 = w at *
      norm_num1 at *
      linarith
    constructor
    · have h1 := (unit_lip _ _).trans hv
      have h2 : ‖unit (t + Real.pi) - unit (Complex.arg ⟨b, a * Real.tan θ⟩ + Real.pi)‖ ≤ 64 / 2 ^ 53 := by
        rw [unit_pi, unit_pi, neg_sub_neg, norm_sub_rev]
        exact n1
      rw [e]
      refine (norm_sub_le_norm_sub_add_norm_sub _ (unit (t + Real.pi)) _).trans ((add_le_add h1 h2).trans ?_)
      norm_num
    · have h1 := abs_sub_abs_le_abs_sub ((roundDouble (t + tau / 2) : ℚ) : ℝ) (t + Real.pi)
      have h2 := abs_add_le (t : ℝ) Real.pi
      rw [abs_of_pos Real.pi_pos] at h2
      have u := pi_high
      norm_num1 at *
      linarith
  · rename_i hc
    have pos := t2 hc
    have e : unit ψ = unit (Complex.arg ⟨b, a * Real.tan θ⟩) := by
      refine unit_unique r0 (mul_pos pos n0) ?_
      rw [← hr, hz pos.ne']
      push_cast
      rw [mul_assoc, unit_arg]
    rw [e]
    exact ⟨n1.trans (by norm_num), n2.trans (by norm_num)⟩

theorem angle_bound (T : FloatTrig) (c p : Pt ℚ) : |(angle doubles T c p : ℝ)| ≤ 3.1416 := by
  have h1 := T.atan2_err (doubles.fl (p.y - c.y)) (doubles.fl (p.x - c.x))
  have h2 := abs_sub_abs_le_abs_sub (angle doubles T c p : ℝ) (Complex.arg ⟨((doubles.fl (p.x - c.x) : ℚ) : ℝ), ((doubles.fl (p.y - c.y) : ℚ) : ℝ)⟩)
  have h3 := Complex.abs_arg_le_pi (⟨((doubles.fl (p.x - c.x) : ℚ) : ℝ), ((doubles.fl (p.y - c.y) : ℚ) : ℝ)⟩ : ℂ)
  have h4 := h2.trans h1
  have u := pi_high
  norm_num1 at *
  linarith

theorem unit_near {α β e : ℝ} (h1 : |Real.cos α - Real.cos β| ≤ e) (h2 : |Real.sin α - Real.sin β| ≤ e) : ‖unit α - unit β‖ ≤ 2 * e :=
  (norm_le_of (z := unit α - unit β) h1 h2).trans (by linarith)

theorem w_tiny : (1 : ℝ) / 2 ^ 536 ≤ 1 / 2 ^ 53 * (1 / 10) := w_small.trans (by
  have : (1 : ℝ) / 2 ^ 400 ≤ 1 := by
    rw [div_le_one (by positivity)]
    exact one_le_pow₀ (by norm_num)
  calc (1 : ℝ) / 2 ^ 400 * (1 / 2 ^ 60) ≤ 1 * (1 / 2 ^ 60) := by gcongr
    _ ≤ _ := by norm_num)

/-- path.py:1854-1855: the angle to a point less the rotation -/
theorem theta_near (T : FloatTrig) {a : ArcData ℚ} (h : DoubleArc a) (hne : a.prx ≠ a.center) {φ : ℝ} (hφ : Direction a.center a.prx φ)
    (p : Pt ℚ) {α δ : ℝ} (hα : ‖unit (angle doubles T a.center p) - unit α‖ ≤ δ) :
    ‖unit (roundDouble (angle doubles T a.center p - rotation doubles T a)) - unit (α - φ)‖ ≤ δ + 30 / 2 ^ 53 ∧
      |roundDouble (angle doubles T a.center p - rotation doubles T a)| ≤ 63 / 10 := by
  obtain ⟨n1, n2⟩ := angle_near T h.1 h.2.1 hne hφ
  have hr := unit_near n1 n2
  have b1 := angle_bound T a.center p
  have b2 := angle_bound T a.center a.prx
  have hq := rdR (angle doubles T a.center p - rotation doubles T a)
  have hs : |((angle doubles T a.center p - rotation doubles T a : ℚ) : ℝ)| ≤ 3.1416 + 3.1416 := by
    push_cast
    exact (abs_sub _ _).trans (add_le_add b1 b2)
  have w := w_tiny
  have hd : |((roundDouble (angle doubles T a.center p - rotation doubles T a) : ℚ) : ℝ) - (angle doubles T a.center p - rotation doubles T a)| ≤ 7 / 2 ^ 53 := by
    rw [← Rat.cast_sub]
    refine hq.trans ?_
    generalize (1 : ℝ) / 2 ^ 536 = w at *
    norm_num1 at *
    linarith
  constructor
  · have h1 := (unit_lip _ _).trans hd
    have h2 := (unit_sub (angle doubles T a.center p) (rotation doubles T a) α φ).trans (add_le_add hα hr)
    refine (norm_sub_le_norm_sub_add_norm_sub _ (unit (angle doubles T a.center p - rotation doubles T a)) _).trans ((add_le_add h1 h2).trans ?_)
    norm_num1
    linarith
  · have h3 : |((roundDouble (angle doubles T a.center p - rotation doubles T a) : ℚ) : ℝ)| ≤ ((63 / 10 : ℚ) : ℝ) := by
      have h4 := abs_sub_abs_le_abs_sub ((roundDouble (angle doubles T a.center p - rotation doubles T a) : ℚ) : ℝ)
        (angle doubles T a.center p - rotation doubles T a)
      rw [Rat.cast_sub] at hs
      push_cast
      norm_num1 at *
      linarith
    exact_mod_cast h3

/-- the parameter for an angle that is a little off -/
theorem param_near (T : FloatTrig) {A B θ : ℚ} {a b m M C θ0 ψ δ : ℝ} (hm : 1 / 2 ^ 400 ≤ m) (ha : m ≤ a) (hb : m ≤ b) (hM : a ≤ M) (hM' : b ≤ M)
    (hC : M ≤ C * m)
    (hA : |(A : ℝ) - a| ≤ a * (10 / 2 ^ 53)) (hB : |(B : ℝ) - b| ≤ b * (10 / 2 ^ 53)) (hθ : IsDouble θ) (hθb : |θ| ≤ 63 / 10)
    (hd : ‖unit θ - unit θ0‖ ≤ δ) (hψ : ParamOf a b θ0 ψ) :
    ‖unit (ellipseT doubles T A B θ) - unit ψ‖ ≤ 72 / 2 ^ 53 + 2 * (C * δ) ∧ |(ellipseT doubles T A B θ : ℝ)| ≤ 48 / 10 := by
  have q0 : (0 : ℝ) < 1 / 2 ^ 400 := by positivity
  have m0 : 0 < m := q0.trans_le hm
  have a0 : 0 < a := m0.trans_le ha
  have b0 : 0 < b := m0.trans_le hb
  have δ0 : 0 ≤ δ := (norm_nonneg _).trans hd
  have hz' : 0 < ‖scale b a (unit θ)‖ := by
    have := le_scale m0.le hb ha (unit θ)
    rw [unit_norm, mul_one] at this
    linarith
  obtain ⟨k1, k2⟩ := ellipseT_near T (hm.trans ha) (hm.trans hb) hA hB hθ hθb ⟨_, hz', (unit_arg _).symm⟩
  refine ⟨?_, k2⟩
  obtain ⟨r, r0, hr⟩ := hψ
  have hrm : m ≤ r := by
    have := le_scale m0.le hb ha (unit θ0)
    rw [hr, norm_mul, unit_norm, unit_norm, Complex.norm_real, Real.norm_of_nonneg r0.le] at this
    linarith
  have hl : ‖unit (Complex.arg (scale b a (unit θ))) - unit ψ‖ ≤ 2 * (C * δ) := by
    refine direction_lip r0 hz'.le ?_
    rw [unit_arg, ← hr, scale_sub]
    refine (scale_le b0.le a0.le hM' hM _).trans ?_
    have C0 : 0 < C := by
      by_contra hc
      push Not at hc
      nlinarith
    calc M * ‖unit θ - unit θ0‖ ≤ (C * m) * δ := by gcongr
      _ = C * δ * m := by ring
      _ ≤ _ := by gcongr
  exact (norm_sub_le_norm_sub_add_norm_sub _ _ _).trans (add_le_add k1 hl)

/-- the parameter on a circle -/
theorem circle_near {θ : ℚ} {a b m M C θ0 ψ δ e : ℝ} (m0 : 0 < m) (ha : m ≤ a) (hb : m ≤ b) (hM : a ≤ M) (hM' : b ≤ M)
    (hC : M ≤ C * m) (he : |b - a| ≤ M * e) (hd : ‖unit θ - unit θ0‖ ≤ δ) (hψ : ParamOf a b θ0 ψ) :
    ‖unit θ - unit ψ‖ ≤ 2 * (C * (δ + e)) := by
  have a0 : 0 < a := m0.trans_le ha
  have b0 : 0 < b := m0.trans_le hb
  have M0 : 0 < M := a0.trans_le hM
  have δ0 : 0 ≤ δ := (norm_nonneg _).trans hd
  have e0 : 0 ≤ e := by
    by_contra hc
    push Not at hc
    nlinarith [abs_nonneg (b - a)]
  obtain ⟨r, r0, hr⟩ := hψ
  have hrm : m ≤ r := by
    have := le_scale m0.le hb ha (unit θ0)
    rw [hr, norm_mul, unit_norm, unit_norm, Complex.norm_real, Real.norm_of_nonneg r0.le] at this
    linarith
  have C0 : 0 < C := by
    by_contra hc
    push Not at hc
    nlinarith
  refine direction_lip r0 b0.le ?_
  have e1 : (b : ℂ) * unit θ - r * unit ψ = b * (unit θ - unit θ0) + ⟨0, (b - a) * Real.sin θ0⟩ := by
    rw [← hr]
    apply Complex.ext
    · simp [scale, unit]
      ring
    · simp [scale, unit]
      ring
  have h2 : ‖(⟨0, (b - a) * Real.sin θ0⟩ : ℂ)‖ ≤ M * e := by
    refine (norm_le_of (z := ⟨0, (b - a) * Real.sin θ0⟩) (e := 0) (f := M * e) (by simp) ?_).trans (by linarith)
    show |(b - a) * Real.sin θ0| ≤ M * e
    rw [abs_mul]
    exact (mul_le_of_le_one_right (abs_nonneg _) (Real.abs_sin_le_one _)).trans he
  rw [e1]
  refine (norm_add_le _ _).trans ?_
  rw [norm_mul, Complex.norm_real, Real.norm_of_nonneg b0.le]
  calc b * ‖unit θ - unit θ0‖ + ‖(⟨0, (b - a) * Real.sin θ0⟩ : ℂ)‖ ≤ M * δ + M * e := by gcongr
    _ = M * (δ + e) := by ring
    _ ≤ C * m * (δ + e) := by gcongr
    _ = C * (δ + e) * m := by ring
    _ ≤ _ := by gcongr

theorem ellipse_offset (c : Pt ℚ) (a b φ t : ℝ) :
    (⟨(ellipsePoint c a b φ t).1 - c.x, (ellipsePoint c a b φ t).2 - c.y⟩ : ℂ) = unit φ * scale a b (unit t) := by
  apply Complex.ext
  · simp [ellipsePoint, scale, unit]
    ring
  · simp [ellipsePoint, scale, unit]
    ring

theorem radius_err (R : FloatRoot) {p q : Pt ℚ} (hp : DoublePt p) (hq : DoublePt q) (h : 1 / 2 ^ 400 ≤ dist p q) :
    |(distance doubles R p q : ℝ) - dist p q| ≤ dist p q * (10 / 2 ^ 53) := by
  refine (distance_err R hp hq).trans ?_
  have : (1 : ℝ) / 2 ^ 536 ≤ dist p q * (1 / 2 ^ 60) := w_small.trans (by gcongr)
  generalize (1 : ℝ) / 2 ^ 536 = w at *
  have q0 : (0 : ℝ) < 1 / 2 ^ 400 := by positivity
  norm_num1 at *
  linarith

theorem direction_arg {c p : Pt ℚ} {z : ℂ} (h1 : (p.x : ℝ) - c.x = z.re) (h2 : (p.y : ℝ) - c.y = z.im) {r α : ℝ} (hr : 0 ≤ r) (hz : z = r * unit α) :
    Direction c p α := by
  have hd : dist c p = r := by
    have e : dist c p = ‖z‖ := by
      rw [dist_comm', Complex.norm_def, Complex.normSq_apply, dist, h1, h2]
      congr 1
      ring
    rw [e, hz, norm_mul, unit_norm, mul_one, Complex.norm_real, Real.norm_of_nonneg hr]
  constructor
  · rw [h1, hd, hz, Complex.re_ofReal_mul, unit]
  · rw [h2, hd, hz, Complex.im_ofReal_mul, unit]

/-- the point of the ellipse that the floats find lies in about the right direction -/
theorem found_near (T : FloatTrig) (R : FloatRoot) {a : ArcData ℚ} (h : DoubleArc a) (hne : a.prx ≠ a.center) {φ : ℝ}
    (hφ : Direction a.center a.prx φ) {s0 m M C e : ℝ} (hm : 1 / 2 ^ 400 ≤ m) (ha : m ≤ dist a.center a.prx) (hb : m ≤ dist a.center a.pry)
    (hM : |(a.center.x : ℝ)| + |(a.center.y : ℝ)| + dist a.center a.prx + dist a.center a.pry ≤ M) (hC : M ≤ C * m) {t : ℚ}
    (ht : ‖unit t - unit s0‖ ≤ e) {r α : ℝ} (hr : 0 < r) (hrm : m ≤ r)
    (hα : unit φ * scale (dist a.center a.prx) (dist a.center a.pry) (unit s0) = r * unit α) :
    ‖unit (angle doubles T a.center (pointAtT doubles T R a t)) - unit α‖ ≤ 22 / 2 ^ 53 + 2 * (C * (65 / 2 ^ 53 + e)) := by
  have q0 : (0 : ℝ) < 1 / 2 ^ 400 := by positivity
  have m0 : 0 < m := q0.trans_le hm
  have a0 : 0 ≤ dist a.center a.prx := m0.le.trans ha
  have b0 : 0 ≤ dist a.center a.pry := m0.le.trans hb
  have e0 : 0 ≤ e := (norm_nonneg _).trans ht
  have cx := abs_nonneg (a.center.x : ℝ)
  have cy := abs_nonneg (a.center.y : ℝ)
  obtain ⟨p1, p2⟩ := C151_ellipse T R h hne hφ t
  have small : (1 : ℝ) / 2 ^ 532 ≤ m * (1 / 2 ^ 60) := by
    have : (1 : ℝ) / 2 ^ 532 ≤ 1 / 2 ^ 400 * (1 / 2 ^ 60) := by
      rw [div_mul_div_comm, one_mul, ← pow_add]
      exact one_div_le_one_div_of_le (by positivity) (pow_le_pow_right₀ (by norm_num) (by norm_num))
    exact this.trans (by gcongr)
  set q := pointAtT doubles T R a t with hq
  set z : ℂ := ⟨(q.x : ℝ) - a.center.x, (q.y : ℝ) - a.center.y⟩ with hz
  have hd1 : ‖z - unit φ * scale (dist a.center a.prx) (dist a.center a.pry) (unit t)‖ ≤ M * (65 / 2 ^ 53) := by
    rw [← ellipse_offset a.center]
    have g1 : |(z - ⟨(ellipsePoint a.center (dist a.center a.prx) (dist a.center a.pry) φ t).1 - a.center.x,
        (ellipsePoint a.center (dist a.center a.prx) (dist a.center a.pry) φ t).2 - a.center.y⟩).re| ≤ M / 2 ^ 48 + m * (1 / 2 ^ 60) := by
      rw [Complex.sub_re, sub_sub_sub_cancel_right]
      refine p1.trans (add_le_add ?_ small)
      gcongr
      linarith
    have g2 : |(z - ⟨(ellipsePoint a.center (dist a.center a.prx) (dist a.center a.pry) φ t).1 - a.center.x,
        (ellipsePoint a.center (dist a.center a.prx) (dist a.center a.pry) φ t).2 - a.center.y⟩).im| ≤ M / 2 ^ 48 + m * (1 / 2 ^ 60) := by
      rw [Complex.sub_im, sub_sub_sub_cancel_right]
      refine p2.trans (add_le_add ?_ small)
      gcongr
      linarith
    refine (norm_le_of g1 g2).trans ?_
    have : m ≤ M := by linarith
    norm_num1
    linarith
  have hd2 : ‖unit φ * scale (dist a.center a.prx) (dist a.center a.pry) (unit t) -
      unit φ * scale (dist a.center a.prx) (dist a.center a.pry) (unit s0)‖ ≤ M * e := by
    rw [← mul_sub, norm_mul, unit_norm, one_mul, scale_sub]
    have M0 : 0 ≤ M := by linarith
    exact (scale_le (M := M) a0 b0 (by linarith) (by linarith) _).trans (by gcongr)
  have hd : ‖z - r * unit α‖ ≤ C * (65 / 2 ^ 53 + e) * r := by
    have C0 : 0 < C := by
      by_contra hc
      push Not at hc
      nlinarith
    rw [← hα]
    refine (norm_sub_le_norm_sub_add_norm_sub _ _ _).trans ((add_le_add hd1 hd2).trans ?_)
    calc M * (65 / 2 ^ 53) + M * e = M * (65 / 2 ^ 53 + e) := by ring
      _ ≤ C * m * (65 / 2 ^ 53 + e) := by gcongr
      _ = C * (65 / 2 ^ 53 + e) * m := by ring
      _ ≤ _ := by gcongr
  by_cases hz0 : z = 0
  · have := direction_lip (α := α) (β := angle doubles T a.center q) (s := 0) hr le_rfl (by
      rw [hz0] at hd
      rw [Complex.ofReal_zero, zero_mul]
      exact hd)
    refine this.trans ?_
    have : (0 : ℝ) ≤ 22 / 2 ^ 53 := by norm_num
    linarith
  · have hqc : q ≠ a.center := by
      intro h
      apply hz0
      rw [hz, h, sub_self, sub_self]
      rfl
    have hdq : DoublePt q := ⟨roundDouble_isDouble _, roundDouble_isDouble _⟩
    obtain ⟨k1, k2⟩ := angle_near T h.1 hdq hqc (direction_arg (z := z) rfl rfl (norm_nonneg z) (unit_arg z).symm)
    have k3 := direction_lip (α := α) (β := Complex.arg z) hr (norm_nonneg z) (by
      rw [unit_arg]
      exact hd)
    refine (norm_sub_le_norm_sub_add_norm_sub _ (unit (Complex.arg z)) _).trans ((add_le_add (unit_near k1 k2) k3).trans ?_)
    norm_num1
    linarith

/-- `get_start_t` with floats -/
theorem startT_near (T : FloatTrig) (R : FloatRoot) {a : ArcData ℚ} (h : DoubleArc a) (hne : a.prx ≠ a.center) {φ : ℝ}
    (hφ : Direction a.center a.prx φ) {start : Pt ℚ} (hs : DoublePt start) {s0 l m M C : ℝ} (hl : 0 < l)
    (hx : (start.x : ℝ) - a.center.x = l * ((ellipsePoint a.center (dist a.center a.prx) (dist a.center a.pry) φ s0).1 - a.center.x))
    (hy : (start.y : ℝ) - a.center.y = l * ((ellipsePoint a.center (dist a.center a.prx) (dist a.center a.pry) φ s0).2 - a.center.y))
    (hm : 1 / 2 ^ 400 ≤ m) (ha : m ≤ dist a.center a.prx) (hb : m ≤ dist a.center a.pry)
    (hM : |(a.center.x : ℝ)| + |(a.center.y : ℝ)| + dist a.center a.prx + dist a.center a.pry ≤ M) (hC : M ≤ C * m) :
    ‖unit (startT doubles T R a start) - unit s0‖ ≤ C ^ 3 * (730 / 2 ^ 53) ∧ |(startT doubles T R a start : ℝ)| ≤ 48 / 10 := by
  have q0 : (0 : ℝ) < 1 / 2 ^ 400 := by positivity
  have m0 : 0 < m := q0.trans_le hm
  have a0 : 0 < dist a.center a.prx := m0.trans_le ha
  have b0 : 0 < dist a.center a.pry := m0.trans_le hb
  have cx := abs_nonneg (a.center.x : ℝ)
  have cy := abs_nonneg (a.center.y : ℝ)
  have C2 : 2 ≤ C := by
    have : 2 * m ≤ C * m := by linarith
    exact le_of_mul_le_mul_right this m0
  have hA := radius_err R h.1 h.2.1 (hm.trans ha)
  have hB := radius_err R h.1 h.2.2 (hm.trans hb)
  -- the direction of the start
  set A := dist a.center a.prx with hAd
  set B := dist a.center a.pry with hBd
  have hr := le_scale m0.le ha hb (unit s0)
  rw [unit_norm, mul_one] at hr
  set r := ‖scale A B (unit s0)‖ with hrd
  have r0 : 0 < r := m0.trans_le hr
  set α := φ + Complex.arg (scale A B (unit s0)) with hαd
  have hα : unit φ * scale A B (unit s0) = r * unit α := by
    rw [hαd, unit_add, ← unit_arg (scale A B (unit s0)), unit_arg]
    have := unit_arg (scale A B (unit s0))
    rw [← hrd] at this
    linear_combination -unit φ * this
  have hθ : α - φ = Complex.arg (scale A B (unit s0)) := by rw [hαd]; ring
  have hpar : ParamOf A B (α - φ) s0 := by
    refine ⟨A * B / r, by positivity, ?_⟩
    rw [hθ]
    have := unit_arg (scale A B (unit s0))
    rw [← hrd] at this
    have e1 := congrArg Complex.re this
    have e2 := congrArg Complex.im this
    rw [Complex.re_ofReal_mul] at e1
    rw [Complex.im_ofReal_mul] at e2
    apply Complex.ext
    · rw [Complex.re_ofReal_mul]
      simp only [scale] at e1 ⊢
      field_simp
      linear_combination e1
    · rw [Complex.im_ofReal_mul]
      simp only [scale] at e2 ⊢
      field_simp
      linear_combination e2
  have hoff := ellipse_offset a.center A B φ s0
  have hdir : Direction a.center start α := by
    refine direction_arg (z := l * (unit φ * scale A B (unit s0))) (r := l * r) ?_ ?_ (by positivity) ?_
    · rw [Complex.re_ofReal_mul, ← hoff, hx]
    · rw [Complex.im_ofReal_mul, ← hoff, hy]
    · rw [hα]
      push_cast
      ring
  have hsc : start ≠ a.center := by
    intro e
    have h1 : dist a.center start = l * r := by
      obtain ⟨d1, d2⟩ := hdir
      have k := congrArg norm hoff
      rw [hα, norm_mul, unit_norm, mul_one, Complex.norm_real, Real.norm_of_nonneg r0.le] at k
      rw [dist_comm', dist, hx, hy, ← k, Complex.norm_def, Complex.normSq_apply, ← Real.sqrt_sq hl.le, ← Real.sqrt_mul (sq_nonneg _)]
      rw [Real.sqrt_sq hl.le]
      congr 1
      ring
    rw [e, dist, sub_self, sub_self] at h1
    norm_num at h1
    rcases h1 with h1 | h1
    · exact hl.ne' h1
    · exact r0.ne' h1
  obtain ⟨k1, k2⟩ := angle_near T h.1 hs hsc hdir
  obtain ⟨t1, t2⟩ := theta_near T h hne hφ start (unit_near k1 k2)
  have Aq : |((rx doubles R a : ℚ) : ℝ) - A| ≤ A * (10 / 2 ^ 53) := hA
  have Bq : |((ry doubles R a : ℚ) : ℝ) - B| ≤ B * (10 / 2 ^ 53) := hB
  have AM : A ≤ M := by linarith
  have BM : B ≤ M := by linarith
  have CC : 2 * C ≤ C ^ 2 := by nlinarith
  have CCC : 2 * C ^ 2 ≤ C ^ 3 := by nlinarith [sq_nonneg C]
  -- the second parameter, for any first one
  have second : ∀ t : ℚ, ‖unit t - unit s0‖ ≤ C * (140 / 2 ^ 53) →
      ‖unit (tAtPoint doubles T R a (pointAtT doubles T R a t)) - unit s0‖ ≤ C ^ 3 * (730 / 2 ^ 53) ∧
        |(tAtPoint doubles T R a (pointAtT doubles T R a t) : ℝ)| ≤ 48 / 10 := by
    intro t ht
    have f := found_near T R h hne hφ hm ha hb hM hC ht r0 hr hα
    obtain ⟨g1, g2⟩ := theta_near T h hne hφ (pointAtT doubles T R a t) f
    have g3 : 22 / 2 ^ 53 + 2 * (C * (65 / 2 ^ 53 + C * (140 / 2 ^ 53))) + 30 / 2 ^ 53 ≤ C ^ 2 * (360 / 2 ^ 53) := by
      have e : 22 / 2 ^ 53 + 2 * (C * (65 / 2 ^ 53 + C * (140 / 2 ^ 53))) + 30 / 2 ^ 53 = (52 + 130 * C + 280 * C ^ 2) / 2 ^ 53 := by ring
      rw [e, mul_div_assoc']
      gcongr
      linarith
    obtain ⟨o1, o2⟩ := param_near T hm ha hb AM BM hC Aq Bq (roundDouble_isDouble _) g2 (g1.trans g3) hpar
    refine ⟨o1.trans ?_, o2⟩
    have e : 72 / 2 ^ 53 + 2 * (C * (C ^ 2 * (360 / 2 ^ 53))) = (72 + 720 * C ^ 3) / 2 ^ 53 := by ring
    rw [e, mul_div_assoc']
    gcongr
    linarith
  unfold startT pointAtAngle
  simp only
  split
  · rename_i heq
    refine second _ ?_
    have he : |B - A| ≤ M * (10 / 2 ^ 53) := by
      rw [heq] at Aq
      have k := abs_sub_le B ((ry doubles R a : ℚ) : ℝ) A
      rw [abs_sub_comm B ((ry doubles R a : ℚ) : ℝ)] at k
      refine k.trans ((add_le_add Bq Aq).trans ?_)
      have : A + B ≤ M := by linarith
      norm_num1
      linarith
    have := circle_near m0 ha hb AM BM hC he t1 hpar
    refine this.trans ?_
    norm_num1
    linarith
  · refine second _ ?_
    obtain ⟨o1, -⟩ := param_near T hm ha hb AM BM hC Aq Bq (roundDouble_isDouble _) t2 t1 hpar
    refine o1.trans ?_
    norm_num1
    linarith

/-- **C151**: the points of an arc, computed with floats, follow the arc. `C` says how flat the ellipse is and how far from the origin: the
coordinates of the centre and the radii together are at most `C` times each radius. The start is seen from the centre in the direction of
the parameter `s0` (`l` is 1 if it is on the ellipse). Then the point at the position `p` is the point of the ellipse at the parameter `s0`
plus `p` times the sweep, up to `C^3 / 2^43` of that size. -/
theorem C151_follows (T : FloatTrig) (R : FloatRoot) (isAngle : Bool) {a : ArcData ℚ} (h : DoubleArc a) {φ : ℝ}
    (hφ : Direction a.center a.prx φ) {start stop : Pt ℚ} (hs : DoublePt start) {s0 l C : ℝ} (hl : 0 < l)
    (hx : (start.x : ℝ) - a.center.x = l * ((ellipsePoint a.center (dist a.center a.prx) (dist a.center a.pry) φ s0).1 - a.center.x))
    (hy : (start.y : ℝ) - a.center.y = l * ((ellipsePoint a.center (dist a.center a.prx) (dist a.center a.pry) φ s0).2 - a.center.y))
    (hrx : 1 / 2 ^ 400 ≤ dist a.center a.prx) (hry : 1 / 2 ^ 400 ≤ dist a.center a.pry)
    (hCx : |(a.center.x : ℝ)| + |(a.center.y : ℝ)| + dist a.center a.prx + dist a.center a.pry ≤ C * dist a.center a.prx)
    (hCy : |(a.center.x : ℝ)| + |(a.center.y : ℝ)| + dist a.center a.prx + dist a.center a.pry ≤ C * dist a.center a.pry)
    (hw : |a.sweep| ≤ 7) {p : ℚ} (h0 : 0 < p) (h1 : p < 1) (hz : ¬(eq doubles start stop && sweepIsZero doubles isAngle a.sweep) = true) :
    |((arcPoint doubles T R isAngle start stop a p).x : ℝ) -
        (ellipsePoint a.center (dist a.center a.prx) (dist a.center a.pry) φ (s0 + a.sweep * p)).1| ≤
        C ^ 3 * (|(a.center.x : ℝ)| + |(a.center.y : ℝ)| + dist a.center a.prx + dist a.center a.pry) / 2 ^ 43 ∧
      |((arcPoint doubles T R isAngle start stop a p).y : ℝ) -
        (ellipsePoint a.center (dist a.center a.prx) (dist a.center a.pry) φ (s0 + a.sweep * p)).2| ≤
        C ^ 3 * (|(a.center.x : ℝ)| + |(a.center.y : ℝ)| + dist a.center a.prx + dist a.center a.pry) / 2 ^ 43 := by
  have q0 : (0 : ℝ) < 1 / 2 ^ 400 := by positivity
  have hne : a.prx ≠ a.center := by
    intro e
    rw [e, dist, sub_self, sub_self, zero_pow two_ne_zero, add_zero, Real.sqrt_zero] at hrx
    exact absurd hrx (not_le.2 q0)
  have hp : arcPoint doubles T R isAngle start stop a p =
      pointAtT doubles T R a (roundDouble (startT doubles T R a start + roundDouble (a.sweep * p))) := by
    unfold arcPoint
    rw [if_neg hz, if_neg h0.ne', if_neg h1.ne]
    rfl
  rw [hp]
  obtain ⟨m, hm1, hm2, hm3, hmC⟩ : ∃ m, 1 / 2 ^ 400 ≤ m ∧ m ≤ dist a.center a.prx ∧ m ≤ dist a.center a.pry ∧
      |(a.center.x : ℝ)| + |(a.center.y : ℝ)| + dist a.center a.prx + dist a.center a.pry ≤ C * m := by
    rcases le_total (dist a.center a.prx) (dist a.center a.pry) with hh | hh
    · exact ⟨_, hrx, le_rfl, hh, hCx⟩
    · exact ⟨_, hry, hh, le_rfl, hCy⟩
  obtain ⟨s1, s2⟩ := startT_near T R h hne hφ hs hl hx hy hm1 hm2 hm3 le_rfl hmC
  set M := |(a.center.x : ℝ)| + |(a.center.y : ℝ)| + dist a.center a.prx + dist a.center a.pry with hM
  have m0 : 0 < m := q0.trans_le hm1
  have cx := abs_nonneg (a.center.x : ℝ)
  have cy := abs_nonneg (a.center.y : ℝ)
  have C2 : 2 ≤ C := by
    have : 2 * m ≤ C * m := by linarith
    exact le_of_mul_le_mul_right this m0
  have C8 : 8 ≤ C ^ 3 := by
    calc (8 : ℝ) = 2 ^ 3 := by norm_num
      _ ≤ C ^ 3 := by gcongr
  -- the parameter
  have w := w_tiny
  have hwp : |((a.sweep * p : ℚ) : ℝ)| ≤ 7 := by
    have : |a.sweep * p| ≤ 7 := by
      rw [abs_mul, abs_of_pos h0]
      nlinarith [abs_nonneg a.sweep]
    exact_mod_cast this
  have e1 := rdR (a.sweep * p)
  have e2 := rdR (startT doubles T R a start + roundDouble (a.sweep * p))
  have e3 : |((roundDouble (a.sweep * p) : ℚ) : ℝ)| ≤ 7.1 := by
    have := abs_sub_abs_le_abs_sub ((roundDouble (a.sweep * p) : ℚ) : ℝ) ((a.sweep * p : ℚ) : ℝ)
    norm_num1 at *
    linarith
  have e4 : |((startT doubles T R a start + roundDouble (a.sweep * p) : ℚ) : ℝ)| ≤ 4.8 + 7.1 := by
    push_cast
    refine (abs_add_le _ _).trans (add_le_add (s2.trans (by norm_num)) e3)
  set t := roundDouble (startT doubles T R a start + roundDouble (a.sweep * p)) with ht
  have e5 : |(t : ℝ) - ((startT doubles T R a start : ℝ) + a.sweep * p)| ≤ 20 / 2 ^ 53 := by
    have k := abs_sub_le (t : ℝ) ((startT doubles T R a start + roundDouble (a.sweep * p) : ℚ) : ℝ) ((startT doubles T R a start : ℝ) + a.sweep * p)
    have k2 : |((startT doubles T R a start + roundDouble (a.sweep * p) : ℚ) : ℝ) - ((startT doubles T R a start : ℝ) + a.sweep * p)| ≤
        |((a.sweep * p : ℚ) : ℝ)| / 2 ^ 53 + 1 / 2 ^ 536 := by
      refine le_trans (le_of_eq ?_) e1
      push_cast
      rw [add_sub_add_left_eq_sub]
    generalize (1 : ℝ) / 2 ^ 536 = w at *
    norm_num1 at *
    linarith
  have hu : ‖unit t - unit (s0 + a.sweep * p)‖ ≤ C ^ 3 * (733 / 2 ^ 53) := by
    have u1 := (unit_lip _ _).trans e5
    have u2 := unit_add_le (startT doubles T R a start) (a.sweep * p) s0 (a.sweep * p)
    rw [sub_self, norm_zero, add_zero] at u2
    refine (norm_sub_le_norm_sub_add_norm_sub _ _ _).trans ((add_le_add u1 (u2.trans s1)).trans ?_)
    norm_num1
    linarith
  obtain ⟨p1, p2⟩ := C151_ellipse T R h hne hφ t
  have small : (1 : ℝ) / 2 ^ 532 ≤ M * (1 / 2 ^ 60) := by
    have : (1 : ℝ) / 2 ^ 532 ≤ 1 / 2 ^ 400 * (1 / 2 ^ 60) := by
      rw [div_mul_div_comm, one_mul, ← pow_add]
      exact one_div_le_one_div_of_le (by positivity) (pow_le_pow_right₀ (by norm_num) (by norm_num))
    refine this.trans ?_
    gcongr
    linarith
  have M0 : 0 < M := by linarith
  have hd2 : ‖(⟨(ellipsePoint a.center (dist a.center a.prx) (dist a.center a.pry) φ t).1 - a.center.x,
      (ellipsePoint a.center (dist a.center a.prx) (dist a.center a.pry) φ t).2 - a.center.y⟩ : ℂ) -
      ⟨(ellipsePoint a.center (dist a.center a.prx) (dist a.center a.pry) φ (s0 + a.sweep * p)).1 - a.center.x,
      (ellipsePoint a.center (dist a.center a.prx) (dist a.center a.pry) φ (s0 + a.sweep * p)).2 - a.center.y⟩‖ ≤ M * (C ^ 3 * (733 / 2 ^ 53)) := by
    rw [ellipse_offset, ellipse_offset, ← mul_sub, norm_mul, unit_norm, one_mul, scale_sub]
    exact (scale_le (M := M) (by linarith) (by linarith) (by linarith) (by linarith) _).trans (by gcongr)
  have hfin : ∀ {x y z k : ℝ}, |x - y| ≤ (k + dist a.center a.prx + dist a.center a.pry) / 2 ^ 48 + 1 / 2 ^ 532 →
      k + dist a.center a.prx + dist a.center a.pry ≤ M → |y - z| ≤ M * (C ^ 3 * (733 / 2 ^ 53)) → |x - z| ≤ C ^ 3 * M / 2 ^ 43 := by
    intro x y z k i1 i2 i3
    refine (abs_sub_le x y z).trans ((add_le_add i1 i3).trans ?_)
    have i4 : 8 * M ≤ C ^ 3 * M := by gcongr
    generalize (1 : ℝ) / 2 ^ 532 = w at *
    have : M * (C ^ 3 * (733 / 2 ^ 53)) = C ^ 3 * M * (733 / 2 ^ 53) := by ring
    rw [this]
    generalize C ^ 3 * M = CM at *
    norm_num1 at *
    linarith
  refine ⟨hfin p1 (by linarith) ?_, hfin p2 (by linarith) ?_⟩
  · have := (Complex.abs_re_le_norm _).trans hd2
    rwa [Complex.sub_re, sub_sub_sub_cancel_right] at this
  · have := (Complex.abs_im_le_norm _).trans hd2
    rwa [Complex.sub_im, sub_sub_sub_cancel_right] at this

/-- **C151**: the ends of an arc are exact with floats, whatever the arc is -/
theorem C151_ends (T : FloatTrig) (R : FloatRoot) (isAngle : Bool) (a : ArcData ℚ) (start stop : Pt ℚ) :
    arcPoint doubles T R isAngle start stop a 0 = start ∧
      (¬(eq doubles start stop = true ∧ sweepIsZero doubles isAngle a.sweep = true) → arcPoint doubles T R isAngle start stop a 1 = stop) := by
  unfold arcPoint
  constructor
  · split
    · rfl
    · rw [if_pos rfl]
  · intro h
    rw [if_neg (by simpa using h), if_neg (by norm_num), if_pos rfl]

/-- **C151**: a closed arc whose sweep is a float is drawn unless the sweep is 0. -/
theorem C151_closed (T : FloatTrig) (R : FloatRoot) (a : ArcData ℚ) (start : Pt ℚ) {p : ℚ} (h0 : p ≠ 0) (h1 : p ≠ 1) :
    (a.sweep ≠ 0 → arcPoint doubles T R false start start a p =
      pointAtT doubles T R a (roundDouble (startT doubles T R a start + roundDouble (a.sweep * p)))) ∧
      (a.sweep = 0 → arcPoint doubles T R false start start a p = start) := by
  constructor
  · intro h
    unfold arcPoint
    rw [if_neg (by simp [sweepIsZero, h]), if_neg h0, if_neg h1]
    rfl
  · intro h
    unfold arcPoint
    have e : eq doubles start start = true := by
      have z : doubles.fl 0 = 0 := by decide +kernel
      have k : (0 : ℚ) ≤ doubles.fl err := by decide +kernel
      simp [eq, z, k]
    rw [if_pos (by simp [sweepIsZero, h, e])]

/-- **C151** is false of closed arcs whose sweep is an `Angle` of a full turn: all their points are the start. A tiny angle is taken for 0 if
it is positive, and drawn if it is negative. -/
theorem C151_turn_wrong (T : FloatTrig) (R : FloatRoot) (a : ArcData ℚ) (start : Pt ℚ) (p : ℚ) :
    (a.sweep = tau ∨ a.sweep = -tau → arcPoint doubles T R true start start a p = start) ∧
      (a.sweep = 1 / 2 ^ 40 → arcPoint doubles T R true start start a p = start) ∧
      (a.sweep = -(1 / 2 ^ 40) → p ≠ 0 → p ≠ 1 → arcPoint doubles T R true start start a p =
        pointAtT doubles T R a (roundDouble (startT doubles T R a start + roundDouble (a.sweep * p)))) := by
  have e : eq doubles start start = true := by
    have z : doubles.fl 0 = 0 := by decide +kernel
    have k : (0 : ℚ) ≤ doubles.fl err := by decide +kernel
    simp [eq, z, k]
  have z1 : sweepIsZero doubles true tau = true := by decide +kernel
  have z2 : sweepIsZero doubles true (-tau) = true := by decide +kernel
  have z3 : sweepIsZero doubles true (1 / 2 ^ 40) = true := by decide +kernel
  have z4 : sweepIsZero doubles true (-(1 / 2 ^ 40)) = false := by decide +kernel
  refine ⟨?_, ?_, ?_⟩
  · rintro (h | h) <;> unfold arcPoint <;> rw [h]
    · rw [if_pos (by rw [e, z1]; rfl)]
    · rw [if_pos (by rw [e, z2]; rfl)]
  · intro h
    unfold arcPoint
    rw [h, if_pos (by rw [e, z3]; rfl)]
  · intro h h0 h1
    unfold arcPoint
    rw [if_neg (by rw [h, z4]; simp), if_neg h0, if_neg h1]
    rfl

/-- every point but the centre is seen from the centre in the direction of some parameter -/
theorem parameter_exists {c p : Pt ℚ} {a b : ℝ} (φ : ℝ) (ha : 0 < a) (hb : 0 < b) (h : p ≠ c) :
    ∃ s0 l : ℝ, 0 < l ∧ (p.x : ℝ) - c.x = l * ((ellipsePoint c a b φ s0).1 - c.x) ∧
      (p.y : ℝ) - c.y = l * ((ellipsePoint c a b φ s0).2 - c.y) := by
  set z : ℂ := ⟨(p.x : ℝ) - c.x, (p.y : ℝ) - c.y⟩ with hz
  have z0 : z ≠ 0 := by
    intro e
    refine h ?_
    have h1 := congrArg Complex.re e
    have h2 := congrArg Complex.im e
    have k1 : (p.x : ℝ) = c.x := sub_eq_zero.1 h1
    have k2 : (p.y : ℝ) = c.y := sub_eq_zero.1 h2
    cases p; cases c
    simp only [Rat.cast_inj] at k1 k2
    rw [k1, k2]
  set θ := Complex.arg z - φ with hθ
  set v := scale b a (unit θ) with hv
  have v0 : 0 < ‖v‖ := by
    have := le_scale (m := min a b) (le_min ha.le hb.le) (min_le_right a b) (min_le_left a b) (unit θ)
    rw [unit_norm, mul_one] at this
    exact lt_of_lt_of_le (lt_min ha hb) this
  have n0 := norm_pos_iff.2 z0
  refine ⟨Complex.arg v, ‖z‖ * ‖v‖ / (a * b), by positivity, ?_⟩
  have ha' : (a : ℂ) ≠ 0 := Complex.ofReal_ne_zero.2 ha.ne'
  have hb' : (b : ℂ) ≠ 0 := Complex.ofReal_ne_zero.2 hb.ne'
  have e2 : (‖v‖ : ℂ) * scale a b (unit (Complex.arg v)) = (a * b : ℝ) * unit θ := by
    have k := unit_arg v
    have k1 := congrArg Complex.re k
    have k2 := congrArg Complex.im k
    rw [Complex.re_ofReal_mul] at k1
    rw [Complex.im_ofReal_mul] at k2
    have v1 : v.re = b * (unit θ).re := rfl
    have v2 : v.im = a * (unit θ).im := rfl
    apply Complex.ext
    · rw [Complex.re_ofReal_mul, Complex.re_ofReal_mul]
      show ‖v‖ * (a * (unit (Complex.arg v)).re) = _
      linear_combination a * k1 + a * v1
    · rw [Complex.im_ofReal_mul, Complex.im_ofReal_mul]
      show ‖v‖ * (b * (unit (Complex.arg v)).im) = _
      linear_combination b * k2 + b * v2
  have e3 : unit φ * unit θ = unit (Complex.arg z) := by
    rw [← unit_add, hθ]
    congr 1
    ring
  have e4 : z = ((‖z‖ * ‖v‖ / (a * b) : ℝ) : ℂ) * (unit φ * scale a b (unit (Complex.arg v))) := by
    have hab : ((a * b : ℝ) : ℂ) ≠ 0 := Complex.ofReal_ne_zero.2 (mul_pos ha hb).ne'
    have k := unit_arg z
    rw [Complex.ofReal_div, Complex.ofReal_mul, div_mul_eq_mul_div, eq_div_iff hab]
    linear_combination (-((a * b : ℝ) : ℂ)) * k - ‖z‖ * unit φ * e2 - (‖z‖ : ℂ) * ((a * b : ℝ) : ℂ) * e3
  rw [← ellipse_offset c] at e4
  have r1 := congrArg Complex.re e4
  have r2 := congrArg Complex.im e4
  rw [Complex.re_ofReal_mul] at r1
  rw [Complex.im_ofReal_mul] at r2
  exact ⟨r1, r2⟩

theorem rat_near (x : ℝ) {e : ℝ} (he : 0 < e) : ∃ q : ℚ, |(q : ℝ) - x| ≤ e := by
  obtain ⟨q, h1, h2⟩ := exists_rat_btwn (show x < x + e by linarith)
  exact ⟨q, abs_le.2 ⟨by linarith, by linarith⟩⟩

/-- functions as `FloatTrig` assumes exist -/
theorem trig_exists : Nonempty FloatTrig := by
  choose f hf using fun x : ℚ => rat_near (Real.cos x) (show (0 : ℝ) < 1 / 2 ^ 52 by positivity)
  choose g hg using fun x : ℚ => rat_near (Real.sin x) (show (0 : ℝ) < 1 / 2 ^ 52 by positivity)
  choose k hk using fun y x : ℚ => rat_near (Complex.arg ⟨x, y⟩) (show (0 : ℝ) < 1 / 2 ^ 50 by positivity)
  have ht : ∀ x : ℚ, ∃ q : ℚ, |(q : ℝ) - Real.tan x| ≤ |Real.tan x| / 2 ^ 52 := by
    intro x
    by_cases h : Real.tan x = 0
    · exact ⟨0, by rw [h]; simp⟩
    · exact rat_near _ (by have := abs_pos.2 h; positivity)
  choose t ht using ht
  exact ⟨⟨f, g, t, k, hf, hg, ht, hk⟩⟩

/-- a quarter of a circle meets the hypotheses -/
example : ∃ (a : ArcData ℚ) (start : Pt ℚ) (φ s0 l C : ℝ), DoubleArc a ∧ Direction a.center a.prx φ ∧ DoublePt start ∧ 0 < l ∧
    (start.x : ℝ) - a.center.x = l * ((ellipsePoint a.center (dist a.center a.prx) (dist a.center a.pry) φ s0).1 - a.center.x) ∧
    (start.y : ℝ) - a.center.y = l * ((ellipsePoint a.center (dist a.center a.prx) (dist a.center a.pry) φ s0).2 - a.center.y) ∧
    1 / 2 ^ 400 ≤ dist a.center a.prx ∧
    |(a.center.x : ℝ)| + |(a.center.y : ℝ)| + dist a.center a.prx + dist a.center a.pry ≤ C * dist a.center a.prx ∧
    |a.sweep| ≤ 7 ∧ ¬(eq doubles start ⟨0, 1⟩ && sweepIsZero doubles false a.sweep) = true := by
  have d : ∀ n : ℤ, |n| ≤ 2 → IsDouble n := fun n h => isDouble_int (h.trans (by norm_num))
  have d0 : IsDouble 0 := d 0 (by norm_num)
  have d1 : IsDouble 1 := d 1 (by norm_num)
  have hx : dist ⟨0, 0⟩ ⟨1, 0⟩ = 1 := by norm_num [dist]
  have hy : dist ⟨0, 0⟩ ⟨0, 1⟩ = 1 := by norm_num [dist]
  refine ⟨⟨⟨0, 0⟩, ⟨1, 0⟩, ⟨0, 1⟩, 3 / 2⟩, ⟨1, 0⟩, 0, 0, 1, 2, ⟨⟨d0, d0⟩, ⟨d1, d0⟩, ⟨d0, d1⟩⟩, ?_, ⟨d1, d0⟩, one_pos, ?_, ?_, ?_, ?_, ?_, ?_⟩
  · constructor <;> simp [hx]
  · simp [hx, hy, ellipsePoint]
  · simp [hx, hy, ellipsePoint]
  · rw [hx, div_le_one (by positivity)]
    exact one_le_pow₀ (by norm_num)
  · norm_num [hx, hy]
  · norm_num [abs_le]
  · decide +kernel

end Svgio.Props
