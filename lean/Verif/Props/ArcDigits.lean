import Verif.Props.ArcD
import Verif.Lemmas.Print
import Mathlib.Analysis.SpecialFunctions.Trigonometric.Bounds

/-!
C167 with the rounding of the radii to 6 digits: arcs of circles up to a quarter turn.
-/

namespace Svgio.Arc

open Real Spec

/-- equal half chords on circles of nearly the same radius belong to nearly the same angle -/
theorem half_angle_close {α β r s ε : ℝ} (a0 : 0 < α) (a1 : α ≤ π / 4) (b0 : 0 < β) (b1 : β ≤ π / 2) (hr : 0 < r) (e0 : 0 ≤ ε)
    (e1 : ε ≤ 1 / 1000) (hs : |s - r| ≤ ε * r) (h : r * sin α = s * sin β) : |β - α| ≤ 3 * ε := by
  have hpi := pi_pos
  have hp4 := pi_le_four
  obtain ⟨l, u⟩ := abs_le.1 hs
  have s0 : 0 < s := by nlinarith
  have sa0 : 0 < sin α := sin_pos_of_pos_of_lt_pi a0 (by linarith)
  have sb0 : 0 < sin β := sin_pos_of_pos_of_lt_pi b0 (by linarith)
  have sa : sin α ≤ 0.7072 := by
    have h1 : sin α ≤ sin (π / 4) := sin_le_sin_of_le_of_le_pi_div_two (by linarith) (by linarith) a1
    rw [sin_pi_div_four] at h1
    have h2 : √2 ≤ 1.4144 := by rw [Real.sqrt_le_left (by norm_num)]; norm_num
    linarith
  have hd : |sin β - sin α| ≤ 0.708 * ε := by
    have e : s * (sin β - sin α) = -((s - r) * sin α) := by linear_combination -h
    have h1 : s * |sin β - sin α| = |s - r| * sin α := by
      rw [← abs_of_pos s0, ← abs_mul, abs_of_pos s0, e, abs_neg, abs_mul, abs_of_pos sa0]
    have h2 : |s - r| * sin α ≤ ε * r * 0.7072 := mul_le_mul hs sa sa0.le (by positivity)
    have h3 : 0.999 * r ≤ s := by nlinarith
    have h4 : 0.999 * r * |sin β - sin α| ≤ ε * r * 0.7072 :=
      (mul_le_mul_of_nonneg_right h3 (abs_nonneg _)).trans (h1.le.trans h2)
    have h5 : r * (0.999 * |sin β - sin α|) ≤ r * (ε * 0.7072) := by linarith
    have := le_of_mul_le_mul_left h5 hr
    linarith
  have sb : sin β ≤ 0.709 := by
    have := (abs_le.1 hd).2
    linarith
  have b2 : β ≤ π / 3 := by
    by_contra hc
    push Not at hc
    have h1 : sin (π / 3) < sin β := sin_lt_sin_of_lt_of_le_pi_div_two (by linarith) b1 hc
    rw [sin_pi_div_three] at h1
    have h2 : (1.7 : ℝ) ≤ √3 := Real.le_sqrt_of_sq_le (by norm_num)
    linarith
  have hcos : 1 / 2 ≤ cos ((β + α) / 2) := by
    rw [← cos_pi_div_three]
    exact cos_le_cos_of_nonneg_of_le_pi (by linarith) (by linarith) (by linarith)
  have hx : |sin ((β - α) / 2)| ≤ 0.708 * ε := by
    have e : sin β - sin α = 2 * sin ((β - α) / 2) * cos ((β + α) / 2) := sin_sub_sin β α
    rw [e, abs_mul, abs_mul, abs_of_pos (by linarith : 0 < cos ((β + α) / 2)), abs_two] at hd
    nlinarith [abs_nonneg (sin ((β - α) / 2))]
  have hy : 2 / π * |(β - α) / 2| ≤ |sin ((β - α) / 2)| := by
    have hb : |(β - α) / 2| ≤ π / 2 := by rw [abs_le]; constructor <;> linarith
    have h1 := mul_le_sin (abs_nonneg ((β - α) / 2)) hb
    refine h1.trans ?_
    rcases abs_cases ((β - α) / 2) with ⟨h, -⟩ | ⟨h, -⟩ <;> rw [h]
    · exact le_abs_self _
    · rw [sin_neg]; exact neg_le_abs _
  have hz : |(β - α) / 2| ≤ π / 2 * (0.708 * ε) := by
    have h1 := hy.trans hx
    have h2 := mul_le_mul_of_nonneg_left h1 (show 0 ≤ π / 2 by positivity)
    have e : π / 2 * (2 / π * |(β - α) / 2|) = |(β - α) / 2| := by field_simp
    rwa [e] at h2
  have hw : π / 2 * (0.708 * ε) ≤ 2 * (0.708 * ε) := mul_le_mul_of_nonneg_right (by linarith) (by positivity)
  rw [abs_div, abs_two] at hz
  linarith

/-- points of circles of nearly the same radius at nearly the same angle -/
theorem circle_close {r s x y ε : ℝ} (hr : 0 < r) (hs : |s - r| ≤ ε * r) (h : |y - x| ≤ 3 * ε) :
    |s * cos y - r * cos x| ≤ 4 * (ε * r) ∧ |s * sin y - r * sin x| ≤ 4 * (ε * r) := by
  have hc : |cos y - cos x| ≤ |y - x| := abs_cos_sub_cos_le y x
  have hn : |sin y - sin x| ≤ |y - x| := abs_sin_sub_sin_le y x
  constructor
  · have e : s * cos y - r * cos x = (s - r) * cos y + r * (cos y - cos x) := by ring
    rw [e]
    refine (abs_add_le _ _).trans ?_
    rw [abs_mul, abs_mul, abs_of_pos hr]
    have h1 : |s - r| * |cos y| ≤ ε * r * 1 := mul_le_mul hs (abs_cos_le_one y) (abs_nonneg _) ((abs_nonneg _).trans hs)
    have h2 : r * |cos y - cos x| ≤ r * (3 * ε) := mul_le_mul_of_nonneg_left (hc.trans h) hr.le
    linarith
  · have e : s * sin y - r * sin x = (s - r) * sin y + r * (sin y - sin x) := by ring
    rw [e]
    refine (abs_add_le _ _).trans ?_
    rw [abs_mul, abs_mul, abs_of_pos hr]
    have h1 : |s - r| * |sin y| ≤ ε * r * 1 := mul_le_mul hs (abs_sin_le_one y) (abs_nonneg _) ((abs_nonneg _).trans hs)
    have h2 : r * |sin y - sin x| ≤ r * (3 * ε) := mul_le_mul_of_nonneg_left (hn.trans h) hr.le
    linarith

theorem ellipse_circle (c : Pt ℝ) (r φ t : ℝ) : ellipse c r r φ t = ⟨c.x + r * cos (t + φ), c.y + r * sin (t + φ)⟩ := by
  unfold ellipse
  rw [cos_add, sin_add]
  congr 1 <;> ring

theorem three_terms {A B D c s e : ℝ} (hA : |A| ≤ 4 * e) (hB : |B| ≤ 4 * e) (hD : |D| ≤ 4 * e) (hc : |c| ≤ 1) (hs : |s| ≤ 1) :
    |-(A * c) + B * c + D * s| ≤ 12 * e := by
  have hm : ∀ X y : ℝ, |X| ≤ 4 * e → |y| ≤ 1 → |X * y| ≤ 4 * e := by
    intro X y hX hy
    rw [abs_mul]
    calc |X| * |y| ≤ |X| * 1 := mul_le_mul_of_nonneg_left hy (abs_nonneg _)
      _ ≤ 4 * e := by rw [mul_one]; exact hX
  have h4 := abs_le.1 (hm A c hA hc)
  have h5 := abs_le.1 (hm B c hB hc)
  have h6 := abs_le.1 (hm D s hD hs)
  rw [abs_le]
  constructor <;> linarith [h4.1, h4.2, h5.1, h5.2, h6.1, h6.2]

/-- the angle of half the arc, in either direction -/
theorem half_angle_signed {α β r s ε : ℝ} (a1 : |α| ≤ π / 4) (b1 : |β| ≤ π / 2) (hn : α ≠ 0) (hab : 0 < α ↔ 0 < β) (hn' : β ≠ 0)
    (hr : 0 < r) (e0 : 0 ≤ ε) (e1 : ε ≤ 1 / 1000) (hs : |s - r| ≤ ε * r) (h : r * sin α = s * sin β) : |β - α| ≤ 3 * ε := by
  rcases lt_or_gt_of_ne hn with h0 | h0
  · have hb : β < 0 := lt_of_le_of_ne (not_lt.1 fun h => absurd (hab.2 h) (not_lt.2 h0.le)) hn'
    rw [abs_of_neg h0] at a1
    rw [abs_of_neg hb] at b1
    have := half_angle_close (α := -α) (β := -β) (by linarith) a1 (by linarith) b1 hr e0 e1 hs (by rw [sin_neg, sin_neg]; linarith)
    rw [show -β - -α = -(β - α) by ring, abs_neg] at this
    exact this
  · have hb := hab.1 h0
    rw [abs_of_pos h0] at a1
    rw [abs_of_pos hb] at b1
    exact half_angle_close h0 a1 hb b1 hr e0 e1 hs h

/-- the chords of two arcs with the same ends, in the same direction, and the directions of their middles -/
theorem same_chord {r s α β m n : ℝ} (g1 : r * sin α * sin m = s * sin β * sin n) (g2 : r * sin α * cos m = s * sin β * cos n) (hr : 0 < r)
    (s0 : 0 < s) (a1 : |α| ≤ π / 4) (b1 : |β| ≤ π / 2) (ha0 : α ≠ 0) (hb0 : β ≠ 0) (hab : 0 < α ↔ 0 < β) :
    r * sin α = s * sin β ∧ sin m = sin n ∧ cos m = cos n := by
  have hpi := pi_pos
  have hsin : ∀ x : ℝ, |x| ≤ π / 2 → x ≠ 0 → (0 < x → 0 < sin x) ∧ (x < 0 → sin x < 0) := by
    intro x hx _
    exact ⟨fun h => sin_pos_of_pos_of_lt_pi h (by linarith [(abs_le.1 hx).2]),
      fun h => sin_neg_of_neg_of_neg_pi_lt h (by linarith [(abs_le.1 hx).1])⟩
  obtain ⟨ap, an⟩ := hsin α (by linarith) ha0
  obtain ⟨bp, bn⟩ := hsin β b1 hb0
  have hprod : 0 < r * sin α * (s * sin β) := by
    rcases lt_or_gt_of_ne ha0 with h0 | h0
    · have hb : β < 0 := lt_of_le_of_ne (not_lt.1 fun h => absurd (hab.2 h) (not_lt.2 h0.le)) hb0
      exact mul_pos_of_neg_of_neg (mul_neg_of_pos_of_neg hr (an h0)) (mul_neg_of_pos_of_neg s0 (bn hb))
    · exact mul_pos (mul_pos hr (ap h0)) (mul_pos s0 (bp (hab.1 h0)))
  have hM := cos_sq_sin_sq m
  have hN := cos_sq_sin_sq n
  have hchord : r * sin α = s * sin β := by
    have hsq : (r * sin α) ^ 2 = (s * sin β) ^ 2 := by
      linear_combination (-(r * sin α) ^ 2) * hM + (s * sin β) ^ 2 * hN + (r * sin α * sin m + s * sin β * sin n) * g1 +
        (r * sin α * cos m + s * sin β * cos n) * g2
    rcases sq_eq_sq_iff_eq_or_eq_neg.1 hsq with h | h
    · exact h
    · rw [h] at hprod
      nlinarith [sq_nonneg (s * sin β)]
  have hne : s * sin β ≠ 0 := fun h => by rw [h, mul_zero] at hprod; exact lt_irrefl _ hprod
  rw [hchord] at g1 g2
  have m1 : sin m = sin n := mul_left_cancel₀ hne g1
  have m2 : cos m = cos n := mul_left_cancel₀ hne g2
  exact ⟨hchord, m1, m2⟩

/-- arcs of circles of nearly the same radius with the same ends, in the same direction, are near to each other -/
theorem circles_close {c d p q : Pt ℝ} {r s φ ψ t t' w v ε : ℝ} (hp : p = ellipse c r r φ t) (hq : q = ellipse c r r φ (t + w))
    (hp' : p = ellipse d s s ψ t') (hq' : q = ellipse d s s ψ (t' + v)) (hw : |w| ≤ π / 2) (hv : |v| ≤ π) (hw0 : w ≠ 0) (hv0 : v ≠ 0)
    (hwv : 0 < w ↔ 0 < v) (hr : 0 < r) (e0 : 0 ≤ ε) (e1 : ε ≤ 1 / 1000) (hs : |s - r| ≤ ε * r) {u : ℝ} (u0 : 0 ≤ u) (u1 : u ≤ 1) :
    |(ellipse d s s ψ (t' + v * u)).x - (ellipse c r r φ (t + w * u)).x| ≤ 12 * (ε * r) ∧
      |(ellipse d s s ψ (t' + v * u)).y - (ellipse c r r φ (t + w * u)).y| ≤ 12 * (ε * r) := by
  have hpi := pi_pos
  obtain ⟨l, -⟩ := abs_le.1 hs
  have s0 : 0 < s := by nlinarith
  obtain ⟨α, hα⟩ : ∃ α, α = w / 2 := ⟨_, rfl⟩
  obtain ⟨β, hβ⟩ : ∃ β, β = v / 2 := ⟨_, rfl⟩
  obtain ⟨m, hm⟩ : ∃ m, m = t + φ + α := ⟨_, rfl⟩
  obtain ⟨n, hn⟩ : ∃ n, n = t' + ψ + β := ⟨_, rfl⟩
  have a1 : |α| ≤ π / 4 := by rw [hα, abs_div, abs_two]; linarith
  have b1 : |β| ≤ π / 2 := by rw [hβ, abs_div, abs_two]; linarith
  have ha0 : α ≠ 0 := by rw [hα]; exact div_ne_zero hw0 two_ne_zero
  have hb0 : β ≠ 0 := by rw [hβ]; exact div_ne_zero hv0 two_ne_zero
  have hab : 0 < α ↔ 0 < β := by
    rw [hα, hβ]
    constructor
    · intro h; have := hwv.1 (by linarith); linarith
    · intro h; have := hwv.2 (by linarith); linarith
  rw [ellipse_circle] at hp hq hp' hq'
  rw [show t + φ = m - α by rw [hm]; ring] at hp
  rw [show t + w + φ = m + α by rw [hm, hα]; ring] at hq
  rw [show t' + ψ = n - β by rw [hn]; ring] at hp'
  rw [show t' + v + ψ = n + β by rw [hn, hβ]; ring] at hq'
  have f1 := congrArg Pt.x (hp.symm.trans hp')
  have f2 := congrArg Pt.y (hp.symm.trans hp')
  have f3 := congrArg Pt.x (hq.symm.trans hq')
  have f4 := congrArg Pt.y (hq.symm.trans hq')
  simp only [cos_sub, cos_add, sin_sub, sin_add] at f1 f2 f3 f4
  have g1 : r * sin α * sin m = s * sin β * sin n := by linear_combination (1 / 2) * (f1 - f3)
  have g2 : r * sin α * cos m = s * sin β * cos n := by linear_combination (-1 / 2) * (f2 - f4)
  obtain ⟨hchord, m1, m2⟩ := same_chord g1 g2 hr s0 a1 b1 ha0 hb0 hab
  have hclose := half_angle_signed a1 b1 ha0 hab hb0 hr e0 e1 hs hchord
  obtain ⟨k1, -⟩ := circle_close hr hs hclose
  have hθ : |β * (2 * u - 1) - α * (2 * u - 1)| ≤ 3 * ε := by
    rw [← sub_mul, abs_mul]
    have h2 : |2 * u - 1| ≤ 1 := by rw [abs_le]; constructor <;> linarith
    calc |β - α| * |2 * u - 1| ≤ |β - α| * 1 := mul_le_mul_of_nonneg_left h2 (abs_nonneg _)
      _ ≤ 3 * ε := by rw [mul_one]; exact hclose
  obtain ⟨k2, k3⟩ := circle_close hr hs hθ
  rw [ellipse_circle, ellipse_circle, show t' + v * u + ψ = n + β * (2 * u - 1) by rw [hn, hβ]; ring,
    show t + w * u + φ = m + α * (2 * u - 1) by rw [hm, hα]; ring]
  generalize β * (2 * u - 1) = y at *
  generalize α * (2 * u - 1) = x at *
  rw [m1, m2] at f1 f2 f3 f4
  simp only [cos_add, sin_add, m1, m2]
  have cn := abs_cos_le_one n
  have sn := abs_sin_le_one n
  constructor
  · have := three_terms k1 k2 k3 cn (by rw [abs_neg]; exact sn)
    refine le_of_eq_of_le (congrArg abs ?_) this
    linear_combination (-1 / 2) * (f1 + f3)
  · have := three_terms k1 k2 k3 sn cn
    refine le_of_eq_of_le (congrArg abs ?_) this
    linear_combination (-1 / 2) * (f2 + f4)

/-- a circle of nearly the same radius goes through the ends of an arc of at most a quarter turn -/
theorem circle_fits {c p q : Pt ℝ} {r s φ t w : ℝ} (ψ : ℝ) (hp : p = ellipse c r r φ t) (hq : q = ellipse c r r φ (t + w))
    (hw : |w| ≤ π / 2) (s0 : 0 < s) (hs : r ^ 2 ≤ 2 * s ^ 2) : Fits s s ψ p q := by
  obtain ⟨α, hα⟩ : ∃ α, α = w / 2 := ⟨_, rfl⟩
  obtain ⟨m, hm⟩ : ∃ m, m = t + φ + α := ⟨_, rfl⟩
  have hM := cos_sq_sin_sq m
  have hψ := cos_sq_sin_sq ψ
  have hsin : 2 * sin α ^ 2 ≤ 1 := by
    have h1 : 0 ≤ cos w := cos_nonneg_of_neg_pi_div_two_le_of_le (by linarith [(abs_le.1 hw).1]) (by linarith [(abs_le.1 hw).2])
    rw [show w = 2 * α by rw [hα]; ring, cos_two_mul] at h1
    linarith [cos_sq_sin_sq α]
  have hle : (r * sin α) ^ 2 ≤ s ^ 2 := by
    rw [mul_pow]
    nlinarith [sq_nonneg r]
  obtain ⟨H, hH⟩ : ∃ H, H = √(s ^ 2 - (r * sin α) ^ 2) := ⟨_, rfl⟩
  have hH2 : H ^ 2 = s ^ 2 - (r * sin α) ^ 2 := by rw [hH, Real.sq_sqrt (by linarith)]
  rw [ellipse_circle, show t + φ = m - α by rw [hm]; ring, cos_sub, sin_sub] at hp
  rw [ellipse_circle, show t + w + φ = m + α by rw [hm, hα]; ring, cos_add, sin_add] at hq
  have on : ∀ x y : ℝ, x ^ 2 + y ^ 2 = s ^ 2 → ((x * cos ψ + y * sin ψ) / s) ^ 2 + ((-x * sin ψ + y * cos ψ) / s) ^ 2 = 1 := by
    intro x y h
    field_simp
    linear_combination (x ^ 2 + y ^ 2) * hψ + h
  refine ⟨⟨c.x + (r * cos α - H) * cos m, c.y + (r * cos α - H) * sin m⟩, on _ _ ?_, on _ _ ?_⟩
  · rw [hp]
    linear_combination (H ^ 2 + (r * sin α) ^ 2) * hM + hH2
  · rw [hq]
    linear_combination (H ^ 2 + (r * sin α) ^ 2) * hM + hH2

/-- the number read back from 6 digits -/
theorem six_digits (x : ℚ) : |floatVal (Print.fmtG 6 x) - x| ≤ 1 / 200000 * |x| := by
  have h := Print.gVal_rounded (prec := 6) (by norm_num) x
  rw [← (Print.fmtG_number (prec := 6) (by norm_num) x).2] at h
  rcases h with ⟨h1, h2⟩ | ⟨j, k, h1, -, -, h4, -⟩
  · rw [h2, h1]; simp
  · refine h4.trans ?_
    have e : (10 : ℚ) ^ (j + (6 : ℕ) - 1) = 10 ^ j * 10 ^ 5 := by
      rw [show j + ((6 : ℕ) : ℤ) - 1 = j + 5 by push_cast; ring, zpow_add₀ (by norm_num)]
      norm_num
    rw [e] at h1
    linarith

/-- C167 for circles, with the rounding: an arc of a circle that turns by at most a quarter turn, read back from radii rounded to 6 digits
(and from any rotation), is off by at most a ten-thousandth of the radius everywhere. (The ends are taken to be printed exactly.) -/
theorem C167_circle_digits {a : ArcData ℝ} {p q : Pt ℝ} {isAngle : Bool} {r : ℚ} (hr : 0 < r) (hx : (svgArgs a).rx = r)
    (hy : (svgArgs a).ry = r) (hpq : p.eq q = false) (hw : |a.sweep| ≤ π / 2)
    (h : FollowsEllipse (point isAngle p q a) p q a.center (rx a) (ry a) (rotation a) a.sweep) (rot : ℝ) :
    ∃ b, svgCtor p (some ((floatVal (Print.fmtG 6 r) : ℚ) : ℝ)) (some ((floatVal (Print.fmtG 6 r) : ℚ) : ℝ)) (some rot)
        (some (svgArgs a).large) (some (svgArgs a).sweep) q = .ok b ∧
      ∀ u, 0 ≤ u → u ≤ 1 → Spec.dist (point isAngle p q a u) (point true p q b u) ≤ r / 10 ^ 4 := by
  have hpi := pi_pos
  have hx' : rx a = r := hx
  have hy' : ry a = r := hy
  rw [hx', hy'] at h
  obtain ⟨h0, h1, t, ht⟩ := h
  have hρ := six_digits r
  generalize floatVal (Print.fmtG 6 r) = ρ at hρ ⊢
  have hρ' : |(ρ : ℝ) - r| ≤ 1 / 200000 * r := by
    rw [abs_of_pos hr] at hρ
    have h := (Rat.cast_le (K := ℝ)).2 hρ
    push_cast at h
    exact h
  have r0 : (0 : ℝ) < r := by exact_mod_cast hr
  clear hρ hx hy hx' hy'
  generalize (ρ : ℝ) = s at hρ' ⊢
  generalize (r : ℝ) = R at hρ' r0 ht ⊢
  obtain ⟨l, -⟩ := abs_le.1 hρ'
  have s0 : 0 < s := by linarith
  have hp : p = ellipse a.center R R (rotation a) t := by
    rw [← h0, ht 0 le_rfl zero_le_one, mul_zero, add_zero]
  have hq : q = ellipse a.center R R (rotation a) (t + a.sweep) := by
    rw [← h1, ht 1 zero_le_one le_rfl, mul_one]
  have hw0 : a.sweep ≠ 0 := by
    intro h
    rw [h, add_zero, ← hp] at hq
    rw [hq] at hpq
    simp [Pt.eq, err] at hpq
  have hlarge : (svgArgs a).large = false := by
    unfold svgArgs tau
    simp only [gt_iff_lt, decide_eq_false_iff_not, not_lt]
    linarith
  refine ⟨svgParameterize p s s rot (svgArgs a).large (svgArgs a).sweep q, ?_, ?_⟩
  · unfold svgCtor
    rw [if_neg (by simp [hpq, s0.ne'])]
    rfl
  obtain ⟨d, k, t', v, hk, hb, hb0, hb1, v1, v2, -, -, v3⟩ := C78_arc rot (svgArgs a).large (svgArgs a).sweep hpq s0 s0
  have hk1 : k = 1 := le_antisymm (hk.2.2 1 le_rfl (by
    rw [one_mul]
    exact circle_fits _ hp hq hw s0 (by nlinarith))) hk.1
  rw [hk1, one_mul] at hb
  have hp' : p = ellipse d s s (rad rot) t' := by
    rw [← hb0, hb 0 le_rfl zero_le_one, mul_zero, add_zero]
  have hq' : q = ellipse d s s (rad rot) (t' + v) := by
    rw [← hb1, hb 1 zero_le_one le_rfl, mul_one]
  have hsweep : (svgArgs a).sweep = true ↔ 0 < a.sweep := by
    unfold svgArgs
    simp only [ge_iff_le, decide_eq_true_eq]
    exact ⟨fun h => lt_of_le_of_ne h hw0.symm, le_of_lt⟩
  have hwv : 0 < a.sweep ↔ 0 < v := by
    rw [← hsweep]
    constructor
    · exact v1
    · intro h
      by_contra hc
      exact absurd (v2 (Bool.eq_false_iff.2 hc)) (not_lt.2 h.le)
  have hv0 : v ≠ 0 := by
    cases hs : (svgArgs a).sweep
    · exact (v2 hs).ne
    · exact (v1 hs).ne'
  intro u u0 u1
  obtain ⟨b1, b2⟩ := circles_close hp hq hp' hq' hw (v3 hlarge) hw0 hv0 hwv r0 (by norm_num) (by norm_num) hρ' u0 u1
  rw [hb u u0 u1, ht u u0 u1]
  unfold Spec.dist
  apply Real.sqrt_le_iff.2
  refine ⟨by positivity, ?_⟩
  have e1 := sq_le_sq' (by linarith [(abs_le.1 b1).1]) (abs_le.1 b1).2
  have e2 := sq_le_sq' (by linarith [(abs_le.1 b2).1]) (abs_le.1 b2).2
  nlinarith [sq_nonneg R]

/-- an arc as the theorem asks for, whose radius is rounded: a quarter of a circle, in the negative direction -/
example : ∃ (a : ArcData ℝ) (p q : Pt ℝ) (r : ℚ), 0 < r ∧ (svgArgs a).rx = r ∧ (svgArgs a).ry = r ∧ p.eq q = false ∧ |a.sweep| ≤ π / 2 ∧
    FollowsEllipse (point false p q a) p q a.center (rx a) (ry a) (rotation a) a.sweep ∧ floatVal (Print.fmtG 6 r) ≠ r := by
  have hpi := pi_pos
  have hR : (0 : ℝ) < ((1234567 / 1000000 : ℚ) : ℝ) := by norm_num
  have hR' : ((1234567 / 1000000 : ℚ) : ℝ) = 1234567 / 1000000 := by norm_num
  have hx : rx (upright ⟨0, 0⟩ ((1234567 / 1000000 : ℚ) : ℝ) ((1234567 / 1000000 : ℚ) : ℝ) (-(π / 2))) = ((1234567 / 1000000 : ℚ) : ℝ) :=
    upright_rx hR
  have hy : ry (upright ⟨0, 0⟩ ((1234567 / 1000000 : ℚ) : ℝ) ((1234567 / 1000000 : ℚ) : ℝ) (-(π / 2))) = ((1234567 / 1000000 : ℚ) : ℝ) :=
    upright_ry hR
  have hrot : rotation (upright ⟨0, 0⟩ ((1234567 / 1000000 : ℚ) : ℝ) ((1234567 / 1000000 : ℚ) : ℝ) (-(π / 2))) = 0 := by
    unfold rotation angle atan2 upright
    simp only [sub_zero, zero_add]
    exact Complex.arg_ofReal_of_nonneg hR.le
  have hsw : (upright ⟨0, 0⟩ ((1234567 / 1000000 : ℚ) : ℝ) ((1234567 / 1000000 : ℚ) : ℝ) (-(π / 2))).sweep = -(π / 2) := rfl
  refine ⟨upright ⟨0, 0⟩ ((1234567 / 1000000 : ℚ) : ℝ) ((1234567 / 1000000 : ℚ) : ℝ) (-(π / 2)), ⟨((1234567 / 1000000 : ℚ) : ℝ), 0⟩,
    ⟨0, -((1234567 / 1000000 : ℚ) : ℝ)⟩, 1234567 / 1000000, by norm_num, hx, hy, ?_, ?_, ?_, by decide +kernel⟩
  · rw [hR']; norm_num [Pt.eq, err]
  · rw [hsw, abs_neg, abs_of_pos (by linarith)]
  · rw [hx, hy, hrot]
    refine follows_given (t := 0) (by rw [hx]; exact hR) (by rw [hy]; exact hR) (fun t => upright_pointAtT hR hR t) ?_ ?_ ?_
    · rw [hsw]; linarith
    · ext <;> simp [ellipse, upright]
    · rw [hsw, zero_add]
      ext <;> simp [ellipse, upright]

end Svgio.Arc
