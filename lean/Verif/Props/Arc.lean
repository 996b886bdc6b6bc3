import Verif.Lemmas.Arc
import Mathlib.Tactic.NormNum

/-!
C61, C78: arcs given by SVG parameters.
-/

namespace Svgio.Arc

open Real Spec

/-- degrees as radians -/
noncomputable def rad (d : ℝ) : ℝ := d * π / 180

theorem ofDegrees_eq (d : ℝ) : Angle.ofDegrees tau d = rad d := by
  unfold Angle.ofDegrees tau rad
  ring

theorem native_axes (c : Pt ℝ) (r s rot δ : ℝ) :
    (native c r s rot δ).prx = ⟨c.x + r * cos (rad rot), c.y + r * sin (rad rot)⟩ ∧
      (native c r s rot δ).pry = ⟨c.x - s * sin (rad rot), c.y + s * cos (rad rot)⟩ := by
  have hx : (some c.x : Option ℝ).getD 0 = c.x := rfl
  have hy : (some c.y : Option ℝ).getD 0 = c.y := rfl
  simp only [native, ofDegrees_eq, Mat.postRotate, hx, hy]
  split_ifs with h
  · simp only [Mat.pointInMatrixSpace, Mat.postCat, Mat.identity, Mat.rotate, Mat.imatmul, Mat.multiply, h.1, h.2]
    constructor <;> ext <;> simp
  · simp only [Mat.pointInMatrixSpace, Mat.postCat, Mat.postTranslate, Mat.translate, Mat.identity, Mat.rotate, Mat.imatmul, Mat.multiply]
    constructor <;> ext <;> simp <;> ring

theorem native_rx (c : Pt ℝ) (r s rot δ : ℝ) : rx (native c r s rot δ) = |r| := by
  rw [rx_eq, (native_axes c r s rot δ).1]
  have : ((native c r s rot δ).center) = c := rfl
  rw [this]
  have e : (c.x + r * cos (rad rot) - c.x) ^ 2 + (c.y + r * sin (rad rot) - c.y) ^ 2 = r ^ 2 := by
    linear_combination r ^ 2 * cos_sq_sin_sq (rad rot)
  rw [e, Real.sqrt_sq_eq_abs]

theorem native_ry (c : Pt ℝ) (r s rot δ : ℝ) : ry (native c r s rot δ) = |s| := by
  rw [ry_eq, (native_axes c r s rot δ).2]
  have : ((native c r s rot δ).center) = c := rfl
  rw [this]
  have e : (c.x - s * sin (rad rot) - c.x) ^ 2 + (c.y + s * cos (rad rot) - c.y) ^ 2 = s ^ 2 := by
    linear_combination s ^ 2 * cos_sq_sin_sq (rad rot)
  rw [e, Real.sqrt_sq_eq_abs]

/-- with a positive first radius the rotation is the given one, up to full turns -/
theorem native_rotation (c : Pt ℝ) {r : ℝ} (hr : 0 < r) (s rot δ : ℝ) :
    cos (rotation (native c r s rot δ)) = cos (rad rot) ∧ sin (rotation (native c r s rot δ)) = sin (rad rot) := by
  have h1 := rx_cos (native c r s rot δ)
  have h2 := rx_sin (native c r s rot δ)
  rw [native_rx, abs_of_pos hr, (native_axes c r s rot δ).1] at h1 h2
  have : ((native c r s rot δ).center) = c := rfl
  rw [this] at h1 h2
  constructor
  · apply mul_left_cancel₀ hr.ne'; rw [h1]; ring
  · apply mul_left_cancel₀ hr.ne'; rw [h2]; ring

theorem native_pointAtT (c : Pt ℝ) {r s : ℝ} (hr : 0 < r) (hs : 0 < s) (rot δ t : ℝ) :
    pointAtT (native c r s rot δ) t = ellipse c r s (rad rot) t := by
  obtain ⟨h1, h2⟩ := native_rotation c hr s rot δ
  have : ((native c r s rot δ).center) = c := rfl
  simp only [pointAtT, ellipse, h1, h2, native_rx, native_ry, abs_of_pos hr, abs_of_pos hs, this]
  congr 1 <;> ring

/-- the sweep: the angle from `u` to `v`, in the direction of the flag -/
theorem delta_spec {ux uy vx vy : ℝ} (hu : ux ^ 2 + uy ^ 2 = 1) (hv : vx ^ 2 + vy ^ 2 = 1) (sweep : Bool) :
    cos (rad (deltaDegrees ux uy vx vy sweep)) = ux * vx + uy * vy ∧
      sin (rad (deltaDegrees ux uy vx vy sweep)) = ux * vy - uy * vx ∧
      (sweep = true → 0 ≤ rad (deltaDegrees ux uy vx vy sweep) ∧ rad (deltaDegrees ux uy vx vy sweep) < 2 * π) ∧
      (sweep = false → -(2 * π) ≤ rad (deltaDegrees ux uy vx vy sweep) ∧ rad (deltaDegrees ux uy vx vy sweep) < 0) := by
  have hpi := pi_pos
  set d := ux * vx + uy * vy with hd
  set e := ux * vy - uy * vx with he
  have hde : d ^ 2 + e ^ 2 = 1 := by
    rw [hd, he]
    linear_combination (vx ^ 2 + vy ^ 2) * hu + hv
  have hd1 : d ≤ 1 := by nlinarith [sq_nonneg e]
  have hd2 : -1 ≤ d := by nlinarith [sq_nonneg e]
  have hn : √((ux * ux + uy * uy) * (vx * vx + vy * vy)) = 1 := by
    have : (ux * ux + uy * uy) * (vx * vx + vy * vy) = 1 := by
      linear_combination (vx ^ 2 + vy ^ 2) * hu + hv
    rw [this, Real.sqrt_one]
  have hcl : (if d / 1 > 1 then 1 else if d / 1 < -1 then -1 else d / 1) = d := by
    rw [div_one, if_neg (not_lt.mpr hd1), if_neg (not_lt.mpr hd2)]
  set β := (if e < 0 then -(arccos d) else arccos d) with hβ
  have hcb : cos β = d := by
    rw [hβ]
    split_ifs
    · rw [cos_neg, cos_arccos hd2 hd1]
    · rw [cos_arccos hd2 hd1]
  have hsb : sin β = e := by
    have h1 : 1 - d ^ 2 = e ^ 2 := by linear_combination -hde
    rw [hβ]
    split_ifs with hneg
    · rw [sin_neg, sin_arccos, h1, Real.sqrt_sq_eq_abs, abs_of_neg hneg, neg_neg]
    · rw [sin_arccos, h1, Real.sqrt_sq_eq_abs, abs_of_nonneg (not_lt.mp hneg)]
  have hdelta : deltaDegrees ux uy vx vy sweep =
      if sweep then Angle.pyMod (β * 180 / π) 360 else Angle.pyMod (β * 180 / π) 360 - 360 := by
    unfold deltaDegrees
    simp only [← hd, ← he, hn, hcl]
    have : (if e < 0 then -(arccos d * 180 / π) else arccos d * 180 / π) = β * 180 / π := by
      rw [hβ]
      split_ifs <;> ring
    rw [this]
  have hmod : ∃ n : ℤ, rad (Angle.pyMod (β * 180 / π) 360) = β - n * (2 * π) ∧
      0 ≤ rad (Angle.pyMod (β * 180 / π) 360) ∧ rad (Angle.pyMod (β * 180 / π) 360) < 2 * π := by
    refine ⟨⌊β * 180 / π / 360⌋, ?_, ?_, ?_⟩
    · unfold rad Angle.pyMod
      field_simp
      ring
    · unfold rad Angle.pyMod
      have := Int.floor_le (β * 180 / π / 360)
      rw [le_div_iff₀ (by norm_num)] at this
      apply div_nonneg (mul_nonneg (by linarith) hpi.le) (by norm_num)
    · unfold rad Angle.pyMod
      have := Int.lt_floor_add_one (β * 180 / π / 360)
      rw [div_lt_iff₀ (by norm_num)] at this
      rw [div_lt_iff₀ (by norm_num)]
      nlinarith
  obtain ⟨n, h1, h2, h3⟩ := hmod
  cases sweep
  · rw [hdelta]
    have e1 : rad ((if false then Angle.pyMod (β * 180 / π) 360 else Angle.pyMod (β * 180 / π) 360 - 360)) =
        rad (Angle.pyMod (β * 180 / π) 360) - 2 * π := by
      simp only [Bool.false_eq_true, if_false]
      unfold rad
      ring
    simp only [Bool.false_eq_true, if_false] at e1 ⊢
    rw [e1]
    refine ⟨?_, ?_, fun h => absurd h (by simp), fun _ => ⟨by linarith, by linarith⟩⟩
    · rw [cos_sub_two_pi, h1, cos_sub_int_mul_two_pi, hcb]
    · rw [sin_sub_two_pi, h1, sin_sub_int_mul_two_pi, hsb]
  · rw [hdelta]
    simp only [if_true]
    refine ⟨?_, ?_, fun _ => ⟨h2, h3⟩, fun h => absurd h (by simp)⟩
    · rw [h1, cos_sub_int_mul_two_pi, hcb]
    · rw [h1, sin_sub_int_mul_two_pi, hsb]

/-- when an ellipse fits, the half chord is at most as long as a radius -/
theorem fits_bound {r s φ : ℝ} {p q : Pt ℝ} (h : Fits r s φ p q) :
    ((cos φ * ((p.x - q.x) / 2) + sin φ * ((p.y - q.y) / 2)) / r) ^ 2 +
      ((-sin φ * ((p.x - q.x) / 2) + cos φ * ((p.y - q.y) / 2)) / s) ^ 2 ≤ 1 := by
  obtain ⟨c, h1, h2⟩ := h
  unfold OnEllipse at h1 h2
  set a := ((p.x - c.x) * cos φ + (p.y - c.y) * sin φ) / r
  set b := (-(p.x - c.x) * sin φ + (p.y - c.y) * cos φ) / s
  set a' := ((q.x - c.x) * cos φ + (q.y - c.y) * sin φ) / r
  set b' := (-(q.x - c.x) * sin φ + (q.y - c.y) * cos φ) / s
  have e1 : (cos φ * ((p.x - q.x) / 2) + sin φ * ((p.y - q.y) / 2)) / r = (a - a') / 2 := by
    simp only [a, a']; ring
  have e2 : (-sin φ * ((p.x - q.x) / 2) + cos φ * ((p.y - q.y) / 2)) / s = (b - b') / 2 := by
    simp only [b, b']; ring
  rw [e1, e2]
  nlinarith [sq_nonneg (a + a'), sq_nonneg (b + b')]

/-- points different for the library differ -/
theorem ne_of_not_eq {p q : Pt ℝ} (h : p.eq q = false) : p.x - q.x ≠ 0 ∨ p.y - q.y ≠ 0 := by
  by_contra hc
  push Not at hc
  simp [Pt.eq, hc.1, hc.2, err] at h

/-- everything about the result for different end points and non-zero radii -/
theorem svg_shape {p q : Pt ℝ} {r s : ℝ} (rot : ℝ) (large sweep : Bool) (hpq : p.eq q = false) (hr : r ≠ 0) (hs : s ≠ 0) :
    ∃ k C L ux uy vx vy, ∃ c : Pt ℝ, LeastScale r s (rad rot) p q k ∧
      svgParameterize p r s rot large sweep q = native c (k * r) (k * s) rot (deltaDegrees ux uy vx vy sweep) ∧
      ux ^ 2 + uy ^ 2 = 1 ∧ vx ^ 2 + vy ^ 2 = 1 ∧ 0 < L ∧ ux * vx + uy * vy = 1 - 2 * L ∧ ux * vy - uy * vx = 2 * C * L ∧
      (large = sweep → C ≤ 0) ∧ (large ≠ sweep → 0 ≤ C) ∧
      p = ⟨c.x + (k * r * ux * cos (rad rot) - k * s * uy * sin (rad rot)),
           c.y + (k * r * ux * sin (rad rot) + k * s * uy * cos (rad rot))⟩ ∧
      q = ⟨c.x + (k * r * vx * cos (rad rot) - k * s * vy * sin (rad rot)),
           c.y + (k * r * vx * sin (rad rot) + k * s * vy * cos (rad rot))⟩ ∧
      OnEllipse c (k * r) (k * s) (rad rot) p ∧ OnEllipse c (k * r) (k * s) (rad rot) q := by
  set φ := rad rot with hφ
  have hcs := cos_sq_sin_sq φ
  set co := cos φ with hco
  set si := sin φ with hsi
  set dx := (p.x - q.x) / 2 with hdx
  set dy := (p.y - q.y) / 2 with hdy
  set x1 := co * dx + si * dy with hx1
  set y1 := -si * dx + co * dy with hy1
  have hchord : 0 < x1 ^ 2 + y1 ^ 2 := by
    have : x1 ^ 2 + y1 ^ 2 = dx ^ 2 + dy ^ 2 := by
      rw [hx1, hy1]; linear_combination (dx ^ 2 + dy ^ 2) * hcs
    rw [this]
    rcases ne_of_not_eq hpq with h | h
    · have : dx ≠ 0 := by rw [hdx]; exact div_ne_zero h (by norm_num)
      positivity
    · have : dy ≠ 0 := by rw [hdy]; exact div_ne_zero h (by norm_num)
      positivity
  set L0 := x1 * x1 / (r * r) + y1 * y1 / (s * s) with hL0
  have L0pos : 0 < L0 := by
    have e : L0 = (x1 / r) ^ 2 + (y1 / s) ^ 2 := by rw [hL0]; field_simp
    rw [e]
    by_cases hx : x1 = 0
    · have hy : y1 ≠ 0 := by intro hy; rw [hx, hy] at hchord; norm_num at hchord
      have := div_ne_zero hy hs
      positivity
    · have := div_ne_zero hx hr
      positivity
  set k := (if L0 > 1 then √L0 else 1) with hk
  have k1 : 1 ≤ k := by
    rw [hk]
    split_ifs with h
    · rw [Real.one_le_sqrt]; exact h.le
    · exact le_refl _
  have k0 : 0 < k := by linarith
  have kL : L0 ≤ k ^ 2 := by
    rw [hk]
    split_ifs with h
    · rw [Real.sq_sqrt L0pos.le]
    · push Not at h; simpa using h
  set R := k * r with hR
  set S := k * s with hS
  have hR0 : R ≠ 0 := mul_ne_zero k0.ne' hr
  have hS0 : S ≠ 0 := mul_ne_zero k0.ne' hs
  set ξ := x1 / R with hξ
  set η := y1 / S with hη
  have hRx : R * ξ = x1 := by rw [hξ]; field_simp
  have hSy : S * η = y1 := by rw [hη]; field_simp
  set L := ξ ^ 2 + η ^ 2 with hL
  have LL0 : L * k ^ 2 = L0 := by
    rw [hL, hL0, hξ, hη, hR, hS]
    field_simp
  have Lpos : 0 < L := by
    have : L = L0 / k ^ 2 := by rw [← LL0]; field_simp
    rw [this]; positivity
  have L1 : L ≤ 1 := by
    have : L = L0 / k ^ 2 := by rw [← LL0]; field_simp
    rw [this, div_le_one (by positivity)]; exact kL
  set C := centreFactor (R * R) (S * S) (x1 * x1) (y1 * y1) large sweep with hC
  have hCval : C = if large = sweep then -√((1 - L) / L) else √((1 - L) / L) := by
    rw [hC]
    unfold centreFactor
    have e : (R * R * (S * S) - R * R * (y1 * y1) - S * S * (x1 * x1)) / (R * R * (y1 * y1) + S * S * (x1 * x1)) = (1 - L) / L := by
      rw [← hRx, ← hSy]
      have e1 : R * R * (S * S) - R * R * (S * η * (S * η)) - S * S * (R * ξ * (R * ξ)) = (R * S) ^ 2 * (1 - L) := by
        rw [hL]; ring
      have e2 : R * R * (S * η * (S * η)) + S * S * (R * ξ * (R * ξ)) = (R * S) ^ 2 * L := by
        rw [hL]; ring
      rw [e1, e2, mul_div_mul_left _ _ (by positivity)]
    simp only [e]
    rw [abs_of_nonneg (div_nonneg (by linarith) Lpos.le)]
  have hC2 : C ^ 2 * L = 1 - L := by
    have : C ^ 2 = (1 - L) / L := by
      rw [hCval]
      split_ifs
      · rw [neg_sq, Real.sq_sqrt (div_nonneg (by linarith) Lpos.le)]
      · rw [Real.sq_sqrt (div_nonneg (by linarith) Lpos.le)]
    rw [this]
    field_simp
  set cx := C * R * y1 / S with hcx
  set cy := -C * R⁻¹ * S * x1 with hcy
  have hcx' : cx = R * (C * η) := by rw [hcx, hη]; ring
  have hcy' : cy = -(S * (C * ξ)) := by rw [hcy, hξ]; ring
  set c : Pt ℝ := ⟨(co * cx - si * cy) + (p.x + q.x) / 2, (si * cx + co * cy) + (p.y + q.y) / 2⟩ with hc
  have hux : (x1 - cx) / R = ξ - C * η := by rw [hcx', ← hRx]; field_simp
  have huy : (y1 - cy) / S = η + C * ξ := by rw [hcy', ← hSy]; field_simp; ring
  have hvx : (-x1 - cx) / R = -ξ - C * η := by rw [hcx', ← hRx]; field_simp
  have hvy : (-y1 - cy) / S = -η + C * ξ := by rw [hcy', ← hSy]; field_simp; ring
  have hpx : p.x = c.x + (R * (ξ - C * η) * co - S * (η + C * ξ) * si) := by
    rw [hc]
    have e1 : co * x1 - si * y1 = dx := by rw [hx1, hy1]; linear_combination dx * hcs
    simp only
    rw [hcx', hcy']
    linear_combination -e1 + co * (-hRx) + si * hSy + hdx
  have hpy : p.y = c.y + (R * (ξ - C * η) * si + S * (η + C * ξ) * co) := by
    rw [hc]
    have e1 : si * x1 + co * y1 = dy := by rw [hx1, hy1]; linear_combination dy * hcs
    simp only
    rw [hcx', hcy']
    linear_combination -e1 + si * (-hRx) - co * hSy + hdy
  have hqx : q.x = c.x + (R * (-ξ - C * η) * co - S * (-η + C * ξ) * si) := by
    rw [hc]
    have e1 : co * x1 - si * y1 = dx := by rw [hx1, hy1]; linear_combination dx * hcs
    simp only
    rw [hcx', hcy']
    linear_combination e1 - co * (-hRx) - si * hSy - hdx
  have hqy : q.y = c.y + (R * (-ξ - C * η) * si + S * (-η + C * ξ) * co) := by
    rw [hc]
    have e1 : si * x1 + co * y1 = dy := by rw [hx1, hy1]; linear_combination dy * hcs
    simp only
    rw [hcx', hcy']
    linear_combination e1 - si * (-hRx) + co * hSy - hdy
  have hon : ∀ {w : Pt ℝ} {a b : ℝ}, a ^ 2 + b ^ 2 = 1 → w.x = c.x + (R * a * co - S * b * si) →
      w.y = c.y + (R * a * si + S * b * co) → OnEllipse c R S φ w := by
    intro w a b hab h1 h2
    unfold OnEllipse
    have e1 : (w.x - c.x) * co + (w.y - c.y) * si = R * a := by
      rw [h1, h2]; linear_combination R * a * hcs
    have e2 : -(w.x - c.x) * si + (w.y - c.y) * co = S * b := by
      rw [h1, h2]; linear_combination S * b * hcs
    rw [← hco, ← hsi, e1, e2, mul_div_cancel_left₀ _ hR0, mul_div_cancel_left₀ _ hS0]
    exact hab
  have hu : (ξ - C * η) ^ 2 + (η + C * ξ) ^ 2 = 1 := by
    have : (ξ - C * η) ^ 2 + (η + C * ξ) ^ 2 = L + C ^ 2 * L := by rw [hL]; ring
    rw [this, hC2]; ring
  have hv : (-ξ - C * η) ^ 2 + (-η + C * ξ) ^ 2 = 1 := by
    have : (-ξ - C * η) ^ 2 + (-η + C * ξ) ^ 2 = L + C ^ 2 * L := by rw [hL]; ring
    rw [this, hC2]; ring
  have onp := hon hu hpx hpy
  have onq := hon hv hqx hqy
  refine ⟨k, C, L, ξ - C * η, η + C * ξ, -ξ - C * η, -η + C * ξ, c, ⟨k1, ⟨c, onp, onq⟩, ?_⟩, ?_, hu, hv, Lpos, ?_, ?_,
    ?_, ?_, ?_, ?_, onp, onq⟩
  · intro k' hk' hfit
    have hb := fits_bound hfit
    have hk0 : 0 < k' := by linarith
    rw [← hco, ← hsi, ← hdx, ← hdy, ← hx1, ← hy1] at hb
    have e : (x1 / (k' * r)) ^ 2 + (y1 / (k' * s)) ^ 2 = L0 / k' ^ 2 := by
      rw [hL0]; field_simp
    rw [e, div_le_one (by positivity)] at hb
    rw [hk]
    split_ifs with h
    · exact Real.sqrt_le_iff.mpr ⟨hk0.le, hb⟩
    · exact hk'
  · unfold svgParameterize
    rw [if_neg (by rintro (h | h | h); · rw [hpq] at h; exact absurd h (by simp)
                   · exact hr h
                   · exact hs h)]
    have er : (if L0 > 1 then r * √L0 else r) = R := by
      rw [hR, hk]; split_ifs <;> ring
    have es : (if L0 > 1 then s * √L0 else s) = S := by
      rw [hS, hk]; split_ifs <;> ring
    have hφ' : rot * π / 180 = φ := by rw [hφ]; rfl
    have hcyd : -C * S * x1 / R = cy := by rw [hcy]; field_simp
    simp only [hφ', ← hco, ← hsi, ← hdx, ← hdy, ← hx1, ← hy1, ← hL0, er, es, ← hC, ← hcx, hcyd, hux, huy, hvx, hvy, ← hc]
    rfl
  · rw [hL]; linear_combination hC2 + (-(1 : ℝ)) * (C ^ 2 + 1 - (C ^ 2 + 1)) * 0
  · rw [hL]; ring
  · intro h
    rw [hCval, if_pos h]
    exact neg_nonpos.mpr (Real.sqrt_nonneg _)
  · intro h
    rw [hCval, if_neg h]
    exact Real.sqrt_nonneg _
  · ext
    · exact hpx
    · exact hpy
  · ext
    · exact hqx
    · exact hqy

/-- C61: for different end points and non-zero radii there is a least factor, at least 1, that lets an ellipse with these radii
through both points; the arc built has the radii with this factor, its axes are turned by the rotation, and both end points
are on its ellipse. -/
theorem C61_parameters {p q : Pt ℝ} {r s : ℝ} (rot : ℝ) (large sweep : Bool) (hpq : p.eq q = false) (hr : r ≠ 0) (hs : s ≠ 0) :
    ∃ k, LeastScale r s (rad rot) p q k ∧
      OnEllipse (svgParameterize p r s rot large sweep q).center (k * r) (k * s) (rad rot) p ∧
      OnEllipse (svgParameterize p r s rot large sweep q).center (k * r) (k * s) (rad rot) q ∧
      rx (svgParameterize p r s rot large sweep q) = k * |r| ∧ ry (svgParameterize p r s rot large sweep q) = k * |s| ∧
      (svgParameterize p r s rot large sweep q).prx =
        ellipse (svgParameterize p r s rot large sweep q).center (k * r) (k * s) (rad rot) 0 ∧
      (svgParameterize p r s rot large sweep q).pry =
        ellipse (svgParameterize p r s rot large sweep q).center (k * r) (k * s) (rad rot) (π / 2) := by
  obtain ⟨k, C, L, ux, uy, vx, vy, c, hk, ha, -, -, -, -, -, -, -, -, -, h1, h2⟩ := svg_shape rot large sweep hpq hr hs
  have k0 : 0 < k := by linarith [hk.1]
  rw [ha]
  have hax := native_axes c (k * r) (k * s) rot (deltaDegrees ux uy vx vy sweep)
  refine ⟨k, hk, h1, h2, ?_, ?_, ?_, ?_⟩
  · rw [native_rx, abs_mul, abs_of_pos k0]
  · rw [native_ry, abs_mul, abs_of_pos k0]
  · rw [hax.1]
    ext <;> simp [ellipse, native]
  · rw [hax.2]
    ext <;> simp [ellipse, native]
    ring

/-- C78: an arc with positive radii is drawn as SVG says. -/
theorem C78_arc {p q : Pt ℝ} {r s : ℝ} (rot : ℝ) (large sweep : Bool) (hpq : p.eq q = false) (hr : 0 < r) (hs : 0 < s) :
    DrawsArc p q r s (rad rot) large sweep (point true p q (svgParameterize p r s rot large sweep q)) := by
  obtain ⟨k, C, L, ux, uy, vx, vy, c, hk, ha, hu, hv, hL, hdot, hcross, hC1, hC2, hp, hq, -, -⟩ :=
    svg_shape rot large sweep hpq hr.ne' hs.ne'
  have k0 : 0 < k := by linarith [hk.1]
  have hpi := pi_pos
  have R0 : 0 < k * r := by positivity
  have S0 : 0 < k * s := by positivity
  rw [ha]
  set w := deltaDegrees ux uy vx vy sweep with hw
  set a := native c (k * r) (k * s) rot w with hadef
  obtain ⟨d1, d2, d3, d4⟩ := delta_spec hu hv sweep
  rw [← hw] at d1 d2 d3 d4
  set Δ := rad w with hΔ
  have hsw : a.sweep = Δ := by rw [hadef, hΔ, ← ofDegrees_eq]; rfl
  have hrx : 0 < rx a := by rw [hadef, native_rx, abs_of_pos R0]; exact R0
  have hry : 0 < ry a := by rw [hadef, native_ry, abs_of_pos S0]; exact S0
  have hpt : ∀ t, pointAtT a t = ellipse c (k * r) (k * s) (rad rot) t := fun t => native_pointAtT c R0 S0 rot w t
  obtain ⟨t0, ht1, ht2⟩ := exists_param hu
  have hpe : p = pointAtT a t0 := by
    rw [hpt, hp]; simp only [ellipse, ht1, ht2]
  have hT := endT_pointAtT hrx hry t0
  rw [← hpe] at hT
  set t := endT a p with ht
  have hp' : ellipse c (k * r) (k * s) (rad rot) t = p := by
    rw [← hpt, pointAtT_congr a hT.1 hT.2, ← hpe]
  have hv1 : cos (t + Δ) = vx := by
    rw [cos_add, hT.1, hT.2, ht1, ht2, d1, d2]
    linear_combination vx * hu
  have hv2 : sin (t + Δ) = vy := by
    rw [sin_add, hT.1, hT.2, ht1, ht2, d1, d2]
    linear_combination vy * hu
  have hq' : ellipse c (k * r) (k * s) (rad rot) (t + Δ) = q := by
    rw [hq]; simp only [ellipse, hv1, hv2]
  have hpoint : ∀ u, point true p q a u = if u = 0 then p else if u = 1 then q else pointAtT a (t + Δ * u) := by
    intro u
    unfold point
    rw [hpq, hsw]
    simp [ht]
  have hcos : cos Δ ≠ 1 := by rw [d1, hdot]; intro h; linarith
  have hne : Δ ≠ 0 := fun h => hcos (by rw [h, cos_zero])
  have hne2 : Δ ≠ -(2 * π) := fun h => hcos (by rw [h, cos_neg, cos_two_pi])
  refine ⟨c, k, t, Δ, hk, ?_, ?_, ?_, ?_, ?_, ?_, ?_, ?_⟩
  · intro u _ _
    rw [hpoint]
    split_ifs with h0 h1
    · rw [h0, mul_zero, add_zero, hp']
    · rw [h1, mul_one, hq']
    · exact hpt _
  · rw [hpoint, if_pos rfl]
  · rw [hpoint, if_neg one_ne_zero, if_pos rfl]
  · intro h; exact lt_of_le_of_ne (d3 h).1 (Ne.symm hne)
  · intro h; exact (d4 h).2
  · cases hsweep : sweep
    · have := d4 hsweep
      rw [abs_of_neg this.2]
      have : -(2 * π) < Δ := lt_of_le_of_ne this.1 (Ne.symm hne2)
      linarith
    · have := d3 hsweep
      rw [abs_of_nonneg this.1]
      exact this.2
  · intro hl
    by_contra hlt
    push Not at hlt
    cases hsweep : sweep
    · have h4 := d4 hsweep
      rw [abs_of_neg h4.2] at hlt
      have hneg : sin Δ < 0 := sin_neg_of_neg_of_neg_pi_lt h4.2 (by linarith)
      rw [d2, hcross] at hneg
      have := hC2 (by rw [hl, hsweep]; simp)
      have : 0 ≤ 2 * C * L := by positivity
      linarith
    · have h3 := d3 hsweep
      rw [abs_of_nonneg h3.1] at hlt
      have hpos : 0 < sin Δ := sin_pos_of_pos_of_lt_pi (lt_of_le_of_ne h3.1 (Ne.symm hne)) hlt
      rw [d2, hcross] at hpos
      have hc := hC1 (by rw [hl, hsweep])
      nlinarith
  · intro hl
    by_contra hlt
    push Not at hlt
    cases hsweep : sweep
    · have h4 := d4 hsweep
      rw [abs_of_neg h4.2] at hlt
      have hgt : -(2 * π) < Δ := lt_of_le_of_ne h4.1 (Ne.symm hne2)
      have hpos : 0 < sin (Δ + 2 * π) := sin_pos_of_pos_of_lt_pi (by linarith) (by linarith)
      rw [sin_add_two_pi, d2, hcross] at hpos
      have hc := hC1 (by rw [hl, hsweep])
      nlinarith
    · have h3 := d3 hsweep
      rw [abs_of_nonneg h3.1] at hlt
      have hneg : sin (Δ - 2 * π) < 0 := sin_neg_of_neg_of_neg_pi_lt (by linarith [h3.2]) (by linarith)
      rw [sin_sub_two_pi, d2, hcross] at hneg
      have := hC2 (by rw [hl, hsweep]; simp)
      have : 0 ≤ 2 * C * L := by positivity
      linarith

/-- points and radii as the theorems ask for, with radii that are large enough and radii that are not -/
example : (⟨1, 0⟩ : Pt ℝ).eq ⟨0, 1⟩ = false ∧ Fits 1 1 (rad 0) ⟨1, 0⟩ ⟨0, 1⟩ ∧ ¬ Fits (1 / 2) (1 / 2) (rad 0) ⟨1, 0⟩ ⟨0, 1⟩ := by
  refine ⟨by norm_num [Pt.eq, err], ⟨⟨0, 0⟩, by norm_num [OnEllipse, rad], by norm_num [OnEllipse, rad]⟩, fun h => ?_⟩
  have := fits_bound h
  norm_num [rad] at this

/-- the sweep of a quarter turn -/
theorem delta_quarter : deltaDegrees 0 (-1) 1 0 true = 90 := by
  have hpi := pi_pos
  have e : π / 2 * 180 / π = 90 := by field_simp; norm_num
  norm_num [deltaDegrees, arccos_zero, e, Angle.pyMod]

/-- C78 is false for a negative radius, which SVG replaces by its absolute value: the arc from (1,0) to (0,1) around the origin is
drawn around (1,1), and not even towards its end. -/
theorem C78_negative_wrong : ¬ DrawsArc ⟨1, 0⟩ ⟨0, 1⟩ |(-1)| 1 (rad 0) false true
    (point true ⟨1, 0⟩ ⟨0, 1⟩ (svgParameterize ⟨1, 0⟩ (-1) 1 0 false true ⟨0, 1⟩)) := by
  have hpi := pi_pos
  have hpq : (⟨1, 0⟩ : Pt ℝ).eq ⟨0, 1⟩ = false := by norm_num [Pt.eq, err]
  have ha : svgParameterize ⟨1, 0⟩ (-1) 1 0 false true ⟨0, 1⟩ = native ⟨1, 1⟩ (-1) 1 0 90 := by
    unfold svgParameterize
    rw [if_neg (by rw [hpq]; norm_num)]
    rw [← delta_quarter]
    norm_num [centreFactor]
  rw [ha]
  set a := native ⟨1, 1⟩ (-1) 1 0 90 with hadef
  have hax := native_axes ⟨1, 1⟩ (-1) 1 0 90
  rw [← hadef] at hax
  have hc : a.center = ⟨1, 1⟩ := rfl
  have h0 : rad 0 = 0 := by unfold rad; ring
  have hx : a.prx = ⟨0, 1⟩ := by rw [hax.1, h0]; norm_num
  have hrx : rx a = 1 := by rw [hadef, native_rx]; norm_num
  have hry : ry a = 1 := by rw [hadef, native_ry]; norm_num
  have hw : a.sweep = π / 2 := by
    have : a.sweep = Angle.ofDegrees tau 90 := rfl
    rw [this, ofDegrees_eq]; unfold rad; ring
  have hcr : cos (rotation a) = -1 := by
    have := rx_cos a
    rw [hrx, hx, hc] at this
    linarith
  have hsr : sin (rotation a) = 0 := by
    have := rx_sin a
    rw [hrx, hx, hc] at this
    linarith
  have hpt : ∀ t, pointAtT a t = ⟨1 - cos t, 1 - sin t⟩ := by
    intro t
    simp only [pointAtT, hrx, hry, hcr, hsr, hc]
    congr 1 <;> ring
  have hs : (⟨1, 0⟩ : Pt ℝ) = pointAtT a (π / 2) := by rw [hpt, cos_pi_div_two, sin_pi_div_two]; norm_num
  have hT := endT_pointAtT (a := a) (by rw [hrx]; norm_num) (by rw [hry]; norm_num) (π / 2)
  rw [← hs] at hT
  have hhalf : point true ⟨1, 0⟩ ⟨0, 1⟩ a (1 / 2) = ⟨1 + √2 / 2, 1 - √2 / 2⟩ := by
    unfold point
    rw [hpq]
    have e : π / 2 + a.sweep * (1 / 2) = π / 4 + π / 2 := by rw [hw]; ring
    norm_num only [Bool.false_and, Bool.false_eq_true, if_false]
    rw [show (1 : ℝ) / 2 = 1 / 2 from rfl, pointAtT_add a hT, e, hpt, cos_add_pi_div_two, sin_add_pi_div_two, cos_pi_div_four,
      sin_pi_div_four]
    congr 1
    ring
  rintro ⟨c, k, t, Δ, ⟨hk1, hk2, hk3⟩, hf, hf0, hf1, hΔ, -, -, -, hlarge⟩
  have hfit : Fits (1 * |(-1 : ℝ)|) (1 * 1) (rad 0) ⟨1, 0⟩ ⟨0, 1⟩ :=
    ⟨⟨0, 0⟩, by norm_num [OnEllipse, h0], by norm_num [OnEllipse, h0]⟩
  have hk : k = 1 := le_antisymm (hk3 1 (le_refl _) hfit) hk1
  have hΔ0 := hΔ rfl
  have hΔpi := hlarge rfl
  rw [abs_of_pos hΔ0] at hΔpi
  have h1 := hf 0 (le_refl _) (by norm_num)
  have h2 := hf 1 (by norm_num) (le_refl _)
  have h3 := hf (1 / 2) (by norm_num) (by norm_num)
  rw [hf0] at h1
  rw [hf1] at h2
  rw [hhalf] at h3
  simp only [ellipse, hk, h0, cos_zero, sin_zero, Pt.mk.injEq, mul_zero, add_zero, mul_one, abs_neg, abs_one, one_mul, sub_zero,
    zero_add] at h1 h2 h3
  have hsin : 0 ≤ sin Δ := sin_nonneg_of_nonneg_of_le_pi hΔ0.le hΔpi
  have e1 := sin_sub (t + Δ) t
  rw [show t + Δ - t = Δ by ring] at e1
  have q1 := cos_sq_sin_sq t
  have q2 := cos_sq_sin_sq (t + Δ)
  have hcle := cos_le_one (t + Δ * (1 / 2))
  have hsq : 0 < √2 := by positivity
  have c1 : cos t = 1 - c.x := by linarith [h1.1]
  have c2 : sin t = -c.y := by linarith [h1.2]
  have c3 : cos (t + Δ) = -c.x := by linarith [h2.1]
  have c4 : sin (t + Δ) = 1 - c.y := by linarith [h2.2]
  rw [c1, c2] at q1
  rw [c3, c4] at q2
  rw [c1, c2, c3, c4] at e1
  have hxy : c.x = c.y := by linarith
  rw [← hxy] at q1 e1
  have : c.x = 0 ∨ c.x = 1 := by
    have : c.x * (c.x - 1) = 0 := by linarith
    rcases mul_eq_zero.mp this with h | h
    · left; exact h
    · right; linarith
  rcases this with h | h
  · rw [h] at h3
    linarith [h3.1]
  · rw [h] at e1
    linarith

end Svgio.Arc
