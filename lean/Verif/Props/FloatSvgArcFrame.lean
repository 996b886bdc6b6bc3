import Verif.Model.FloatSvgArc
import Verif.Lemmas.Scaled
import Verif.Props.FloatTurn
import Verif.Props.FloatArcFollow
import Verif.Props.ColorMeasureFloat

/-!
C163: arcs built from SVG parameters with floats, in the frame of their ellipse.
-/

namespace Svgio.Props

open Svgio.Flt Svgio.Scaled

namespace SvgArcFloat

theorem low_mul {x y : ℚ} {a b : ℕ} (hx : 1 / 2 ^ a ≤ x) (hy : 1 / 2 ^ b ≤ y) : 1 / 2 ^ (a + b) ≤ x * y := by
  rw [pow_add, ← one_div_mul_one_div]
  exact mul_le_mul hx hy (by positivity) (le_trans (by positivity) hx)

theorem low_div {x y : ℚ} {a b : ℕ} (hx : 1 / 2 ^ a ≤ x) (hy : y ≤ 2 ^ b) (hy0 : 0 < y) : 1 / 2 ^ (a + b) ≤ x / y := by
  rw [pow_add, ← one_div_mul_one_div, div_eq_mul_one_div x]
  exact mul_le_mul hx (one_div_le_one_div_of_le hy0 hy) (by positivity) (le_trans (by positivity) hx)

theorem low_le {x : ℚ} {a : ℕ} (b : ℕ) (hx : 1 / 2 ^ a ≤ x) (h : a ≤ b) : 1 / 2 ^ b ≤ x :=
  le_trans (one_div_le_one_div_of_le (by positivity) (pow_le_pow_right₀ (by norm_num) h)) hx

theorem low_pos {x : ℚ} {a : ℕ} (hx : 1 / 2 ^ a ≤ x) : 0 < x := lt_of_lt_of_le (by positivity) hx

theorem div_ok (F : FloatRounding) {x y : ℚ} (hy : 0 < y) : div F x y = .ok (F.fl (x / y)) := by
  rw [Flt.div, if_neg hy.ne']

/-- the size of an ellipse with radii `a` and `b` that passes the point -/
def rho (a b x y : ℚ) : ℚ := x * x / (a * a) + y * y / (b * b)

theorem rho_low {a b x y : ℚ} {i j : ℕ} (ha0 : 0 < a) (hb0 : 0 < b) (ha : a ≤ 2 ^ i) (hb : b ≤ 2 ^ i) (h : 1 / 2 ^ j ≤ |x| ∨ 1 / 2 ^ j ≤ |y|) :
    1 / 2 ^ (j + j + (i + i)) ≤ rho a b x y := by
  have sq : ∀ {a : ℚ}, 0 < a → a ≤ 2 ^ i → a * a ≤ 2 ^ (i + i) := fun h0 h => by
    rw [pow_add]; exact mul_le_mul h h h0.le (by positivity)
  have px : 0 ≤ x * x / (a * a) := div_nonneg (mul_self_nonneg _) (mul_self_nonneg _)
  have py : 0 ≤ y * y / (b * b) := div_nonneg (mul_self_nonneg _) (mul_self_nonneg _)
  unfold rho
  rcases h with h | h
  · have := low_div (low_mul h h) (sq ha0 ha) (mul_pos ha0 ha0)
    rw [abs_mul_abs_self] at this
    linarith
  · have := low_div (low_mul h h) (sq hb0 hb) (mul_pos hb0 hb0)
    rw [abs_mul_abs_self] at this
    linarith

/-- one quotient of the radius check -/
theorem quotient_near (F : FloatRounding) {a x ρ : ℚ} {i : ℕ} (ha0 : 1 / 2 ^ 64 ≤ a) (hx : x * x / (a * a) ≤ ρ)
    (hρ : 1 / 2 ^ i ≤ ρ) (hi : i ≤ 800) :
    div F (F.fl (x * x)) (F.fl (a * a)) = .ok (F.fl (F.fl (x * x) / F.fl (a * a))) ∧
      Nr ρ 13 (x * x / (a * a)) (F.fl (F.fl (x * x) / F.fl (a * a))) := by
  have a0 := low_pos ha0
  have aa := mul_pos a0 a0
  have aal := low_mul ha0 ha0
  have A : Nr (a * a) 3 (a * a) (F.fl (a * a)) := by
    have := (nr_self (le_of_eq (abs_of_pos aa))).round F le_rfl (by positivity) (low_le 1000 aal (by norm_num))
    simpa using this
  have P : Nr (ρ * (a * a)) 3 (x * x) (F.fl (x * x)) := by
    have := (nr_self (v := x * x) (Z := ρ * (a * a)) (by rw [abs_of_nonneg (mul_self_nonneg _)]; exact (div_le_iff₀ aa).1 hx)).round F le_rfl
      (by positivity) (low_le 1000 (low_mul hρ aal) (by omega))
    simpa using this
  obtain ⟨p, h⟩ := P.div aa A (by norm_num) (by norm_num) (by norm_num)
  rw [mul_div_cancel_right₀ _ aa.ne'] at h
  refine ⟨div_ok F p, ?_⟩
  have := h.round F (by norm_num) (by norm_num) (low_le 1000 hρ (by omega))
  norm_num at this
  exact this

/-- what is known of the radii and of the ends in the frame of the ellipse -/
structure Frame (r q x y : ℚ) : Prop where
  rl : 1 / 2 ^ 66 ≤ r
  ru : r ≤ 2 ^ 200
  ql : 1 / 2 ^ 66 ≤ q
  qu : q ≤ 2 ^ 200
  apart : 1 / 2 ^ 43 ≤ |x| ∨ 1 / 2 ^ 43 ≤ |y|
  inside : rho r q x y ≤ 1 + 100 / 2 ^ 53

/-- the radii: both are enlarged by the same factor, which is just enough -/
theorem radii_ok (F : FloatRounding) (R : FloatSqrt) {a b x y : ℚ} (ha0 : 1 / 2 ^ 64 ≤ a) (ha : a ≤ 2 ^ 64) (hb0 : 1 / 2 ^ 64 ≤ b)
    (hb : b ≤ 2 ^ 64) (hx : |x| ≤ 2 ^ 66) (hy : |y| ≤ 2 ^ 66) (h : 1 / 2 ^ 43 ≤ |x| ∨ 1 / 2 ^ 43 ≤ |y|) :
    ∃ r q s, svgRadii F R a b (F.fl (x * x)) (F.fl (y * y)) = .ok (r, q) ∧ 0 < s ∧
      |s ^ 2 - max 1 (rho a b x y)| ≤ 40 / 2 ^ 53 * max 1 (rho a b x y) ∧ Nr (a * s) 3 (a * s) r ∧ Nr (b * s) 3 (b * s) q ∧ Frame r q x y := by
  have pa := low_pos ha0
  have pb := low_pos hb0
  have hρ := rho_low pa pb ha hb h
  have px : 0 ≤ x * x / (a * a) := div_nonneg (mul_self_nonneg _) (mul_self_nonneg _)
  have py : 0 ≤ y * y / (b * b) := div_nonneg (mul_self_nonneg _) (mul_self_nonneg _)
  obtain ⟨e1, n1⟩ := quotient_near F (x := x) (ρ := rho a b x y) ha0 (by unfold rho; linarith) hρ (by norm_num)
  obtain ⟨e2, n2⟩ := quotient_near F (x := y) (ρ := rho a b x y) hb0 (by unfold rho; linarith) hρ (by norm_num)
  have ρ0 := low_pos hρ
  have n3 := (n1.add n2 (le_of_eq (abs_of_pos ρ0))).round F (by norm_num) (by norm_num) (low_le 1000 hρ (by norm_num))
  unfold svgRadii
  simp only [e1, e2, bind, Except.bind, pure, Except.pure]
  generalize F.fl (F.fl (F.fl (x * x) / F.fl (a * a)) + F.fl (F.fl (y * y) / F.fl (b * b))) = rc at n3 ⊢
  have rc1 : |rc - rho a b x y| ≤ 29 / 2 ^ 53 * rho a b x y := by
    have := n3.1
    rw [← rho] at this
    refine this.trans (le_of_eq ?_)
    ring
  have ρu : rho a b x y ≤ 2 ^ 262 := by
    have sqa := low_mul ha0 ha0
    have sqb := low_mul hb0 hb0
    have up : ∀ {x a : ℚ}, |x| ≤ 2 ^ 66 → 1 / 2 ^ (64 + 64) ≤ a → x * x / a ≤ 2 ^ 260 := by
      intro x a hx ha
      rw [div_le_iff₀ (low_pos ha), ← abs_mul_abs_self]
      calc |x| * |x| ≤ 2 ^ 66 * 2 ^ 66 := mul_le_mul hx hx (abs_nonneg _) (by positivity)
        _ = 2 ^ 260 * (1 / 2 ^ (64 + 64)) := by
          rw [show (2 : ℚ) ^ 260 = 2 ^ 132 * 2 ^ (64 + 64) by rw [← pow_add], mul_assoc, mul_one_div_cancel (by positivity), ← pow_add, mul_one]
        _ ≤ 2 ^ 260 * a := mul_le_mul_of_nonneg_left ha (by positivity)
    have := up hx sqa
    have := up hy sqb
    unfold rho
    rw [show (2 : ℚ) ^ 262 = 4 * 2 ^ 260 by rw [pow_add 2 260 2]; ring]
    have : (0 : ℚ) < 2 ^ 260 := by positivity
    generalize (2 : ℚ) ^ 260 = H at *
    linarith
  -- the rest for either case
  have fin : ∀ {r q s : ℚ}, 0 < s → |s ^ 2 - max 1 (rho a b x y)| ≤ 40 / 2 ^ 53 * max 1 (rho a b x y) → Nr (a * s) 3 (a * s) r →
      Nr (b * s) 3 (b * s) q → Frame r q x y := by
    intro r q s s0 hs hr hq
    generalize hm : max 1 (rho a b x y) = M at hs
    have M1 : 1 ≤ M := hm ▸ le_max_left _ _
    have Mρ : rho a b x y ≤ M := hm ▸ le_max_right _ _
    have Mu : M ≤ 2 ^ 262 := hm ▸ max_le (one_le_pow₀ (by norm_num)) ρu
    have hs' := abs_le.1 hs
    have slow : 1 / 2 ≤ s := by
      by_contra hc
      have : s ^ 2 ≤ 1 / 4 := by nlinarith
      norm_num at hs'
      linarith
    have sup : s ≤ 2 ^ 132 := by
      by_contra hc
      have h1 : (2 : ℚ) ^ 132 * 2 ^ 132 < s ^ 2 := by rw [sq]; exact mul_lt_mul'' (not_le.1 hc) (not_le.1 hc) (by positivity) (by positivity)
      rw [show (2 : ℚ) ^ 132 * 2 ^ 132 = 4 * 2 ^ 262 by rw [← pow_add, show 132 + 132 = 262 + 2 from rfl, pow_add 2 262 2]; ring] at h1
      generalize (2 : ℚ) ^ 262 = H at *
      norm_num at hs'
      linarith
    have bound : ∀ {a r : ℚ}, 1 / 2 ^ 64 ≤ a → a ≤ 2 ^ 64 → Nr (a * s) 3 (a * s) r →
        1 / 2 ^ 66 ≤ r ∧ r ≤ 2 ^ 200 ∧ a * a * s ^ 2 * (1 - 10 / 2 ^ 53) ≤ r * r := by
      intro a r ha0 ha hr
      have pa := low_pos ha0
      have as := mul_pos pa s0
      have e := abs_le.1 hr.1
      have l : a * s * (1 - 3 / 2 ^ 53) ≤ r := by linarith [show a * s * (1 - 3 / 2 ^ 53) = a * s - 3 * (1 / 2 ^ 53) * (a * s) by ring]
      have l2 : a * s / 2 ≤ r := by norm_num at l; linarith
      have up : r ≤ 2 * (a * s) := by have := e.2; norm_num at this; linarith
      refine ⟨?_, ?_, ?_⟩
      · have := low_mul ha0 (show 1 / 2 ^ 1 ≤ s by norm_num; linarith)
        refine le_trans ?_ l2
        rw [show 66 = 64 + 1 + 1 from rfl, pow_succ, ← div_div]
        exact div_le_div_of_nonneg_right this (by norm_num)
      · refine up.trans ?_
        have : a * s ≤ 2 ^ 64 * 2 ^ 132 := mul_le_mul ha sup s0.le (by positivity)
        norm_num at this ⊢
        linarith
      · have := mul_le_mul l l (mul_nonneg as.le (by norm_num)) (le_trans (div_pos as (by norm_num)).le l2)
        refine le_trans ?_ this
        have : 0 < a * s * (a * s) := mul_pos as as
        rw [show a * a * s ^ 2 * (1 - 10 / 2 ^ 53) = a * s * (a * s) * (1 - 10 / 2 ^ 53) by ring,
          show a * s * (1 - 3 / 2 ^ 53) * (a * s * (1 - 3 / 2 ^ 53)) = a * s * (a * s) * ((1 - 3 / 2 ^ 53) * (1 - 3 / 2 ^ 53)) by ring]
        exact mul_le_mul_of_nonneg_left (by norm_num) this.le
    obtain ⟨rl, ru, rr⟩ := bound ha0 ha hr
    obtain ⟨ql, qu, qq⟩ := bound hb0 hb hq
    refine ⟨rl, ru, ql, qu, h, ?_⟩
    have quot : ∀ {a r x : ℚ}, 0 < a → 0 < r → a * a * s ^ 2 * (1 - 10 / 2 ^ 53) ≤ r * r →
        x * x / (r * r) ≤ x * x / (a * a) / (s ^ 2 * (1 - 10 / 2 ^ 53)) := by
      intro a r x pa pr h
      have k : (0 : ℚ) < 1 - 10 / 2 ^ 53 := by norm_num
      rw [div_div, ← mul_assoc]
      exact div_le_div_of_nonneg_left (mul_self_nonneg _) (by positivity) h
    have k : (0 : ℚ) < s ^ 2 * (1 - 10 / 2 ^ 53) := mul_pos (by positivity) (by norm_num)
    have t := add_le_add (quot (x := x) pa (low_pos rl) rr) (quot (x := y) pb (low_pos ql) qq)
    rw [← add_div] at t
    refine le_trans t ?_
    rw [div_le_iff₀ k]
    refine le_trans Mρ ?_
    have : M * (1 - 40 / 2 ^ 53) ≤ s ^ 2 := by linarith
    calc M ≤ (1 + 100 / 2 ^ 53) * (M * (1 - 40 / 2 ^ 53) * (1 - 10 / 2 ^ 53)) := by norm_num; linarith
      _ ≤ (1 + 100 / 2 ^ 53) * (s ^ 2 * (1 - 10 / 2 ^ 53)) := by
        refine mul_le_mul_of_nonneg_left (mul_le_mul_of_nonneg_right this (by norm_num)) (by norm_num)
  by_cases c1 : rc > 1
  · rw [if_pos c1]
    have s0 := R.nonneg rc
    have se := R.err rc (by linarith)
    have hs : |R.sqrt rc ^ 2 - max 1 (rho a b x y)| ≤ 40 / 2 ^ 53 * max 1 (rho a b x y) := by
      have e1 := abs_le.1 rc1
      have e2 := abs_le.1 se
      rcases le_total 1 (rho a b x y) with g | g
      · rw [max_eq_right g, abs_le]
        norm_num at e1 e2 ⊢
        constructor <;> linarith
      · rw [max_eq_left g, abs_le]
        norm_num at e1 e2 ⊢
        constructor <;> linarith
    have sp : 0 < R.sqrt rc := by
      rcases lt_or_eq_of_le s0 with g | g
      · exact g
      · exfalso
        rw [← g] at hs
        have := le_max_left 1 (rho a b x y)
        have := (abs_le.1 hs).1
        norm_num at this
    have sl : 1 / 2 ^ 1 ≤ R.sqrt rc := by
      by_contra hc
      have : R.sqrt rc ^ 2 ≤ 1 / 4 := by norm_num at hc; nlinarith
      have := (abs_le.1 hs).1
      have := le_max_left 1 (rho a b x y)
      generalize max 1 (rho a b x y) = M at *
      norm_num at *
      linarith
    have rd : ∀ {a : ℚ}, 1 / 2 ^ 64 ≤ a → Nr (a * R.sqrt rc) 3 (a * R.sqrt rc) (F.fl (a * R.sqrt rc)) := by
      intro a ha
      have := (nr_self (le_of_eq (abs_of_pos (mul_pos (low_pos ha) sp)))).round F le_rfl (by norm_num) (low_le 1000 (low_mul ha sl) (by norm_num))
      simpa using this
    exact ⟨_, _, _, rfl, sp, hs, rd ha0, rd hb0, fin sp hs (rd ha0) (rd hb0)⟩
  · rw [if_neg c1]
    have hs : |(1 : ℚ) ^ 2 - max 1 (rho a b x y)| ≤ 40 / 2 ^ 53 * max 1 (rho a b x y) := by
      have e1 := abs_le.1 rc1
      rcases le_total 1 (rho a b x y) with g | g
      · rw [max_eq_right g, abs_le]
        norm_num at e1 c1 ⊢
        constructor <;> linarith
      · rw [max_eq_left g]; norm_num
    have rd : ∀ {a : ℚ}, 0 < a → Nr (a * 1) 3 (a * 1) a := by
      intro a ha
      rw [mul_one]
      exact (nr_self (le_of_eq (abs_of_pos ha))).mono (by norm_num) le_rfl le_rfl
    exact ⟨a, b, 1, rfl, one_pos, hs, rd pa, rd pb, fin one_pos hs (rd pa) (rd pb)⟩

theorem Frame.low {r q x y : ℚ} (f : Frame r q x y) : 1 / 2 ^ (43 + 43 + (200 + 200)) ≤ rho r q x y :=
  rho_low (low_pos f.rl) (low_pos f.ql) f.ru f.qu f.apart

theorem Frame.terms {r q x y : ℚ} (f : Frame r q x y) : x * x ≤ rho r q x y * (r * r) ∧ y * y ≤ rho r q x y * (q * q) := by
  have r0 := low_pos f.rl
  have q0 := low_pos f.ql
  have px : 0 ≤ x * x / (r * r) := div_nonneg (mul_self_nonneg _) (mul_self_nonneg _)
  have py : 0 ≤ y * y / (q * q) := div_nonneg (mul_self_nonneg _) (mul_self_nonneg _)
  constructor
  · rw [← div_le_iff₀ (mul_pos r0 r0)]; unfold rho; linarith
  · rw [← div_le_iff₀ (mul_pos q0 q0)]; unfold rho; linarith

theorem round_self (F : FloatRounding) {v Z : ℚ} {a : ℕ} (h : |v| ≤ Z) (hZ : 1 / 2 ^ a ≤ Z) (ha : a ≤ 1000) : Nr Z 3 v (F.fl v) := by
  have := (nr_self h).round F le_rfl (by norm_num) (low_le 1000 hZ ha)
  simpa using this

/-- the factor `c` puts the centre at the right distance -/
theorem centre_ok (F : FloatRounding) (R : FloatSqrt) {r q x y : ℚ} (f : Frame r q x y) (large sweep : Bool) :
    ∃ c, centreFactor F R r q (F.fl (x * x)) (F.fl (y * y)) large sweep = .ok c ∧ |rho r q x y * (1 + c ^ 2) - 1| ≤ 400 / 2 ^ 53 ∧
      (if large = sweep then c ≤ 0 else 0 ≤ c) := by
  have r0 := low_pos f.rl
  have q0 := low_pos f.ql
  have rr := mul_pos r0 r0
  have qq := mul_pos q0 q0
  have rrl := low_mul f.rl f.rl
  have qql := low_mul f.ql f.ql
  have hρ := f.low
  have ρ0 := low_pos hρ
  have hins := f.inside
  obtain ⟨tx, ty⟩ := f.terms
  have T0 : r * r * (y * y) + q * q * (x * x) = rho r q x y * (r * r * (q * q)) := by
    unfold rho; field_simp; ring
  generalize hρe : rho r q x y = ρ at *
  have N0 := mul_pos rr qq
  have Nl := low_mul rrl qql
  have TN0 := mul_pos ρ0 N0
  have TNl := low_mul hρ Nl
  have xx := mul_self_nonneg x
  have yy := mul_self_nonneg y
  have ρ2 : ρ ≤ 2 := by norm_num at hins; linarith
  have A := round_self F (le_of_eq (abs_of_pos rr)) rrl (by norm_num)
  have B := round_self F (le_of_eq (abs_of_pos qq)) qql (by norm_num)
  have P := round_self F (v := x * x) (by rw [abs_of_nonneg xx]; exact tx) (low_mul hρ rrl) (by norm_num)
  have Q := round_self F (v := y * y) (by rw [abs_of_nonneg yy]; exact ty) (low_mul hρ qql) (by norm_num)
  have t1 := A.mul Q (by norm_num) (by norm_num) (by norm_num)
  have t2 := B.mul P (by norm_num) (by norm_num) (by norm_num)
  have ab := A.mul B (by norm_num) (by norm_num) (by norm_num)
  rw [show r * r * (ρ * (q * q)) = ρ * (r * r * (q * q)) by ring] at t1
  rw [show q * q * (ρ * (r * r)) = ρ * (r * r * (q * q)) by ring] at t2
  have t1 := t1.round F (by norm_num) (by norm_num) (low_le 1000 TNl (by norm_num))
  have t2 := t2.round F (by norm_num) (by norm_num) (low_le 1000 TNl (by norm_num))
  have ab := ab.round F (by norm_num) (by norm_num) (low_le 1000 Nl (by norm_num))
  have den := (t1.add t2 (by rw [T0, abs_of_pos TN0])).round F (by norm_num) (by norm_num) (low_le 1000 TNl (by norm_num))
  rw [T0] at den
  have ry := mul_nonneg rr.le yy
  have qx := mul_nonneg qq.le xx
  unfold centreFactor
  simp only [bind, Except.bind, pure, Except.pure]
  generalize F.fl (F.fl (r * r) * F.fl (y * y)) = f1 at *
  generalize F.fl (F.fl (q * q) * F.fl (x * x)) = f2 at *
  generalize F.fl (F.fl (r * r) * F.fl (q * q)) = f3 at *
  generalize r * r * (q * q) = N at *
  have TN : ρ * N ≤ 2 * N := mul_le_mul_of_nonneg_right ρ2 N0.le
  have N2l : 1 / 2 ^ 1000 ≤ 2 * N := le_trans (low_le 1000 Nl (by norm_num)) (by linarith)
  have n1 := ((ab.mono (Z' := 2 * N) le_rfl (by linarith) (by norm_num)).sub (t1.mono le_rfl TN (by norm_num))
    (by rw [abs_le]; constructor <;> linarith)).round F (by norm_num) (by norm_num) N2l
  have n2 := (n1.sub (t2.mono le_rfl TN (by norm_num)) (by rw [abs_le]; constructor <;> linarith)).round F (by norm_num) (by norm_num) N2l
  obtain ⟨d0, w⟩ := n2.div TN0 den (by norm_num) (by norm_num) (by norm_num)
  rw [div_ok F d0]
  rw [show 2 * N / (ρ * N) = 2 / ρ by field_simp, show N - r * r * (y * y) - q * q * (x * x) = N - ρ * N by linarith,
    show (N - ρ * N) / (ρ * N) = (1 - ρ) / ρ by field_simp] at w
  have w := (w.round F (by norm_num) (by norm_num) (by
    refine le_trans (b := 1) ?_ ?_
    · rw [div_le_one (by positivity)]; exact one_le_pow₀ (by norm_num)
    · rw [le_div_iff₀ ρ0]; linarith)).abs
  generalize F.fl (F.fl (F.fl (f3 - f1) - f2) / F.fl (f1 + f2)) = w0 at *
  have se := R.err |w0| (abs_nonneg _)
  have s0 := R.nonneg |w0|
  refine ⟨if large = sweep then -R.sqrt |w0| else R.sqrt |w0|, rfl, ?_, ?_⟩
  · have : (if large = sweep then -R.sqrt |w0| else R.sqrt |w0|) ^ 2 = R.sqrt |w0| ^ 2 := by split_ifs <;> ring
    rw [this]
    generalize R.sqrt |w0| ^ 2 = c2 at *
    have h1 := w.1
    have h2 := w.2
    rw [abs_div, abs_of_pos ρ0] at h1
    have hw : |w0| * ρ ≤ 3 := by
      have hb := (abs_le.1 h1).2
      have h3 : |1 - ρ| / ρ ≤ 2 / ρ := by
        refine div_le_div_of_nonneg_right ?_ ρ0.le
        rw [abs_le]; constructor <;> linarith
      rw [← le_div_iff₀ ρ0, show 3 / ρ = 2 / ρ + 1 / 2 * (2 / ρ) by ring]
      have hp : (0 : ℚ) < 2 / ρ := by positivity
      generalize 2 / ρ = H at *
      norm_num at hb
      linarith
    have g1 : |(|w0| * ρ - |1 - ρ|)| ≤ 172 / 2 ^ 53 := by
      have := mul_le_mul_of_nonneg_right h1 ρ0.le
      rw [← abs_of_pos ρ0, ← abs_mul, abs_of_pos ρ0, sub_mul, div_mul_cancel₀ _ ρ0.ne'] at this
      refine this.trans (le_of_eq ?_)
      field_simp
      norm_num
    have g2 : |c2 * ρ - |w0| * ρ| ≤ 12 / 2 ^ 53 := by
      rw [← sub_mul, abs_mul, abs_of_pos ρ0]
      have := mul_le_mul_of_nonneg_right se ρ0.le
      refine this.trans ?_
      rw [div_mul_eq_mul_div]
      norm_num
      linarith
    have g3 : |ρ + |1 - ρ| - 1| ≤ 200 / 2 ^ 53 := by
      rcases le_total ρ 1 with g | g
      · rw [abs_of_nonneg (show 0 ≤ 1 - ρ by linarith)]; norm_num
      · rw [abs_of_nonpos (show 1 - ρ ≤ 0 by linarith), abs_of_nonneg (by linarith)]
        norm_num at hins ⊢; linarith
    rw [show ρ * (1 + c2) - 1 = (c2 * ρ - |w0| * ρ) + (|w0| * ρ - |1 - ρ|) + (ρ + |1 - ρ| - 1) by ring]
    refine (abs_add_le _ _).trans ((add_le_add_left (abs_add_le _ _) _).trans ?_)
    norm_num at g1 g2 g3 ⊢
    linarith
  · split_ifs
    · linarith
    · exact s0

/-- one coordinate of the centre in the frame of the ellipse -/
theorem cx_ok (F : FloatRounding) {r q y c L : ℚ} (rl : 1 / 2 ^ 66 ≤ r) (ql : 1 / 2 ^ 66 ≤ q) (qu : q ≤ 2 ^ 200) (Ll : 1 / 2 ^ 243 ≤ L)
    (hy : |y| ≤ L * q) (hL : (|c| + 1) * L ≤ 3) :
    div F (F.fl (F.fl (c * r) * y)) q = .ok (F.fl (F.fl (F.fl (c * r) * y) / q)) ∧
      Nr (3 * r) 9 (c * r * y / q) (F.fl (F.fl (F.fl (c * r) * y) / q)) := by
  have r0 := low_pos rl
  have q0 := low_pos ql
  have L0 := low_pos Ll
  refine ⟨div_ok F q0, ?_⟩
  have cl : 1 / 2 ^ 0 ≤ |c| + 1 := by have := abs_nonneg c; norm_num
  have n1 := round_self F (v := c * r) (Z := (|c| + 1) * r) (by
    rw [abs_mul, abs_of_pos r0]; exact mul_le_mul_of_nonneg_right (by linarith) r0.le) (low_mul cl rl) (by norm_num)
  have n2 := (n1.mul_exact hy (by norm_num)).round F (by norm_num) (by norm_num)
    (low_le 1000 (low_mul (low_mul cl rl) (low_mul Ll ql)) (by norm_num))
  have n3 := n2.div_exact q0
  have e : (|c| + 1) * r * (L * q) / q = (|c| + 1) * L * r := by field_simp
  rw [e] at n3
  have n4 := n3.mono (k' := 6) (Z' := 3 * r) (by norm_num) (mul_le_mul_of_nonneg_right hL r0.le) (by norm_num)
  have := n4.round F (by norm_num) (by norm_num) (le_trans (low_le 1000 rl (by norm_num)) (by linarith))
  norm_num at this
  exact this

/-- one coordinate of an end, seen from the centre -/
theorem ux_ok (F : FloatRounding) {r x w cx : ℚ} (rl : 1 / 2 ^ 66 ≤ r) (hx : |x| ≤ 3 / 2 * r) (h : Nr (3 * r) 9 w cx) :
    div F (F.fl (x - cx)) r = .ok (F.fl (F.fl (x - cx) / r)) ∧ Nr 5 9 ((x - w) / r) ((x - cx) / r) ∧
      Nr 5 15 ((x - w) / r) (F.fl (F.fl (x - cx) / r)) := by
  have r0 := low_pos rl
  have hw := abs_le.1 h.2
  have hx' := abs_le.1 hx
  have n1 := (nr_self (v := x) (Z := 5 * r) (by linarith)).sub (h.mono le_rfl (by linarith) (by norm_num))
    (by rw [abs_le]; constructor <;> linarith)
  have n2 := n1.round F (by norm_num) (by norm_num) (le_trans (low_le 1000 rl (by norm_num)) (by linarith))
  have e : 5 * r / r = 5 := by field_simp
  have n3 := n2.div_exact r0
  have n1 := n1.div_exact r0
  rw [e] at n3 n1
  have n4 := n3.round F (by norm_num) (by norm_num) (by
    refine le_trans (b := 1) ?_ (by norm_num)
    rw [div_le_one (by positivity)]; exact one_le_pow₀ (by norm_num))
  norm_num at n4 n1
  exact ⟨div_ok F r0, n1, n4⟩

theorem Frame.sizes {r q x y c : ℚ} (f : Frame r q x y) (hc : |rho r q x y * (1 + c ^ 2) - 1| ≤ 400 / 2 ^ 53) :
    ∃ L, 1 / 2 ^ 243 ≤ L ∧ |x| ≤ L * r ∧ |y| ≤ L * q ∧ L ≤ 3 / 2 ∧ (|c| + 1) * L ≤ 3 := by
  have r0 := low_pos f.rl
  have q0 := low_pos f.ql
  have hx : 0 ≤ |x| / r := div_nonneg (abs_nonneg _) r0.le
  have hy : 0 ≤ |y| / q := div_nonneg (abs_nonneg _) q0.le
  have hρ : rho r q x y = (|x| / r) ^ 2 + (|y| / q) ^ 2 := by
    unfold rho
    rw [div_pow, div_pow, sq_abs, sq_abs, sq, sq, sq, sq]
  have hins := f.inside
  have hl : (|x| / r + |y| / q) ^ 2 ≤ 2 * rho r q x y := by
    rw [hρ]
    nlinarith [sq_nonneg (|x| / r - |y| / q)]
  have ρ0 := low_pos f.low
  have hL : |x| / r + |y| / q ≤ 3 / 2 := by
    by_contra hn
    have : (3 / 2 : ℚ) ^ 2 < (|x| / r + |y| / q) ^ 2 := pow_lt_pow_left₀ (not_le.1 hn) (by norm_num) (by norm_num)
    norm_num at this hins
    linarith
  refine ⟨|x| / r + |y| / q, ?_, ?_, ?_, hL, ?_⟩
  · rcases f.apart with h | h
    · have := low_div h f.ru r0
      linarith
    · have := low_div h f.qu q0
      linarith
  · rw [← div_le_iff₀ r0]; linarith
  · rw [← div_le_iff₀ q0]; linarith
  · have : |c| * (|x| / r + |y| / q) ≤ 3 / 2 := by
      by_contra hn
      have h1 : (3 / 2 : ℚ) ^ 2 < (|c| * (|x| / r + |y| / q)) ^ 2 := pow_lt_pow_left₀ (not_le.1 hn) (by norm_num) (by norm_num)
      rw [mul_pow, sq_abs] at h1
      have h2 := mul_le_mul_of_nonneg_left hl (sq_nonneg c)
      have h3 := (abs_le.1 hc).2
      generalize (|x| / r + |y| / q) ^ 2 = M at *
      generalize rho r q x y = ρ at *
      norm_num at h1 h3
      linarith
    linarith

/-- the ends seen from the centre, in the frame of the ellipse -/
structure Seen (F : FloatRounding) (r q x y c cx cy : ℚ) : Prop where
  ecx : div F (F.fl (F.fl (c * r) * y)) q = .ok cx
  ecy : div F (F.fl (F.fl (-c * q) * x)) r = .ok cy
  cx3 : |cx| ≤ 4 * r
  cy3 : |cy| ≤ 4 * q
  eux : div F (F.fl (x - cx)) r = .ok (F.fl (F.fl (x - cx) / r))
  euy : div F (F.fl (y - cy)) q = .ok (F.fl (F.fl (y - cy) / q))
  evx : div F (F.fl (-x - cx)) r = .ok (F.fl (F.fl (-x - cx) / r))
  evy : div F (F.fl (-y - cy)) q = .ok (F.fl (F.fl (-y - cy) / q))
  ux : Nr 5 9 (x / r - c * (y / q)) ((x - cx) / r) ∧ Nr 5 15 (x / r - c * (y / q)) (F.fl (F.fl (x - cx) / r))
  uy : Nr 5 9 (y / q + c * (x / r)) ((y - cy) / q) ∧ Nr 5 15 (y / q + c * (x / r)) (F.fl (F.fl (y - cy) / q))
  vx : Nr 5 9 (-(x / r) - c * (y / q)) ((-x - cx) / r) ∧ Nr 5 15 (-(x / r) - c * (y / q)) (F.fl (F.fl (-x - cx) / r))
  vy : Nr 5 9 (-(y / q) + c * (x / r)) ((-y - cy) / q) ∧ Nr 5 15 (-(y / q) + c * (x / r)) (F.fl (F.fl (-y - cy) / q))

theorem seen_ok (F : FloatRounding) {r q x y c : ℚ} (f : Frame r q x y) (hc : |rho r q x y * (1 + c ^ 2) - 1| ≤ 400 / 2 ^ 53) :
    ∃ cx cy, Seen F r q x y c cx cy := by
  obtain ⟨L, Ll, hx, hy, hL, hcL⟩ := f.sizes hc
  have r0 := low_pos f.rl
  have q0 := low_pos f.ql
  obtain ⟨e1, n1⟩ := cx_ok F (c := c) f.rl f.ql f.qu Ll hy hcL
  obtain ⟨e2, n2⟩ := cx_ok F (c := -c) f.ql f.rl f.ru Ll hx (by rwa [abs_neg])
  have x3 : |x| ≤ 3 / 2 * r := hx.trans (mul_le_mul_of_nonneg_right hL r0.le)
  have y3 : |y| ≤ 3 / 2 * q := hy.trans (mul_le_mul_of_nonneg_right hL q0.le)
  have size : ∀ {r w cx : ℚ}, 0 < r → Nr (3 * r) 9 w cx → |cx| ≤ 4 * r := by
    intro r w cx r0 h
    have h1 := abs_le.1 h.1
    have h2 := abs_le.1 h.2
    norm_num at h1
    rw [abs_le]
    constructor <;> linarith
  obtain ⟨a1, b1⟩ := ux_ok F f.rl x3 n1
  obtain ⟨a2, b2⟩ := ux_ok F f.ql y3 n2
  obtain ⟨a3, b3⟩ := ux_ok F f.rl (x := -x) (by rwa [abs_neg]) n1
  obtain ⟨a4, b4⟩ := ux_ok F f.ql (x := -y) (by rwa [abs_neg]) n2
  rw [show (x - c * r * y / q) / r = x / r - c * (y / q) by field_simp] at b1
  rw [show (y - -c * q * x / r) / q = y / q + c * (x / r) by field_simp; ring] at b2
  rw [show (-x - c * r * y / q) / r = -(x / r) - c * (y / q) by field_simp] at b3
  rw [show (-y - -c * q * x / r) / q = -(y / q) + c * (x / r) by field_simp; ring] at b4
  exact ⟨_, _, e1, e2, size r0 n1, size q0 n2, a1, a2, a3, a4, b1, b2, b3, b4⟩

/-- the lengths, the product and the determinant of the two directions -/
theorem dot_ok (F : FloatRounding) {X Y c ux uy vx vy : ℚ} (hK : |(X * X + Y * Y) * (1 + c ^ 2) - 1| ≤ 400 / 2 ^ 53)
    (hux : Nr 5 15 (X - c * Y) ux) (huy : Nr 5 15 (Y + c * X) uy) (hvx : Nr 5 15 (-X - c * Y) vx) (hvy : Nr 5 15 (-Y + c * X) vy) :
    |F.fl (F.fl (F.fl (ux * ux) + F.fl (uy * uy)) * F.fl (F.fl (vx * vx) + F.fl (vy * vy))) - 1| ≤ 100000 / 2 ^ 53 ∧
      |F.fl (F.fl (ux * vx) + F.fl (uy * vy)) - (X * X + Y * Y) * (c ^ 2 - 1)| ≤ 1775 / 2 ^ 53 ∧
      |F.fl (F.fl (ux * vy) - F.fl (uy * vx)) - 2 * c * (X * X + Y * Y)| ≤ 1775 / 2 ^ 53 := by
  have big : ∀ {z : ℚ}, 1 ≤ z → (1 : ℚ) / 2 ^ 1000 ≤ z := fun h => by
    refine le_trans ?_ h
    rw [div_le_one (by positivity)]; exact one_le_pow₀ (by norm_num)
  have prod : ∀ {v v' x x' : ℚ}, Nr 5 15 v x → Nr 5 15 v' x' → Nr 25 34 (v * v') (F.fl (x * x')) := by
    intro v v' x x' h h'
    have := (h.mul h' (by norm_num) (by norm_num) (by norm_num)).round F (by norm_num) (by norm_num) (big (by norm_num))
    norm_num at this
    exact this
  have hK' := abs_le.1 hK
  have ρ0 : 0 ≤ X * X + Y * Y := add_nonneg (mul_self_nonneg _) (mul_self_nonneg _)
  have c2 : 0 ≤ (X * X + Y * Y) * c ^ 2 := mul_nonneg ρ0 (sq_nonneg _)
  have K2 : (X * X + Y * Y) * (1 + c ^ 2) ≤ 2 := by norm_num at hK' ⊢; linarith
  have cc : |2 * c * (X * X + Y * Y)| ≤ 2 := by
    rw [abs_le]
    constructor
    · nlinarith [mul_nonneg ρ0 (sq_nonneg (1 + c))]
    · nlinarith [mul_nonneg ρ0 (sq_nonneg (1 - c))]
  have sum : ∀ {a b x y : ℚ}, Nr 25 34 a x → Nr 25 34 b y → |a + b| ≤ 25 → Nr 25 71 (a + b) (F.fl (x + y)) := by
    intro a b x y h h' hs
    have := (h.add h' hs).round F (by norm_num) (by norm_num) (big (by norm_num))
    norm_num at this
    exact this
  have n1 := sum (prod hux hux) (prod huy huy) (by
    rw [show (X - c * Y) * (X - c * Y) + (Y + c * X) * (Y + c * X) = (X * X + Y * Y) * (1 + c ^ 2) by ring, abs_le]
    constructor <;> linarith)
  have n2 := sum (prod hvx hvx) (prod hvy hvy) (by
    rw [show (-X - c * Y) * (-X - c * Y) + (-Y + c * X) * (-Y + c * X) = (X * X + Y * Y) * (1 + c ^ 2) by ring, abs_le]
    constructor <;> linarith)
  have dt := sum (prod hux hvx) (prod huy hvy) (by
    rw [show (X - c * Y) * (-X - c * Y) + (Y + c * X) * (-Y + c * X) = (X * X + Y * Y) * (c ^ 2 - 1) by ring, abs_le]
    constructor <;> linarith)
  have cr := sum (prod hux hvy) (prod huy hvx).neg (by
    rw [show (X - c * Y) * (-Y + c * X) + -((Y + c * X) * (-X - c * Y)) = 2 * c * (X * X + Y * Y) by ring]
    linarith)
  rw [show (X - c * Y) * (X - c * Y) + (Y + c * X) * (Y + c * X) = (X * X + Y * Y) * (1 + c ^ 2) by ring] at n1
  rw [show (-X - c * Y) * (-X - c * Y) + (-Y + c * X) * (-Y + c * X) = (X * X + Y * Y) * (1 + c ^ 2) by ring] at n2
  rw [show (X - c * Y) * (-X - c * Y) + (Y + c * X) * (-Y + c * X) = (X * X + Y * Y) * (c ^ 2 - 1) by ring] at dt
  rw [show (X - c * Y) * (-Y + c * X) + -((Y + c * X) * (-X - c * Y)) = 2 * c * (X * X + Y * Y) by ring, ← sub_eq_add_neg] at cr
  have nn := (n1.mul n2 (by norm_num) (by norm_num) (by norm_num)).round F (by norm_num) (by norm_num) (big (by norm_num))
  refine ⟨?_, dt.1.trans (by norm_num), cr.1.trans (by norm_num)⟩
  have h1 := nn.1
  generalize (X * X + Y * Y) * (1 + c ^ 2) = K at *
  have h2 : |K * K - 1| ≤ 1000 / 2 ^ 53 := by
    rw [show K * K - 1 = (K - 1) * (K + 1) by ring, abs_mul]
    have : |K + 1| ≤ 2.5 := by norm_num at hK' ⊢; rw [abs_le]; constructor <;> linarith
    refine (mul_le_mul hK this (abs_nonneg _) (by norm_num)).trans (by norm_num)
  have := abs_sub_le (F.fl (F.fl (F.fl (ux * ux) + F.fl (uy * uy)) * F.fl (F.fl (vx * vx) + F.fl (vy * vy)))) (K * K) 1
  norm_num at h1 h2 ⊢
  linarith

/-- the cosine of the angle between the two directions -/
theorem cos_ok (F : FloatRounding) {p n m t : ℚ} (hm : |m - 1| ≤ 100000 / 2 ^ 53) (n0 : 0 ≤ n) (hn : |n ^ 2 - m| ≤ m / 2 ^ 51)
    (hp : |p - t| ≤ 1775 / 2 ^ 53) (ht : |t| ≤ 2) : 0 < n ∧ |F.fl (p / n) - t| ≤ 230000 / 2 ^ 53 := by
  have m' := abs_le.1 hm
  have n' := abs_le.1 hn
  have p' := abs_le.1 hp
  have t' := abs_le.1 ht
  have h1 : |n - 1| ≤ 100010 / 2 ^ 53 := by
    have : |n - 1| ≤ |n - 1| * (n + 1) := le_mul_of_one_le_right (abs_nonneg _) (by linarith)
    rw [← abs_of_nonneg (show 0 ≤ n + 1 by linarith), ← abs_mul, show (n - 1) * (n + 1) = n ^ 2 - 1 by ring] at this
    refine this.trans ?_
    norm_num at m' n' ⊢
    rw [abs_le]
    constructor <;> linarith
  have h1' := abs_le.1 h1
  have np : 9 / 10 ≤ n := by norm_num at h1'; linarith
  have np0 : 0 < n := by linarith
  refine ⟨np0, ?_⟩
  have h2 : |p / n - t| ≤ 225000 / 2 ^ 53 := by
    rw [show p / n - t = (p - t * n) / n by field_simp, abs_div, abs_of_pos np0, div_le_iff₀ np0]
    have : |p - t * n| ≤ 1775 / 2 ^ 53 + 2 * (100010 / 2 ^ 53) := by
      rw [show p - t * n = (p - t) - t * (n - 1) by ring]
      refine (abs_sub _ _).trans (add_le_add hp ?_)
      rw [abs_mul]
      exact mul_le_mul ht h1 (abs_nonneg _) (by norm_num)
    refine this.trans ?_
    norm_num
    linarith
  have h3 : |p / n| ≤ 3 := by
    have := abs_le.1 h2
    norm_num at this
    rw [abs_le]; constructor <;> linarith
  have h4 : |F.fl (p / n) - p / n| ≤ 10 / 2 ^ 53 := by
    refine (F.err _).trans ?_
    have : (1 : ℚ) / 2 ^ 1074 ≤ 1 / 2 ^ 53 := one_div_le_one_div_of_le (by positivity) (pow_le_pow_right₀ (by norm_num) (by norm_num))
    have : |p / n| / 2 ^ 53 ≤ 3 / 2 ^ 53 := div_le_div_of_nonneg_right h3 (by positivity)
    refine (add_le_add this ‹(1 : ℚ) / 2 ^ 1074 ≤ 1 / 2 ^ 53›).trans (by norm_num)
  refine (abs_sub_le _ (p / n) _).trans ?_
  norm_num at h2 h4 ⊢
  linarith

theorem mod_small {d : ℚ} (h0 : 0 ≤ d) (h : d < 360) : Angle.pyMod d 360 = d := by
  unfold Angle.pyMod
  rw [Int.floor_eq_zero_iff.2 ⟨by positivity, by rw [div_lt_one (by norm_num)]; exact h⟩]
  simp

theorem round_int (n : ℤ) (h : |n| ≤ 2 ^ 53) : roundDouble n = n := doubles.exact n h

/-- the remainder modulo a turn -/
theorem mod_ok {d : ℚ} (h0 : 0 ≤ d) (h : d ≤ 181) (neg : Prop) [Decidable neg] :
    0 ≤ pyMod doubles (if neg then -d else d) 360 ∧ pyMod doubles (if neg then -d else d) 360 ≤ 360 ∧
      (¬neg → pyMod doubles (if neg then -d else d) 360 = d) ∧
      (neg → d ≠ 0 → |pyMod doubles (if neg then -d else d) 360 - (360 - d)| ≤ 1 / 2 ^ 40) ∧
      pyMod doubles (if neg then -d else d) 360 ≤ max d (360 - d + 1 / 2 ^ 40) := by
  have hs := mod_small h0 (by linarith)
  have r360 : roundDouble 360 = 360 := by have := round_int 360 (by norm_num); simpa using this
  by_cases hn : neg
  · simp only [hn, if_true, not_true, false_implies, true_implies, true_and]
    by_cases hd : d = 0
    · subst hd
      have : pyMod doubles (-0) 360 = 0 := by
        unfold pyMod
        rw [if_pos (by norm_num)]
        rw [neg_zero]; exact hs
      rw [this]
      norm_num
    · have dp : 0 < d := lt_of_le_of_ne h0 (Ne.symm hd)
      have : pyMod doubles (-d) 360 = doubles.fl (360 - d) := by
        unfold pyMod
        rw [if_neg (by linarith), neg_neg, hs]
        simp only [if_neg hd]
      rw [this]
      have e : |doubles.fl (360 - d) - (360 - d)| ≤ 1 / 2 ^ 40 := by
        refine (doubles.err _).trans ?_
        have : (1 : ℚ) / 2 ^ 1074 ≤ 1 / 2 ^ 53 := one_div_le_one_div_of_le (by positivity) (pow_le_pow_right₀ (by norm_num) (by norm_num))
        rw [abs_of_nonneg (by linarith)]
        generalize (1 : ℚ) / 2 ^ 1074 = η at *
        norm_num at this ⊢
        linarith
      refine ⟨roundDouble_nonneg (by linarith), ?_, fun _ => e, ?_⟩
      · have := roundDouble_mono (show 360 - d ≤ 360 by linarith)
        rwa [r360] at this
      · refine le_trans ?_ (le_max_right _ _)
        have := (abs_le.1 e).2
        linarith
  · simp only [hn, if_false, not_false_iff, true_implies, false_implies, true_and]
    have : pyMod doubles d 360 = d := by
      unfold pyMod
      rw [if_pos h0, hs]
    rw [this]
    exact ⟨h0, by linarith, rfl, le_max_left _ _⟩

theorem deg_factor : (57295779513082 : ℚ) / 10 ^ 12 ≤ doubles.fl (180 / doubles.fl (tau / 2)) ∧
    doubles.fl (180 / doubles.fl (tau / 2)) ≤ 57295779513083 / 10 ^ 12 := by
  rw [tau_half]
  have h := abs_le.1 (doubles.err (180 / (tau / 2)))
  have : (1 : ℚ) / 2 ^ 1074 ≤ 1 / 2 ^ 53 := one_div_le_one_div_of_le (by positivity) (pow_le_pow_right₀ (by norm_num) (by norm_num))
  generalize doubles.fl (180 / (tau / 2)) = k at *
  generalize (1 : ℚ) / 2 ^ 1074 = η at *
  rw [abs_of_nonneg (by norm_num [tau])] at h
  norm_num [tau] at h this ⊢
  constructor <;> linarith

/-- the angle in degrees -/
theorem degrees_ok (A : FloatAcos) {d : ℚ} (h1 : -1 ≤ d) (h2 : d ≤ 1) :
    0 ≤ toDegrees doubles (A.acos d) ∧ toDegrees doubles (A.acos d) ≤ 180 + 1 / 2 ^ 30 ∧
      (d ≤ -1 + 1 / 2 ^ 35 → 180 - 1 / 2 ^ 10 ≤ toDegrees doubles (A.acos d)) ∧ (d ≤ 1 - 1 / 2 ^ 31 → 0 < toDegrees doubles (A.acos d)) := by
  have a0 := A.nonneg d
  have ae := abs_le.1 (A.err d h1 h2)
  have ap := Real.arccos_le_pi (d : ℝ)
  have p1 := Real.pi_gt_d20
  have p2 := Real.pi_lt_d20
  obtain ⟨k1, k2⟩ := deg_factor
  unfold toDegrees
  generalize doubles.fl (180 / doubles.fl (tau / 2)) = k at *
  have au : A.acos d ≤ 314159265358980 / 10 ^ 14 := by
    rw [← Rat.cast_le (K := ℝ)]
    push_cast
    norm_num at *
    linarith
  have h := abs_le.1 (doubles.err (A.acos d * k))
  have r0 : 0 ≤ doubles.fl (A.acos d * k) := roundDouble_nonneg (mul_nonneg a0 (by linarith))
  have ht : (1 : ℚ) / 2 ^ 1074 ≤ 1 / 2 ^ 53 := one_div_le_one_div_of_le (by positivity) (pow_le_pow_right₀ (by norm_num) (by norm_num))
  have m1 : A.acos d * (57295779513082 / 10 ^ 12) ≤ A.acos d * k := mul_le_mul_of_nonneg_left k1 a0
  have m2 : A.acos d * k ≤ A.acos d * (57295779513083 / 10 ^ 12) := mul_le_mul_of_nonneg_left k2 a0
  rw [abs_of_nonneg (mul_nonneg a0 (by linarith))] at h
  generalize (1 : ℚ) / 2 ^ 1074 = η at *
  generalize doubles.fl (A.acos d * k) = g at *
  generalize A.acos d * k = w at *
  refine ⟨r0, ?_, ?_, ?_⟩
  · norm_num at h ht m1 m2 au ⊢
    linarith
  · intro hd
    have hd' : (d : ℝ) ≤ -1 + 1 / 2 ^ 35 := by
      have := (Rat.cast_le (K := ℝ)).2 hd
      push_cast at this
      exact this
    have hc : Real.pi - 1 / 2 ^ 16 ≤ Real.arccos d := by
      rw [← Real.arccos_cos (x := Real.pi - 1 / 2 ^ 16) (by norm_num at *; linarith) (by norm_num)]
      refine Real.arccos_le_arccos ?_
      rw [Real.cos_pi_sub]
      have hq := Real.cos_le_one_sub_mul_cos_sq (x := 1 / 2 ^ 16) (by rw [abs_of_pos (by positivity)]; norm_num at *; linarith)
      have : (1 : ℝ) / 5 ≤ 2 / Real.pi ^ 2 := by
        rw [div_le_div_iff₀ (by norm_num) (by positivity)]
        nlinarith
      norm_num at hq hd' ⊢
      nlinarith
    have al : 314157739 / 10 ^ 8 ≤ A.acos d := by
      rw [← Rat.cast_le (K := ℝ)]
      push_cast
      norm_num at *
      linarith
    norm_num at h ht m1 m2 al ⊢
    linarith
  · intro hd
    have hd' : (d : ℝ) ≤ 1 - 1 / 2 ^ 31 := by
      have := (Rat.cast_le (K := ℝ)).2 hd
      push_cast at this
      exact this
    have hc : 1 / 2 ^ 16 ≤ Real.arccos d := by
      rw [← Real.arccos_cos (x := 1 / 2 ^ 16) (by positivity) (by norm_num at *; linarith)]
      refine Real.arccos_le_arccos ?_
      have := Real.one_sub_sq_div_two_le_cos (x := 1 / 2 ^ 16)
      norm_num at *
      linarith
    have al : 1 / 2 ^ 17 ≤ A.acos d := by
      rw [← Rat.cast_le (K := ℝ)]
      push_cast
      norm_num at *
      linarith
    norm_num at h ht m1 m2 al ⊢
    linarith

/-- the remainder is the same angle -/
theorem mod_turn {d : ℚ} (h0 : 0 ≤ d) (h : d ≤ 181) (neg : Prop) [Decidable neg] :
    ∃ k : ℤ, |pyMod doubles (if neg then -d else d) 360 - (if neg then -d else d) - 360 * k| ≤ 1 / 2 ^ 40 := by
  obtain ⟨-, -, h1, h2, -⟩ := mod_ok h0 h neg
  by_cases hn : neg
  · simp only [hn, if_true, true_implies] at h2 ⊢
    by_cases hd : d = 0
    · subst hd
      refine ⟨0, ?_⟩
      have : pyMod doubles (-0) 360 = 0 := by
        unfold pyMod
        rw [if_pos (by norm_num), neg_zero, mod_small le_rfl (by norm_num)]
      rw [this]
      norm_num
    · refine ⟨1, ?_⟩
      have := h2 hd
      rwa [show pyMod doubles (-d) 360 - -d - 360 * ((1 : ℤ) : ℚ) = pyMod doubles (-d) 360 - (360 - d) by push_cast; ring]
  · refine ⟨0, ?_⟩
    rw [h1 hn, if_neg hn]
    norm_num

/-- the angle in degrees is the arc cosine -/
theorem degrees_near (A : FloatAcos) {d : ℚ} (h1 : -1 ≤ d) (h2 : d ≤ 1) :
    |(toDegrees doubles (A.acos d) : ℝ) * Real.pi / 180 - Real.arccos d| ≤ 1 / 2 ^ 42 := by
  have a0 := A.nonneg d
  have ae := abs_le.1 (A.err d h1 h2)
  have ap := Real.arccos_le_pi (d : ℝ)
  have p1 := Real.pi_gt_d20
  have p2 := Real.pi_lt_d20
  obtain ⟨k1, k2⟩ := deg_factor
  unfold toDegrees
  generalize doubles.fl (180 / doubles.fl (tau / 2)) = k at *
  have au : A.acos d ≤ 314159265358980 / 10 ^ 14 := by
    rw [← Rat.cast_le (K := ℝ)]
    push_cast
    norm_num at *
    linarith
  have h := abs_le.1 (doubles.err (A.acos d * k))
  have ht : (1 : ℚ) / 2 ^ 1074 ≤ 1 / 2 ^ 53 := one_div_le_one_div_of_le (by positivity) (pow_le_pow_right₀ (by norm_num) (by norm_num))
  have m1 : A.acos d * (57295779513082 / 10 ^ 12) ≤ A.acos d * k := mul_le_mul_of_nonneg_left k1 a0
  have m2 : A.acos d * k ≤ A.acos d * (57295779513083 / 10 ^ 12) := mul_le_mul_of_nonneg_left k2 a0
  rw [abs_of_nonneg (mul_nonneg a0 (by linarith))] at h
  generalize (1 : ℚ) / 2 ^ 1074 = η at *
  generalize doubles.fl (A.acos d * k) = g at *
  generalize A.acos d * k = w at *
  have b1 : A.acos d * (57295779513082 / 10 ^ 12) - 1 / 2 ^ 45 ≤ g := by
    norm_num at h ht m1 m2 au ⊢
    linarith
  have b2 : g ≤ A.acos d * (57295779513083 / 10 ^ 12) + 1 / 2 ^ 45 := by
    norm_num at h ht m1 m2 au ⊢
    linarith
  generalize A.acos d = a at *
  have b1' := (Rat.cast_le (K := ℝ)).2 b1
  have b2' := (Rat.cast_le (K := ℝ)).2 b2
  have a0' := (Rat.cast_le (K := ℝ)).2 a0
  have au' := (Rat.cast_le (K := ℝ)).2 au
  push_cast at b1' b2' a0' au'
  have q1 := mul_le_mul_of_nonneg_right b1' Real.pi_pos.le
  have q2 := mul_le_mul_of_nonneg_right b2' Real.pi_pos.le
  have r1 := mul_le_mul_of_nonneg_left p1.le a0'
  have r2 := mul_le_mul_of_nonneg_left p2.le a0'
  rw [abs_le]
  norm_num at q1 q2 r1 r2 ae au' p1 p2 ⊢
  constructor <;> linarith

/-- `δ` is the angle whose cosine and sine are `ρ (c ^ 2 - 1)` and `2 c ρ`, in degrees and up to whole turns -/
def Reached (ρ c δ : ℚ) : Prop :=
  ∃ (d g σ : ℚ) (k : ℤ), -1 ≤ d ∧ d ≤ 1 ∧ |d - ρ * (c ^ 2 - 1)| ≤ 230000 / 2 ^ 53 ∧
    (σ = 1 ∧ -(1775 / 2 ^ 53) ≤ 2 * c * ρ ∨ σ = -1 ∧ 2 * c * ρ ≤ 1775 / 2 ^ 53) ∧
    |(g : ℝ) * Real.pi / 180 - Real.arccos d| ≤ 1 / 2 ^ 42 ∧ |δ - σ * g - 360 * k| ≤ 1 / 2 ^ 39

/-- the sweep in degrees: its direction is the one asked for, and it is at most half a turn or at least half a turn as asked for -/
theorem delta_ok (R : FloatSqrt) (A : FloatAcos) {X Y c ux uy vx vy : ℚ} (hK : |(X * X + Y * Y) * (1 + c ^ 2) - 1| ≤ 400 / 2 ^ 53)
    (hux : Nr 5 15 (X - c * Y) ux) (huy : Nr 5 15 (Y + c * X) uy) (hvx : Nr 5 15 (-X - c * Y) vx) (hvy : Nr 5 15 (-Y + c * X) vy)
    (sweep : Bool) :
    ∃ δ, deltaDegrees doubles R A ux uy vx vy sweep = .ok δ ∧ (if sweep then 0 ≤ δ ∧ δ ≤ 360 else -360 ≤ δ ∧ δ ≤ 0) ∧
      (1 / 2 ^ 30 ≤ X * X + Y * Y → (0 ≤ c → (if sweep then δ else δ + 360) ≤ 180 + 1 / 2 ^ 9) ∧
        (c ≤ 0 → 180 - 1 / 2 ^ 9 ≤ if sweep then δ else δ + 360)) ∧ Reached (X * X + Y * Y) c δ := by
  obtain ⟨e1, e2, e3⟩ := dot_ok doubles hK hux huy hvx hvy
  unfold deltaDegrees
  simp only [bind, Except.bind, pure, Except.pure]
  generalize doubles.fl (doubles.fl (doubles.fl (ux * ux) + doubles.fl (uy * uy)) * doubles.fl (doubles.fl (vx * vx) + doubles.fl (vy * vy))) = m at *
  generalize doubles.fl (doubles.fl (ux * vx) + doubles.fl (uy * vy)) = p at *
  generalize doubles.fl (doubles.fl (ux * vy) - doubles.fl (uy * vx)) = x at *
  have hK' := abs_le.1 hK
  have ρ0 : 0 ≤ X * X + Y * Y := add_nonneg (mul_self_nonneg _) (mul_self_nonneg _)
  generalize X * X + Y * Y = ρ at *
  have ρc : 0 ≤ ρ * c ^ 2 := mul_nonneg ρ0 (sq_nonneg _)
  have m0 : 0 ≤ m := by have := abs_le.1 e1; norm_num at this; linarith
  obtain ⟨n0, hd⟩ := cos_ok doubles e1 (R.nonneg m) (R.err m m0) e2 (by
    norm_num at hK'
    rw [abs_le]; constructor <;> linarith)
  rw [div_ok doubles n0]
  generalize doubles.fl (p / R.sqrt m) = d at *
  simp only
  have hd' := abs_le.1 hd
  have cl : ∃ d', (if d > 1 then 1 else if d < -1 then -1 else d) = d' ∧ -1 ≤ d' ∧ d' ≤ 1 ∧ d' ≤ max d (-1) ∧ |d' - ρ * (c ^ 2 - 1)| ≤ 230000 / 2 ^ 53 := by
    refine ⟨_, rfl, ?_⟩
    split_ifs with h1 h2
    · refine ⟨by norm_num, le_rfl, (le_of_lt h1).trans (le_max_left _ _), ?_⟩
      rw [abs_le]
      norm_num at hK' hd' ⊢
      constructor <;> linarith
    · refine ⟨le_rfl, by norm_num, le_max_right _ _, ?_⟩
      rw [abs_le]
      norm_num at hK' hd' ⊢
      constructor <;> linarith
    · exact ⟨by linarith, by linarith, le_max_left _ _, hd⟩
  obtain ⟨d', ed, l1, l2, l3, l4⟩ := cl
  rw [ed]
  obtain ⟨g0, g1, g2, g3⟩ := degrees_ok A l1 l2
  have g4 := degrees_near A l1 l2
  generalize toDegrees doubles (A.acos d') = g at *
  obtain ⟨q0, q1, q2, q3, q4⟩ := mod_ok g0 (by norm_num at g1; linarith) (x < 0)
  obtain ⟨k, q5⟩ := mod_turn g0 (by norm_num at g1; linarith) (x < 0)
  generalize pyMod doubles (if x < 0 then -g else g) 360 = t at *
  have reach : ∀ δ : ℚ, (∃ j : ℤ, |δ - t - 360 * j| ≤ 1 / 2 ^ 40) → Reached ρ c δ := by
    rintro δ ⟨j, hj⟩
    have e3' := abs_le.1 e3
    refine ⟨d', g, if x < 0 then -1 else 1, k + j, l1, l2, l4, ?_, g4, ?_⟩
    · split_ifs with hx
      · exact Or.inr ⟨rfl, by linarith⟩
      · exact Or.inl ⟨rfl, by linarith⟩
    · have : (if x < 0 then -1 else 1) * g = if x < 0 then -g else g := by split_ifs <;> ring
      rw [this]
      generalize (if x < 0 then -g else g) = w at *
      have := abs_add_le (δ - t - 360 * j) (t - w - 360 * k)
      rw [show δ - t - 360 * j + (t - w - 360 * k) = δ - w - 360 * ((k + j : ℤ) : ℚ) by push_cast; ring] at this
      refine this.trans ((add_le_add hj q5).trans (by norm_num))
  -- the half of the turn before the direction is looked at
  have half : 1 / 2 ^ 30 ≤ ρ → (0 ≤ c → t ≤ 180 + 1 / 2 ^ 10 + 1 / 2 ^ 40) ∧ (c ≤ 0 → 180 - 1 / 2 ^ 10 - 1 / 2 ^ 40 ≤ t) := by
    intro hρ
    have e3' := abs_le.1 e3
    -- where the determinant has the wrong sign, the ends are almost opposite
    have opp : |c * ρ| ≤ 900 / 2 ^ 53 → 180 - 1 / 2 ^ 10 ≤ g := by
      intro hc
      refine g2 ?_
      refine l3.trans (max_le ?_ (by norm_num))
      have hρ2 : 1 / 2 ≤ ρ := by
        by_contra hn
        have h1 : (c * ρ) ^ 2 ≤ (900 / 2 ^ 53) ^ 2 := by
          rw [← sq_abs]
          exact pow_le_pow_left₀ (abs_nonneg _) hc 2
        have h2 : (c * ρ) ^ 2 = ρ * (ρ * (1 + c ^ 2)) - ρ * ρ := by ring
        rw [h2] at h1
        norm_num at hK' hn h1 hρ
        nlinarith
      have hcs : c ^ 2 ≤ 1 / 2 ^ 60 := by
        have h1 : |c| ≤ 1800 / 2 ^ 53 := by
          rw [abs_mul, abs_of_nonneg ρ0] at hc
          nlinarith [abs_nonneg c]
        rw [← sq_abs]
        exact (pow_le_pow_left₀ (abs_nonneg _) h1 2).trans (by norm_num)
      have : ρ * c ^ 2 ≤ 2 * (1 / 2 ^ 60) := mul_le_mul (by norm_num at hK'; linarith) hcs (sq_nonneg _) (by norm_num)
      norm_num at hK' hd' this ⊢
      linarith
    constructor
    · intro hc
      by_cases hx : x < 0
      · have h1 : 180 - 1 / 2 ^ 10 ≤ g := by
          refine opp ?_
          have : 0 ≤ c * ρ := mul_nonneg hc ρ0
          rw [abs_of_nonneg this]
          norm_num at e3' ⊢
          linarith
        have := (abs_le.1 (q3 hx (by norm_num at h1; intro h; rw [h] at h1; norm_num at h1))).2
        linarith
      · rw [q2 hx]
        refine g1.trans (by norm_num)
    · intro hc
      by_cases hx : x < 0
      · have gp : 0 < g := by
          refine g3 (l3.trans (max_le ?_ (by norm_num)))
          norm_num at hK' hd' hρ ⊢
          linarith
        have := (abs_le.1 (q3 hx gp.ne')).1
        norm_num at g1 this ⊢
        linarith
      · rw [q2 hx]
        have h1 : 180 - 1 / 2 ^ 10 ≤ g := by
          refine opp ?_
          have : c * ρ ≤ 0 := mul_nonpos_of_nonpos_of_nonneg hc ρ0
          rw [abs_of_nonpos this]
          norm_num at e3' ⊢
          linarith
        refine le_trans ?_ h1
        norm_num
  refine ⟨_, rfl, ?_⟩
  cases sweep with
  | true =>
    simp only [if_true]
    refine ⟨⟨q0, q1⟩, fun hρ => ?_, reach t ⟨0, by norm_num⟩⟩
    obtain ⟨a, b⟩ := half hρ
    exact ⟨fun h => (a h).trans (by norm_num), fun h => le_trans (by norm_num) (b h)⟩
  | false =>
    simp only [Bool.false_eq_true, if_false]
    have r1 : roundDouble (-360) = -360 := by have := round_int (-360) (by norm_num); push_cast at this; exact this
    have r2 : roundDouble 0 = 0 := roundDouble_double isDouble_zero
    have u1 : roundDouble (-360) ≤ doubles.fl (t - 360) := roundDouble_mono (by linarith)
    have u2 : doubles.fl (t - 360) ≤ roundDouble 0 := roundDouble_mono (by linarith)
    rw [r1] at u1
    rw [r2] at u2
    have e : |doubles.fl (t - 360) - (t - 360)| ≤ 1 / 2 ^ 40 := by
      refine (doubles.err _).trans ?_
      have : (1 : ℚ) / 2 ^ 1074 ≤ 1 / 2 ^ 53 := one_div_le_one_div_of_le (by positivity) (pow_le_pow_right₀ (by norm_num) (by norm_num))
      rw [abs_of_nonpos (by linarith)]
      generalize (1 : ℚ) / 2 ^ 1074 = η at *
      norm_num at this ⊢
      linarith
    refine ⟨⟨u1, u2⟩, fun hρ => ?_, reach _ ⟨-1, by rw [show doubles.fl (t - 360) - t - 360 * ((-1 : ℤ) : ℚ) = doubles.fl (t - 360) - (t - 360) by push_cast; ring]; exact e⟩⟩
    obtain ⟨a, b⟩ := half hρ
    have e' := abs_le.1 e
    constructor
    · intro h
      have := a h
      norm_num at this e' ⊢
      linarith
    · intro h
      have := b h
      norm_num at this e' ⊢
      linarith

/-- the cosine and the sine of such an angle -/
theorem reached_trig {ρ c δ : ℚ} (ρ0 : 0 ≤ ρ) (hK : |ρ * (1 + c ^ 2) - 1| ≤ 400 / 2 ^ 53) (h : Reached ρ c δ) :
    |Real.cos (δ * Real.pi / 180) - ρ * (c ^ 2 - 1)| ≤ 1 / 2 ^ 16 ∧ |Real.sin (δ * Real.pi / 180) - 2 * c * ρ| ≤ 1 / 2 ^ 16 := by
  obtain ⟨d, g, σ, k, l1, l2, hd, hσ, hg, hδ⟩ := h
  have p2 := Real.pi_lt_d20
  have p0 := Real.pi_pos
  have σ1 : |(σ : ℝ)| = 1 := by rcases hσ with ⟨h, -⟩ | ⟨h, -⟩ <;> rw [h] <;> norm_num
  have ang : |(δ : ℝ) * Real.pi / 180 - (σ * Real.arccos d + k * (2 * Real.pi))| ≤ 1 / 2 ^ 41 := by
    have h1 := (Rat.cast_le (K := ℝ)).2 hδ
    push_cast at h1
    have h2 : |((δ : ℝ) - σ * g - 360 * k) * (Real.pi / 180)| ≤ 1 / 2 ^ 39 * (1 / 50) := by
      rw [abs_mul, abs_of_pos (show 0 < Real.pi / 180 by positivity)]
      refine mul_le_mul h1 (by norm_num at p2 ⊢; linarith) (by positivity) (by norm_num)
    have h3 : |(σ : ℝ) * (g * Real.pi / 180 - Real.arccos d)| ≤ 1 / 2 ^ 42 := by rw [abs_mul, σ1, one_mul]; exact hg
    have := abs_add_le (((δ : ℝ) - σ * g - 360 * k) * (Real.pi / 180)) (σ * (g * Real.pi / 180 - Real.arccos d))
    rw [show ((δ : ℝ) - σ * g - 360 * k) * (Real.pi / 180) + σ * (g * Real.pi / 180 - Real.arccos d) =
      (δ : ℝ) * Real.pi / 180 - (σ * Real.arccos d + k * (2 * Real.pi)) by ring] at this
    refine this.trans ((add_le_add h2 h3).trans (by norm_num))
  have l1' : (-1 : ℝ) ≤ d := by exact_mod_cast l1
  have l2' : (d : ℝ) ≤ 1 := by exact_mod_cast l2
  have ec : Real.cos (σ * Real.arccos d + k * (2 * Real.pi)) = d := by
    rw [Real.cos_add_int_mul_two_pi]
    rcases hσ with ⟨h, -⟩ | ⟨h, -⟩ <;> rw [h]
    · rw [Rat.cast_one, one_mul, Real.cos_arccos l1' l2']
    · rw [Rat.cast_neg, Rat.cast_one, neg_one_mul, Real.cos_neg, Real.cos_arccos l1' l2']
  have es : Real.sin (σ * Real.arccos d + k * (2 * Real.pi)) = σ * Real.sqrt (1 - d ^ 2) := by
    rw [Real.sin_add_int_mul_two_pi]
    rcases hσ with ⟨h, -⟩ | ⟨h, -⟩ <;> rw [h]
    · rw [Rat.cast_one, one_mul, one_mul, Real.sin_arccos]
    · rw [Rat.cast_neg, Rat.cast_one, neg_one_mul, neg_one_mul, Real.sin_neg, Real.sin_arccos]
  have hd' := (Rat.cast_le (K := ℝ)).2 hd
  have hK' := (Rat.cast_le (K := ℝ)).2 hK
  have ρ0' : (0 : ℝ) ≤ ρ := by exact_mod_cast ρ0
  push_cast at hd' hK'
  have kc := (Real.abs_cos_sub_cos_le _ _).trans ang
  have ks := (Real.abs_sin_sub_sin_le _ _).trans ang
  rw [ec] at kc
  rw [es] at ks
  have hσ' : (σ : ℝ) = 1 ∧ -(1775 / 2 ^ 53) ≤ 2 * (c : ℝ) * ρ ∨ (σ : ℝ) = -1 ∧ 2 * (c : ℝ) * ρ ≤ 1775 / 2 ^ 53 := by
    refine hσ.imp ?_ ?_
    · rintro ⟨h1, h2⟩
      have := (Rat.cast_le (K := ℝ)).2 h2
      push_cast at this
      exact ⟨by rw [h1]; norm_num, this⟩
    · rintro ⟨h1, h2⟩
      have := (Rat.cast_le (K := ℝ)).2 h2
      push_cast at this
      exact ⟨by rw [h1]; norm_num, this⟩
  generalize Real.cos (δ * Real.pi / 180) = C at *
  generalize Real.sin (δ * Real.pi / 180) = S at *
  generalize (c : ℝ) = c at *
  generalize (ρ : ℝ) = ρ at *
  generalize (d : ℝ) = d at *
  generalize (σ : ℝ) = σ at *
  constructor
  · refine (abs_sub_le _ d _).trans ((add_le_add kc hd').trans (by norm_num))
  · have id : (2 * c * ρ) ^ 2 = (ρ * (1 + c ^ 2)) ^ 2 - (ρ * (c ^ 2 - 1)) ^ 2 := by ring
    have hsq : Real.sqrt (1 - d ^ 2) ^ 2 = 1 - d ^ 2 := Real.sq_sqrt (by nlinarith)
    have s0 := Real.sqrt_nonneg (1 - d ^ 2)
    generalize Real.sqrt (1 - d ^ 2) = w at *
    have near : (w - |2 * c * ρ|) ^ 2 ≤ (1 / 2 ^ 17) ^ 2 := by
      have h1 : (w - |2 * c * ρ|) ^ 2 ≤ |w ^ 2 - (2 * c * ρ) ^ 2| := by
        have v0 := abs_nonneg (2 * c * ρ)
        rw [← sq_abs (2 * c * ρ)]
        generalize |2 * c * ρ| = v at *
        rcases le_total v w with g | g
        · exact le_trans (by nlinarith) (le_abs_self _)
        · exact le_trans (by nlinarith) (neg_le_abs _)
      refine h1.trans ?_
      rw [hsq, id]
      generalize ρ * (1 + c ^ 2) = K at *
      generalize ρ * (c ^ 2 - 1) = t at *
      have a1 := abs_le.1 hK'
      have a2 := abs_le.1 hd'
      have b1 : |(K - 1) * (K + 1)| ≤ 400 / 2 ^ 53 * 3 := by
        rw [abs_mul]
        refine mul_le_mul hK' ?_ (abs_nonneg _) (by norm_num)
        norm_num at a1
        rw [abs_le]; constructor <;> linarith
      have b2 : |(d - t) * (d + t)| ≤ 230000 / 2 ^ 53 * (201 / 100) := by
        rw [abs_mul]
        refine mul_le_mul hd' ?_ (abs_nonneg _) (by norm_num)
        norm_num at a2
        rw [abs_le]; constructor <;> linarith
      have b1' := abs_le.1 b1
      have b2' := abs_le.1 b2
      rw [abs_le]
      norm_num at b1' b2' ⊢
      constructor <;> linarith
    have near' := abs_le_of_sq_le_sq near (by positivity)
    have sg : |σ * |2 * c * ρ| - 2 * c * ρ| ≤ 3550 / 2 ^ 53 := by
      rcases hσ' with ⟨h, h'⟩ | ⟨h, h'⟩ <;> rw [h]
      · rw [one_mul]
        rcases abs_cases (2 * c * ρ) with ⟨e, e'⟩ | ⟨e, e'⟩ <;> rw [e, abs_le] <;> constructor <;> norm_num at h' ⊢ <;> linarith
      · rw [neg_one_mul]
        rcases abs_cases (2 * c * ρ) with ⟨e, e'⟩ | ⟨e, e'⟩ <;> rw [e, abs_le] <;> constructor <;> norm_num at h' ⊢ <;> linarith
    have t1 : |σ * w - σ * (|2 * c * ρ|)| ≤ 1 / 2 ^ 17 := by
      rw [← mul_sub, abs_mul, σ1, one_mul]
      exact near'
    refine (abs_sub_le _ (σ * w) _).trans ((add_le_add ks ((abs_sub_le _ _ _).trans (add_le_add t1 sg))).trans (by norm_num))

end SvgArcFloat
end Svgio.Props
