import Verif.Model.FloatUnits
import Verif.Props.FloatEnds
import Verif.Props.ColorMeasureFloat

/-!
C160: lengths with units computed with floats.
-/

namespace Svgio.Props

open Svgio.Flt Spec

namespace FloatUnits

variable (F : FloatRounding)

/-- `y` is `x` up to `k` roundings -/
def Off (k e : ℚ) (x y : ℚ) : Prop := |y - x| ≤ |x| * k / 2 ^ 53 + e

theorem off_same (x : ℚ) : Off 0 0 x x := by unfold Off; simp

theorem off_mono {k k' e e' x y : ℚ} (h : Off k e x y) (hk : k ≤ k') (he : e ≤ e') : Off k' e' x y := by
  refine le_trans h ?_
  gcongr

theorem off_round {k e x y : ℚ} (h : Off k e x y) (hk0 : 0 ≤ k) (hk : k ≤ 16) (he : 0 ≤ e) : Off (k + 2) (2 * e + 1 / 2 ^ 1074) x (F.fl y) := by
  have h1 := F.err y
  unfold Off at *
  have h2 : |y| ≤ |x| + |y - x| := by
    have := abs_add_le x (y - x)
    rwa [add_sub_cancel] at this
  have h3 := abs_sub_le (F.fl y) y x
  have h4 : 0 ≤ |x| := abs_nonneg x
  have h5 : |x| * k ≤ |x| * 16 := mul_le_mul_of_nonneg_left hk h4
  have h6 : 0 ≤ |x| * k := mul_nonneg h4 hk0
  rw [mul_add]
  generalize |x| * k = z at *
  generalize (1 : ℚ) / 2 ^ 1074 = η at *
  norm_num1 at *
  linarith

theorem off_scale {k e x y : ℚ} (h : Off k e x y) (c : ℚ) : Off k (e * |c|) (x * c) (y * c) := by
  unfold Off at *
  rw [← sub_mul, abs_mul, abs_mul]
  have := mul_le_mul_of_nonneg_right h (abs_nonneg c)
  refine this.trans (le_of_eq ?_)
  ring

/-- with a factor that is rounded too -/
theorem off_factor {k e x y c d : ℚ} (h : Off k e x y) (hk0 : 0 ≤ k) (hk : k ≤ 16) (he : 0 ≤ e) (hd : |d - c| ≤ |c| * (5 / 2) / 2 ^ 53) :
    Off (k + 3) (2 * e * |c|) (x * c) (y * d) := by
  unfold Off at *
  have e1 : y * d - x * c = (y - x) * c + y * (d - c) := by ring
  have h2 : |y| ≤ |x| + |y - x| := by
    have := abs_add_le x (y - x)
    rwa [add_sub_cancel] at this
  have h3 : |y * d - x * c| ≤ |y - x| * |c| + |y| * |d - c| := by
    rw [e1]
    refine (abs_add_le _ _).trans ?_
    rw [abs_mul, abs_mul]
  have hx := abs_nonneg x
  have hc := abs_nonneg c
  have h4 : |y| * |d - c| ≤ (|x| + |y - x|) * (|c| * (5 / 2) / 2 ^ 53) := mul_le_mul h2 hd (abs_nonneg _) (by positivity)
  rw [abs_mul]
  generalize |y - x| = a at *
  generalize |x| = X at *
  generalize |c| = C at *
  have h5 := mul_le_mul_of_nonneg_right h hc
  have h6 : X * C * k ≤ X * C * 16 := mul_le_mul_of_nonneg_left hk (by positivity)
  have h7 : 0 ≤ X * C := by positivity
  have h8 : 0 ≤ e * C := by positivity
  have h9 : 0 ≤ X * C * k := by positivity
  have e5 : (X * k / 2 ^ 53 + e) * C = X * C * k / 2 ^ 53 + e * C := by ring
  have e4 : (X + a) * (C * (5 / 2) / 2 ^ 53) = X * C * (5 / 2) / 2 ^ 53 + a * C * (5 / 2) / 2 ^ 53 := by ring
  rw [e5] at h5
  rw [e4] at h4
  have e6 : X * C * (k + 3) / 2 ^ 53 + 2 * e * C = X * C * k / 2 ^ 53 + X * C * 3 / 2 ^ 53 + 2 * (e * C) := by ring
  rw [e6]
  generalize X * C = z at *
  generalize a * C = w at *
  generalize z * k = zk at *
  generalize e * C = ec at *
  norm_num1 at *
  linarith

/-- a constant is rounded -/
theorem const_err {c : ℚ} (h : 1 / 2 ^ 1000 ≤ |c|) : |F.fl c - c| ≤ |c| * 2 / 2 ^ 53 := by
  refine (F.err c).trans ?_
  have h2 : (1 : ℚ) / 2 ^ 1074 ≤ 1 / 2 ^ 1000 * (1 / 2 ^ 53) := by
    rw [one_div_mul_one_div, ← pow_add]
    apply one_div_le_one_div_of_le (by positivity)
    exact pow_le_pow_right₀ (by norm_num) (by norm_num)
  have h3 := mul_le_mul_of_nonneg_right h (show (0 : ℚ) ≤ 1 / 2 ^ 53 by positivity)
  linarith

theorem const_err' {c : ℚ} (h : 1 / 2 ^ 1000 ≤ |c|) : |F.fl c - c| ≤ |c| * (5 / 2) / 2 ^ 53 := by
  have := const_err F h
  have h2 := abs_nonneg c
  norm_num1 at *
  linarith

theorem inv_err {c d : ℚ} (hc : 0 < c) (hd : |d - c| ≤ |c| * 2 / 2 ^ 53) : |1 / d - 1 / c| ≤ |1 / c| * (5 / 2) / 2 ^ 53 := by
  rw [abs_of_pos hc] at hd
  obtain ⟨h1, h2⟩ := abs_le.1 hd
  have hdp : 0 < d := by
    norm_num1 at h1
    linarith
  rw [abs_of_pos (one_div_pos.2 hc)]
  have e : 1 / d - 1 / c = (c - d) * (1 / c) * (1 / d) := by field_simp
  rw [e, abs_mul, abs_mul, abs_of_pos (one_div_pos.2 hc), abs_of_pos (one_div_pos.2 hdp)]
  rw [abs_sub_comm] at hd
  have h3 : |c - d| * (1 / d) ≤ (5 / 2) / 2 ^ 53 := by
    rw [mul_one_div, div_le_iff₀ hdp]
    norm_num1 at *
    linarith
  have := mul_le_mul_of_nonneg_right h3 (one_div_pos.2 hc).le
  linarith

theorem big_const {c : ℚ} (h : 1 / 2 ^ 10 ≤ c) : 1 / 2 ^ 1000 ≤ |c| := by
  have h0 : 0 < c := lt_of_lt_of_le (by positivity) h
  rw [abs_of_pos h0]
  refine le_trans ?_ h
  apply one_div_le_one_div_of_le (by positivity)
  exact pow_le_pow_right₀ (by norm_num) (by norm_num)

/-- the constants of the code -/
theorem pt_err : |F.fl Len.cPt - Len.cPt| ≤ |(Len.cPt : ℚ)| * 2 / 2 ^ 53 := const_err F (big_const (by norm_num [Len.cPt]))
theorem mm_err : |F.fl Len.cMm - Len.cMm| ≤ |(Len.cMm : ℚ)| * 2 / 2 ^ 53 := const_err F (big_const (by norm_num [Len.cMm]))
theorem cm_err : |F.fl Len.cCm - Len.cCm| ≤ |(Len.cCm : ℚ)| * 2 / 2 ^ 53 := const_err F (big_const (by norm_num [Len.cCm]))

theorem weaken {c d : ℚ} (h : |d - c| ≤ |c| * 2 / 2 ^ 53) : |d - c| ≤ |c| * (5 / 2) / 2 ^ 53 := by
  have h2 := abs_nonneg c
  norm_num1 at *
  linarith

/-- one product, rounded -/
theorem off_mul {k e x y c M : ℚ} (h : Off k e x y) (hk0 : 0 ≤ k) (hk : k ≤ 16) (he : 0 ≤ e) (hc : |c| ≤ M) :
    Off (k + 2) (2 * (e * M) + 1 / 2 ^ 1074) (x * c) (F.fl (y * c)) := by
  have h1 := off_round F (off_scale h c) hk0 hk (by positivity)
  refine off_mono h1 le_rfl ?_
  have := mul_le_mul_of_nonneg_left hc he
  linarith

/-- one product with a rounded constant, rounded -/
theorem off_const {k e x y c d M : ℚ} (h : Off k e x y) (hk0 : 0 ≤ k) (hk : k ≤ 13) (he : 0 ≤ e) (hc : |c| ≤ M)
    (hd : |d - c| ≤ |c| * (5 / 2) / 2 ^ 53) : Off (k + 5) (4 * (e * M) + 1 / 2 ^ 1074) (x * c) (F.fl (y * d)) := by
  have h1 := off_round F (off_factor h hk0 (by linarith) he hd) (by linarith) (by linarith) (by positivity)
  refine off_mono h1 (by linarith) ?_
  have := mul_le_mul_of_nonneg_left hc he
  linarith

end FloatUnits

open FloatUnits

/-- the result of a computation with floats, against the exact one: a number with a relative error `r` and an absolute error `e`, or a
length with the same unit and such an amount -/
def NearVal (r e : ℚ) : Val ℚ → Val ℚ → Prop
  | .num x, .num y => |y - x| ≤ |x| * r + e
  | .len x, .len y => y.units = x.units ∧ |y.amount - x.amount| ≤ |x.amount| * r + e
  | _, _ => False

/-- the numbers that a length is resolved with are at most `M` -/
def CtxAtMost (M : ℚ) (ctx : Len.Ctx ℚ) : Prop :=
  (∀ p, ctx.ppi = some p → |p| ≤ M) ∧ (∀ r, ctx.relative = some (.num r) → |r| ≤ M) ∧ (∀ p, ctx.fontSize = some p → |p| ≤ M) ∧
    (∀ p, ctx.fontHeight = some p → |p| ≤ M) ∧ ∀ w h, ctx.viewbox = some (w, h) → |w| ≤ M ∧ |h| ≤ M

namespace FloatUnits

variable (F : FloatRounding)

theorem near_num {k e x y e' : ℚ} (h : Off k e x y) (hk : k ≤ 16) (he : e ≤ e') : NearVal (1 / 2 ^ 49) e' (.num x) (.num y) := by
  have h1 := off_mono h hk he
  unfold Off at h1
  simp only [NearVal]
  refine h1.trans ?_
  have := abs_nonneg x
  norm_num1
  linarith

theorem near_len {k e x y e' : ℚ} {u : Units} (h : Off k e x y) (hk : k ≤ 16) (he : e ≤ e') : NearVal (1 / 2 ^ 49) e' (.len ⟨x, u⟩) (.len ⟨y, u⟩) :=
  ⟨rfl, near_num h hk he⟩

theorem hundredth : |(1 : ℚ) / 100| ≤ 1 := by rw [abs_of_pos (by norm_num)]; norm_num

theorem valueAbs_near {M : ℚ} (hM : 1 ≤ M) {ctx : Len.Ctx ℚ} (hctx : CtxAtMost M ctx) {k e x y : ℚ} (h : Off k e x y) (hk0 : 0 ≤ k) (hk : k ≤ 4)
    (he : 0 ≤ e) (u : Units) : NearVal (1 / 2 ^ 49) (64 * ((e + 1 / 2 ^ 1074) * M)) (Len.valueAbs ctx ⟨x, u⟩) (valueAbs F ctx ⟨y, u⟩) := by
  obtain ⟨c1, -, c2, c3, c4⟩ := hctx
  have hη : (0 : ℚ) ≤ 1 / 2 ^ 1074 := by positivity
  have heM : 0 ≤ e * M := by positivity
  have m1 : e ≤ e * M := by nlinarith
  have m2 : (1 : ℚ) / 2 ^ 1074 ≤ 1 / 2 ^ 1074 * M := by nlinarith
  have dist : 64 * ((e + 1 / 2 ^ 1074) * M) = 64 * (e * M) + 64 * (1 / 2 ^ 1074 * M) := by ring
  have same : ∀ u, NearVal (1 / 2 ^ 49) (64 * ((e + 1 / 2 ^ 1074) * M)) (.len ⟨x, u⟩) (.len ⟨y, u⟩) := fun u =>
    near_len h (by linarith) (by rw [dist]; linarith)
  have whole : ∀ c : ℚ, |c| ≤ 16 → NearVal (1 / 2 ^ 49) (64 * ((e + 1 / 2 ^ 1074) * M)) (.num (x * c)) (.num (F.fl (y * c))) := fun c hc =>
    near_num (off_mul F h hk0 (by linarith) he hc) (by linarith) (by rw [dist]; linarith)
  have byM : ∀ c : ℚ, |c| ≤ M → NearVal (1 / 2 ^ 49) (64 * ((e + 1 / 2 ^ 1074) * M)) (.num (x * c)) (.num (F.fl (y * c))) := fun c hc =>
    near_num (off_mul F h hk0 (by linarith) he hc) (by linarith) (by rw [dist]; linarith)
  have point : NearVal (1 / 2 ^ 49) (64 * ((e + 1 / 2 ^ 1074) * M)) (.num (x * Len.cPt)) (.num (F.fl (y * F.fl Len.cPt))) :=
    near_num (off_const F h hk0 (by linarith) he (M := 2) (by norm_num [Len.cPt, abs_of_pos]) (weaken (pt_err F))) (by linarith) (by rw [dist]; linarith)
  have inches : ∀ p c : ℚ, |p| ≤ M → |c| ≤ 1 → |F.fl c - c| ≤ |c| * 2 / 2 ^ 53 →
      NearVal (1 / 2 ^ 49) (64 * ((e + 1 / 2 ^ 1074) * M)) (.num (x * p * c)) (.num (F.fl (F.fl (y * p) * F.fl c))) := fun p c hp hc hf =>
    near_num (off_const F (off_mul F h hk0 (by linarith) he hp) (by linarith) (by linarith) (by linarith) hc (weaken hf)) (by linarith)
      (by rw [dist]; linarith)
  have hundred : ∀ p : ℚ, |p| ≤ M →
      NearVal (1 / 2 ^ 49) (64 * ((e + 1 / 2 ^ 1074) * M)) (.num (x * p / 100)) (.num (F.fl (F.fl (y * p) / 100))) := fun p hp => by
    rw [show x * p / 100 = x * p * (1 / 100) by ring, show F.fl (y * p) / 100 = F.fl (y * p) * (1 / 100) by ring]
    exact near_num (off_mul F (off_mul F h hk0 (by linarith) he hp) (by linarith) (by linarith) (by linarith) (M := 1) hundredth) (by linarith)
      (by rw [dist]; linarith)
  rcases ctx with ⟨ppi, rel, fs, fh, vb⟩
  simp only at c1 c2 c3 c4
  cases u
  case mm => cases ppi with
    | none => exact same _
    | some p => exact inches p _ (c1 p rfl) (by norm_num [Len.cMm, abs_of_pos]) (mm_err F)
  case cm => cases ppi with
    | none => exact same _
    | some p => exact inches p _ (c1 p rfl) (by norm_num [Len.cCm, abs_of_pos]) (cm_err F)
  case inch => cases ppi with
    | none => exact same _
    | some p => exact byM p (c1 p rfl)
  case px => exact near_num h (by linarith) (by rw [dist]; linarith)
  case none => exact near_num h (by linarith) (by rw [dist]; linarith)
  case pt => exact point
  case pc => exact whole 16 (by norm_num)
  case em => cases fs with
    | none => exact same _
    | some p => exact byM p (c2 p rfl)
  case ex => cases fh with
    | none => exact same _
    | some p => exact byM p (c3 p rfl)
  case vw => rcases vb with _ | ⟨w, t⟩
             · exact same _
             · exact hundred w (c4 w t rfl).1
  case vh => rcases vb with _ | ⟨w, t⟩
             · exact same _
             · exact hundred t (c4 w t rfl).2
  case vmin => rcases vb with _ | ⟨w, t⟩
               · exact same _
               · simp only [Len.valueAbs, valueAbs, min_self]; exact hundred t (c4 w t rfl).2
  case vmax => rcases vb with _ | ⟨w, t⟩
               · exact same _
               · simp only [Len.valueAbs, valueAbs, max_self]; exact hundred t (c4 w t rfl).2
  case percent => exact same _
  case other t =>
    simp only [Len.valueAbs, valueAbs, Len.toFloat, toFloat, reduceCtorEq, if_false]
    exact near_num h (by linarith) (by rw [dist]; linarith)

end FloatUnits

/-- C160: resolving a length with floats gives a number where exact arithmetic does, and that number up to eight roundings; a length that
cannot be resolved keeps its unit and its amount, and the same exceptions are raised. `M` bounds the numbers given: ppi, a relative length
that is a number, font size and height, and the viewbox; it matters only for results near the least double. -/
theorem C160_value (F : FloatRounding) {M : ℚ} (hM : 1 ≤ M) {ctx : Len.Ctx ℚ} (hctx : CtxAtMost M ctx) (l : Len ℚ) :
    (∀ e, Len.value ctx l = .error e → value F ctx l = .error e) ∧
      ∀ v, Len.value ctx l = .ok v → ∃ w, value F ctx l = .ok w ∧ NearVal (1 / 2 ^ 49) (M / 2 ^ 1064) v w := by
  have hη : (0 : ℚ) ≤ 1 / 2 ^ 1074 := by positivity
  have eM : M / 2 ^ 1064 = 1024 * (1 / 2 ^ 1074 * M) := by
    rw [show 1074 = 1064 + 10 from rfl, pow_add]
    generalize (2 : ℚ) ^ 1064 = z
    rw [← div_div, div_eq_mul_inv M]; ring
  have m0 : 0 ≤ 1 / 2 ^ 1074 * M := by positivity
  have m2 : (1 : ℚ) / 2 ^ 1074 ≤ 1 / 2 ^ 1074 * M := by nlinarith
  obtain ⟨x, u⟩ := l
  have widen : ∀ {e v w}, e ≤ M / 2 ^ 1064 → NearVal (1 / 2 ^ 49) e v w → NearVal (1 / 2 ^ 49) (M / 2 ^ 1064) v w := by
    intro e v w he h
    cases v <;> cases w
    · simp only [NearVal] at *; linarith
    · exact h
    · exact h
    · exact ⟨h.1, by have := h.2; linarith⟩
  have plain : ∀ x u, NearVal (1 / 2 ^ 49) (M / 2 ^ 1064) (Len.valueAbs ctx ⟨x, u⟩) (valueAbs F ctx ⟨x, u⟩) := fun x u =>
    widen (by rw [eM]; linarith) (valueAbs_near F hM hctx (off_same x) le_rfl (by norm_num) le_rfl u)
  by_cases hu : u = .percent
  swap
  · simp only [Len.value, value, hu, if_false, reduceCtorEq, false_implies, implies_true, Except.ok.injEq, true_and]
    rintro v rfl
    exact ⟨_, rfl, plain x u⟩
  subst hu
  simp only [Len.value, value, if_true]
  cases hr : ctx.relative with
  | none =>
    simp only [reduceCtorEq, false_implies, implies_true, Except.ok.injEq, true_and]
    rintro v rfl
    exact ⟨_, rfl, near_len (off_same x) (by norm_num) (by rw [eM]; linarith)⟩
  | some r =>
    cases r with
    | num r =>
      simp only [reduceCtorEq, false_implies, implies_true, Except.ok.injEq, true_and]
      rintro v rfl
      refine ⟨_, rfl, ?_⟩
      rw [show x / 100 = x * (1 / 100) by ring]
      exact near_num (off_mul F (off_mul F (off_same x) le_rfl (by norm_num) le_rfl hundredth) (by norm_num) (by norm_num) (by linarith)
        (hctx.2.1 r hr)) (by norm_num) (by rw [eM]; linarith)
    | len r =>
      obtain ⟨y, w⟩ := r
      have hctx' : CtxAtMost M { ctx with relative := none } := ⟨hctx.1, by simp, hctx.2.2⟩
      have small : ∀ {k e a b}, Off k e a b → 0 ≤ k → k ≤ 4 → 0 ≤ e → e ≤ 4 * (1 / 2 ^ 1074) → ∀ u,
          NearVal (1 / 2 ^ 49) (M / 2 ^ 1064) (Len.valueAbs { ctx with relative := none } ⟨a, u⟩) (valueAbs F { ctx with relative := none } ⟨b, u⟩) := by
        intro k e a b h h0 h1 h2 h3 u
        refine widen ?_ (valueAbs_near F hM hctx' h h0 h1 h2 u)
        rw [eM]
        have := mul_le_mul_of_nonneg_right h3 (show 0 ≤ M by linarith)
        linarith
      by_cases y0 : y = 0
      · subst y0
        simp only [Len.mul, mulLen, if_true, reduceCtorEq, false_implies, implies_true, Except.ok.injEq, true_and]
        rintro v rfl
        exact ⟨_, rfl, near_num (off_same 0) (by norm_num) (by rw [eM]; linarith)⟩
      by_cases x0 : x = 0
      · subst x0
        simp only [Len.mul, mulLen, y0, if_true, if_false, reduceCtorEq, false_implies, implies_true, Except.ok.injEq, true_and]
        rintro v rfl
        exact ⟨_, rfl, small (off_same 0) le_rfl (by norm_num) le_rfl (by linarith) _⟩
      have two : Off 2 (1 / 2 ^ 1074) (y * x) (F.fl (y * x)) := by
        simpa using off_round F (off_same (y * x)) le_rfl (by norm_num) le_rfl
      have four : Off 4 (4 * (1 / 2 ^ 1074)) (y * x / 100) (F.fl (F.fl (y * x) / 100)) := by
        rw [show y * x / 100 = y * x * (1 / 100) by ring, show F.fl (y * x) / 100 = F.fl (y * x) * (1 / 100) by ring]
        exact off_mono (off_mul F two (by norm_num) (by norm_num) hη hundredth) (by norm_num) (by linarith)
      by_cases hw : w = .percent
      · subst hw
        simp only [Len.mul, mulLen, y0, x0, if_true, if_false, reduceCtorEq, false_implies, implies_true, Except.ok.injEq, true_and]
        rintro v rfl
        exact ⟨_, rfl, small two (by norm_num) (by norm_num) hη (by linarith) _⟩
      · simp only [Len.mul, mulLen, y0, x0, hw, if_true, if_false, reduceCtorEq, false_implies, implies_true, Except.ok.injEq, true_and]
        rintro v rfl
        exact ⟨_, rfl, small four (by norm_num) (by norm_num) (by linarith) le_rfl _⟩

namespace FloatUnits

theorem sum_near (F : FloatRounding) {k e x y : ℚ} (a : ℚ) (h : Off k e x y) (hk : k ≤ 8) (he : e ≤ 4 * (1 / 2 ^ 1074)) :
    |F.fl (a + y) - (a + x)| ≤ (|a| + |a + x|) / 2 ^ 49 + 1 / 2 ^ 1070 := by
  have h1 := off_mono h hk he
  have h2 := F.err (a + y)
  have e1 : (1 : ℚ) / 2 ^ 1070 = 16 * (1 / 2 ^ 1074) := by
    rw [show 1074 = 1070 + 4 from rfl, pow_add]
    generalize (2 : ℚ) ^ 1070 = z
    rw [← div_div]; ring
  have hη : (0 : ℚ) ≤ 1 / 2 ^ 1074 := by positivity
  rw [e1]
  unfold Off at h1
  have h3 := abs_sub_le (F.fl (a + y)) (a + y) (a + x)
  have h4 : |a + y - (a + x)| = |y - x| := by congr 1; ring
  have h5 : |a + y| ≤ |a + x| + |y - x| := by
    have := abs_add_le (a + x) (y - x)
    rwa [show a + x + (y - x) = a + y by ring] at this
  have h6 : |x| ≤ |a| + |a + x| := by
    have := abs_add_le (-a) (a + x)
    rwa [neg_add_cancel_left, abs_neg] at this
  rw [h4] at h3
  have := abs_nonneg (a + x)
  have := abs_nonneg a
  generalize (1 : ℚ) / 2 ^ 1074 = η at *
  norm_num1 at *
  linarith

theorem off_zero (x : ℚ) {k e : ℚ} (hk : 0 ≤ k) (he : 0 ≤ e) : Off k e x x := off_mono (off_same x) hk he

theorem near_self (a b : ℚ) : |b - b| ≤ (|a| + |b|) / 2 ^ 49 + 1 / 2 ^ 1070 := by
  rw [sub_self, abs_zero]
  positivity

theorem add_near (F : FloatRounding) (a b : Len ℚ) :
    (∀ e, Len.add a b = .error e → addLen F a b = .error e) ∧
      ∀ s, Len.add a b = .ok s → ∃ t, addLen F a b = .ok t ∧ t.units = s.units ∧
        |t.amount - s.amount| ≤ (|a.amount| + |s.amount|) / 2 ^ 49 + 1 / 2 ^ 1070 := by
  obtain ⟨x, u⟩ := a
  obtain ⟨y, v⟩ := b
  have hη : (0 : ℚ) ≤ 1 / 2 ^ 1074 := by positivity
  have plain := sum_near F x (off_same y) (by norm_num) (by linarith)
  have times : ∀ c : ℚ, |F.fl (x + F.fl (y * c)) - (x + y * c)| ≤ (|x| + |x + y * c|) / 2 ^ 49 + 1 / 2 ^ 1070 := fun c =>
    sum_near F x (off_mul F (off_same y) le_rfl (by norm_num) le_rfl le_rfl) (by norm_num) (by linarith)
  have over : ∀ c : ℚ, |F.fl (x + F.fl (y / c)) - (x + y / c)| ≤ (|x| + |x + y / c|) / 2 ^ 49 + 1 / 2 ^ 1070 := fun c => by
    have := times (1 / c)
    rwa [mul_one_div] at this
  have ctimes : ∀ c : ℚ, |F.fl c - c| ≤ |c| * 2 / 2 ^ 53 →
      |F.fl (x + F.fl (y * F.fl c)) - (x + y * c)| ≤ (|x| + |x + y * c|) / 2 ^ 49 + 1 / 2 ^ 1070 := fun c hc =>
    sum_near F x (off_const F (off_same y) le_rfl (by norm_num) le_rfl le_rfl (weaken hc)) (by norm_num) (by linarith)
  have cover : ∀ c : ℚ, 0 < c → |F.fl c - c| ≤ |c| * 2 / 2 ^ 53 →
      |F.fl (x + F.fl (y / F.fl c)) - (x + y / c)| ≤ (|x| + |x + y / c|) / 2 ^ 49 + 1 / 2 ^ 1070 := fun c h0 hc => by
    have := sum_near F x (off_const F (off_same y) le_rfl (by norm_num) le_rfl le_rfl (inv_err h0 hc)) (by norm_num) (by linarith)
    rwa [mul_one_div, mul_one_div] at this
  have p0 : (0 : ℚ) < Len.cPt := by norm_num [Len.cPt]
  have c0 : (0 : ℚ) < Len.cCm := by norm_num [Len.cCm]
  have m0 : (0 : ℚ) < Len.cMm := by norm_num [Len.cMm]
  have hpt := pt_err F
  have hmm := mm_err F
  have hcm := cm_err F
  unfold Len.add addLen
  simp only
  by_cases h1 : u = v
  · rw [if_pos h1, if_pos h1]
    simp only [reduceCtorEq, false_implies, implies_true, Except.ok.injEq, true_and]
    rintro s rfl
    exact ⟨_, rfl, rfl, plain⟩
  rw [if_neg h1, if_neg h1]
  by_cases h2 : x = 0
  · rw [if_pos h2, if_pos h2]
    simp only [reduceCtorEq, false_implies, implies_true, Except.ok.injEq, true_and]
    rintro s rfl
    exact ⟨_, rfl, rfl, near_self _ _⟩
  rw [if_neg h2, if_neg h2]
  by_cases h3 : y = 0
  · rw [if_pos h3, if_pos h3]
    simp only [reduceCtorEq, false_implies, implies_true, Except.ok.injEq, true_and]
    rintro s rfl
    exact ⟨_, rfl, rfl, near_self _ _⟩
  rw [if_neg h3, if_neg h3]
  have fin : ∀ {p q : ℚ} (w : Units), |p - q| ≤ (|x| + |q|) / 2 ^ 49 + 1 / 2 ^ 1070 →
      (∀ e, (Except.ok ⟨q, w⟩ : Except PyErr (Len ℚ)) = .error e → (Except.ok ⟨p, w⟩ : Except PyErr (Len ℚ)) = .error e) ∧
      ∀ s, (Except.ok ⟨q, w⟩ : Except PyErr (Len ℚ)) = .ok s → ∃ t, (Except.ok ⟨p, w⟩ : Except PyErr (Len ℚ)) = .ok t ∧ t.units = s.units ∧
        |t.amount - s.amount| ≤ (|x| + |s.amount|) / 2 ^ 49 + 1 / 2 ^ 1070 := by
    intro p q w h
    refine ⟨by simp, fun s hs => ?_⟩
    obtain rfl : s = ⟨q, w⟩ := by simpa using hs.symm
    exact ⟨_, rfl, rfl, h⟩
  have bad : (∀ e, (Except.error PyErr.valueError : Except PyErr (Len ℚ)) = .error e → (Except.error PyErr.valueError : Except PyErr (Len ℚ)) = .error e) ∧
      ∀ s, (Except.error PyErr.valueError : Except PyErr (Len ℚ)) = .ok s → ∃ t, (Except.error PyErr.valueError : Except PyErr (Len ℚ)) = .ok t ∧
        t.units = s.units ∧ |t.amount - s.amount| ≤ (|x| + |s.amount|) / 2 ^ 49 + 1 / 2 ^ 1070 :=
    ⟨fun e h => h, fun s hs => by simp at hs⟩
  generalize (Len.cPt : ℚ) = kp at *
  generalize (Len.cCm : ℚ) = kc at *
  generalize (Len.cMm : ℚ) = km at *
  cases u
  case px => cases v with
    | px | none => exact fin _ plain
    | pt => exact fin _ (ctimes _ ‹_›)
    | pc => exact fin _ (times _)
    | _ => exact bad
  case none => cases v with
    | px | none => exact fin _ plain
    | pt => exact fin _ (ctimes _ ‹_›)
    | pc => exact fin _ (times _)
    | _ => exact bad
  case pt => cases v with
    | px | none => exact fin _ (cover _ p0 ‹_›)
    | pc => exact fin _ (times _)
    | _ => exact bad
  case pc => cases v with
    | px | none => exact fin _ (over _)
    | pt => exact fin _ (over _)
    | _ => exact bad
  case cm => cases v with
    | mm => exact fin _ (over _)
    | inch => exact fin _ (cover _ c0 ‹_›)
    | _ => exact bad
  case mm => cases v with
    | cm => exact fin _ (times _)
    | inch => exact fin _ (cover _ m0 ‹_›)
    | _ => exact bad
  case inch => cases v with
    | cm => exact fin _ (ctimes _ ‹_›)
    | mm => exact fin _ (ctimes _ ‹_›)
    | _ => exact bad
  all_goals exact bad

/-- doubles are multiples of the least one -/
theorem double_multiple {x : ℚ} (h : IsDouble x) : ∃ n : ℤ, x = n * (1 / 2 ^ 1074) := by
  obtain ⟨k, m, rfl, -, hm⟩ := h
  refine ⟨k * 2 ^ (m + 1074).toNat, ?_⟩
  push_cast
  rw [mul_assoc]
  congr 1
  rw [← zpow_natCast, Int.toNat_of_nonneg (by omega), zpow_add₀ (by norm_num), show (1074 : ℤ) = ((1074 : ℕ) : ℤ) from rfl, zpow_natCast]
  rw [mul_assoc, mul_one_div_cancel (by positivity), mul_one]

theorem least_isDouble : IsDouble (1 / 2 ^ 1074) := ⟨1, -1074, by
  rw [zpow_neg, Int.cast_one, one_mul, one_div]; rfl, by norm_num, le_rfl⟩

/-- a difference of doubles is positive exactly if the first is larger -/
theorem sub_pos_round {x y : ℚ} (hx : IsDouble x) (hy : IsDouble y) : 0 < roundDouble (x - y) ↔ y < x := by
  constructor
  · intro h
    by_contra hc
    have := roundDouble_mono (show x - y ≤ 0 by linarith [not_lt.1 hc])
    rw [show roundDouble 0 = 0 from fl_zero doubles] at this
    linarith
  · intro h
    obtain ⟨m, hm⟩ := double_multiple hx
    obtain ⟨n, hn⟩ := double_multiple hy
    have hη : (0 : ℚ) < 1 / 2 ^ 1074 := by positivity
    have hmn : n < m := by
      rw [hm, hn] at h
      exact_mod_cast lt_of_mul_lt_mul_right h hη.le
    have h1 : 1 / 2 ^ 1074 ≤ x - y := by
      rw [hm, hn, ← sub_mul]
      have : (1 : ℚ) ≤ m - n := by
        have : (n : ℚ) + 1 ≤ m := by exact_mod_cast hmn
        linarith
      nlinarith
    have := roundDouble_mono h1
    rw [roundDouble_double least_isDouble] at this
    linarith

/-- a difference of doubles is negative exactly if the first is smaller -/
theorem sub_neg_round {x y : ℚ} (hx : IsDouble x) (hy : IsDouble y) : roundDouble (x - y) < 0 ↔ x < y := by
  constructor
  · intro h
    by_contra hc
    have := roundDouble_mono (show 0 ≤ x - y by linarith [not_lt.1 hc])
    rw [show roundDouble 0 = 0 from fl_zero doubles] at this
    linarith
  · intro h
    obtain ⟨m, hm⟩ := double_multiple hx
    obtain ⟨n, hn⟩ := double_multiple hy
    have hη : (0 : ℚ) < 1 / 2 ^ 1074 := by positivity
    have hmn : m < n := by
      rw [hm, hn] at h
      exact_mod_cast lt_of_mul_lt_mul_right h hη.le
    have h1 : x - y ≤ -(1 / 2 ^ 1074) := by
      rw [hm, hn, ← sub_mul]
      have : (m : ℚ) - n ≤ -1 := by
        have : (m : ℚ) + 1 ≤ n := by exact_mod_cast hmn
        linarith
      nlinarith
    have := roundDouble_mono h1
    rw [roundDouble_double (x := -(1 / 2 ^ 1074)) ⟨-1, -1074, by
      rw [zpow_neg, Int.cast_neg, Int.cast_one, one_div, neg_one_mul]; rfl, by norm_num, le_rfl⟩] at this
    linarith

end FloatUnits

/-- C160: adding or subtracting lengths with floats: the same unit, the same exceptions, and the amount up to a few roundings of the
first amount and of the result -/
theorem C160_add (F : FloatRounding) (a b : Len ℚ) :
    ((∀ e, Len.add a b = .error e → addLen F a b = .error e) ∧
      ∀ s, Len.add a b = .ok s → ∃ t, addLen F a b = .ok t ∧ t.units = s.units ∧
        |t.amount - s.amount| ≤ (|a.amount| + |s.amount|) / 2 ^ 49 + 1 / 2 ^ 1070) ∧
    ((∀ e, Len.sub a b = .error e → subLen F a b = .error e) ∧
      ∀ s, Len.sub a b = .ok s → ∃ t, subLen F a b = .ok t ∧ t.units = s.units ∧
        |t.amount - s.amount| ≤ (|a.amount| + |s.amount|) / 2 ^ 49 + 1 / 2 ^ 1070) :=
  ⟨add_near F a b, add_near F a (Len.neg b)⟩

theorem sixteen_least : (1 : ℚ) / 2 ^ 1070 = 16 * (1 / 2 ^ 1074) := by
  rw [show 1074 = 1070 + 4 from rfl, pow_add]
  generalize (2 : ℚ) ^ 1070 = z
  rw [← div_div]; ring

/-- C160: a product of two lengths with floats: the same unit, the same exceptions, and the amount up to a few roundings -/
theorem C160_mul (F : FloatRounding) (a b : Len ℚ) :
    (∀ e, Len.mul a b = .error e → mulLen F a b = .error e) ∧
      ∀ v, Len.mul a b = .ok v → ∃ w, mulLen F a b = .ok w ∧ NearVal (1 / 2 ^ 49) (1 / 2 ^ 1070) v w := by
  obtain ⟨y, p⟩ := a
  obtain ⟨x, q⟩ := b
  have hη : (0 : ℚ) ≤ 1 / 2 ^ 1074 := by positivity
  have two : Off 2 (1 / 2 ^ 1074) (y * x) (F.fl (y * x)) := by
    simpa using off_round F (off_same (y * x)) le_rfl (by norm_num) le_rfl
  have four : Off 4 (4 * (1 / 2 ^ 1074)) (y * x / 100) (F.fl (F.fl (y * x) / 100)) := by
    rw [show y * x / 100 = y * x * (1 / 100) by ring, show F.fl (y * x) / 100 = F.fl (y * x) * (1 / 100) by ring]
    exact off_mono (off_mul F two (by norm_num) (by norm_num) hη hundredth) (by norm_num) (by linarith)
  rw [sixteen_least]
  by_cases y0 : y = 0
  · subst y0
    simp only [Len.mul, mulLen, if_true, reduceCtorEq, false_implies, implies_true, Except.ok.injEq, true_and]
    rintro v rfl
    exact ⟨_, rfl, near_num (off_same 0) (by norm_num) (by linarith)⟩
  by_cases x0 : x = 0
  · subst x0
    simp only [Len.mul, mulLen, y0, if_true, if_false, reduceCtorEq, false_implies, implies_true, Except.ok.injEq, true_and]
    rintro v rfl
    exact ⟨_, rfl, near_len (off_same 0) (by norm_num) (by linarith)⟩
  by_cases hu : p = q
  · subst hu
    simp only [Len.mul, mulLen, y0, x0, if_true, if_false, reduceCtorEq, false_implies, implies_true, Except.ok.injEq, true_and]
    rintro v rfl
    exact ⟨_, rfl, near_len two (by norm_num) (by linarith)⟩
  by_cases hp : p = .percent
  · simp only [Len.mul, mulLen, y0, x0, hu, if_false, if_pos hp, reduceCtorEq, false_implies, implies_true, Except.ok.injEq, true_and]
    rintro v rfl
    exact ⟨_, rfl, near_len four (by norm_num) (by linarith)⟩
  by_cases hq : q = .percent
  · simp only [Len.mul, mulLen, y0, x0, hu, hp, if_false, if_pos hq, reduceCtorEq, false_implies, implies_true, Except.ok.injEq, true_and]
    rintro v rfl
    exact ⟨_, rfl, near_len four (by norm_num) (by linarith)⟩
  · simp only [Len.mul, mulLen, y0, x0, hu, hp, hq, if_false, reduceCtorEq, false_implies, implies_true, Except.error.injEq, imp_self, and_self]

/-- C160: `float(length)` with floats -/
theorem C160_float (F : FloatRounding) (l : Len ℚ) : |toFloat F l - Len.toFloat l| ≤ |Len.toFloat l| / 2 ^ 49 + 1 / 2 ^ 1070 := by
  have hη : (0 : ℚ) ≤ 1 / 2 ^ 1074 := by positivity
  obtain ⟨x, u⟩ := l
  rw [sixteen_least]
  have fin : ∀ {k e a b}, Off k e a b → k ≤ 16 → e ≤ 16 * (1 / 2 ^ 1074) → |b - a| ≤ |a| / 2 ^ 49 + 16 * (1 / 2 ^ 1074) := by
    intro k e a b h hk he
    have := off_mono h hk he
    unfold Off at this
    refine this.trans (le_of_eq ?_)
    ring
  unfold toFloat Len.toFloat
  by_cases h1 : u = .pt
  · simp only [if_pos h1]
    exact fin (off_const F (off_same x) le_rfl (by norm_num) le_rfl le_rfl (weaken (pt_err F))) (by norm_num) (by linarith)
  · simp only [if_neg h1]
    by_cases h2 : u = .pc
    · simp only [if_pos h2]
      exact fin (off_mul F (off_same x) le_rfl (by norm_num) le_rfl le_rfl) (by norm_num) (by linarith)
    · simp only [if_neg h2]
      exact fin (off_same x) (by norm_num) (by linarith)

/-- a percentage of a length, and picas as pixels -/
example : Len.mul (⟨50, .percent⟩ : Len ℚ) ⟨3, .mm⟩ = .ok (.len ⟨3 / 2, .mm⟩) ∧ Len.toFloat (⟨3, .pc⟩ : Len ℚ) = 48 := by
  constructor
  · simp [Len.mul]; norm_num
  · simp [Len.toFloat]; norm_num

/-- C160: lengths with the same unit are compared exactly -/
theorem C160_compare (a b : Len ℚ) (hu : a.units = b.units) (ha : IsDouble a.amount) (hb : IsDouble b.amount) :
    ltLen doubles a b = .ok (decide (a.amount < b.amount)) ∧ leLen doubles a b = .ok (decide (a.amount ≤ b.amount)) ∧
      gtLen doubles a b = .ok (decide (a.amount > b.amount)) ∧ geLen doubles a b = .ok (decide (a.amount ≥ b.amount)) := by
  have h : subLen doubles a b = .ok { a with amount := roundDouble (a.amount - b.amount) } := by
    unfold subLen addLen
    rw [if_pos (show a.units = (Len.neg b).units from hu)]
    simp only [Len.neg, ← sub_eq_add_neg]
    rfl
  have hpos := sub_pos_round ha hb
  have hneg := sub_neg_round ha hb
  unfold ltLen leLen gtLen geLen
  rw [h]
  refine ⟨?_, ?_, ?_, ?_⟩ <;> simp only [Except.ok.injEq, decide_eq_decide]
  · exact hneg
  · rw [← not_lt, ← not_lt]; exact not_congr hpos
  · exact hpos
  · rw [ge_iff_le, ge_iff_le, ← not_lt, ← not_lt]; exact not_congr hneg

/-- C160: lengths with different units are compared correctly unless they are nearly the same -/
theorem C160_compare_units (F : FloatRounding) {a b s : Len ℚ} (hs : Len.sub a b = .ok s) (h : |a.amount| / 2 ^ 48 + 1 / 2 ^ 1069 < |s.amount|) :
    ltLen F a b = Len.lt a b ∧ leLen F a b = Len.le a b ∧ gtLen F a b = Len.gt a b ∧ geLen F a b = Len.ge a b := by
  obtain ⟨t, ht, -, he⟩ := (C160_add F a b).2.2 s hs
  unfold ltLen leLen gtLen geLen Len.lt Len.le Len.gt Len.ge
  rw [hs, ht]
  have e1 : (1 : ℚ) / 2 ^ 1069 = 2 * (1 / 2 ^ 1070) := by
    rw [show 1070 = 1069 + 1 from rfl, pow_add]
    generalize (2 : ℚ) ^ 1069 = z
    rw [← div_div]; ring
  have hη : (0 : ℚ) < 1 / 2 ^ 1070 := by positivity
  rw [e1] at h
  generalize (1 : ℚ) / 2 ^ 1070 = η at *
  have hlt : |t.amount - s.amount| < |s.amount| := by
    have := abs_nonneg a.amount
    norm_num1 at *
    linarith
  have hsne : s.amount ≠ 0 := by
    intro h0
    rw [h0, abs_zero] at hlt
    exact absurd hlt (not_lt.2 (abs_nonneg _))
  rcases lt_or_gt_of_ne hsne with h0 | h0
  · rw [abs_of_neg h0] at hlt
    have ht0 : t.amount < 0 := by linarith [(abs_lt.1 hlt).2]
    simp only [Except.ok.injEq, decide_eq_decide]
    refine ⟨?_, ?_, ?_, ?_⟩ <;> constructor <;> intro <;> linarith
  · rw [abs_of_pos h0] at hlt
    have ht0 : 0 < t.amount := by linarith [(abs_lt.1 hlt).1]
    simp only [Except.ok.injEq, decide_eq_decide]
    refine ⟨?_, ?_, ?_, ?_⟩ <;> constructor <;> intro <;> linarith

/-- the double written 10.01 -/
def tenHundredth : ℚ := 5635129033747333 / 2 ^ 49

/-- the double written 1.001 -/
def oneThousandth : ℚ := 2254051613498933 / 2 ^ 51

/-- the double next below 10.01 -/
def belowTen : ℚ := 1408782258436833 / 2 ^ 47

theorem tenHundredth_double : roundDouble (1001 / 100) = tenHundredth := by decide +kernel

theorem oneThousandth_double : roundDouble (1001 / 1000) = oneThousandth := by decide +kernel

/-- C160, against the code: 10.01mm is greater than 1.001cm, but 1.001cm is not less than 10.01mm -/
theorem C160_order_wrong : gtLen doubles ⟨tenHundredth, .mm⟩ ⟨oneThousandth, .cm⟩ = .ok true ∧
    ltLen doubles ⟨oneThousandth, .cm⟩ ⟨tenHundredth, .mm⟩ = .ok false := by
  have h1 : gtLen doubles ⟨tenHundredth, .mm⟩ ⟨oneThousandth, .cm⟩ = .ok (decide (roundDouble (tenHundredth - belowTen) > 0)) := by
    have e : roundDouble (-oneThousandth * 10) = -belowTen := by decide +kernel
    have n1 : ¬ tenHundredth = 0 := by norm_num [tenHundredth]
    have n2 : ¬ -oneThousandth = 0 := by norm_num [oneThousandth]
    simp only [gtLen, subLen, addLen, Len.neg, n1, n2, if_false, reduceCtorEq]
    rw [show doubles.fl (-oneThousandth * 10) = -belowTen from e, ← sub_eq_add_neg]
    rfl
  have h2 : (ltLen doubles ⟨oneThousandth, .cm⟩ ⟨tenHundredth, .mm⟩).toOption = some false := by decide +kernel
  constructor
  · rw [h1, Except.ok.injEq, decide_eq_true_iff]
    refine (sub_pos_round ⟨5635129033747333, -49, ?_, by norm_num, by norm_num⟩ ⟨1408782258436833, -47, ?_, by norm_num, by norm_num⟩).2 ?_
    · norm_num [tenHundredth]
    · norm_num [belowTen]
    · norm_num [tenHundredth, belowTen]
  · cases h : ltLen doubles ⟨oneThousandth, .cm⟩ ⟨tenHundredth, .mm⟩ with
    | error e => rw [h] at h2; simp [Except.toOption] at h2
    | ok b => rw [h] at h2; simpa [Except.toOption] using h2

/-- C160: 50% of 3in at 96 pixels per inch -/
example : ∃ w, value doubles { ppi := some 96, relative := some (.len ⟨3, .inch⟩) } ⟨50, .percent⟩ = .ok w ∧
    NearVal (1 / 2 ^ 49) (100 / 2 ^ 1064) (.num 144) w :=
  (C160_value doubles (M := 100) (by norm_num) ⟨by rintro p ⟨⟩; norm_num [abs_of_pos], by simp, by simp, by simp, by simp⟩ ⟨50, .percent⟩).2 (.num 144)
    (by simp [Len.value, Len.mul, Len.valueAbs]; norm_num)

/-- C160: 20in + 3cm -/
example : ∃ t, addLen doubles ⟨20, .inch⟩ ⟨3, .cm⟩ = .ok t ∧ t.units = .inch ∧
    |t.amount - 21181103 / 1000000| ≤ (20 + 21181103 / 1000000) / 2 ^ 49 + 1 / 2 ^ 1070 := by
  obtain ⟨t, h1, h2, h3⟩ := (C160_add doubles ⟨20, .inch⟩ ⟨3, .cm⟩).1.2 ⟨21181103 / 1000000, .inch⟩ (by simp [Len.add, Len.cCm]; norm_num)
  refine ⟨t, h1, h2, ?_⟩
  simp only at h3
  rwa [abs_of_pos (show (0 : ℚ) < 20 by norm_num), abs_of_pos (show (0 : ℚ) < 21181103 / 1000000 by norm_num)] at h3

/-- C160: 1cm and 2cm; 1in and 3cm -/
example : ltLen doubles ⟨1, .cm⟩ ⟨2, .cm⟩ = .ok true := by
  have := (C160_compare ⟨1, .cm⟩ ⟨2, .cm⟩ rfl (by exact_mod_cast isDouble_int (n := 1) (by norm_num)) (by exact_mod_cast isDouble_int (n := 2) (by norm_num))).1
  simpa using this

example : ltLen doubles ⟨1, .inch⟩ ⟨3, .cm⟩ = .ok true := by
  have h := (C160_compare_units doubles (a := ⟨1, .inch⟩) (b := ⟨3, .cm⟩) (s := ⟨-(181103 / 1000000), .inch⟩)
    (by simp [Len.sub, Len.add, Len.neg, Len.cCm]; norm_num) (by
      have e : (1 : ℚ) / 2 ^ 1069 ≤ 1 / 2 ^ 48 := by
        apply one_div_le_one_div_of_le (by positivity)
        exact pow_le_pow_right₀ (by norm_num) (by norm_num)
      simp only [abs_neg]
      rw [abs_of_pos (show (0 : ℚ) < 1 by norm_num), abs_of_pos (show (0 : ℚ) < 181103 / 1000000 by norm_num)]
      norm_num1 at *
      linarith)).1
  rw [h]
  norm_num [Len.lt, Len.sub, Len.add, Len.neg, Len.cCm] <;> simp

end Svgio.Props
