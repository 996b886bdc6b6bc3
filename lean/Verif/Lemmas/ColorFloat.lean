import Verif.Model.ColorFloat
import Verif.Props.ColorHsl
import Verif.Props.ColorFun
import Mathlib.Algebra.Order.Group.MinMax

/-!
Errors of the float version of the conversion from hue, saturation and lightness.
-/

namespace Svgio.Color.Flt

open Spec

/-- a unit of error -/
def u : ℚ := 1 / 2 ^ 49

theorem u_pos : 0 < u := by unfold u; norm_num
theorem u_small : u ≤ 1 / 10 ^ 14 := by unfold u; norm_num

variable {F : FloatRounding}

theorem rnd {x M : ℚ} (h : |x| ≤ M) (hM : 1 ≤ M) : |F.fl x - x| ≤ M * u / 8 := by
  have e := F.err x
  have t := Svgio.tiny
  have h1 : |x| / 2 ^ 53 ≤ M / 2 ^ 53 := by gcongr
  have h2 : (1 : ℚ) / 2 ^ 60 ≤ M / 2 ^ 53 := by
    rw [div_le_div_iff₀ (by norm_num) (by norm_num)]
    nlinarith
  have h3 : M * u / 8 = M / 2 ^ 53 + M / 2 ^ 53 := by unfold u; ring
  rw [h3]
  linarith

theorem rnd8 {x : ℚ} (h : |x| ≤ 8) : -u ≤ F.fl x - x ∧ F.fl x - x ≤ u := by
  have := rnd (F := F) h (by norm_num)
  rw [abs_le] at this
  constructor <;> linarith

/-- the wave: rises on the first sixth of the circle, stays on top up to the half, falls up to two thirds -/
def wave (x : ℚ) : ℚ := max 0 (min 1 (min (6 * x) (4 - 6 * x)))

/-- the wave at the circle, for places from -1 to 2 turns -/
def wave3 (x : ℚ) : ℚ := wave (x - 1) + wave x + wave (x + 1)

theorem wave_range (x : ℚ) : 0 ≤ wave x ∧ wave x ≤ 1 := ⟨le_max_left _ _, max_le (by norm_num) (min_le_left _ _)⟩

theorem wave_zero_left {x : ℚ} (h : x ≤ 0) : wave x = 0 := by
  unfold wave
  exact max_eq_left ((min_le_right _ _).trans ((min_le_left _ _).trans (by linarith)))

theorem wave_zero_right {x : ℚ} (h : 2 / 3 ≤ x) : wave x = 0 := by
  unfold wave
  exact max_eq_left ((min_le_right _ _).trans ((min_le_right _ _).trans (by linarith)))

theorem cut_lip (a b : ℚ) : |max 0 (min 1 a) - max 0 (min 1 b)| ≤ |a - b| := by
  have h2 := abs_min_sub_min_le_max 1 a 1 b
  have h3 := abs_max_sub_max_le_max 0 (min 1 a) 0 (min 1 b)
  rw [sub_self, abs_zero] at h2 h3
  exact h3.trans (max_le (abs_nonneg _) (h2.trans (max_le (abs_nonneg _) le_rfl)))

theorem wave_lip (x y : ℚ) : |wave x - wave y| ≤ 6 * |x - y| := by
  have a1 : |6 * x - 6 * y| = 6 * |x - y| := by rw [← mul_sub, abs_mul, abs_of_pos (by norm_num : (0 : ℚ) < 6)]
  have a2 : |(4 - 6 * x) - (4 - 6 * y)| = 6 * |x - y| := by
    rw [show (4 - 6 * x) - (4 - 6 * y) = -(6 * x - 6 * y) by ring, abs_neg, a1]
  have h1 := abs_min_sub_min_le_max (6 * x) (4 - 6 * x) (6 * y) (4 - 6 * y)
  rw [a1, a2, max_self] at h1
  exact (cut_lip _ _).trans h1

theorem wave3_lip (x y : ℚ) : |wave3 x - wave3 y| ≤ 18 * |x - y| := by
  unfold wave3
  have h1 := wave_lip (x - 1) (y - 1)
  have h2 := wave_lip x y
  have h3 := wave_lip (x + 1) (y + 1)
  rw [show x - 1 - (y - 1) = x - y by ring] at h1
  rw [show x + 1 - (y + 1) = x - y by ring] at h3
  rw [abs_le] at *
  constructor <;> linarith

theorem wave3_range (x : ℚ) : 0 ≤ wave3 x ∧ wave3 x ≤ 3 := by
  unfold wave3
  have h1 := wave_range (x - 1)
  have h2 := wave_range x
  have h3 := wave_range (x + 1)
  constructor <;> linarith

theorem wave3_turn {x : ℚ} (h1 : -4 / 3 ≤ x) (h2 : x ≤ 1) : wave3 (x + 1) = wave3 x := by
  unfold wave3
  rw [wave_zero_right (x := x + 1 + 1) (by linarith), wave_zero_left (x := x - 1) (by linarith), add_sub_cancel_right]
  ring

/-- `hue_2_rgb` with exact arithmetic -/
theorem hue2rgb_wave {v1 v2 x : ℚ} (h1 : -1 ≤ x) (h2 : x ≤ 2) : Color.hue2rgb v1 v2 x = v1 + (v2 - v1) * wave3 x := by
  have base : ∀ y, 0 ≤ y → y ≤ 1 → (if 6 * y < 1 then v1 + (v2 - v1) * 6 * y
      else if 2 * y < 1 then v2 else if 3 * y < 2 then v1 + (v2 - v1) * (2 / 3 - y) * 6 else v1) = v1 + (v2 - v1) * wave3 y := by
    intro y y0 y1
    have e : wave3 y = wave y := by
      unfold wave3
      rw [wave_zero_left (x := y - 1) (by linarith), wave_zero_right (x := y + 1) (by linarith)]
      ring
    rw [e]
    unfold wave
    split_ifs with c1 c2 c3
    · rw [min_eq_left (a := 6 * y) (by linarith), min_eq_right (by linarith), max_eq_right (by linarith)]; ring
    · rw [min_eq_left (le_min (by linarith) (by linarith)), max_eq_right (by norm_num)]; ring
    · rw [min_eq_right (a := 6 * y) (by linarith), min_eq_right (by linarith), max_eq_right (by linarith)]; ring
    · rw [max_eq_left ((min_le_right _ _).trans ((min_le_right _ _).trans (by linarith)))]; ring
  unfold Color.hue2rgb
  simp only
  by_cases c1 : x < 0
  · rw [if_pos c1, if_neg (show ¬ x + 1 > 1 by linarith), base (x + 1) (by linarith) (by linarith), wave3_turn (by linarith) (by linarith)]
  · rw [if_neg c1]
    by_cases c2 : x > 1
    · rw [if_pos c2, base (x - 1) (by linarith) (by linarith)]
      have := wave3_turn (x := x - 1) (by linarith) (by linarith)
      rw [sub_add_cancel] at this
      rw [this]
    · rw [if_neg c2, base x (by linarith) (by linarith)]

/-- the last part of `hue_2_rgb` with floats -/
theorem hue2rgb_base {v1 v2 y : ℚ} (a1 : |v1| ≤ 2) (a2 : |v2| ≤ 2) (h1 : -(6 * u) ≤ y) (h2 : y ≤ 1 + 6 * u) :
    |(if F.fl (6 * y) < 1 then F.fl (v1 + F.fl (F.fl (F.fl (v2 - v1) * 6) * y))
      else if F.fl (2 * y) < 1 then v2
      else if F.fl (3 * y) < 2 then F.fl (v1 + F.fl (F.fl (F.fl (v2 - v1) * F.fl (F.fl (2 / 3) - y)) * 6))
      else v1) - (v1 + (v2 - v1) * wave y)| ≤ 200 * u := by
  have u0 := u_pos
  have u1 := u_small
  have hy : |y| ≤ 1001 / 1000 := by rw [abs_le]; constructor <;> linarith
  have hD : |v2 - v1| ≤ 4 := (abs_sub _ _).trans (by linarith)
  have k6 := rnd8 (F := F) (x := 6 * y) (by rw [abs_mul]; norm_num; linarith)
  have k2 := rnd8 (F := F) (x := 2 * y) (by rw [abs_mul]; norm_num; linarith)
  have k3 := rnd8 (F := F) (x := 3 * y) (by rw [abs_mul]; norm_num; linarith)
  have kd := rnd (F := F) hD (by norm_num)
  generalize hDD : v2 - v1 = D at *
  have hd : |F.fl D| ≤ 5 := by
    have := abs_add_le (F.fl D - D) D
    rw [sub_add_cancel] at this
    linarith
  have hd2 : |F.fl D - D| ≤ u := by linarith
  generalize F.fl D = d at *
  have fin : ∀ w b : ℚ, ∀ c, |w - D * wave y| ≤ c → b = v1 + w → |b - (v1 + D * wave y)| ≤ c := by
    intro w b c hw e
    rw [e, add_sub_add_left_eq_sub]
    exact hw
  split_ifs with c1 c2 c3
  · have hp := rnd (F := F) (x := d * 6) (M := 30) (by rw [abs_mul]; norm_num; linarith) (by norm_num)
    have hp1 : |F.fl (d * 6)| ≤ 31 := by
      have := abs_add_le (F.fl (d * 6) - d * 6) (d * 6)
      rw [sub_add_cancel, abs_mul d 6] at this
      norm_num at this
      linarith
    have hp2 : |F.fl (d * 6) - 6 * D| ≤ 10 * u := by
      have := abs_add_le (F.fl (d * 6) - d * 6) ((d - D) * 6)
      rw [abs_mul (d - D) 6] at this
      norm_num at this
      rw [show F.fl (d * 6) - 6 * D = F.fl (d * 6) - d * 6 + (d - D) * 6 by ring]
      linarith
    generalize F.fl (d * 6) = p at *
    have hpy : |p * y| ≤ 32 := by
      rw [abs_mul]
      nlinarith [abs_nonneg p, abs_nonneg y]
    have hq := rnd (F := F) hpy (by norm_num)
    have hq2 : |F.fl (p * y) - 6 * D * y| ≤ 15 * u := by
      have := abs_add_le (F.fl (p * y) - p * y) ((p - 6 * D) * y)
      have m : |(p - 6 * D) * y| ≤ 10 * u * (1001 / 1000) := by
        rw [abs_mul]
        exact mul_le_mul hp2 hy (abs_nonneg _) (by linarith)
      rw [show F.fl (p * y) - 6 * D * y = F.fl (p * y) - p * y + (p - 6 * D) * y by ring]
      linarith
    have hq3 : |F.fl (p * y)| ≤ 33 := by
      have := abs_add_le (F.fl (p * y) - p * y) (p * y)
      rw [sub_add_cancel] at this
      linarith
    generalize F.fl (p * y) = q at *
    have hr := rnd (F := F) (x := v1 + q) (M := 40) ((abs_add_le _ _).trans (by linarith)) (by norm_num)
    have hw : |6 * y - wave y| ≤ 36 * u := by
      unfold wave
      rw [min_eq_left (a := 6 * y) (by linarith [k6.1]), abs_le]
      rcases max_choice 0 (min 1 (6 * y)) with e | e <;> rw [e]
      · have := le_max_right 0 (min 1 (6 * y))
        rw [e] at this
        rcases min_choice 1 (6 * y) with e2 | e2 <;> rw [e2] at this <;> constructor <;> linarith [k6.1]
      · rcases min_choice 1 (6 * y) with e2 | e2 <;> rw [e2]
        · have := min_le_right 1 (6 * y)
          rw [e2] at this
          constructor <;> linarith [k6.1]
        · constructor <;> linarith
    have hw2 : |D * (6 * y - wave y)| ≤ 4 * (36 * u) := by
      rw [abs_mul]
      exact mul_le_mul hD hw (abs_nonneg _) (by norm_num)
    rw [show F.fl (v1 + q) - (v1 + D * wave y) = (F.fl (v1 + q) - (v1 + q)) + (q - 6 * D * y) + D * (6 * y - wave y) by ring]
    have t1 := abs_add_le ((F.fl (v1 + q) - (v1 + q)) + (q - 6 * D * y)) (D * (6 * y - wave y))
    have t2 := abs_add_le (F.fl (v1 + q) - (v1 + q)) (q - 6 * D * y)
    linarith
  · have hw : |1 - wave y| ≤ 4 * u := by
      have := wave_range y
      have : 1 - 4 * u ≤ wave y := by
        unfold wave
        refine le_max_of_le_right (le_min (by linarith) (le_min ?_ ?_))
        · linarith [k6.2]
        · linarith [k2.1]
      rw [abs_le]
      constructor <;> linarith
    have hw2 : |D * (1 - wave y)| ≤ 4 * (4 * u) := by
      rw [abs_mul]
      exact mul_le_mul hD hw (abs_nonneg _) (by norm_num)
    rw [show v2 - (v1 + D * wave y) = D * (1 - wave y) by rw [← hDD]; ring]
    linarith
  · have e0 := rnd8 (F := F) (x := 2 / 3) (by norm_num)
    have hc : |F.fl (2 / 3) - y| ≤ 2 := by
      rw [abs_le] at *
      constructor <;> linarith
    have e1 := rnd (F := F) hc (by norm_num)
    have g2 : |F.fl (F.fl (2 / 3) - y) - (2 / 3 - y)| ≤ 2 * u := by
      rw [abs_le] at *
      constructor <;> linarith
    have g3 : |F.fl (F.fl (2 / 3) - y)| ≤ 2 := by
      rw [abs_le] at *
      constructor <;> linarith
    generalize F.fl (F.fl (2 / 3) - y) = g at *
    have hG : |2 / 3 - y| ≤ 2 := by
      rw [abs_le] at *
      constructor <;> linarith
    have hdg : |d * g| ≤ 10 := by
      rw [abs_mul]
      nlinarith [abs_nonneg d, abs_nonneg g]
    have hp := rnd (F := F) hdg (by norm_num)
    have hp2 : |F.fl (d * g) - D * (2 / 3 - y)| ≤ 15 * u := by
      rw [show F.fl (d * g) - D * (2 / 3 - y) = (F.fl (d * g) - d * g) + d * (g - (2 / 3 - y)) + (d - D) * (2 / 3 - y) by ring]
      have t1 := abs_add_le ((F.fl (d * g) - d * g) + d * (g - (2 / 3 - y))) ((d - D) * (2 / 3 - y))
      have t2 := abs_add_le (F.fl (d * g) - d * g) (d * (g - (2 / 3 - y)))
      have m1 : |d * (g - (2 / 3 - y))| ≤ 5 * (2 * u) := by
        rw [abs_mul]
        exact mul_le_mul hd g2 (abs_nonneg _) (by norm_num)
      have m2 : |(d - D) * (2 / 3 - y)| ≤ u * 2 := by
        rw [abs_mul]
        exact mul_le_mul hd2 hG (abs_nonneg _) (by linarith)
      linarith
    have hp3 : |F.fl (d * g)| ≤ 11 := by
      have := abs_add_le (F.fl (d * g) - d * g) (d * g)
      rw [sub_add_cancel] at this
      linarith
    generalize F.fl (d * g) = p at *
    have hq := rnd (F := F) (x := p * 6) (M := 66) (by rw [abs_mul]; norm_num; linarith) (by norm_num)
    have hq2 : |F.fl (p * 6) - D * (4 - 6 * y)| ≤ 100 * u := by
      rw [show F.fl (p * 6) - D * (4 - 6 * y) = (F.fl (p * 6) - p * 6) + (p - D * (2 / 3 - y)) * 6 by ring]
      have t1 := abs_add_le (F.fl (p * 6) - p * 6) ((p - D * (2 / 3 - y)) * 6)
      rw [abs_mul (p - D * (2 / 3 - y)) 6] at t1
      norm_num at t1
      linarith
    have hq3 : |F.fl (p * 6)| ≤ 67 := by
      have := abs_add_le (F.fl (p * 6) - p * 6) (p * 6)
      rw [sub_add_cancel, abs_mul p 6] at this
      norm_num at this
      linarith
    generalize F.fl (p * 6) = q at *
    have hr := rnd (F := F) (x := v1 + q) (M := 72) ((abs_add_le _ _).trans (by linarith)) (by norm_num)
    have hw : |(4 - 6 * y) - wave y| ≤ 4 * u := by
      unfold wave
      have b1 := k2.2
      have b2 := k3.1
      rw [min_eq_right (a := 6 * y) (by linarith), abs_le]
      rcases max_choice 0 (min 1 (4 - 6 * y)) with e | e <;> rw [e]
      · have := le_max_right 0 (min 1 (4 - 6 * y))
        rw [e] at this
        rcases min_choice 1 (4 - 6 * y) with e2 | e2 <;> rw [e2] at this <;> constructor <;> linarith
      · rcases min_choice 1 (4 - 6 * y) with e2 | e2 <;> rw [e2]
        · have := min_le_right 1 (4 - 6 * y)
          rw [e2] at this
          constructor <;> linarith
        · constructor <;> linarith
    have hw2 : |D * ((4 - 6 * y) - wave y)| ≤ 4 * (4 * u) := by
      rw [abs_mul]
      exact mul_le_mul hD hw (abs_nonneg _) (by norm_num)
    rw [show F.fl (v1 + q) - (v1 + D * wave y) = (F.fl (v1 + q) - (v1 + q)) + (q - D * (4 - 6 * y)) + D * ((4 - 6 * y) - wave y) by ring]
    have t1 := abs_add_le ((F.fl (v1 + q) - (v1 + q)) + (q - D * (4 - 6 * y))) (D * ((4 - 6 * y) - wave y))
    have t2 := abs_add_le (F.fl (v1 + q) - (v1 + q)) (q - D * (4 - 6 * y))
    linarith
  · have hw : |wave y| ≤ 2 * u := by
      have b := (wave_range y).1
      rw [abs_of_nonneg b]
      unfold wave
      exact max_le (by linarith) ((min_le_right _ _).trans ((min_le_right _ _).trans (by linarith [k3.2])))
    have hw2 : |D * wave y| ≤ 4 * (2 * u) := by
      rw [abs_mul]
      exact mul_le_mul hD hw (abs_nonneg _) (by norm_num)
    rw [show v1 - (v1 + D * wave y) = -(D * wave y) by ring, abs_neg]
    linarith

theorem wave3_near {y : ℚ} (h1 : -(6 * u) ≤ y) (h2 : y ≤ 1 + 6 * u) : |wave3 y - wave y| ≤ 36 * u := by
  have u0 := u_pos
  have u1 := u_small
  unfold wave3
  rw [wave_zero_right (x := y + 1) (by linarith)]
  have b := (wave_range (y - 1)).1
  have : wave (y - 1) ≤ 36 * u := by
    unfold wave
    exact max_le (by linarith) ((min_le_right _ _).trans ((min_le_left _ _).trans (by linarith)))
  rw [abs_le]
  constructor <;> linarith

/-- `hue_2_rgb` with floats -/
theorem hue2rgb_near {v1 v2 x : ℚ} (a1 : |v1| ≤ 2) (a2 : |v2| ≤ 2) (h1 : -1 - 4 * u ≤ x) (h2 : x ≤ 2 + 4 * u) :
    |hue2rgb F v1 v2 x - (v1 + (v2 - v1) * wave3 x)| ≤ 1000 * u := by
  have u0 := u_pos
  have u1 := u_small
  have hD : |v2 - v1| ≤ 4 := (abs_sub _ _).trans (by linarith)
  have main : ∀ y, -(6 * u) ≤ y → y ≤ 1 + 6 * u → |wave3 y - wave3 x| ≤ 60 * u →
      |(if F.fl (6 * y) < 1 then F.fl (v1 + F.fl (F.fl (F.fl (v2 - v1) * 6) * y))
      else if F.fl (2 * y) < 1 then v2
      else if F.fl (3 * y) < 2 then F.fl (v1 + F.fl (F.fl (F.fl (v2 - v1) * F.fl (F.fl (2 / 3) - y)) * 6))
      else v1) - (v1 + (v2 - v1) * wave3 x)| ≤ 1000 * u := by
    intro y y1 y2 hw
    have b := hue2rgb_base (F := F) a1 a2 y1 y2
    generalize (if F.fl (6 * y) < 1 then F.fl (v1 + F.fl (F.fl (F.fl (v2 - v1) * 6) * y))
      else if F.fl (2 * y) < 1 then v2
      else if F.fl (3 * y) < 2 then F.fl (v1 + F.fl (F.fl (F.fl (v2 - v1) * F.fl (F.fl (2 / 3) - y)) * 6))
      else v1) = z at *
    have n := wave3_near y1 y2
    have m : |wave y - wave3 x| ≤ 96 * u := by
      rw [abs_le] at *
      constructor <;> linarith
    have m2 : |(v2 - v1) * (wave y - wave3 x)| ≤ 4 * (96 * u) := by
      rw [abs_mul]
      exact mul_le_mul hD m (abs_nonneg _) (by norm_num)
    rw [show z - (v1 + (v2 - v1) * wave3 x) = (z - (v1 + (v2 - v1) * wave y)) + (v2 - v1) * (wave y - wave3 x) by ring]
    have := abs_add_le (z - (v1 + (v2 - v1) * wave y)) ((v2 - v1) * (wave y - wave3 x))
    linarith
  unfold hue2rgb
  simp only
  by_cases c1 : x < 0
  · rw [if_pos c1]
    have e := rnd8 (F := F) (x := x + 1) (by rw [abs_le]; constructor <;> linarith)
    have l1 := wave3_lip (F.fl (x + 1)) (x + 1)
    have l1' : |F.fl (x + 1) - (x + 1)| ≤ u := abs_le.2 e
    rw [wave3_turn (by linarith) (by linarith)] at l1
    by_cases c2 : F.fl (x + 1) > 1
    · rw [if_pos c2]
      have e2 := rnd8 (F := F) (x := F.fl (x + 1) - 1) (by rw [abs_le]; constructor <;> linarith [e.1, e.2])
      refine main _ (by linarith [e2.1]) (by linarith [e2.2, e.2]) ?_
      have l2 := wave3_lip (F.fl (F.fl (x + 1) - 1)) x
      have : |F.fl (F.fl (x + 1) - 1) - x| ≤ 2 * u := by
        rw [abs_le]; constructor <;> linarith [e.1, e.2, e2.1, e2.2]
      linarith
    · rw [if_neg c2]
      exact main _ (by linarith [e.1]) (by linarith) (by linarith)
  · rw [if_neg c1]
    by_cases c2 : x > 1
    · rw [if_pos c2]
      have e := rnd8 (F := F) (x := x - 1) (by rw [abs_le]; constructor <;> linarith)
      refine main _ (by linarith [e.1]) (by linarith [e.2]) ?_
      have l1 := wave3_lip (F.fl (x - 1)) (x - 1)
      have l1' : |F.fl (x - 1) - (x - 1)| ≤ u := abs_le.2 e
      have l2 : |wave3 (x - 1) - wave3 x| ≤ 24 * u := by
        have s1 : wave3 x = wave (x - 1) + wave x + wave (x + 1) := rfl
        have s2 : wave3 (x - 1) = wave (x - 1 - 1) + wave (x - 1) + wave (x - 1 + 1) := rfl
        rw [s1, s2, sub_add_cancel, wave_zero_right (x := x + 1) (by linarith)]
        have b := (wave_range (x - 1 - 1)).1
        have : wave (x - 1 - 1) ≤ 24 * u := by
          unfold wave
          exact max_le (by linarith) ((min_le_right _ _).trans ((min_le_left _ _).trans (by linarith)))
        rw [abs_le]
        constructor <;> linarith
      have t := abs_sub_le (wave3 (F.fl (x - 1))) (wave3 (x - 1)) (wave3 x)
      linarith
    · rw [if_neg c2]
      exact main _ (by linarith) (by linarith) (by rw [sub_self, abs_zero]; linarith)

/-! ### The levels -/

/-- the level of the channel that stands `k` turns from the hue -/
def level (h s l k : ℚ) : ℚ := l + s * min l (1 - l) * (2 * wave3 (h + k) - 1)

/-- nearly from 0 to 1 -/
def Near01 (x : ℚ) : Prop := -(1 / 100) ≤ x ∧ x ≤ 101 / 100

theorem minone_le {l : ℚ} (h : Near01 l) : |min l (1 - l)| ≤ 1 := by
  rw [abs_le]
  refine ⟨le_min (by linarith [h.1]) (by linarith [h.2]), ?_⟩
  rcases le_total l (1 / 2) with c | c
  · exact (min_le_left _ _).trans (by linarith)
  · exact (min_le_right _ _).trans (by linarith)

theorem minone_lip (l l' : ℚ) : |min l (1 - l) - min l' (1 - l')| ≤ |l - l'| := by
  have h := abs_min_sub_min_le_max l (1 - l) l' (1 - l')
  rwa [show 1 - l - (1 - l') = -(l - l') by ring, abs_neg, max_self] at h

theorem level_lip {h s l h' s' l' k : ℚ} (hs' : Near01 s') (hl : Near01 l) (hl' : Near01 l') :
    |level h s l k - level h' s' l' k| ≤ 40 * |wave3 (h + k) - wave3 (h' + k)| + 10 * |s - s'| + 10 * |l - l'| := by
  unfold level
  have w := wave3_range (h + k)
  have w' := wave3_range (h' + k)
  have m1 := minone_le hl
  have m2 := minone_le hl'
  have m3 := minone_lip l l'
  generalize wave3 (h + k) = p at *
  generalize wave3 (h' + k) = p' at *
  generalize min l (1 - l) = a at *
  generalize min l' (1 - l') = a' at *
  have hs'' : |s'| ≤ 101 / 100 := by rw [abs_le]; constructor <;> linarith [hs'.1, hs'.2]
  rw [show l + s * a * (2 * p - 1) - (l' + s' * a' * (2 * p' - 1)) =
    (l - l') + ((s - s') * a + s' * (a - a')) * (2 * p - 1) + s' * a' * (2 * (p - p')) by ring]
  have t1 := abs_add_le ((l - l') + ((s - s') * a + s' * (a - a')) * (2 * p - 1)) (s' * a' * (2 * (p - p')))
  have t2 := abs_add_le (l - l') (((s - s') * a + s' * (a - a')) * (2 * p - 1))
  have t3 := abs_add_le ((s - s') * a) (s' * (a - a'))
  rw [abs_mul (s - s'), abs_mul s'] at t3
  rw [abs_mul _ (2 * p - 1)] at t2
  rw [abs_mul (s' * a'), abs_mul s' a', abs_mul 2 (p - p'), show |(2 : ℚ)| = 2 by norm_num] at t1
  have q1 : |2 * p - 1| ≤ 5 := by rw [abs_le]; constructor <;> linarith [w.1, w.2]
  have q2 : |s - s'| * |a| ≤ |s - s'| * 1 := by gcongr
  have q3 : |s'| * |a - a'| ≤ 101 / 100 * |l - l'| := by gcongr
  have q4 : |(s - s') * a + s' * (a - a')| * |2 * p - 1| ≤ (|s - s'| * 1 + 101 / 100 * |l - l'|) * 5 := by
    have : |(s - s') * a + s' * (a - a')| ≤ |s - s'| * 1 + 101 / 100 * |l - l'| := by linarith
    gcongr
  have q5 : |s'| * |a'| * (2 * |p - p'|) ≤ 101 / 100 * 1 * (2 * |p - p'|) := by gcongr
  have n1 := abs_nonneg (s - s')
  have n2 := abs_nonneg (l - l')
  have n3 := abs_nonneg (p - p')
  linarith

/-- the two values between which the wave moves -/
def v2Of (F : FloatRounding) (s l : ℚ) : ℚ := if l < 1 / 2 then F.fl (l * F.fl (1 + s)) else F.fl (F.fl (l + s) - F.fl (s * l))

theorem v2Of_near {s l : ℚ} (hs : Near01 s) (hl : Near01 l) : |v2Of F s l - (l + s * min l (1 - l))| ≤ 3 * u := by
  have u0 := u_pos
  have u1 := u_small
  obtain ⟨s0, s1⟩ := hs
  obtain ⟨l0, l1⟩ := hl
  have hl' : |l| ≤ 101 / 100 := by rw [abs_le]; constructor <;> linarith
  have hs' : |s| ≤ 101 / 100 := by rw [abs_le]; constructor <;> linarith
  unfold v2Of
  split_ifs with c
  · rw [min_eq_left (by linarith)]
    have e1 := rnd (F := F) (x := 1 + s) (M := 3) (by rw [abs_le]; constructor <;> linarith) (by norm_num)
    have e1' : |F.fl (1 + s)| ≤ 3 := by
      rw [abs_le] at *; constructor <;> linarith
    have b : |l * F.fl (1 + s)| ≤ 4 := by
      rw [abs_mul]; nlinarith [abs_nonneg l, abs_nonneg (F.fl (1 + s))]
    have e2 := rnd (F := F) b (by norm_num)
    have m : |l * (F.fl (1 + s) - (1 + s))| ≤ 101 / 100 * (3 * u / 8) := by
      rw [abs_mul]
      exact mul_le_mul hl' e1 (abs_nonneg _) (by norm_num)
    rw [show F.fl (l * F.fl (1 + s)) - (l + s * l) = (F.fl (l * F.fl (1 + s)) - l * F.fl (1 + s)) + l * (F.fl (1 + s) - (1 + s)) by ring]
    have := abs_add_le (F.fl (l * F.fl (1 + s)) - l * F.fl (1 + s)) (l * (F.fl (1 + s) - (1 + s)))
    linarith
  · rw [min_eq_right (by linarith)]
    have e1 := rnd8 (F := F) (x := l + s) (by rw [abs_le]; constructor <;> linarith)
    have b : |s * l| ≤ 8 := by
      rw [abs_mul]; nlinarith [abs_nonneg l, abs_nonneg s]
    have b' : |s * l| ≤ 2 := by
      rw [abs_mul]; nlinarith [abs_nonneg l, abs_nonneg s]
    have e2 := rnd8 (F := F) b
    have e3 := rnd8 (F := F) (x := F.fl (l + s) - F.fl (s * l)) (by
      rw [abs_le] at b' ⊢; constructor <;> linarith [e1.1, e1.2, e2.1, e2.2])
    rw [abs_le]
    constructor <;> linarith [e1.1, e1.2, e2.1, e2.2, e3.1, e3.2]

theorem v2_range {s l : ℚ} (hs : Near01 s) (hl : Near01 l) : |l + s * min l (1 - l)| ≤ 3 / 2 ∧ |l - s * min l (1 - l)| ≤ 3 / 2 := by
  obtain ⟨s0, s1⟩ := hs
  obtain ⟨l0, l1⟩ := hl
  have k : -(2 / 100) ≤ min l (1 - l) := le_min (by linarith) (by linarith)
  have k1 : min l (1 - l) ≤ 1 / 2 := by
    rcases le_total l (1 / 2) with c | c
    · exact (min_le_left _ _).trans (by linarith)
    · exact (min_le_right _ _).trans (by linarith)
  have k2 := min_le_left l (1 - l)
  have k3 := min_le_right l (1 - l)
  generalize min l (1 - l) = a at *
  have p : |s * a| ≤ 101 / 100 * |a| := by
    rw [abs_mul]
    have : |s| ≤ 101 / 100 := by rw [abs_le]; constructor <;> linarith
    gcongr
  have q : |a| ≤ a + 4 / 100 := by
    rw [abs_le]; constructor <;> linarith
  have r : |s * a| ≤ 101 / 100 * (a + 4 / 100) := p.trans (by linarith)
  rw [abs_le] at r
  constructor <;> rw [abs_le] <;> constructor <;> linarith [r.1, r.2]

/-- the value that `hsl_to_int` computes for a channel -/
theorem channel_near {h s l k kf : ℚ} (hs : Near01 s) (hl : Near01 l) (hk : |kf - (h + k)| ≤ 2 * u)
    (h1 : -1 - 2 * u ≤ h + k) (h2 : h + k ≤ 2 + 2 * u) :
    |F.fl (255 * hue2rgb F (F.fl (F.fl (2 * l) - v2Of F s l)) (v2Of F s l) kf) - 255 * level h s l k| ≤ 300000 * u := by
  have u0 := u_pos
  have u1 := u_small
  have e2 := v2Of_near (F := F) hs hl
  obtain ⟨r2, r1⟩ := v2_range hs hl
  generalize v2Of F s l = v2 at *
  have d1 := rnd8 (F := F) (x := 2 * l) (by rw [abs_le]; constructor <;> linarith [hl.1, hl.2])
  have d2 := rnd8 (F := F) (x := F.fl (2 * l) - v2) (by
    rw [abs_le] at *; constructor <;> linarith [hl.1, hl.2, d1.1, d1.2])
  have e1 : |F.fl (F.fl (2 * l) - v2) - (l - s * min l (1 - l))| ≤ 5 * u := by
    rw [abs_le] at *
    constructor <;> linarith [d1.1, d1.2, d2.1, d2.2]
  generalize F.fl (F.fl (2 * l) - v2) = v1 at *
  have a1 : |v1| ≤ 2 := by rw [abs_le] at *; constructor <;> linarith
  have a2 : |v2| ≤ 2 := by rw [abs_le] at *; constructor <;> linarith
  have n := hue2rgb_near (F := F) (x := kf) a1 a2 (by rw [abs_le] at hk; linarith) (by rw [abs_le] at hk; linarith)
  have w := wave3_lip kf (h + k)
  have w2 := wave3_range (h + k)
  have w3 := wave3_range kf
  have close : |hue2rgb F v1 v2 kf - level h s l k| ≤ 1171 * u := by
    have e : level h s l k = (l - s * min l (1 - l)) + ((l + s * min l (1 - l)) - (l - s * min l (1 - l))) * wave3 (h + k) := by
      unfold level; ring
    rw [e]
    generalize l - s * min l (1 - l) = V1 at *
    generalize l + s * min l (1 - l) = V2 at *
    generalize hue2rgb F v1 v2 kf = z at *
    generalize wave3 kf = p at *
    generalize wave3 (h + k) = P at *
    have hD : |V2 - V1| ≤ 3 := (abs_sub _ _).trans (by linarith)
    have t1 : |(V2 - V1) * (p - P)| ≤ 3 * (36 * u) := by
      rw [abs_mul]
      exact mul_le_mul hD (by linarith) (abs_nonneg _) (by norm_num)
    have t2 : |(v1 - V1) * (1 - p)| ≤ 5 * u * 3 := by
      rw [abs_mul]
      exact mul_le_mul e1 (by rw [abs_le]; constructor <;> linarith [w3.1, w3.2]) (abs_nonneg _) (by linarith)
    have t3 : |(v2 - V2) * p| ≤ 3 * u * 3 := by
      rw [abs_mul]
      exact mul_le_mul e2 (by rw [abs_le]; constructor <;> linarith [w3.1, w3.2]) (abs_nonneg _) (by linarith)
    rw [show z - (V1 + (V2 - V1) * P) = (z - (v1 + (v2 - v1) * p)) + (v1 - V1) * (1 - p) + (v2 - V2) * p + (V2 - V1) * (p - P) by ring]
    have y1 := abs_add_le ((z - (v1 + (v2 - v1) * p)) + (v1 - V1) * (1 - p) + (v2 - V2) * p) ((V2 - V1) * (p - P))
    have y2 := abs_add_le ((z - (v1 + (v2 - v1) * p)) + (v1 - V1) * (1 - p)) ((v2 - V2) * p)
    have y3 := abs_add_le (z - (v1 + (v2 - v1) * p)) ((v1 - V1) * (1 - p))
    linarith
  have lb : |level h s l k| ≤ 12 := by
    have e : level h s l k = (l - s * min l (1 - l)) * (1 - wave3 (h + k)) + (l + s * min l (1 - l)) * wave3 (h + k) := by
      unfold level; ring
    rw [e]
    have y := abs_add_le ((l - s * min l (1 - l)) * (1 - wave3 (h + k))) ((l + s * min l (1 - l)) * wave3 (h + k))
    have t2 : |(l - s * min l (1 - l)) * (1 - wave3 (h + k))| ≤ 3 / 2 * 3 := by
      rw [abs_mul]
      exact mul_le_mul r1 (by rw [abs_le]; constructor <;> linarith [w2.1, w2.2]) (abs_nonneg _) (by norm_num)
    have t3 : |(l + s * min l (1 - l)) * wave3 (h + k)| ≤ 3 / 2 * 3 := by
      rw [abs_mul]
      exact mul_le_mul r2 (by rw [abs_le]; constructor <;> linarith [w2.1, w2.2]) (abs_nonneg _) (by norm_num)
    linarith
  generalize hue2rgb F v1 v2 kf = z at *
  generalize level h s l k = L at *
  have f := rnd (F := F) (x := 255 * z) (M := 4000) (by rw [abs_le] at *; constructor <;> linarith) (by norm_num)
  rw [abs_le] at *
  constructor <;> linarith

end Svgio.Color.Flt
