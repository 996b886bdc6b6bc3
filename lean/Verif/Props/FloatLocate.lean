import Verif.Model.FloatLocate
import Verif.Props.FloatEnds
import Verif.Props.FloatError
import Verif.Props.ColorMeasureFloat

/-!
C143: `path.point(t)` with floats.
-/

namespace Svgio.Props

open Spec Flt

/-! ### sums of doubles -/

/-- every double is a multiple of the smallest one -/
theorem double_multiple {x : ℚ} (h : IsDouble x) : ∃ j : ℤ, x = j * 2 ^ (-1074 : ℤ) := by
  obtain ⟨k, m, rfl, -, hm⟩ := h
  refine ⟨k * 2 ^ (m + 1074).toNat, ?_⟩
  have e : (2 : ℚ) ^ m = 2 ^ (m + 1074).toNat * 2 ^ (-1074 : ℤ) := by
    rw [← zpow_natCast, ← zpow_add₀ (by norm_num), Int.toNat_of_nonneg (by omega)]
    congr 1
    omega
  rw [e]
  push_cast
  ring

theorem double_neg {x : ℚ} (h : IsDouble x) : IsDouble (-x) := by
  obtain ⟨k, m, rfl, hk, hm⟩ := h
  exact ⟨-k, m, by push_cast; ring, by rwa [abs_neg], hm⟩

/-- sums of doubles do not underflow: the error is a relative one -/
theorem add_rel {x y : ℚ} (hx : IsDouble x) (hy : IsDouble y) : |roundDouble (x + y) - (x + y)| ≤ |x + y| / 2 ^ 53 := by
  obtain ⟨j, ej⟩ := double_multiple hx
  obtain ⟨i, ei⟩ := double_multiple hy
  have ez : x + y = ((j + i : ℤ) : ℚ) * 2 ^ (-1074 : ℤ) := by rw [ej, ei]; push_cast; ring
  generalize x + y = z at *
  by_cases h0 : z = 0
  · subst h0; rw [roundDouble_zero]; simp
  by_cases hl : Int.log 2 |z| - 52 ≤ -1074
  · have hq : quantum z = 2 ^ (-1074 : ℤ) := by unfold quantum; rw [max_eq_right hl]
    have h := round_multiple z (j + i)
    rw [hq, ← ez, sub_self, abs_zero] at h
    exact h.trans (by positivity)
  · have hq : quantum z = 2 ^ (Int.log 2 |z| - 52) := by unfold quantum; rw [max_eq_left (by omega)]
    have hp := quantum_pos z
    have h := pyRound_half (z / quantum z)
    have e : roundDouble z - z = ((pyRound (z / quantum z) : ℚ) - z / quantum z) * quantum z := by
      unfold roundDouble
      field_simp
    rw [e, abs_mul, abs_of_pos hp]
    have h1 : (2 : ℚ) ^ Int.log 2 |z| ≤ |z| := by
      have := Int.zpow_log_le_self (b := 2) (R := ℚ) (by norm_num) (abs_pos.2 h0)
      exact_mod_cast this
    have h2 : quantum z = 2 ^ Int.log 2 |z| / 2 ^ 52 := by
      rw [hq, zpow_sub₀ (by norm_num)]
      norm_num
    have h3 : quantum z ≤ |z| / 2 ^ 52 := by
      rw [h2]; gcongr
    calc |(pyRound (z / quantum z) : ℚ) - z / quantum z| * quantum z ≤ 1 / 2 * (|z| / 2 ^ 52) := by gcongr
      _ = |z| / 2 ^ 53 := by ring

theorem sub_rel {x y : ℚ} (hx : IsDouble x) (hy : IsDouble y) : |roundDouble (x - y) - (x - y)| ≤ |x - y| / 2 ^ 53 := by
  have h := add_rel hx (double_neg hy)
  rwa [← sub_eq_add_neg] at h

/-- one rounded addition after the other -/
def flSum (start : ℚ) (l : List ℚ) : ℚ := l.foldl (fun s f => roundDouble (s + f)) start

theorem flSum_double {start : ℚ} (h : IsDouble start) (l : List ℚ) : IsDouble (flSum start l) := by
  induction l generalizing start with
  | nil => exact h
  | cons a l ih => exact ih (roundDouble_isDouble _)

/-- the relative error of a sum grows by one rounding for each addition -/
theorem flSum_bounds {l : List ℚ} : ∀ {start : ℚ}, IsDouble start → 0 ≤ start → (∀ x ∈ l, 0 ≤ x ∧ IsDouble x) →
    (1 - 1 / 2 ^ 53) ^ l.length * (start + l.sum) ≤ flSum start l ∧ flSum start l ≤ (1 + 1 / 2 ^ 53) ^ l.length * (start + l.sum) := by
  induction l with
  | nil => intro start _ _ _; simp [flSum]
  | cons a l ih =>
    intro start hs h0 hl
    obtain ⟨ha, hd⟩ := hl a (by simp)
    have h := add_rel hs hd
    have hn : 0 ≤ start + a := by linarith
    rw [abs_of_nonneg hn, abs_le] at h
    have ih' := ih (roundDouble_isDouble (start + a)) (roundDouble_nonneg hn) (fun x hx => hl x (by simp [hx]))
    have hsum : 0 ≤ l.sum := List.sum_nonneg (fun x hx => (hl x (by simp [hx])).1)
    have ef : flSum start (a :: l) = flSum (roundDouble (start + a)) l := rfl
    rw [ef, List.length_cons, List.sum_cons, pow_succ (1 - 1 / 2 ^ 53 : ℚ), pow_succ (1 + 1 / 2 ^ 53 : ℚ), mul_assoc, mul_assoc]
    have p1 : (0 : ℚ) ≤ (1 - 1 / 2 ^ 53) ^ l.length := pow_nonneg (by norm_num) _
    have p2 : (0 : ℚ) ≤ (1 + 1 / 2 ^ 53) ^ l.length := pow_nonneg (by norm_num) _
    constructor
    · refine le_trans (mul_le_mul_of_nonneg_left ?_ p1) ih'.1
      linarith
    · refine le_trans ih'.2 (mul_le_mul_of_nonneg_left ?_ p2)
      linarith

theorem pow_low (n : ℕ) : 1 - n / 2 ^ 53 ≤ (1 - 1 / 2 ^ 53 : ℚ) ^ n := by
  have := one_add_mul_le_pow (a := (-(1 / 2 ^ 53) : ℚ)) (by norm_num) n
  rw [← sub_eq_add_neg] at this
  refine le_trans (le_of_eq ?_) this
  ring

theorem pow_high {n : ℕ} (hn : n ≤ 2 ^ 40) : (1 + 1 / 2 ^ 53 : ℚ) ^ n ≤ 1 + 1001 / 1000 * (n / 2 ^ 53) := by
  have h1 := pow_low n
  have hx : (n : ℚ) / 2 ^ 53 ≤ 1 / 2 ^ 13 := by
    have : (n : ℚ) ≤ 2 ^ 40 := by exact_mod_cast hn
    linarith
  have hx0 : (0 : ℚ) ≤ (n : ℚ) / 2 ^ 53 := by positivity
  generalize (n : ℚ) / 2 ^ 53 = x at *
  have h2 : (1 + 1 / 2 ^ 53 : ℚ) ^ n * (1 - 1 / 2 ^ 53) ^ n ≤ 1 := by
    rw [← mul_pow]
    exact pow_le_one₀ (by norm_num) (by norm_num)
  have hp : (0 : ℚ) < (1 + 1 / 2 ^ 53) ^ n := by positivity
  generalize (1 + 1 / 2 ^ 53 : ℚ) ^ n = A at *
  generalize (1 - 1 / 2 ^ 53 : ℚ) ^ n = B at *
  have h3 : A * (1 - x) ≤ 1 := le_trans (mul_le_mul_of_nonneg_left h1 hp.le) h2
  have h4 : 1 ≤ (1 + 1001 / 1000 * x) * (1 - x) := by nlinarith
  have h5 : 0 < 1 - x := by linarith
  exact le_of_mul_le_mul_right (h3.trans h4) h5

/-- adding up one by one is as assumed of `sum` -/
theorem flSum_exists : ∃ S : FloatSum, S.sum = flSum 0 := by
  refine ⟨⟨flSum 0, ?_⟩, rfl⟩
  intro l hl h
  have hb := flSum_bounds (l := l) (start := 0) (isDouble_int (n := 0) (by norm_num)) le_rfl
    (fun x hx => ⟨(h x hx).1, (h x hx).2 ▸ roundDouble_isDouble x⟩)
  rw [zero_add] at hb
  have hs : 0 ≤ l.sum := List.sum_nonneg (fun x hx => (h x hx).1)
  have h1 := mul_le_mul_of_nonneg_right (pow_low l.length) hs
  have h2 := mul_le_mul_of_nonneg_right (pow_high hl) hs
  have e : (l.length : ℚ) * l.sum / 2 ^ 52 = 2 * ((l.length : ℚ) / 2 ^ 53 * l.sum) := by ring
  have hp : 0 ≤ (l.length : ℚ) / 2 ^ 53 * l.sum := by positivity
  rw [abs_le, e]
  constructor <;> linarith [hb.1, hb.2]

/-! ### the fractions of the length -/

theorem quotients {c : ℚ} (hc : 0 < c) (l : List ℚ) (h : ∀ x ∈ l, 0 ≤ x) :
    |(l.map (fun x => roundDouble (x / c))).sum - l.sum / c| ≤ l.sum / c / 2 ^ 53 + l.length * (1 / 2 ^ 1074) := by
  induction l with
  | nil => simp
  | cons a l ih =>
    have ih' := ih (fun x hx => h x (by simp [hx]))
    have ha : 0 ≤ a / c := div_nonneg (h a (by simp)) hc.le
    have h1 := roundDouble_err (a / c)
    rw [abs_of_nonneg ha] at h1
    generalize (1 : ℚ) / 2 ^ 1074 = η at *
    rw [List.map_cons, List.sum_cons, List.sum_cons, List.length_cons, add_div]
    push_cast
    rw [abs_le] at *
    constructor <;> linarith [h1.1, h1.2, ih'.1, ih'.2]

/-- The end of a segment along the path, as the code computes it, is the true fraction of the length up to the rounding of as many
additions. -/
theorem ends_err (S : FloatSum) {ls : List ℚ} (hl : ls.length ≤ 2 ^ 40) (hd : ∀ x ∈ ls, 0 ≤ x ∧ IsDouble x) (hs : 0 < ls.sum) :
    0 < S.sum ls ∧ ∀ k, |flSum 0 ((ls.map (fun x => roundDouble (x / S.sum ls))).take k) - (ls.take k).sum / ls.sum| ≤
      ((ls.length : ℚ) + 1) / 2 ^ 51 := by
  have hS := S.err ls hl (fun x hx => ⟨(hd x hx).1, roundDouble_double (hd x hx).2⟩)
  have hn : (ls.length : ℚ) / 2 ^ 53 ≤ 1 / 2 ^ 13 := by
    have : (ls.length : ℚ) ≤ 2 ^ 40 := by exact_mod_cast hl
    linarith
  have hn0 : 0 ≤ (ls.length : ℚ) / 2 ^ 53 := by positivity
  have e2 : (ls.length : ℚ) * ls.sum / 2 ^ 52 = 2 * ((ls.length : ℚ) / 2 ^ 53) * ls.sum := by ring
  have e3 : ((ls.length : ℚ) + 1) / 2 ^ 51 = 4 * ((ls.length : ℚ) / 2 ^ 53) + 4 * (1 / 2 ^ 53) := by ring
  rw [e2, abs_le] at hS
  rw [e3]
  generalize hx : (ls.length : ℚ) / 2 ^ 53 = x at *
  have hc : 0 < S.sum ls := by nlinarith [hS.1]
  refine ⟨hc, fun k => ?_⟩
  generalize S.sum ls = c at *
  set l := ls.take k with hlk
  have hlm : ∀ y ∈ l, 0 ≤ y := fun y hy => (hd y (List.mem_of_mem_take hy)).1
  have hll : l.length ≤ ls.length := by rw [hlk, List.length_take]; omega
  have hq := quotients hc l hlm
  have hmap : (ls.map (fun x => roundDouble (x / c))).take k = l.map (fun x => roundDouble (x / c)) := by rw [hlk, List.map_take]
  rw [hmap]
  have hb := flSum_bounds (l := l.map (fun x => roundDouble (x / c))) (start := 0) (isDouble_int (n := 0) (by norm_num)) le_rfl (by
    intro y hy
    obtain ⟨z, hz, rfl⟩ := List.mem_map.1 hy
    exact ⟨roundDouble_nonneg (div_nonneg (hlm z hz) hc.le), roundDouble_isDouble _⟩)
  rw [zero_add, List.length_map] at hb
  have hf0 : 0 ≤ (l.map (fun x => roundDouble (x / c))).sum := List.sum_nonneg (by
    intro y hy
    obtain ⟨z, hz, rfl⟩ := List.mem_map.1 hy
    exact roundDouble_nonneg (div_nonneg (hlm z hz) hc.le))
  have hkx : (l.length : ℚ) / 2 ^ 53 ≤ x := by
    rw [← hx]
    have : (l.length : ℚ) ≤ ls.length := by exact_mod_cast hll
    gcongr
  have hh : (l.length : ℚ) * (1 / 2 ^ 1074) ≤ 1 / 2 ^ 60 := by
    obtain ⟨η, e1, -, h0, h1⟩ := eta
    rw [e1]
    have : (l.length : ℚ) ≤ 2 ^ 40 := by exact_mod_cast hll.trans hl
    calc (l.length : ℚ) * η ≤ 2 ^ 40 * (1 / 2 ^ 100) := by gcongr
      _ ≤ 1 / 2 ^ 60 := by norm_num
  have hh0 : 0 ≤ (l.length : ℚ) * (1 / 2 ^ 1074) := by positivity
  have u1 := mul_le_mul_of_nonneg_right (pow_low l.length) hf0
  have u2 := mul_le_mul_of_nonneg_right (pow_high (hll.trans hl)) hf0
  generalize flSum 0 (l.map (fun x => roundDouble (x / c))) = s at *
  generalize (l.map (fun x => roundDouble (x / c))).sum = f at *
  generalize (l.length : ℚ) * (1 / 2 ^ 1074) = h at *
  -- the fraction and its quotient by the computed total
  have hsum : l.sum ≤ ls.sum := by
    conv_rhs => rw [← List.take_append_drop k ls, List.sum_append]
    have : 0 ≤ (ls.drop k).sum := List.sum_nonneg (fun y hy => (hd y (List.mem_of_mem_drop hy)).1)
    linarith
  have hl0 : 0 ≤ l.sum := List.sum_nonneg hlm
  have ea : l.sum / c = l.sum / ls.sum * (ls.sum / c) := by field_simp
  rw [ea] at hq
  have a0 : 0 ≤ l.sum / ls.sum := div_nonneg hl0 hs.le
  have a1 : l.sum / ls.sum ≤ 1 := (div_le_one hs).2 hsum
  generalize l.sum / ls.sum = a at *
  have w1 : ls.sum / c * (1 - 2 * x) ≤ 1 := by
    rw [div_mul_eq_mul_div, div_le_one hc]; nlinarith [hS.1]
  have w2 : 1 ≤ ls.sum / c * (1 + 2 * x) := by
    rw [div_mul_eq_mul_div, le_div_iff₀ hc]; nlinarith [hS.2]
  have w0 : 0 < ls.sum / c := div_pos hs hc
  generalize ls.sum / c = w at *
  have v1 : w ≤ 1 + 2002 / 1000 * x := by
    have h4 : 1 ≤ (1 + 2002 / 1000 * x) * (1 - 2 * x) := by nlinarith
    exact le_of_mul_le_mul_right (w1.trans h4) (by linarith)
  have v2 : 1 - 2 * x ≤ w := by
    have h4 : (1 - 2 * x) * (1 + 2 * x) ≤ 1 := by nlinarith
    exact le_of_mul_le_mul_right (h4.trans w2) (by linarith)
  have aw1 : a * w ≤ a + 2002 / 1000 * x := by nlinarith
  have aw2 : a - 2 * x ≤ a * w := by nlinarith
  have aw0 : 0 ≤ a * w := by positivity
  have aw3 : a * w ≤ 2 := by linarith
  generalize a * w = b at *
  rw [abs_le] at hq
  have f1 : f ≤ a + 2003 / 1000 * x + 2 / 2 ^ 53 + h := by linarith [hq.2]
  have f2 : a - 2 * x - 2 / 2 ^ 53 - h ≤ f := by linarith [hq.1]
  have f3 : f ≤ 1001 / 1000 := by linarith
  have g1 : l.length / 2 ^ 53 * f ≤ x * (1001 / 1000) := by gcongr
  have g0 : 0 ≤ (l.length : ℚ) / 2 ^ 53 * f := by positivity
  have s1 : s ≤ f + 1003 / 1000 * x := by nlinarith [hb.2]
  have s2 : f - 1003 / 1000 * x ≤ s := by nlinarith [hb.1]
  rw [abs_le]
  constructor <;> linarith

/-! ### the search -/

/-- The search ends at the first segment whose computed end is not before `t`, or else at the last one. -/
theorem go_spec {t : ℚ} (ht : IsDouble t) : ∀ (fs : List ℚ) (index : ℕ) {start : ℚ}, IsDouble start → start < t →
    (∃ k u, k < fs.length ∧ locateGo doubles t index start fs = .ok (index + k, u) ∧ flSum start (fs.take k) < t ∧
      t ≤ flSum start (fs.take (k + 1)) ∧
      u = roundDouble (roundDouble (t - flSum start (fs.take k)) /
        roundDouble (flSum start (fs.take (k + 1)) - flSum start (fs.take k)))) ∨
    (locateGo doubles t index start fs = .ok (index + fs.length - 1, 0) ∧ flSum start fs < t) := by
  intro fs
  induction fs with
  | nil => intro index start _ h; exact .inr ⟨rfl, h⟩
  | cons f r ih =>
    intro index start hs h
    by_cases hc : t ≤ roundDouble (start + f)
    · left
      have hne : roundDouble (roundDouble (start + f) - start) ≠ 0 := by
        intro h0
        have hp : 0 < roundDouble (start + f) - start := by linarith
        have := sub_rel (roundDouble_isDouble (start + f)) hs
        rw [h0, zero_sub, abs_neg, abs_of_pos hp] at this
        linarith
      refine ⟨0, roundDouble (roundDouble (t - start) / roundDouble (roundDouble (start + f) - start)), by simp, ?_, h, hc, rfl⟩
      show (if t ≤ roundDouble (start + f) then _ else _) = _
      rw [if_pos hc]
      show (if roundDouble (roundDouble (start + f) - start) = 0 then _ else _) = _
      rw [if_neg hne]
      rfl
    · have e : locateGo doubles t index start (f :: r) = locateGo doubles t (index + 1) (roundDouble (start + f)) r := by
        show (if t ≤ roundDouble (start + f) then _ else _) = _
        rw [if_neg hc]
        rfl
      rcases ih (index + 1) (roundDouble_isDouble _) (not_le.1 hc) with ⟨k, u, h1, h2, h3, h4, h5⟩ | ⟨h1, h2⟩
      · left
        refine ⟨k + 1, u, by simp; omega, ?_, h3, h4, h5⟩
        rw [e, h2]
        congr 2
        omega
      · right
        refine ⟨?_, h2⟩
        rw [e, h1]
        simp only [List.length_cons]
        congr 2
        omega

/-- the computed parameter -/
theorem ratio_err {a D : ℚ} {x y z : ℚ} (hx : IsDouble x) (hy : IsDouble y) (hz : IsDouble z) (ha : a = x - y) (hD : D = z - y)
    (h0 : 0 < a) (h1 : a ≤ D) (h2 : D ≤ 2) :
    0 ≤ roundDouble (roundDouble a / roundDouble D) ∧ roundDouble (roundDouble a / roundDouble D) ≤ 1 ∧
      |roundDouble (roundDouble a / roundDouble D) * D - a| ≤ 8 / 2 ^ 53 := by
  have ea := sub_rel hx hy
  have eD := sub_rel hz hy
  rw [← ha, abs_of_pos h0] at ea
  have hD0 : 0 < D := by linarith
  rw [← hD, abs_of_pos hD0] at eD
  have hm : roundDouble a ≤ roundDouble D := roundDouble_mono h1
  have n0 : 0 ≤ roundDouble a := roundDouble_nonneg h0.le
  rw [abs_le] at ea eD
  have d0 : 0 < roundDouble D := by linarith [eD.1]
  generalize roundDouble a = n at *
  generalize roundDouble D = d at *
  have q0 : 0 ≤ n / d := div_nonneg n0 d0.le
  have q1 : n / d ≤ 1 := (div_le_one d0).2 hm
  have qd : n / d * d = n := div_mul_cancel₀ _ d0.ne'
  have er := roundDouble_err (n / d)
  have u0 := roundDouble_nonneg q0
  have u1 : roundDouble (n / d) ≤ 1 := by
    have := roundDouble_mono q1
    rwa [roundDouble_double (x := 1) (by exact_mod_cast isDouble_int (n := 1) (by norm_num))] at this
  refine ⟨u0, u1, ?_⟩
  rw [abs_of_nonneg q0] at er
  obtain ⟨η, e1, -, h3, h4⟩ := eta
  rw [e1] at er
  generalize n / d = q at *
  generalize roundDouble q = u at *
  have er' : |u - q| ≤ 2 / 2 ^ 53 := by linarith
  have k1 : |u * D - q * D| ≤ 4 / 2 ^ 53 := by
    rw [← sub_mul, abs_mul, abs_of_pos hD0]
    calc |u - q| * D ≤ 2 / 2 ^ 53 * 2 := by gcongr
      _ = 4 / 2 ^ 53 := by ring
  have k2 : |q * D - a| ≤ 4 / 2 ^ 53 := by
    have e : q * D - a = q * (D - d) + (n - a) := by rw [mul_sub, qd]; ring
    have b1 : |q * (D - d)| ≤ 2 / 2 ^ 53 := by
      rw [abs_mul, abs_of_nonneg q0]
      have : |D - d| ≤ 2 / 2 ^ 53 := by rw [abs_le]; constructor <;> linarith [eD.1, eD.2]
      calc q * |D - d| ≤ 1 * (2 / 2 ^ 53) := by gcongr
        _ = _ := by ring
    have b2 : |n - a| ≤ 2 / 2 ^ 53 := by rw [abs_le]; constructor <;> linarith [ea.1, ea.2]
    rw [e]
    exact (abs_add_le _ _).trans (by linarith)
  have e : u * D - a = (u * D - q * D) + (q * D - a) := by ring
  rw [e]
  exact (abs_add_le _ _).trans (by linarith)

/-- what a list of lengths gives at `t` -/
theorem locate_err (S : FloatSum) (rnd : ℚ → ℤ) {ls : List ℚ} (hl : ls.length ≤ 2 ^ 40) (hd : ∀ x ∈ ls, 0 ≤ x ∧ IsDouble x)
    (hs : 0 < ls.sum) {t : ℚ} (ht : IsDouble t) (h0 : 0 < t) (h1 : t < 1) :
    (∃ k u, k < ls.length ∧ locate doubles S rnd ls t = .ok (some (k, u)) ∧ 0 ≤ u ∧ u ≤ 1 ∧
      |(ls.take k).sum + u * ((ls.take (k + 1)).sum - (ls.take k).sum) - t * ls.sum| ≤ ((ls.length : ℚ) + 3) / 2 ^ 51 * ls.sum) ∨
    (locate doubles S rnd ls t = .ok (some (ls.length - 1, 0)) ∧ 1 - ((ls.length : ℚ) + 1) / 2 ^ 51 < t) := by
  obtain ⟨hc, he⟩ := ends_err S hl hd hs
  have hne : ls ≠ [] := by rintro rfl; simp at hs
  have hlen : ls.length ≠ 0 := by simpa using hne
  have eL : locate doubles S rnd ls t = match locateGo doubles t 0 0 (ls.map (fun x => roundDouble (x / S.sum ls))) with
      | .error e => .error e
      | .ok iu => .ok (some iu) := by
    unfold locate
    rw [if_neg hlen, if_neg (not_le.2 h0), if_neg (not_le.2 h1), if_neg hc.ne']
    unfold fractions
    rw [if_neg hc.ne']
    rfl
  rw [eL]
  have hn : ((ls.length : ℚ) + 1) / 2 ^ 51 ≤ 1 / 2 := by
    have : (ls.length : ℚ) ≤ 2 ^ 40 := by exact_mod_cast hl
    linarith
  generalize hfs : ls.map (fun x => roundDouble (x / S.sum ls)) = fs at *
  have hfl : fs.length = ls.length := by rw [← hfs, List.length_map]
  rcases go_spec ht fs 0 (start := 0) (isDouble_int (n := 0) (by norm_num)) h0 with ⟨k, u, g1, g2, g3, g4, g5⟩ | ⟨g1, g2⟩
  · left
    have hk : k < ls.length := by omega
    have d0 : IsDouble (0 : ℚ) := isDouble_int (n := 0) (by norm_num)
    have e1 := he k
    have e2 := he (k + 1)
    have b2 : (ls.take (k + 1)).sum / ls.sum ≤ 1 := by
      rw [div_le_one hs]
      conv_rhs => rw [← List.take_append_drop (k + 1) ls, List.sum_append]
      have : 0 ≤ (ls.drop (k + 1)).sum := List.sum_nonneg (fun y hy => (hd y (List.mem_of_mem_drop hy)).1)
      linarith
    have b0 : 0 ≤ flSum 0 (fs.take k) := by
      have : ∀ (l : List ℚ), (∀ y ∈ l, 0 ≤ y) → ∀ s, 0 ≤ s → 0 ≤ flSum s l := by
        intro l
        induction l with
        | nil => intro _ s h; exact h
        | cons a l ih => intro hl s h; exact ih (fun y hy => hl y (by simp [hy])) _ (roundDouble_nonneg (by linarith [hl a (by simp)]))
      refine this _ ?_ 0 le_rfl
      intro y hy
      have hy' := List.mem_of_mem_take hy
      rw [← hfs] at hy'
      obtain ⟨z, hz, rfl⟩ := List.mem_map.1 hy'
      exact roundDouble_nonneg (div_nonneg (hd z hz).1 hc.le)
    have r := ratio_err ht (flSum_double d0 (fs.take k)) (flSum_double d0 (fs.take (k + 1))) rfl rfl (by linarith) (by linarith) (by
      rw [abs_le] at e2; linarith [e2.2])
    rw [← g5] at r
    refine ⟨k, u, hk, ?_, r.1, r.2.1, ?_⟩
    · rw [g2, Nat.zero_add]
    · have r3 := r.2.2
      have u0 := r.1
      have u1 := r.2.1
      have e3 : (ls.take k).sum + u * ((ls.take (k + 1)).sum - (ls.take k).sum) - t * ls.sum =
          ((ls.take k).sum / ls.sum + u * ((ls.take (k + 1)).sum / ls.sum - (ls.take k).sum / ls.sum) - t) * ls.sum := by
        field_simp
      rw [e3, abs_mul, abs_of_pos hs]
      refine mul_le_mul_of_nonneg_right ?_ hs.le
      generalize (ls.take k).sum / ls.sum = A at *
      generalize (ls.take (k + 1)).sum / ls.sum = B at *
      generalize flSum 0 (fs.take k) = A' at *
      generalize flSum 0 (fs.take (k + 1)) = B' at *
      have e4 : ((ls.length : ℚ) + 3) / 2 ^ 51 = ((ls.length : ℚ) + 1) / 2 ^ 51 + 8 / 2 ^ 53 := by ring
      rw [e4]
      generalize ((ls.length : ℚ) + 1) / 2 ^ 51 = e at *
      have e5 : A + u * (B - A) - t = -((1 - u) * (A' - A)) + -(u * (B' - B)) + (u * (B' - A') - (t - A')) := by ring
      rw [e5]
      have m1 : |-((1 - u) * (A' - A))| ≤ (1 - u) * e := by
        rw [abs_neg, abs_mul, abs_of_nonneg (by linarith)]
        exact mul_le_mul_of_nonneg_left e1 (by linarith)
      have m2 : |-(u * (B' - B))| ≤ u * e := by
        rw [abs_neg, abs_mul, abs_of_nonneg u0]
        exact mul_le_mul_of_nonneg_left e2 u0
      refine (abs_add_le _ _).trans ((add_le_add ((abs_add_le _ _).trans (add_le_add m1 m2)) r3).trans (le_of_eq ?_))
      ring
  · right
    have e1 := he ls.length
    rw [List.take_of_length_le (by omega), List.take_of_length_le (le_refl _), div_self hs.ne', abs_le] at e1
    refine ⟨?_, by linarith [e1.1]⟩
    rw [g1, Nat.zero_add, hfl]

/-! ### C143 -/

theorem take_succ_sum {ls : List ℚ} {k : ℕ} {x : ℚ} (h : ls[k]? = some x) : (ls.take (k + 1)).sum - (ls.take k).sum = x := by
  rw [List.take_add_one, h, List.sum_append]
  simp

/-- C143. Full statement: `path.point(t)` for `0 < t < 1` evaluates the segment in which the fraction `t` of the total length falls, at
the matching position in it, up to the rounding of one addition for each segment. Proved here for `t` up to `1 - (n + 1) / 2^51`, where
`n` is the number of segments: the lengths before the segment together with the part `u` of its own length make the fraction `t` of the
total up to `(n + 3) / 2^51` of it. The lengths are what `segment.length()` gives: any doubles that are not negative and not all 0.
Missing: the last positions before 1, see `C143_end_wrong`. -/
theorem C143_point_partial (P : FloatPow) (S : FloatSum) (numpy : Bool) (rnd : ℚ → ℤ) {len : Seg ℚ → ℚ} {p : List (Seg ℚ)}
    (hn : p.length ≤ 2 ^ 40) (hd : ∀ s ∈ p, 0 ≤ len s ∧ IsDouble (len s)) (hpos : 0 < (p.map len).sum) {t : ℚ} (ht : IsDouble t)
    (h0 : 0 < t) (h1 : t ≤ 1 - ((p.length : ℚ) + 1) / 2 ^ 51) :
    ∃ i u s, p[i]? = some s ∧
      pathPoint doubles P S numpy rnd len p t = (Flt.point doubles P numpy s u).map some ∧ 0 ≤ u ∧ u ≤ 1 ∧
      |((p.take i).map len).sum + u * len s - t * (p.map len).sum| ≤ ((p.length : ℚ) + 3) / 2 ^ 51 * (p.map len).sum := by
  have hp : (0 : ℚ) ≤ ((p.length : ℚ) + 1) / 2 ^ 51 := by positivity
  have hp' : (0 : ℚ) < ((p.length : ℚ) + 1) / 2 ^ 51 := by positivity
  have hd' : ∀ x ∈ p.map len, 0 ≤ x ∧ IsDouble x := by
    intro x hx
    obtain ⟨s, hs, rfl⟩ := List.mem_map.1 hx
    exact hd s hs
  rcases locate_err S rnd (ls := p.map len) (by simpa using hn) hd' hpos ht h0 (by linarith) with ⟨k, u, a1, a2, a3, a4, a5⟩ | ⟨-, a2⟩
  · rw [List.length_map] at a1
    have hk : p[k]? = some p[k] := List.getElem?_eq_getElem a1
    refine ⟨k, u, p[k], hk, ?_, a3, a4, ?_⟩
    · unfold pathPoint
      rw [a2]
      simp only [hk]
      cases Flt.point doubles P numpy p[k] u <;> rfl
    · rw [take_succ_sum (x := len p[k]) (by rw [List.getElem?_map, hk]; rfl), List.length_map, ← List.map_take] at a5
      exact a5
  · rw [List.length_map] at a2
    exact absurd h1 (not_le.2 a2)

/-- C143, for every position between 0 and 1: some segment of the path is evaluated, at a position in it; nothing is divided by 0. -/
theorem C143_inside (P : FloatPow) (S : FloatSum) (numpy : Bool) (rnd : ℚ → ℤ) {len : Seg ℚ → ℚ} {p : List (Seg ℚ)}
    (hn : p.length ≤ 2 ^ 40) (hd : ∀ s ∈ p, 0 ≤ len s ∧ IsDouble (len s)) (hpos : 0 < (p.map len).sum) {t : ℚ} (ht : IsDouble t)
    (h0 : 0 < t) (h1 : t < 1) :
    ∃ s ∈ p, ∃ u, 0 ≤ u ∧ u ≤ 1 ∧ pathPoint doubles P S numpy rnd len p t = (Flt.point doubles P numpy s u).map some := by
  have hd' : ∀ x ∈ p.map len, 0 ≤ x ∧ IsDouble x := by
    intro x hx
    obtain ⟨s, hs, rfl⟩ := List.mem_map.1 hx
    exact hd s hs
  have key : ∀ k u, k < p.length → 0 ≤ u → u ≤ 1 → locate doubles S rnd (p.map len) t = .ok (some (k, u)) →
      ∃ s ∈ p, ∃ u, 0 ≤ u ∧ u ≤ 1 ∧ pathPoint doubles P S numpy rnd len p t = (Flt.point doubles P numpy s u).map some := by
    intro k u a1 b1 b2 a2
    have hk : p[k]? = some p[k] := List.getElem?_eq_getElem a1
    refine ⟨p[k], List.getElem_mem _, u, b1, b2, ?_⟩
    unfold pathPoint
    rw [a2]
    simp only [hk]
    cases Flt.point doubles P numpy p[k] u <;> rfl
  have hp : 0 < p.length := by
    rcases p with _ | _
    · simp at hpos
    · simp
  rcases locate_err S rnd (ls := p.map len) (by simpa using hn) hd' hpos ht h0 h1 with ⟨k, u, a1, a2, a3, a4, -⟩ | ⟨a1, -⟩
  · exact key k u (by simpa using a1) a3 a4 a2
  · rw [List.length_map] at a1
    exact key _ 0 (by omega) le_rfl zero_le_one a1

/-- **C143.** When all lengths are 0: the start of the segment whose index is nearest to the fraction `t` of the last index. `rnd` is Python's
rounding, of which only this is used. -/
theorem C143_zero (P : FloatPow) (S : FloatSum) (numpy : Bool) {rnd : ℚ → ℤ} (hr : ∀ x, |(rnd x : ℚ) - x| ≤ 1 / 2) {len : Seg ℚ → ℚ}
    {p : List (Seg ℚ)} (hp : p ≠ []) (hn : p.length ≤ 2 ^ 40) (hz : ∀ s ∈ p, len s = 0) {t : ℚ} (h0 : 0 < t) (h1 : t < 1) :
    ∃ (i : ℕ) (s : Seg ℚ), p[i]? = some s ∧ pathPoint doubles P S numpy rnd len p t = (Flt.point doubles P numpy s 0).map some ∧
      |(i : ℚ) - t * ((p.length : ℚ) - 1)| ≤ 1 / 2 + p.length / 2 ^ 52 := by
  have hl : 0 < p.length := List.length_pos_iff.2 hp
  have hl1 : (1 : ℚ) ≤ p.length := by exact_mod_cast hl
  have hl2 : (p.length : ℚ) ≤ 2 ^ 40 := by exact_mod_cast hn
  have hsum : (p.map len).sum = 0 := List.sum_eq_zero (by simpa using hz)
  have hS : S.sum (p.map len) = 0 := by
    have := S.err (p.map len) (by simpa using hn) (by
      intro x hx
      obtain ⟨s, hs, rfl⟩ := List.mem_map.1 hx
      rw [hz s hs]
      exact ⟨le_rfl, roundDouble_double (isDouble_int (n := 0) (by norm_num))⟩)
    rw [hsum, mul_zero, zero_div, sub_zero] at this
    exact abs_nonpos_iff.1 this
  set x : ℚ := t * ((p.length : ℚ) - 1) with hx
  have x0 : 0 ≤ x := mul_nonneg h0.le (by linarith)
  have x1 : x ≤ p.length - 1 := by nlinarith
  have e := roundDouble_err x
  have r := hr (roundDouble x)
  obtain ⟨η, he, -, -, hη⟩ := eta
  rw [he, abs_of_nonneg x0] at e
  rw [abs_le] at e r
  generalize hi : rnd (roundDouble x) = i at r
  have hη' : η ≤ (p.length : ℚ) / 2 ^ 53 := hη.trans (by
    rw [div_le_div_iff₀ (by positivity) (by positivity)]
    nlinarith)
  have hxx : x / 2 ^ 53 ≤ (p.length : ℚ) / 2 ^ 53 := by gcongr; linarith
  have hb : (p.length : ℚ) / 2 ^ 53 ≤ 1 / 2 ^ 13 := by
    rw [div_le_div_iff₀ (by positivity) (by positivity)]
    linarith
  have hb2 : (p.length : ℚ) / 2 ^ 52 = 2 * ((p.length : ℚ) / 2 ^ 53) := by ring
  have lo : 0 ≤ i := by
    have : (-1 : ℚ) < i := by linarith [r.1, e.1]
    have : (-1 : ℤ) < i := by exact_mod_cast this
    omega
  have hi' : i < p.length := by
    have : (i : ℚ) < p.length := by linarith [r.2, e.2]
    exact_mod_cast this
  obtain ⟨j, rfl⟩ := Int.eq_ofNat_of_zero_le lo
  have hj : j < p.length := by exact_mod_cast hi'
  refine ⟨j, p[j], List.getElem?_eq_getElem hj, ?_, ?_⟩
  · unfold pathPoint locate
    rw [if_neg (by simpa using hp), if_neg (by linarith), if_neg (by linarith), if_pos hS]
    simp only [List.length_map]
    rw [show rnd (doubles.fl (t * ((p.length : ℚ) - 1))) = (j : ℤ) from hi]
    simp only [Path.pyIdx, if_pos lo, if_pos hi', Int.toNat_natCast, List.getElem?_eq_getElem hj]
    cases Flt.point doubles P numpy p[j] 0 <;> rfl
  · rw [hb2, abs_le]
    push_cast at r
    constructor <;> linarith [r.1, r.2, e.1, e.2]

/-- two moves to the same place: `t = 3/4` is the start of the second -/
example : ∃ S : FloatSum, pathPoint doubles doublePow S false pyRound (fun _ => 0)
    [⟨.move, none, some ⟨0, 0⟩, false, true⟩, ⟨.line, some ⟨0, 0⟩, some ⟨0, 0⟩, false, true⟩] (3 / 4) = .ok (some ⟨0, 0⟩) := by
  obtain ⟨S, hS⟩ := flSum_exists
  obtain ⟨i, s, h1, h2, h3⟩ := C143_zero doublePow S false pyRound_half (len := fun _ => 0)
    (p := [⟨.move, none, some ⟨0, 0⟩, false, true⟩, ⟨.line, some ⟨0, 0⟩, some ⟨0, 0⟩, false, true⟩]) (by simp) (by norm_num) (by simp)
    (t := 3 / 4) (by norm_num) (by norm_num)
  have hi : i = 1 := by
    by_contra h
    rcases i with _ | _ | i
    · norm_num [abs_le] at h3
    · exact h rfl
    · simp at h1
  subst hi
  obtain rfl : ⟨.line, some ⟨0, 0⟩, some ⟨0, 0⟩, false, true⟩ = s := by simpa using h1
  refine ⟨S, h2.trans ?_⟩
  decide +kernel

/-- **C143.** Outside: before the start the first segment at `t`, after the end the last one at `t`; no point of an empty path. -/
theorem C143_outside (P : FloatPow) (S : FloatSum) (numpy : Bool) (rnd : ℚ → ℤ) (len : Seg ℚ → ℚ) (t : ℚ) :
    pathPoint doubles P S numpy rnd len [] t = .ok none ∧
    (∀ s p, t ≤ 0 → pathPoint doubles P S numpy rnd len (s :: p) t = (Flt.point doubles P numpy s t).map some) ∧
    ∀ s p, 1 ≤ t → pathPoint doubles P S numpy rnd len (p ++ [s]) t = (Flt.point doubles P numpy s t).map some := by
  refine ⟨rfl, fun s p h => ?_, fun s p h => ?_⟩
  · unfold pathPoint locate
    rw [if_neg (by simp), if_pos h]
    simp only [List.getElem?_cons_zero]
    cases Flt.point doubles P numpy s t <;> rfl
  · unfold pathPoint locate
    rw [if_neg (by simp), if_neg (by linarith), if_pos h]
    simp only [List.length_map, List.length_append, List.length_singleton, Nat.add_sub_cancel, List.getElem?_concat_length]
    cases Flt.point doubles P numpy s t <;> rfl

/-- `M0,0 L1,0 L2,0 L3,0 L4,0 L5,0 L6,0 L7,0` -/
def exSeven : List (Seg ℚ) :=
  ⟨.move, none, some ⟨0, 0⟩, false, true⟩ ::
    (List.range 7).map (fun (k : ℕ) => ⟨.line, some ⟨k, 0⟩, some ⟨(k : ℚ) + 1, 0⟩, false, true⟩)

/-- the length of a move or of a line along the first axis -/
def exLen (s : Seg ℚ) : ℚ :=
  match s.kind, s.start, s.stop with
  | .line, some a, some b => |b.x - a.x|
  | _, _, _ => 0

example : exSeven.length ≤ 2 ^ 40 ∧ (∀ s ∈ exSeven, 0 ≤ exLen s ∧ IsDouble (exLen s)) ∧ 0 < (exSeven.map exLen).sum ∧
    IsDouble (1 / 2) ∧ (1 / 2 : ℚ) ≤ 1 - ((exSeven.length : ℚ) + 1) / 2 ^ 51 := by
  refine ⟨by decide +kernel, ?_, by decide +kernel, ⟨1, -1, by norm_num, by norm_num, by norm_num⟩, by decide +kernel⟩
  have h : ∀ s ∈ exSeven, exLen s = 0 ∨ exLen s = 1 := by decide +kernel
  intro s hs
  rcases h s hs with h | h <;> rw [h]
  · exact ⟨le_rfl, isDouble_int (n := 0) (by norm_num)⟩
  · exact ⟨zero_le_one, by exact_mod_cast isDouble_int (n := 1) (by norm_num)⟩

/-- C143 is false of the last positions before 1: on a path of seven lines of length 1 along the first axis, the sevenths, as doubles,
add up to less than the last double before 1. There `point` gives the start of the last line, (6, 0), instead of a point next to its end
(7, 0). -/
theorem C143_end_wrong : IsDouble (1 - 1 / 2 ^ 53) ∧ (∃ S : FloatSum, S.sum (exSeven.map exLen) = 7) ∧
    ∀ S : FloatSum, S.sum (exSeven.map exLen) = 7 →
      ∀ numpy rnd, pathPoint doubles doublePow S numpy rnd exLen exSeven (1 - 1 / 2 ^ 53) = .ok (some ⟨6, 0⟩) := by
  refine ⟨⟨2 ^ 53 - 1, -53, by norm_num, by norm_num, by norm_num⟩, ?_, ?_⟩
  · obtain ⟨S, hS⟩ := flSum_exists
    exact ⟨S, by rw [hS]; decide +kernel⟩
  intro S h7
  have hg : (locateGo doubles (1 - 1 / 2 ^ 53) 0 0 ((exSeven.map exLen).map (fun x => roundDouble (x / 7)))).toOption = some (7, 0) := by
    decide +kernel
  intro numpy rnd
  have hl : locate doubles S rnd (exSeven.map exLen) (1 - 1 / 2 ^ 53) = .ok (some (7, 0)) := by
    unfold locate
    rw [if_neg (by decide +kernel), if_neg (by norm_num), if_neg (by norm_num), if_neg (by rw [h7]; norm_num)]
    unfold fractions
    rw [if_neg (by rw [h7]; norm_num), h7]
    change (match locateGo doubles (1 - 1 / 2 ^ 53) 0 0 ((exSeven.map exLen).map (fun x => roundDouble (x / 7))) with
      | .error e => (.error e : Except PyErr (Option (ℕ × ℚ)))
      | .ok iu => .ok (some iu)) = _
    cases hx : locateGo doubles (1 - 1 / 2 ^ 53) 0 0 ((exSeven.map exLen).map (fun x => roundDouble (x / 7))) with
    | error e => rw [hx] at hg; simp [Except.toOption] at hg
    | ok iu =>
      rw [hx] at hg
      simp only [Except.toOption, Option.some.injEq] at hg
      rw [hg]
  unfold pathPoint
  rw [hl]
  have h6 : exSeven[7]? = some ⟨.line, some ⟨6, 0⟩, some ⟨7, 0⟩, false, true⟩ := by decide +kernel
  simp only [h6]
  have hp : ∀ n, Flt.linearAt doubles n ⟨6, 0⟩ ⟨7, 0⟩ 0 = ⟨6, 0⟩ := by decide +kernel
  simp only [Flt.point, hp]

end Svgio.Props
