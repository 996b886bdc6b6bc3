import Verif.Model.Py
import Mathlib.Tactic.Linarith
import Mathlib.Tactic.Positivity
import Mathlib.Tactic.Ring
import Mathlib.Tactic.FieldSimp

/-!
Counting rounding errors relative to a scale: `Nr Z k v x` says that `x` is off from `v` by at most `k` times 2^-53 of the scale `Z`, and `v`
is at most `Z`.
-/

namespace Svgio.Scaled

variable {K : Type} [Field K] [LinearOrder K] [IsStrictOrderedRing K]

def Nr (Z k v x : K) : Prop := |x - v| ≤ k * (1 / 2 ^ 53) * Z ∧ |v| ≤ Z

variable {Z Z' k k' v v' x x' : K}

theorem Nr.pos (h : Nr Z k v x) : 0 ≤ Z := (abs_nonneg _).trans h.2

theorem nr_self (h : |v| ≤ Z) : Nr Z 0 v v := ⟨by simp, h⟩

theorem Nr.mono (h : Nr Z k v x) (hk : k ≤ k') (hZ : Z ≤ Z') (hk0 : 0 ≤ k) : Nr Z' k' v x := by
  refine ⟨h.1.trans ?_, h.2.trans hZ⟩
  have := h.pos
  exact mul_le_mul (mul_le_mul_of_nonneg_right hk (by positivity)) hZ this (by have := hk0.trans hk; positivity)

theorem Nr.neg (h : Nr Z k v x) : Nr Z k (-v) (-x) := by
  refine ⟨?_, by rw [abs_neg]; exact h.2⟩
  rw [show -x - -v = -(x - v) by ring, abs_neg]
  exact h.1

theorem Nr.abs (h : Nr Z k v x) : Nr Z k |v| |x| := ⟨(abs_abs_sub_abs_le_abs_sub x v).trans h.1, by rw [abs_abs]; exact h.2⟩

theorem Nr.add (h : Nr Z k v x) (h' : Nr Z k' v' x') (hv : |v + v'| ≤ Z) : Nr Z (k + k') (v + v') (x + x') := by
  refine ⟨?_, hv⟩
  rw [show x + x' - (v + v') = (x - v) + (x' - v') by ring]
  refine (abs_add_le _ _).trans ((add_le_add h.1 h'.1).trans (le_of_eq ?_))
  ring

theorem Nr.sub (h : Nr Z k v x) (h' : Nr Z k' v' x') (hv : |v - v'| ≤ Z) : Nr Z (k + k') (v - v') (x - x') := by
  have := h.add h'.neg (by rwa [← sub_eq_add_neg])
  simpa only [← sub_eq_add_neg] using this

theorem Nr.mul (h : Nr Z k v x) (h' : Nr Z' k' v' x') (hk0 : 0 ≤ k) (hk0' : 0 ≤ k') (hk : k * k' ≤ 2 ^ 53) :
    Nr (Z * Z') (k + k' + 1) (v * v') (x * x') := by
  have hZ := h.pos
  have hZ' := h'.pos
  refine ⟨?_, by rw [abs_mul]; exact mul_le_mul h.2 h'.2 (abs_nonneg _) hZ⟩
  rw [show x * x' - v * v' = (x - v) * v' + v * (x' - v') + (x - v) * (x' - v') by ring]
  refine (abs_add_le _ _).trans ((add_le_add_left (abs_add_le _ _) _).trans ?_)
  rw [abs_mul, abs_mul, abs_mul]
  have a1 : |x - v| * |v'| ≤ k * (1 / 2 ^ 53) * Z * Z' := mul_le_mul h.1 h'.2 (abs_nonneg _) (by positivity)
  have a2 : |v| * |x' - v'| ≤ Z * (k' * (1 / 2 ^ 53) * Z') := mul_le_mul h.2 h'.1 (abs_nonneg _) hZ
  have a3 : |x - v| * |x' - v'| ≤ (k * (1 / 2 ^ 53) * Z) * (k' * (1 / 2 ^ 53) * Z') :=
    mul_le_mul h.1 h'.1 (abs_nonneg _) (by positivity)
  have a4 : (k * (1 / 2 ^ 53) * Z) * (k' * (1 / 2 ^ 53) * Z') ≤ 1 / 2 ^ 53 * (Z * Z') := by
    rw [show (k * (1 / 2 ^ 53) * Z) * (k' * (1 / 2 ^ 53) * Z') = (k * k' * (1 / 2 ^ 53)) * (1 / 2 ^ 53 * (Z * Z')) by ring]
    refine mul_le_of_le_one_left (by positivity) ?_
    rw [mul_one_div, div_le_one (by positivity)]
    exact hk
  calc _ ≤ k * (1 / 2 ^ 53) * Z * Z' + Z * (k' * (1 / 2 ^ 53) * Z') + 1 / 2 ^ 53 * (Z * Z') := by linarith
    _ = (k + k' + 1) * (1 / 2 ^ 53) * (Z * Z') := by ring

theorem Nr.mul_exact (h : Nr Z k v x) {y Y : K} (hy : |y| ≤ Y) (hk0 : 0 ≤ k) : Nr (Z * Y) k (v * y) (x * y) := by
  refine ⟨?_, by rw [abs_mul]; exact mul_le_mul h.2 hy (abs_nonneg _) h.pos⟩
  rw [← sub_mul, abs_mul]
  have := h.pos
  exact (mul_le_mul h.1 hy (abs_nonneg _) (by positivity)).trans (le_of_eq (by ring))

theorem Nr.div_exact (h : Nr Z k v x) {y : K} (hy : 0 < y) : Nr (Z / y) k (v / y) (x / y) := by
  refine ⟨?_, by rw [abs_div, abs_of_pos hy]; exact div_le_div_of_nonneg_right h.2 hy.le⟩
  rw [← sub_div, abs_div, abs_of_pos hy]
  exact (div_le_div_of_nonneg_right h.1 hy.le).trans (le_of_eq (by ring))

theorem Nr.div (h : Nr Z k v x) {t y : K} (ht : 0 < t) (hy : Nr t k' t y) (hk0 : 0 ≤ k) (hk0' : 0 ≤ k') (hk : k + 2 * k' + 1 ≤ 2 ^ 53) :
    0 < y ∧ Nr (Z / t) (k + 2 * k' + 1) (v / t) (x / y) := by
  have hZ := h.pos
  have e1 := hy.1
  have hs : k' * (1 / 2 ^ 53) ≤ 1 / 2 := by
    rw [mul_one_div, div_le_iff₀ (by positivity)]
    linarith
  have ylow : t * (1 - k' * (1 / 2 ^ 53)) ≤ y := by
    have := (abs_le.1 e1).1
    linarith [show t * (1 - k' * (1 / 2 ^ 53)) = t - k' * (1 / 2 ^ 53) * t by ring]
  have y0 : 0 < y := lt_of_lt_of_le (mul_pos ht (by linarith)) ylow
  refine ⟨y0, ?_, by rw [abs_div, abs_of_pos ht]; exact div_le_div_of_nonneg_right h.2 ht.le⟩
  have hn : |(x - v) * t - v * (y - t)| ≤ (k + k') * (1 / 2 ^ 53) * Z * t := by
    refine (abs_sub _ _).trans ?_
    rw [abs_mul, abs_mul, abs_of_pos ht]
    have b1 : |x - v| * t ≤ k * (1 / 2 ^ 53) * Z * t := mul_le_mul_of_nonneg_right h.1 ht.le
    have b2 : |v| * |y - t| ≤ Z * (k' * (1 / 2 ^ 53) * t) := mul_le_mul h.2 e1 (abs_nonneg _) hZ
    calc _ ≤ k * (1 / 2 ^ 53) * Z * t + Z * (k' * (1 / 2 ^ 53) * t) := add_le_add b1 b2
      _ = _ := by ring
  rw [show x / y - v / t = ((x - v) * t - v * (y - t)) / (y * t) by field_simp; ring, abs_div, abs_of_pos (mul_pos y0 ht),
    div_le_iff₀ (mul_pos y0 ht)]
  refine hn.trans ?_
  have key : k + k' ≤ (k + 2 * k' + 1) * (1 - k' * (1 / 2 ^ 53)) := by
    have : (k + 2 * k' + 1) * (1 / 2 ^ 53) ≤ 1 := by rw [mul_one_div, div_le_one (by positivity)]; exact hk
    have := mul_le_mul_of_nonneg_left this hk0'
    linarith [show (k + 2 * k' + 1) * (1 - k' * (1 / 2 ^ 53)) = k + 2 * k' + 1 - k' * ((k + 2 * k' + 1) * (1 / 2 ^ 53)) by ring]
  have hq : 0 ≤ 1 / 2 ^ 53 * Z := by positivity
  calc (k + k') * (1 / 2 ^ 53) * Z * t = (k + k') * (1 / 2 ^ 53 * Z * t) := by ring
    _ ≤ ((k + 2 * k' + 1) * (1 - k' * (1 / 2 ^ 53))) * (1 / 2 ^ 53 * Z * t) := mul_le_mul_of_nonneg_right key (by positivity)
    _ = (k + 2 * k' + 1) * (1 / 2 ^ 53 * Z) * (t * (1 - k' * (1 / 2 ^ 53))) := by ring
    _ ≤ (k + 2 * k' + 1) * (1 / 2 ^ 53 * Z) * y := mul_le_mul_of_nonneg_left ylow (by positivity)
    _ = (k + 2 * k' + 1) * (1 / 2 ^ 53) * (Z / t) * (y * t) := by field_simp

theorem Nr.round (F : FloatRounding) {Z k v x : ℚ} (h : Nr Z k v x) (hk0 : 0 ≤ k) (hk : k ≤ 2 ^ 53) (hZ : 1 / 2 ^ 1000 ≤ Z) :
    Nr Z (k + 3) v (F.fl x) := by
  refine ⟨?_, h.2⟩
  have hx : |x| ≤ 2 * Z := by
    have h1 : |x| ≤ |x - v| + |v| := by simpa using abs_add_le (x - v) v
    have h2 : k * (1 / 2 ^ 53) * Z ≤ 1 * Z := mul_le_mul_of_nonneg_right (by rw [mul_one_div, div_le_one (by positivity)]; exact hk) h.pos
    linarith [h.1, h.2]
  have ht : (1 : ℚ) / 2 ^ 1074 ≤ 1 / 2 ^ 53 * Z := by
    rw [show 1074 = 53 + 1021 from rfl, pow_add, ← one_div_mul_one_div]
    refine mul_le_mul_of_nonneg_left (le_trans ?_ hZ) (by positivity)
    exact one_div_le_one_div_of_le (by positivity) (pow_le_pow_right₀ (by norm_num) (by norm_num))
  have he := F.err x
  have h3 : |F.fl x - v| ≤ |F.fl x - x| + |x - v| := abs_sub_le _ _ _
  have h4 : |x| / 2 ^ 53 ≤ 2 * Z / 2 ^ 53 := div_le_div_of_nonneg_right hx (by positivity)
  calc |F.fl x - v| ≤ (2 * Z / 2 ^ 53 + 1 / 2 ^ 53 * Z) + k * (1 / 2 ^ 53) * Z := by linarith [h.1]
    _ = (k + 3) * (1 / 2 ^ 53) * Z := by ring

end Svgio.Scaled
