import Mathlib.Analysis.SpecialFunctions.Complex.Arg
import Mathlib.Analysis.SpecialFunctions.Trigonometric.Bounds

/-! Unit vectors of the plane, used for arcs with floats. -/

namespace Svgio.Dir

/-- the unit vector of an angle -/
noncomputable def unit (α : ℝ) : ℂ := ⟨Real.cos α, Real.sin α⟩

theorem unit_eq (α : ℝ) : unit α = Complex.exp (α * Complex.I) := by
  apply Complex.ext
  · rw [Complex.exp_ofReal_mul_I_re, unit]
  · rw [Complex.exp_ofReal_mul_I_im, unit]

theorem unit_norm (α : ℝ) : ‖unit α‖ = 1 := by rw [unit_eq, Complex.norm_exp_ofReal_mul_I]

theorem unit_add (α β : ℝ) : unit (α + β) = unit α * unit β := by
  rw [unit_eq, unit_eq, unit_eq, ← Complex.exp_add, Complex.ofReal_add, add_mul]

theorem unit_neg (α : ℝ) : unit (-α) = (starRingEnd ℂ) (unit α) := by
  apply Complex.ext <;> simp [unit]

theorem unit_ne (α : ℝ) : unit α ≠ 0 := by
  intro h
  have := unit_norm α
  rw [h, norm_zero] at this
  norm_num at this

theorem unit_lip (α β : ℝ) : ‖unit α - unit β‖ ≤ |α - β| := by
  have e : unit α - unit β = unit β * (Complex.exp (Complex.I * ((α - β : ℝ) : ℂ)) - 1) := by
    rw [mul_comm Complex.I, ← unit_eq, mul_sub, ← unit_add, mul_one]
    congr 2
    ring
  rw [e, norm_mul, unit_norm, one_mul]
  exact Real.norm_exp_I_mul_ofReal_sub_one_le

theorem unit_sub (α β α' β' : ℝ) : ‖unit (α - β) - unit (α' - β')‖ ≤ ‖unit α - unit α'‖ + ‖unit β - unit β'‖ := by
  have e : unit (α - β) - unit (α' - β') = (unit α - unit α') * unit (-β) + unit α' * (unit (-β) - unit (-β')) := by
    rw [sub_eq_add_neg α β, sub_eq_add_neg α' β', unit_add, unit_add]
    ring
  rw [e]
  refine (norm_add_le _ _).trans ?_
  rw [norm_mul, norm_mul, unit_norm, unit_norm, one_mul, mul_one, unit_neg, unit_neg, ← map_sub, Complex.norm_conj]

theorem unit_add_le (α β α' β' : ℝ) : ‖unit (α + β) - unit (α' + β')‖ ≤ ‖unit α - unit α'‖ + ‖unit β - unit β'‖ := by
  have e : unit (α + β) - unit (α' + β') = (unit α - unit α') * unit β + unit α' * (unit β - unit β') := by
    rw [unit_add, unit_add]
    ring
  rw [e]
  refine (norm_add_le _ _).trans ?_
  rw [norm_mul, norm_mul, unit_norm, unit_norm, one_mul, mul_one]

theorem unit_two (α β : ℝ) : ‖unit α - unit β‖ ≤ 2 := by
  refine (norm_sub_le _ _).trans ?_
  rw [unit_norm, unit_norm]
  norm_num

theorem unit_arg (z : ℂ) : ‖z‖ * unit (Complex.arg z) = z := by rw [unit_eq, Complex.norm_mul_exp_arg_mul_I]

/-- a vector of a given direction that is changed a little keeps its direction about -/
theorem direction_lip {α β r s ρ : ℝ} (hr : 0 < r) (hs : 0 ≤ s) (h : ‖(s : ℂ) * unit β - r * unit α‖ ≤ ρ * r) : ‖unit β - unit α‖ ≤ 2 * ρ := by
  have h1 : |s - r| ≤ ρ * r := by
    have := abs_norm_sub_norm_le ((s : ℂ) * unit β) (r * unit α)
    rw [norm_mul, norm_mul, unit_norm, unit_norm, Complex.norm_real, Complex.norm_real, mul_one, mul_one, Real.norm_of_nonneg hs,
      Real.norm_of_nonneg hr.le] at this
    exact this.trans h
  have e : (r : ℂ) * (unit β - unit α) = ((s : ℂ) * unit β - r * unit α) - ((s - r : ℝ) : ℂ) * unit β := by
    push_cast
    ring
  have h2 : r * ‖unit β - unit α‖ ≤ ρ * r + ρ * r := by
    have e2 : r * ‖unit β - unit α‖ = ‖(r : ℂ) * (unit β - unit α)‖ := by rw [norm_mul, Complex.norm_real, Real.norm_of_nonneg hr.le]
    rw [e2, e]
    refine (norm_sub_le _ _).trans (add_le_add h ?_)
    rw [norm_mul, unit_norm, mul_one, Complex.norm_real, Real.norm_eq_abs]
    exact h1
  nlinarith

theorem norm_le_of {z : ℂ} {e f : ℝ} (h1 : |z.re| ≤ e) (h2 : |z.im| ≤ f) : ‖z‖ ≤ e + f :=
  (Complex.norm_le_abs_re_add_abs_im z).trans (add_le_add h1 h2)

/-- a vector with its coordinates multiplied by `a` and `b` -/
def scale (a b : ℝ) (z : ℂ) : ℂ := ⟨a * z.re, b * z.im⟩

theorem scale_sub (a b : ℝ) (z w : ℂ) : scale a b z - scale a b w = scale a b (z - w) := by
  apply Complex.ext <;> simp [scale] <;> ring

theorem scale_norm_sq (a b : ℝ) (z : ℂ) : ‖scale a b z‖ ^ 2 = a ^ 2 * z.re ^ 2 + b ^ 2 * z.im ^ 2 := by
  rw [Complex.sq_norm, Complex.normSq_apply, scale]
  ring

theorem norm_sq (z : ℂ) : ‖z‖ ^ 2 = z.re ^ 2 + z.im ^ 2 := by
  rw [Complex.sq_norm, Complex.normSq_apply]
  ring

theorem scale_le {a b M : ℝ} (ha : 0 ≤ a) (hb : 0 ≤ b) (hM : a ≤ M) (hM' : b ≤ M) (z : ℂ) : ‖scale a b z‖ ≤ M * ‖z‖ := by
  have M0 := ha.trans hM
  refine le_of_sq_le_sq ?_ (by positivity)
  rw [scale_norm_sq, mul_pow, norm_sq, mul_add]
  gcongr

theorem le_scale {a b m : ℝ} (hm : 0 ≤ m) (ha : m ≤ a) (hb : m ≤ b) (z : ℂ) : m * ‖z‖ ≤ ‖scale a b z‖ := by
  refine le_of_sq_le_sq ?_ (norm_nonneg _)
  rw [scale_norm_sq, mul_pow, norm_sq, mul_add]
  gcongr

end Svgio.Dir
