import Verif.Model.ColorMeasureFloat
import Verif.Lemmas.Ieee
import Verif.Props.ColorMeasure

/-!
C104 with floats: brightness, blackness, luminance and luma of a colour, as doubles.
-/

namespace Svgio.Props
open Spec Color

/-- rounding to the nearest double keeps the order -/
theorem roundDouble_mono {x y : ℚ} (h : x ≤ y) : roundDouble x ≤ roundDouble y := by
  by_contra hc
  push Not at hc
  have h1 := roundDouble_nearest x (roundDouble_isDouble y)
  have h2 := roundDouble_nearest y (roundDouble_isDouble x)
  have h3 : ¬ x < y := by
    intro hxy
    rcases abs_cases (roundDouble x - x) with ⟨e1, _⟩ | ⟨e1, _⟩ <;> rcases abs_cases (roundDouble y - x) with ⟨e2, _⟩ | ⟨e2, _⟩ <;>
      rcases abs_cases (roundDouble y - y) with ⟨e3, _⟩ | ⟨e3, _⟩ <;> rcases abs_cases (roundDouble x - y) with ⟨e4, _⟩ | ⟨e4, _⟩ <;>
      rw [e1, e2] at h1 <;> rw [e3, e4] at h2 <;> linarith
  have : x = y := le_antisymm h (not_lt.1 h3)
  rw [this] at hc
  exact lt_irrefl _ hc

theorem roundDouble_zero : roundDouble 0 = 0 := by decide +kernel

theorem roundDouble_nonneg {x : ℚ} (h : 0 ≤ x) : 0 ≤ roundDouble x := by
  have := roundDouble_mono h
  rwa [roundDouble_zero] at this

/-- `f` measures how light a colour is, up to `ε`: `k / 255`, up to `ε`, for the grey of level `k`, exactly 0 for black, never outside
0 to 1, never less for a colour that has as much or more of each of red, green and blue, whatever the opacity. -/
def LightMeasureUpTo (ε : ℚ) (f : Option ℤ → Option ℚ) : Prop :=
  f none = none ∧
  (∀ v, ∃ x, f (some v) = some x ∧ 0 ≤ x ∧ x ≤ 1) ∧
  (∀ v k : ℤ, byte 3 v = k → byte 2 v = k → byte 1 v = k → ∃ x, f (some v) = some x ∧ |x - (k : ℚ) / 255| ≤ ε ∧ (k = 0 → x = 0)) ∧
  (∀ v w : ℤ, byte 3 v ≤ byte 3 w → byte 2 v ≤ byte 2 w → byte 1 v ≤ byte 1 w →
    ∃ x y, f (some v) = some x ∧ f (some w) = some y ∧ x ≤ y)

theorem byte_range (i : ℕ) (v : ℤ) : 0 ≤ byte i v ∧ byte i v < 256 :=
  ⟨Int.emod_nonneg _ (by norm_num), Int.emod_lt_of_pos _ (by norm_num)⟩

theorem weigh_mono {p q s r g b r' g' b' : ℚ} (hp : 0 ≤ p) (hq : 0 ≤ q) (hs : 0 ≤ s) (hr : r ≤ r') (hg : g ≤ g') (hb : b ≤ b') :
    Flt.weigh p q s (r, g, b) ≤ Flt.weigh p q s (r', g', b') := by
  have part : ∀ {w x x' : ℚ}, 0 ≤ w → x ≤ x' →
      roundDouble (roundDouble (x / 255) * roundDouble w) ≤ roundDouble (roundDouble (x' / 255) * roundDouble w) := fun hw hx =>
    roundDouble_mono (mul_le_mul_of_nonneg_right (roundDouble_mono (by linarith)) (roundDouble_nonneg hw))
  unfold Flt.weigh
  exact roundDouble_mono (add_le_add (roundDouble_mono (add_le_add (part hp hr) (part hq hg))) (part hs hb))

/-- a measure that is monotone and right for the 256 greys -/
theorem measure_of_greys {f : Option ℤ → Option ℚ} {g : ℚ × ℚ × ℚ → ℚ} {ε : ℚ} (h0 : f none = none)
    (h : ∀ v, f (some v) = some (g (byte 3 v, byte 2 v, byte 1 v)))
    (hm : ∀ {r s t r' s' t' : ℚ}, r ≤ r' → s ≤ s' → t ≤ t' → g (r, s, t) ≤ g (r', s', t'))
    (hg : ∀ k : Fin 256, |g (k.val, k.val, k.val) - (k.val : ℚ) / 255| ≤ ε) (hb : g (0, 0, 0) = 0) (hw : g (255, 255, 255) ≤ 1) :
    LightMeasureUpTo ε f := by
  refine ⟨h0, fun v => ⟨_, h v, ?_, ?_⟩, fun v k h3 h2 h1 => ⟨_, h v, ?_, ?_⟩, fun v w h3 h2 h1 => ⟨_, _, h v, h w, hm ?_ ?_ ?_⟩⟩
  · rw [← hb]
    exact hm (byte_bounds 3 v).1 (byte_bounds 2 v).1 (byte_bounds 1 v).1
  · exact le_trans (hm (byte_bounds 3 v).2 (byte_bounds 2 v).2 (byte_bounds 1 v).2) hw
  · rw [h3, h2, h1]
    have hk := byte_range 3 v
    rw [h3] at hk
    obtain ⟨n, rfl⟩ := Int.eq_ofNat_of_zero_le hk.1
    simpa only [Int.cast_natCast] using hg ⟨n, by have := hk.2; omega⟩
  · rintro rfl
    rw [h3, h2, h1]
    simpa only [Int.cast_zero] using hb
  · exact Int.cast_le.2 h3
  · exact Int.cast_le.2 h2
  · exact Int.cast_le.2 h1

/-- the greys of `luminance`, all 256 -/
theorem luminance_greys : ∀ k : Fin 256, |Flt.weigh (3 / 10) (59 / 100) (11 / 100) (k.val, k.val, k.val) - (k.val : ℚ) / 255| ≤ 1 / 2 ^ 52 := by
  decide +kernel

/-- the greys of `luma`, all 256 -/
theorem luma_greys : ∀ k : Fin 256,
    |Flt.weigh (2126 / 10000) (7152 / 10000) (722 / 10000) (k.val, k.val, k.val) - (k.val : ℚ) / 255| ≤ 1 / 2 ^ 52 := by
  decide +kernel

/-- the greys of `brightness`, all 256 -/
theorem brightness_greys : ∀ k : Fin 256, |roundDouble ((k.val : ℚ) / 255) - (k.val : ℚ) / 255| ≤ 1 / 2 ^ 54 := by
  decide +kernel

/-- **C104**, floats: `luminance` and `luma`, computed with doubles, measure how light a colour is, up to 2⁻⁵². The order of colours is
kept exactly, and neither ever exceeds 1. -/
theorem C104_float : LightMeasureUpTo (1 / 2 ^ 52) Flt.luminance ∧ LightMeasureUpTo (1 / 2 ^ 52) Flt.luma := by
  constructor
  · exact measure_of_greys (g := Flt.weigh (3 / 10) (59 / 100) (11 / 100)) rfl (fun v => by unfold Flt.luminance; rw [channels_some]; rfl)
      (weigh_mono (by norm_num) (by norm_num) (by norm_num)) luminance_greys (by decide +kernel) (by decide +kernel)
  · exact measure_of_greys (g := Flt.weigh (2126 / 10000) (7152 / 10000) (722 / 10000)) rfl
      (fun v => by unfold Flt.luma; rw [channels_some]; rfl)
      (weigh_mono (by norm_num) (by norm_num) (by norm_num)) luma_greys (by decide +kernel) (by decide +kernel)

/-- **C104**, floats: so does `brightness`, up to 2⁻⁵⁴, and white has exactly 1; `blackness` is what is missing to 1, rounded once. -/
theorem C104_float_brightness : LightMeasureUpTo (1 / 2 ^ 54) Flt.brightness ∧
    (∀ v, byte 3 v = 255 ∨ byte 2 v = 255 ∨ byte 1 v = 255 → Flt.brightness (some v) = some 1) ∧
    Flt.blackness none = none ∧
    ∀ v, ∃ x y, Flt.brightness (some v) = some x ∧ Flt.blackness (some v) = some y ∧ 0 ≤ y ∧ y ≤ 1 ∧ |x + y - 1| ≤ 1 / 2 ^ 52 := by
  have e : ∀ v, Flt.brightness (some v) = some (roundDouble (max (max (byte 3 v : ℚ) (byte 2 v)) (byte 1 v) / 255)) := by
    intro v; unfold Flt.brightness; rw [channels_some]; rfl
  have hl : LightMeasureUpTo (1 / 2 ^ 54) Flt.brightness := by
    refine measure_of_greys (g := fun x => roundDouble (max (max x.1 x.2.1) x.2.2 / 255)) rfl e ?_ ?_ (by decide +kernel)
      (by decide +kernel)
    · intro r s t r' s' t' hr hs ht
      exact roundDouble_mono (div_le_div_of_nonneg_right (max_le_max (max_le_max hr hs) ht) (by norm_num))
    · intro k
      simp only [max_self]
      exact brightness_greys k
  refine ⟨hl, fun v hv => ?_, rfl, fun v => ?_⟩
  · have m : max (max (byte 3 v : ℚ) (byte 2 v)) (byte 1 v) = 255 := by
      apply le_antisymm (max_le (max_le (byte_bounds 3 v).2 (byte_bounds 2 v).2) (byte_bounds 1 v).2)
      rcases hv with h | h | h <;> rw [h] <;> simp
    rw [e, m]
    congr 1
    decide +kernel
  · obtain ⟨x, hx, h0, h1⟩ := hl.2.1 v
    have hy : Flt.blackness (some v) = some (roundDouble (1 - x)) := by unfold Flt.blackness; rw [hx]; rfl
    have r1 : roundDouble 1 = 1 := by decide +kernel
    refine ⟨x, _, hx, hy, roundDouble_nonneg (by linarith), ?_, ?_⟩
    · rw [← r1]; exact roundDouble_mono (by linarith)
    · have := roundDouble_err (1 - x)
      rw [abs_of_nonneg (show 0 ≤ 1 - x by linarith)] at this
      rw [show x + roundDouble (1 - x) - 1 = roundDouble (1 - x) - (1 - x) by ring]
      have t : (1 : ℚ) / 2 ^ 1074 ≤ 1 / 2 ^ 53 := one_div_le_one_div_of_le (by positivity) (pow_le_pow_right₀ (by norm_num) (by norm_num))
      have e : (1 - x) / 2 ^ 53 ≤ 1 / 2 ^ 53 := div_le_div_of_nonneg_right (by linarith) (by positivity)
      have e2 : (1 : ℚ) / 2 ^ 53 + 1 / 2 ^ 53 = 1 / 2 ^ 52 := by norm_num
      linarith

/-- C104 is false of `luminance` with floats: white has 0.9999999999999999. `luma` of white is 1. `intensity` of white is 255/256. -/
theorem C104_white_wrong : Flt.luminance (some 0xFFFFFFFF) = some (1 - 1 / 2 ^ 53) ∧ Flt.luma (some 0xFFFFFFFF) = some 1 ∧
    Flt.intensity (some 0xFFFFFFFF) = some (255 / 256) := by
  decide +kernel

end Svgio.Props
