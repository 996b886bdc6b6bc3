import Verif.Model.ColorSet
import Verif.Props.ColorFun
import Verif.Props.ColorHsl
import Verif.Props.ColorFloat

/-!
C131: assigning to `hue`, `saturation` and `lightness`.
-/

namespace Svgio.Spec

/-- The colour has the channels that CSS gives to the hue `h` in degrees, the saturation `s` and the lightness `l`, cut to whole numbers, and
is opaque. -/
def HasHsl (w : Option ℤ) (h s l : ℚ) : Prop :=
  Color.red w = some ⌊255 * hslLevel h s l 0⌋ ∧ Color.green w = some ⌊255 * hslLevel h s l 8⌋ ∧
  Color.blue w = some ⌊255 * hslLevel h s l 4⌋ ∧ Color.alpha w = some 255

end Svgio.Spec

namespace Svgio.Props

open Spec Color

theorem clamp_level {h s l n : ℚ} (hs : 0 ≤ s ∧ s ≤ 1) (hl : 0 ≤ l ∧ l ≤ 1) :
    clamp255 (255 * hslLevel h s l n) = ⌊255 * hslLevel h s l n⌋ := by
  obtain ⟨r0, r1⟩ := ColorFloat.level_range (h0 := h) (n := n) hs hl
  unfold clamp255
  have : ⌊255 * hslLevel h s l n⌋ ≤ 255 := by
    have : ⌊255 * hslLevel h s l n⌋ ≤ ⌊(255 : ℚ)⌋ := Int.floor_le_floor (by linarith)
    rwa [show ⌊(255 : ℚ)⌋ = 255 from Int.floor_natCast 255] at this
  rw [min_eq_right this, max_eq_right (Int.floor_nonneg.2 (by linarith))]

theorem alpha_opaque (F : FloatRounding) (r g b : ℚ) : Color.alpha (some (rgbToInt F r g b 1)) = some 255 := by
  obtain ⟨-, -, -, a, k4, k5⟩ := rgbToInt_get F r g b 1
  rw [k4]
  have : limit 0 1 (1 : ℚ) * 255 = ((255 : ℤ) : ℚ) := by unfold limit; norm_num
  rw [this] at k5
  congr 1
  unfold Rounded at k5
  have : |((a - 255 : ℤ) : ℚ)| < 1 := by push_cast; push_cast at k5; linarith
  rw [← Int.cast_abs] at this
  have h1 : |a - 255| < 1 := by exact_mod_cast this
  rw [Int.abs_lt_one_iff] at h1
  omega

theorem setHsl_has (F : FloatRounding) {h s l : ℚ} (hh : -240 ≤ h ∧ h ≤ 600) (hs : 0 ≤ s ∧ s ≤ 1) (hl : 0 ≤ l ∧ l ≤ 1) :
    HasHsl (setHsl F (h / 360) s l) h s l := by
  unfold setHsl
  rw [hslToInt_levels F hh]
  obtain ⟨k1, k2, k3, -⟩ := rgbToInt_get F (255 * hslLevel h s l 0) (255 * hslLevel h s l 8) (255 * hslLevel h s l 4) 1
  rw [clamp_level hs hl] at k1 k2 k3
  exact ⟨k1, k2, k3, alpha_opaque F _ _ _⟩

/-- **C131**: an unset colour refuses all three assignments with ValueError. -/
theorem C131_none (F : FloatRounding) (x : ℚ) : setHue F none x = .error .valueError ∧
    setSaturation F none x = .error .valueError ∧ setLightness F none x = .error .valueError := ⟨rfl, rfl, rfl⟩

/-- **C131**, partial: assigning a hue, in turns, gives the colour with this hue and the old saturation and lightness. Missing: the hue is
read in degrees but assigned in turns (`C131_turns_wrong`), the other two assignments (`C131_grey_wrong`), and the opacity, which is lost. -/
theorem C131_hue_partial (F : FloatRounding) (v : ℤ) (x : ℚ) (hx : -2 / 3 ≤ x ∧ x ≤ 5 / 3) :
    ∃ s l w, saturation (some v) = some s ∧ lightness (some v) = some l ∧ setHue F (some v) x = .ok w ∧ HasHsl w (360 * x) s l := by
  obtain ⟨h, s, l, e1, e2, e3, -, -, s0, s1, l0, l1⟩ := C11_getters_range v
  refine ⟨s, l, setHsl F x s l, e2, e3, ?_, ?_⟩
  · simp only [setHue, withHsl, hsl, e1, e2, e3, Option.bind_some, Option.map_some]
  · have := setHsl_has F (h := 360 * x) (s := s) (l := l) ⟨by linarith [hx.1], by linarith [hx.2]⟩ ⟨s0, s1⟩ ⟨l0, l1⟩
    rwa [show 360 * x / 360 = x by ring] at this

/-- **C131**, partial: for a grey colour, and for any colour of hue 0, the other two assignments give the new saturation or lightness and
keep the other two values. -/
theorem C131_others_partial (F : FloatRounding) (v : ℤ) (x : ℚ) (hv : hue (some v) = some 0) (hx : 0 ≤ x ∧ x ≤ 1) :
    ∃ s l w w', saturation (some v) = some s ∧ lightness (some v) = some l ∧ setSaturation F (some v) x = .ok w ∧ HasHsl w 0 x l ∧
      setLightness F (some v) x = .ok w' ∧ HasHsl w' 0 s x := by
  obtain ⟨h, s, l, e1, e2, e3, -, -, s0, s1, l0, l1⟩ := C11_getters_range v
  have h0 : h = 0 := by rw [e1] at hv; exact Option.some.inj hv
  subst h0
  refine ⟨s, l, setHsl F 0 x l, setHsl F 0 s x, e2, e3, ?_, ?_, ?_, ?_⟩
  · simp only [setSaturation, withHsl, hsl, e1, e2, e3, Option.bind_some, Option.map_some]
  · have := setHsl_has F (h := 0) (s := x) (l := l) (by norm_num) hx ⟨l0, l1⟩
    rwa [zero_div] at this
  · simp only [setLightness, withHsl, hsl, e1, e2, e3, Option.bind_some, Option.map_some]
  · have := setHsl_has F (h := 0) (s := s) (l := x) (by norm_num) ⟨s0, s1⟩ hx
    rwa [zero_div] at this

theorem hue2rgb_far (v1 v2 x : ℚ) (h : 2 ≤ x) : hue2rgb v1 v2 x = v1 := by
  unfold hue2rgb
  have h0 : ¬ x < 0 := by linarith
  have h1 : x > 1 := by linarith
  simp only [if_neg h0, if_pos h1]
  rw [if_neg (by linarith), if_neg (by linarith), if_neg (by linarith)]

theorem setHsl_far (F : FloatRounding) (h s l : ℚ) (hh : 7 / 3 ≤ h) :
    ∃ k, Color.red (setHsl F h s l) = some k ∧ Color.green (setHsl F h s l) = some k ∧ Color.blue (setHsl F h s l) = some k := by
  unfold setHsl hslToInt
  split
  · obtain ⟨k1, k2, k3, -⟩ := rgbToInt_get F (255 * l) (255 * l) (255 * l) 1
    exact ⟨_, k1, k2, k3⟩
  · simp only
    rw [hue2rgb_far _ _ (h + 1 / 3) (by linarith), hue2rgb_far _ _ h (by linarith), hue2rgb_far _ _ (h - 1 / 3) (by linarith)]
    obtain ⟨k1, k2, k3, -⟩ := rgbToInt_get F _ _ _ 1
    exact ⟨_, k1, k2, k3⟩

/-- C131 is false of every colour of a hue from 7/3 degrees on: assigning any saturation or lightness makes it grey. -/
theorem C131_grey_wrong (F : FloatRounding) (v : ℤ) (h x : ℚ) (hv : hue (some v) = some h) (hh : 7 / 3 ≤ h) :
    ∀ w, setSaturation F (some v) x = .ok w ∨ setLightness F (some v) x = .ok w →
      ∃ k, Color.red w = some k ∧ Color.green w = some k ∧ Color.blue w = some k := by
  obtain ⟨h', s, l, e1, e2, e3, -⟩ := C11_getters_range v
  have : h' = h := by rw [e1] at hv; exact Option.some.inj hv
  subst this
  rintro w (hw | hw)
  · simp only [setSaturation, withHsl, hsl, e1, e2, e3, Option.bind_some, Option.map_some, Except.ok.injEq] at hw
    rw [← hw]
    exact setHsl_far F _ _ _ hh
  · simp only [setLightness, withHsl, hsl, e1, e2, e3, Option.bind_some, Option.map_some, Except.ok.injEq] at hw
    rw [← hw]
    exact setHsl_far F _ _ _ hh

/-- C131 is false of the hue in degrees: assigning to a colour of such a hue its own hue makes it grey. -/
theorem C131_turns_wrong (F : FloatRounding) (v : ℤ) (h : ℚ) (hv : hue (some v) = some h) (hh : 7 / 3 ≤ h) :
    ∀ w, setHue F (some v) h = .ok w → ∃ k, Color.red w = some k ∧ Color.green w = some k ∧ Color.blue w = some k := by
  obtain ⟨h', s, l, e1, e2, e3, -⟩ := C11_getters_range v
  intro w hw
  simp only [setHue, withHsl, hsl, e1, e2, e3, Option.bind_some, Option.map_some, Except.ok.injEq] at hw
  rw [← hw]
  exact setHsl_far F _ _ _ hh

example : hue (some 0x00FF00FF) = some 120 ∧ hue (some 0xFF000080) = some 0 := by decide +kernel

end Svgio.Props
