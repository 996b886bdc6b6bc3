import Verif.Model.ColorMeasure
import Verif.Props.ColorChannels

/-!
C104: brightness, blackness, luminance and luma of a colour.
-/

namespace Svgio.Props
open Spec Color

/-- `f` measures how light a colour is: 0 for black, 1 for white, `k / 255` for the grey of level `k`, never outside 0 to 1, never less
for a colour that has as much or more of each of red, green and blue, whatever the opacity. -/
def LightMeasure (f : Option ℤ → Option ℚ) : Prop :=
  f none = none ∧
  (∀ v, ∃ x, f (some v) = some x ∧ 0 ≤ x ∧ x ≤ 1) ∧
  (∀ v k : ℤ, byte 3 v = k → byte 2 v = k → byte 1 v = k → f (some v) = some ((k : ℚ) / 255)) ∧
  (∀ v w : ℤ, byte 3 v ≤ byte 3 w → byte 2 v ≤ byte 2 w → byte 1 v ≤ byte 1 w →
    ∃ x y, f (some v) = some x ∧ f (some w) = some y ∧ x ≤ y)

theorem channels_some (v : ℤ) : channels (some v) = some ((byte 3 v : ℚ), (byte 2 v : ℚ), (byte 1 v : ℚ)) := by
  have h1 := get_eq_byte .red v
  have h2 := get_eq_byte .green v
  have h3 := get_eq_byte .blue v
  simp only [Chan.get, Chan.pos] at h1 h2 h3
  unfold channels
  rw [h1, h2, h3]

theorem byte_bounds (i : ℕ) (v : ℤ) : (0 : ℚ) ≤ byte i v ∧ (byte i v : ℚ) ≤ 255 := by
  have h0 : 0 ≤ byte i v := Int.emod_nonneg _ (by norm_num)
  have h1 : byte i v < 256 := Int.emod_lt_of_pos _ (by norm_num)
  constructor
  · exact_mod_cast h0
  · exact_mod_cast (by omega : byte i v ≤ 255)

/-- A measure with fixed parts of red, green and blue that add up to 1. -/
theorem weighted {f : Option ℤ → Option ℚ} {a b c : ℚ} (h0 : f none = none) (ha : 0 ≤ a) (hb : 0 ≤ b) (hc : 0 ≤ c) (hs : a + b + c = 1)
    (h : ∀ v, f (some v) = some ((byte 3 v : ℚ) / 255 * a + (byte 2 v : ℚ) / 255 * b + (byte 1 v : ℚ) / 255 * c)) :
    LightMeasure f := by
  refine ⟨h0, fun v => ⟨_, h v, ?_, ?_⟩, ?_, ?_⟩
  · have := byte_bounds 3 v; have := byte_bounds 2 v; have := byte_bounds 1 v; nlinarith
  · have := byte_bounds 3 v; have := byte_bounds 2 v; have := byte_bounds 1 v; nlinarith
  · intro v k h3 h2 h1
    rw [h, h3, h2, h1]
    congr 1
    rw [← mul_add, ← mul_add, hs, mul_one]
  · intro v w h3 h2 h1
    refine ⟨_, _, h v, h w, ?_⟩
    have h3 : (byte 3 v : ℚ) ≤ byte 3 w := by exact_mod_cast h3
    have h2 : (byte 2 v : ℚ) ≤ byte 2 w := by exact_mod_cast h2
    have h1 : (byte 1 v : ℚ) ≤ byte 1 w := by exact_mod_cast h1
    nlinarith

/-- **C104**: `luminance` and `luma` measure how light a colour is. -/
theorem C104_luminance : LightMeasure luminance ∧ LightMeasure luma := by
  constructor
  · refine weighted (a := 30 / 100) (b := 59 / 100) (c := 11 / 100) rfl (by norm_num) (by norm_num) (by norm_num) (by norm_num) fun v => ?_
    unfold luminance; rw [channels_some]; rfl
  · refine weighted (a := 2126 / 10000) (b := 7152 / 10000) (c := 722 / 10000) rfl (by norm_num) (by norm_num) (by norm_num)
      (by norm_num) fun v => ?_
    unfold luma; rw [channels_some]; rfl

/-- **C104**: `luminance` and `luma` tell pure colours apart: green is lighter than red and red lighter than blue. -/
theorem C104_order : ∀ f ∈ [luminance, luma], ∃ x y z, f (some 0x0000FFFF) = some x ∧ f (some 0xFF0000FF) = some y ∧
    f (some 0x00FF00FF) = some z ∧ x < y ∧ y < z := by
  intro f hf
  simp only [List.mem_cons, List.not_mem_nil, or_false] at hf
  rcases hf with rfl | rfl
  · refine ⟨_, _, _, by unfold luminance; rw [channels_some]; rfl, by unfold luminance; rw [channels_some]; rfl,
      by unfold luminance; rw [channels_some]; rfl, ?_, ?_⟩ <;> norm_num [byte]
  · refine ⟨_, _, _, by unfold luma; rw [channels_some]; rfl, by unfold luma; rw [channels_some]; rfl,
      by unfold luma; rw [channels_some]; rfl, ?_, ?_⟩ <;> norm_num [byte]

/-- **C104**: so does `brightness`, and it is the part of the strongest channel; `blackness` is what is missing to 1. -/
theorem C104_brightness : LightMeasure brightness ∧
    (∀ v : ℤ, ∃ x, brightness (some v) = some x ∧ (∀ i ∈ [1, 2, 3], (byte i v : ℚ) / 255 ≤ x) ∧
      ∃ i ∈ [1, 2, 3], x = (byte i v : ℚ) / 255) ∧
    blackness none = none ∧ ∀ v, ∃ x y, brightness (some v) = some x ∧ blackness (some v) = some y ∧ x + y = 1 := by
  have e : ∀ v, brightness (some v) = some (max (max (byte 3 v : ℚ) (byte 2 v)) (byte 1 v) / 255) := by
    intro v; unfold brightness; rw [channels_some]; rfl
  refine ⟨⟨rfl, fun v => ⟨_, e v, ?_, ?_⟩, ?_, ?_⟩, ?_, rfl, ?_⟩
  · exact div_nonneg (le_trans (byte_bounds 1 v).1 (le_max_right _ _)) (by norm_num)
  · rw [div_le_one (by norm_num)]
    exact max_le (max_le (byte_bounds 3 v).2 (byte_bounds 2 v).2) (byte_bounds 1 v).2
  · intro v k h3 h2 h1
    rw [e, h3, h2, h1, max_self, max_self]
  · intro v w h3 h2 h1
    refine ⟨_, _, e v, e w, ?_⟩
    have h3 : (byte 3 v : ℚ) ≤ byte 3 w := by exact_mod_cast h3
    have h2 : (byte 2 v : ℚ) ≤ byte 2 w := by exact_mod_cast h2
    have h1 : (byte 1 v : ℚ) ≤ byte 1 w := by exact_mod_cast h1
    exact div_le_div_of_nonneg_right (max_le_max (max_le_max h3 h2) h1) (by norm_num)
  · intro v
    refine ⟨_, e v, ?_, ?_⟩
    · intro i hi
      simp only [List.mem_cons, List.not_mem_nil, or_false] at hi
      apply div_le_div_of_nonneg_right _ (by norm_num)
      rcases hi with rfl | rfl | rfl
      · exact le_max_right _ _
      · exact le_trans (le_max_right _ _) (le_max_left _ _)
      · exact le_trans (le_max_left _ _) (le_max_left _ _)
    · rcases max_choice (max (byte 3 v : ℚ) (byte 2 v)) (byte 1 v) with h | h
      · rcases max_choice (byte 3 v : ℚ) (byte 2 v) with h' | h'
        · exact ⟨3, by simp, by rw [h, h']⟩
        · exact ⟨2, by simp, by rw [h, h']⟩
      · exact ⟨1, by simp, by rw [h]⟩
  · intro v
    exact ⟨_, _, e v, by unfold blackness; rw [e]; rfl, by ring⟩

/-- `intensity` is not such a measure: no colour, not even white, has intensity 1. -/
theorem C104_intensity_wrong : ¬ LightMeasure intensity ∧ ∀ v, ∃ x, intensity (some v) = some x ∧ 0 ≤ x ∧ x ≤ 765 / 768 := by
  have e : ∀ v, intensity (some v) = some (((byte 3 v : ℚ) + byte 1 v + byte 2 v) / 768) := by
    intro v; unfold intensity; rw [channels_some]; rfl
  have hb : ∀ v, ∃ x, intensity (some v) = some x ∧ 0 ≤ x ∧ x ≤ 765 / 768 := by
    intro v
    have := byte_bounds 3 v; have := byte_bounds 2 v; have := byte_bounds 1 v
    refine ⟨_, e v, by linarith, by linarith⟩
  refine ⟨fun h => ?_, hb⟩
  have hw := h.2.2.1 0xFFFFFFFF 255 (by decide) (by decide) (by decide)
  obtain ⟨x, hx, -, hx1⟩ := hb 0xFFFFFFFF
  rw [hx] at hw
  have hw := Option.some.inj hw
  rw [hw] at hx1
  norm_num at hx1

example : luminance (some 0x336699FF) = some (362 / 1000 : ℚ) := by
  unfold luminance; rw [channels_some]; norm_num [byte]

end Svgio.Props
