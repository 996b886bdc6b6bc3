import Verif.Props.ColorChannels

/-!
C114: `abs(color)`.
-/

namespace Svgio.Props

open Svgio Svgio.Spec

theorem clampI_of_byte (v : ℤ) : clampI (Int.land v 0xFF) = Int.land v 0xFF := by
  rw [land_255]
  unfold clampI
  omega

/-- **C114**: `abs(color)` has the same red, green and blue and is opaque; doing it again changes nothing. -/
theorem C114_abs (F : FloatRounding) (c : ℤ) :
    ∃ w, Color.pyAbs F (some c) = some w ∧ 0 ≤ w ∧ w < 2 ^ 32 ∧ Color.red (some w) = Color.red (some c) ∧
      Color.green (some w) = Color.green (some c) ∧ Color.blue (some w) = Color.blue (some c) ∧ Color.alpha (some w) = some 255 ∧
      Color.pyAbs F (some w) = some w := by
  obtain ⟨w, h1, h2, h3, h4, h5, h6, h7⟩ := C02_rgb F (Int.land (c >>> (24 : ℕ)) 0xFF) (Int.land (c >>> (16 : ℕ)) 0xFF)
    (Int.land (c >>> (8 : ℕ)) 0xFF)
  rw [clampI_of_byte] at h4 h5 h6
  refine ⟨w, h1, h2, h3, h4, h5, h6, h7, ?_⟩
  have e4 : Int.land (w >>> (24 : ℕ)) 0xFF = Int.land (c >>> (24 : ℕ)) 0xFF := Option.some.inj h4
  have e5 : Int.land (w >>> (16 : ℕ)) 0xFF = Int.land (c >>> (16 : ℕ)) 0xFF := Option.some.inj h5
  have e6 : Int.land (w >>> (8 : ℕ)) 0xFF = Int.land (c >>> (8 : ℕ)) 0xFF := Option.some.inj h6
  unfold Color.pyAbs
  simp only [e4, e5, e6]
  exact h1

/-- the colour none stays none -/
example (F : FloatRounding) : Color.pyAbs F none = none := rfl

/-- half-transparent: #12345678 becomes #123456ff -/
example : Color.pyAbs FloatRounding.id (some 0x12345678) = some 0x123456FF := by decide +kernel

end Svgio.Props
