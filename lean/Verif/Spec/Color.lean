import Verif.Model.Color

/-! Specification vocabulary for colours, independent of the bit tricks in the model. -/

namespace Svgio.Spec

/-- The four channels a user can read and assign. -/
inductive Chan | red | green | blue | alpha
  deriving DecidableEq, Repr

/-- "clamped to 0..255 and truncated" -/
def clamp255 (x : ℚ) : ℤ := max 0 (min 255 ⌊x⌋)

/-- clamp of an integer -/
def clampI (n : ℤ) : ℤ := max 0 (min 255 n)

/-- The colour as four bytes, by plain arithmetic: byte `i` of an integer. -/
def byte (i : ℕ) (v : ℤ) : ℤ := (v / 256 ^ i) % 256

/-- Channel position in the packed value 0xRRGGBBAA. -/
def Chan.pos : Chan → ℕ
  | red => 3 | green => 2 | blue => 1 | alpha => 0

/-- reading the public property of that name -/
def Chan.get : Chan → Option ℤ → Option ℤ
  | red => Color.red | green => Color.green | blue => Color.blue | alpha => Color.alpha

/-- assigning the public property of that name -/
def Chan.set : Chan → Option ℤ → ℚ → Except PyErr (Option ℤ)
  | red => Color.setRed | green => Color.setGreen | blue => Color.setBlue | alpha => Color.setAlpha

end Svgio.Spec
