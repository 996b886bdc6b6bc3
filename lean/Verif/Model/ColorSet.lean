import Verif.Model.ColorParse

/-!
Assigning to `hue`, `saturation` and `lightness` of a colour: svgio/basic.py:1233-1280, 1407-1411. Exact arithmetic, as in
Model/ColorParse.lean.
-/

namespace Svgio.Color

/-- basic.py:1407-1411: the property `hsl` -/
def hsl : Option ℤ → Option (ℚ × ℚ × ℚ)
  | none => none
  | some v => (hue (some v)).bind fun h => (saturation (some v)).bind fun s => (lightness (some v)).map fun l => (h, s, l)

/-- basic.py:1235-1238, 1259-1262, 1277-1280: the three setters read `hsl` first; `none` cannot be unpacked, but it is refused before -/
def withHsl (v : Option ℤ) (f : ℚ → ℚ → ℚ → Option ℤ) : Except PyErr (Option ℤ) :=
  match v with
  | none => .error .valueError
  | some v =>
    match hsl (some v) with
    | none => .error .typeError
    | some (h, s, l) => .ok (f h s l)

/-- basic.py:1233-1238 `color.hue = x` -/
def setHue (F : FloatRounding) (v : Option ℤ) (x : ℚ) : Except PyErr (Option ℤ) := withHsl v fun _ s l => setHsl F x s l

/-- basic.py:1257-1262 `color.saturation = x` -/
def setSaturation (F : FloatRounding) (v : Option ℤ) (x : ℚ) : Except PyErr (Option ℤ) := withHsl v fun h _ l => setHsl F h x l

/-- basic.py:1275-1280 `color.lightness = x` -/
def setLightness (F : FloatRounding) (v : Option ℤ) (x : ℚ) : Except PyErr (Option ℤ) := withHsl v fun h s _ => setHsl F h s x

end Svgio.Color
