import Verif.Model.Color

/-!
The measures of a colour that can only be read: `intensity`, `brightness`, `blackness`, `luminance`, `luma` (svgio/basic.py:1283-1323).
The rounding of floats is not modelled here: the results are exact.
-/

namespace Svgio.Color

/-- `self.red`, `self.green`, `self.blue` as numbers, basic.py:1286-1288, 1295-1297, 1311-1313, 1320-1322; None without a value -/
def channels (c : Option ℤ) : Option (ℚ × ℚ × ℚ) :=
  match red c, green c, blue c with
  | some r, some g, some b => some (r, g, b)
  | _, _, _ => none

/-- basic.py:1282-1289 -/
def intensity (c : Option ℤ) : Option ℚ := (channels c).map fun x => (x.1 + x.2.2 + x.2.1) / 768

/-- basic.py:1291-1299 -/
def brightness (c : Option ℤ) : Option ℚ := (channels c).map fun x => max (max x.1 x.2.1) x.2.2 / 255

/-- basic.py:1301-1305 -/
def blackness (c : Option ℤ) : Option ℚ := (brightness c).map fun b => 1 - b

/-- basic.py:1307-1314; the factors are the decimal numbers that the floats 0.3, 0.59 and 0.11 stand for -/
def luminance (c : Option ℤ) : Option ℚ :=
  (channels c).map fun x => x.1 / 255 * (30 / 100) + x.2.1 / 255 * (59 / 100) + x.2.2 / 255 * (11 / 100)

/-- basic.py:1316-1323; the factors are the decimal numbers that the floats 0.2126, 0.7152 and 0.0722 stand for -/
def luma (c : Option ℤ) : Option ℚ :=
  (channels c).map fun x => x.1 / 255 * (2126 / 10000) + x.2.1 / 255 * (7152 / 10000) + x.2.2 / 255 * (722 / 10000)

end Svgio.Color
