import Verif.Model.ColorMeasure
import Verif.Model.Ieee

/-!
The measures of a colour with floats: svgio/basic.py:1283-1323, rounded to the nearest double after every operation. The channels are
whole numbers (basic.py:1286-1288), which Python turns into doubles without a change.
-/

namespace Svgio.Color.Flt

/-- basic.py:1282-1289; the sum of the channels is a whole number -/
def intensity (c : Option ℤ) : Option ℚ := (channels c).map fun x => roundDouble ((x.1 + x.2.2 + x.2.1) / 768)

/-- basic.py:1291-1299 -/
def brightness (c : Option ℤ) : Option ℚ := (channels c).map fun x => roundDouble (max (max x.1 x.2.1) x.2.2 / 255)

/-- basic.py:1301-1305 -/
def blackness (c : Option ℤ) : Option ℚ := (brightness c).map fun b => roundDouble (1 - b)

/-- the sum of basic.py:1314 and 1323, from the left to the right; the factors are rounded when the program is read -/
def weigh (p q s : ℚ) (x : ℚ × ℚ × ℚ) : ℚ :=
  let r := roundDouble (x.1 / 255)
  let g := roundDouble (x.2.1 / 255)
  let b := roundDouble (x.2.2 / 255)
  roundDouble (roundDouble (roundDouble (r * roundDouble p) + roundDouble (g * roundDouble q)) + roundDouble (b * roundDouble s))

/-- basic.py:1307-1314 -/
def luminance (c : Option ℤ) : Option ℚ := (channels c).map (weigh (3 / 10) (59 / 100) (11 / 100))

/-- basic.py:1316-1323 -/
def luma (c : Option ℤ) : Option ℚ := (channels c).map (weigh (2126 / 10000) (7152 / 10000) (722 / 10000))

end Svgio.Color.Flt
