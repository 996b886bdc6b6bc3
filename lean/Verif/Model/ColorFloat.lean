import Verif.Model.ColorParse

/-!
Hue, saturation and lightness with floats: svgio/basic.py:628-657, 1033-1052, 1206-1273, with the rounding `F` after every operation.
`tau` is the float 6.28… of `math.tau`.
-/

namespace Svgio.Color.Flt

variable (F : FloatRounding) (tau : ℚ)

/-- basic.py:630-641 `hue_2_rgb` -/
def hue2rgb (v1 v2 vh : ℚ) : ℚ :=
  let vh := if vh < 0 then F.fl (vh + 1) else vh
  let vh := if vh > 1 then F.fl (vh - 1) else vh
  if F.fl (6 * vh) < 1 then F.fl (v1 + F.fl (F.fl (F.fl (v2 - v1) * 6) * vh))
  else if F.fl (2 * vh) < 1 then v2
  else if F.fl (3 * vh) < 2 then F.fl (v1 + F.fl (F.fl (F.fl (v2 - v1) * F.fl (F.fl (2 / 3) - vh)) * 6))
  else v1

/-- basic.py:628-657 `hsl_to_int` -/
def hslToInt (h s l opacity : ℚ) : ℤ :=
  if s = 0 then rgbToInt F (F.fl (255 * l)) (F.fl (255 * l)) (F.fl (255 * l)) opacity
  else
    let v2 := if l < 1 / 2 then F.fl (l * F.fl (1 + s)) else F.fl (F.fl (l + s) - F.fl (s * l))
    let v1 := F.fl (F.fl (2 * l) - v2)
    rgbToInt F (F.fl (255 * hue2rgb F v1 v2 (F.fl (h + F.fl (1 / 3))))) (F.fl (255 * hue2rgb F v1 v2 h))
      (F.fl (255 * hue2rgb F v1 v2 (F.fl (h - F.fl (1 / 3))))) opacity

/-- Python's `float(text)` of a number, basic.py:1038, 1043, 1049, 1866 -/
def floatOf (t : List Char) : ℚ := F.fl (floatVal t)

/-- basic.py:1036-1037, 1866, 1872-1874, 1903-1905: `Angle.parse(text).as_turns` of a number without a unit -/
def turnsOf (t : List Char) : ℚ := F.fl (F.fl (F.fl (tau * floatOf F t) / 360) / tau)

/-- optional opacity group, basic.py:1048-1051 -/
def opac : Option (List Char) → ℚ
  | some t => floatOf F t
  | none => 1

/-- basic.py:1033-1052 `parse_color_hsl` -/
def parseHsl (g : List Char × List Char × List Char × Option (List Char)) : ℤ :=
  hslToInt F (turnsOf F tau g.1) (clamp01 (F.fl (floatOf F g.2.1 / 100))) (clamp01 (F.fl (floatOf F g.2.2.1 / 100))) (opac F g.2.2.2)

/-- basic.py:1020-1031 `parse_color_rgbp` -/
def parseRgbp (g : List Char × List Char × List Char × Option (List Char)) : ℤ :=
  let ratio := F.fl (255 / 100)
  rgbToInt F (pyRound (F.fl (floatOf F g.1 * ratio))) (pyRound (F.fl (floatOf F g.2.1 * ratio)))
    (pyRound (F.fl (floatOf F g.2.2.1 * ratio))) (opac F g.2.2.2)

/-- basic.py:1008-1018 `parse_color_rgb` -/
def parseRgb (g : List Char × List Char × List Char × Option (List Char)) : Except PyErr ℤ := do
  let r ← intOfFloatText g.1
  let gr ← intOfFloatText g.2.1
  let b ← intOfFloatText g.2.2.1
  return rgbToInt F r gr b (opac F g.2.2.2)

/-- basic.py:659-676 `Color.parse` (`none` is Python's None) -/
def parse (pyInt : List Char → Option ℤ) (s : Option (List Char)) : Except PyErr (Option ℤ) :=
  match s with
  | none => .ok none
  | some s =>
    if s = "none".toList then .ok none
    else if matchHex s then (parseHex F s).map some
    else match matchFun "rgb".toList false false false s with
      | some g => (parseRgb F g).map some
      | none => match matchFun "rgb".toList true true true s with
        | some g => .ok (some (parseRgbp F g))
        | none => match matchFun "hsl".toList false true true s with
          | some g => .ok (some (parseHsl F tau g))
          | none => .ok (some (parseLookup F pyInt s))

/-- basic.py:1210-1212: the channel at bit `i`, divided by 255.0 -/
def frac (i : ℕ) (v : ℤ) : ℚ := F.fl (((Int.land (v >>> (i : ℕ)) 0xFF : ℤ) : ℚ) / 255)

/-- basic.py:1218-1220: `(((var_max - x) / 6.0) + delta_max / 2.0) / delta_max` -/
def part (vmax d x : ℚ) : ℚ := F.fl (F.fl (F.fl (F.fl (vmax - x) / 6) + F.fl (d / 2)) / d)

/-- basic.py:1213-1230: the hue in turns of channel fractions `r g b` -/
def hueOf (r g b : ℚ) : ℚ :=
  let vmin := min (min r g) b
  let vmax := max (max r g) b
  let d := F.fl (vmax - vmin)
  if d = 0 then 0
  else
    let dr := part F vmax d r
    let dg := part F vmax d g
    let db := part F vmax d b
    let h := if r = vmax then F.fl (db - dg)
      else if g = vmax then F.fl (F.fl (F.fl (1 / 3) + dr) - db)
      else F.fl (F.fl (F.fl (2 / 3) + dg) - dr)
    let h := if h < 0 then F.fl (h + 1) else h
    if h > 1 then F.fl (h - 1) else h

/-- basic.py:1206-1231, 1880-1882, 1888-1890: the property `hue`, `Angle.turns(h).as_degrees` -/
def hue : Option ℤ → Option ℚ
  | none => none
  | some v => some (F.fl (F.fl (F.fl (tau * hueOf F (frac F 24 v) (frac F 16 v) (frac F 8 v)) * 360) / tau))

/-- basic.py:1247-1255 -/
def satOf (r g b : ℚ) : ℚ :=
  let mn := min (min r g) b
  let mx := max (max r g) b
  let d := F.fl (mx - mn)
  if mx = mn then 0
  else if F.fl (mx + mn) < 1 then F.fl (d / F.fl (mx + mn))
  else F.fl (d / F.fl (F.fl (2 - mx) - mn))

/-- basic.py:1240-1255: the property `saturation` -/
def saturation : Option ℤ → Option ℚ
  | none => none
  | some v => some (satOf F (frac F 24 v) (frac F 16 v) (frac F 8 v))

/-- basic.py:1271-1273 -/
def lightOf (r g b : ℚ) : ℚ :=
  let mn := min (min r g) b
  let mx := max (max r g) b
  F.fl (F.fl (mx + mn) / 2)

/-- basic.py:1264-1273: the property `lightness` -/
def lightness : Option ℤ → Option ℚ
  | none => none
  | some v => some (lightOf F (frac F 24 v) (frac F 16 v) (frac F 8 v))

/-- basic.py:1413-1420 `self.hsl = (h, s, l)` : the new value -/
def setHsl (h s l : ℚ) : Option ℤ := some (hslToInt F h s l 1)

end Svgio.Color.Flt
