import Verif.Model.Color

/-!
Model of `Color.parse` and of the functional notations (svgio/basic.py:628-676,
1008-1052), with the regular expressions of constants.py:166-177.
-/

namespace Svgio.Color

/-- `\s` of a Python `str` pattern, constants.py:117, 166-177: the characters with `str.isspace`. -/
def isWs (c : Char) : Bool :=
  let n := c.toNat
  decide (9 ≤ n ∧ n ≤ 13) || decide (28 ≤ n ∧ n ≤ 32) || decide (n = 0x85) || decide (n = 0xA0)
    || decide (n = 0x1680) || decide (0x2000 ≤ n ∧ n ≤ 0x200A) || decide (n = 0x2028)
    || decide (n = 0x2029) || decide (n = 0x202F) || decide (n = 0x205F) || decide (n = 0x3000)

/-- `\s*`, constants.py:166-177: rest after the white space -/
def skipWs (s : List Char) : List Char := s.dropWhile isWs

/-- a literal character, constants.py:166-177 -/
def lit (c : Char) : List Char → Option (List Char)
  | [] => none
  | d :: r => if d = c then some r else none

/-- a literal word, constants.py:166-177 -/
def litWord : List Char → List Char → Option (List Char)
  | [], s => some s
  | c :: cs, s => (lit c s).bind (litWord cs)

/-- `(FLOAT)` or `(FLOAT)%`, constants.py:166-177 -/
def num (pct : Bool) (s : List Char) : Option (List Char × List Char) :=
  match matchFloat s with
  | none => none
  | some (v, r) => if pct then (lit '%' r).map (fun r => (v, r)) else some (v, r)

/-- `\s*,\s*`, constants.py:166-177 -/
def comma (s : List Char) : Option (List Char) := (lit ',' (skipWs s)).map skipWs

/-- The common shape of REGEX_COLOR_RGB, REGEX_COLOR_RGB_PERCENT and REGEX_COLOR_HSL,
constants.py:166-177: `NAMEa?\(\s*(F)p1\s*,\s*(F)p2\s*,\s*(F)p3\s*(?:,\s*(F)\s*)?\)`, matched
at the start of the text (`.match`, nothing is required of what follows). The four groups
are returned, the last one optional. -/
def matchFun (name : List Char) (p1 p2 p3 : Bool) (s : List Char) :
    Option (List Char × List Char × List Char × Option (List Char)) := do
  let s ← litWord name s
  let s := match s with
    | 'a' :: r => r
    | r => r
  let s ← lit '(' s
  let (v1, s) ← num p1 (skipWs s)
  let s ← comma s
  let (v2, s) ← num p2 s
  let s ← comma s
  let (v3, s) ← num p3 s
  let s := skipWs s
  match s with
  | ',' :: r =>
    let (v4, s) ← num false (skipWs r)
    let _ ← lit ')' (skipWs s)
    return (v1, v2, v3, some v4)
  | s =>
    let _ ← lit ')' s
    return (v1, v2, v3, none)

/-- Python `int(text)`, called in basic.py:1008-1018, of a text matched by FLOAT: a sign and digits only. -/
def intOfFloatText (s : List Char) : Except PyErr ℤ :=
  if (takeSign s).2 ≠ [] ∧ (takeSign s).2.all isDig then .ok (intVal s) else .error .valueError

/-- optional opacity group, basic.py:1014-1017 -/
def opac : Option (List Char) → ℚ
  | some t => floatVal t
  | none => 1

/-- basic.py:1008-1018 `parse_color_rgb` -/
def parseRgb (F : FloatRounding) (g : List Char × List Char × List Char × Option (List Char)) :
    Except PyErr ℤ := do
  let r ← intOfFloatText g.1
  let gr ← intOfFloatText g.2.1
  let b ← intOfFloatText g.2.2.1
  return rgbToInt F r gr b (opac g.2.2.2)

/-- basic.py:1020-1031 `parse_color_rgbp` -/
def parseRgbp (F : FloatRounding) (g : List Char × List Char × List Char × Option (List Char)) : ℤ :=
  let ratio := F.fl (255 / 100)
  rgbToInt F (pyRound (F.fl (floatVal g.1 * ratio))) (pyRound (F.fl (floatVal g.2.1 * ratio)))
    (pyRound (F.fl (floatVal g.2.2.1 * ratio))) (opac g.2.2.2)

/-- basic.py:630-641 `hue_2_rgb` (exact arithmetic) -/
def hue2rgb (v1 v2 vh : ℚ) : ℚ :=
  let vh := if vh < 0 then vh + 1 else vh
  let vh := if vh > 1 then vh - 1 else vh
  if 6 * vh < 1 then v1 + (v2 - v1) * 6 * vh
  else if 2 * vh < 1 then v2
  else if 3 * vh < 2 then v1 + (v2 - v1) * (2 / 3 - vh) * 6
  else v1

/-- basic.py:628-657 `hsl_to_int`. Simplification: exact arithmetic for the channel
formulas (the float rounding of `F` is used only in `rgb_to_int`). -/
def hslToInt (F : FloatRounding) (h s l opacity : ℚ) : ℤ :=
  if s = 0 then rgbToInt F (255 * l) (255 * l) (255 * l) opacity
  else
    let v2 := if l < 1 / 2 then l * (1 + s) else (l + s) - s * l
    let v1 := 2 * l - v2
    rgbToInt F (255 * hue2rgb v1 v2 (h + 1 / 3)) (255 * hue2rgb v1 v2 h)
      (255 * hue2rgb v1 v2 (h - 1 / 3)) opacity

/-- clamp to 0..1, basic.py:1038-1047 -/
def clamp01 (x : ℚ) : ℚ :=
  let x := if x > 1 then 1 else x
  if x < 0 then 0 else x

/-- basic.py:1033-1052 `parse_color_hsl`. The hue text has no unit (the pattern is FLOAT), so
`Angle.parse(text).as_turns` is `tau * x / 360 / tau`, that is `x / 360` in exact arithmetic. -/
def parseHsl (F : FloatRounding) (g : List Char × List Char × List Char × Option (List Char)) : ℤ :=
  hslToInt F (floatVal g.1 / 360) (clamp01 (floatVal g.2.1 / 100)) (clamp01 (floatVal g.2.2.1 / 100))
    (opac g.2.2.2)

/-- basic.py:659-676 `Color.parse` (`none` is Python's None) -/
def parse (F : FloatRounding) (pyInt : List Char → Option ℤ) (s : Option (List Char)) :
    Except PyErr (Option ℤ) :=
  match s with
  | none => .ok none
  | some s =>
    if s = "none".toList then .ok none
    else if matchHex s then (parseHex F s).map some
    else match matchFun "rgb".toList false false false s with
      | some g => (parseRgb F g).map some
      | none => match matchFun "rgb".toList true true true s with
        | some g => .ok (some (parseRgbp F g))
        | none => match matchFun "hsl".toList false true true s with
          | some g => .ok (some (parseHsl F g))
          | none => .ok (some (parseLookup F pyInt s))

/-! ### HSL getters and setter: basic.py:1206-1280, 1407-1420 (exact arithmetic) -/

/-- channel as a fraction `c / 255.0`, basic.py:1210-1212 -/
def frac (i : ℕ) (v : ℤ) : ℚ := ((Int.land (v >>> (i : ℕ)) 0xFF : ℤ) : ℚ) / 255

/-- basic.py:1213-1230: the hue in turns of channel fractions `r g b`, before the final conversion
to degrees -/
def hueOf (r g b : ℚ) : ℚ :=
  let vmin := min (min r g) b
  let vmax := max (max r g) b
  let d := vmax - vmin
  if d = 0 then 0
  else
    let dr := ((vmax - r) / 6 + d / 2) / d
    let dg := ((vmax - g) / 6 + d / 2) / d
    let db := ((vmax - b) / 6 + d / 2) / d
    let h := if r = vmax then db - dg
      else if g = vmax then 1 / 3 + dr - db
      else 2 / 3 + dg - dr
    let h := if h < 0 then h + 1 else h
    if h > 1 then h - 1 else h

/-- basic.py:1210-1230 -/
def hueTurns (v : ℤ) : ℚ := hueOf (frac 24 v) (frac 16 v) (frac 8 v)

/-- basic.py:1206-1231: `Angle.turns(h).as_degrees` = `tau * h * 360 / tau` -/
def hue : Option ℤ → Option ℚ
  | none => none
  | some v => some (hueTurns v * 360)

/-- basic.py:1247-1255 -/
def satOf (r g b : ℚ) : ℚ :=
  let mn := min (min r g) b
  let mx := max (max r g) b
  let d := mx - mn
  if mx = mn then 0
  else if mx + mn < 1 then d / (mx + mn)
  else d / (2 - mx - mn)

/-- basic.py:1240-1255 -/
def saturation : Option ℤ → Option ℚ
  | none => none
  | some v => some (satOf (frac 24 v) (frac 16 v) (frac 8 v))

/-- basic.py:1271-1273 -/
def lightOf (r g b : ℚ) : ℚ :=
  let mn := min (min r g) b
  let mx := max (max r g) b
  (mx + mn) / 2

/-- basic.py:1264-1273 -/
def lightness : Option ℤ → Option ℚ
  | none => none
  | some v => some (lightOf (frac 24 v) (frac 16 v) (frac 8 v))

/-- basic.py:1413-1420 `self.hsl = (h, s, l)` : the new value -/
def setHsl (F : FloatRounding) (h s l : ℚ) : Option ℤ := some (hslToInt F h s l 1)

end Svgio.Color
