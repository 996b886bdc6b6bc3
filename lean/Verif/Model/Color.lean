import Verif.Model.Lex

/-!
Model of `class Color` (svgio/basic.py:500-1434).

The packed value (`self.value`) is `Option ℤ`: Python ints are unbounded and their
bit operations are two's complement, as are `Int.land`, `Int.lor`, `~~~`, `<<<` and `>>>`.
Numbers assigned to channels are rationals: every finite Python float or int is one.
NaN and infinities are not modelled.
-/

namespace Svgio.Color

/-- basic.py:1399-1405 `Color.crimp`; `int(v)` truncates, which is the floor since `v ≥ 0` there. -/
def crimp (v : ℚ) : ℤ :=
  if v > 255 then 255 else if v < 0 then 0 else ⌊v⌋

/-! ### channel getters: basic.py:1139-1177 -/

/-- basic.py:1151-1153 -/
def red : Option ℤ → Option ℤ
  | some v => some (Int.land (v >>> (24 : ℕ)) 0xFF)
  | none => none

/-- basic.py:1163-1165 -/
def green : Option ℤ → Option ℤ
  | some v => some (Int.land (v >>> (16 : ℕ)) 0xFF)
  | none => none

/-- basic.py:1175-1177 -/
def blue : Option ℤ → Option ℤ
  | some v => some (Int.land (v >>> (8 : ℕ)) 0xFF)
  | none => none

/-- basic.py:1139-1141 -/
def alpha : Option ℤ → Option ℤ
  | some v => some (Int.land v 0xFF)
  | none => none

/-! ### channel setters: basic.py:1143-1185 -/

/-- basic.py:1155-1161 -/
def setRed (c : Option ℤ) (r : ℚ) : Except PyErr (Option ℤ) :=
  match c with
  | none => .error .valueError
  | some v => .ok (some (Int.lor (Int.land v (~~~(0xFF000000 : ℤ))) (crimp r <<< (24 : ℕ))))

/-- basic.py:1167-1173 -/
def setGreen (c : Option ℤ) (g : ℚ) : Except PyErr (Option ℤ) :=
  match c with
  | none => .error .valueError
  | some v => .ok (some (Int.lor (Int.land v (~~~(0xFF0000 : ℤ))) (crimp g <<< (16 : ℕ))))

/-- basic.py:1179-1185 -/
def setBlue (c : Option ℤ) (b : ℚ) : Except PyErr (Option ℤ) :=
  match c with
  | none => .error .valueError
  | some v => .ok (some (Int.lor (Int.land v (~~~(0xFF00 : ℤ))) (crimp b <<< (8 : ℕ))))

/-- basic.py:1143-1149 -/
def setAlpha (c : Option ℤ) (a : ℚ) : Except PyErr (Option ℤ) :=
  match c with
  | none => .error .valueError
  | some v => .ok (some (Int.lor (Int.land v (~~~(0xFF : ℤ))) (crimp a)))

/-! ### packed views: basic.py:1097-1125 -/

/-- basic.py:1097-1101 -/
def rgb : Option ℤ → Option ℤ
  | some v => some (v >>> (8 : ℕ))
  | none => none

/-- basic.py:1103-1107 (an assigned int) -/
def setRgb (x : ℤ) : Option ℤ := some (Int.lor (x <<< (8 : ℕ)) 0xFF)

/-- basic.py:1109-1111 -/
def rgba (c : Option ℤ) : Option ℤ := c

/-- basic.py:1113-1115 (an assigned int) -/
def setRgba (x : ℤ) : Option ℤ := some x

/-- basic.py:1117-1121 -/
def argb : Option ℤ → Option ℤ
  | some v => some (Int.lor (Int.land (v >>> (8 : ℕ)) 0xFFFFFF) ((Int.land v 0xFF) <<< (24 : ℕ)))
  | none => none

/-- basic.py:1123-1125; `argb >> 24 & 0xFF` groups as `(argb >> 24) & 0xFF`. -/
def setArgb (x : ℤ) : Option ℤ :=
  some (Int.lor (Int.land (x <<< (8 : ℕ)) 0xFFFFFF00) (Int.land (x >>> (24 : ℕ)) 0xFF))

/-! ### opacity: basic.py:1127-1137 -/

/-- basic.py:1127-1129 `self.alpha / 255.0` -/
def opacity (F : FloatRounding) : Option ℤ → Option ℚ
  | some v => some (F.fl ((Int.land v 0xFF : ℤ) / 255))
  | none => none

/-- basic.py:1131-1137 -/
def setOpacity (F : FloatRounding) (c : Option ℤ) (o : ℚ) : Except PyErr (Option ℤ) :=
  match c with
  | none => .error .valueError
  | some v => setAlpha (some v) (crimp (pyRound (F.fl (o * 255))))

/-! ### construction: basic.py:508-538, 611-626 -/

/-- basic.py:612-626 `Color.rgb_to_int` -/
def rgbToInt (F : FloatRounding) (r g b : ℚ) (opacity : ℚ) : ℤ :=
  let opacity := if opacity > 1 then 1 else opacity
  let opacity := if opacity < 0 then 0 else opacity
  let a := crimp (pyRound (F.fl (opacity * 255)))
  Int.lor (Int.lor (Int.lor (crimp r <<< (24 : ℕ)) (crimp g <<< (16 : ℕ))) (crimp b <<< (8 : ℕ))) a

/-- basic.py:528-532 `Color(r, g, b)` (default opacity 1.0) -/
def mk3 (F : FloatRounding) (r g b : ℚ) : Option ℤ := some (rgbToInt F r g b 1)

/-- basic.py:533-538 `Color(r, g, b, a)` : `opacity = a / 255.0` -/
def mk4 (F : FloatRounding) (r g b a : ℚ) : Option ℤ := some (rgbToInt F r g b (F.fl (a / 255)))

/-- basic.py:515-516 `Color(int)` -/
def mkInt (x : ℤ) : Option ℤ := setRgb x

/-- basic.py:605-609 `abs(color)`. On None it is `Color(None)`, whose value is `parse(None)` = None. -/
def pyAbs (F : FloatRounding) (c : Option ℤ) : Option ℤ :=
  match c with
  | none => none
  | some v => mk3 F (Int.land (v >>> (24 : ℕ)) 0xFF) (Int.land (v >>> (16 : ℕ)) 0xFF) (Int.land (v >>> (8 : ℕ)) 0xFF)

/-! ### equality: basic.py:587-603 -/

/-- basic.py:587-600 `self == other` for two Colors (by value; `is` implies equal values) -/
def eq (c d : Option ℤ) : Bool :=
  match c, d with
  | none, none => true
  | none, some _ => false
  | some _, none => false
  | some a, some b => decide (Int.land a 0xFFFFFFFF = Int.land b 0xFFFFFFFF)

/-- basic.py:602-603 -/
def ne (c d : Option ℤ) : Bool := !(eq c d)

/-! ### hex text: basic.py:1187-1204 -/

/-- one lower-case hex digit, as printed by `%x`, basic.py:1187-1204 -/
def hexDigit (n : ℕ) : Char := (if n < 10 then Char.ofNat (48 + n) else Char.ofNat (87 + n))

/-- `"%02x" % n` for `0 ≤ n < 256`, basic.py:1187-1204 -/
def hex2 (n : ℤ) : List Char := [hexDigit (n.toNat / 16), hexDigit (n.toNat % 16)]

/-- basic.py:1187-1193 -/
def hexa : Option ℤ → Option (List Char)
  | none => none
  | some v => some ('#' :: (hex2 (Int.land (v >>> (24 : ℕ)) 0xFF) ++ hex2 (Int.land (v >>> (16 : ℕ)) 0xFF)
      ++ hex2 (Int.land (v >>> (8 : ℕ)) 0xFF) ++ hex2 (Int.land v 0xFF)))

/-- basic.py:1195-1204 -/
def hex (c : Option ℤ) : Option (List Char) :=
  if alpha c = some 0xFF then
    match c with
    | none => none
    | some v => some ('#' :: (hex2 (Int.land (v >>> (24 : ℕ)) 0xFF) ++ hex2 (Int.land (v >>> (16 : ℕ)) 0xFF)
        ++ hex2 (Int.land (v >>> (8 : ℕ)) 0xFF)))
  else hexa c

/-! ### parsing -/

/-- `[0-9A-Fa-f]`, constants.py:165 -/
def isHex (c : Char) : Bool :=
  (decide ('0' ≤ c) && decide (c ≤ '9')) || (decide ('a' ≤ c) && decide (c ≤ 'f'))
    || (decide ('A' ≤ c) && decide (c ≤ 'F'))

/-- value of a hex digit, for `int(.., 16)` in basic.py:988-1006 -/
def hexVal (c : Char) : ℕ :=
  if c ≤ '9' then c.toNat - 48 else if c ≤ 'F' then c.toNat - 55 else c.toNat - 87

/-- whitespace stripped by `int(..)` in basic.py:988-1006; only `"\n"` can occur here, because the text
has matched `REGEX_COLOR_HEX`. -/
def stripNl (s : List Char) : List Char :=
  ((s.dropWhile (· = '\n')).reverse.dropWhile (· = '\n')).reverse

/-- Python `int(s, 16)`, called in basic.py:988-1006. Simplification: signs, underscores and the `0x` prefix are not
modelled, they cannot occur in a text that matched `REGEX_COLOR_HEX`. -/
def int16 (s : List Char) : Except PyErr ℤ :=
  let t := stripNl s
  if t = [] ∨ t.all isHex = false then .error .valueError
  else .ok (t.foldl (fun (n : ℕ) c => 16 * n + hexVal c) 0 : ℕ)

/-- `#?`, constants.py:165 -/
def optHash : List Char → List Char
  | [] => []
  | c :: r => if c = '#' then r else c :: r

/-- constants.py:165 `REGEX_COLOR_HEX = ^#?([0-9A-Fa-f]{3,8})$`; `$` also matches before a
final newline. -/
def matchHex (s : List Char) : Bool :=
  let t := optHash s
  let n := (t.takeWhile isHex).length
  let r := t.dropWhile isHex
  decide (3 ≤ n) && decide (n ≤ 8) && (decide (r = []) || decide (r = ['\n']))

/-- basic.py:988-1006 `parse_color_hex` -/
def parseHex (F : FloatRounding) (s : List Char) : Except PyErr ℤ :=
  let h := s.dropWhile (· = '#')
  if h.length = 8 then int16 (h.take 8)
  else if h.length = 6 then int16 (h.take 6 ++ ['F', 'F'])
  else match h with
    | [a, b, c, d] => int16 [a, a, b, b, c, c, d, d]
    | [a, b, c] => int16 [a, a, b, b, c, c, 'F', 'F']
    | _ => .ok (rgbToInt F 0 0 0 1)

/-- The chain of `if v == "keyword": return rgb_to_int(r, g, b)` tests in
`parse_color_lookup`, basic.py:687-982, in source order (the duplicate test for
"aliceblue" is in the source). -/
def keywordTable : List (List Char × ℚ × ℚ × ℚ) :=
  [("aliceblue".toList, 250, 248, 255),
   ("aliceblue".toList, 240, 248, 255),
   ("antiquewhite".toList, 250, 235, 215),
   ("aqua".toList, 0, 255, 255),
   ("aquamarine".toList, 127, 255, 212),
   ("azure".toList, 240, 255, 255),
   ("beige".toList, 245, 245, 220),
   ("bisque".toList, 255, 228, 196),
   ("black".toList, 0, 0, 0),
   ("blanchedalmond".toList, 255, 235, 205),
   ("blue".toList, 0, 0, 255),
   ("blueviolet".toList, 138, 43, 226),
   ("brown".toList, 165, 42, 42),
   ("burlywood".toList, 222, 184, 135),
   ("cadetblue".toList, 95, 158, 160),
   ("chartreuse".toList, 127, 255, 0),
   ("chocolate".toList, 210, 105, 30),
   ("coral".toList, 255, 127, 80),
   ("cornflowerblue".toList, 100, 149, 237),
   ("cornsilk".toList, 255, 248, 220),
   ("crimson".toList, 220, 20, 60),
   ("cyan".toList, 0, 255, 255),
   ("darkblue".toList, 0, 0, 139),
   ("darkcyan".toList, 0, 139, 139),
   ("darkgoldenrod".toList, 184, 134, 11),
   ("darkgray".toList, 169, 169, 169),
   ("darkgreen".toList, 0, 100, 0),
   ("darkgrey".toList, 169, 169, 169),
   ("darkkhaki".toList, 189, 183, 107),
   ("darkmagenta".toList, 139, 0, 139),
   ("darkolivegreen".toList, 85, 107, 47),
   ("darkorange".toList, 255, 140, 0),
   ("darkorchid".toList, 153, 50, 204),
   ("darkred".toList, 139, 0, 0),
   ("darksalmon".toList, 233, 150, 122),
   ("darkseagreen".toList, 143, 188, 143),
   ("darkslateblue".toList, 72, 61, 139),
   ("darkslategray".toList, 47, 79, 79),
   ("darkslategrey".toList, 47, 79, 79),
   ("darkturquoise".toList, 0, 206, 209),
   ("darkviolet".toList, 148, 0, 211),
   ("deeppink".toList, 255, 20, 147),
   ("deepskyblue".toList, 0, 191, 255),
   ("dimgray".toList, 105, 105, 105),
   ("dimgrey".toList, 105, 105, 105),
   ("dodgerblue".toList, 30, 144, 255),
   ("firebrick".toList, 178, 34, 34),
   ("floralwhite".toList, 255, 250, 240),
   ("forestgreen".toList, 34, 139, 34),
   ("fuchsia".toList, 255, 0, 255),
   ("gainsboro".toList, 220, 220, 220),
   ("ghostwhite".toList, 248, 248, 255),
   ("gold".toList, 255, 215, 0),
   ("goldenrod".toList, 218, 165, 32),
   ("gray".toList, 128, 128, 128),
   ("grey".toList, 128, 128, 128),
   ("green".toList, 0, 128, 0),
   ("greenyellow".toList, 173, 255, 47),
   ("honeydew".toList, 240, 255, 240),
   ("hotpink".toList, 255, 105, 180),
   ("indianred".toList, 205, 92, 92),
   ("indigo".toList, 75, 0, 130),
   ("ivory".toList, 255, 255, 240),
   ("khaki".toList, 240, 230, 140),
   ("lavender".toList, 230, 230, 250),
   ("lavenderblush".toList, 255, 240, 245),
   ("lawngreen".toList, 124, 252, 0),
   ("lemonchiffon".toList, 255, 250, 205),
   ("lightblue".toList, 173, 216, 230),
   ("lightcoral".toList, 240, 128, 128),
   ("lightcyan".toList, 224, 255, 255),
   ("lightgoldenrodyellow".toList, 250, 250, 210),
   ("lightgray".toList, 211, 211, 211),
   ("lightgreen".toList, 144, 238, 144),
   ("lightgrey".toList, 211, 211, 211),
   ("lightpink".toList, 255, 182, 193),
   ("lightsalmon".toList, 255, 160, 122),
   ("lightseagreen".toList, 32, 178, 170),
   ("lightskyblue".toList, 135, 206, 250),
   ("lightslategray".toList, 119, 136, 153),
   ("lightslategrey".toList, 119, 136, 153),
   ("lightsteelblue".toList, 176, 196, 222),
   ("lightyellow".toList, 255, 255, 224),
   ("lime".toList, 0, 255, 0),
   ("limegreen".toList, 50, 205, 50),
   ("linen".toList, 250, 240, 230),
   ("magenta".toList, 255, 0, 255),
   ("maroon".toList, 128, 0, 0),
   ("mediumaquamarine".toList, 102, 205, 170),
   ("mediumblue".toList, 0, 0, 205),
   ("mediumorchid".toList, 186, 85, 211),
   ("mediumpurple".toList, 147, 112, 219),
   ("mediumseagreen".toList, 60, 179, 113),
   ("mediumslateblue".toList, 123, 104, 238),
   ("mediumspringgreen".toList, 0, 250, 154),
   ("mediumturquoise".toList, 72, 209, 204),
   ("mediumvioletred".toList, 199, 21, 133),
   ("midnightblue".toList, 25, 25, 112),
   ("mintcream".toList, 245, 255, 250),
   ("mistyrose".toList, 255, 228, 225),
   ("moccasin".toList, 255, 228, 181),
   ("navajowhite".toList, 255, 222, 173),
   ("navy".toList, 0, 0, 128),
   ("oldlace".toList, 253, 245, 230),
   ("olive".toList, 128, 128, 0),
   ("olivedrab".toList, 107, 142, 35),
   ("orange".toList, 255, 165, 0),
   ("orangered".toList, 255, 69, 0),
   ("orchid".toList, 218, 112, 214),
   ("palegoldenrod".toList, 238, 232, 170),
   ("palegreen".toList, 152, 251, 152),
   ("paleturquoise".toList, 175, 238, 238),
   ("palevioletred".toList, 219, 112, 147),
   ("papayawhip".toList, 255, 239, 213),
   ("peachpuff".toList, 255, 218, 185),
   ("peru".toList, 205, 133, 63),
   ("pink".toList, 255, 192, 203),
   ("plum".toList, 221, 160, 221),
   ("powderblue".toList, 176, 224, 230),
   ("purple".toList, 128, 0, 128),
   ("red".toList, 255, 0, 0),
   ("rosybrown".toList, 188, 143, 143),
   ("royalblue".toList, 65, 105, 225),
   ("saddlebrown".toList, 139, 69, 19),
   ("salmon".toList, 250, 128, 114),
   ("sandybrown".toList, 244, 164, 96),
   ("seagreen".toList, 46, 139, 87),
   ("seashell".toList, 255, 245, 238),
   ("sienna".toList, 160, 82, 45),
   ("silver".toList, 192, 192, 192),
   ("skyblue".toList, 135, 206, 235),
   ("slateblue".toList, 106, 90, 205),
   ("slategray".toList, 112, 128, 144),
   ("slategrey".toList, 112, 128, 144),
   ("snow".toList, 255, 250, 250),
   ("springgreen".toList, 0, 255, 127),
   ("steelblue".toList, 70, 130, 180),
   ("tan".toList, 210, 180, 140),
   ("teal".toList, 0, 128, 128),
   ("thistle".toList, 216, 191, 216),
   ("tomato".toList, 255, 99, 71),
   ("turquoise".toList, 64, 224, 208),
   ("violet".toList, 238, 130, 238),
   ("wheat".toList, 245, 222, 179),
   ("white".toList, 255, 255, 255),
   ("whitesmoke".toList, 245, 245, 245),
   ("yellow".toList, 255, 255, 0),
   ("yellowgreen".toList, 154, 205, 50)]

/-- Python's `str.lower` of one character, called in basic.py:684. Simplification: besides ASCII only the
two characters whose lower case contains an ASCII letter (U+0130 and U+212A) are mapped;
any other character is left alone, its lower case is not ASCII and cannot produce a
keyword. -/
def lowerChar (c : Char) : List Char :=
  if 'A' ≤ c ∧ c ≤ 'Z' then [Char.ofNat (c.toNat + 32)]
  else if c.toNat = 0x212A then ['k']
  else if c.toNat = 0x130 then ['i', Char.ofNat 0x307]
  else [c]

/-- basic.py:684 `v.replace(" ", "").lower()` -/
def normalise (v : List Char) : List Char := (v.filter (· ≠ ' ')).flatMap lowerChar

/-- basic.py:678-986 `parse_color_lookup` of a str. `pyInt` stands for Python's
`int(text)`, `none` for a ValueError; any such function is allowed. -/
def parseLookup (F : FloatRounding) (pyInt : List Char → Option ℤ) (v : List Char) : ℤ :=
  let v := normalise v
  if v = "transparent".toList then rgbToInt F 0 0 0 0
  else match keywordTable.find? (fun e => e.1 = v) with
    | some (_, r, g, b) => rgbToInt F r g b 1
    | none => match pyInt v with
      | some n => n
      | none => rgbToInt F 0 0 0 1

/-! ### mixing: basic.py:1325-1362, 1425-1434 -/

/-- basic.py:1325-1362 `Color.over(c1, c2)` for Color arguments. Every float operation
goes through `F.fl`; a None channel in arithmetic is a TypeError. -/
def over (F : FloatRounding) (c1 c2 : Option ℤ) : Except PyErr (Option ℤ) :=
  if alpha c1 = some 255 then .ok c1
  else if alpha c1 = some 0 then .ok c2
  else match c1, c2 with
    | some v1, some v2 =>
      let r1 : ℤ := Int.land (v1 >>> (24 : ℕ)) 0xFF
      let g1 : ℤ := Int.land (v1 >>> (16 : ℕ)) 0xFF
      let b1 : ℤ := Int.land (v1 >>> (8 : ℕ)) 0xFF
      let a1 : ℤ := Int.land v1 0xFF
      let r2 : ℤ := Int.land (v2 >>> (24 : ℕ)) 0xFF
      let g2 : ℤ := Int.land (v2 >>> (16 : ℕ)) 0xFF
      let b2 : ℤ := Int.land (v2 >>> (8 : ℕ)) 0xFF
      let a2 : ℤ := Int.land v2 0xFF
      let q := F.fl (255 - a1)
      let mixc (x1 x2 : ℤ) : ℚ :=
        F.fl (F.fl ((x1 * a1 : ℤ) * 255) + F.fl ((x2 * a2 : ℤ) * q))
      let sa := F.fl (F.fl (a1 * 255) + F.fl (a2 * q))
      let sr := F.fl (mixc r1 r2 / sa)
      let sg := F.fl (mixc g1 g2 / sa)
      let sb := F.fl (mixc b1 b2 / sa)
      .ok (some (rgbToInt F sr sg sb (F.fl (sa / F.fl (255 * 255)))))
    | _, _ => .error .typeError

/-- basic.py:1425-1434 `self.blend(other, opacity)` for a Color argument: the new value. -/
def blend (F : FloatRounding) (self other : Option ℤ) (opacity : Option ℚ) :
    Except PyErr (Option ℤ) :=
  match opacity with
  | none => over F other self
  | some o => match setOpacity F other o with
    | .ok c => over F c self
    | .error e => .error e

/-! ### distance: basic.py:1368-1397 -/

/-- basic.py:1391-1397. `int((r1 + r2) / 2.0)` is the integer quotient (exact in doubles).
The final `>> 8` applies to the whole sum, since `+` binds tighter than `>>`. -/
def distanceSq (c1 c2 : Option ℤ) : Except PyErr ℤ :=
  match c1, c2 with
  | some v1, some v2 =>
    let r1 : ℤ := Int.land (v1 >>> (24 : ℕ)) 0xFF
    let g1 : ℤ := Int.land (v1 >>> (16 : ℕ)) 0xFF
    let b1 : ℤ := Int.land (v1 >>> (8 : ℕ)) 0xFF
    let r2 : ℤ := Int.land (v2 >>> (24 : ℕ)) 0xFF
    let g2 : ℤ := Int.land (v2 >>> (16 : ℕ)) 0xFF
    let b2 : ℤ := Int.land (v2 >>> (8 : ℕ)) 0xFF
    let redMean := (r1 + r2) / 2
    let r := r1 - r2
    let g := g1 - g2
    let b := b1 - b2
    .ok (((((512 + redMean) * r * r) >>> (8 : ℕ)) + 4 * g * g + ((767 - redMean) * b * b)) >>> (8 : ℕ))
  | _, _ => .error .typeError

/-! ### distinct: basic.py:1054-1095 -/

/-- basic.py:1060-1078 `_pattern`; `cbrt` stands for `int(pattern ** (1.0 / 3.0))`.
The list `p` of three entries is a function of the index 0, 1, 2. -/
def pattern (cbrt : ℕ → ℕ) (i : ℕ) : Fin 3 → ℤ :=
  let n := cbrt i
  let p : Fin 3 → ℤ := fun _ => n
  let k : ℤ := (i : ℤ) - n * n * n
  if k = 0 then p
  else
    let k := k - 1
    let v : Fin 3 := ⟨(k % 3).toNat, by have := Int.emod_nonneg k (b := 3); have := Int.emod_lt_of_pos k (b := 3); omega⟩
    let k := k / 3
    if k < n then Function.update p v (k % n)
    else
      let k := k - n
      Function.update (Function.update p v (k / n)) (v + 1) (k % n)

/-- basic.py:1083-1086, the loop body of `_8bit_reverse`, `n` rounds. -/
def revLoop : ℕ → ℤ → ℤ → ℤ
  | 0, _, v => v
  | n + 1, value, v => revLoop n (value >>> (1 : ℕ)) ((Int.lor v (Int.land value 1)) <<< (1 : ℕ))

/-- basic.py:1080-1088 `_8bit_reverse` -/
def rev8 (r : ℤ) : ℤ := Int.land ((revLoop 8 (r - 1) 0) >>> (1 : ℕ)) 0xFF

/-- basic.py:1054-1095 `Color.distinct` -/
def distinct (F : FloatRounding) (cbrt : ℕ → ℕ) (i : ℕ) : Option ℤ :=
  let p := pattern cbrt i
  mk3 F (rev8 (p 0)) (rev8 (p 1)) (rev8 (p 2))

end Svgio.Color
