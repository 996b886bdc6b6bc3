import Verif.Spec.Number
import Mathlib.Data.Rat.Floor
import Mathlib.Algebra.Order.Field.Rat

/-!
The colour functions of CSS, `rgb()`, `rgba()`, `hsl()` and `hsla()` with commas: how they are written, and what they mean.
-/

namespace Svgio.Spec

/-- white space, as Python counts it; CSS has the first, second, fourth, fifth and the space of these -/
def spaces : List Char :=
  [9, 10, 11, 12, 13, 28, 29, 30, 31, 32, 0x85, 0xA0, 0x1680, 0x2000, 0x2001, 0x2002, 0x2003, 0x2004, 0x2005, 0x2006, 0x2007, 0x2008,
   0x2009, 0x200A, 0x2028, 0x2029, 0x202F, 0x205F, 0x3000].map Char.ofNat

/-- a text of white space, perhaps empty -/
def White (w : List Char) : Prop := ∀ c ∈ w, c ∈ spaces

/-- a percent sign or nothing -/
def percent (b : Bool) : List Char := if b then ['%'] else []

/-- the end of the text: an opacity if there is one, the closing parenthesis, and anything after it -/
def FunEnd (v4 : Option (List Char)) (s : List Char) : Prop :=
  match v4 with
  | none => ∃ rest, s = ')' :: rest
  | some v => IsNumber v ∧ ∃ w w' rest, White w ∧ White w' ∧ s = ',' :: (w ++ (v ++ (w' ++ ')' :: rest)))

/-- `s` is written as `name(v1, v2, v3)` or `name(v1, v2, v3, v4)`, the name perhaps with an additional `a`, with percent signs as `p1`,
`p2`, `p3` tell, and perhaps with more text after it -/
def FunText (name : List Char) (p1 p2 p3 : Bool) (v1 v2 v3 : List Char) (v4 : Option (List Char)) (s : List Char) : Prop :=
  IsNumber v1 ∧ IsNumber v2 ∧ IsNumber v3 ∧
  ∃ a w1 w2 w3 w4 w5 w6 e, (a = [] ∨ a = ['a']) ∧ White w1 ∧ White w2 ∧ White w3 ∧ White w4 ∧ White w5 ∧ White w6 ∧ FunEnd v4 e ∧
    s = name ++ (a ++ '(' :: (w1 ++ (v1 ++ (percent p1 ++ (w2 ++ ',' :: (w3 ++ (v2 ++ (percent p2 ++ (w4 ++ ',' ::
      (w5 ++ (v3 ++ (percent p3 ++ (w6 ++ e)))))))))))))

/-- a sign or none, and digits -/
def IsWhole (t : List Char) : Prop := ∃ sg ds, t = sg ++ ds ∧ OptSign sg ∧ Digits ds ∧ ds ≠ []

/-- the nearest number from `lo` to `hi` -/
def limit (lo hi x : ℚ) : ℚ := max lo (min hi x)

/-- `n` is `x` rounded to a whole number, with a very small error allowed -/
def Rounded (n : ℤ) (x : ℚ) : Prop := |n - x| ≤ 1 / 2 + 1 / 2 ^ 40

/-- the remainder of the division by 12 -/
def mod12 (x : ℚ) : ℚ := x - 12 * ⌊x / 12⌋

/-- CSS Color 4, section 7.1: the level, from 0 to 1, of red (`n = 0`), green (`n = 8`) or blue (`n = 4`) of a hue in degrees, a saturation
and a lightness from 0 to 1 -/
def hslLevel (h s l n : ℚ) : ℚ :=
  let k := mod12 (n + h / 30)
  l - s * min l (1 - l) * max (-1) (min (min (k - 3) (9 - k)) 1)

end Svgio.Spec
