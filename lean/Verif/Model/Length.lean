import Verif.Model.Fmt
import Verif.Model.Seg

/-!
`Length`: svgio/basic.py:30-497. Amounts are in a linearly ordered field; `Length(None)` (amount None) is not
modelled. A Python value that may be a number or a `Length` is a `Val`.
-/

namespace Svgio

/-- The unit texts the code distinguishes (basic.py:66-73, 75-97, 99-161, 326-342, 398-477); any other text is `other`. -/
inductive Units
  | none | px | pt | pc | cm | mm | inch | percent | em | ex | vw | vh | vmin | vmax
  | other (text : List Char)
  deriving DecidableEq, Repr

namespace Units

/-- the text of the attribute `units`, basic.py:57, 61 -/
def text : Units → List Char
  | none => [] | px => ['p', 'x'] | pt => ['p', 't'] | pc => ['p', 'c'] | cm => ['c', 'm'] | mm => ['m', 'm']
  | inch => ['i', 'n'] | percent => ['%'] | em => ['e', 'm'] | ex => ['e', 'x'] | vw => ['v', 'w']
  | vh => ['v', 'h'] | vmin => ['v', 'm', 'i', 'n'] | vmax => ['v', 'm', 'a', 'x'] | other t => t

/-- the units with their own constructor, see `Units` (basic.py:398-477) -/
def known : List Units := [none, px, pt, pc, cm, mm, inch, percent, em, ex, vw, vh, vmin, vmax]

/-- the units given by a text, basic.py:57 (all comparisons in the code are with literal texts) -/
def ofText (t : List Char) : Units := (known.find? (fun u => u.text = t)).getD (other t)

end Units

/-- basic.py:47-64 `Length` with `amount` and `units` -/
structure Len (K : Type) where
  amount : K
  units : Units
  deriving DecidableEq, Repr

/-- a number or a `Length`, as returned by basic.py:398-477 -/
inductive Val (K : Type)
  | num (x : K)
  | len (l : Len K)
  deriving DecidableEq, Repr

/-! ### text -/

namespace Len

/-- `[A-Za-z%]`, constants.py:178 -/
def isUnitChar (c : Char) : Bool :=
  (decide ('A' ≤ c) && decide (c ≤ 'Z')) || (decide ('a' ≤ c) && decide (c ≤ 'z')) || decide (c = '%')

/-- constants.py:178 `REGEX_LENGTH` = `(FLOAT)([A-Za-z%]*)`: the groups of the first match, searching from the left -/
def searchLength : List Char → Option (List Char × List Char)
  | [] => none
  | c :: r =>
    match matchFloat (c :: r) with
    | some (t, rest) => some (t, rest.takeWhile isUnitChar)
    | none => searchLength r

/-- basic.py:47-64 `Length(text)` -/
def ofString (s : List Char) : Len ℚ :=
  match searchLength s with
  | some (t, u) => ⟨floatVal t, Units.ofText u⟩
  | none => ⟨0, .none⟩

/-- basic.py:293-296 `str(length)` -/
def toString (l : Len ℚ) : List Char := lengthStr l.amount ++ l.units.text

section
variable {K : Type} [Field K] [LinearOrder K]

/-- 1.3333, basic.py:70, 115, 123, 441 -/
def cPt : K := 13333 / 10000
/-- 0.0393701, basic.py:149, 157, 337, 359, 429 -/
def cMm : K := 393701 / 10000000
/-- 0.393701, basic.py:141, 155, 339, 377, 433 -/
def cCm : K := 393701 / 1000000

/-- basic.py:66-73 `float(length)` -/
def toFloat (l : Len K) : K :=
  if l.units = .pt then l.amount * cPt
  else if l.units = .pc then l.amount * 16
  else l.amount

/-- basic.py:264-267 `-length` -/
def neg (l : Len K) : Len K := { l with amount := -l.amount }

/-- basic.py:163-166 `abs(length)` -/
def abs (l : Len K) : Len K := { l with amount := |l.amount| }

/-- basic.py:99-161 `self += other` for a Length; basic.py:245-250 `self + other`. A number is first made a Length
without units (100-101, 246-247). -/
def add (self other : Len K) : Except PyErr (Len K) :=
  if self.units = other.units then .ok { self with amount := self.amount + other.amount }
  else if self.amount = 0 then .ok { amount := other.amount, units := other.units }
  else if other.amount = 0 then .ok self
  else
    let plus (x : K) : Except PyErr (Len K) := .ok { self with amount := self.amount + x }
    match self.units with
    | .px | .none =>
      match other.units with
      | .px | .none => plus other.amount
      | .pt => plus (other.amount * cPt)
      | .pc => plus (other.amount * 16)
      | _ => .error .valueError
    | .pt =>
      match other.units with
      | .px | .none => plus (other.amount / cPt)
      | .pc => plus (other.amount * 12)
      | _ => .error .valueError
    | .pc =>
      match other.units with
      | .px | .none => plus (other.amount / 16)
      | .pt => plus (other.amount / 12)
      | _ => .error .valueError
    | .cm =>
      match other.units with
      | .mm => plus (other.amount / 10)
      | .inch => plus (other.amount / cCm)
      | _ => .error .valueError
    | .mm =>
      match other.units with
      | .cm => plus (other.amount * 10)
      | .inch => plus (other.amount / cMm)
      | _ => .error .valueError
    | .inch =>
      match other.units with
      | .cm => plus (other.amount * cCm)
      | .mm => plus (other.amount * cMm)
      | _ => .error .valueError
    | _ => .error .valueError

/-- basic.py:269-278 `self - other` -/
def sub (self other : Len K) : Except PyErr (Len K) := add self (neg other)

/-- basic.py:230-231 `self < other` -/
def lt (self other : Len K) : Except PyErr Bool :=
  match sub self other with | .ok l => .ok (decide (l.amount < 0)) | .error e => .error e
/-- basic.py:233-234 `self <= other` -/
def le (self other : Len K) : Except PyErr Bool :=
  match sub self other with | .ok l => .ok (decide (l.amount ≤ 0)) | .error e => .error e
/-- basic.py:236-237 `self > other` -/
def gt (self other : Len K) : Except PyErr Bool :=
  match sub self other with | .ok l => .ok (decide (l.amount > 0)) | .error e => .error e
/-- basic.py:239-240 `self >= other` -/
def ge (self other : Len K) : Except PyErr Bool :=
  match sub self other with | .ok l => .ok (decide (l.amount ≥ 0)) | .error e => .error e

/-- basic.py:79-97, 254-257 `self * other` for a Length -/
def mul (self other : Len K) : Except PyErr (Val K) :=
  if self.amount = 0 then .ok (.num 0)
  else if other.amount = 0 then .ok (.len { self with amount := 0 })
  else if self.units = other.units then .ok (.len { self with amount := self.amount * other.amount })
  else if self.units = .percent then
    .ok (.len { units := other.units, amount := self.amount * other.amount / 100 })
  else if other.units = .percent then .ok (.len { self with amount := self.amount * other.amount / 100 })
  else .error .valueError

/-- basic.py:76-78, 254-257 `self * number` -/
def mulNum (self : Len K) (x : K) : Len K := { self with amount := self.amount * x }

/-- division of two numbers, basic.py:168-225 -/
def pyDiv (x y : K) : Except PyErr K := if y = 0 then .error .zeroDivisionError else .ok (x / y)

/-- basic.py:169-172 `self / number` -/
def divNum (self : Len K) (x : K) : Except PyErr (Len K) :=
  match pyDiv self.amount x with | .ok q => .ok { self with amount := q } | .error e => .error e

/-- basic.py:173-225 `self / other` for a Length -/
def div (self other : Len K) : Except PyErr K :=
  if self.amount = 0 then .ok 0
  else if self.units = other.units then pyDiv self.amount other.amount
  else
    match self.units with
    | .px | .none =>
      match other.units with
      | .px | .none => pyDiv self.amount other.amount
      | .pt => pyDiv self.amount (other.amount * cPt)
      | .pc => pyDiv self.amount (other.amount * 16)
      | _ => .error .valueError
    | .pt =>
      match other.units with
      | .px | .none => pyDiv self.amount (other.amount / cPt)
      | .pc => pyDiv self.amount (other.amount * 12)
      | _ => .error .valueError
    | .pc =>
      match other.units with
      | .px | .none => pyDiv self.amount (other.amount / 16)
      | .pt => pyDiv self.amount (other.amount / 12)
      | _ => .error .valueError
    | .cm =>
      match other.units with
      | .mm => pyDiv self.amount (other.amount / 10)
      | .inch => pyDiv self.amount (other.amount / cCm)
      | _ => .error .valueError
    | .mm =>
      match other.units with
      | .cm => pyDiv self.amount (other.amount * 10)
      | .inch => pyDiv self.amount (other.amount / cMm)
      | _ => .error .valueError
    | .inch =>
      match other.units with
      | .cm => pyDiv self.amount (other.amount * cCm)
      | .mm => pyDiv self.amount (other.amount * cMm)
      | _ => .error .valueError
    | _ => .error .valueError

/-- basic.py:326-333 `in_pixels()` -/
def inPixels (l : Len K) : Option K :=
  match l.units with
  | .px | .none => some l.amount
  | .pt => some (l.amount / cPt)
  | .pc => some (l.amount / 16)
  | _ => none

/-- basic.py:335-342 `in_inches()` -/
def inInches (l : Len K) : Option K :=
  match l.units with
  | .mm => some (l.amount * cMm)
  | .cm => some (l.amount * cCm)
  | .inch => some l.amount
  | _ => none

/-- basic.py:298-320 `self == other` for a Length: both sides of the comparison are taken from `self` -/
def eq (self other : Len K) : Bool :=
  if self.amount = other.amount ∧ self.units = other.units then true
  else
    match self.inPixels with
    | some s =>
      let o := (self.inPixels).getD 0
      if |s - o| ≤ err then true
      else match self.inInches with
        | some s => let o := (self.inInches).getD 0; decide (|s - o| ≤ err)
        | none => false
    | none =>
      match self.inInches with
      | some s => let o := (self.inInches).getD 0; decide (|s - o| ≤ err)
      | none => false

/-- basic.py:301-306 `self == number` -/
def eqNum (self : Len K) (x : K) : Bool :=
  match self.inPixels with
  | some s => decide (|s - x| ≤ err)
  | none => decide (x = 0) && decide (self.amount = 0)

/-- basic.py:398-406, what `value` is given: ppi, relative length (a number or a Length), font size and height, and the width and
height of the viewbox -/
structure Ctx (K : Type) where
  ppi : Option K := none
  relative : Option (Val K) := none
  fontSize : Option K := none
  fontHeight : Option K := none
  viewbox : Option (K × K) := none

/-- basic.py:426-477 `value(..)` without the branch of `%` -/
def valueAbs (ctx : Ctx K) (l : Len K) : Val K :=
  match l.units with
  | .mm => match ctx.ppi with | none => .len l | some p => .num (l.amount * p * cMm)
  | .cm => match ctx.ppi with | none => .len l | some p => .num (l.amount * p * cCm)
  | .inch => match ctx.ppi with | none => .len l | some p => .num (l.amount * p)
  | .px | .none => .num l.amount
  | .pt => .num (l.amount * cPt)
  | .pc => .num (l.amount * 16)
  | .em => match ctx.fontSize with | none => .len l | some s => .num (l.amount * s)
  | .ex => match ctx.fontHeight with | none => .len l | some s => .num (l.amount * s)
  | .vw => match ctx.viewbox with | none => .len l | some (w, _) => .num (l.amount * w / 100)
  | .vh => match ctx.viewbox with | none => .len l | some (_, h) => .num (l.amount * h / 100)
  | .vmin => match ctx.viewbox with
    | none => .len l
    | some (_, h) => let m := min h h; .num (l.amount * m / 100)
  | .vmax => match ctx.viewbox with
    | none => .len l
    | some (_, h) => let m := max h h; .num (l.amount * m / 100)
  | .percent => .len l
  | .other _ => .num (toFloat l)

/-- basic.py:398-477 `value(ppi, relative_length, font_size, font_height, viewbox)`. A relative length given
as text (415) is not modelled. A relative Length is multiplied by the percentage and the product is resolved without a relative length. -/
def value (ctx : Ctx K) (l : Len K) : Except PyErr (Val K) :=
  if l.units = .percent then
    match ctx.relative with
    | none => .ok (.len l)
    | some (.num r) => .ok (.num (l.amount / 100 * r))
    | some (.len r) =>
      match mul r l with
      | .error e => .error e
      | .ok (.num x) => .ok (.num x)
      | .ok (.len q) => .ok (valueAbs { ctx with relative := none } q)
  else .ok (valueAbs ctx l)

end

/-! ### printing a physical size -/

/-- basic.py:344-360, 362-378, 380-396 `to_mm`, `to_cm`, `to_inch`: the amount is printed and read again. `unit` and
`perInch` are mm and 0.0393701, cm and 0.393701, in and 1. An unresolved value (a Length) is divided by the
factor and printed in quotes with its own unit (basic.py:483-490) before the text is read. -/
def toPhysical (unit : Units) (perUnit : ℚ) (ppi : ℚ) (ctx : Ctx ℚ) (l : Len ℚ) : Except PyErr (Len ℚ) :=
  match value { ctx with ppi := some ppi } l with
  | .error e => .error e
  | .ok (.num v) =>
    match pyDiv v (ppi * perUnit) with
    | .error e => .error e
    | .ok q => .ok (ofString (lengthStr q ++ unit.text))
  | .ok (.len v) =>
    match divNum v (ppi * perUnit) with
    | .error e => .error e
    | .ok q => .ok (ofString ('\'' :: (lengthStr q.amount ++ q.units.text) ++ '\'' :: unit.text))

/-- `to_mm`, basic.py:344-360 -/
def toMm (ppi : ℚ) (ctx : Ctx ℚ) (l : Len ℚ) : Except PyErr (Len ℚ) := toPhysical .mm cMm ppi ctx l
/-- `to_cm`, basic.py:362-378 -/
def toCm (ppi : ℚ) (ctx : Ctx ℚ) (l : Len ℚ) : Except PyErr (Len ℚ) := toPhysical .cm cCm ppi ctx l
/-- `to_inch`, basic.py:380-396 -/
def toInch (ppi : ℚ) (ctx : Ctx ℚ) (l : Len ℚ) : Except PyErr (Len ℚ) := toPhysical .inch 1 ppi ctx l

end Len

end Svgio
