import Verif.Model.Length
import Verif.Model.Py

/-!
Lengths with units computed with floats: svgio/basic.py:66-97, 99-161, 230-240, 398-477. The model of the same code in `Model/Length.lean`
computes exactly. Overflow, infinities and NaN are left out.
-/

namespace Svgio.Flt

open Len

variable (F : FloatRounding)

/-- basic.py:66-73 `float(length)` -/
def toFloat (l : Len ℚ) : ℚ :=
  if l.units = .pt then F.fl (l.amount * F.fl cPt)
  else if l.units = .pc then F.fl (l.amount * 16)
  else l.amount

/-- basic.py:99-161 `self += other` for a Length; basic.py:245-250 `self + other` -/
def addLen (self other : Len ℚ) : Except PyErr (Len ℚ) :=
  if self.units = other.units then .ok { self with amount := F.fl (self.amount + other.amount) }
  else if self.amount = 0 then .ok { amount := other.amount, units := other.units }
  else if other.amount = 0 then .ok self
  else
    let plus (x : ℚ) : Except PyErr (Len ℚ) := .ok { self with amount := F.fl (self.amount + x) }
    match self.units with
    | .px | .none =>
      match other.units with
      | .px | .none => plus other.amount
      | .pt => plus (F.fl (other.amount * F.fl cPt))
      | .pc => plus (F.fl (other.amount * 16))
      | _ => .error .valueError
    | .pt =>
      match other.units with
      | .px | .none => plus (F.fl (other.amount / F.fl cPt))
      | .pc => plus (F.fl (other.amount * 12))
      | _ => .error .valueError
    | .pc =>
      match other.units with
      | .px | .none => plus (F.fl (other.amount / 16))
      | .pt => plus (F.fl (other.amount / 12))
      | _ => .error .valueError
    | .cm =>
      match other.units with
      | .mm => plus (F.fl (other.amount / 10))
      | .inch => plus (F.fl (other.amount / F.fl cCm))
      | _ => .error .valueError
    | .mm =>
      match other.units with
      | .cm => plus (F.fl (other.amount * 10))
      | .inch => plus (F.fl (other.amount / F.fl cMm))
      | _ => .error .valueError
    | .inch =>
      match other.units with
      | .cm => plus (F.fl (other.amount * F.fl cCm))
      | .mm => plus (F.fl (other.amount * F.fl cMm))
      | _ => .error .valueError
    | _ => .error .valueError

/-- basic.py:269-278 `self - other` -/
def subLen (self other : Len ℚ) : Except PyErr (Len ℚ) := addLen F self (neg other)

/-- basic.py:230-231 `self < other` -/
def ltLen (self other : Len ℚ) : Except PyErr Bool :=
  match subLen F self other with | .ok l => .ok (decide (l.amount < 0)) | .error e => .error e
/-- basic.py:233-234 `self <= other` -/
def leLen (self other : Len ℚ) : Except PyErr Bool :=
  match subLen F self other with | .ok l => .ok (decide (l.amount ≤ 0)) | .error e => .error e
/-- basic.py:236-237 `self > other` -/
def gtLen (self other : Len ℚ) : Except PyErr Bool :=
  match subLen F self other with | .ok l => .ok (decide (l.amount > 0)) | .error e => .error e
/-- basic.py:239-240 `self >= other` -/
def geLen (self other : Len ℚ) : Except PyErr Bool :=
  match subLen F self other with | .ok l => .ok (decide (l.amount ≥ 0)) | .error e => .error e

/-- basic.py:79-97, 254-257 `self * other` for a Length -/
def mulLen (self other : Len ℚ) : Except PyErr (Val ℚ) :=
  if self.amount = 0 then .ok (.num 0)
  else if other.amount = 0 then .ok (.len { self with amount := 0 })
  else if self.units = other.units then .ok (.len { self with amount := F.fl (self.amount * other.amount) })
  else if self.units = .percent then
    .ok (.len { units := other.units, amount := F.fl (F.fl (self.amount * other.amount) / 100) })
  else if other.units = .percent then .ok (.len { self with amount := F.fl (F.fl (self.amount * other.amount) / 100) })
  else .error .valueError

/-- basic.py:426-477 `value(..)` without the branch of `%` -/
def valueAbs (ctx : Ctx ℚ) (l : Len ℚ) : Val ℚ :=
  match l.units with
  | .mm => match ctx.ppi with | none => .len l | some p => .num (F.fl (F.fl (l.amount * p) * F.fl cMm))
  | .cm => match ctx.ppi with | none => .len l | some p => .num (F.fl (F.fl (l.amount * p) * F.fl cCm))
  | .inch => match ctx.ppi with | none => .len l | some p => .num (F.fl (l.amount * p))
  | .px | .none => .num l.amount
  | .pt => .num (F.fl (l.amount * F.fl cPt))
  | .pc => .num (F.fl (l.amount * 16))
  | .em => match ctx.fontSize with | none => .len l | some s => .num (F.fl (l.amount * s))
  | .ex => match ctx.fontHeight with | none => .len l | some s => .num (F.fl (l.amount * s))
  | .vw => match ctx.viewbox with | none => .len l | some (w, _) => .num (F.fl (F.fl (l.amount * w) / 100))
  | .vh => match ctx.viewbox with | none => .len l | some (_, h) => .num (F.fl (F.fl (l.amount * h) / 100))
  | .vmin => match ctx.viewbox with
    | none => .len l
    | some (_, h) => let m := min h h; .num (F.fl (F.fl (l.amount * m) / 100))
  | .vmax => match ctx.viewbox with
    | none => .len l
    | some (_, h) => let m := max h h; .num (F.fl (F.fl (l.amount * m) / 100))
  | .percent => .len l
  | .other _ => .num (toFloat F l)

/-- basic.py:398-477 `value(ppi, relative_length, font_size, font_height, viewbox)`, with a relative length that is a number or a Length -/
def value (ctx : Ctx ℚ) (l : Len ℚ) : Except PyErr (Val ℚ) :=
  if l.units = .percent then
    match ctx.relative with
    | none => .ok (.len l)
    | some (.num r) => .ok (.num (F.fl (F.fl (l.amount / 100) * r)))
    | some (.len r) =>
      match mulLen F r l with
      | .error e => .error e
      | .ok (.num x) => .ok (.num x)
      | .ok (.len q) => .ok (valueAbs F { ctx with relative := none } q)
  else .ok (valueAbs F ctx l)

end Svgio.Flt
