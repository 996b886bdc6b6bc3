import Verif.Model.Point
import Verif.Model.Matrix
import Verif.Model.Py
import Mathlib.Analysis.SpecialFunctions.Trigonometric.Arctan

/-!
Arithmetic of `Point` with operands of any class: svgio/basic.py:1449-1753. Simplification: coordinates are numbers (for integers,
`point * [1]` would repeat the list).
-/

namespace Svgio.Pt

/-- the second operand of an operation on points, as the tests `other.x`, `other[0]`, `other.real` of basic.py:1597-1620 tell them apart -/
inductive Operand (K : Type)
  /-- a Point, or an object with `x` and `y` -/
  | point (p : Pt K)
  /-- a tuple or list of numbers -/
  | seq (l : List K)
  /-- a complex number -/
  | cplx (re im : K)
  /-- an int or float; its `imag` is 0 -/
  | num (x : K)
  /-- None, a text for `+` and `-`, or any object without these attributes -/
  | other

section
variable {K : Type} [Field K] [LinearOrder K]

/-- basic.py:1449-1476 `Point(x)`: for a list that is too short the IndexError is not caught -/
def ofOperand : Operand K → Except PyErr (Pt K)
  | .point p => .ok p
  | .seq l => match l[1]?, l[0]? with
    | some y, some x => .ok ⟨x, y⟩
    | _, _ => .error .indexError
  | .cplx re im => .ok ⟨re, im⟩
  | .num x => .ok ⟨x, 0⟩
  | .other => .error .typeError

/-- basic.py:1484-1493 `point == other`; an exception of `Point(other)` gives NotImplemented, and then `==` is False -/
def eqOp (p : Pt K) (o : Operand K) : Bool :=
  match ofOperand o with
  | .ok q => p.eq q
  | .error _ => false

/-- basic.py:1622-1643 `point + other`, and 1645 `other + point`. NotImplemented becomes TypeError. -/
def addOp (p : Pt K) : Operand K → Except PyErr (Pt K)
  | .point q => .ok ⟨p.x + q.x, p.y + q.y⟩
  | .seq l => match l[1]?, l[0]? with
    | some y, some x => .ok ⟨p.x + x, p.y + y⟩
    | _, _ => .error .typeError
  | .cplx re im => .ok ⟨p.x + re, p.y + im⟩
  | .num x => .ok ⟨p.x + x, p.y + 0⟩
  | .other => .error .typeError

/-- basic.py:1597-1620 `point += other`: the point afterwards -/
def iaddOp (p : Pt K) : Operand K → Except PyErr (Pt K)
  | .point q => .ok ⟨p.x + q.x, p.y + q.y⟩
  | .seq l => match l[1]?, l[0]? with
    | some y, some x => .ok ⟨p.x + x, p.y + y⟩
    | _, _ => .error .typeError
  | .cplx re im => .ok ⟨p.x + re, p.y + im⟩
  | .num x => .ok ⟨p.x + x, p.y + 0⟩
  | .other => .error .typeError

/-- basic.py:1673-1695 `point - other` -/
def subOp (p : Pt K) : Operand K → Except PyErr (Pt K)
  | .point q => .ok ⟨p.x - q.x, p.y - q.y⟩
  | .seq l => match l[1]?, l[0]? with
    | some y, some x => .ok ⟨p.x - x, p.y - y⟩
    | _, _ => .error .typeError
  | .cplx re im => .ok ⟨p.x - re, p.y - im⟩
  | .num x => .ok ⟨p.x - x, p.y - 0⟩
  | .other => .error .typeError

/-- basic.py:1648-1671 `point -= other`: the point afterwards -/
def isubOp (p : Pt K) : Operand K → Except PyErr (Pt K)
  | .point q => .ok ⟨p.x - q.x, p.y - q.y⟩
  | .seq l => match l[1]?, l[0]? with
    | some y, some x => .ok ⟨p.x - x, p.y - y⟩
    | _, _ => .error .typeError
  | .cplx re im => .ok ⟨p.x - re, p.y - im⟩
  | .num x => .ok ⟨p.x - x, p.y - 0⟩
  | .other => .error .typeError

/-- basic.py:1697-1719 `other - point` -/
def rsubOp (p : Pt K) : Operand K → Except PyErr (Pt K)
  | .point q => .ok ⟨q.x - p.x, q.y - p.y⟩
  | .seq l => match l[1]?, l[0]? with
    | some y, some x => .ok ⟨x - p.x, y - p.y⟩
    | _, _ => .error .typeError
  | .cplx re im => .ok ⟨re - p.x, im - p.y⟩
  | .num x => .ok ⟨x - p.x, 0 - p.y⟩
  | .other => .error .typeError

/-- the product of complex numbers in basic.py:1546, 1553, 1560, 1579, 1583, 1587 -/
def cmul (p : Pt K) (re im : K) : Pt K := ⟨p.x * re - p.y * im, p.x * im + p.y * re⟩

/-- basic.py:1573-1593 `point * other`, and 1595 `other * point`, for operands that are not a matrix -/
def mulOp (p : Pt K) : Operand K → Except PyErr (Pt K)
  | .point q => .ok (cmul p q.x q.y)
  | .seq l => match l[0]?, l[1]? with
    | some x, some y => .ok (cmul p x y)
    | _, _ => .error .typeError
  | .cplx re im => .ok (cmul p re im)
  | .num x => .ok (cmul p x 0)
  | .other => .error .typeError

/-- basic.py:1537-1571 `point *= other` for operands that are not a matrix: the point afterwards -/
def imulOp (p : Pt K) : Operand K → Except PyErr (Pt K)
  | .point q => .ok (cmul p q.x q.y)
  | .seq l => match l[0]?, l[1]? with
    | some x, some y => .ok (cmul p x y)
    | _, _ => .error .typeError
  | .cplx re im => .ok (cmul p re im)
  | .num x => .ok (cmul p x 0)
  | .other => .error .typeError

/-- basic.py:1537-1544 `point *= matrix`, and 1751-1753 `matrix_transform(matrix)`: the point afterwards -/
def imulMat (p : Pt K) (m : Mat K) : Pt K := ⟨(m.pointInMatrixSpace p).x, (m.pointInMatrixSpace p).y⟩

/-- basic.py:1735-1736 `conjugate()` -/
def conjugate (p : Pt K) : Pt K := ⟨p.x, -p.y⟩

/-- basic.py:1501-1507 `point[i]` -/
def getItem (p : Pt K) (i : ℤ) : Except PyErr K :=
  if i = 0 then .ok p.x else if i = 1 then .ok p.y else .error .indexError

/-- basic.py:1509-1515 `point[i] = v` -/
def setItem (p : Pt K) (i : ℤ) (v : K) : Except PyErr (Pt K) :=
  if i = 0 then .ok { p with x := v } else if i = 1 then .ok { p with y := v } else .error .indexError

end

/-- Python's built-in `round(x)`, used in basic.py:1731-1732: the nearest integer, ties to even -/
noncomputable def pyRoundR (x : ℝ) : ℤ :=
  if x - ⌊x⌋ < 1 / 2 then ⌊x⌋
  else if 1 / 2 < x - ⌊x⌋ then ⌊x⌋ + 1
  else if ⌊x⌋ % 2 = 0 then ⌊x⌋ else ⌊x⌋ + 1

/-- basic.py:1738-1739 `argz()` -/
noncomputable def argz (p : Pt ℝ) : Except PyErr ℝ :=
  if p.x = 0 then .error .zeroDivisionError else .ok (Real.arctan (p.y / p.x))

/-- basic.py:1727-1733 `point ** n` for a natural number -/
noncomputable def powNat (p : Pt ℝ) (n : ℕ) : Except PyErr (Pt ℝ) :=
  match argz p with
  | .error e => .error e
  | .ok a => .ok ⟨pyRoundR (norm p ^ n * Real.cos (a * n)), pyRoundR (norm p ^ n * Real.sin (a * n))⟩

end Svgio.Pt
