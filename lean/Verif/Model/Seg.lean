import Verif.Model.Py
import Mathlib.Algebra.Field.Basic
import Mathlib.Algebra.Order.Field.Basic

/-!
Points and path segments (svgio/basic.py:1437-1829, svgio/path.py:334-1945).

Coordinates are taken in an arbitrary linearly ordered field `K` (ℚ and ℝ are instances):
float rounding, NaN and infinities are not modelled. A Python `Point` always has two
numbers here; the code can also create a `Point` with a `None` coordinate, which is
reported as the pseudo exception `PyErr.noneCoord` (see `Model/PathLex.lean`).
Segments are values; `Model/PathHeap.lean` has the same functions with segment objects that paths can share.
-/

namespace Svgio

/-- basic.py:1437-1476 `Point`, with `.x` and `.y` -/
@[ext] structure Pt (K : Type) where
  x : K
  y : K
  deriving DecidableEq, Repr

section
variable {K : Type} [Field K] [LinearOrder K]

/-- constants.py:6 `ERROR = 1e-12` -/
def err : K := 1 / 10 ^ 12

namespace Pt

/-- basic.py:1484-1493 `Point.__eq__` for two points -/
def eq (p q : Pt K) : Bool := decide (|p.x - q.x| ≤ err) && decide (|p.y - q.y| ≤ err)

/-- basic.py:1622-1644 `Point.__add__` for two points -/
def add (p q : Pt K) : Pt K := ⟨p.x + q.x, p.y + q.y⟩

/-- basic.py:1673-1695 `Point.__sub__` for two points -/
def sub (p q : Pt K) : Pt K := ⟨p.x - q.x, p.y - q.y⟩

/-- basic.py:1773-1774 `self.reflected_across(p)` = `p + (p - self)` -/
def reflectedAcross (self p : Pt K) : Pt K := p.add (p.sub self)

/-- basic.py:1825-1829 `Point.towards(p1, p2, amount)` -/
def towards (p1 p2 : Pt K) (amount : K) : Pt K :=
  ⟨amount * (p2.x - p1.x) + p1.x, amount * (p2.y - p1.y) + p1.y⟩

end Pt

/-- Python `p == q` where either may be None: basic.py:1484-1493; `None == None` is True and
`None == Point` is False. -/
def optEq (p q : Option (Pt K)) : Bool :=
  match p, q with
  | none, none => true
  | some p, some q => p.eq q
  | _, _ => false

/-- path.py:1168-1172: the native parameters of an `Arc` besides its end points. -/
structure ArcData (K : Type) where
  center : Pt K
  prx : Pt K
  pry : Pt K
  sweep : K
  deriving DecidableEq, Repr

/-- The segment classes of path.py:511-1945 with the points that only they have.
Control points are None for curves built without a current point. -/
inductive Kind (K : Type)
  | move
  | close
  | line
  | quad (control : Option (Pt K))
  | cubic (control1 control2 : Option (Pt K))
  | arc (a : ArcData K)
  deriving DecidableEq, Repr

/-- path.py:355-365 `PathSegment`: `start`, `end`, `relative`, `smooth`, and the class. -/
structure Seg (K : Type) where
  kind : Kind K
  start : Option (Pt K)
  stop : Option (Pt K)
  relative : Bool := false
  smooth : Bool := true
  deriving DecidableEq, Repr

namespace Seg

/-- `isinstance(segment, Move)`, class of path.py:511-606 -/
def isMove (s : Seg K) : Bool := match s.kind with | .move => true | _ => false
/-- `isinstance(segment, Close)`, class of path.py:701-726 -/
def isClose (s : Seg K) : Bool := match s.kind with | .close => true | _ => false

/-- `s == o` for segments: path.py:578-581 (Move), 629-632 (Linear), 771-778, 956-964, 1401-1411.
Different classes are unequal: both `__eq__` return NotImplemented and identity is used; a `Close`
and a `Line` are instances of different classes. -/
def eq (s o : Seg K) : Bool :=
  optEq s.start o.start && optEq s.stop o.stop &&
  match s.kind, o.kind with
  | .move, .move => true
  | .close, .close => true
  | .line, .line => true
  | .quad c, .quad c' => optEq c c'
  | .cubic c d, .cubic c' d' => optEq c c' && optEq d d'
  | .arc a, .arc a' => a.prx.eq a'.prx && a.pry.eq a'.pry && a.center.eq a'.center &&
      decide (a.sweep = a'.sweep)
  | _, _ => false

end Seg

end

end Svgio
