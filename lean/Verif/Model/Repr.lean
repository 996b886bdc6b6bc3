import Verif.Model.Fmt
import Verif.Model.Length
import Verif.Model.Color
import Verif.Model.Matrix
import Verif.Model.Path
import Verif.Model.Sequence

/-!
`repr` of points, matrices, angles, lengths, colours and segments, and the constructors that read these texts back, over ℚ.
-/

namespace Svgio.Repr

/-- basic.py:1517-1520 `repr(point)` -/
def point (p : Pt ℚ) : List Char :=
  "Point(".toList ++ (lengthStr p.x ++ (',' :: (lengthStr p.y ++ [')'])))

/-- `repr` of a point or None, path.py:569-573, 712-716, 732-735, 755-760, 938-944, 1380-1388 -/
def optPoint : Option (Pt ℚ) → List Char
  | none => "None".toList
  | some p => point p

/-- basic.py:2038-2046 `repr(matrix)` -/
def matrix (m : Mat ℚ) : List Char :=
  "Matrix(".toList ++ (lengthStr m.a ++ ([',', ' '] ++ (lengthStr m.b ++ ([',', ' '] ++ (lengthStr m.c ++ ([',', ' '] ++
    (lengthStr m.d ++ ([',', ' '] ++ (lengthStr m.e ++ ([',', ' '] ++ (lengthStr m.f ++ [')'])))))))))))

/-- basic.py:1835-1836 `repr(angle)` -/
def angle (x : ℚ) : List Char := "Angle(".toList ++ (fmtF12 x ++ [')'])

/-- basic.py:290-291 `repr(length)` -/
def length (l : Len ℚ) : List Char := "Length('".toList ++ (l.toString ++ ['\'', ')'])

/-- basic.py:582-585 `repr(color)` -/
def color (v : Option ℤ) : List Char :=
  match v with
  | none => "Color('".toList ++ ("None".toList ++ ['\'', ')'])
  | some v => "Color('".toList ++ ((Color.hex (some v)).getD "None".toList ++ ['\'', ')'])

/-- `repr(segment)`: path.py:569-573 (Move), 707-716 (Close), 732-735 (Line), 755-760 (QuadraticBezier), 938-944 (CubicBezier),
1380-1388 (Arc, where `w` is the text of the sweep, a float) -/
def segment (w : List Char) (s : Seg ℚ) : List Char :=
  match s.kind with
  | .move => match s.start with
    | none => "Move(end=".toList ++ (optPoint s.stop ++ [')'])
    | some p => "Move(start=".toList ++ (point p ++ (", end=".toList ++ (optPoint s.stop ++ [')'])))
  | .line => match s.start with
    | none => "Line(end=".toList ++ (optPoint s.stop ++ [')'])
    | some p => "Line(start=".toList ++ (point p ++ (", end=".toList ++ (optPoint s.stop ++ [')'])))
  | .close => match s.start, s.stop with
    | none, none => "Close()".toList
    | a, b => "Close(start=".toList ++ (optPoint a ++ (", end=".toList ++ (optPoint b ++ [')'])))
  | .quad c => "QuadraticBezier(start=".toList ++ (optPoint s.start ++ (", control=".toList ++ (optPoint c ++
      (", end=".toList ++ (optPoint s.stop ++ [')'])))))
  | .cubic c d => "CubicBezier(start=".toList ++ (optPoint s.start ++ (", control1=".toList ++ (optPoint c ++
      (", control2=".toList ++ (optPoint d ++ (", end=".toList ++ (optPoint s.stop ++ [')'])))))))
  | .arc a => "Arc(".toList ++ (optPoint s.start ++ (", ".toList ++ (optPoint s.stop ++ (", ".toList ++ (point a.center ++
      (", ".toList ++ (point a.prx ++ (", ".toList ++ (point a.pry ++ (", ".toList ++ (w ++ [')'])))))))))))

/-- the point given under a keyword, None if it is not given (defaults in path.py:612, 621, 534-538) -/
def kw (k : List Char) (args : List (List Char × Option (Pt ℚ))) : Option (Pt ℚ) :=
  ((args.find? (·.1 = k)).map (·.2)).getD none

/-- The constructors of segments called with keywords only: path.py:519-557 (Move), 621-624 (Linear), 751-753 (QuadraticBezier),
933-936 (CubicBezier). Simplification: a keyword that does not exist, or a missing one of the curves, is not refused. -/
def construct (name : List Char) (args : List (List Char × Option (Pt ℚ))) : Except PyErr (Seg ℚ) :=
  let start := kw "start".toList args
  let stop := kw "end".toList args
  if name = "Move".toList then
    .ok ⟨.move, (Seg.moveEnds { start, stop }).1, (Seg.moveEnds { start, stop }).2, false, true⟩
  else if name = "Line".toList then .ok ⟨.line, start, stop, false, true⟩
  else if name = "Close".toList then .ok ⟨.close, start, stop, false, true⟩
  else if name = "QuadraticBezier".toList then .ok ⟨.quad (kw "control".toList args), start, stop, false, true⟩
  else if name = "CubicBezier".toList then
    Path.mkCubic start (kw "control1".toList args) (kw "control2".toList args) stop false true
  else .error .keyError

/-- path.py:1168-1172, 1201-1220 `Arc(start, end, center, prx, pry, sweep)` with six arguments -/
def constructArc (start stop center prx pry : Option (Pt ℚ)) (sweep : ℚ) : Except PyErr (Seg ℚ) :=
  match center, prx, pry with
  | some c, some x, some y => .ok ⟨.arc ⟨c, x, y, sweep⟩, start, stop, false, true⟩
  | _, _, _ => .error .attributeError

end Svgio.Repr
