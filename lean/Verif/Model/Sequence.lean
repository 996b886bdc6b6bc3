import Verif.Model.PointOps
import Verif.Model.PathEdit

/-!
Points, matrices and segments as sequences, the constructor of moves, and sums that begin with a segment or a text:
svgio/basic.py:1927-2049, svgio/path.py:376-414, 519-557, 588-597, 1438-1452, 2098-2108, 2690-2697.
-/

namespace Svgio

/-! ### the iteration of Python over an object with `__getitem__` only -/

/-- `list(x)` for an object without `__iter__`, as for basic.py:1501-1507 and 2010-2022: Python asks for the items 0, 1, 2, … until
IndexError. `none`: not at its end after `fuel` items. -/
def seqList {α : Type} (get : ℤ → Except PyErr α) : ℕ → ℤ → Option (Except PyErr (List α))
  | 0, _ => none
  | fuel + 1, i =>
    match get i with
    | .error .indexError => some (.ok [])
    | .error e => some (.error e)
    | .ok v => match seqList get fuel (i + 1) with
      | none => none
      | some (.error e) => some (.error e)
      | some (.ok r) => some (.ok (v :: r))

namespace Mat
variable {K : Type} [Field K] [LinearOrder K]

/-- basic.py:2010-2022 `matrix[i]`; None for any other number -/
def getItem (m : Mat K) (i : ℤ) : Except PyErr (Option K) :=
  if i = 0 then .ok (some m.a) else if i = 1 then .ok (some m.b) else if i = 2 then .ok (some m.c) else if i = 3 then .ok (some m.d)
  else if i = 4 then .ok (some m.e) else if i = 5 then .ok (some m.f) else .ok none

/-- basic.py:2024-2036 `matrix[i] = v`; nothing happens for any other number -/
def setItem (m : Mat K) (i : ℤ) (v : K) : Mat K :=
  if i = 0 then { m with a := v } else if i = 1 then { m with b := v } else if i = 2 then { m with c := v }
  else if i = 3 then { m with d := v } else if i = 4 then { m with e := v } else if i = 5 then { m with f := v } else m

/-- basic.py:1927-1955 `Matrix(…)` with other than one argument, all numbers -/
def ofComponents (l : List K) : Except PyErr (Mat K) :=
  match l with
  | [] => .ok ⟨1, 0, 0, 1, 0, 0⟩
  | a :: b :: c :: d :: e :: f :: _ => .ok ⟨a, b, c, d, e, f⟩
  | _ => .error .indexError

/-- basic.py:2227-2235 `reset()`: the matrix afterwards -/
def reset (_m : Mat K) : Mat K := ⟨1, 0, 0, 1, 0, 0⟩

end Mat

namespace Seg
variable {K : Type} [Field K] [LinearOrder K]

/-- the items of a segment, `None` if a point is not set: path.py:591-597, 652-658, 800-807, 988-998, 1441-1452 -/
def items (s : Seg K) : List (Option (Pt K)) :=
  match s.kind with
  | .move | .line | .close => [s.start, s.stop]
  | .quad c => [s.start, c, s.stop]
  | .cubic c1 c2 => [s.start, c1, c2, s.stop]
  | .arc a => [s.start, s.stop, some a.center, some a.prx, some a.pry]

/-- path.py:588-589, 649-650, 797-798, 985-986, 1438-1439 `len(segment)` -/
def len (s : Seg K) : ℕ :=
  match s.kind with
  | .move | .line | .close => 2
  | .quad _ => 3
  | .cubic _ _ => 4
  | .arc _ => 5

/-- path.py:405-414 `next(segment)` with the items `l`; the state is `self.n + 1`. `none`: StopIteration. -/
def next {α : Type} (l : List (Option α)) (k : ℕ) : ℕ × Option (Option α) :=
  match l[k]? with
  | none => (k + 1, none)
  | some (some v) => (k + 1, some (some v))
  | some none => match l[k + 1]? with
    | none => (k + 2, none)
    | some v => (k + 2, some v)

/-- path.py:405-414 a loop over the items from the state `k` to its end: the state afterwards and what it went through. `fuel` is the
number of steps, for which one more than the length is enough. -/
def drain {α : Type} (l : List (Option α)) : ℕ → ℕ → ℕ × List (Option α)
  | 0, k => (k, [])
  | fuel + 1, k =>
    match next l k with
    | (k', none) => (k', [])
    | (k', some v) => ((drain l fuel k').1, v :: (drain l fuel k').2)

/-- path.py:401-414 `list(segment)` -/
def toList (s : Seg K) : List (Option (Pt K)) := (drain s.items (s.items.length + 1) 0).2

/-- path.py:401-414 the pairs of `[(a, b) for a in segment for b in segment]` from the state `k`: the inner loop uses the same counter -/
def pairsFrom {α : Type} (l : List (Option α)) : ℕ → ℕ → List (Option α × Option α)
  | 0, _ => []
  | fuel + 1, k =>
    match next l k with
    | (_, none) => []
    | (_, some a) => (drain l (l.length + 1) 0).2.map (fun b => (a, b)) ++ pairsFrom l fuel (drain l (l.length + 1) 0).1

/-- path.py:401-414 `[(a, b) for a in segment for b in segment]` -/
def pairs (s : Seg K) : List (Option (Pt K) × Option (Pt K)) := pairsFrom s.items (s.items.length + 1) 0

/-- the arguments of `Move(…)`, path.py:519-557 -/
structure MoveArgs (K : Type) where
  /-- the arguments without keyword -/
  args : List (Pt K) := []
  start : Option (Pt K) := none
  stop : Option (Pt K) := none
  /-- how many keywords other than `start` and `end` are given: `relative`, `smooth` -/
  more : ℕ := 0

/-- path.py:519-557 `Move(…)`: its start and end. Simplification: a keyword given as None is a keyword not given. -/
def moveEnds (a : MoveArgs K) : Option (Pt K) × Option (Pt K) :=
  match a.args with
  | [] => (a.start, a.stop)
  | [p] =>
    if a.start.toList.length + a.stop.toList.length + a.more = 0 then (none, some p)
    else if a.stop.isSome then (some p, a.stop)
    else if a.start.isSome then (a.start, some p)
    else (none, none)
  | [p, q] => (some p, some q)
  | _ => (none, none)

end Seg

namespace Path
variable {K : Type} [Field K] [LinearOrder K]

/-- path.py:2690-2697 the points of one segment in `as_points()`; `Point(None)` is a point without coordinates -/
def pointsOf : List (Option (Pt K)) → Except PyErr (List (Pt K))
  | [] => .ok []
  | none :: _ => .error .noneCoord
  | some p :: r => match pointsOf r with
    | .error e => .error e
    | .ok l => .ok (p :: l)

/-- path.py:2690-2697 `list(path.as_points())` -/
def asPoints (p : List (Seg K)) : Except PyErr (List (Pt K)) := pointsOf (p.flatMap Seg.toList)

/-- path.py:376-379, 1966-1971 `segment + segment` -/
def segAdd (s o : Seg K) : List (Seg K) := [s, o]

/-- path.py:380-382, 2091-2096 `segment + text`, where `parse` reads the text after the segments given: `Path(segment) + text`, and the
sum begins with a copy of the path -/
def segAddText (parse : List (Seg K) → List (Seg K)) (s : Seg K) : List (Seg K) := parse (copy [s])

/-- path.py:2098-2102 `text + path`, where `q` are the segments of the text -/
def textAdd (q p : List (Seg K)) : List (Seg K) := extend q (p.map copySeg)

/-- path.py:2103-2106 `segment + path`: inserted in a copy of the path -/
def segAddPath (s : Seg K) (p : List (Seg K)) : Except PyErr (List (Seg K)) := insert (copy p) 0 s

end Path
end Svgio
