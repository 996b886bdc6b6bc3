import Verif.Model.PathEdit

/-!
What a `Path` has from being a `MutableSequence` (path.py:1948): the methods `index`, `count`, `in`, `reversed`, `pop`, `remove` and `clear`
of Python's collections.abc, which use only `path[i]`, `len(path)` and `del path[i]`; and `!=`.

In `v is value or v == value` the first test is left out: a segment equals itself.
-/

namespace Svgio

variable {K : Type} [Field K] [LinearOrder K]

/-- `s != o` for segments: path.py:583-586 (Move), 634-637 (Linear), 780-783, 966-969, 1413-1416; of different classes: both return
NotImplemented and the objects are not the same one -/
def Seg.ne (s o : Seg K) : Bool := !s.eq o

namespace Path

/-- `p != q` for paths, path.py:2133-2136 -/
def ne (p q : List (Seg K)) : Bool := !eq p q

/-- `path[i]`, path.py:1997-1998 -/
def getItem (p : List (Seg K)) (i : ℤ) : Except PyErr (Seg K) :=
  match pyIdx p.length i with
  | none => .error .indexError
  | some j => match p[j]? with
    | none => .error .indexError
    | some s => .ok s

/-- the loop of `Sequence.index`, inherited in path.py:1948: `i` is the index, the list has the segments from there on -/
def indexGo (value : Seg K) (stop : Option ℤ) : ℕ → List (Seg K) → Except PyErr ℕ
  | _, [] => .error .valueError
  | i, s :: r =>
    match stop with
    | some e => if (i : ℤ) < e then (if s.eq value then .ok i else indexGo value stop (i + 1) r) else .error .valueError
    | none => if s.eq value then .ok i else indexGo value stop (i + 1) r

/-- `path.index(value, start, stop)`: `Sequence.index`, inherited in path.py:1948 -/
def index (p : List (Seg K)) (value : Seg K) (start : ℤ := 0) (stop : Option ℤ := none) : Except PyErr ℕ :=
  let start := if start < 0 then max ((p.length : ℤ) + start) 0 else start
  let stop := stop.map fun (e : ℤ) => if e < 0 then e + p.length else e
  indexGo value stop start.toNat (p.drop start.toNat)

/-- `value in path`: `Sequence.__contains__`, inherited in path.py:1948 -/
def contains (p : List (Seg K)) (value : Seg K) : Bool := p.any fun s => s.eq value

/-- `path.count(value)`: `Sequence.count`, inherited in path.py:1948 -/
def count (p : List (Seg K)) (value : Seg K) : ℕ := p.foldl (fun n s => if s.eq value then n + 1 else n) 0

/-- `path.pop(index)`: `MutableSequence.pop`, inherited in path.py:1948: the segment, and the path afterwards -/
def pop (p : List (Seg K)) (index : ℤ := -1) : Except PyErr (Seg K × List (Seg K)) := do
  let v ← getItem p index
  let q ← delItem p index
  return (v, q)

/-- `path.remove(value)`: `MutableSequence.remove`, inherited in path.py:1948 -/
def remove (p : List (Seg K)) (value : Seg K) : Except PyErr (List (Seg K)) := do
  let i ← index p value
  delItem p i

/-- `path.clear()`: `MutableSequence.clear`, inherited in path.py:1948: `pop()` again and again until it raises IndexError. The number
limits the rounds; none if it is too small. -/
def clear : ℕ → List (Seg K) → Option (Except PyErr (List (Seg K)))
  | 0, _ => none
  | n + 1, p => match pop p with
    | .ok (_, q) => clear n q
    | .error .indexError => some (.ok p)
    | .error e => some (.error e)

end Path
end Svgio
