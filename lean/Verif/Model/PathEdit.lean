import Verif.Model.Path

/-!
Editing a `Path`: svgio/path.py:2046-2108, 2244-2370, 2595-2633.

Indices are Python integers: `pyIdx` resolves negative ones as list indexing does.
-/

namespace Svgio.Path

variable {K : Type} [Field K] [LinearOrder K]

/-- Python list indexing, as in path.py:1997-1998, 2046-2078: position of index `i` in a list of length `n`, or IndexError -/
def pyIdx (n : ℕ) (i : ℤ) : Option ℕ :=
  if 0 ≤ i then (if i < n then some i.toNat else none)
  else if -(n : ℤ) ≤ i then some (i + n).toNat else none

/-- `list.insert(index, value)`, called in path.py:2611-2624: the position is clamped to the list -/
def insertPos (n : ℕ) (i : ℤ) : ℕ :=
  if 0 ≤ i then min i.toNat n else (i + n).toNat

/-- path.py:2261-2269 `_validate_move(index)`: the first Close after `index`, before any Move, ends at the
end of the segment at `index`. `rest` are the segments after `index`. For a negative index the loop
`range(index + 1, len)` first revisits segments from the end; see `validateMove`. -/
def closeNext (stop : Option (Pt K)) : List (Seg K) → List (Seg K)
  | [] => []
  | s :: r => if s.isMove then s :: r else if s.isClose then { s with stop := stop } :: r else s :: closeNext stop r

/-- path.py:2261-2269 `_validate_move(index)`. A negative index `-k` visits the segments at positions
`-k+1 .. -1` and then the whole path from its beginning. Simplification: `Point(None)` is identified
with None, as in `validateClose`. -/
def validateMove (p : List (Seg K)) (index : ℤ) : List (Seg K) :=
  match pyIdx p.length index with
  | none => p
  | some i =>
    match p[i]? with
    | none => p
    | some m =>
      if 0 ≤ index then p.take (i + 1) ++ closeNext m.stop (p.drop (i + 1))
      else if (p.drop (i + 1)).any (fun s => s.isMove || s.isClose) then
        p.take (i + 1) ++ closeNext m.stop (p.drop (i + 1))
      else closeNext m.stop p

/-- path.py:2271-2280 `_validate_close(index)` for any index: for a negative index the loop
`range(index, -1, -1)` is empty, so the end of the first segment is used. -/
def validateCloseAt (p : List (Seg K)) (index : ℤ) : List (Seg K) :=
  match pyIdx p.length index with
  | none => p
  | some i =>
    if 0 ≤ index then validateClose p i
    else
      match p[i]?, p.head? with
      | some s, some f => p.set i { s with stop := f.stop }
      | _, _ => p

/-- path.py:2244-2259 `_validate_subpath(index)`. The Close found gets the end of the nearest Move at or
before `index`, else the end of the first segment. -/
def validateSubpath (p : List (Seg K)) (index : ℤ) : List (Seg K) :=
  if index < 0 ∨ index + 1 ≥ p.length then p
  else p.take index.toNat ++ closeNext (closeTarget p index.toNat) (p.drop index.toNat)

/-- path.py:2046-2067 `path[index] = segment` for an integer index -/
def setItem (p : List (Seg K)) (index : ℤ) (s : Seg K) : Except PyErr (List (Seg K)) :=
  match pyIdx p.length index with
  | none => .error .indexError
  | some i =>
    let p1 := validateConnection (validateConnection (p.set i s) (index - 1)) index
    let p2 := if s.isMove then validateMove p1 index else p1
    .ok (if s.isClose then validateCloseAt p2 index else p2)

/-- path.py:2069-2078 `del path[index]` for an integer index -/
def delItem (p : List (Seg K)) (index : ℤ) : Except PyErr (List (Seg K)) :=
  match pyIdx p.length index with
  | none => .error .indexError
  | some i =>
    match p[i]? with
    | none => .error .indexError
    | some s =>
      let p1 := validateConnection (p.eraseIdx i) (index - 1)
      .ok (if s.isClose || s.isMove then validateSubpath p1 index else p1)

/-- path.py:2611-2624 `insert(index, segment)`. An index beyond the end is clamped by `list.insert`, but
`_validate_move` and `_validate_close` are called with the index as given: `_validate_close` then raises
IndexError, and so does `_validate_move` for an index far below the beginning (after the insertion). -/
def insert (p : List (Seg K)) (index : ℤ) (s : Seg K) : Except PyErr (List (Seg K)) :=
  let p0 := p.insertIdx (insertPos p.length index) s
  let p1 := validateConnection (validateConnection p0 (index - 1)) index
  let p2 := if s.isMove then validateMove p1 index else p1
  if s.isMove ∧ index + 1 < -(p1.length : ℤ) then .error .indexError
  else if s.isClose then
    match pyIdx p2.length index with
    | none => .error .indexError
    | some _ => .ok (validateCloseAt p2 index)
  else .ok p2

/-- path.py:2626-2633 `extend(segments)` -/
def extend (p q : List (Seg K)) : List (Seg K) :=
  validateSubpath (validateConnection (p ++ q) ((p.length : ℤ) - 1)) ((p.length : ℤ) - 1)

/-- path.py:2311-2339 the loop of `validate_connections` after the first segment: `z` is `zpoint` and `last`
is `last_segment`, which the next step may still change. The three cases of the link are those of
`_validate_connection`. -/
def vcGo (z : Option (Pt K)) (last : Seg K) : List (Seg K) → List (Seg K)
  | [] => [last]
  | s :: r =>
    let z1 := if z = none ∨ s.isMove then s.stop else z
    let ls := link last s
    let s2 := if s.isClose ∧ z1 ≠ none ∧ ¬ optEq ls.2.stop z1 then { ls.2 with stop := z1 } else ls.2
    ls.1 :: vcGo z1 s2 r

/-- path.py:2311-2339 `validate_connections()`; also path.py:1979-1986 `Path(list_of_segments)` -/
def validateConnections : List (Seg K) → List (Seg K)
  | [] => []
  | s :: r => vcGo s.stop s r

/-- path.py:2341-2370 the loop of `_is_valid` after the first segment -/
def isValidGo (z : Option (Pt K)) (last : Seg K) : List (Seg K) → Bool
  | [] => true
  | s :: r =>
    let z1 := if z = none ∨ s.isMove then s.stop else z
    match s.start, last.stop with
    | some v, some e =>
      if !e.eq v then false
      else if s.isClose && z1.isSome && !optEq s.stop z1 then false
      else isValidGo z1 s r
    | _, _ => false

/-- path.py:2341-2370 `_is_valid()` -/
def isValid : List (Seg K) → Bool
  | [] => true
  | s :: r => isValidGo s.stop s r

/-- path.py:1990-1995, 1966-1988 `copy(path)`: `Path(path)` has no branch for a `Path` argument and makes an
empty path, whose segments are then copied. -/
def copy (_p : List (Seg K)) : List (Seg K) := []

/-- path.py:575-576, 626-627, 762-769, 946-954, 1390-1399 `copy(segment)`: the flag `smooth` is only kept by
the Bezier curves -/
def copySeg (s : Seg K) : Seg K :=
  { s with smooth := match s.kind with | .quad _ | .cubic _ _ => s.smooth | _ => true }

/-- path.py:2080-2089 `p += q` for a path `q`: `extend` with copies of the segments -/
def iadd (p q : List (Seg K)) : List (Seg K) := extend p (q.map copySeg)

/-- path.py:2091-2096 `p + q`: `copy(p)`, then `+=` -/
def add (p q : List (Seg K)) : List (Seg K) := iadd (copy p) q

/-- path.py:2119-2131 `p == q` for two paths -/
def eq (p q : List (Seg K)) : Bool :=
  if p.length ≠ q.length then false else (q.zip p).all (fun so => so.1.eq so.2)

end Svgio.Path
