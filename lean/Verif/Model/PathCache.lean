import Verif.Model.Subpath

/-!
The cached lengths of a `Path` and the lookup of a position: svgio/path.py:2046-2078, 2138-2242, 2595-2672.

The length of a segment is a parameter `len`, which also gets the `error` argument of the query (of any type
`E`); `min_depth` is taken to be part of it.
-/

namespace Svgio.Path

variable {K : Type} [Field K] [LinearOrder K] {E : Type}

/-- path.py:1966-1969 the state of a `Path`: `_segments`, `_length`, `_lengths` -/
structure Cached (K : Type) where
  segs : List (Seg K)
  length : Option K := none
  lengths : Option (List K) := none

/-- path.py:2138-2156 `_calc_lengths(error)` -/
def calcLengths (len : E → Seg K → K) (e : E) (c : Cached K) : Cached K :=
  match c.length with
  | some _ => c
  | none =>
    let ls := c.segs.map (len e)
    let total := ls.sum
    { c with length := some total, lengths := some (if total = 0 then ls else ls.map (· / total)) }

/-- path.py:2240-2242 `length(error)`: the value returned; the state afterwards is `calcLengths` -/
def lengthOf (len : E → Seg K → K) (e : E) (c : Cached K) : K := ((calcLengths len e c).length).getD 0

/-- path.py:2228-2237 the loop of `point`: from the segment with this index, which starts at `start`; the
fractions are those of this and the following segments and `n` is the number of segments. After the loop without
`break`, the last segment is used at 0. -/
def locateGo (n : ℕ) (t : K) (index : ℕ) (start : K) : List K → Except PyErr (ℕ × K)
  | [] => if index < n then .error .indexError else .ok (index - 1, 0)
  | f :: r =>
    let stop := start + f
    if t ≤ stop then
      if stop - start = 0 then .error .zeroDivisionError else .ok (index, (t - start) / (stop - start))
    else locateGo n t (index + 1) stop r

/-- path.py:2201-2238 `point(position, error)` up to the evaluation of the segment: the state afterwards and
which segment is evaluated at which parameter; none for an empty path. `rnd` is Python's `int(round(x))`.
An index out of the cached list or of the segments raises IndexError. -/
def locate (len : E → Seg K → K) (rnd : K → ℤ) (e : E) (t : K) (c : Cached K) :
    Cached K × Except PyErr (Option (ℕ × K)) :=
  if c.segs.length = 0 then (c, .ok none)
  else if t ≤ 0 then (c, .ok (some (0, t)))
  else if 1 ≤ t then (c, .ok (some (c.segs.length - 1, t)))
  else
    let c1 := calcLengths len e c
    if c1.length = some 0 then
      (c1, match pyIdx c.segs.length (rnd (t * ((c.segs.length : K) - 1))) with
        | none => .error .indexError
        | some i => .ok (some (i, 0)))
    else
      (c1, match locateGo c.segs.length t 0 0 ((c1.lengths.getD []).take c.segs.length) with
        | .error x => .error x
        | .ok iu => .ok (some iu))

/-- path.py:2611-2624 the segments after `insert(index, segment)`, also when it raises IndexError: the segment
has then been inserted. -/
def insertState (p : List (Seg K)) (index : ℤ) (s : Seg K) : List (Seg K) :=
  match insert p index s with
  | .ok q => q
  | .error _ =>
    let p1 := validateConnection (validateConnection (p.insertIdx (insertPos p.length index) s) (index - 1)) index
    if s.isMove then validateMove p1 index else p1

/-- path.py:2046-2089, 2138-2242, 2595-2672: the operations on a path that concern the cached lengths -/
inductive CacheOp (K E : Type)
  | append (s : Seg K)
  | insert (i : ℤ) (s : Seg K)
  | extend (q : List (Seg K))
  | iadd (q : List (Seg K))
  | set (i : ℤ) (s : Seg K)
  | del (i : ℤ)
  | directClose
  | reverse
  | validateConnections
  | length (e : E)
  | point (e : E) (t : K)

/-- The state after an operation. path.py:2595-2609 `append`, 2611-2624 `insert`, 2626-2633 `extend`,
2080-2088 `+=`, 2046-2067 assignment and 2069-2078 deletion (an IndexError leaves the path as it was),
2635-2657 `direct_close` (which clears the length by `insert`, so only when it inserts something),
2659-2672 `reverse` and 2311-2339 `validate_connections` (which keep the cached values), 2240 `length`,
2201 `point`. Only assignment also clears `_lengths`. -/
def Cached.step (len : E → Seg K → K) (rnd : K → ℤ) (c : Cached K) : CacheOp K E → Cached K
  | .append s => { c with segs := append c.segs s, length := none }
  | .insert i s => { c with segs := insertState c.segs i s, length := none }
  | .extend q => { c with segs := extend c.segs q, length := none }
  | .iadd q => { c with segs := iadd c.segs q, length := none }
  | .set i s => match setItem c.segs i s with
    | .ok q => { segs := q }
    | .error _ => c
  | .del i => match delItem c.segs i with
    | .ok q => { c with segs := q, length := none }
    | .error _ => c
  | .directClose =>
    if directClose c.segs = c.segs then c else { c with segs := directClose c.segs, length := none }
  | .reverse => { c with segs := reverse c.segs }
  | .validateConnections => { c with segs := validateConnections c.segs }
  | .length e => calcLengths len e c
  | .point e t => (locate len rnd e t c).1

/-- the state after a history of operations (no counterpart in the code: repeats the methods of path.py:1948-2785) -/
def Cached.run (len : E → Seg K → K) (rnd : K → ℤ) (c : Cached K) (ops : List (CacheOp K E)) : Cached K :=
  ops.foldl (Cached.step len rnd) c

/-- path.py:2178-2195 one pass of the loop of `npoint` over the positions: those in `[start, stop)` get the
segment `index` and their place in it -/
def npMark (index : ℕ) (start stop : K) (ps : List (K × Option (ℕ × K))) : List (K × Option (ℕ × K)) :=
  ps.map (fun pr => if start ≤ pr.1 ∧ pr.1 < stop then
    (pr.1, some (index, if stop - start = 0 then 0 else (pr.1 - start) / (stop - start))) else pr)

/-- path.py:2178-2195 the loop of `npoint`: each position with the place found so far. A pass that matches
nothing does `continue` before `segment_start = segment_end`. -/
def npGo (index : ℕ) (start : K) (ps : List (K × Option (ℕ × K))) : List K → List (K × Option (ℕ × K))
  | [] => ps
  | f :: r =>
    let stop := start + f
    if ps.any (fun pr => decide (start ≤ pr.1) && decide (pr.1 < stop)) then
      npGo (index + 1) stop (npMark index start stop ps) r
    else npGo (index + 1) start ps r

/-- path.py:2158-2199 `npoint(positions)` with numpy, for a path of length other than 0 with these fractions:
for each position the segment and the parameter it is evaluated at, `none` for a row of the result that is
never written. Position 1 gets the end of the last segment (parameter 1). -/
def npLocate (fractions : List K) (positions : List K) : List (Option (ℕ × K)) :=
  (npGo 0 0 (positions.map (fun t => (t, none))) fractions).map
    (fun pr => if pr.1 = 1 then some (fractions.length - 1, 1) else pr.2)

end Svgio.Path
