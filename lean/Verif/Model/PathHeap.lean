import Verif.Model.SubpathEdit

/-!
Paths as lists of references to segment objects: svgio/path.py:1966-2108, 2244-2340, 2595-2688, 2800-3001.

The other files take segments as values. Here a segment is an object with an identity, a path holds references, and an
object may be held by several paths or several times by one. Every function reads and writes objects in the order of the
code. Points are values: the constructors of the segments copy the points they are given (path.py:555-557, 614-624, 753,
935-936, 1204-1229, 1593-1597) and so do all assignments of points below.
-/

namespace Svgio.Path

variable {K : Type} [Field K] [LinearOrder K]

/-- The segment objects that exist (path.py:334-1945): `seg a` is the content of object `a`, and objects from `next` on are new -/
structure Store (K : Type) where
  seg : ℕ → Seg K
  next : ℕ

namespace Store

/-- The segments a list of references stands for, path.py:1997-1998 -/
def view (h : Store K) (r : List ℕ) : List (Seg K) := r.map h.seg

/-- An assignment to the attributes of the object `a`, as in path.py:2282-2304 -/
def put (h : Store K) (a : ℕ) (s : Seg K) : Store K := { h with seg := fun b => if b = a then s else h.seg b }

/-- A new segment object, as in path.py:2441-2593 -/
def new (h : Store K) (s : Seg K) : Store K × ℕ :=
  ({ seg := fun b => if b = h.next then s else h.seg b, next := h.next + 1 }, h.next)

/-- New segment objects one after the other, as by `map(copy, ...)` in path.py:2084 -/
def newAll (h : Store K) : List (Seg K) → Store K × List ℕ
  | [] => (h, [])
  | s :: l => (((h.new s).1.newAll l).1, (h.new s).2 :: ((h.new s).1.newAll l).2)

/-! ### connection maintenance -/

/-- path.py:2282-2304 `_validate_connection(index, prefer_second)` -/
def validateConnection (h : Store K) (r : List ℕ) (index : ℤ) (preferSecond : Bool := false) : Store K :=
  if index < 0 then h
  else
    match r[index.toNat]?, r[index.toNat + 1]? with
    | some a, some b =>
      match (h.seg a).stop, (h.seg b).start with
      | some e, none => h.put b { h.seg b with start := some e }
      | none, some s => h.put a { h.seg a with stop := some s }
      | none, none => h
      | some e, some s =>
        if e.eq s then h
        else if preferSecond then h.put a { h.seg a with stop := some s }
        else h.put b { h.seg b with start := some e }
    | _, _ => h

/-- path.py:2248-2259, 2263-2269 the search for the next Close before any Move; its end is set -/
def closeNext (h : Store K) (stop : Option (Pt K)) : List ℕ → Store K
  | [] => h
  | a :: r =>
    if (h.seg a).isMove then h
    else if (h.seg a).isClose then h.put a { h.seg a with stop := stop }
    else closeNext h stop r

/-- path.py:2261-2269 `_validate_move(index)`; simplified as the function of the same name on segments -/
def validateMove (h : Store K) (r : List ℕ) (index : ℤ) : Store K :=
  match pyIdx r.length index with
  | none => h
  | some i =>
    match r[i]? with
    | none => h
    | some m =>
      if 0 ≤ index then h.closeNext (h.seg m).stop (r.drop (i + 1))
      else if (r.drop (i + 1)).any (fun a => (h.seg a).isMove || (h.seg a).isClose) then
        h.closeNext (h.seg m).stop (r.drop (i + 1))
      else h.closeNext (h.seg m).stop r

/-- path.py:2271-2280 `_validate_close(index)` for `0 ≤ index`; the search does not change anything -/
def validateClose (h : Store K) (r : List ℕ) (index : ℕ) : Store K :=
  match r[index]? with
  | none => h
  | some a => h.put a { h.seg a with stop := closeTarget (h.view r) index }

/-- path.py:2271-2280 `_validate_close(index)` for any index -/
def validateCloseAt (h : Store K) (r : List ℕ) (index : ℤ) : Store K :=
  match pyIdx r.length index with
  | none => h
  | some i =>
    if 0 ≤ index then h.validateClose r i
    else
      match r[i]?, r.head? with
      | some a, some f => h.put a { h.seg a with stop := (h.seg f).stop }
      | _, _ => h

/-- path.py:2244-2259 `_validate_subpath(index)` -/
def validateSubpath (h : Store K) (r : List ℕ) (index : ℤ) : Store K :=
  if index < 0 ∨ index + 1 ≥ r.length then h
  else h.closeNext (closeTarget (h.view r) index.toNat) (r.drop index.toNat)

/-- path.py:2322-2339 the loop of `validate_connections` after the first segment; `last` is `last_segment` -/
def vcGo (h : Store K) (z : Option (Pt K)) (last : ℕ) : List ℕ → Store K
  | [] => h
  | a :: r =>
    let z1 := if z = none ∨ (h.seg a).isMove then (h.seg a).stop else z
    let h1 := h.validateConnection [last, a] 0
    let h2 := if (h1.seg a).isClose ∧ z1 ≠ none ∧ ¬ optEq (h1.seg a).stop z1 then
        h1.put a { h1.seg a with stop := z1 } else h1
    vcGo h2 z1 a r

/-- path.py:2311-2339 `validate_connections()` -/
def validateConnections (h : Store K) : List ℕ → Store K
  | [] => h
  | a :: r => h.vcGo (h.seg a).stop a r

/-! ### edits: the references of the path afterwards come with the store -/

/-- path.py:2595-2609 `append(segment)` -/
def append (h : Store K) (r : List ℕ) (a : ℕ) : Store K × List ℕ :=
  let h1 := h.validateConnection (r ++ [a]) ((r.length : ℤ) - 1)
  (if (h1.seg a).isClose then h1.validateClose (r ++ [a]) r.length else h1, r ++ [a])

/-- path.py:2611-2624 `insert(index, segment)` -/
def insert (h : Store K) (r : List ℕ) (index : ℤ) (a : ℕ) : Except PyErr (Store K × List ℕ) :=
  let r0 := r.insertIdx (insertPos r.length index) a
  let h1 := (h.validateConnection r0 (index - 1)).validateConnection r0 index
  let h2 := if (h1.seg a).isMove then h1.validateMove r0 index else h1
  if (h1.seg a).isMove ∧ index + 1 < -(r0.length : ℤ) then .error .indexError
  else if (h2.seg a).isClose then
    match pyIdx r0.length index with
    | none => .error .indexError
    | some _ => .ok (h2.validateCloseAt r0 index, r0)
  else .ok (h2, r0)

/-- path.py:2046-2067 `path[index] = segment` -/
def setItem (h : Store K) (r : List ℕ) (index : ℤ) (a : ℕ) : Except PyErr (Store K × List ℕ) :=
  match pyIdx r.length index with
  | none => .error .indexError
  | some i =>
    let r0 := r.set i a
    let h1 := (h.validateConnection r0 (index - 1)).validateConnection r0 index
    let h2 := if (h1.seg a).isMove then h1.validateMove r0 index else h1
    .ok (if (h2.seg a).isClose then h2.validateCloseAt r0 index else h2, r0)

/-- path.py:2069-2078 `del path[index]` -/
def delItem (h : Store K) (r : List ℕ) (index : ℤ) : Except PyErr (Store K × List ℕ) :=
  match pyIdx r.length index with
  | none => .error .indexError
  | some i =>
    match r[i]? with
    | none => .error .indexError
    | some a =>
      let r0 := r.eraseIdx i
      let h1 := h.validateConnection r0 (index - 1)
      .ok (if (h1.seg a).isClose || (h1.seg a).isMove then h1.validateSubpath r0 index else h1, r0)

/-- path.py:2626-2633 `extend(segments)` -/
def extend (h : Store K) (r q : List ℕ) : Store K × List ℕ :=
  let h1 := h.validateConnection (r ++ q) ((r.length : ℤ) - 1)
  (h1.validateSubpath (r ++ q) ((r.length : ℤ) - 1), r ++ q)

/-- path.py:2080-2089 `p += q` for the segments `q` of a path or subpath: they are copied -/
def iadd (h : Store K) (r q : List ℕ) : Store K × List ℕ :=
  let n := h.newAll ((h.view q).map copySeg)
  n.1.extend r n.2

/-- path.py:2046-2060 `path[a:b] = segments`, and with no segments path.py:2069-2074 `del path[a:b]` -/
def setSlice (h : Store K) (r : List ℕ) (a b : Option ℤ) (v : List ℕ) : Store K × List ℕ :=
  (h.validateConnections (putSlice r a b v), putSlice r a b v)

/-- path.py:2854-2855 `for e in self: e *= other`, in place -/
def imulAll (h : Store K) (m : Mat K) : List ℕ → Store K
  | [] => h
  | a :: r => (h.put a (Seg.imul m (h.seg a))).imulAll m r

/-- path.py:2867-2884 the objects a subpath runs over -/
def window (r : List ℕ) (w : ℕ × ℕ) : List ℕ := (r.take w.2).drop w.1

/-- path.py:2850-2856 `subpath *= matrix` -/
def subImul (h : Store K) (m : Mat K) (r : List ℕ) (w : ℕ × ℕ) : Store K := h.imulAll m (window r w)

/-! ### reverse -/

/-- path.py:2964-2970 one step of the loop of `_reverse_segments`, which compares the identity of two objects -/
def swapRev (h : Store K) (r : List ℕ) (s e : ℕ) : Store K × List ℕ :=
  match r[s]?, r[e]? with
  | some a, some b =>
    let h1 := h.put a (h.seg a).reverse
    if a = b then (h1, r) else (h1.put b (h1.seg b).reverse, (r.set s b).set e a)
  | _, _ => (h, r)

/-- path.py:2963-2972 the loop `while s <= e`; the first argument bounds the number of steps -/
def revLoop : ℕ → Store K × List ℕ → ℤ → ℤ → Store K × List ℕ
  | 0, c, _, _ => c
  | n + 1, c, s, e => if s ≤ e then revLoop n (swapRev c.1 c.2 s.toNat e.toNat) (s + 1) (e - 1) else c

/-- path.py:2958-2976 `_reverse_segments(start, end)` -/
def reverseSegments (h : Store K) (r : List ℕ) (w : ℕ × ℕ) (start stop : ℤ) : Store K × List ℕ :=
  let s := numericIndex w start
  let e := numericIndex w stop
  let c := revLoop (r.length + 1) (h, r) s e
  ((c.1.validateConnection c.2 (s - 1) true).validateConnection c.2 e, c.2)

/-- path.py:2991-2993 the end of a Move at the beginning of a reversed subpath -/
def fixMove (h : Store K) (r : List ℕ) (w : ℕ × ℕ) : Store K :=
  if 1 < subLen w then
    match r[w.1]?, r[w.1 + 1]? with
    | some f, some g => if (h.seg f).isMove then h.put f { h.seg f with stop := (h.seg g).start } else h
    | _, _ => h
  else h

/-- path.py:2808-2809 `subpath[-2]`, the object -/
def secondLast (r : List ℕ) (w : ℕ × ℕ) : Option ℕ := (pyIdx r.length (numericIndex w (-2))).bind (fun j => r[j]?)

/-- path.py:2994-3000 the Close at the end of a reversed subpath -/
def fixClose (h : Store K) (r : List ℕ) (w : ℕ × ℕ) : Store K :=
  match r[w.2 - 1]?, secondLast r w, r[w.1]? with
  | some l, some b, some f =>
    if (h.seg l).isClose then
      let h1 := h.put l (h.seg l).reverse
      let h2 := if optEq (h1.seg l).start (h1.seg b).stop then h1 else h1.put l { h1.seg l with start := (h1.seg b).stop }
      if optEq (h2.seg l).stop (h2.seg f).stop then h2 else h2.put l { h2.seg l with stop := (h2.seg f).stop }
    else h
  | _, _, _ => h

/-- path.py:2978-3001 `Subpath.reverse()`, for the windows made by `as_subpaths` -/
def subReverse (h : Store K) (r : List ℕ) (w : ℕ × ℕ) : Store K × List ℕ :=
  if subLen w = 0 then (h, r)
  else
    match r[w.1]?, r[w.2 - 1]? with
    | some f, some l =>
      let stop : ℤ := if (h.seg l).isClose then (subLen w : ℤ) - 2 else (subLen w : ℤ) - 1
      let start : ℤ := if (h.seg f).isMove then 1 else 0
      let c := h.reverseSegments r w start stop
      ((c.1.fixMove c.2 w).fixClose c.2 w, c.2)
    | _, _ => (h, r)

/-- path.py:2659-2672 `Path.reverse()`: the subpaths are reversed in place, and then the path gets copies of their segments -/
def reverse (h : Store K) (r : List ℕ) : Store K × List ℕ :=
  match r with
  | [] => (h, [])
  | f :: t =>
    let prepoint := (h.seg f).start
    let h0 := h.put f { h.seg f with start := none }
    let ws := windows (h0.view (f :: t))
    let c := ws.foldl (fun (c : Store K × List ℕ) w => c.1.subReverse c.2 w) (h0, f :: t)
    let d := ws.reverse.foldl (fun (d : Store K × List ℕ) w => d.1.iadd d.2 (window c.2 w)) (c.1, [])
    match d.2 with
    | [] => d
    | g :: _ => (d.1.put g { d.1.seg g with start := prepoint }, d.2)

/-! ### programs with several paths -/

end Store

/-- The paths of a program: path.py:1966-1988. Each is given by its list of references. -/
structure World (K : Type) where
  store : Store K
  paths : List (List ℕ)

/-- What a program does with paths. `make` in `append` may look at the path, as `line` and the other drawing commands do
(path.py:2441-2593). The last four commands give a path an object that another path holds. -/
inductive Cmd (K : Type)
  /-- path.py:1966-1988 `Path([segment, ...])` of new segments -/
  | create (segs : List (Seg K))
  /-- path.py:2595-2609 `p.append(new segment)` -/
  | append (i : ℕ) (make : List (Seg K) → Seg K)
  /-- path.py:2611-2624 `p.insert(index, new segment)` -/
  | insert (i : ℕ) (index : ℤ) (s : Seg K)
  /-- path.py:2046-2067 `p[index] = new segment` -/
  | set (i : ℕ) (index : ℤ) (s : Seg K)
  /-- path.py:2069-2078 `del p[index]` -/
  | del (i : ℕ) (index : ℤ)
  /-- path.py:2046-2060 `p[a:b] = [new segment, ...]` -/
  | setSlice (i : ℕ) (a b : Option ℤ) (segs : List (Seg K))
  /-- path.py:2080-2089 `p += q`, also for `p += p` -/
  | iadd (i j : ℕ)
  /-- path.py:2080-2089 `p += subpath` for a subpath of `q` -/
  | iaddSub (i j : ℕ) (w : ℕ × ℕ)
  /-- path.py:2850-2856 `subpath *= matrix` for a subpath of `p` -/
  | subImul (i : ℕ) (w : ℕ × ℕ) (m : Mat K)
  /-- path.py:2978-3001 `subpath.reverse()` for a subpath of `p` -/
  | subReverse (i : ℕ) (w : ℕ × ℕ)
  /-- path.py:2659-2672 `p.reverse()` -/
  | reverse (i : ℕ)
  /-- path.py:2595-2609 `p.append(q[k])` -/
  | appendOf (i j k : ℕ)
  /-- path.py:1974-1975, 2912-2918 `Path(subpath)` for a subpath of `q` -/
  | createSub (j : ℕ) (w : ℕ × ℕ)
  /-- path.py:1979-1986, 1997-1998 `Path(q[a:b])` -/
  | createSlice (j : ℕ) (a b : Option ℤ)
  /-- path.py:2843-2846 `segment + subpath` for a new segment and a subpath of `q` -/
  | raddSeg (s : Seg K) (j : ℕ) (w : ℕ × ℕ)

/-- The path a command is about, or none for one that makes a path (path.py:1966-1988). -/
def Cmd.target : Cmd K → Option ℕ
  | .create _ | .createSub _ _ | .createSlice _ _ _ | .raddSeg _ _ _ => none
  | .append i _ | .insert i _ _ | .set i _ _ | .del i _ | .setSlice i _ _ _ | .iadd i _ | .iaddSub i _ _ | .subImul i _ _
  | .subReverse i _ | .reverse i | .appendOf i _ _ => some i

/-- Every segment given to a path is a new object: not one of path.py:1974-1986, 2595-2609, 2843-2846 with a segment of another -/
def Cmd.fresh : Cmd K → Bool
  | .appendOf _ _ _ | .createSub _ _ | .createSlice _ _ _ | .raddSeg _ _ _ => false
  | _ => true

namespace World

/-- A program before its first path, path.py:1966-1988 -/
def empty : World K := ⟨⟨fun _ => { kind := .move, start := none, stop := none }, 0⟩, []⟩

/-- The references of path `i` of a program; a name that is not defined counts as an empty path (path.py:1966-1988). -/
def refs (w : World K) (i : ℕ) : List ℕ := w.paths.getD i []

/-- One command: path.py:1966-2108, 2595-2688, 2800-3001. The exception that ends the program, or the objects and the
references of the path that is edited or made. -/
def act (w : World K) : Cmd K → Except PyErr (Store K × List ℕ)
  | .create segs =>
    let n := w.store.newAll segs
    .ok (n.1.validateConnections n.2, n.2)
  | .append i make =>
    let n := w.store.new (make (w.store.view (w.refs i)))
    .ok (n.1.append (w.refs i) n.2)
  | .insert i index s => (w.store.new s).1.insert (w.refs i) index (w.store.new s).2
  | .set i index s => (w.store.new s).1.setItem (w.refs i) index (w.store.new s).2
  | .del i index => w.store.delItem (w.refs i) index
  | .setSlice i a b segs => .ok ((w.store.newAll segs).1.setSlice (w.refs i) a b (w.store.newAll segs).2)
  | .iadd i j => .ok (w.store.iadd (w.refs i) (w.refs j))
  | .iaddSub i j v => .ok (w.store.iadd (w.refs i) (Store.window (w.refs j) v))
  | .subImul i v m => .ok (w.store.subImul m (w.refs i) v, w.refs i)
  | .subReverse i v => .ok (w.store.subReverse (w.refs i) v)
  | .reverse i => .ok (w.store.reverse (w.refs i))
  | .appendOf i j k =>
    match (w.refs j)[k]? with
    | none => .error .indexError
    | some a => .ok (w.store.append (w.refs i) a)
  | .createSub j v => .ok (w.store, Store.window (w.refs j) v)
  | .createSlice j a b => .ok (w.store.validateConnections (getSlice (w.refs j) a b), getSlice (w.refs j) a b)
  | .raddSeg s j v => (w.store.new s).1.insert (Store.window (w.refs j) v) 0 (w.store.new s).2

/-- One command on a program; a path that is made gets the next number (path.py:1966-1988). -/
def step (w : World K) (c : Cmd K) : Except PyErr (World K) :=
  match w.act c with
  | .error e => .error e
  | .ok (h, r) =>
    .ok ⟨h, match c.target with
      | none => w.paths ++ [r]
      | some i => w.paths.set i r⟩

/-- A history of commands, ended by the first exception (path.py:1966-2108, 2595-2688, 2800-3001) -/
def run (w : World K) : List (Cmd K) → Except PyErr (World K)
  | [] => .ok w
  | c :: l =>
    match w.step c with
    | .error e => .error e
    | .ok w' => w'.run l

/-- The segments of every path, as `list(p)` for each (path.py:1997-1998) -/
def contents (w : World K) : List (List (Seg K)) := w.paths.map w.store.view

end World

end Svgio.Path
