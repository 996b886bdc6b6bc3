import Verif.Model.Seg

/-!
The segment list of a `Path` and the operations that maintain its connections
(svgio/path.py:1948-2609). A path is the list `_segments`; the length cache is in
`Model/PathCache.lean`.
-/

namespace Svgio.Path

variable {K : Type} [Field K] [LinearOrder K]

/-! ### points of a path -/

/-- path.py:2384-2392 `current_point` -/
def currentPoint (p : List (Seg K)) : Option (Pt K) :=
  match p.getLast? with
  | none => none
  | some s => s.stop

/-- path.py:2394-2411 `z_point`: end of the last Move, else (also when that end is None) the end of
the first segment. -/
def zPoint (p : List (Seg K)) : Option (Pt K) :=
  match (p.reverse.find? Seg.isMove).bind Seg.stop with
  | some q => some q
  | none => match p.head? with
    | none => none
    | some s => s.stop

/-- path.py:2413-2433 `smooth_point`. A None control, or a curve without end, is an
AttributeError or TypeError (`None.reflected_across`, `None + ..`). -/
def smoothPoint (p : List (Seg K)) : Except PyErr (Option (Pt K)) :=
  match p.getLast? with
  | none => .ok none
  | some s =>
    match s.kind with
    | .quad c | .cubic _ c =>
      match c, s.stop with
      | none, _ => .error .attributeError
      | some _, none => .error .typeError
      | some c, some q => .ok (some (c.reflectedAcross q))
    | _ => .ok s.stop

/-! ### connection maintenance -/

/-- path.py:2283-2304 `_validate_connection`, on the two segments concerned -/
def link (first second : Seg K) (preferSecond : Bool := false) : Seg K × Seg K :=
  match first.stop, second.start with
  | some e, none => (first, { second with start := some e })
  | none, some s => ({ first with stop := some s }, second)
  | none, none => (first, second)
  | some e, some s =>
    if e.eq s then (first, second)
    else if preferSecond then ({ first with stop := some s }, second)
    else (first, { second with start := some e })

/-- path.py:2283-2304 `_validate_connection(index)`; the index may be negative. -/
def validateConnection (p : List (Seg K)) (index : ℤ) (preferSecond : Bool := false) : List (Seg K) :=
  if index < 0 then p
  else
    match p[index.toNat]?, p[index.toNat + 1]? with
    | some a, some b =>
      let ab := link a b preferSecond
      (p.set index.toNat ab.1).set (index.toNat + 1) ab.2
    | _, _ => p

/-- path.py:2271-2280: the end point given to the close at `index`: the end of the nearest Move at or
before `index`, else the end of the first segment. A Move found with end None makes
`Point(None)`, a point without coordinates. -/
def closeTarget (p : List (Seg K)) (index : ℕ) : Option (Pt K) :=
  match (p.take (index + 1)).reverse.find? Seg.isMove with
  | some m => m.stop
  | none => match p.head? with
    | none => none
    | some s => s.stop

/-- path.py:2271-2280 `_validate_close(index)` for `0 ≤ index`. Simplification: `Point(None)` is
identified with None. -/
def validateClose (p : List (Seg K)) (index : ℕ) : List (Seg K) :=
  match p[index]? with
  | none => p
  | some s => p.set index { s with stop := closeTarget p index }

/-- path.py:2595-2609 `append` of a segment -/
def append (p : List (Seg K)) (s : Seg K) : List (Seg K) :=
  let q := validateConnection (p ++ [s]) ((p.length : ℤ) - 1)
  if s.isClose then validateClose q p.length else q

/-! ### builders: path.py:2441-2593 (each with one group of points) -/

/-- path.py:2441-2585, a target point of a builder: numbers, or the text "z" / "Z". -/
inductive Target (K : Type)
  | pt (p : Pt K)
  | z
  deriving DecidableEq, Repr

/-- `if end_pos in ("z", "Z"): end_pos = self.z_point`, in the builders of path.py:2441-2585 -/
def Target.get (p : List (Seg K)) : Target K → Option (Pt K)
  | .pt q => some q
  | .z => zPoint p

/-- path.py:2441-2452 `move` -/
def move (p : List (Seg K)) (t : Target K) (relative : Bool) : List (Seg K) :=
  append p { kind := .move, start := currentPoint p, stop := t.get p, relative }

/-- path.py:2454-2465 `line` -/
def line (p : List (Seg K)) (t : Target K) (relative : Bool) : List (Seg K) :=
  append p { kind := .line, start := currentPoint p, stop := t.get p, relative }

/-- path.py:2467-2478 `vertical(y)`; `none` is Python's None. `None.x` is an AttributeError,
`y + None` a TypeError. `Point(x, None)` takes the number x for a complex number, `Point(x, 0)`. -/
def vertical (p : List (Seg K)) (y : Option K) (relative : Bool) : Except PyErr (List (Seg K)) :=
  match currentPoint p with
  | none => .error .attributeError
  | some c =>
    match y with
    | none =>
      if relative then .error .typeError
      else .ok (append p { kind := .line, start := some c, stop := some ⟨c.x, 0⟩, relative })
    | some y =>
      let q : Pt K := if relative then ⟨c.x, c.y + y⟩ else ⟨c.x, y⟩
      .ok (append p { kind := .line, start := some c, stop := some q, relative })

/-- path.py:2480-2492 `horizontal(x)`. `Point(None, y)` is a point without x coordinate: `noneCoord`. -/
def horizontal (p : List (Seg K)) (x : Option K) (relative : Bool) : Except PyErr (List (Seg K)) :=
  match currentPoint p with
  | none => .error .attributeError
  | some c =>
    match x with
    | none => if relative then .error .typeError else .error .noneCoord
    | some x =>
      let q : Pt K := if relative then ⟨c.x + x, c.y⟩ else ⟨x, c.y⟩
      .ok (append p { kind := .line, start := some c, stop := some q, relative })

/-- path.py:2494-2509 `smooth_quad` -/
def smoothQuad (p : List (Seg K)) (t : Target K) (relative : Bool) : Except PyErr (List (Seg K)) :=
  match smoothPoint p with
  | .error e => .error e
  | .ok c => .ok (append p { kind := .quad c, start := currentPoint p, stop := t.get p, relative })

/-- path.py:2511-2526 `quad` -/
def quad (p : List (Seg K)) (c t : Target K) (relative : Bool) : List (Seg K) :=
  append p { kind := .quad (c.get p), start := currentPoint p, stop := t.get p, relative, smooth := false }

/-- path.py:933-936 `CubicBezier.__init__`: `control2` is only kept when `control1` is not None;
`Point(None)` for a None `control2` is a point without coordinates. -/
def mkCubic (start c1 c2 stop : Option (Pt K)) (relative smooth : Bool) : Except PyErr (Seg K) :=
  match c1, c2 with
  | none, _ => .ok { kind := .cubic none none, start, stop, relative, smooth }
  | some _, none => .error .noneCoord
  | some c1, some c2 => .ok { kind := .cubic (some c1) (some c2), start, stop, relative, smooth }

/-- path.py:2528-2547 `smooth_cubic` -/
def smoothCubic (p : List (Seg K)) (c2 t : Target K) (relative : Bool) : Except PyErr (List (Seg K)) :=
  match smoothPoint p with
  | .error e => .error e
  | .ok c1 =>
    match mkCubic (currentPoint p) c1 (c2.get p) (t.get p) relative true with
    | .error e => .error e
    | .ok s => .ok (append p s)

/-- path.py:2549-2567 `cubic` -/
def cubic (p : List (Seg K)) (c1 c2 t : Target K) (relative : Bool) : Except PyErr (List (Seg K)) :=
  match mkCubic (currentPoint p) (c1.get p) (c2.get p) (t.get p) relative false with
  | .error e => .error e
  | .ok s => .ok (append p s)

/-- path.py:1586-1679 `Arc(start, rx, ry, rotation, arc, sweep, end)` for two points: any function,
which may also raise. None arguments occur when the text ended early. -/
abbrev ArcCtor (K : Type) :=
  Pt K → Option K → Option K → Option K → Option Bool → Option Bool → Pt K → Except PyErr (ArcData K)

/-- path.py:2569-2585 `arc`. A None start or end makes `start == end` (path.py:1597) a TypeError. -/
def arc (mk : ArcCtor K) (p : List (Seg K)) (rx ry rotation : Option K) (large sweep : Option Bool)
    (t : Target K) (relative : Bool) : Except PyErr (List (Seg K)) :=
  match currentPoint p, t.get p with
  | some a, some b =>
    match mk a rx ry rotation large sweep b with
    | .error e => .error e
    | .ok d => .ok (append p { kind := .arc d, start := some a, stop := some b, relative })
  | _, _ => .error .typeError

/-- path.py:2587-2593 `closed` -/
def closed (p : List (Seg K)) (relative : Bool) : List (Seg K) :=
  append p { kind := .close, start := currentPoint p, stop := zPoint p, relative }

end Svgio.Path
