import Verif.Model.PathCache
import Verif.Model.SegGeom

/-!
Slices of a path, texts in place of segments, and the operations of a `Subpath` on its path:
svgio/path.py:1997-2108, 2595-2633, 2800-2952. A window is given as in `Model/Subpath.lean`: its first position and
the position after its last one (`_start`, `_end + 1`).
-/

namespace Svgio.Path

/-! ### slices without a step -/

/-- Python's clamping of one bound of a slice for a list of length `n`, used in path.py:1997-1998, 2046-2074 -/
def sliceBound (n : ℕ) (i : ℤ) : ℕ := if i < 0 then (i + n).toNat else min i.toNat n

/-- Python's `slice(a, b).indices(n)`, used in path.py:1997-1998, 2046-2074; an absent bound is the beginning or the end.
Steps are not modelled. -/
def sliceBounds (n : ℕ) (a b : Option ℤ) : ℕ × ℕ :=
  let lo := match a with | none => 0 | some i => sliceBound n i
  let hi := match b with | none => n | some i => sliceBound n i
  (lo, max lo hi)

/-- path.py:1997-1998 `path[a:b]`, and `list[a:b]` -/
def getSlice {α : Type} (p : List α) (a b : Option ℤ) : List α :=
  let w := sliceBounds p.length a b
  (p.take w.2).drop w.1

/-- `list[a:b] = v`, in path.py:2056 -/
def putSlice {α : Type} (p : List α) (a b : Option ℤ) (v : List α) : List α :=
  let w := sliceBounds p.length a b
  p.take w.1 ++ v ++ p.drop w.2

variable {K : Type} [Field K] [LinearOrder K]

/-- path.py:2046-2060 `path[a:b] = segments` -/
def setSlice (p : List (Seg K)) (a b : Option ℤ) (v : List (Seg K)) : List (Seg K) :=
  validateConnections (putSlice p a b v)

/-- path.py:2069-2074 `del path[a:b]` -/
def delSlice (p : List (Seg K)) (a b : Option ℤ) : List (Seg K) := validateConnections (putSlice p a b [])

/-! ### texts in place of segments

`q` are the segments of `Path(text)`. -/

/-- path.py:2046-2051 with 2760-2763 `path[index] = text`, also for a slice: nothing happens for a text without segments,
and otherwise `new_element.segments()` reads the attribute `transform`, which a `Path` does not have -/
def setText (p q : List (Seg K)) : Except PyErr (List (Seg K)) :=
  if q.length = 0 then .ok p else .error .attributeError

/-- path.py:2611-2624 `insert(index, text)`: the first segment of the text -/
def insertText (p : List (Seg K)) (index : ℤ) (q : List (Seg K)) : Except PyErr (List (Seg K)) :=
  match q with
  | [] => .ok p
  | s :: _ => insert p index s

/-- path.py:2595-2609 `append(text)` -/
def appendText (p q : List (Seg K)) : List (Seg K) :=
  match q with
  | [] => p
  | [s] => append p s
  | q => extend p q

/-- path.py:2760-2763 `path.segments()`, with the default `transformed=True`: a `Path` has no attribute `transform` -/
def segmentsDefault (_p : List (Seg K)) : Except PyErr (List (Seg K)) := .error .attributeError

/-! ### points of a path -/

/-- path.py:2372-2382 `first_point` -/
def firstPoint (p : List (Seg K)) : Option (Pt K) :=
  match p with
  | [] => none
  | s :: _ => match s.start with
    | some q => some q
    | none => s.stop

/-! ### a subpath edits its path -/

/-- path.py:2811-2812 `subpath[index] = segment` for an integer -/
def subSet (p : List (Seg K)) (w : ℕ × ℕ) (i : ℤ) (s : Seg K) : Except PyErr (List (Seg K)) :=
  setItem p (numericIndex w i) s

/-- path.py:2814-2816 `del subpath[index]` for an integer: the path and the window afterwards -/
def subDel (p : List (Seg K)) (w : ℕ × ℕ) (i : ℤ) : Except PyErr (List (Seg K) × (ℕ × ℕ)) :=
  match delItem p (numericIndex w i) with
  | .error e => .error e
  | .ok q => .ok (q, (w.1, w.2 - 1))

/-- path.py:2926-2938 `index_to_path_index` of a slice without a step -/
def subSlice (w : ℕ × ℕ) (a b : Option ℤ) : Option ℤ × Option ℤ :=
  (some (numericIndex w (a.getD 0)), some (numericIndex w (b.getD (subLen w))))

/-- path.py:2808-2809 `subpath[a:b]` -/
def subGetSlice (p : List (Seg K)) (w : ℕ × ℕ) (a b : Option ℤ) : List (Seg K) :=
  getSlice p (subSlice w a b).1 (subSlice w a b).2

/-- path.py:2811-2812 `subpath[a:b] = segments`; the window stays as it is -/
def subSetSlice (p : List (Seg K)) (w : ℕ × ℕ) (a b : Option ℤ) (v : List (Seg K)) : List (Seg K) :=
  setSlice p (subSlice w a b).1 (subSlice w a b).2 v

/-- path.py:2814-2816 `del subpath[a:b]`: the window becomes shorter by one -/
def subDelSlice (p : List (Seg K)) (w : ℕ × ℕ) (a b : Option ℤ) : List (Seg K) × (ℕ × ℕ) :=
  (delSlice p (subSlice w a b).1 (subSlice w a b).2, (w.1, w.2 - 1))

/-- path.py:2825-2826 `subpath += segment`; the window stays as it is -/
def subIadd (p : List (Seg K)) (w : ℕ × ℕ) (s : Seg K) : Except PyErr (List (Seg K)) :=
  insert p ((w.2 : ℤ) - 1) s

/-- path.py:2819-2821 `subpath += text`, with the segments `q` of the text -/
def subIaddText (p : List (Seg K)) (w : ℕ × ℕ) (q : List (Seg K)) : List (Seg K) :=
  setSlice p (some ((w.2 : ℤ) - 1)) (some ((w.2 : ℤ) - 1)) q

/-- path.py:2822-2824 `subpath += path` -/
def subIaddPath (p : List (Seg K)) (w : ℕ × ℕ) (q : List (Seg K)) : List (Seg K) :=
  setSlice p (some ((w.2 : ℤ) - 1)) (some ((w.2 : ℤ) - 1)) (copy q)

/-- path.py:2805-2806 with 1966-1988 `copy(subpath)`: `Path(path)` is empty; the path of the copy and its window -/
def subCopy (_p : List (Seg K)) (w : ℕ × ℕ) : List (Seg K) × (ℕ × ℕ) := ([], w)

/-- path.py:2831-2836 `subpath + segment`: the path and the window of the result -/
def subAdd (p : List (Seg K)) (w : ℕ × ℕ) (s : Seg K) : Except PyErr (List (Seg K) × (ℕ × ℕ)) :=
  match subIadd (subCopy p w).1 (subCopy p w).2 s with
  | .error e => .error e
  | .ok q => .ok (q, (subCopy p w).2)

/-- path.py:2839-2842 `text + subpath`, with the segments `q` of the text: all segments of the path are added -/
def raddText (q p : List (Seg K)) (_w : ℕ × ℕ) : List (Seg K) := extend q (p.map copySeg)

/-- path.py:2843-2846 with 1974-1975 `segment + subpath`. The new path shares its segment objects with
the old one, so that the link of the first one is changed there too: see `Model/PathHeap.lean`. -/
def raddSeg (s : Seg K) (p : List (Seg K)) (w : ℕ × ℕ) : Except PyErr (List (Seg K)) := insert (subSegments p w) 0 s

/-- path.py:2850-2856 `subpath *= matrix`: the path afterwards -/
def subImul (m : Mat K) (p : List (Seg K)) (w : ℕ × ℕ) : List (Seg K) :=
  p.take w.1 ++ (subIter p w).map (Seg.imul m) ++ p.drop (w.1 + (subIter p w).length)

/-- path.py:2850-2856 `subpath *= matrix` on a path with cached lengths: they are kept -/
def Cached.subImul (m : Mat K) (w : ℕ × ℕ) (c : Cached K) : Cached K := { c with segs := Path.subImul m c.segs w }

/-- path.py:2858-2863 `subpath * matrix`: the path and the window of the result -/
def subMul (m : Mat K) (p : List (Seg K)) (w : ℕ × ℕ) : List (Seg K) × (ℕ × ℕ) :=
  (subImul m (subCopy p w).1 (subCopy p w).2, (subCopy p w).2)

/-- path.py:2895-2905 `subpath == subpath`, and `subpath == path` with the segments of the path -/
def subEq (p : List (Seg K)) (w : ℕ × ℕ) (q : List (Seg K)) : Bool :=
  if subLen w ≠ q.length then false else ((subIter p w).zip q).all (fun so => so.1.eq so.2)

/-- path.py:2942-2943 the list `bbs`: the boxes of the segments; `isinstance(Close, Move)` is False, so none is left out. `box` is
the box of a segment. -/
def boxes (box : Seg K → Except PyErr (Seg.BBox K)) : List (Seg K) → Except PyErr (List (Seg.BBox K))
  | [] => .ok []
  | s :: r =>
    match box s with
    | .error e => .error e
    | .ok b =>
      match boxes box r with
      | .error e => .error e
      | .ok bs => .ok (b :: bs)

/-- path.py:2940-2952 `subpath.bbox()`; None for a subpath without segments -/
def subBBox (box : Seg K → Except PyErr (Seg.BBox K)) (p : List (Seg K)) (w : ℕ × ℕ) : Except PyErr (Option (Seg.BBox K)) :=
  match boxes box (subSegments p w) with
  | .error e => .error e
  | .ok [] => .ok none
  | .ok (b :: r) => .ok (some ⟨Seg.minOf b.xmin (r.map (·.xmin)), Seg.minOf b.ymin (r.map (·.ymin)),
      Seg.maxOf b.xmax (r.map (·.xmax)), Seg.maxOf b.ymax (r.map (·.ymax))⟩)

end Svgio.Path
