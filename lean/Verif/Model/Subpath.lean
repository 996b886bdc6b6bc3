import Verif.Model.PathEdit

/-!
Subpaths, reversing and direct closes: svgio/path.py:2635-2688, 2793-3001, and the `reverse` and `__copy__`
methods of the segments.
-/

namespace Svgio

namespace Seg
variable {K : Type} [Field K]

/-- path.py:469-475 `PathSegment.reverse`, 1000-1004 `CubicBezier.reverse`, 1464-1466 `Arc.reverse` -/
def reverse (s : Seg K) : Seg K :=
  { s with
    start := s.stop
    stop := s.start
    kind := match s.kind with
      | .cubic c1 c2 => .cubic c2 c1
      | .arc a => .arc { a with sweep := -a.sweep }
      | k => k }

end Seg

namespace Path

variable {K : Type} [Field K] [LinearOrder K]

/-! ### as_subpaths -/

/-- path.py:2682-2688 the loop of `as_subpaths`: `last`, `current` and the segments from `current` on.
A window is given by its first position and the position after its last one (`_start`, `_end + 1`). -/
def windowsGo (last current : ℕ) : List (Seg K) → List (ℕ × ℕ)
  | [] => [(last, current)]
  | s :: r =>
    if current ≠ last ∧ s.isMove then (last, current) :: windowsGo current (current + 1) r
    else windowsGo last (current + 1) r

/-- path.py:2682-2688 `as_subpaths()` -/
def windows (p : List (Seg K)) : List (ℕ × ℕ) := windowsGo 0 0 p

/-- path.py:2678-2680 `count_subpaths()` -/
def countSubpaths (p : List (Seg K)) : ℕ := (windows p).length

/-- path.py:2886-2887 `len(subpath)` -/
def subLen (w : ℕ × ℕ) : ℕ := w.2 - w.1

/-- path.py:2920-2924 `Subpath._numeric_index(index)` -/
def numericIndex (w : ℕ × ℕ) (i : ℤ) : ℤ := if i < 0 then (w.2 : ℤ) + i else (w.1 : ℤ) + i

/-- path.py:2808-2809 `subpath[index]` for an integer index -/
def subGet (p : List (Seg K)) (w : ℕ × ℕ) (i : ℤ) : Except PyErr (Seg K) :=
  match (pyIdx p.length (numericIndex w i)).bind (fun j => p[j]?) with
  | some s => .ok s
  | none => .error .indexError

/-- path.py:2867-2884 the iterator of a subpath, from position `n` on; `k` bounds the positions left
(`Subpath._end + 1 - n`) -/
def subIterGo (p : List (Seg K)) (n : ℕ) : ℕ → List (Seg K)
  | 0 => []
  | k + 1 => match p[n]? with
    | none => []
    | some s => s :: subIterGo p (n + 1) k

/-- path.py:2867-2884 `list(subpath)` -/
def subIter (p : List (Seg K)) (w : ℕ × ℕ) : List (Seg K) := subIterGo p w.1 (w.2 - w.1)

/-- path.py:2912-2918 `subpath.segments(False)` -/
def subSegments (p : List (Seg K)) (w : ℕ × ℕ) : List (Seg K) := (p.take w.2).drop w.1

/-! ### reverse -/

/-- path.py:2964-2970 one step of the loop of `_reverse_segments` -/
def swapRev (p : List (Seg K)) (s e : ℕ) : List (Seg K) :=
  match p[s]?, p[e]? with
  | some a, some b => if s = e then p.set s a.reverse else (p.set s b.reverse).set e a.reverse
  | _, _ => p

/-- path.py:2963-2972 the loop `while s <= e`; the first argument bounds the number of steps -/
def revLoop : ℕ → List (Seg K) → ℤ → ℤ → List (Seg K)
  | 0, p, _, _ => p
  | n + 1, p, s, e => if s ≤ e then revLoop n (swapRev p s.toNat e.toNat) (s + 1) (e - 1) else p

/-- path.py:2958-2976 `_reverse_segments(start, end)` -/
def reverseSegments (p : List (Seg K)) (w : ℕ × ℕ) (start stop : ℤ) : List (Seg K) :=
  let s := numericIndex w start
  let e := numericIndex w stop
  validateConnection (validateConnection (revLoop (p.length + 1) p s e) (s - 1) true) e

/-- path.py:2994-3000 the Close at the end of a reversed subpath: it is reversed, and then its ends are compared with
`self[-2]` and `self[0]` as they are at that time. Both can be the Close itself, for a window of one segment. -/
def revClose (p : List (Seg K)) (w : ℕ × ℕ) : List (Seg K) :=
  match p[w.2 - 1]? with
  | none => p
  | some l =>
    if l.isClose then
      let l1 := l.reverse
      let p1 := p.set (w.2 - 1) l1
      let l2 := match (subGet p1 w (-2)).toOption with
        | some b => if optEq l1.start b.stop then l1 else { l1 with start := b.stop }
        | none => l1
      let p2 := p1.set (w.2 - 1) l2
      let l3 := match p2[w.1]? with
        | some f => if optEq l2.stop f.stop then l2 else { l2 with stop := f.stop }
        | none => l2
      p2.set (w.2 - 1) l3
    else p

/-- path.py:2978-3001 `Subpath.reverse()` on the backing path. The segments read by index exist for the
windows made by `as_subpaths`; `self[-2]` of a window of one segment is the segment before the window or,
for the first window, the last segment of the path. -/
def subReverse (p : List (Seg K)) (w : ℕ × ℕ) : List (Seg K) :=
  let size := subLen w
  if size = 0 then p
  else
    match p[w.1]?, p[w.2 - 1]? with
    | some f, some l =>
      let stop : ℤ := if l.isClose then (size : ℤ) - 2 else (size : ℤ) - 1
      let start : ℤ := if f.isMove then 1 else 0
      let p1 := reverseSegments p w start stop
      let p2 :=
        if 1 < size then
          match p1[w.1]?, p1[w.1 + 1]? with
          | some f, some g => if f.isMove then p1.set w.1 { f with stop := g.start } else p1
          | _, _ => p1
        else p1
      revClose p2 w
    | _, _ => p

/-- path.py:2659-2672 `Path.reverse()` -/
def reverse (p : List (Seg K)) : List (Seg K) :=
  match p with
  | [] => []
  | f :: r =>
    let p0 := { f with start := none } :: r
    let ws := windows p0
    let p1 := ws.foldl subReverse p0
    match ws.reverse.foldl (fun q w => iadd q (subIter p1 w)) [] with
    | [] => []
    | g :: t => { g with start := f.start } :: t

/-! ### direct_close -/

/-- path.py:2650-2656 the loop of `direct_close` over the positions below `n`, from the last one down. The
length of a close is 0 when a point is missing or both points are the same (path.py:671-675). -/
def directGo : ℕ → List (Seg K) → List (Seg K)
  | 0, p => p
  | i + 1, p =>
    match p[i]? with
    | none => directGo i p
    | some s =>
      if s.isClose ∧ s.start ≠ none ∧ s.stop ≠ none ∧ s.start ≠ s.stop then
        let line : Seg K := { kind := .line, start := s.start, stop := s.stop }
        directGo i ((insert (p.set i { s with start := s.stop }) i line).toOption.getD p)
      else directGo i p

/-- path.py:2635-2657 `direct_close()` -/
def directClose (p : List (Seg K)) : List (Seg K) := directGo p.length p

end Path

end Svgio
