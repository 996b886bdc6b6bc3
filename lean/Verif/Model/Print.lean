import Verif.Model.Fmt
import Verif.Model.Path
import Mathlib.Data.Int.Log

/-!
Printing of path data: `Point.__str__` (svgio/basic.py:1525-1535), the methods `d` of the segments (svgio/path.py:599-606, 718-726,
737-745, 906-927, 1104-1129, 1923-1945), `Path.svg_d` (2699-2752), `Path.d` (2754-2758), `Subpath.d` (2954-2956) and
`PathSegment.__str__` (387-399).

Numbers are rationals. The parameters that `Arc.d` prints are computed with square roots and arctangents; they are given by a function.
-/

namespace Svgio.Print

/-- `"%.12G"` in basic.py:1527, 1532 and `"%G"` (precision 6) in path.py:1929, 1938: the significant digits of a positive number and the
exponent of the first of them, correctly rounded (ties to even) -/
def gDigits (prec : ℕ) (a : ℚ) : ℕ × ℤ :=
  let e := Int.log 10 a
  let m := (pyRound (a / (10 : ℚ) ^ (e - (prec - 1)))).toNat
  if m = 10 ^ prec then (10 ^ (prec - 1), e + 1) else (m, e)

/-- the exponent of `"%.12G"` in basic.py:1527, 1532: `E`, a sign and at least two digits -/
def expText (e : ℤ) : List Char :=
  'E' :: (if e < 0 then '-' else '+') :: (if e.natAbs < 10 then '0' :: natText e.natAbs else natText e.natAbs)

/-- `m / 10 ^ k` in decimals without trailing zeros, as `"%.12G"` in basic.py:1527, 1532 prints it -/
def decText (m k : ℕ) : List Char :=
  if k = 0 then natText m else rstripC '.' (rstripC '0' (natText (m / 10 ^ k) ++ '.' :: fixedDigits k (m % 10 ^ k)))

/-- `"%.12G" % x` in basic.py:1527, 1532 and `"%G" % x` in path.py:1929, 1938, for the precision 12 or 6. Simplification: the minus sign
of the float -0.0, infinities and NaN are not modelled. -/
def fmtG (prec : ℕ) (x : ℚ) : List Char :=
  if x = 0 then ['0']
  else
    let d := gDigits prec |x|
    (if x < 0 then ['-'] else []) ++
      (if -4 ≤ d.2 ∧ d.2 < prec then decText d.1 (prec - 1 - d.2).toNat
       else decText d.1 (prec - 1) ++ expText d.2)

/-- basic.py:1527-1531 and 1532-1534: one coordinate -/
def coordText (x : ℚ) : List Char :=
  let s := fmtG 12 x
  if '.' ∈ s then rstripC '.' (rstripC '0' s) else s

/-- basic.py:1525-1535 `Point.__str__` -/
def ptText (p : Pt ℚ) : List Char := coordText p.x ++ ',' :: coordText p.y

/-- `"%s" % point` where the point may be None: path.py:605, 743, 913, 922, 1111, 1123, 1935 -/
def optText : Option (Pt ℚ) → List Char
  | none => "None".toList
  | some p => ptText p

/-- `self.end - current_point` and the like in path.py:606, 745, 915, 924-927, 1113-1116, 1125-1129, 1944: None minus a point is a
TypeError -/
def relText (cur : Pt ℚ) : Option (Pt ℚ) → Except PyErr (List Char)
  | none => .error .typeError
  | some p => .ok (ptText (p.sub cur))

/-- The parameters printed by `Arc.d`, path.py:1929-1934: the radii, the rotation in degrees, and the two flags. -/
structure ArcArgs where
  rx : ℚ
  ry : ℚ
  rot : ℚ
  large : Bool
  sweep : Bool
  deriving DecidableEq, Repr

/-- `"%d"` of a flag, path.py:1929, 1938 -/
def flagText (b : Bool) : Char := if b then '1' else '0'

/-- `"%G,%G %G %d,%d "`, path.py:1929, 1938 -/
def arcArgsText (a : ArcArgs) : List Char :=
  fmtG 6 a.rx ++ ',' :: (fmtG 6 a.ry ++ ' ' :: (fmtG 6 a.rot ++ [' ', flagText a.large, ',', flagText a.sweep, ' ']))

/-- the test for absolute output at the start of each `d`, path.py:600-604, 719-723, 738-742, 908-912, 917-921, 1106-1110, 1118-1122,
1924-1928. Without `relative` an absolute segment prints relative coordinates and conversely. -/
def isAbs (cur : Option (Pt ℚ)) (relative : Option Bool) (self : Bool) : Bool :=
  cur.isNone || (relative.isNone && self) || (match relative with | some r => !r | none => false)

/-- `segment.d(current_point, relative, smooth)`: path.py:599-606 (Move), 718-726 (Close), 737-745 (Line), 906-927 (QuadraticBezier),
1104-1129 (CubicBezier), 1923-1945 (Arc) -/
def segD (ar : ArcData ℚ → ArcArgs) (s : Seg ℚ) (cur : Option (Pt ℚ) := none) (relative smooth : Option Bool := none) :
    Except PyErr (List Char) :=
  let smooth := smooth.getD s.smooth
  if isAbs cur relative s.relative then
    match s.kind with
    | .move => .ok ('M' :: ' ' :: optText s.stop)
    | .close => .ok ['Z']
    | .line => .ok ('L' :: ' ' :: optText s.stop)
    | .quad c =>
      if smooth then .ok ('T' :: ' ' :: optText s.stop)
      else .ok ('Q' :: ' ' :: (optText c ++ ' ' :: optText s.stop))
    | .cubic c1 c2 =>
      if smooth then .ok ('S' :: ' ' :: (optText c2 ++ ' ' :: optText s.stop))
      else .ok ('C' :: ' ' :: (optText c1 ++ ' ' :: (optText c2 ++ ' ' :: optText s.stop)))
    | .arc a => .ok ('A' :: ' ' :: (arcArgsText (ar a) ++ optText s.stop))
  else
    match cur with
    | none => .error .typeError
    | some cur =>
      match s.kind with
      | .move => do .ok ('m' :: ' ' :: (← relText cur s.stop))
      | .close => .ok ['z']
      | .line => do .ok ('l' :: ' ' :: (← relText cur s.stop))
      | .quad c =>
        if smooth then do .ok ('t' :: ' ' :: (← relText cur s.stop))
        else do
          let c ← relText cur c
          let e ← relText cur s.stop
          .ok ('q' :: ' ' :: (c ++ ' ' :: e))
      | .cubic c1 c2 =>
        if smooth then do
          let c2 ← relText cur c2
          let e ← relText cur s.stop
          .ok ('s' :: ' ' :: (c2 ++ ' ' :: e))
        else do
          let c1 ← relText cur c1
          let c2 ← relText cur c2
          let e ← relText cur s.stop
          .ok ('c' :: ' ' :: (c1 ++ ' ' :: (c2 ++ ' ' :: e)))
      | .arc a => do
        let e ← relText cur s.stop
        .ok ('a' :: ' ' :: (arcArgsText (ar a) ++ e))

/-- `self.start == previous.end and (self.control - self.start) == (previous.end - previous.control)`, path.py:900-902, 1098-1100, where
`None - point` is a TypeError -/
def continues (start c pend pc : Option (Pt ℚ)) : Except PyErr Bool :=
  if optEq start pend then
    match c, start, pend, pc with
    | some c, some s, some e, some pc => .ok ((c.sub s).eq (e.sub pc))
    | _, _, _, _ => .error .typeError
  else .ok false

/-- `is_smooth_from(previous)`, path.py:897-904 (QuadraticBezier), 1095-1102 (CubicBezier); `previous` is None for the first segment -/
def isSmoothFrom (s : Seg ℚ) (prev : Option (Seg ℚ)) : Except PyErr Bool :=
  match s.kind with
  | .quad c =>
    match prev with
    | some p => match p.kind with
      | .quad pc => continues s.start c p.stop pc
      | _ => .ok (optEq c s.start)
    | none => .ok (optEq c s.start)
  | .cubic c1 _ =>
    match prev with
    | some p => match p.kind with
      | .cubic _ pc2 => continues s.start c1 p.stop pc2
      | _ => .ok (optEq c1 s.start)
    | none => .ok (optEq c1 s.start)
  | _ => .error .attributeError

/-- path.py:2714-2728 and 2733-2749: the text of one segment. The two loops differ only in the `relative` they pass. -/
def partD (ar : ArcData ℚ → ArcArgs) (relative smooth : Option Bool) (prev : Option (Seg ℚ)) (cur : Option (Pt ℚ)) (s : Seg ℚ) :
    Except PyErr (List Char) :=
  let rel := relative.getD s.relative
  match s.kind with
  | .quad _ | .cubic _ _ =>
    if smooth.getD s.smooth then do
      let b ← isSmoothFrom s prev
      segD ar s cur (some rel) (some b)
    else segD ar s cur (some rel) (some false)
  | _ => segD ar s cur (some rel)

/-- the loops of path.py:2713-2730 and 2732-2751 -/
def partsD (ar : ArcData ℚ → ArcArgs) (relative smooth : Option Bool) : Option (Seg ℚ) → Option (Pt ℚ) → List (Seg ℚ) →
    Except PyErr (List (List Char))
  | _, _, [] => .ok []
  | prev, cur, s :: r => do
    let t ← partD ar relative smooth prev cur s
    let ts ← partsD ar relative smooth (some s) s.stop r
    .ok (t :: ts)

/-- `" ".join(parts)`, path.py:2752 -/
def joinSp : List (List Char) → List Char
  | [] => []
  | [t] => t
  | t :: r => t ++ ' ' :: joinSp r

/-- path.py:2699-2752 `Path.svg_d(segments, relative, smooth)` -/
def svgD (ar : ArcData ℚ → ArcArgs) (p : List (Seg ℚ)) (relative smooth : Option Bool := none) : Except PyErr (List Char) := do
  let ts ← partsD ar relative smooth none (some ⟨0, 0⟩) p
  .ok (joinSp ts)

/-- path.py:2754-2758 `Path.d(relative, transformed, smooth)`; `abs(path)` is a TypeError, the class has no `__abs__` -/
def pathD (ar : ArcData ℚ → ArcArgs) (p : List (Seg ℚ)) (relative : Option Bool := none) (transformed : Bool := true)
    (smooth : Option Bool := none) : Except PyErr (List Char) :=
  if transformed then .error .typeError else svgD ar p relative smooth

/-- path.py:2954-2956 `Subpath.d(relative, smooth)` of the window `w` (first position, position after the last); the argument `smooth`
is not used -/
def subpathD (ar : ArcData ℚ → ArcArgs) (p : List (Seg ℚ)) (w : ℕ × ℕ) (relative _smooth : Option Bool := none) :
    Except PyErr (List Char) :=
  svgD ar ((p.take w.2).drop w.1) relative none

/-- path.py:387-399 `str(segment)` -/
def segStr (ar : ArcData ℚ → ArcArgs) (s : Seg ℚ) : Except PyErr (List Char) := do
  let d ← segD ar s
  match s.start with
  | some q => .ok ((if s.relative then 'm' else 'M') :: ' ' :: (ptText q ++ ' ' :: d))
  | none => .ok d

end Svgio.Print
