import Verif.Model.Transform
import Verif.Model.Fmt

/-!
`Viewbox`: svgio/basic.py:2520-2688. Coordinates are numbers or None; Lengths as coordinates (2669-2670) are not modelled.
-/

namespace Svgio

/-- basic.py:2521-2538 the rectangle of a `Viewbox`, or of an element (2573-2584); `none` is None -/
structure Box (K : Type) where
  x : Option K := none
  y : Option K := none
  width : Option K := none
  height : Option K := none
  deriving DecidableEq, Repr

namespace Viewbox

/-- Python `text.split(" ")`, basic.py:2627 -/
def splitSpace : List Char → List (List Char)
  | [] => [[]]
  | c :: r =>
    if c = ' ' then [] :: splitSpace r
    else match splitSpace r with
      | w :: ws => (c :: w) :: ws
      | [] => [[c]]

/-- Python `w in text`, basic.py:2656-2665 -/
def contains (w s : List Char) : Bool := s.tails.any (fun t => w.isPrefixOf t)

/-- basic.py:2626-2638 the align and the meet-or-slice word of `preserveAspectRatio` -/
def aspectWords (aspect : Option (List Char)) : List Char × List Char :=
  match aspect with
  | some a =>
    let s := splitSpace a
    (s.getD 0 ['x', 'M', 'i', 'd', 'y', 'M', 'i', 'd'], s.getD 1 ['m', 'e', 'e', 't'])
  | none => (['x', 'M', 'i', 'd', 'y', 'M', 'i', 'd'], ['m', 'e', 'e', 't'])

/-- basic.py:2650-2668 `translate(x, y) scale(x, y)` -/
structure Fit (K : Type) where
  translateX : K
  translateY : K
  scaleX : K
  scaleY : K
  deriving DecidableEq, Repr

section
variable {K : Type} [Field K] [LinearOrder K]

/-- basic.py:2626-2666 the numbers of `viewbox_transform` -/
def fit (ex ey ew eh vx vy vw vh : K) (aspect : Option (List Char)) : Except PyErr (Fit K) :=
  let align := (aspectWords aspect).1
  let meetOrSlice := (aspectWords aspect).2
  if vw = 0 then .error .zeroDivisionError
  else if vh = 0 then .error .zeroDivisionError
  else
    let sx := ew / vw
    let sy := eh / vh
    let s : K × K :=
      if align ≠ ['n', 'o', 'n', 'e'] ∧ meetOrSlice = ['m', 'e', 'e', 't'] then (min sx sy, min sx sy)
      else if align ≠ ['n', 'o', 'n', 'e'] ∧ meetOrSlice = ['s', 'l', 'i', 'c', 'e'] then (max sx sy, max sx sy)
      else (sx, sy)
    let sx := s.1
    let sy := s.2
    let tx := ex - vx * sx
    let ty := ey - vy * sy
    let align := align.flatMap Color.lowerChar
    let tx := if contains ['x', 'm', 'i', 'd'] align then tx + (ew - vw * sx) / 2 else tx
    let tx := if contains ['x', 'm', 'a', 'x'] align then tx + (ew - vw * sx) else tx
    let ty := if contains ['y', 'm', 'i', 'd'] align then ty + (eh - vh * sy) / 2 else ty
    let ty := if contains ['y', 'm', 'a', 'x'] align then ty + (eh - vh * sy) else ty
    .ok ⟨tx, ty, sx, sy⟩

end

/-- `"name(%s, %s)"`, basic.py:2675-2688 -/
def call (name : List Char) (x y : ℚ) : List Char :=
  name ++ ('(' :: (lengthStr x ++ (',' :: ' ' :: (lengthStr y ++ [')']))))

/-- basic.py:2671-2688 the text of the transform -/
def text (f : Fit ℚ) : List Char :=
  if f.translateX = 0 ∧ f.translateY = 0 then
    if f.scaleX = 1 ∧ f.scaleY = 1 then []
    else call ['s', 'c', 'a', 'l', 'e'] f.scaleX f.scaleY
  else
    if f.scaleX = 1 ∧ f.scaleY = 1 then call ['t', 'r', 'a', 'n', 's', 'l', 'a', 't', 'e'] f.translateX f.translateY
    else call ['t', 'r', 'a', 'n', 's', 'l', 'a', 't', 'e'] f.translateX f.translateY ++
      (' ' :: call ['s', 'c', 'a', 'l', 'e'] f.scaleX f.scaleY)

/-- basic.py:2586-2688 `Viewbox.viewbox_transform(..)`, and 2573-2584 `viewbox.transform(element)` -/
def transform (e vb : Box ℚ) (aspect : Option (List Char)) : Except PyErr (List Char) :=
  match e.x, e.y, e.width, e.height, vb.x, vb.y, vb.width, vb.height with
  | some ex, some ey, some ew, some eh, some vx, some vy, some vw, some vh =>
    (fit ex ey ew eh vx vy vw vh aspect).map text
  | _, _, _, _, _, _, _, _ => .ok []

/-- basic.py:2562-2571 `set_viewbox(text)`; constants.py:155 `REGEX_FLOAT`. With too few numbers the fields after the
last number keep their value. -/
def setViewbox (b : Box ℚ) (s : Option (List Char)) : Box ℚ :=
  match s with
  | none => b
  | some s =>
    match (findAll matchFloat 0 s).map floatVal with
    | [] => b
    | [x] => { b with x := some x }
    | [x, y] => { b with x := some x, y := some y }
    | [x, y, w] => { b with x := some x, y := some y, width := some w }
    | x :: y :: w :: h :: _ => ⟨some x, some y, some w, some h⟩

/-- basic.py:2521-2538 `Viewbox(text)` -/
def ofText (s : Option (List Char)) : Box ℚ := setViewbox {} s

/-- basic.py:2555-2560 `Viewbox(dict, preserve)`, given the two entries of the dictionary. The rectangle, and the
aspect ratio: the entry counts even if it is None. -/
def ofValues (viewbox : Option (List Char)) (preserve : Option (List Char)) (entry : Option (Option (List Char))) :
    Box ℚ × Option (List Char) :=
  (setViewbox {} viewbox, match entry with | some a => a | none => preserve)

/-- basic.py:479-497 `Length.str(x)` of a number or None -/
def coord : Option ℚ → List Char
  | some x => lengthStr x
  | none => ['n', '/', 'a']

/-- basic.py:2540-2546 `str(viewbox)` -/
def toString (b : Box ℚ) : List Char :=
  coord b.x ++ (' ' :: (coord b.y ++ (' ' :: (coord b.width ++ (' ' :: coord b.height)))))

end Viewbox

end Svgio
