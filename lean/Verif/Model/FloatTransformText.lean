import Verif.Model.Transform
import Verif.Model.FloatTurn
import Verif.Model.FloatUnits

/-!
Transform lists read from text and computed with floats: svgio/basic.py:1849-1866, 2066-2165. The model of the same code in
`Model/Transform.lean` computes exactly. Overflow, infinities and NaN are left out, and so are lengths that `Matrix.parse` keeps as
Lengths, such as `5mm` or `5em`.
-/

namespace Svgio.Flt

variable (F : FloatRounding)

/-- `float(text)`, basic.py:1855-1866, 2090, 2107-2112 -/
def floatParam (s : List Char) : Except PyErr ℚ := (Angle.floatOf s).map F.fl

/-- basic.py:1849-1866 `Angle.parse(text)` -/
def angleParse (s : List Char) : Except PyErr ℚ :=
  let s := s.flatMap Color.lowerChar
  match Angle.beforeSuffix ['d', 'e', 'g'] s with
  | some t => (floatParam F t).map (degrees F)
  | none =>
  match Angle.beforeSuffix ['g', 'r', 'a', 'd'] s with
  | some t => (floatParam F t).map (gradians F)
  | none =>
  match Angle.beforeSuffix ['r', 'a', 'd'] s with
  | some t => floatParam F t
  | none =>
  match Angle.beforeSuffix ['t', 'u', 'r', 'n'] s with
  | some t => (floatParam F t).map (turns F)
  | none =>
  match Angle.beforeSuffix ['%'] s with
  | some t => (floatParam F t).map (fun x => turns F (F.fl (x / 100)))
  | none => (floatParam F s).map (degrees F)

/-- `Length(text).value()`, basic.py:2094-2162. Simplification: a value that stays a Length is not modelled; it is an error here. -/
def lengthParam (s : List Char) : Except PyErr ℚ :=
  let l := Len.ofString s
  match value F {} ⟨F.fl l.amount, l.units⟩ with
  | .error e => .error e
  | .ok (.num x) => .ok x
  | .ok (.len _) => .error .notImplementedError

/-- basic.py:2115-2124, 2131-2140, 2143-2152, 2155-2164: the optional pivot after the angles, with `t` the plain transform -/
def pivot (m t : Mat ℚ) : List (List Char) → Except PyErr (Mat ℚ)
  | [] => .ok (preAbout F m t 0 0)
  | [x] => do
    let x ← lengthParam F x
    return preAbout F m t x 0
  | x :: y :: _ => do
    let x ← lengthParam F x
    let y ← lengthParam F y
    return preAbout F m t x y

/-- basic.py:2089-2164 the body of the loop of `Matrix.parse` -/
def step (T : FloatTrig) (m : Mat ℚ) (name : List Char) (params : List (List Char)) : Except PyErr (Mat ℚ) :=
  if name = ['m', 'a', 't', 'r', 'i', 'x'] then do
    match ← params.mapM (floatParam F) with
    | [] => return preCat F m Mat.identity
    | [_] => .error .typeError
    | a :: b :: c :: d :: e :: f :: _ => return preCat F m ⟨a, b, c, d, e, f⟩
    | _ => .error .indexError
  else if name = ['t', 'r', 'a', 'n', 's', 'l', 'a', 't', 'e'] then
    match params with
    | [] => .ok m
    | [x] => do
      let x ← lengthParam F x
      return preTranslate F m x 0
    | x :: y :: _ => do
      let x ← lengthParam F x
      let y ← lengthParam F y
      return preTranslate F m x y
  else if name = ['t', 'r', 'a', 'n', 's', 'l', 'a', 't', 'e', 'x'] then
    match params with
    | [] => .error .indexError
    | x :: _ => do
      let x ← lengthParam F x
      return preTranslate F m x 0
  else if name = ['t', 'r', 'a', 'n', 's', 'l', 'a', 't', 'e', 'y'] then
    match params with
    | [] => .error .indexError
    | y :: _ => do
      let y ← lengthParam F y
      return preTranslate F m 0 y
  else if name = ['s', 'c', 'a', 'l', 'e'] then do
    match ← params.mapM (floatParam F) with
    | [] => return preScale F m 1 1 0 0
    | [sx] => return preScale F m sx sx 0 0
    | [sx, sy] => return preScale F m sx sy 0 0
    | [sx, sy, x] => return preScale F m sx sy x 0
    | [sx, sy, x, y] => return preScale F m sx sy x y
    | _ => .error .typeError
  else if name = ['s', 'c', 'a', 'l', 'e', 'x'] then
    match params with
    | [] => .error .indexError
    | s :: _ => do
      let s ← floatParam F s
      return preScale F m s 1 0 0
  else if name = ['s', 'c', 'a', 'l', 'e', 'y'] then
    match params with
    | [] => .error .indexError
    | s :: _ => do
      let s ← floatParam F s
      return preScale F m 1 s 0 0
  else if name = ['r', 'o', 't', 'a', 't', 'e'] then
    match params with
    | [] => .error .indexError
    | t :: r => do
      let t ← angleParse F t
      pivot F m (rotate T t) r
  else if name = ['s', 'k', 'e', 'w'] then
    match params with
    | [] => .error .indexError
    | [t] => do
      let _ ← angleParse F t
      return m
    | t :: u :: r => do
      let t ← angleParse F t
      let u ← angleParse F u
      pivot F m (skew T t u) r
  else if name = ['s', 'k', 'e', 'w', 'x'] then
    match params with
    | [] => .error .indexError
    | t :: r => do
      let t ← angleParse F t
      pivot F m (skew T t 0) r
  else if name = ['s', 'k', 'e', 'w', 'y'] then
    match params with
    | [] => .error .indexError
    | t :: r => do
      let t ← angleParse F t
      pivot F m (skew T 0 t) r
  else .ok m

/-- basic.py:1938-1940, 2066-2165 `Matrix(text)`. Simplification: the state after an exception is not modelled. -/
def ofTransform (T : FloatTrig) (s : List Char) : Except PyErr (Mat ℚ) :=
  (Transform.functions s).foldlM (fun m f => step F T m f.1 f.2) Mat.identity

end Svgio.Flt
