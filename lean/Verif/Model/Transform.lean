import Verif.Model.Matrix
import Verif.Model.Length
import Verif.Model.Angle
import Verif.Model.ColorParse

/-!
Transform text: svgio/basic.py:2066-2203 `Matrix.parse` and `Matrix.render`, and matrices whose translation may hold a
`Length` (basic.py:1911-1955, 2495-2517).
-/

namespace Svgio

/-! ### regular expressions -/

/-- Python `re.findall` for a matcher that gives the groups and the rest after a match; the number is how many
characters of the last match are still to be skipped. Used in basic.py:2085, 2087, 2563-2571. -/
def findAll {α : Type} (f : List Char → Option (α × List Char)) : ℕ → List Char → List α
  | _, [] => []
  | 0, c :: r =>
    match f (c :: r) with
    | some (a, rest) => a :: findAll f (r.length - rest.length) r
    | none => findAll f 0 r
  | k + 1, _ :: r => findAll f k r

namespace Transform

open Color

/-- constants.py:127-149 `PATTERN_TRANSFORM`, with constants.py:100-110 -/
def names : List (List Char) :=
  [['m', 'a', 't', 'r', 'i', 'x'], ['t', 'r', 'a', 'n', 's', 'l', 'a', 't', 'e'],
   ['t', 'r', 'a', 'n', 's', 'l', 'a', 't', 'e', 'x'], ['t', 'r', 'a', 'n', 's', 'l', 'a', 't', 'e', 'y'],
   ['s', 'c', 'a', 'l', 'e'], ['s', 'c', 'a', 'l', 'e', 'x'], ['s', 'c', 'a', 'l', 'e', 'y'],
   ['r', 'o', 't', 'a', 't', 'e'], ['s', 'k', 'e', 'w'], ['s', 'k', 'e', 'w', 'x'], ['s', 'k', 'e', 'w', 'y']]

/-- constants.py:121-122, 126, 150-152 `PATTERN_TRANSFORM_UNITS` -/
def units : List (List Char) :=
  [['c', 'm'], ['m', 'm'], ['Q'], ['i', 'n'], ['p', 't'], ['p', 'c'], ['p', 'x'], ['e', 'm'], ['c', 'x'],
   ['c', 'h'], ['r', 'e', 'm'], ['v', 'w'], ['v', 'h'], ['v', 'm', 'i', 'n'], ['v', 'm', 'a', 'x'],
   ['d', 'e', 'g'], ['g', 'r', 'a', 'd'], ['r', 'a', 'd'], ['t', 'u', 'r', 'n'], ['%']]

/-- `WS\(([^)]+)\)` of constants.py:159-161: the body and the rest -/
def matchBody (s : List Char) : Option (List Char × List Char) :=
  match lit '(' (skipWs s) with
  | none => none
  | some r =>
    let body := r.takeWhile (· ≠ ')')
    if body = [] then none
    else match r.dropWhile (· ≠ ')') with
      | [] => none
      | _ :: rest => some (body, rest)

/-- constants.py:159-161 `REGEX_TRANSFORM_TEMPLATE` at the front of the text: name and body, and the rest. The
alternatives are tried in order, the next one when what follows the name does not match. -/
def matchTemplate (s : List Char) : Option ((List Char × List Char) × List Char) :=
  names.findSome? (fun n =>
    match litWord n s with
    | none => none
    | some r => (matchBody r).map (fun b => ((n, b.1), b.2)))

/-- constants.py:162-164 `REGEX_TRANSFORM_PARAMETER` at the front of the text: `mag + units` (basic.py:2088), and the
rest -/
def matchParam (s : List Char) : Option (List Char × List Char) :=
  match matchFloat s with
  | none => none
  | some (t, r) =>
    let r := skipWs r
    match units.findSome? (fun u => (litWord u r).map (fun rest => (u, rest))) with
    | some (u, rest) => some (t ++ u, rest)
    | none => some (t, r)

/-- basic.py:2085-2088 the functions of a transform text, with their parameters -/
def functions (s : List Char) : List (List Char × List (List Char)) :=
  (findAll matchTemplate 0 (s.flatMap lowerChar)).map (fun nb => (nb.1, findAll matchParam 0 nb.2))

end Transform

/-! ### numbers and lengths together -/

namespace Val

section
variable {K : Type} [Field K] [LinearOrder K]

/-- a number times a value (`Length.__rmul__`, `__mul__`: basic.py:76-78, 254-257, 288) in basic.py:2495-2517 -/
def smul (x : K) : Val K → Val K
  | num y => num (x * y)
  | len l => len (l.mulNum x)

/-- the sum of two values in basic.py:2495-2517; a number added to a Length is made a Length first (basic.py:99-101,
245-252) -/
def add : Val K → Val K → Except PyErr (Val K)
  | num x, num y => .ok (num (x + y))
  | len l, num y => (l.add ⟨y, .none⟩).map len
  | num x, len l => (l.add ⟨x, .none⟩).map len
  | len l, len k => (l.add k).map len

/-- `-value`, basic.py:264-267 -/
def neg : Val K → Val K
  | num x => num (-x)
  | len l => len l.neg

/-- `value == 0`, basic.py:298-306 -/
def isZero : Val K → Bool
  | num x => decide (x = 0)
  | len l => l.eqNum 0

/-- `float(value)`, basic.py:66-73, 2517 -/
def toFloat : Val K → K
  | num x => x
  | len l => l.toFloat

/-- `value.value(..)` for a Length, a number is left alone: basic.py:2182-2202 -/
def value (ctx : Len.Ctx K) : Val K → Except PyErr (Val K)
  | num x => .ok (num x)
  | len l => l.value ctx

end

end Val

/-- basic.py:1911-1955 `Matrix`, with a translation of numbers or Lengths -/
@[ext] structure LMat (K : Type) where
  a : K
  b : K
  c : K
  d : K
  e : Val K
  f : Val K
  deriving DecidableEq, Repr

namespace LMat

section
variable {K : Type} [Field K] [LinearOrder K]

/-- basic.py:1927-1935 `Matrix()` -/
def identity : LMat K := ⟨1, 0, 0, 1, .num 0, .num 0⟩

/-- basic.py:2167-2177, what `render` is given -/
structure RenderCtx (K : Type) where
  ppi : Option K := none
  relative : Option (Val K) := none
  width : Option (Val K) := none
  height : Option (Val K) := none
  fontSize : Option K := none
  fontHeight : Option K := none
  viewbox : Option (K × K) := none

/-- basic.py:2182-2191 what the x translation is resolved with: the width, else the relative length -/
def RenderCtx.x (c : RenderCtx K) : Len.Ctx K :=
  { ppi := c.ppi, relative := match c.width with | some w => some w | none => c.relative
    fontSize := c.fontSize, fontHeight := c.fontHeight, viewbox := c.viewbox }

/-- basic.py:2193-2202 what the y translation is resolved with: the height, else the relative length -/
def RenderCtx.y (c : RenderCtx K) : Len.Ctx K :=
  { ppi := c.ppi, relative := match c.height with | some h => some h | none => c.relative
    fontSize := c.fontSize, fontHeight := c.fontHeight, viewbox := c.viewbox }

/-- basic.py:2167-2203 `render(..)` -/
def render (ctx : RenderCtx K) (m : LMat K) : Except PyErr (LMat K) := do
  let e ← m.e.value ctx.x
  let f ← m.f.value ctx.y
  return { m with e := e, f := f }

/-- basic.py:1949-1955 `Matrix(a, b, c, d, e, f)`, which ends with a `render()` without information -/
def make (a b c d : K) (e f : Val K) : Except PyErr (LMat K) := render {} ⟨a, b, c, d, e, f⟩

/-- basic.py:2495-2517 `Matrix.matrix_multiply(m, s)` -/
def multiply (m s : LMat K) : Except PyErr (LMat K) := do
  let a ← Val.add (.num (s.a * m.a + s.c * m.b)) (s.e.smul 0)
  let c ← Val.add (.num (s.a * m.c + s.c * m.d)) (s.e.smul 0)
  let e ← Val.add (m.e.smul s.a) (m.f.smul s.c)
  let e ← Val.add e (s.e.smul 1)
  let b ← Val.add (.num (s.b * m.a + s.d * m.b)) (s.f.smul 0)
  let d ← Val.add (.num (s.b * m.c + s.d * m.d)) (s.f.smul 0)
  let f ← Val.add (m.e.smul s.b) (m.f.smul s.d)
  let f ← Val.add f (s.f.smul 1)
  return ⟨a.toFloat, b.toFloat, c.toFloat, d.toFloat, e, f⟩

/-- basic.py:2344-2348 `pre_cat(matrix)` -/
def preCat (m o : LMat K) : Except PyErr (LMat K) := multiply o m

/-- basic.py:2370-2371 `pre_translate(tx, ty)`, with 2451-2457 -/
def preTranslate (m : LMat K) (tx ty : Val K) : Except PyErr (LMat K) := do preCat m (← make 1 0 0 1 tx ty)

/-- a matrix of numbers, as the constructors of basic.py:2437-2485 give -/
def ofMat (m : Mat K) : LMat K := ⟨m.a, m.b, m.c, m.d, .num m.e, .num m.f⟩

/-- The shape shared by basic.py:2350-2362 `pre_scale`, 2379-2389 `pre_rotate`, 2391-2401 `pre_skew` -/
def preAbout (m : LMat K) (t : Mat K) (x y : Val K) : Except PyErr (LMat K) :=
  if x.isZero = true ∧ y.isZero = true then preCat m (ofMat t)
  else do
    let m ← preTranslate m x y
    let m ← preCat m (ofMat t)
    preTranslate m x.neg y.neg

end

/-! ### `Matrix.parse` -/

/-- `Length(text).value()`, basic.py:2094-2162 -/
noncomputable def lengthParam (s : List Char) : Except PyErr (Val ℝ) :=
  let l := Len.ofString s
  Len.value {} ⟨(l.amount : ℝ), l.units⟩

/-- `Angle.parse(text)`, basic.py:2114-2154, with `tau` = 2 pi -/
noncomputable def angleParam (s : List Char) : Except PyErr ℝ := Angle.parse (2 * Real.pi) s

/-- `float(text)`, basic.py:2090, 2107-2112 -/
noncomputable def floatParam (s : List Char) : Except PyErr ℝ := (Angle.floatOf s).map (fun x => (x : ℝ))

/-- basic.py:2115-2124, 2131-2140, 2143-2152, 2155-2164: the optional pivot after the angles, with `t` the plain
transform -/
noncomputable def pivot (m : LMat ℝ) (t : Mat ℝ) : List (List Char) → Except PyErr (LMat ℝ)
  | [] => preAbout m t (.num 0) (.num 0)
  | [x] => do preAbout m t (← lengthParam x) (.num 0)
  | x :: y :: _ => do
    let x ← lengthParam x
    let y ← lengthParam y
    preAbout m t x y

/-- basic.py:2089-2164 the body of the loop of `Matrix.parse`. The exceptions of a missing parameter that the code
does not catch are values. -/
noncomputable def step (m : LMat ℝ) (name : List Char) (params : List (List Char)) : Except PyErr (LMat ℝ) :=
  if name = ['m', 'a', 't', 'r', 'i', 'x'] then do
    match ← params.mapM floatParam with
    | [] => preCat m identity
    | [_] => .error .typeError
    | a :: b :: c :: d :: e :: f :: _ => do preCat m (← make a b c d (.num e) (.num f))
    | _ => .error .indexError
  else if name = ['t', 'r', 'a', 'n', 's', 'l', 'a', 't', 'e'] then
    match params with
    | [] => .ok m
    | [x] => do preTranslate m (← lengthParam x) (.num 0)
    | x :: y :: _ => do
      let x ← lengthParam x
      let y ← lengthParam y
      preTranslate m x y
  else if name = ['t', 'r', 'a', 'n', 's', 'l', 'a', 't', 'e', 'x'] then
    match params with
    | [] => .error .indexError
    | x :: _ => do preTranslate m (← lengthParam x) (.num 0)
  else if name = ['t', 'r', 'a', 'n', 's', 'l', 'a', 't', 'e', 'y'] then
    match params with
    | [] => .error .indexError
    | y :: _ => do preTranslate m (.num 0) (← lengthParam y)
  else if name = ['s', 'c', 'a', 'l', 'e'] then do
    match ← params.mapM floatParam with
    | [] => preAbout m (Mat.scale 1 none) (.num 0) (.num 0)
    | [sx] => preAbout m (Mat.scale sx none) (.num 0) (.num 0)
    | [sx, sy] => preAbout m (Mat.scale sx (some sy)) (.num 0) (.num 0)
    | [sx, sy, x] => preAbout m (Mat.scale sx (some sy)) (.num x) (.num 0)
    | [sx, sy, x, y] => preAbout m (Mat.scale sx (some sy)) (.num x) (.num y)
    | _ => .error .typeError
  else if name = ['s', 'c', 'a', 'l', 'e', 'x'] then
    match params with
    | [] => .error .indexError
    | s :: _ => do preAbout m (Mat.scale (← floatParam s) (some 1)) (.num 0) (.num 0)
  else if name = ['s', 'c', 'a', 'l', 'e', 'y'] then
    match params with
    | [] => .error .indexError
    | s :: _ => do preAbout m (Mat.scale 1 (some (← floatParam s))) (.num 0) (.num 0)
  else if name = ['r', 'o', 't', 'a', 't', 'e'] then
    match params with
    | [] => .error .indexError
    | t :: r => do pivot m (Mat.rotate (← angleParam t)) r
  else if name = ['s', 'k', 'e', 'w'] then
    match params with
    | [] => .error .indexError
    | [t] => do
      let _ ← angleParam t
      return m
    | t :: u :: r => do
      let t ← angleParam t
      let u ← angleParam u
      pivot m (Mat.skew t u) r
  else if name = ['s', 'k', 'e', 'w', 'x'] then
    match params with
    | [] => .error .indexError
    | t :: r => do pivot m (Mat.skew (← angleParam t) 0) r
  else if name = ['s', 'k', 'e', 'w', 'y'] then
    match params with
    | [] => .error .indexError
    | t :: r => do pivot m (Mat.skew 0 (← angleParam t)) r
  else .ok m

/-- basic.py:2066-2165 `m.parse(text)`. Simplification: the state of `m` after an exception is not modelled. -/
noncomputable def parse (m : LMat ℝ) (s : List Char) : Except PyErr (LMat ℝ) :=
  (Transform.functions s).foldlM (fun m f => step m f.1 f.2) m

/-- basic.py:1938-1940 `Matrix(text, ..)` -/
noncomputable def ofText (ctx : RenderCtx ℝ) (s : List Char) : Except PyErr (LMat ℝ) := do
  render ctx (← parse identity s)

end LMat

end Svgio
