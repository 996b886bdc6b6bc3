import Verif.Model.ColorSet

/-!
`Color(..)`: the positional arguments and the keywords of the constructor, svgio/basic.py:508-572.
-/

namespace Svgio.Color

/-- basic.py:512-518, 521-526 what the first argument can be: a `Color`, an int, a text or None -/
inductive Source
  | color (c : Option ℤ)
  | int (n : ℤ)
  | text (s : Option (List Char))
  deriving DecidableEq, Repr

/-- basic.py:510-538 the positional arguments; `many` are five or more. For `two` the second argument as a number, after `float(..)`. -/
inductive Args
  | zero
  | one (s : Source)
  | two (s : Source) (opacity : ℚ)
  | three (r g b : ℚ)
  | four (r g b a : ℚ)
  | many
  deriving DecidableEq, Repr

/-- basic.py:539-572 the keywords, in the order in which they are looked up; `none` is a keyword that is not given -/
structure Kw where
  red : Option ℚ := none
  green : Option ℚ := none
  blue : Option ℚ := none
  alpha : Option ℚ := none
  opacity : Option ℚ := none
  r : Option ℚ := none
  g : Option ℚ := none
  b : Option ℚ := none
  rgb : Option ℤ := none
  argb : Option ℤ := none
  rgba : Option ℤ := none
  h : Option ℚ := none
  s : Option ℚ := none
  l : Option ℚ := none
  hue : Option ℚ := none
  saturation : Option ℚ := none
  lightness : Option ℚ := none
  deriving DecidableEq, Repr

/-- basic.py:512-518, 521-526: the value from the first argument -/
def ofSource (F : FloatRounding) (pyInt : List Char → Option ℤ) : Source → Except PyErr (Option ℤ)
  | .color c => .ok c
  | .int n => .ok (setRgb n)
  | .text s => parse F pyInt s

/-- basic.py:509-538: the value from the positional arguments -/
def ofArgs (F : FloatRounding) (pyInt : List Char → Option ℤ) : Args → Except PyErr (Option ℤ)
  | .zero => .ok (some 0)
  | .one s => ofSource F pyInt s
  | .two s o => match ofSource F pyInt s with
    | .error e => .error e
    | .ok v => setOpacity F v o
  | .three r g b => .ok (mk3 F r g b)
  | .four r g b a => .ok (mk4 F r g b a)
  | .many => .ok (some 0)

/-- `if "name" in kwargs: self.name = kwargs["name"]`, basic.py:539-572; `f` is the setter -/
def assign {α : Type} (f : Option ℤ → α → Except PyErr (Option ℤ)) (k : Option α) (v : Option ℤ) : Except PyErr (Option ℤ) :=
  match k with
  | none => .ok v
  | some x => f v x

/-- basic.py:508-572 `Color(*args, **kwargs)`: the value. Exact arithmetic for hue, saturation and lightness, as in
Model/ColorParse.lean. -/
def init (F : FloatRounding) (pyInt : List Char → Option ℤ) (args : Args) (kw : Kw) : Except PyErr (Option ℤ) := do
  let v ← ofArgs F pyInt args
  let v ← assign setRed kw.red v
  let v ← assign setGreen kw.green v
  let v ← assign setBlue kw.blue v
  let v ← assign setAlpha kw.alpha v
  let v ← assign (setOpacity F) kw.opacity v
  let v ← assign setRed kw.r v
  let v ← assign setGreen kw.g v
  let v ← assign setBlue kw.b v
  let v ← assign (fun _ x => .ok (setRgb x)) kw.rgb v
  let v ← assign (fun _ x => .ok (setArgb x)) kw.argb v
  let v ← assign (fun _ x => .ok (setRgba x)) kw.rgba v
  let v ← assign (setHue F) kw.h v
  let v ← assign (setSaturation F) kw.s v
  let v ← assign (setLightness F) kw.l v
  let v ← assign (setHue F) kw.hue v
  let v ← assign (setSaturation F) kw.saturation v
  assign (setLightness F) kw.lightness v

end Svgio.Color
