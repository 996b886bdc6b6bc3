import Mathlib.Algebra.Order.Field.Basic

/-!
What a viewBox with preserveAspectRatio asks for (SVG 1.1, 7.8), in terms of where the sides and the middle of the
viewBox go.
-/

namespace Svgio.Spec

/-- where the viewBox is put in one direction -/
inductive Align
  | min | mid | max
  deriving DecidableEq, Repr

/-- the text of an alignment -/
def Align.text : Align → List Char
  | .min => "Min".toList
  | .mid => "Mid".toList
  | .max => "Max".toList

/-- the words of preserveAspectRatio: `x..Y..`, and nothing, `meet` or `slice` -/
def aspectText (ax ay : Align) (second : List Char) : List Char :=
  'x' :: (ax.text ++ ('Y' :: (ay.text ++ second)))

variable {K : Type} [Field K] [LinearOrder K]

/-- The map `t + s * v` puts the range from `v` to `v + vs` where the alignment wants it in the range from `e` to
`e + es`: the lower ends, the middles or the upper ends agree. -/
def Aligned (a : Align) (t s e es v vs : K) : Prop :=
  match a with
  | .min => t + s * v = e
  | .mid => t + s * (v + vs / 2) = e + es / 2
  | .max => t + s * (v + vs) = e + es

end Svgio.Spec
