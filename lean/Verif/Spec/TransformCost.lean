import Verif.Spec.Transform

/-!
How much a function of a transform list can enlarge an error, and how many roundings it takes, for C162.
-/

namespace Svgio.Spec

/-- the sum of the lengths of a pivot, in pixels and without their signs -/
noncomputable def reach (ps : List Param) : ℝ := (ps.map fun p => |(pixels p).getD 0|).sum

/-- the sum of numbers without their signs -/
noncomputable def absSum (ps : List Param) : ℝ := (ps.map fun p => |num p.1|).sum

/-- the angles of a function, and the parameters after them -/
def skewAngles (name : List Char) (ps : List Param) : List Param × List Param :=
  if name = "skew".toList then (ps.take 2, ps.drop 2) else (ps.take 1, ps.drop 1)

/-- how much the function enlarges points, at most -/
noncomputable def growth (f : List Char × List Param) : ℝ :=
  if f.1 = "matrix".toList then 1 + absSum f.2
  else if f.1 = "translate".toList ∨ f.1 = "translatex".toList ∨ f.1 = "translatey".toList then 1 + reach f.2
  else if f.1 = "scale".toList ∨ f.1 = "scalex".toList ∨ f.1 = "scaley".toList then (1 + absSum (f.2.take 2)) * (1 + reach (f.2.drop 2)) ^ 2
  else if f.1 = "rotate".toList then 2 * (1 + reach (f.2.drop 1)) ^ 2
  else (1 + ((skewAngles f.1 f.2).1.map fun p => |Real.tan ((angle p).getD 0)|).sum) * (1 + reach (skewAngles f.1 f.2).2) ^ 2

/-- The roundings of the function, in units of 1/2^50: large angles are less accurate, and so are skews by angles near to a quarter turn. -/
noncomputable def roundings (f : List Char × List Param) : ℝ :=
  if f.1 = "rotate".toList then 11 + ((f.2.take 1).map fun p => |(angle p).getD 0|).sum
  else if f.1 = "skew".toList ∨ f.1 = "skewx".toList ∨ f.1 = "skewy".toList then
    10 + 4 * ((skewAngles f.1 f.2).1.map fun p => (1 + |(angle p).getD 0|) * (1 + |Real.tan ((angle p).getD 0)|)).sum
  else 10

/-- no skew by a quarter turn -/
def Skewable (f : List Char × List Param) : Prop :=
  f.1 = "skew".toList ∨ f.1 = "skewx".toList ∨ f.1 = "skewy".toList → ∀ p ∈ (skewAngles f.1 f.2).1, ∀ θ, angle p = some θ → Real.cos θ ≠ 0

end Svgio.Spec
