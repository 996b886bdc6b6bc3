import Verif.Model.Length

/-!
What a length means: the number of pixels in one unit, for the context in which it is resolved.
-/

namespace Svgio.Spec

open Svgio

variable {K : Type} [Field K] [LinearOrder K]

/-- pixels per unit, for the units that need no relative length. An inch has `ppi` pixels, 0.0393701 inches are a
millimetre and 0.393701 inches a centimetre; a unit the library does not know counts as pixels. -/
def pixelsPer (ctx : Len.Ctx K) : Units → Option K
  | .none | .px | .other _ => some 1
  | .pt => some (13333 / 10000)
  | .pc => some 16
  | .inch => ctx.ppi
  | .mm => ctx.ppi.map (· * (393701 / 10000000))
  | .cm => ctx.ppi.map (· * (393701 / 1000000))
  | .em => ctx.fontSize
  | .ex => ctx.fontHeight
  | .vw => ctx.viewbox.map (fun v => v.1 / 100)
  | .vh => ctx.viewbox.map (fun v => v.2 / 100)
  | .vmin => ctx.viewbox.map (fun v => min v.1 v.2 / 100)
  | .vmax => ctx.viewbox.map (fun v => max v.1 v.2 / 100)
  | .percent => none

/-- two units with a fixed ratio: the same unit, both pixels, points or picas, or both physical -/
def SameMeasure (u v : Units) : Prop :=
  u = v ∨ (u ∈ [Units.none, .px, .pt, .pc] ∧ v ∈ [Units.none, .px, .pt, .pc]) ∨
    (u ∈ [Units.mm, .cm, .inch] ∧ v ∈ [Units.mm, .cm, .inch])

/-- a point and a pica: the code uses the ratio 12 between them, but 16 / 1.3333 when resolving -/
def PointPica (u v : Units) : Prop := (u = .pt ∧ v = .pc) ∨ (u = .pc ∧ v = .pt)

end Svgio.Spec
