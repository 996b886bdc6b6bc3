import Verif.Model.SegGeom

/-!
`segment.length()`: svgio/path.py:493-501, 671-675, 863-895, 1068-1093. The parts are in `Model/SegGeom.lean`; arcs are in
`Model/ArcMeasure.lean`.
-/

namespace Svgio.Seg

/-- path.py:1076-1081 `_abs_derivative(t)`, the function that scipy integrates; the points are complex numbers -/
noncomputable def cubicSpeed (p c d q : Pt ℝ) (t : ℝ) : ℝ :=
  let x := 3 * (c.x - p.x) * (1 - t) ^ 2 + 6 * (d.x - c.x) * (1 - t) * t + 3 * (q.x - d.x) * t ^ 2
  let y := 3 * (c.y - p.y) * (1 - t) ^ 2 + 6 * (d.y - c.y) * (1 - t) * t + 3 * (q.y - d.y) * t ^ 2
  Real.sqrt (x ^ 2 + y ^ 2)

/-- path.py:1088-1093 `CubicBezier.length`. `scipy` is `quad(_, 0.0, 1.0, epsabs=_)[0]` when scipy is installed
(path.py:1083); it is assumed not to raise. -/
noncomputable def cubicLength (scipy : Option ((ℝ → ℝ) → ℝ → ℝ)) (fuel : ℕ) (error : ℝ) (minDepth : ℕ)
    (p c d q : Pt ℝ) : Except PyErr ℝ :=
  match scipy with
  | some integral => .ok (integral (cubicSpeed p c d q) error)
  | none => lineLength (fun t => ⟨cubicAt p.x c.x d.x q.x t, cubicAt p.y c.y d.y q.y t⟩) fuel 0 1 error minDepth

/-- `segment.length(error, min_depth)` for all classes but Arc: path.py:493-501 (Move), 671-675 (Linear), 863-895
(QuadraticBezier), 1088-1093 (CubicBezier). A missing point of a curve raises; which exception is simplified. -/
noncomputable def length (scipy : Option ((ℝ → ℝ) → ℝ → ℝ)) (fuel : ℕ) (error : ℝ) (minDepth : ℕ) (s : Seg ℝ) :
    Except PyErr ℝ :=
  match s.kind with
  | .move => .ok 0
  | .line | .close => .ok (linearLength s)
  | .quad c => match s.start, c, s.stop with
    | some p, some c, some q => .ok (quadLength p c q)
    | _, _, _ => .error .typeError
  | .cubic c1 c2 => match s.start, c1, c2, s.stop with
    | some p, some c, some d, some q => cubicLength scipy fuel error minDepth p c d q
    | _, _, _, _ => .error .typeError
  | .arc _ => .error .notImplementedError

end Svgio.Seg
