import Verif.Model.PointOps
import Verif.Model.SegGeom
import Verif.Model.SubpathEdit

/-!
Segments and boxes of basic shapes and of images (svgio/nodes.py). The coordinates are numbers, as given to the constructors;
`Document.get_values`, which finds them, is modelled in Model/Dom.
-/

namespace Svgio.Shape

variable {K : Type} [Field K] [LinearOrder K]

/-- What `element.transform` gives, nodes.py:499-502: None, or a matrix. A text is multiplied into a point as the matrix that is read
from it (Model/Transform), and has no `is_identity`; texts are left out. -/
inductive Trafo (K : Type)
  | absent
  | matrix (m : Mat K)

/-- `point *= self.transform`, nodes.py:1215-1216, 1759; `point * self.transform`, nodes.py:1765-1768 -/
def Trafo.apply (t : Trafo K) (p : Pt K) : Except PyErr (Pt K) :=
  match t with
  | .absent => p.imulOp .other
  | .matrix m => .ok (p.imulMat m)

/-- nodes.py:1201-1217 `Line.segments(transformed)` -/
def lineSegments (x1 y1 x2 y2 : K) (t : Trafo K) (transformed : Bool) : Except PyErr (List (Seg K)) :=
  if transformed then
    match t.apply ⟨x1, y1⟩, t.apply ⟨x2, y2⟩ with
    | .ok start, .ok stop => .ok [⟨.move, none, some start, false, true⟩, ⟨.line, some start, some stop, false, true⟩]
    | .error e, _ => .error e
    | _, .error e => .error e
  else .ok [⟨.move, none, some ⟨x1, y1⟩, false, true⟩, ⟨.line, some ⟨x1, y1⟩, some ⟨x2, y2⟩, false, true⟩]

/-- `self.is_degenerate()`, nodes.py:770, 1280: no class defines this method -/
def isDegenerate : Except PyErr Bool := .error .attributeError

/-- nodes.py:778-784 the segments of a rectangle without rounded corners -/
def rectPlain (x y width height : K) : List (Seg K) :=
  [⟨.move, none, some ⟨x, y⟩, false, true⟩,
   ⟨.line, some ⟨x, y⟩, some ⟨x + width, y⟩, false, true⟩,
   ⟨.line, some ⟨x + width, y⟩, some ⟨x + width, y + height⟩, false, true⟩,
   ⟨.line, some ⟨x + width, y + height⟩, some ⟨x, y + height⟩, false, true⟩,
   ⟨.close, some ⟨x, y + height⟩, some ⟨x, y⟩, false, true⟩]

/-- nodes.py:786-812 the segments of a rectangle with rounded corners; `arc` is the constructor `path.Arc(start, end, rx=…, ry=…)` -/
def rectRound (arc : Pt K → Pt K → Seg K) (x y width height rx ry : K) : List (Seg K) :=
  [⟨.move, none, some ⟨x + rx, y⟩, false, true⟩,
   ⟨.line, some ⟨x + rx, y⟩, some ⟨x + width - rx, y⟩, false, true⟩,
   arc ⟨x + width - rx, y⟩ ⟨x + width, y + ry⟩,
   ⟨.line, some ⟨x + width, y + ry⟩, some ⟨x + width, y + height - ry⟩, false, true⟩,
   arc ⟨x + width, y + height - ry⟩ ⟨x + width - rx, y + height⟩,
   ⟨.line, some ⟨x + width - rx, y + height⟩, some ⟨x + rx, y + height⟩, false, true⟩,
   arc ⟨x + rx, y + height⟩ ⟨x, y + height - ry⟩,
   ⟨.line, some ⟨x, y + height - ry⟩, some ⟨x, y + ry⟩, false, true⟩,
   arc ⟨x, y + ry⟩ ⟨x + rx, y⟩,
   ⟨.close, some ⟨x + rx, y⟩, some ⟨x + rx, y⟩, false, true⟩]

/-- nodes.py:772-776 the radii of the corners: both 0 if one is negative; `rx` and `ry` may be None, and comparing None with 0 raises
TypeError -/
def rectRadii (width height : K) (rx ry : Option K) : Except PyErr (K × K) :=
  match rx with
  | none => .error .typeError
  | some rx =>
    if rx < 0 ∧ 0 < width then .ok (0, 0)
    else match ry with
      | none => .error .typeError
      | some ry => if ry < 0 ∧ 0 < height then .ok (0, 0) else .ok (rx, ry)

/-- nodes.py:766-816 `Rect.segments(transformed)`, with `degenerate` as the result of `self.is_degenerate()` -/
def rectSegments (degenerate : Except PyErr Bool) (arc : K → K → Pt K → Pt K → Seg K) (x y width height : K) (rx ry : Option K)
    (t : Trafo K) (transformed : Bool) : Except PyErr (List (Seg K)) :=
  match degenerate with
  | .error e => .error e
  | .ok true => .ok []
  | .ok false =>
    match rectRadii width height rx ry with
    | .error e => .error e
    | .ok (rx, ry) =>
      let segments := if rx = ry ∧ ry = 0 then rectPlain x y width height else rectRound (arc rx ry) x y width height rx ry
      if transformed then
        match t with
        | .absent => .error .attributeError
        | .matrix m => if m.isIdentity then .ok segments else .ok (segments.map fun s => s.mul m)
      else .ok segments

/-- nodes.py:653-668 `shape.bbox(transformed)` from the segments of the shape; `isinstance(path.Close, path.Move)` is False, so no segment
is left out. `box` is the box of a segment. -/
def bbox (box : Seg K → Except PyErr (Seg.BBox K)) (segments : List (Seg K)) : Except PyErr (Option (Seg.BBox K)) :=
  match Path.boxes box segments with
  | .error e => .error e
  | .ok [] => .ok none
  | .ok (b :: r) => .ok (some ⟨Seg.minOf b.xmin (r.map (·.xmin)), Seg.minOf b.ymin (r.map (·.ymin)),
      Seg.maxOf b.xmax (r.map (·.xmax)), Seg.maxOf b.ymax (r.map (·.ymax))⟩)

/-- nodes.py:1753-1778 `image.bbox(transformed)`; `size` is None unless both `image_width` and `image_height` are set -/
def imageBBox (size : Option (K × K)) (t : Trafo K) (transformed : Bool) : Except PyErr (Seg.BBox K) :=
  match size with
  | none => (t.apply ⟨0, 0⟩).map fun p => ⟨p.x, p.y, p.x, p.y⟩
  | some (width, height) =>
    let corners : Except PyErr (List (Pt K)) :=
      if transformed then
        [⟨0, 0⟩, ⟨width, 0⟩, ⟨width, height⟩, ⟨0, height⟩].mapM t.apply
      else .ok [⟨0, 0⟩, ⟨width, 0⟩, ⟨width, height⟩, ⟨0, height⟩]
    match corners with
    | .error e => .error e
    | .ok l => Seg.bboxPoints l

end Svgio.Shape
