import Verif.Model.Viewbox
import Verif.Model.Py

/-!
The transform of a viewBox computed with floats: svgio/basic.py:2586-2688. The model of the same code in `Model/Viewbox.lean` computes exactly.
Overflow, infinities and NaN are left out.
-/

namespace Svgio.Flt

variable (F : FloatRounding)

/-- basic.py:2626-2666 the numbers of `viewbox_transform` -/
def fit (ex ey ew eh vx vy vw vh : ℚ) (aspect : Option (List Char)) : Except PyErr (Viewbox.Fit ℚ) :=
  let align := (Viewbox.aspectWords aspect).1
  let meetOrSlice := (Viewbox.aspectWords aspect).2
  if vw = 0 then .error .zeroDivisionError
  else if vh = 0 then .error .zeroDivisionError
  else
    let sx := F.fl (ew / vw)
    let sy := F.fl (eh / vh)
    let s : ℚ × ℚ :=
      if align ≠ ['n', 'o', 'n', 'e'] ∧ meetOrSlice = ['m', 'e', 'e', 't'] then (min sx sy, min sx sy)
      else if align ≠ ['n', 'o', 'n', 'e'] ∧ meetOrSlice = ['s', 'l', 'i', 'c', 'e'] then (max sx sy, max sx sy)
      else (sx, sy)
    let sx := s.1
    let sy := s.2
    let tx := F.fl (ex - F.fl (vx * sx))
    let ty := F.fl (ey - F.fl (vy * sy))
    let align := align.flatMap Color.lowerChar
    let tx := if Viewbox.contains ['x', 'm', 'i', 'd'] align then F.fl (tx + F.fl (F.fl (ew - F.fl (vw * sx)) / 2)) else tx
    let tx := if Viewbox.contains ['x', 'm', 'a', 'x'] align then F.fl (tx + F.fl (ew - F.fl (vw * sx))) else tx
    let ty := if Viewbox.contains ['y', 'm', 'i', 'd'] align then F.fl (ty + F.fl (F.fl (eh - F.fl (vh * sy)) / 2)) else ty
    let ty := if Viewbox.contains ['y', 'm', 'a', 'x'] align then F.fl (ty + F.fl (eh - F.fl (vh * sy))) else ty
    .ok ⟨tx, ty, sx, sy⟩

/-- basic.py:2586-2688 `Viewbox.viewbox_transform(..)`, and 2573-2584 `viewbox.transform(element)`; the text as in `Viewbox.text` -/
def viewboxTransform (e vb : Box ℚ) (aspect : Option (List Char)) : Except PyErr (List Char) :=
  match e.x, e.y, e.width, e.height, vb.x, vb.y, vb.width, vb.height with
  | some ex, some ey, some ew, some eh, some vx, some vy, some vw, some vh =>
    (fit F ex ey ew eh vx vy vw vh aspect).map Viewbox.text
  | _, _, _, _, _, _, _, _ => .ok []

end Svgio.Flt
