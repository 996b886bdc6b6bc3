import Verif.Model.Arc
import Verif.Model.Point

/-!
The constructor `Arc(...)` with keyword arguments: svgio/path.py:1133-1378, over ℝ with the exact functions.
-/

namespace Svgio.Arc

/-- The keyword arguments of `Arc(...)` read in path.py:1176-1370; `none`: not given. Simplifications: numbers are floats and points are
`Point`s; the positional arguments (1202-1219) are in `Model/ArcPos.lean`;
not modelled are `relative` and `smooth` and the names `radius`, `arc_flag` and `sweep_flag` of the complex form. -/
structure CtorArgs where
  start : Option (Pt ℝ) := none
  stop : Option (Pt ℝ) := none
  center : Option (Pt ℝ) := none
  prx : Option (Pt ℝ) := none
  pry : Option (Pt ℝ) := none
  sweep : Option ℝ := none
  bulge : Option ℝ := none
  sagitta : Option ℝ := none
  control : Option (Pt ℝ) := none
  r : Option ℝ := none
  rx : Option ℝ := none
  ry : Option ℝ := none
  rotation : Option ℝ := none
  ccw : Option Bool := none
  scooped : Option Bool := none
  left : Option ℝ := none
  right : Option ℝ := none
  top : Option ℝ := none
  bottom : Option ℝ := none

/-- path.py:1176 `len(kwargs)` -/
def CtorArgs.count (k : CtorArgs) : ℕ :=
  [k.start.isSome, k.stop.isSome, k.center.isSome, k.prx.isSome, k.pry.isSome, k.sweep.isSome, k.bulge.isSome, k.sagitta.isSome,
    k.control.isSome, k.r.isSome, k.rx.isSome, k.ry.isSome, k.rotation.isSome, k.ccw.isSome, k.scooped.isSome, k.left.isSome,
    k.right.isSome, k.top.isSome, k.bottom.isSome].count true

/-- The attributes of the arc, set in path.py:1168-1172 and later; `none` is None. -/
structure RawArc where
  start : Option (Pt ℝ)
  stop : Option (Pt ℝ)
  center : Pt ℝ
  prx : Option (Pt ℝ)
  pry : Option (Pt ℝ)
  sweep : Option ℝ

/-- basic.py:1825-1829 `Point.towards(p1, p2, amount)` -/
def towards (p1 p2 : Pt ℝ) (amount : ℝ) : Pt ℝ := ⟨amount * (p2.x - p1.x) + p1.x, amount * (p2.y - p1.y) + p1.y⟩

/-- basic.py:1815-1819 `Point.polar(p1, angle, r)` -/
noncomputable def polar (p1 : Pt ℝ) (angle r : ℝ) : Pt ℝ := ⟨p1.x + Real.cos angle * r, p1.y + Real.sin angle * r⟩

/-- path.py:1186-1200 centre, `prx` and `pry` from a box -/
noncomputable def boxParams (k : CtorArgs) : Option (Pt ℝ × Pt ℝ × Pt ℝ) :=
  match k.left, k.right, k.top, k.bottom with
  | some left, some right, some top, some bottom =>
    let c : Pt ℝ := ⟨(left + right) / 2, (top + bottom) / 2⟩
    let rx := (right - left) / 2
    let ry := (bottom - top) / 2
    some (c, ⟨c.x + rx, c.y⟩, ⟨c.x, c.y + ry⟩)
  | _, _, _, _ => none

/-- path.py:1236-1248 `control` -/
noncomputable def controlOf (k : CtorArgs) (start stop : Pt ℝ) : Option (Pt ℝ) :=
  let sagitta := match k.bulge with
    | some bulge => some (bulge * Pt.distance start stop / 2)
    | none => k.sagitta
  let control := sagitta.map (fun s => polar (towards start stop (1 / 2)) (angle start stop - tau / 4) s)
  match k.control with
  | some c => some c
  | none => control

/-- path.py:1250-1290 the centre for three points. Simplification: for three points on a vertical line the code goes on with a centre
that is not a finite number; `notImplementedError` stands for that. `slope_a == inf` (1255) in 1273 makes the quotient 0. -/
noncomputable def centerOfThree (start control stop : Pt ℝ) : Except PyErr (Pt ℝ) :=
  let da := control.sub start
  let db := stop.sub control
  let slopeA := da.y / da.x
  let slopeB := db.y / db.x
  let abMid := towards start control (1 / 2)
  let bcMid := towards control stop (1 / 2)
  if da.y = 0 then
    let cx := abMid.x
    if db.x = 0 then .ok ⟨cx, bcMid.y⟩
    else if slopeB = 0 then .error .zeroDivisionError
    else .ok ⟨cx, bcMid.y + (bcMid.x - cx) / slopeB⟩
  else if db.y = 0 then
    let cx := bcMid.x
    if da.x = 0 then .ok ⟨cx, abMid.y⟩ else .ok ⟨cx, abMid.y + (abMid.x - cx) / slopeA⟩
  else if da.x = 0 then
    if db.x = 0 then .error .notImplementedError
    else
      let cy := abMid.y
      .ok ⟨slopeB * (bcMid.y - cy) + bcMid.x, cy⟩
  else if db.x = 0 then
    let cy := bcMid.y
    .ok ⟨slopeA * (abMid.y - cy) + abMid.x, cy⟩
  else if slopeA = slopeB then .ok abMid
  else
    let cx := (slopeA * slopeB * (abMid.y - bcMid.y) - slopeA * bcMid.x + slopeB * abMid.x) / (slopeB - slopeA)
    .ok ⟨cx, abMid.y - (cx - abMid.x) / slopeA⟩

/-- path.py:1293-1300 `r` after the correction -/
noncomputable def fixRadius (start stop : Pt ℝ) (r : ℝ) : ℝ :=
  let hq := Pt.distance start stop / 2
  if r < hq then hq else r

/-- path.py:1301-1304 (`side = 1`) and 1308-1313 (`side = -1`) the centre for a radius -/
noncomputable def centerAt (start stop : Pt ℝ) (r side : ℝ) : Pt ℝ :=
  let q := Pt.distance start stop
  let h := Real.sqrt (r ^ 2 - (q / 2) ^ 2)
  ⟨(start.x + stop.x) / 2 + side * (h * (start.y - stop.y) / q), (start.y + stop.y) / 2 + side * (h * (stop.x - start.x) / q)⟩

/-- path.py:1293-1313 centre, direction and `r` for two points and a radius -/
noncomputable def centerOfRadius (ccw : Option Bool) (start stop : Pt ℝ) (r : ℝ) : Except PyErr (Pt ℝ × Bool × ℝ) :=
  let r := fixRadius start stop r
  if Pt.distance start stop = 0 then .error .zeroDivisionError
  else
    let c := centerAt start stop r 1
    let cw := decide (Pt.orientation start c stop = 1)
    if (ccw = some true ∧ cw = true) ∨ cw = false then .ok (centerAt start stop r (-1), cw, r) else .ok (c, cw, r)

/-- path.py:1319-1326 sweep, centre and direction for a quarter of an ellipse with the given ends -/
noncomputable def centerOfQuarter (ccw scooped : Option Bool) (start stop : Pt ℝ) : ℝ × Pt ℝ × Bool :=
  let sweep := tau / 4
  let c : Pt ℝ := ⟨start.x, stop.y⟩
  let cw := decide (Pt.orientation start c stop = 1)
  let sweep := if scooped = some true then -sweep else sweep
  let cw := if scooped = some true then !cw else cw
  if (ccw = some true ∧ cw = true) ∨ cw = false then (sweep, ⟨stop.x, start.y⟩, cw) else (sweep, c, cw)

/-- path.py:1232-1326 centre, direction, sweep and `r` when there is no centre -/
noncomputable def solveCenter (k : CtorArgs) (start stop : Pt ℝ) : Except PyErr (Pt ℝ × Bool × Option ℝ × Option ℝ) :=
  match controlOf k start stop with
  | some control => do
    let c ← centerOfThree start control stop
    .ok (c, decide (Pt.orientation start control stop = 2), k.sweep, k.r)
  | none =>
    match k.r with
    | some r => do
      let (c, cw, r) ← centerOfRadius k.ccw start stop r
      .ok (c, cw, k.sweep, some r)
    | none =>
      if k.rx.isSome ∧ k.ry.isSome then
        let (sweep, c, cw) := centerOfQuarter k.ccw k.scooped start stop
        .ok (c, cw, some sweep, k.r)
      else .error .valueError

/-- path.py:1232-1329 the centre, direction, sweep and `r` that the rest goes on with -/
noncomputable def centerFor (k : CtorArgs) (center : Option (Pt ℝ)) : Except PyErr (Pt ℝ × Bool × Option ℝ × Option ℝ) :=
  match center with
  | some c => .ok (c, true, k.sweep, k.r)
  | none =>
    match k.start, k.stop with
    | some start, some stop => solveCenter k start stop
    | _, _ => .error .valueError

/-- path.py:1330-1343 `prx` -/
noncomputable def prxOf (k : CtorArgs) (c : Pt ℝ) (r : Option ℝ) (prx : Option (Pt ℝ)) : Option (Pt ℝ) :=
  match prx, r, k.rx, k.rotation with
  | some p, _, _, _ => some p
  | none, some r, _, _ => some ⟨c.x + r, c.y⟩
  | none, none, some rx, some theta => some (polar c theta rx)
  | none, none, some rx, none => some ⟨c.x + rx, c.y⟩
  | none, none, none, _ => none

/-- path.py:1330-1335, 1344-1352 `pry` -/
noncomputable def pryOf (k : CtorArgs) (c : Pt ℝ) (r : Option ℝ) (pry : Option (Pt ℝ)) : Option (Pt ℝ) :=
  match pry, r, k.ry, k.rotation with
  | some p, _, _, _ => some p
  | none, some r, _, _ => some ⟨c.x, c.y + r⟩
  | none, none, some ry, some theta => some (polar c (theta + tau / 4) ry)
  | none, none, some ry, none => some ⟨c.x, c.y + ry⟩
  | none, none, none, _ => none

/-- path.py:1353-1360 `prx` and `pry` on the circle through the start or the end, if one of them is missing -/
noncomputable def circleParams (start stop : Option (Pt ℝ)) (c : Pt ℝ) (prx pry : Option (Pt ℝ)) : Option (Pt ℝ) × Option (Pt ℝ) :=
  match prx, pry, start, stop with
  | some p, some q, _, _ => (some p, some q)
  | _, _, some s, _ => (some ⟨c.x + Pt.distance c s, c.y⟩, some ⟨c.x, c.y + Pt.distance c s⟩)
  | _, _, none, some e => (some ⟨c.x + Pt.distance c e, c.y⟩, some ⟨c.x, c.y + Pt.distance c e⟩)
  | p, q, none, none => (p, q)

/-- path.py:1362-1370 the sweep between two points -/
noncomputable def sweepBetween (ccw : Option Bool) (cw : Bool) (start stop : Pt ℝ) (a : ArcData ℝ) : ℝ :=
  let sweep := endT a stop - endT a start
  let cw := match ccw with
    | some b => !b
    | none => cw
  let sweep := if cw = true ∧ sweep < 0 then sweep + tau else sweep
  if cw = false ∧ sweep > 0 then sweep - tau else sweep

/-- path.py:1361-1378 the missing one of sweep and ends. With two ends missing nothing is done; with one end present `prx` and `pry` are
not None here. -/
noncomputable def finish (ccw : Option Bool) (cw : Bool) (x : RawArc) : RawArc :=
  match x.prx, x.pry with
  | some prx, some pry =>
    let a : ArcData ℝ := { center := x.center, prx := prx, pry := pry, sweep := 0 }
    match x.start, x.stop, x.sweep with
    | some s, some e, none => { x with sweep := some (sweepBetween ccw cw s e a) }
    | some s, none, some w => { x with stop := some (pointAtT a (endT a s + w)) }
    | none, some e, some w => { x with stop := some (pointAtT a (endT a e - w)) }
    | _, _, _ => x
  | _, _ => x

/-- path.py:1133-1378 `Arc(**kwargs)` -/
noncomputable def ctor (k : CtorArgs) : Except PyErr RawArc :=
  if k.count = 6 ∧ k.rotation.isSome then .error .typeError
  else do
    let box := boxParams k
    let center := k.center.or (box.map (·.1))
    let prx := k.prx.or (box.map (·.2.1))
    let pry := k.pry.or (box.map (·.2.2))
    let (c, cw, sweep, r) ← centerFor k center
    let (prx, pry) := circleParams k.start k.stop c (prxOf k c r prx) (pryOf k c r pry)
    .ok (finish k.ccw cw { start := k.start, stop := k.stop, center := c, prx := prx, pry := pry, sweep := sweep })

/-- The arc with these attributes, path.py:1168-1172; `none`: some attribute is None. -/
def RawArc.data (x : RawArc) : Option (Pt ℝ × Pt ℝ × ArcData ℝ) :=
  match x.start, x.stop, x.prx, x.pry, x.sweep with
  | some s, some e, some prx, some pry, some w => some (s, e, { center := x.center, prx := prx, pry := pry, sweep := w })
  | _, _, _, _, _ => none

end Svgio.Arc
