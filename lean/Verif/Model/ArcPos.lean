import Verif.Model.ArcCtor

/-!
The constructor `Arc(...)` with positional arguments: svgio/path.py:1168-1219, over ℝ with the exact functions.
-/

namespace Svgio.Arc

/-- A positional argument of `Arc(...)`, path.py:1133: None, a `Point`, a complex number or a float. Flags are floats here. -/
inductive PosArg
  | none
  | point (p : Pt ℝ)
  | complex (re im : ℝ)
  | number (x : ℝ)

/-- basic.py:1449-1476 `Point(arg)`, for an argument that is not None: a number has `real` and `imag` too -/
def PosArg.pt? : PosArg → Option (Pt ℝ)
  | .none => Option.none
  | .point p => some p
  | .complex re im => some ⟨re, im⟩
  | .number x => some ⟨x, 0⟩

/-- an argument used as a number, path.py:1598-1621; `none`: TypeError. Simplification: a radius that is a point or a complex number is
never taken to be 0. -/
def PosArg.num? : PosArg → Option ℝ
  | .number x => some x
  | _ => Option.none

/-- path.py:1592-1593 `bool(flag)`; a point has a length of 2 (basic.py:1498-1499) -/
noncomputable def PosArg.truth : PosArg → Bool
  | .none => false
  | .point _ => true
  | .complex re im => decide (re ≠ 0 ∨ im ≠ 0)
  | .number x => decide (x ≠ 0)

/-- path.py:1176 `isinstance(args[1], complex)` -/
def PosArg.isComplex : PosArg → Bool
  | .complex _ _ => true
  | _ => false

/-- The attributes of the arc, path.py:1168-1172; `none` is None. -/
@[ext] structure ArcAttrs where
  start : Option (Pt ℝ)
  stop : Option (Pt ℝ)
  center : Option (Pt ℝ)
  prx : Option (Pt ℝ)
  pry : Option (Pt ℝ)
  sweep : Option ℝ

/-- the attributes set in path.py:1173-1378 when there is a centre -/
def RawArc.attrs (x : RawArc) : ArcAttrs := ⟨x.start, x.stop, some x.center, x.prx, x.pry, x.sweep⟩

/-- path.py:1586-1679 with the arguments of the constructor. Simplification: for a start or end that is None the code compares points
without coordinates; this is a TypeError here. -/
noncomputable def svgPos (start rx ry rotation large sweep stop : PosArg) : Except PyErr ArcAttrs :=
  match start.pt?, stop.pt? with
  | some p, some q => do
    let a ← svgCtor p rx.num? ry.num? rotation.num? (some large.truth) (some sweep.truth) q
    .ok ⟨some p, some q, some a.center, some a.prx, some a.pry, some a.sweep⟩
  | _, _ => .error .typeError

/-- path.py:1202-1219 the argument at an index, None if there are fewer -/
def posAt (args : List PosArg) (i : ℕ) : PosArg := args.getD i .none

/-- path.py:1173-1378 `Arc(*args, **kwargs)` -/
noncomputable def ctorPos (args : List PosArg) (k : CtorArgs) : Except PyErr ArcAttrs :=
  if args.length = 6 ∧ (posAt args 1).isComplex = true then
    -- 1177, 1572-1584
    match posAt args 1 with
    | .complex re im => svgPos (posAt args 0) (.number re) (.number im) (posAt args 2) (posAt args 3) (posAt args 4) (posAt args 5)
    | _ => .error .typeError
  else if k.count = 6 ∧ k.rotation.isSome then .error .typeError
  else if args.length = 7 then
    svgPos (posAt args 0) (posAt args 1) (posAt args 2) (posAt args 3) (posAt args 4) (posAt args 5) (posAt args 6)
  else
    let box := boxParams k
    let start := (posAt args 0).pt?.or k.start
    let stop := (posAt args 1).pt?.or k.stop
    let center := (posAt args 2).pt?.or (box.map (·.1))
    let prx := (posAt args 3).pt?.or (box.map (·.2.1))
    let pry := (posAt args 4).pt?.or (box.map (·.2.2))
    if 5 < args.length then .ok ⟨start, stop, center, prx, pry, (posAt args 5).num?⟩
    else do
      let k := { k with start := k.start.or start, stop := k.stop.or stop }
      let center := k.center.or center
      let prx := k.prx.or prx
      let pry := k.pry.or pry
      let (c, cw, sweep, r) ← centerFor k center
      let (prx, pry) := circleParams k.start k.stop c (prxOf k c r prx) (pryOf k c r pry)
      .ok (finish k.ccw cw { start := k.start, stop := k.stop, center := c, prx := prx, pry := pry, sweep := sweep }).attrs

end Svgio.Arc
