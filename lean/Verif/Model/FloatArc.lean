import Verif.Model.FloatLength
import Verif.Model.Angle
import Mathlib.Analysis.SpecialFunctions.Complex.Arg

/-!
Points of arcs computed with floats: svgio/path.py:1468-1519, 1777-1786, 1800-1806, 1816-1884. The model of the same code in `Model/Arc.lean`
computes exactly. Overflow, infinities and NaN are left out.
-/

namespace Svgio.Flt

/-- what is assumed of `cos`, `sin`, `tan` and `atan2`, in the module math (basic.py:2-16) and in numpy (path.py:1508-1509): each is off by at
most one unit in the last place of the largest result, `tan` by one unit in the last place of its own result. There is no negative zero. -/
structure FloatTrig where
  cos : ℚ → ℚ
  sin : ℚ → ℚ
  tan : ℚ → ℚ
  atan2 : ℚ → ℚ → ℚ
  cos_err : ∀ x : ℚ, |(cos x : ℝ) - Real.cos x| ≤ 1 / 2 ^ 52
  sin_err : ∀ x : ℚ, |(sin x : ℝ) - Real.sin x| ≤ 1 / 2 ^ 52
  tan_err : ∀ x : ℚ, |(tan x : ℝ) - Real.tan x| ≤ |Real.tan x| / 2 ^ 52
  atan2_err : ∀ y x : ℚ, |(atan2 y x : ℝ) - Complex.arg ⟨x, y⟩| ≤ 1 / 2 ^ 50

/-- path.py:4-9 `tau`, the double nearest to a full turn -/
def tau : ℚ := 884279719003555 / 2 ^ 47

variable (F : FloatRounding)

/-- Python's `a % b` of floats for positive `b`, path.py:1832, 1859, basic.py:1843: the remainder is exact, and for negative `a` the divisor is
added to it -/
def pyMod (a b : ℚ) : ℚ :=
  if 0 ≤ a then Angle.pyMod a b
  else
    let r := Angle.pyMod (-a) b
    if r = 0 then 0 else F.fl (b - r)

/-- basic.py:1821-1823 `Point.angle(p1, p2)`; basic.py:1763-1765 `p1.angle_to(p2)` -/
def angle (T : FloatTrig) (p1 p2 : Pt ℚ) : ℚ := T.atan2 (F.fl (p2.y - p1.y)) (F.fl (p2.x - p1.x))

/-- path.py:1777-1779 `rx` -/
def rx (R : FloatRoot) (a : ArcData ℚ) : ℚ := distance F R a.center a.prx

/-- path.py:1781-1783 `ry` -/
def ry (R : FloatRoot) (a : ArcData ℚ) : ℚ := distance F R a.center a.pry

/-- path.py:1785-1786 `get_rotation()` -/
def rotation (T : FloatTrig) (a : ArcData ℚ) : ℚ := angle F T a.center a.prx

/-- path.py:1863-1884 `point_at_t(t)`; path.py:1499-1511 computes the same with numpy -/
def pointAtT (T : FloatTrig) (R : FloatRoot) (a : ArcData ℚ) (t : ℚ) : Pt ℚ :=
  let rot := rotation F T a
  let cosRot := T.cos rot
  let sinRot := T.sin rot
  let cosT := T.cos t
  let sinT := T.sin t
  ⟨F.fl (F.fl (a.center.x + F.fl (F.fl (rx F R a * cosT) * cosRot)) - F.fl (F.fl (ry F R a * sinT) * sinRot)),
    F.fl (F.fl (a.center.y + F.fl (F.fl (rx F R a * cosT) * sinRot)) + F.fl (F.fl (ry F R a * sinT) * cosRot))⟩

/-- path.py:1829-1833, 1856-1860 -/
def ellipseT (T : FloatTrig) (a b angle : ℚ) : ℚ :=
  let t := T.atan2 (F.fl (a * T.tan angle)) b
  let tau14 := F.fl (tau / 4)
  let tau34 := F.fl (3 * tau14)
  if tau34 ≥ pyMod F |angle| tau ∧ pyMod F |angle| tau > tau14 then F.fl (t + F.fl (tau / 2)) else t

/-- path.py:1816-1834 `point_at_angle(angle)` -/
def pointAtAngle (T : FloatTrig) (R : FloatRoot) (a : ArcData ℚ) (angle : ℚ) : Pt ℚ :=
  let angle := F.fl (angle - rotation F T a)
  if rx F R a = ry F R a then pointAtT F T R a angle else pointAtT F T R a (ellipseT F T (rx F R a) (ry F R a) angle)

/-- path.py:1845-1861 `t_at_point(p)`, with `angle_at_point` path.py:1836-1843 -/
def tAtPoint (T : FloatTrig) (R : FloatRoot) (a : ArcData ℚ) (p : Pt ℚ) : ℚ :=
  ellipseT F T (rx F R a) (ry F R a) (F.fl (angle F T a.center p - rotation F T a))

/-- path.py:1800-1806 `get_start_t()`, with `get_start_angle` path.py:1788-1792 -/
def startT (T : FloatTrig) (R : FloatRoot) (a : ArcData ℚ) (start : Pt ℚ) : ℚ :=
  tAtPoint F T R a (pointAtAngle F T R a (angle F T a.center start))

/-- path.py:1474, 1498 `self.sweep == 0`: the sweep of an arc built from SVG parameters is an `Angle`, and these compare modulo a turn
(basic.py:1841-1844) -/
def sweepIsZero (isAngle : Bool) (w : ℚ) : Bool :=
  if isAngle then decide (|F.fl (pyMod F w tau - 0)| ≤ F.fl (1 / 10 ^ 11)) else decide (w = 0)

/-- path.py:1468-1519 one position of `npoint`, with or without numpy: both compute the same -/
def arcPoint (T : FloatTrig) (R : FloatRoot) (isAngle : Bool) (start stop : Pt ℚ) (a : ArcData ℚ) (position : ℚ) : Pt ℚ :=
  if eq F start stop && sweepIsZero F isAngle a.sweep then start
  else if position = 0 then start
  else if position = 1 then stop
  else pointAtT F T R a (F.fl (startT F T R a start + F.fl (a.sweep * position)))

end Svgio.Flt
