import Verif.Model.FloatGeom
import Verif.Model.PathEdit

/-!
`Path.point(position)` computed with floats: svgio/path.py:2138-2156, 2201-2238. The model of the same code in `Model/PathCache.lean`
computes exactly. The cached lengths are those of the path as it is. Overflow, infinities and NaN are left out.
-/

namespace Svgio.Flt

/-- what is assumed of `sum` for a list of floats that are not negative, path.py:2152: up to one unit in the last place for each of the
numbers. One rounded addition after the other is at least as good (`flSum_exists`); since Python 3.12 `sum` is better than that. -/
structure FloatSum where
  sum : List ℚ → ℚ
  err : ∀ l : List ℚ, l.length ≤ 2 ^ 40 → (∀ x ∈ l, 0 ≤ x ∧ roundDouble x = x) → |sum l - l.sum| ≤ l.length * l.sum / 2 ^ 52

variable (F : FloatRounding)

/-- path.py:2151-2156 the list `_lengths`, from the lengths of the segments -/
def fractions (S : FloatSum) (ls : List ℚ) : List ℚ :=
  if S.sum ls = 0 then ls else ls.map (fun x => F.fl (x / S.sum ls))

/-- path.py:2228-2238 the loop of `point`: the index of the segment and the parameter at which it is evaluated. After the loop without
`break`, the last segment is used at 0. -/
def locateGo (t : ℚ) (index : ℕ) (start : ℚ) : List ℚ → Except PyErr (ℕ × ℚ)
  | [] => .ok (index - 1, 0)
  | f :: r =>
    let stop := F.fl (start + f)
    if t ≤ stop then
      if F.fl (stop - start) = 0 then .error .zeroDivisionError
      else .ok (index, F.fl (F.fl (t - start) / F.fl (stop - start)))
    else locateGo t (index + 1) stop r

/-- path.py:2201-2238 `point(position)` up to the evaluation of the segment, for segments of these lengths; none for an empty path.
`rnd` is Python's `int(round(x))`. -/
def locate (S : FloatSum) (rnd : ℚ → ℤ) (ls : List ℚ) (t : ℚ) : Except PyErr (Option (ℕ × ℚ)) :=
  if ls.length = 0 then .ok none
  else if t ≤ 0 then .ok (some (0, t))
  else if 1 ≤ t then .ok (some (ls.length - 1, t))
  else if S.sum ls = 0 then
    match Path.pyIdx ls.length (rnd (F.fl (t * ((ls.length : ℚ) - 1)))) with
    | none => .error .indexError
    | some i => .ok (some (i, 0))
  else
    match locateGo F t 0 0 (fractions F S ls) with
    | .error e => .error e
    | .ok iu => .ok (some iu)

/-- path.py:2201-2238 `point(position)`; `len` is the length of a segment as the library gives it (path.py:2151) -/
def pathPoint (P : FloatPow) (S : FloatSum) (numpy : Bool) (rnd : ℚ → ℤ) (len : Seg ℚ → ℚ) (p : List (Seg ℚ)) (t : ℚ) :
    Except PyErr (Option (Pt ℚ)) :=
  match locate F S rnd (p.map len) t with
  | .error e => .error e
  | .ok none => .ok none
  | .ok (some (i, u)) =>
    match p[i]? with
    | none => .error .indexError
    | some s =>
      match point F P numpy s u with
      | .error e => .error e
      | .ok q => .ok (some q)

end Svgio.Flt
