import Verif.Model.PathHeap

/-!
What programs with several paths are to do: every path is a list of segments of its own.
-/

namespace Svgio.Spec

open Svgio.Path

variable {K : Type} [Field K] [LinearOrder K]

/-- The segments of path `i`, given those of all paths -/
def pathOf (ps : List (List (Seg K))) (i : ℕ) : List (Seg K) := ps.getD i []

/-- One command on separate lists of segments: the new segments of the path that is edited or made -/
def actAlone (ps : List (List (Seg K))) : Cmd K → Except PyErr (List (Seg K))
  | .create segs => .ok (validateConnections segs)
  | .append i make => .ok (Path.append (pathOf ps i) (make (pathOf ps i)))
  | .insert i index s => Path.insert (pathOf ps i) index s
  | .set i index s => Path.setItem (pathOf ps i) index s
  | .del i index => Path.delItem (pathOf ps i) index
  | .setSlice i a b segs => .ok (Path.setSlice (pathOf ps i) a b segs)
  | .iadd i j => .ok (Path.iadd (pathOf ps i) (pathOf ps j))
  | .iaddSub i j w => .ok (Path.iadd (pathOf ps i) (subIter (pathOf ps j) w))
  | .subImul i w m => .ok (Path.subImul m (pathOf ps i) w)
  | .subReverse i w => .ok (Path.subReverse (pathOf ps i) w)
  | .reverse i => .ok (Path.reverse (pathOf ps i))
  | .appendOf i j k =>
    match (pathOf ps j)[k]? with
    | none => .error .indexError
    | some s => .ok (Path.append (pathOf ps i) s)
  | .createSub j w => .ok (subIter (pathOf ps j) w)
  | .createSlice j a b => .ok (validateConnections (getSlice (pathOf ps j) a b))
  | .raddSeg s j w => Path.insert (subIter (pathOf ps j) w) 0 s

/-- One command on separate lists: every path but the one that is edited stays as it is. -/
def stepAlone (ps : List (List (Seg K))) (c : Cmd K) : Except PyErr (List (List (Seg K))) :=
  match actAlone ps c with
  | .error e => .error e
  | .ok p => .ok (match c.target with
    | none => ps ++ [p]
    | some i => ps.set i p)

/-- A history of commands on separate lists -/
def runAlone (ps : List (List (Seg K))) : List (Cmd K) → Except PyErr (List (List (Seg K)))
  | [] => .ok ps
  | c :: l =>
    match stepAlone ps c with
    | .error e => .error e
    | .ok ps' => runAlone ps' l

/-- The paths whose segment objects a command may change, or hand to another path -/
def uses : Cmd K → List ℕ
  | .create _ => []
  | .append i _ | .insert i _ _ | .set i _ _ | .del i _ | .setSlice i _ _ _ | .iadd i _ | .iaddSub i _ _ | .subImul i _ _
  | .subReverse i _ | .reverse i => [i]
  | .appendOf i j _ => [i, j]
  | .createSub j _ | .createSlice j _ _ | .raddSeg _ j _ => [j]

end Svgio.Spec
