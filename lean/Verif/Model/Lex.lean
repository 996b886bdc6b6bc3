import Verif.Model.Py

/-!
Hand-written matchers for the number patterns of `svgio/constants.py`, and the
value of a number literal.
-/

namespace Svgio

/-- `[0-9]`, constants.py:120 -/
def isDig (c : Char) : Bool := decide ('0' ≤ c) && decide (c ≤ '9')

/-- `[-+]?` at the front of a list: (matched, rest).  constants.py:120 -/
def takeSign : List Char → List Char × List Char
  | '-' :: r => (['-'], r)
  | '+' :: r => (['+'], r)
  | r => ([], r)

/-- `(?:[eE][-+]?[0-9]+)?` : (matched, rest).  constants.py:120 -/
def takeExp : List Char → List Char × List Char
  | [] => ([], [])
  | c :: r =>
    if c = 'e' ∨ c = 'E' then
      let sg := takeSign r
      let ds := sg.2.takeWhile isDig
      if ds = [] then ([], c :: r)
      else (c :: (sg.1 ++ ds), sg.2.dropWhile isDig)
    else ([], c :: r)

/-- `[0-9]*\.?[0-9]+` with the regular expression engine's backtracking resolved:
all leading digits, then `.` and digits if at least one digit follows the dot,
otherwise just the leading digits, of which there must be one.
constants.py:120 -/
def takeMant (s : List Char) : Option (List Char × List Char) :=
  let ds := s.takeWhile isDig
  match s.dropWhile isDig with
  | '.' :: r =>
    let fs := r.takeWhile isDig
    if fs = [] then
      if ds = [] then none else some (ds, '.' :: r)
    else some (ds ++ '.' :: fs, r.dropWhile isDig)
  | r => if ds = [] then none else some (ds, r)

/-- `PATTERN_FLOAT` = `[-+]?[0-9]*\.?[0-9]+(?:[eE][-+]?[0-9]+)?` matched at the
front of the input: (matched text, rest).  constants.py:120 -/
def matchFloat (s : List Char) : Option (List Char × List Char) :=
  let sg := takeSign s
  match takeMant sg.2 with
  | none => none
  | some (m, r) =>
    let e := takeExp r
    some (sg.1 ++ m ++ e.1, e.2)

/-- Value of a digit character, for `float(..)` in basic.py:56 and path.py:58-72. -/
def digVal (c : Char) : ℕ := c.toNat - '0'.toNat

/-- For `float(..)` in basic.py:56 and path.py:58-72: value of a digit string, most significant first. -/
def natVal (ds : List Char) : ℕ := ds.foldl (fun n c => 10 * n + digVal c) 0

/-- For `float(..)` in basic.py:56 and path.py:58-72: value of `sign digits`. -/
def intVal (s : List Char) : ℤ :=
  let sg := takeSign s
  if sg.1 = ['-'] then - (natVal sg.2 : ℤ) else natVal sg.2

/-- For `float(..)` in basic.py:56 and path.py:58-72: value of `digits . digits`, of `digits` and of `. digits`. -/
def mantVal (s : List Char) : ℚ :=
  let ip := s.takeWhile isDig
  let fp := (s.dropWhile isDig).drop 1
  (natVal ip : ℚ) + (natVal fp : ℚ) / 10 ^ fp.length

/-- The exact decimal value of a text matched by `matchFloat`; models Python's
`float(text)` in basic.py:56 and path.py:58-72. Simplification: the rounding of `float` to 53 bits (and overflow to
infinity) is not modelled. -/
def floatVal (s : List Char) : ℚ :=
  let sg := takeSign s
  let m := sg.2.takeWhile (fun c => c ≠ 'e' ∧ c ≠ 'E')
  let e := (sg.2.dropWhile (fun c => c ≠ 'e' ∧ c ≠ 'E')).drop 1
  let v := mantVal m * (10 : ℚ) ^ (intVal e)
  if sg.1 = ['-'] then -v else v

end Svgio
