import Verif.Model.Path
import Verif.Model.Lex

/-!
Path data parsing: `PathLexicalParser` (svgio/path.py:22-326).

`self.pathd[self.pos:]` is the remaining text `rest`, so that `self.pos < self.limit` is
`rest ≠ []`; `self.inline_close` is `inl`. A method that raises leaves the state as it was
at that moment, and so does the model: the outcome is a state and possibly an error.

`rd` is Python's `float(text)` on texts matched by FLOAT, `mk` the arc constructor.
-/

namespace Svgio.Lexer

/-- constants.py:119 `PATTERN_COMMAWSP = [ ,\t\n\x09\x0A\x0C\x0D]+`, one character -/
def isSep (c : Char) : Bool :=
  c = ' ' || c = ',' || c = '\t' || c = '\n' || c = '\x0c' || c = '\r'

/-- constants.py:184 `[MmZzLlHhVvCcSsQqTtAa]` -/
def isCmd (c : Char) : Bool := "MmZzLlHhVvCcSsQqTtAa".toList.contains c

/-- constants.py:186 `[Zz]` -/
def isZ (c : Char) : Bool := c = 'z' || c = 'Z'

/-- The SKIP alternative, repeated: path.py:31-39, 43-56, 59-72, 75-83 all skip separators first. -/
def skip (s : List Char) : List Char := s.dropWhile isSep

/-- path.py:22-28, the lexer's own state: remaining text and `inline_close` -/
structure Lx where
  rest : List Char
  inl : Option Char
  deriving DecidableEq, Repr

/-- path.py:30-40 `_command` -/
def command (l : Lx) : Option Char × Lx :=
  match skip l.rest with
  | [] => (none, { l with rest := [] })
  | c :: r => if isCmd c then (some c, { l with rest := r }) else (none, { l with rest := c :: r })

/-- path.py:42-56 `_more` (None is falsy) -/
def more (l : Lx) : Bool × Lx :=
  let s := skip l.rest
  match matchFloat s with
  | some _ => (true, { l with rest := s })
  | none =>
    match s with
    | [] => (false, { l with rest := [] })
    | c :: r => if isZ c then (false, { rest := c :: r, inl := some c }) else (false, { l with rest := c :: r })

section
variable {K : Type} [Field K] [LinearOrder K]

/-- path.py:58-72 `_number` -/
def number (rd : List Char → K) (l : Lx) : Option K × Lx :=
  let s := skip l.rest
  match matchFloat s with
  | some (t, r) => (some (rd t), { l with rest := r })
  | none =>
    match s with
    | [] => (none, { l with rest := [] })
    | c :: r => if isZ c then (none, { rest := c :: r, inl := some c }) else (none, { l with rest := c :: r })

/-- path.py:74-84 `_flag` -/
def flag (l : Lx) : Option Bool × Lx :=
  match skip l.rest with
  | [] => (none, { l with rest := [] })
  | c :: r =>
    if c = '0' then (some false, { l with rest := r })
    else if c = '1' then (some true, { l with rest := r })
    else (none, { l with rest := c :: r })

/-- path.py:86-93 `_coord`: the inner option is None, the error is the ValueError for a lone x -/
def coord (rd : List Char → K) (l : Lx) : Except PyErr (Option (Pt K)) × Lx :=
  match number rd l with
  | (none, l1) => (.ok none, l1)
  | (some x, l1) =>
    match number rd l1 with
    | (none, l2) => (.error .valueError, l2)
    | (some y, l2) => (.ok (some ⟨x, y⟩), l2)

/-- path.py:95-102 `_rcoord`, with the path's current point `cur` -/
def rcoord (rd : List Char → K) (cur : Option (Pt K)) (l : Lx) : Except PyErr (Option (Pt K)) × Lx :=
  match coord rd l with
  | (.error e, l1) => (.error e, l1)
  | (.ok none, l1) => (.ok none, l1)
  | (.ok (some q), l1) =>
    match cur with
    | none => (.ok (some q), l1)
    | some c => (.ok (some ⟨q.x + c.x, q.y + c.y⟩), l1)

/-! ### commands

Each loop body of `parse` (path.py:120-325) first reads all its arguments, then checks for missing
ones, then calls one builder. The arguments read are described by a list of `ArgKind`, so that the
reading is written once. -/

inductive ArgKind
  | num | flag | coord | rcoord
  deriving DecidableEq, Repr

/-- the results of path.py:58-102, an argument as read: None is `none` -/
inductive Arg (K : Type)
  | num (x : Option K)
  | flag (b : Option Bool)
  | coord (p : Option (Pt K))
  deriving Repr

/-- path.py:58-102, one argument -/
def readArg (rd : List Char → K) (cur : Option (Pt K)) (k : ArgKind) (l : Lx) :
    Except PyErr (Arg K) × Lx :=
  match k with
  | .num => let r := number rd l; (.ok (.num r.1), r.2)
  | .flag => let r := flag l; (.ok (.flag r.1), r.2)
  | .coord => let r := coord rd l; (r.1.map .coord, r.2)
  | .rcoord => let r := rcoord rd cur l; (r.1.map .coord, r.2)

/-- path.py:120-325, the arguments in order; an error stops the reading -/
def readArgs (rd : List Char → K) (cur : Option (Pt K)) : List ArgKind → Lx → Except PyErr (List (Arg K)) × Lx
  | [], l => (.ok [], l)
  | k :: ks, l =>
    match readArg rd cur k l with
    | (.error e, l1) => (.error e, l1)
    | (.ok a, l1) =>
      match readArgs rd cur ks l1 with
      | (.error e, l2) => (.error e, l2)
      | (.ok as, l2) => (.ok (a :: as), l2)

/-- what the loop body of a command reads: path.py:120-320 -/
def argSpec (c : Char) : List ArgKind :=
  if c = 'm' then [.rcoord]          -- 123
  else if c = 'M' then [.coord]      -- 131
  else if c = 'l' then [.rcoord]     -- 126, 138
  else if c = 'L' then [.coord]      -- 134, 148
  else if c = 't' then [.rcoord]     -- 158
  else if c = 'T' then [.coord]      -- 168
  else if c = 'h' then [.num]        -- 178
  else if c = 'H' then [.num]        -- 184
  else if c = 'v' then [.num]        -- 190
  else if c = 'V' then [.num]        -- 196
  else if c = 'c' then [.rcoord, .rcoord, .rcoord] -- 200-204
  else if c = 'C' then [.coord, .coord, .coord]    -- 222
  else if c = 'q' then [.rcoord, .rcoord]          -- 240
  else if c = 'Q' then [.coord, .coord]            -- 254
  else if c = 's' then [.rcoord, .rcoord]          -- 268
  else if c = 'S' then [.coord, .coord]            -- 282
  else if c = 'a' then [.num, .num, .num, .flag, .flag, .rcoord] -- 296-303
  else if c = 'A' then [.num, .num, .num, .flag, .flag, .coord]  -- 313-320
  else []

/-- `if coord is None: coord = self.inline_close; if coord is None: raise ValueError`, path.py:120-325 -/
def orClose (inl : Option Char) (p : Option (Pt K)) : Except PyErr (Path.Target K) :=
  match p with
  | some q => .ok (.pt q)
  | none => match inl with
    | some _ => .ok .z
    | none => .error .valueError

/-- path.py:120-325, the checks and the builder call of one loop body. `move` is only the first group of m and M.
A None coordinate of m or M cannot occur, `_more` was true; it would be `Point`-less, TypeError. -/
def finish (mk : Path.ArcCtor K) (c : Char) (inl : Option Char) (p : List (Seg K)) (as : List (Arg K)) :
    Except PyErr (List (Seg K)) :=
  match as with
  | [.coord q] =>
    if c = 'm' ∨ c = 'M' then
      match q with                                   -- 124, 132
      | some q => .ok (Path.move p (.pt q) (c = 'm'))
      | none => .error .typeError
    else do
      let t ← orClose inl q                          -- 139-142, 149-152, 159-162, 169-172 (at 127, 135 the coordinate is present)
      if c = 'l' ∨ c = 'L' then .ok (Path.line p t (c = 'l'))       -- 127, 135, 143, 153
      else Path.smoothQuad p t (c = 't')             -- 163, 173
  | [.num x] =>
    if c = 'h' ∨ c = 'H' then Path.horizontal p x (c = 'h')   -- 179, 185
    else Path.vertical p x (c = 'v')                 -- 191, 197
  | [.coord q1, .coord q2] => do
    let t1 ← orClose inl q1                          -- 241-244, 255-258, 269-272, 283-286
    let t2 ← orClose inl q2                          -- 245-248, 259-262, 273-276, 287-290
    if c = 'q' ∨ c = 'Q' then .ok (Path.quad p t1 t2 (c = 'q'))     -- 249, 263
    else Path.smoothCubic p t1 t2 (c = 's')          -- 277, 291
  | [.coord q1, .coord q2, .coord q3] => do
    let t1 ← orClose inl q1                          -- 205-208, 223-226
    let t2 ← orClose inl q2                          -- 209-212, 227-230
    let t3 ← orClose inl q3                          -- 213-216, 231-234
    Path.cubic p t1 t2 t3 (c = 'c')                  -- 217, 235
  | [.num rx, .num ry, .num rot, .flag large, .flag sweep, .coord q] =>
    if c = 'a' ∧ sweep = none then .error .valueError    -- 304-305 (not tested for A)
    else do
      let t ← orClose inl q                          -- 306-309, 321-324
      Path.arc mk p rx ry rot large sweep t (c = 'a')    -- 310, 325
  | _ => .error .typeError

/-! ### the parser -/

/-- path and lexer state, path.py:22-28, 104-109 -/
structure St (K : Type) where
  path : List (Seg K)
  lx : Lx

/-- outcome of path.py:104-325: final state, and the exception raised if any -/
abbrev Res (K : Type) := St K × Option PyErr

/-- sequencing (Python's own, no line in the code): nothing runs after an exception -/
def Res.andThen (r : Res K) (f : St K → Res K) : Res K :=
  match r.2 with
  | some _ => r
  | none => f r.1

/-- path.py:120-325, one loop body: read the arguments, then check and build -/
def body (rd : List Char → K) (mk : Path.ArcCtor K) (c : Char) (st : St K) : Res K :=
  match readArgs rd (Path.currentPoint st.path) (argSpec c) st.lx with
  | (.error e, l) => ({ st with lx := l }, some e)
  | (.ok as, l) =>
    match finish mk c l.inl st.path as with
    | .error e => ({ st with lx := l }, some e)
    | .ok p => ({ path := p, lx := l }, none)

/-- `while self._more(): body`, path.py:120-325, with fuel -/
def whileMore (rd : List Char → K) (mk : Path.ArcCtor K) (c : Char) : ℕ → St K → Res K
  | 0, st => (st, some .outOfFuel)
  | n + 1, st =>
    let m := more st.lx
    let st1 : St K := { st with lx := m.2 }
    if m.1 then Res.andThen (body rd mk c st1) (whileMore rd mk c n)
    else (st1, none)

/-- fuel (no counterpart in the code) for a loop started in state `st` -/
def fuelOf (st : St K) : ℕ := st.lx.rest.length + 1

/-- path.py:114-325: what happens for the command letter `c` already consumed. A
`while True: body; if not self._more(): break` loop is one body followed by `while self._more(): body`. -/
def exec (rd : List Char → K) (mk : Path.ArcCtor K) (c : Char) (st : St K) : Res K :=
  if isZ c then                                       -- 114-119
    let m := more st.lx
    if m.1 then ({ st with lx := m.2 }, some .valueError)
    else ({ path := Path.closed st.path (c = 'z'), lx := { m.2 with inl := none } }, none)
  else if c = 'm' ∨ c = 'M' then                      -- 120-135
    let m := more st.lx
    let st1 : St K := { st with lx := m.2 }
    if m.1 then
      Res.andThen (body rd mk c st1)
        (fun st2 => whileMore rd mk (if c = 'm' then 'l' else 'L') (fuelOf st2) st2)
    else (st1, some .valueError)
  else if c = 'V' ∨ c = 'a' ∨ c = 'A' then            -- 194-197, 294-325
    whileMore rd mk c (fuelOf st) st
  else
    Res.andThen (body rd mk c st) (fun st1 => whileMore rd mk c (fuelOf st1) st1)

/-- path.py:110-325 the loop `while True: cmd = self._command() ...`, with fuel -/
def mainLoop (rd : List Char → K) (mk : Path.ArcCtor K) : ℕ → St K → Res K
  | 0, st => (st, some .outOfFuel)
  | n + 1, st =>
    match command st.lx with
    | (none, l) => ({ st with lx := l }, none)
    | (some c, l) => Res.andThen (exec rd mk c { st with lx := l }) (mainLoop rd mk n)

/-- path.py:104-109, 2306-2309 `Path.parse(text)` on a path `p`: a fresh lexer is run on the text -/
def parse (rd : List Char → K) (mk : Path.ArcCtor K) (p : List (Seg K)) (text : List Char) : Res K :=
  let st : St K := { path := p, lx := { rest := text, inl := none } }
  mainLoop rd mk (fuelOf st) st

/-- an arc constructor for examples (no counterpart in the code) -/
def dummyArc : Path.ArcCtor ℚ := fun a _ _ _ _ _ _ => .ok ⟨a, a, a, 0⟩

end

end Svgio.Lexer
