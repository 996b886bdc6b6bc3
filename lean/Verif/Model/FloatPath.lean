import Verif.Model.PathLex

/-!
Path data read with floats: svgio/path.py:95-325, 2413-2433, 2467-2509, 2528-2547. The model of the same code in `Model/PathLex.lean` and
`Model/Path.lean` computes exactly; the functions here differ from it where the code adds or subtracts. Overflow, infinities and NaN are left out.

The comparison of two points in `_validate_connection` (path.py:2283-2304), called by `append`, is that of the exact model: while path data
are read, the point compared with the current point is the current point itself.
-/

namespace Svgio.Flt

open Lexer

variable (F : FloatRounding)

/-- basic.py:1773-1774 `self.reflected_across(p)` = `p + (p - self)` -/
def reflectedAcross (self p : Pt ℚ) : Pt ℚ := ⟨F.fl (p.x + F.fl (p.x - self.x)), F.fl (p.y + F.fl (p.y - self.y))⟩

/-- path.py:2413-2433 `smooth_point` -/
def smoothPoint (p : List (Seg ℚ)) : Except PyErr (Option (Pt ℚ)) :=
  match p.getLast? with
  | none => .ok none
  | some s =>
    match s.kind with
    | .quad c | .cubic _ c =>
      match c, s.stop with
      | none, _ => .error .attributeError
      | some _, none => .error .typeError
      | some c, some q => .ok (some (reflectedAcross F c q))
    | _ => .ok s.stop

/-- path.py:2467-2478 `vertical(y)` -/
def vertical (p : List (Seg ℚ)) (y : Option ℚ) (relative : Bool) : Except PyErr (List (Seg ℚ)) :=
  match Path.currentPoint p with
  | none => .error .attributeError
  | some c =>
    match y with
    | none =>
      if relative then .error .typeError
      else .ok (Path.append p { kind := .line, start := some c, stop := some ⟨c.x, 0⟩, relative })
    | some y =>
      let q : Pt ℚ := if relative then ⟨c.x, F.fl (c.y + y)⟩ else ⟨c.x, y⟩
      .ok (Path.append p { kind := .line, start := some c, stop := some q, relative })

/-- path.py:2480-2492 `horizontal(x)` -/
def horizontal (p : List (Seg ℚ)) (x : Option ℚ) (relative : Bool) : Except PyErr (List (Seg ℚ)) :=
  match Path.currentPoint p with
  | none => .error .attributeError
  | some c =>
    match x with
    | none => if relative then .error .typeError else .error .noneCoord
    | some x =>
      let q : Pt ℚ := if relative then ⟨F.fl (c.x + x), c.y⟩ else ⟨x, c.y⟩
      .ok (Path.append p { kind := .line, start := some c, stop := some q, relative })

/-- path.py:2494-2509 `smooth_quad` -/
def smoothQuad (p : List (Seg ℚ)) (t : Path.Target ℚ) (relative : Bool) : Except PyErr (List (Seg ℚ)) :=
  match smoothPoint F p with
  | .error e => .error e
  | .ok c => .ok (Path.append p { kind := .quad c, start := Path.currentPoint p, stop := t.get p, relative })

/-- path.py:2528-2547 `smooth_cubic` -/
def smoothCubic (p : List (Seg ℚ)) (c2 t : Path.Target ℚ) (relative : Bool) : Except PyErr (List (Seg ℚ)) :=
  match smoothPoint F p with
  | .error e => .error e
  | .ok c1 =>
    match Path.mkCubic (Path.currentPoint p) c1 (c2.get p) (t.get p) relative true with
    | .error e => .error e
    | .ok s => .ok (Path.append p s)

/-- path.py:95-102 `_rcoord`, with the path's current point `cur` -/
def rcoord (rd : List Char → ℚ) (cur : Option (Pt ℚ)) (l : Lx) : Except PyErr (Option (Pt ℚ)) × Lx :=
  match coord rd l with
  | (.error e, l1) => (.error e, l1)
  | (.ok none, l1) => (.ok none, l1)
  | (.ok (some q), l1) =>
    match cur with
    | none => (.ok (some q), l1)
    | some c => (.ok (some ⟨F.fl (q.x + c.x), F.fl (q.y + c.y)⟩), l1)

/-- path.py:58-102, one argument -/
def readArg (rd : List Char → ℚ) (cur : Option (Pt ℚ)) (k : ArgKind) (l : Lx) : Except PyErr (Arg ℚ) × Lx :=
  match k with
  | .num => let r := number rd l; (.ok (.num r.1), r.2)
  | .flag => let r := flag l; (.ok (.flag r.1), r.2)
  | .coord => let r := coord rd l; (r.1.map .coord, r.2)
  | .rcoord => let r := rcoord F rd cur l; (r.1.map .coord, r.2)

/-- path.py:120-325, the arguments in order; an error stops the reading -/
def readArgs (rd : List Char → ℚ) (cur : Option (Pt ℚ)) : List ArgKind → Lx → Except PyErr (List (Arg ℚ)) × Lx
  | [], l => (.ok [], l)
  | k :: ks, l =>
    match readArg F rd cur k l with
    | (.error e, l1) => (.error e, l1)
    | (.ok a, l1) =>
      match readArgs rd cur ks l1 with
      | (.error e, l2) => (.error e, l2)
      | (.ok as, l2) => (.ok (a :: as), l2)

/-- path.py:120-325, the checks and the builder call of one loop body, see `Lexer.finish` -/
def finish (mk : Path.ArcCtor ℚ) (c : Char) (inl : Option Char) (p : List (Seg ℚ)) (as : List (Arg ℚ)) :
    Except PyErr (List (Seg ℚ)) :=
  match as with
  | [.coord q] =>
    if c = 'm' ∨ c = 'M' then
      match q with                                   -- 124, 132
      | some q => .ok (Path.move p (.pt q) (c = 'm'))
      | none => .error .typeError
    else do
      let t ← orClose inl q                          -- 139-142, 149-152, 159-162, 169-172
      if c = 'l' ∨ c = 'L' then .ok (Path.line p t (c = 'l'))       -- 127, 135, 143, 153
      else smoothQuad F p t (c = 't')                -- 163, 173
  | [.num x] =>
    if c = 'h' ∨ c = 'H' then horizontal F p x (c = 'h')   -- 179, 185
    else vertical F p x (c = 'v')                    -- 191, 197
  | [.coord q1, .coord q2] => do
    let t1 ← orClose inl q1                          -- 241-244, 255-258, 269-272, 283-286
    let t2 ← orClose inl q2                          -- 245-248, 259-262, 273-276, 287-290
    if c = 'q' ∨ c = 'Q' then .ok (Path.quad p t1 t2 (c = 'q'))     -- 249, 263
    else smoothCubic F p t1 t2 (c = 's')             -- 277, 291
  | [.coord q1, .coord q2, .coord q3] => do
    let t1 ← orClose inl q1                          -- 205-208, 223-226
    let t2 ← orClose inl q2                          -- 209-212, 227-230
    let t3 ← orClose inl q3                          -- 213-216, 231-234
    Path.cubic p t1 t2 t3 (c = 'c')                  -- 217, 235
  | [.num rx, .num ry, .num rot, .flag large, .flag sweep, .coord q] =>
    if c = 'a' ∧ sweep = none then .error .valueError    -- 304-305
    else do
      let t ← orClose inl q                          -- 306-309, 321-324
      Path.arc mk p rx ry rot large sweep t (c = 'a')    -- 310, 325
  | _ => .error .typeError

/-- path.py:120-325, one loop body: read the arguments, then check and build -/
def body (rd : List Char → ℚ) (mk : Path.ArcCtor ℚ) (c : Char) (st : St ℚ) : Res ℚ :=
  match readArgs F rd (Path.currentPoint st.path) (argSpec c) st.lx with
  | (.error e, l) => ({ st with lx := l }, some e)
  | (.ok as, l) =>
    match finish F mk c l.inl st.path as with
    | .error e => ({ st with lx := l }, some e)
    | .ok p => ({ path := p, lx := l }, none)

/-- `while self._more(): body`, path.py:120-325, with fuel -/
def whileMore (rd : List Char → ℚ) (mk : Path.ArcCtor ℚ) (c : Char) : ℕ → St ℚ → Res ℚ
  | 0, st => (st, some .outOfFuel)
  | n + 1, st =>
    let m := more st.lx
    let st1 : St ℚ := { st with lx := m.2 }
    if m.1 then Res.andThen (body F rd mk c st1) (whileMore rd mk c n)
    else (st1, none)

/-- path.py:114-325: what happens for the command letter `c` already consumed, see `Lexer.exec` -/
def exec (rd : List Char → ℚ) (mk : Path.ArcCtor ℚ) (c : Char) (st : St ℚ) : Res ℚ :=
  if isZ c then                                       -- 114-119
    let m := more st.lx
    if m.1 then ({ st with lx := m.2 }, some .valueError)
    else ({ path := Path.closed st.path (c = 'z'), lx := { m.2 with inl := none } }, none)
  else if c = 'm' ∨ c = 'M' then                      -- 120-135
    let m := more st.lx
    let st1 : St ℚ := { st with lx := m.2 }
    if m.1 then
      Res.andThen (body F rd mk c st1)
        (fun st2 => whileMore F rd mk (if c = 'm' then 'l' else 'L') (fuelOf st2) st2)
    else (st1, some .valueError)
  else if c = 'V' ∨ c = 'a' ∨ c = 'A' then            -- 194-197, 294-325
    whileMore F rd mk c (fuelOf st) st
  else
    Res.andThen (body F rd mk c st) (fun st1 => whileMore F rd mk c (fuelOf st1) st1)

/-- path.py:110-325 the loop `while True: cmd = self._command() ...`, with fuel -/
def mainLoop (rd : List Char → ℚ) (mk : Path.ArcCtor ℚ) : ℕ → St ℚ → Res ℚ
  | 0, st => (st, some .outOfFuel)
  | n + 1, st =>
    match command st.lx with
    | (none, l) => ({ st with lx := l }, none)
    | (some c, l) => Res.andThen (exec F rd mk c { st with lx := l }) (mainLoop rd mk n)

/-- path.py:104-109, 2306-2309 `Path.parse(text)` on a path `p`; `val` is the number a text denotes, `float(text)` (path.py:71) the float
next to it -/
def parse (val : List Char → ℚ) (mk : Path.ArcCtor ℚ) (p : List (Seg ℚ)) (text : List Char) : Res ℚ :=
  let st : St ℚ := { path := p, lx := { rest := text, inl := none } }
  mainLoop F (fun t => F.fl (val t)) mk (fuelOf st) st

end Svgio.Flt
