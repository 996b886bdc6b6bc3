import Verif.Model.ColorParse

/-!
Python's regular expressions (module `re`, used in svgio/constants.py:154-189), as far as the patterns of the library
need them: the syntax of patterns, and matching by trying the alternatives in order, with backtracking.
-/

namespace Svgio.Regex

/-- one member of a set of characters: a range, `\s`, or `\d`; constants.py:117-190 -/
inductive Item
  | range (lo hi : Char)
  | space
  | digit
  deriving DecidableEq, Repr

/-- a compiled pattern, as `re.compile` makes it in constants.py:154-189. All repetitions of the library are greedy. -/
inductive Re
  | eps
  | set (neg : Bool) (items : List Item)
  | cat (a b : Re)
  | alt (a b : Re)
  | rep (lo : ℕ) (hi : Option ℕ) (r : Re)
  | grp (n : ℕ) (r : Re)
  | ahead (r : Re)
  | bol
  | eol
  deriving DecidableEq, Repr

/-! ### the syntax of patterns -/

/-- a character of a pattern that stands for itself; `\s`, `\d` and `[..]` are in constants.py:117-190 -/
def one (c : Char) : Re := .set false [.range c c]

/-- `.`: any character but the end of a line, constants.py:154, 181 -/
def dot : Re := .set true [.range '\n' '\n']

/-- the value of a hexadecimal digit in `\x0A`, constants.py:119 -/
def hexDigit (c : Char) : ℕ :=
  if c.toNat ≤ 57 then c.toNat - 48 else if c.toNat ≤ 70 then c.toNat - 55 else c.toNat - 87

/-- what follows a backslash, constants.py:117-181: the item and the rest of the pattern. Other escapes of Python's
`re` do not occur in the library. -/
def escape : List Char → Option (Item × List Char)
  | [] => none
  | c :: r =>
    if c = 's' then some (.space, r)
    else if c = 'd' then some (.digit, r)
    else if c = 't' then some (.range '\t' '\t', r)
    else if c = 'n' then some (.range '\n' '\n', r)
    else if c = 'x' then
      match r with
      | a :: b :: r =>
        let d := Char.ofNat (16 * hexDigit a + hexDigit b)
        some (.range d d, r)
      | _ => none
    else some (.range c c, r)

/-- the members of `[..]` up to the closing bracket, constants.py:117-190; the first argument bounds the number of members -/
def items : ℕ → List Char → Option (List Item × List Char)
  | 0, _ => none
  | _ + 1, [] => none
  | n + 1, c :: r =>
    if c = ']' then some ([], r)
    else if c = '\\' then
      match escape r with
      | none => none
      | some (i, r) => (items n r).map (fun q => (i :: q.1, q.2))
    else
      match r with
      | d :: e :: r' =>
        if d = '-' ∧ e ≠ ']' then (items n r').map (fun q => (.range c e :: q.1, q.2))
        else (items n r).map (fun q => (.range c c :: q.1, q.2))
      | _ => (items n r).map (fun q => (.range c c :: q.1, q.2))

/-- a decimal number in `{3,8}`, constants.py:165, 181 -/
def decimal (s : List Char) : ℕ × List Char := (natVal (s.takeWhile isDig), s.dropWhile isDig)

/-- a repetition sign after a part of a pattern, constants.py:117-181 -/
def quantifier (r : Re) (s : List Char) : Option (Re × List Char) :=
  match s with
  | [] => some (r, [])
  | c :: t =>
    if c = '*' then some (.rep 0 none r, t)
    else if c = '+' then some (.rep 1 none r, t)
    else if c = '?' then some (.rep 0 (some 1) r, t)
    else if c = '{' then
      match decimal t with
      | (m, d :: t') =>
        if d = '}' then some (.rep m (some m) r, t')
        else if d = ',' then
          match decimal t' with
          | (n, _ :: t'') => some (.rep m (some n) r, t'')
          | _ => none
        else none
      | _ => none
    else some (r, c :: t)

/-- the next part of a pattern without its repetition sign, constants.py:117-190. `alts` reads what is between
parentheses; `g` is the number of groups opened before. The result: the part, the number of groups, the rest. -/
def atom (alts : ℕ → List Char → Option (Re × ℕ × List Char)) (g : ℕ) (c : Char) (r : List Char) :
    Option (Re × ℕ × List Char) :=
  let close (f : Re → Re) (q : Option (Re × ℕ × List Char)) : Option (Re × ℕ × List Char) :=
    match q with
    | some (a, g, d :: r) => if d = ')' then some (f a, g, r) else none
    | _ => none
  if c = '(' then
    match r with
    | '?' :: ':' :: r => close id (alts g r)
    | '?' :: '=' :: r => close .ahead (alts g r)
    | '?' :: 'u' :: ')' :: r => some (.eps, g, r)
    | '?' :: 'P' :: '<' :: r => close (.grp (g + 1)) (alts (g + 1) ((r.dropWhile (· ≠ '>')).drop 1))
    | r => close (.grp (g + 1)) (alts (g + 1) r)
  else if c = '[' then
    match r with
    | '^' :: r => (items r.length r).map (fun q => (.set true q.1, g, q.2))
    | r => (items r.length r).map (fun q => (.set false q.1, g, q.2))
  else if c = '\\' then (escape r).map (fun q => (.set false [q.1], g, q.2))
  else if c = '^' then some (.bol, g, r)
  else if c = '$' then some (.eol, g, r)
  else if c = '.' then some (dot, g, r)
  else some (one c, g, r)

/-- a pattern up to its end or up to a closing parenthesis: alternatives of sequences of parts; constants.py:117-190.
The first argument bounds the number of steps. -/
def alts : ℕ → ℕ → List Char → Option (Re × ℕ × List Char)
  | 0, _, _ => none
  | _ + 1, g, [] => some (.eps, g, [])
  | n + 1, g, c :: r =>
    if c = ')' then some (.eps, g, c :: r)
    else if c = '|' then
      (alts n g r).map (fun q => (.alt .eps q.1, q.2.1, q.2.2))
    else
      match atom (alts n) g c r with
      | none => none
      | some (a, g, r) =>
        match quantifier a r with
        | none => none
        | some (a, r) =>
          match alts n g r with
          | none => none
          | some (.alt b rest, g, r) => some (.alt (.cat a b) rest, g, r)
          | some (b, g, r) => some (.cat a b, g, r)

/-- `re.compile(text)`, constants.py:154-189 -/
def compile (text : List Char) : Option Re :=
  match alts (text.length + 1) 0 text with
  | some (r, _, []) => some r
  | _ => none

/-! ### matching -/

/-- how far a match has come: number of characters before, the text after, and the groups, the latest first -/
structure St where
  pos : ℕ
  rest : List Char
  caps : List (ℕ × List Char)
  deriving DecidableEq, Repr

/-- the characters of an item; `\s` are those with `str.isspace`. Simplification: `\d`, which is used in constants.py:181
only, also matches decimal digits of other scripts, which is not modelled. -/
def Item.test (c : Char) : Item → Bool
  | .range lo hi => decide (lo ≤ c) && decide (c ≤ hi)
  | .space => Color.isWs c
  | .digit => isDig c

/-- the characters of a set, constants.py:117-190 -/
def test (neg : Bool) (is : List Item) (c : Char) : Bool := neg != is.any (Item.test c)

/-- a repetition, constants.py:117-181: as many times as possible first. `f` gives the ends of one more match, in the order of Python's
attempts; `fuel` bounds the number of repetitions. A repetition that matches the empty text is not repeated; no pattern
of the library repeats a part that matches the empty text. -/
def repeated (f : St → List St) : ℕ → ℕ → Option ℕ → St → List St
  | 0, _, _, st => [st]
  | fuel + 1, lo, hi, st =>
    if hi = some 0 then [st]
    else
      let more := ((f st).filter (fun q => q.rest.length < st.rest.length)).flatMap
        (repeated f fuel (lo - 1) (hi.map (· - 1)))
      if lo = 0 then more ++ [st] else more

/-- all ways to match a pattern here, in the order in which Python's `re` tries them; the first one is the match.
constants.py:154-189 -/
def run : Re → St → List St
  | .eps, st => [st]
  | .set neg is, st =>
    match st.rest with
    | [] => []
    | c :: r => if test neg is c then [{ st with pos := st.pos + 1, rest := r }] else []
  | .cat a b, st => (run a st).flatMap (run b)
  | .alt a b, st => run a st ++ run b st
  | .rep lo hi r, st => repeated (run r) (lo + st.rest.length) lo hi st
  | .grp n r, st =>
    (run r st).map (fun q => { q with caps := (n, st.rest.take (st.rest.length - q.rest.length)) :: q.caps })
  | .ahead r, st => if (run r st).isEmpty then [] else [st]
  | .bol, st => if st.pos = 0 then [st] else []
  | .eol, st => if st.rest = [] ∨ st.rest = ['\n'] then [st] else []

/-- the text of group `n` after a match: `none` if the group took no part. `findall` shows the empty text in that
case (basic.py:55, 1452, 2085-2087). -/
def St.group (q : St) (n : ℕ) : Option (List Char) := (q.caps.find? (fun c => c.1 = n)).map (·.2)

/-- `regex.match(text)` at position `pos` with the text `s` after it: basic.py:664-673, path.py:32-76 -/
def matchAt (r : Re) (pos : ℕ) (s : List Char) : Option St := (run r ⟨pos, s, []⟩).head?

/-- `regex.findall(text)`, as the states at the ends of the matches: basic.py:55, 1452, 2085, 2087, 2564; nodes.py:449.
The search goes on behind each match, or with the next character; no pattern of the library matches the empty text. The
first number bounds the steps. -/
def findallAt (r : Re) : ℕ → ℕ → List Char → List St
  | 0, _, _ => []
  | n + 1, pos, s =>
    match matchAt r pos s with
    | some q => q :: findallAt r n q.pos q.rest
    | none =>
      match s with
      | [] => []
      | _ :: t => findallAt r n (pos + 1) t

/-- `regex.findall(text)`, see `findallAt` -/
def findall (r : Re) (s : List Char) : List St := findallAt r (s.length + 1) 0 s

/-! ### the patterns of constants.py -/

/-- constants.py:117 -/
def PATTERN_WS : List Char := "[\\s\\t\\n]*".toList
/-- constants.py:118 -/
def PATTERN_COMMA : List Char := "(?:\\s*,\\s*|\\s+|(?=-))".toList
/-- constants.py:119 -/
def PATTERN_COMMAWSP : List Char := "[ ,\\t\\n\\x09\\x0A\\x0C\\x0D]+".toList
/-- constants.py:120 -/
def PATTERN_FLOAT : List Char := "[-+]?[0-9]*\\.?[0-9]+(?:[eE][-+]?[0-9]+)?".toList
/-- constants.py:121 -/
def PATTERN_LENGTH_UNITS : List Char := "cm|mm|Q|in|pt|pc|px|em|cx|ch|rem|vw|vh|vmin|vmax".toList
/-- constants.py:122 -/
def PATTERN_ANGLE_UNITS : List Char := "deg|grad|rad|turn".toList
/-- constants.py:126 -/
def PATTERN_PERCENT : List Char := "%".toList
/-- constants.py:127-149, with constants.py:100-110 -/
def PATTERN_TRANSFORM : List Char :=
  ("matrix" ++ "|" ++ "translate" ++ "|" ++ "translatex" ++ "|" ++ "translatey" ++ "|" ++ "scale" ++ "|" ++ "scalex" ++ "|"
    ++ "scaley" ++ "|" ++ "rotate" ++ "|" ++ "skew" ++ "|" ++ "skewx" ++ "|" ++ "skewy").toList
/-- constants.py:150-152 -/
def PATTERN_TRANSFORM_UNITS : List Char :=
  PATTERN_LENGTH_UNITS ++ '|' :: PATTERN_ANGLE_UNITS ++ '|' :: PATTERN_PERCENT

/-- `text % (a, b, ..)` for texts put in place of `%s`, and `%%` for `%`; constants.py:156-178 -/
def format : List Char → List (List Char) → List Char
  | '%' :: 's' :: r, a :: as => a ++ format r as
  | '%' :: '%' :: r, as => '%' :: format r as
  | c :: r, as => c :: format r as
  | [], _ => []

/-- constants.py:154 -/
def REGEX_IRI : Option Re := compile "url\\(#?(.*)\\)".toList
/-- constants.py:155 -/
def REGEX_FLOAT : Option Re := compile PATTERN_FLOAT
/-- constants.py:156-158 -/
def REGEX_COORD_PAIR : Option Re := compile (format "(%s)%s(%s)".toList [PATTERN_FLOAT, PATTERN_COMMA, PATTERN_FLOAT])
/-- constants.py:159-161 -/
def REGEX_TRANSFORM_TEMPLATE : Option Re :=
  compile (format "(?u)(%s)%s\\(([^)]+)\\)".toList [PATTERN_TRANSFORM, PATTERN_WS])
/-- constants.py:162-164 -/
def REGEX_TRANSFORM_PARAMETER : Option Re :=
  compile (format "(%s)%s(%s)?".toList [PATTERN_FLOAT, PATTERN_WS, PATTERN_TRANSFORM_UNITS])
/-- constants.py:165 -/
def REGEX_COLOR_HEX : Option Re := compile "^#?([0-9A-Fa-f]{3,8})$".toList
/-- constants.py:166-169 -/
def REGEX_COLOR_RGB : Option Re :=
  compile (format "rgba?\\(\\s*(%s)\\s*,\\s*(%s)\\s*,\\s*(%s)\\s*(?:,\\s*(%s)\\s*)?\\)".toList
    [PATTERN_FLOAT, PATTERN_FLOAT, PATTERN_FLOAT, PATTERN_FLOAT])
/-- constants.py:170-173 -/
def REGEX_COLOR_RGB_PERCENT : Option Re :=
  compile (format "rgba?\\(\\s*(%s)%%\\s*,\\s*(%s)%%\\s*,\\s*(%s)%%\\s*(?:,\\s*(%s)\\s*)?\\)".toList
    [PATTERN_FLOAT, PATTERN_FLOAT, PATTERN_FLOAT, PATTERN_FLOAT])
/-- constants.py:174-177 -/
def REGEX_COLOR_HSL : Option Re :=
  compile (format "hsla?\\(\\s*(%s)\\s*,\\s*(%s)%%\\s*,\\s*(%s)%%\\s*(?:,\\s*(%s)\\s*)?\\)".toList
    [PATTERN_FLOAT, PATTERN_FLOAT, PATTERN_FLOAT, PATTERN_FLOAT])
/-- constants.py:178 -/
def REGEX_LENGTH : Option Re := compile (format "(%s)([A-Za-z%%]*)".toList [PATTERN_FLOAT])
/-- constants.py:184-185 -/
def svg_re : Option Re :=
  compile (format "(?P<COMMAND>[MmZzLlHhVvCcSsQqTtAa])|(?P<SKIP>%s)".toList [PATTERN_COMMAWSP])
/-- constants.py:186-187 -/
def num_re : Option Re :=
  compile (format "(?P<FLOAT>%s)|(?P<CLOSE>[Zz])|(?P<SKIP>%s)".toList [PATTERN_FLOAT, PATTERN_COMMAWSP])
/-- constants.py:188-189 -/
def flag_re : Option Re := compile (format "(?P<FLAG>[01])|(?P<SKIP>%s)".toList [PATTERN_COMMAWSP])

end Svgio.Regex
