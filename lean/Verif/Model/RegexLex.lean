import Verif.Model.Regex
import Verif.Model.PathLex

/-!
The reader of path data (svgio/path.py:22-84) written with the library's regular expressions, as in the source. The
model in PathLex.lean is proved equal to it.
-/

namespace Svgio.Regex

open Lexer (Lx)

/-- `match.lastgroup`, as a number; path.py:36, 47, 63, 79 -/
def St.lastgroup (q : St) : Option ℕ := q.caps.head?.map (·.1)

/-- `match.group()`, the matched text; `s` is the text where the match began. path.py:39, 49, 66, 72, 83 -/
def St.text (q : St) (s : List Char) : List Char := s.take (s.length - q.rest.length)

/-- path.py:30-40 `_command`; `r` is `svg_re`, whose groups are COMMAND and SKIP. The number bounds the loop. -/
def commandLoop (r : Re) : ℕ → Lx → Option (List Char) × Lx
  | 0, l => (none, l)
  | n + 1, l =>
    if l.rest = [] then (none, l)
    else match matchAt r 0 l.rest with
      | none => (none, l)
      | some q =>
        if q.lastgroup = some 2 then commandLoop r n { l with rest := q.rest }
        else (some (q.text l.rest), { l with rest := q.rest })

/-- path.py:42-56 `_more` (None is falsy); `r` is `num_re`, whose groups are FLOAT, CLOSE and SKIP. -/
def moreLoop (r : Re) : ℕ → Lx → Bool × Lx
  | 0, l => (false, l)
  | n + 1, l =>
    if l.rest = [] then (false, l)
    else match matchAt r 0 l.rest with
      | none => (false, l)
      | some q =>
        if q.lastgroup = some 2 then (false, { l with inl := (q.text l.rest).head? })
        else if q.lastgroup = some 3 then moreLoop r n { l with rest := q.rest }
        else (true, l)

/-- path.py:58-72 `_number`; `r` is `num_re`, and the text is given in place of its value. -/
def numberLoop (r : Re) : ℕ → Lx → Option (List Char) × Lx
  | 0, l => (none, l)
  | n + 1, l =>
    if l.rest = [] then (none, l)
    else match matchAt r 0 l.rest with
      | none => (none, l)
      | some q =>
        if q.lastgroup = some 2 then (none, { l with inl := (q.text l.rest).head? })
        else if q.lastgroup = some 3 then numberLoop r n { l with rest := q.rest }
        else (some (q.text l.rest), { l with rest := q.rest })

/-- path.py:74-84 `_flag`; `r` is `flag_re`, whose groups are FLAG and SKIP; the text is given in place of its value. -/
def flagLoop (r : Re) : ℕ → Lx → Option (List Char) × Lx
  | 0, l => (none, l)
  | n + 1, l =>
    if l.rest = [] then (none, l)
    else match matchAt r 0 l.rest with
      | none => (none, l)
      | some q =>
        if q.lastgroup = some 2 then flagLoop r n { l with rest := q.rest }
        else (some (q.text l.rest), { l with rest := q.rest })

end Svgio.Regex
