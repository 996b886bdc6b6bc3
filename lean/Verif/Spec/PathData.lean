import Verif.Spec.Number
import Verif.Model.Seg

/-!
SVG path data: the commands, what they draw, and how they may be written.
(Section "Path data" of the SVG specification; the segment-completing close is SVG 2.)
Nothing here refers to the code's builders or lexer, only to its segment records.
-/

namespace Svgio.Spec

/-- Where a segment ends: at a written point, or at the start of the subpath, which is written by
putting the closepath letter in the place of the final point. -/
inductive End (K : Type)
  | pt (p : Pt K)
  | close
  deriving DecidableEq, Repr

/-- A path data command with its arguments as written; `rel` is the lower case form. -/
inductive Cmd (K : Type)
  | move (rel : Bool) (p : Pt K)
  | line (rel : Bool) (e : End K)
  | horiz (rel : Bool) (x : K)
  | vert (rel : Bool) (y : K)
  | quad (rel : Bool) (c : Pt K) (e : End K)
  | smoothQuad (rel : Bool) (e : End K)
  | cubic (rel : Bool) (c1 c2 : Pt K) (e : End K)
  | smoothCubic (rel : Bool) (c2 : Pt K) (e : End K)
  | arc (rel : Bool) (rx ry rot : K) (large sweep : Bool) (e : End K)
  | close (rel : Bool)
  deriving DecidableEq, Repr

/-! ### meaning -/

inductive Curve | quad | cubic
  deriving DecidableEq, Repr

/-- The drawing state: current point, start of the current subpath, and the last control point if the
previous command was a Bézier curve. -/
structure Pen (K : Type) where
  cur : Pt K
  start : Pt K
  ctrl : Option (Curve × Pt K)
  deriving DecidableEq, Repr

/-- An arc's native parameters, from end points, radii, rotation and the two flags. -/
abbrev ArcOf (K : Type) := Pt K → K → K → K → Bool → Bool → Pt K → ArcData K

section
variable {K : Type} [Field K]

/-- a written point is an offset from the current point in relative commands -/
def Pen.pt (pen : Pen K) (rel : Bool) (p : Pt K) : Pt K :=
  if rel then ⟨pen.cur.x + p.x, pen.cur.y + p.y⟩ else p

def Pen.stop (pen : Pen K) (rel : Bool) : End K → Pt K
  | .pt p => pen.pt rel p
  | .close => pen.start

/-- The implied control point of a smooth command: the last control point reflected in the current
point if the previous command drew the same sort of curve (or, with `mixed`, any sort of curve), the
current point otherwise. SVG is `mixed = false`. -/
def Pen.smooth (pen : Pen K) (mixed : Bool) (k : Curve) : Pt K :=
  match pen.ctrl with
  | none => pen.cur
  | some (k', c) =>
    if k' = k ∨ mixed = true then ⟨2 * pen.cur.x - c.x, 2 * pen.cur.y - c.y⟩ else pen.cur

/-- The segment a command adds and the state after it. The flag `smooth` is recorded as false for
Q and C only. -/
def step (arcOf : ArcOf K) (mixed : Bool) (pen : Pen K) : Cmd K → Seg K × Pen K
  | .move rel p =>
    let q := pen.pt rel p
    (⟨.move, some pen.cur, some q, rel, true⟩, ⟨q, q, none⟩)
  | .line rel e =>
    let q := pen.stop rel e
    (⟨.line, some pen.cur, some q, rel, true⟩, ⟨q, pen.start, none⟩)
  | .horiz rel x =>
    let q : Pt K := ⟨if rel then pen.cur.x + x else x, pen.cur.y⟩
    (⟨.line, some pen.cur, some q, rel, true⟩, ⟨q, pen.start, none⟩)
  | .vert rel y =>
    let q : Pt K := ⟨pen.cur.x, if rel then pen.cur.y + y else y⟩
    (⟨.line, some pen.cur, some q, rel, true⟩, ⟨q, pen.start, none⟩)
  | .quad rel c e =>
    let q := pen.stop rel e
    let c := pen.pt rel c
    (⟨.quad (some c), some pen.cur, some q, rel, false⟩, ⟨q, pen.start, some (.quad, c)⟩)
  | .smoothQuad rel e =>
    let q := pen.stop rel e
    let c := pen.smooth mixed .quad
    (⟨.quad (some c), some pen.cur, some q, rel, true⟩, ⟨q, pen.start, some (.quad, c)⟩)
  | .cubic rel c1 c2 e =>
    let q := pen.stop rel e
    let c1 := pen.pt rel c1
    let c2 := pen.pt rel c2
    (⟨.cubic (some c1) (some c2), some pen.cur, some q, rel, false⟩, ⟨q, pen.start, some (.cubic, c2)⟩)
  | .smoothCubic rel c2 e =>
    let q := pen.stop rel e
    let c1 := pen.smooth mixed .cubic
    let c2 := pen.pt rel c2
    (⟨.cubic (some c1) (some c2), some pen.cur, some q, rel, true⟩, ⟨q, pen.start, some (.cubic, c2)⟩)
  | .arc rel rx ry rot large sweep e =>
    let q := pen.stop rel e
    (⟨.arc (arcOf pen.cur rx ry rot large sweep q), some pen.cur, some q, rel, true⟩, ⟨q, pen.start, none⟩)
  | .close rel =>
    (⟨.close, some pen.cur, some pen.start, rel, true⟩, ⟨pen.start, pen.start, none⟩)

/-- the segments drawn from a drawing state -/
def draw (arcOf : ArcOf K) (mixed : Bool) : Pen K → List (Cmd K) → List (Seg K)
  | _, [] => []
  | pen, c :: cs => (step arcOf mixed pen c).1 :: draw arcOf mixed (step arcOf mixed pen c).2 cs

/-- A path starts with a moveto, absolute even when written in lower case. -/
def meaning (arcOf : ArcOf K) (mixed : Bool) : List (Cmd K) → List (Seg K)
  | .move rel p :: cs => ⟨.move, none, some p, rel, true⟩ :: draw arcOf mixed ⟨p, p, none⟩ cs
  | _ => []

end

variable {K : Type}

/-! ### well-formed command lists -/

/-- the command is completed by the closepath that follows it -/
def Cmd.endsInClose : Cmd K → Prop
  | .line _ e | .quad _ _ e | .smoothQuad _ e | .cubic _ _ _ e | .smoothCubic _ _ e | .arc _ _ _ _ _ _ e =>
    e = .close
  | _ => False

def Cmd.isClose : Cmd K → Prop
  | .close _ => True
  | _ => False

/-- a command that ends at the subpath's start by segment completion is followed by its closepath -/
def Completed : List (Cmd K) → Prop
  | [] => True
  | c :: cs => (c.endsInClose → ∃ d ds, cs = d :: ds ∧ d.isClose) ∧ Completed cs

/-- starts with a moveto, and segment completions are followed by a closepath -/
def WellFormed (cs : List (Cmd K)) : Prop :=
  (∃ rel p cs', cs = .move rel p :: cs') ∧ Completed cs

/-- no T directly after C or S, no S directly after Q or T -/
def NoMixedSmooth : List (Cmd K) → Prop
  | [] => True
  | c :: cs => (match c, cs with
      | .cubic .., .smoothQuad .. :: _ => False
      | .smoothCubic .., .smoothQuad .. :: _ => False
      | .quad .., .smoothCubic .. :: _ => False
      | .smoothQuad .., .smoothCubic .. :: _ => False
      | _, _ => True) ∧ NoMixedSmooth cs

/-! ### text -/

/-- separator characters: white space and comma -/
def IsSep (c : Char) : Prop := c = ' ' ∨ c = ',' ∨ c = '\t' ∨ c = '\n' ∨ c = '\x0c' ∨ c = '\r'

def AllSep (w : List Char) : Prop := ∀ c ∈ w, IsSep c

def Cmd.letter : Cmd K → Char
  | .move rel _ => if rel then 'm' else 'M'
  | .line rel _ => if rel then 'l' else 'L'
  | .horiz rel _ => if rel then 'h' else 'H'
  | .vert rel _ => if rel then 'v' else 'V'
  | .quad rel _ _ => if rel then 'q' else 'Q'
  | .smoothQuad rel _ => if rel then 't' else 'T'
  | .cubic rel _ _ _ => if rel then 'c' else 'C'
  | .smoothCubic rel _ _ => if rel then 's' else 'S'
  | .arc rel _ _ _ _ _ _ => if rel then 'a' else 'A'
  | .close rel => if rel then 'z' else 'Z'

/-- The letter that may be left out after a command: the same one, lineto after moveto, none after
closepath. -/
def Cmd.implied : Cmd K → Option Char
  | .move rel _ => some (if rel then 'l' else 'L')
  | .close _ => none
  | c => some c.letter

/-- an argument: a number, or an arc flag -/
inductive ArgVal (K : Type)
  | num (x : K)
  | flag (b : Bool)

def ptArgs (p : Pt K) : List (ArgVal K) := [.num p.x, .num p.y]

def End.args : End K → List (ArgVal K)
  | .pt p => ptArgs p
  | .close => []

def Cmd.args : Cmd K → List (ArgVal K)
  | .move _ p => ptArgs p
  | .line _ e => e.args
  | .horiz _ x => [.num x]
  | .vert _ y => [.num y]
  | .quad _ c e => ptArgs c ++ e.args
  | .smoothQuad _ e => e.args
  | .cubic _ c1 c2 e => ptArgs c1 ++ (ptArgs c2 ++ e.args)
  | .smoothCubic _ c2 e => ptArgs c2 ++ e.args
  | .arc _ rx ry rot large sweep e =>
    [.num rx, .num ry, .num rot, .flag large, .flag sweep] ++ e.args
  | .close _ => []

/-- `ArgText rd as r s`: the text `s` is the arguments `as`, each possibly preceded by separators, and
then `r`. Numbers are spelled in any way that denotes them under `rd`; separators may be left out where
a number ends anyway. Flags are single characters. -/
inductive ArgText (rd : List Char → K) : List (ArgVal K) → List Char → List Char → Prop
  | nil (r) : ArgText rd [] r r
  | num (w t u r as) : AllSep w → IsNumber t → Stops t u → ArgText rd as r u →
      ArgText rd (.num (rd t) :: as) r (w ++ (t ++ u))
  | flag (w b u r as) : AllSep w → ArgText rd as r u →
      ArgText rd (.flag b :: as) r (w ++ ((if b then '1' else '0') :: u))

/-- `CmdText rd prev cs s`: the text `s` writes the commands `cs`, when `prev` is the letter that may be
left out in front. A letter can only be left out when arguments are written. -/
inductive CmdText (rd : List Char → K) : Option Char → List (Cmd K) → List Char → Prop
  | nil (prev w) : AllSep w → CmdText rd prev [] w
  | letter (prev w c cs u r) : AllSep w → ArgText rd c.args r u → CmdText rd c.implied cs r →
      CmdText rd prev (c :: cs) (w ++ (c.letter :: u))
  | implied (prev c cs s r) : prev = some c.letter → c.args ≠ [] → ArgText rd c.args r s →
      CmdText rd c.implied cs r → CmdText rd prev (c :: cs) s

/-- the text `s` writes the commands `cs` -/
def Writes (rd : List Char → K) (cs : List (Cmd K)) (s : List Char) : Prop := CmdText rd none cs s

end Svgio.Spec
