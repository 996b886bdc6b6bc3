import Verif.Model.Regex
import Verif.Model.Dom

/-!
Style sheets, style attributes and inherited values in the function `parse` of svgio/nodes.py:1989-2305.

`parse` as it stands fails at once: nodes.py:2025 calls `SVG._use_structure_parse`, which does not exist. Modelled is what the loop
does with the events that this iterator is meant to give: a tag, the attributes of the start, the text of the end. Left out: the
objects that are made from the values (nodes.py:2131-2299), clip paths, and the transform of a viewBox (nodes.py:2137-2153).
-/

namespace Svgio.Css

open Svgio.Dom (Str Dict dictGet dictSet)

/-- constants.py:179 -/
def REGEX_CSS_STYLE : Option Regex.Re := Regex.compile "([^{]+)\\s*\\{\\s*([^}]+)\\s*\\}".toList

/-- Python's `text.strip()`, nodes.py:2090-2091, 2272-2275 -/
def strip (s : Str) : Str := ((s.dropWhile Color.isWs).reverse.dropWhile Color.isWs).reverse

/-- Python's `text.split(c)` for one character `c`, nodes.py:2068, 2087-2088, 2274 -/
def splitC (c : Char) : Str → List Str
  | [] => [[]]
  | d :: r =>
    if d = c then [] :: splitC c r
    else match splitC c r with
      | w :: ws => (d :: w) :: ws
      | [] => [[d]]

/-- Python's `text.endswith(";")`, nodes.py:2279 -/
def endsSemi (s : Str) : Bool := s.getLast? = some ';'

/-- `re.findall(REGEX_CSS_STYLE, text)`, nodes.py:2270: pairs of a selector text and a body -/
def rules (text : Str) : List (Str × Str) :=
  match REGEX_CSS_STYLE with
  | none => []
  | some r => (Regex.findall r text).map fun q => ((q.group 1).getD [], (q.group 2).getD [])

/-- nodes.py:2275-2281: one selector of a rule -/
def addSelector (value : Str) (styles : Dict Str) (selector : Str) : Dict Str :=
  let sel := strip selector
  match dictGet styles sel with
  | none => dictSet styles sel value
  | some old => dictSet styles sel ((if endsSemi old then old else old ++ [';']) ++ value)

/-- nodes.py:2271-2281: one rule -/
def addRule (styles : Dict Str) (rule : Str × Str) : Dict Str :=
  let key := strip rule.1
  let value := strip rule.2
  (splitC ',' key).foldl (addSelector value) styles

/-- nodes.py:2269-2281: the end of a `style` element with this text -/
def addSheet (styles : Dict Str) (text : Str) : Dict Str := (rules text).foldl addRule styles

/-- nodes.py:2063-2066, 2070-2073, 2078-2081: a part with a `;` before it unless it comes first -/
def joinStyle (styles : Dict Str) (style cssTag : Str) : Str :=
  match dictGet styles cssTag with
  | none => style
  | some s => (if style.length ≠ 0 then style ++ [';'] else style) ++ s

/-- nodes.py:2056-2059: a part that is put behind without a separator -/
def glueStyle (styles : Dict Str) (style cssTag : Str) : Str :=
  match dictGet styles cssTag with
  | none => style
  | some s => style ++ s

/-- nodes.py:2068-2081: one class of an element -/
def classStyle (styles : Dict Str) (tag : Str) (style svgClass : Str) : Str :=
  joinStyle styles (joinStyle styles style ('.' :: svgClass)) (tag ++ '.' :: svgClass)

/-- nodes.py:2054-2084: all style text for an element -/
def styleText (styles : Dict Str) (tag : Str) (attributes : Dict Str) : Str :=
  let style := glueStyle styles (glueStyle styles [] "*".toList) tag
  let style := match dictGet attributes "id".toList with
    | none => style
    | some i => joinStyle styles style ('#' :: i)
  let style := match dictGet attributes "class".toList with
    | none => style
    | some c => (splitC ' ' c).foldl (classStyle styles tag) style
  match dictGet attributes "style".toList with
  | none => style
  | some s => style ++ s

/-- nodes.py:2088-2092: one part between semicolons -/
def applyPart (attributes : Dict Str) (equate : Str) : Dict Str :=
  match splitC ':' equate with
  | [k, v] => dictSet attributes (strip k) (strip v)
  | _ => attributes

/-- nodes.py:2087-2092 -/
def applyStyle (attributes : Dict Str) (style : Str) : Dict Str := (splitC ';' style).foldl applyPart attributes

/-- nodes.py:2093-2100, and with `stroke` nodes.py:2102-2109 -/
def currentColor (values : Dict Str) (key : Str) (attributes : Dict Str) : Except PyErr (Dict Str) :=
  if dictGet attributes key = some "currentColor".toList then
    match dictGet attributes "color".toList with
    | some c => .ok (dictSet attributes key c)
    | none =>
      match dictGet values "color".toList with
      | some c => .ok (dictSet attributes key c)
      | none => .error .keyError
  else .ok attributes

/-- nodes.py:2111-2120 -/
def joinTransform (values attributes : Dict Str) : Dict Str :=
  match dictGet attributes "transform".toList, dictGet values "transform".toList with
  | some t, some v => dictSet attributes "transform".toList (v ++ ' ' :: t)
  | _, _ => attributes

/-- `del d[k]` if `k in d`, nodes.py:2042-2049 -/
def dictDel (d : Dict Str) (k : Str) : Dict Str := d.filter fun e => e.1 ≠ k

/-- nodes.py:2037-2049: the values that an element takes from its parent -/
def inherited (values : Dict Str) : Dict Str :=
  dictDel (dictDel (dictDel (dictDel values "preserveAspectRatio".toList) "viewBox".toList) "id".toList) "clip-path".toList

/-- nodes.py:2051-2120: the attributes of an element, with style sheets and the style attribute -/
def compiled (styles values : Dict Str) (tag : Str) (attrib : Dict Str) : Except PyErr (Dict Str) := do
  let attributes := dictSet attrib "tag".toList tag
  let attributes := applyStyle attributes (styleText styles tag attributes)
  let attributes ← currentColor values "fill".toList attributes
  let attributes ← currentColor values "stroke".toList attributes
  return joinTransform values attributes

/-- nodes.py:2025: what the iterator gives; an element without text has the text None. Simplification: the children of `use` elements are not inserted. -/
inductive Ev
  | start (tag : Str) (attrib : Dict Str)
  | stop (tag : Str) (text : Option Str)
  | ns (pre uri : Str)
  deriving DecidableEq, Repr

/-- the variables of the loop: `styles`, `stack` (only the values), `values`; and the values of the elements met so far that are not
hidden, nodes.py:2013-2129 -/
structure State where
  styles : Dict Str
  stack : List (Dict Str)
  values : Dict Str
  out : List (Dict Str)
  deriving DecidableEq, Repr

/-- `values.get("display") == "none"`, nodes.py:2032-2035, 2126-2129 -/
def hidden (values : Dict Str) : Bool := dictGet values "display".toList = some "none".toList

/-- nodes.py:2030-2130, 2244-2304: one event. Simplifications: the entry `values["attributes"]` with the dictionary of the attributes
(nodes.py:2124) and the new stack entry of the outermost `svg` (nodes.py:2154-2155), which is used after its end only, are left out; in a hidden element, the dictionary `values` is the same object as the
one on the stack, so that a namespace declared there (nodes.py:2303-2304) stays in it; here it does not. -/
def step (s : State) : Ev → Except PyErr State
  | .start tag attrib =>
    let s := { s with stack := s.values :: s.stack }
    if hidden s.values then .ok s
    else do
      let values := inherited s.values
      let attributes ← compiled s.styles values tag attrib
      let values := Dom.update values attributes
      if hidden values then return { s with values := values }
      return { s with values := values, out := s.out ++ [values] }
  | .stop tag text => do
    let s ← (if tag = "style".toList then
        match text with
        | none => .error .typeError
        | some t => .ok { s with styles := addSheet s.styles t }
      else .ok s : Except PyErr State)
    match s.stack with
    | [] => .error .indexError
    | v :: r => return { s with values := v, stack := r }
  | .ns pre uri => .ok (if pre = "d".toList then s else { s with values := dictSet s.values pre uri })

/-- nodes.py:2016-2023: the values at the beginning; `color` and `transform` are arguments of `parse` -/
def initial (color : Str) (transform : Option Str) : Dict Str :=
  let values := [("color".toList, color), ("fill".toList, "black".toList), ("stroke".toList, "none".toList)]
  match transform with
  | none => values
  | some t => dictSet values "transform".toList t

/-- nodes.py:2025-2305: the loop -/
def run : State → List Ev → Except PyErr State
  | s, [] => .ok s
  | s, e :: es => match step s e with
    | .ok s => run s es
    | .error e => .error e

end Svgio.Css
