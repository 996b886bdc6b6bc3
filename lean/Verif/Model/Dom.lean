import Verif.Model.ColorParse

/-!
The document tree: svgio/nodes.py:42-563, 1974-1986, 2308-2336.

Nodes live in a list; a node's address is its position, which is the order of creation. One document, at address 0, is modelled;
nodes made by calling a class directly are not. Attribute values have the type `V`: texts after loading, anything for builders.
-/

namespace Svgio.Dom

abbrev Str := List Char

/-- the node classes, nodes.py:42-1965 -/
inductive Cls
  | node | document | svg | group | defs | symbol | marker | use | style | script | hyperlink | text | tspan | path | line
  | rect | circle | ellipse | polyline | polygon | image | title | desc | metadata | clipPath | mask | linearGradient
  | radialGradient | pattern
  deriving DecidableEq, Repr

/-! ### dictionaries, in the order of insertion -/

/-- `d.get(k)` of a Python dict, as in nodes.py:446, 533 -/
def dictGet {K V : Type} [DecidableEq K] : List (K × V) → K → Option V
  | [], _ => none
  | (k', v) :: r, k => if k' = k then some v else dictGet r k

/-- `d[k] = v` of a Python dict, as in nodes.py:119-121, 689 -/
def dictSet {K V : Type} [DecidableEq K] : List (K × V) → K → V → List (K × V)
  | [], k, v => [(k, v)]
  | (k', v') :: r, k, v => if k' = k then (k', v) :: r else (k', v') :: dictSet r k v

/-- `d.update(e)` of a Python dict, as in nodes.py:48, 439 -/
def update {K V : Type} [DecidableEq K] (d e : List (K × V)) : List (K × V) := e.foldl (fun d kv => dictSet d kv.1 kv.2) d

abbrev Dict (V : Type) := List (Str × V)

/-! ### the state -/

/-- the attributes of a node object, nodes.py:43-48. `attrs = none`: the object has no attribute `attributes`, because the class's
constructor does not call `Node.__init__` (Image, nodes.py:1642-1645) or the class is not a `Node` (Mask, nodes.py:1394). -/
structure NodeRec (V : Type) where
  cls : Cls
  attrs : Option (Dict V)
  parent : Option ℕ
  doc : Option ℕ
  kids : List ℕ
  deriving DecidableEq, Repr

/-- all nodes, and the document's `objects` (nodes.py:404) -/
structure Dom (V : Type) where
  nodes : List (NodeRec V)
  objects : List (V × ℕ)
  deriving DecidableEq, Repr

variable {V : Type} [DecidableEq V]

/-- nodes.py:2308-2336 `BOOTSTRAP` -/
def bootstrap : List (Str × Cls) :=
  [("svg".toList, .svg), ("g".toList, .group), ("defs".toList, .defs), ("symbol".toList, .symbol), ("marker".toList, .marker),
   ("use".toList, .use), ("style".toList, .style), ("script".toList, .script), ("a".toList, .hyperlink),
   ("text".toList, .text), ("tspan".toList, .tspan), ("path".toList, .path), ("line".toList, .line), ("rect".toList, .rect),
   ("circle".toList, .circle), ("ellipse".toList, .ellipse), ("polyline".toList, .polyline), ("polygon".toList, .polygon),
   ("image".toList, .image), ("title".toList, .title), ("desc".toList, .desc), ("metadata".toList, .metadata),
   ("clip-path".toList, .clipPath), ("mask".toList, .mask), ("lineargradient".toList, .linearGradient),
   ("radialgradient".toList, .radialGradient), ("pattern".toList, .pattern)]

/-- nodes.py:1805, 1863, 1871, 1879, 1920, 1954, 1962: constructors with three arguments that must be given -/
def needsArgs : Cls → Bool
  | .metadata | .defs | .symbol | .marker | .style | .linearGradient | .radialGradient => true
  | _ => false

/-! ### loading: nodes.py:85-124 -/

/-- an event of `iterparse` as used in nodes.py:90 -/
inductive Ev (V : Type)
  | start (tag : Str) (attrs : Dict V)
  | stop
  | ns
  deriving DecidableEq, Repr

/-- nodes.py:92-99 the tag without the SVG namespace -/
def stripTag (tag : Str) : Str :=
  if "{http://www.w3.org/2000/svg".toList.isPrefixOf tag then tag.drop 28 else tag

/-- nodes.py:107-111 the class for a tag -/
def clsOf (tag : Str) : Cls := (dictGet bootstrap (stripTag tag)).getD .node

/-- nodes.py:112-116, 394-396 `n` becomes the last child of `p` -/
def append (d : Dom V) (p : ℕ) (n : NodeRec V) : Dom V :=
  { d with nodes := d.nodes.modify p (fun r => { r with kids := r.kids ++ [d.nodes.length] }) ++ [n] }

/-- nodes.py:90-124 one event; `at'` is the variable `node`. An exception comes with the state that it leaves. A node whose `append`
to a Mask fails is not kept: nothing refers to it. -/
def step (document : Option ℕ) (d : Dom V) (at' : Option ℕ) : Ev V → Except (PyErr × Dom V) (Dom V × Option ℕ)
  | .ns => .ok (d, at')
  | .stop =>
    match at'.bind (d.nodes[·]?) with
    | none => .error (.attributeError, d)
    | some n => .ok (d, n.parent)
  | .start tag attrs =>
    let cls := clsOf tag
    if needsArgs cls then .error (.typeError, d)
    else match at' with
      | none => .error (.attributeError, d)
      | some p =>
        match d.nodes[p]? with
        | none => .error (.attributeError, d)
        | some r =>
          if r.cls = .mask then .error (.attributeError, d)
          else
            let a := d.nodes.length
            let d1 := append d p { cls := cls, attrs := some attrs, parent := some p, doc := document, kids := [] }
            match dictGet attrs "id".toList with
            | none => .ok (d1, some a)
            | some x =>
              if document = some 0 then .ok ({ d1 with objects := dictSet d1.objects x a }, some a)
              else .error (.attributeError, d1)

/-- nodes.py:90-124 the loop -/
def run (document : Option ℕ) : Dom V → Option ℕ → List (Ev V) → Except (PyErr × Dom V) (Dom V × Option ℕ)
  | d, at', [] => .ok (d, at')
  | d, at', e :: r =>
    match step document d at' e with
    | .error x => .error x
    | .ok (d1, at1) => run document d1 at1 r

/-- nodes.py:85-124 `node.parse(source)` for the events of the source; Mask has no such method -/
def parseAt (d : Dom V) (i : ℕ) (evs : List (Ev V)) : Except (PyErr × Dom V) (Dom V) :=
  match d.nodes[i]? with
  | none => .error (.attributeError, d)
  | some n =>
    if n.cls = .mask then .error (.attributeError, d)
    else match run n.doc d (some i) evs with
      | .error x => .error x
      | .ok (d1, _) => .ok d1

/-- nodes.py:400-409 `Document()` -/
def newDocument : Dom V :=
  { nodes := [{ cls := .document, attrs := some [], parent := none, doc := some 0, kids := [] }], objects := [] }

/-- nodes.py:400-411 `Document(source)` -/
def load (evs : List (Ev V)) : Except (PyErr × Dom V) (Dom V) := parseAt newDocument 0 evs

/-! ### builders: nodes.py:61-66, 386-396 -/

/-- nodes.py:62 `str(name).replace("_", "-")` -/
def dashes (name : Str) : Str := name.map (fun c => if c = '_' then '-' else c)

/-- the attributes set by positional arguments: nodes.py:687-697 (Rect), 993-1001 (Ellipse), 1082-1089 (Circle), 1171-1179 (Line),
1301-1306 (Polyline), 1320-1325 (Polygon), 1332-1337 (Path) -/
def positional : Cls → List Str
  | .rect => ["x".toList, "y".toList, "width".toList, "height".toList, "rx".toList, "ry".toList]
  | .ellipse => ["cx".toList, "cy".toList, "rx".toList, "ry".toList]
  | .circle => ["x".toList, "y".toList, "r".toList]
  | .line => ["x1".toList, "y1".toList, "x2".toList, "y2".toList]
  | .polyline | .polygon => ["points".toList]
  | .path => ["d".toList]
  | _ => []

/-- `cls(*args, **kwargs)`: the attributes of the new object; nodes.py:43-48 (Node), 1642-1645 (Image), 1394 (Mask), and the
constructors cited at `needsArgs` and `positional`. A keyword `self` is not modelled. -/
def construct (cls : Cls) (args : List V) (kwargs : Dict V) : Except PyErr (Option (Dict V)) :=
  if cls = .image ∨ cls = .mask then
    if args = [] ∧ kwargs = [] then .ok none else .error .typeError
  else if needsArgs cls then
    if args.length ≤ 3 ∧ (kwargs.map (·.1)).Perm (["document".toList, "parent".toList, "attributes".toList].drop args.length)
    then .ok (some []) else .error .typeError
  else .ok (some (update [] (((positional cls).zip args).foldl (fun d kv => dictSet d kv.1 kv.2) kwargs)))

/-- nodes.py:61-66, 386-396 `node.name(*args, **kwargs)` for a name in BOOTSTRAP; the call returns None. Other names are ordinary
attributes and not modelled here. Mask has no builders. -/
def build (d : Dom V) (i : ℕ) (name : Str) (args : List V) (kwargs : Dict V) : Except PyErr (Dom V) :=
  match d.nodes[i]? with
  | none => .error .attributeError
  | some n =>
    if n.cls = .mask then .error .attributeError
    else match dictGet bootstrap (dashes name) with
      | none => .error .attributeError
      | some cls =>
        match construct cls args kwargs with
        | .error e => .error e
        | .ok attrs => .ok (append d i { cls := cls, attrs := attrs, parent := some i, doc := n.doc, kids := [] })

/-- nodes.py:442-443 `document.add(node)` -/
def add (d : Dom V) (i : ℕ) : Dom V := { d with nodes := d.nodes.modify 0 (fun r => { r with kids := r.kids ++ [i] }) }

/-! ### reading -/

/-- nodes.py:428-433 `Document.get_ancestors(node)`; the first argument bounds the number of steps -/
def ancestors (d : Dom V) : ℕ → ℕ → List ℕ
  | 0, _ => []
  | f + 1, i => i :: match (d.nodes[i]?).bind (·.parent) with
    | none => []
    | some p => ancestors d f p

/-- nodes.py:435-440 `Document.get_values(node)` -/
def getValues (d : Dom V) (i : ℕ) : Except PyErr (Dict V) :=
  (ancestors d d.nodes.length i).reverse.foldlM (fun values j =>
    match (d.nodes[j]?).bind (·.attrs) with
    | none => .error .attributeError
    | some a => .ok (update values a)) []

/-- nodes.py:445-446 `get_element_by_id(id)` -/
def getElementById (d : Dom V) (x : V) : Option ℕ := dictGet d.objects x

/-- `==` of two nodes: list equality, element by element, without the attributes; Mask objects are equal only to themselves.
The first argument bounds the depth. Used by `list.index` in nodes.py:168, 212 and by nodes.py:268-275. -/
def eqNode (d : Dom V) : ℕ → ℕ → ℕ → Bool
  | 0, _, _ => false
  | f + 1, i, j =>
    match d.nodes[i]?, d.nodes[j]? with
    | some a, some b =>
      if a.cls = .mask ∨ b.cls = .mask then i = j
      else a.kids.length = b.kids.length && (a.kids.zip b.kids).all (fun xy => eqNode d f xy.1 xy.2)
    | _, _ => false

/-- `l.index(i)` of a list of nodes, as in nodes.py:168, 212 -/
def index (d : Dom V) (l : List ℕ) (i : ℕ) : Option ℕ := l.findIdx? (fun j => j = i || eqNode d d.nodes.length j i)

/-- nodes.py:160-171 `next_sibling` -/
def nextSibling (d : Dom V) (i : ℕ) : Except PyErr (Option ℕ) :=
  match d.nodes[i]? with
  | none => .error .attributeError
  | some n =>
    if n.cls = .mask then .error .attributeError
    else match n.parent.bind (d.nodes[·]?) with
      | none => .ok none
      | some p =>
        match index d p.kids i with
        | none => .error .valueError
        | some k => .ok p.kids[k + 1]?

/-- nodes.py:204-217 `previous_sibling` -/
def previousSibling (d : Dom V) (i : ℕ) : Except PyErr (Option ℕ) :=
  match d.nodes[i]? with
  | none => .error .attributeError
  | some n =>
    if n.cls = .mask then .error .attributeError
    else match n.parent.bind (d.nodes[·]?) with
      | none => .ok none
      | some p =>
        match index d p.kids i with
        | none => .error .valueError
        | some k => if k = 0 then .ok none else .ok p.kids[k - 1]?

/-- the classes derived from `Element`, nodes.py:318 -/
def isElement : Cls → Bool
  | .node | .document | .mask => false
  | _ => true

/-- nodes.py:373-375 `next_element_sibling` -/
def nextElementSibling (d : Dom V) (i : ℕ) : Except PyErr (Option ℕ) :=
  if ((d.nodes[i]?).map (isElement ·.cls)).getD false then nextSibling d i else .error .attributeError

/-- nodes.py:377-379 `previous_element_sibling` -/
def previousElementSibling (d : Dom V) (i : ℕ) : Except PyErr (Option ℕ) :=
  if ((d.nodes[i]?).map (isElement ·.cls)).getD false then nextSibling d i else .error .attributeError

/-- nodes.py:706-724 `rect.x`, `.y`, `.width`, `.height` with their defaults; other shapes have the same properties without a default,
and `line.x1`.. likewise: the value is looked up among the inherited ones -/
def property (d : Dom V) (i : ℕ) (name : Str) (default : Option V) : Except PyErr (Option V) :=
  match getValues d i with
  | .error e => .error e
  | .ok values => .ok ((dictGet values name).or default)

/-- nodes.py:325-327 `element.id`; only elements have it -/
def elementId (d : Dom V) (i : ℕ) : Except PyErr (Option V) :=
  match d.nodes[i]? with
  | none => .error .attributeError
  | some n =>
    if isElement n.cls then
      match n.attrs with
      | none => .error .attributeError
      | some a => .ok (dictGet a "id".toList)
    else .error .attributeError

/-! ### saving: nodes.py:68-83, 413-426, 455-457 -/

/-- an element of `xml.etree`, without text; nodes.py:74-79 -/
inductive Xml (V : Type)
  | elem (tag : Str) (attrs : Dict V) (kids : List (Xml V))

/-- nodes.py:68-69 `tag()`: the class name (nodes.py:314-315) in lower case, with nodes.py:1366-1367 (Group), 1387-1388 (ClipPath),
1858-1859 (SVG) -/
def tagOf : Cls → Str
  | .node => "node".toList
  | .document => "document".toList
  | .svg => "svg".toList
  | .group => "g".toList
  | .defs => "defs".toList
  | .symbol => "symbol".toList
  | .marker => "marker".toList
  | .use => "use".toList
  | .style => "style".toList
  | .script => "script".toList
  | .hyperlink => "hyperlink".toList
  | .text => "text".toList
  | .tspan => "tspan".toList
  | .path => "path".toList
  | .line => "line".toList
  | .rect => "rect".toList
  | .circle => "circle".toList
  | .ellipse => "ellipse".toList
  | .polyline => "polyline".toList
  | .polygon => "polygon".toList
  | .image => "image".toList
  | .title => "title".toList
  | .desc => "desc".toList
  | .metadata => "metadata".toList
  | .clipPath => "clip-path".toList
  | .mask => "mask".toList
  | .linearGradient => "lineargradient".toList
  | .radialGradient => "radialgradient".toList
  | .pattern => "pattern".toList

/-- nodes.py:71-83 `xml()`: the element made, before it is written as text (by the library). Simplifications: the first argument
bounds the depth; `str(v)` of attribute values is left out; the module `xml.etree.cElementTree`, which is missing from
Python 3.9 on, is assumed to exist. Mask has no such method. -/
def xml (d : Dom V) : ℕ → ℕ → Except PyErr (Xml V)
  | 0, _ => .error .outOfFuel
  | f + 1, i =>
    match d.nodes[i]? with
    | none => .error .attributeError
    | some n =>
      if n.cls = .mask then .error .attributeError
      else match n.attrs with
        | none => .error .attributeError
        | some attrs =>
          match n.kids.mapM (xml d f) with
          | .error e => .error e
          | .ok ks => .ok (.elem (tagOf n.cls) attrs ks)

/-- nodes.py:71-83 `node.xml()`, with enough depth -/
def xmlOf (d : Dom V) (i : ℕ) : Except PyErr (Xml V) := xml d d.nodes.length i

/-- nodes.py:413-426 `str(document)`. `show` is `str` of attribute values, `text` the text of the first child, `rest` the remaining
items of the list, which are settings of the document. -/
def docStr (show_ : V → Str) (attrs : Dict V) (text : Option Str) (rest : List Str) : Str :=
  let values := attrs.map (fun kv => kv.1 ++ "=".toList ++ show_ kv.2)
  let values := values ++ (match text with
    | none => []
    | some t => ["data='".toList ++ t ++ "'".toList])
  "Document(".toList ++ (", ".toList).intercalate (values ++ rest) ++ ")".toList

/-! ### paint: nodes.py:522-563 -/

/-- nodes.py:552-563 `fill`; `pyInt` is Python's `int(text, 16)` used for colours, `pyFloat` its `float(text)`, `none` where they raise
ValueError -/
def fill (F : FloatRounding) (pyInt : Str → Option ℤ) (pyFloat : Str → Option ℚ) (d : Dom Str) (i : ℕ) :
    Except PyErr (Option (Option ℤ)) :=
  match getValues d i with
  | .error e => .error e
  | .ok values =>
    match dictGet values "fill".toList with
    | none => .ok none
    | some s =>
      match Color.parse F pyInt (some s) with
      | .error e => .error e
      | .ok c =>
        match dictGet values "fill-opacity".toList, c with
        | some o, some v =>
          match pyFloat o with
          | none => .ok (some c)
          | some o =>
            match Color.setOpacity F (some v) o with
            | .error .valueError => .ok (some c)
            | .error e => .error e
            | .ok c' => .ok (some c')
        | _, _ => .ok (some c)

/-- nodes.py:530-545 `stroke`; the first argument bounds the depth of calls: Python raises RecursionError at some depth -/
def stroke (F : FloatRounding) (pyInt : Str → Option ℤ) (pyFloat : Str → Option ℚ) (d : Dom Str) (i : ℕ) :
    ℕ → Except PyErr (Option (Option ℤ))
  | 0 => .error .recursionError
  | f + 1 =>
    match getValues d i with
    | .error e => .error e
    | .ok values =>
      let s : Except PyErr (Option (Option ℤ)) := match dictGet values "stroke".toList with
        | none => .ok none
        | some s => match Color.parse F pyInt (some s) with
          | .error e => .error e
          | .ok c => .ok (some c)
      match s with
      | .error e => .error e
      | .ok s =>
        match dictGet values "stroke-opacity".toList with
        | none => .ok s
        | some o =>
          match stroke F pyInt pyFloat d i f with
          | .error e => .error e
          | .ok none => .ok s
          | .ok (some none) => .ok s
          | .ok (some (some v)) =>
            match pyFloat o with
            | none => .ok s
            | some o =>
              match Color.setOpacity F (some v) o with
              | .error .valueError => .ok s
              | .error e => .error e
              | .ok _ => .ok s

/-! ### references: nodes.py:448-450, constants.py:154 -/

/-- the longest beginning of `s` that is followed by a closing parenthesis, on one line: the group `(.*)\)` of
constants.py:154 -/
def upToClose (s : Str) : Option Str :=
  let line := s.takeWhile (· ≠ '\n')
  let r := line.reverse.dropWhile (· ≠ ')')
  match r with
  | [] => none
  | _ :: r => some r.reverse

/-- constants.py:154 the first match of `url\(#?(.*)\)` -/
def findIri : Str → Option Str
  | [] => none
  | c :: r =>
    let s := c :: r
    if "url(".toList.isPrefixOf s then
      let t := s.drop 4
      match upToClose (if t.head? = some '#' then t.tail else t) with
      | some x => some x
      | none => findIri r
    else findIri r

/-- nodes.py:448-450 `get_element_by_url(url)` -/
def getElementByUrl (d : Dom Str) (url : Str) : Option ℕ :=
  match findIri url with
  | none => none
  | some x => getElementById d x

/-! ### `_shadow_iter`: nodes.py:1974-1986 -/

/-- what `_shadow_iter` walks over: triples of tag, element and children, or something that cannot be unpacked into three, which raises
ValueError; nodes.py:1977 -/
inductive Item (T E : Type)
  | node (tag : T) (elem : E) (kids : List (Item T E))
  | bad

mutual
/-- nodes.py:1974-1986 `_shadow_iter(tag, elem, children)`; `true` is the text "start", `false` is "end" -/
def shadowIter {T E : Type} : Item T E → List (T × Bool × E)
  | .bad => []
  | .node tag elem kids => (tag, true, elem) :: shadowKids kids ++ [(tag, false, elem)]
/-- nodes.py:1976-1985 the loop over the children: ends at the first that cannot be unpacked -/
def shadowKids {T E : Type} : List (Item T E) → List (T × Bool × E)
  | [] => []
  | .bad :: _ => []
  | .node t e c :: r => shadowIter (.node t e c) ++ shadowKids r
end

end Svgio.Dom
