import Verif.Model.Dom

/-!
Attributes of elements as Python attributes: svgio/nodes.py:61-66, 495-1951.
-/

namespace Svgio.Dom

variable {V : Type} [DecidableEq V]

/-- constants.py:22 `XLINK_HREF` -/
def xlinkHref : Str := "{http://www.w3.org/1999/xlink}href".toList

/-- how a property is looked up: among the values of `Document.get_values(self)`, under the first of the keys that is there, with a
default (as in nodes.py:706-709, 1382-1385, 1462-1468), or in the element's own attributes (as in nodes.py:1840-1842) -/
inductive Lookup
  | values (keys : List Str) (default : Option (ℕ ⊕ Str))
  | own (key : Str)
  deriving DecidableEq

/-- nodes.py:499-502 (Transformable) -/
def transformable : List (Str × Lookup) := [("transform".toList, .values ["transform".toList] none)]

/-- nodes.py:525-528, 547-550, 565-568 (GraphicalElement), without `stroke` and `fill` -/
def graphical : List (Str × Lookup) :=
  [("stroke_opacity".toList, .values ["stroke-opacity".toList] none), ("fill_opacity".toList, .values ["fill-opacity".toList] none),
   ("stroke_width".toList, .values ["stroke-width".toList] none)]

/-- `x`, `y`, `width` and `height` without a default: nodes.py:1398-1416 (Mask), 1442-1460 (Pattern), 1548-1566 (Text), 1663-1681 (Image),
1820-1838 (SVG), 1887-1905 (Use) -/
def placed : List (Str × Lookup) :=
  [("x".toList, .values ["x".toList] none), ("y".toList, .values ["y".toList] none), ("width".toList, .values ["width".toList] none),
   ("height".toList, .values ["height".toList] none)]

/-- `href`: nodes.py:1462-1468 (Pattern), 1683-1689 (Image), 1928-1934 (Script), 1941-1947 (Hyperlink) -/
def linked : List (Str × Lookup) := [("href".toList, .values [xlinkHref, "href".toList] none)]

/-- `viewBox` and `preserveAspectRatio`: nodes.py:1691-1697 (Image), 1840-1846 (SVG) -/
def fitted : List (Str × Lookup) :=
  [("viewBox".toList, .own "viewBox".toList), ("preserveAspectRatio".toList, .own "preserveAspectRatio".toList)]

/-- the properties of the classes that read attributes: nodes.py:607, 706-734 (Rect), 1002-1020 (Ellipse), 1091-1104 (Circle), 1181-1199
(Line), 1226-1229 (Polyline, Polygon), 1339-1342 (Path), 1358 (Group), 1382-1385 (ClipPath), 1394-1416 (Mask), 1442-1468 (Pattern),
1505, 1548-1576 (Text), 1629 (TSpan), 1634, 1663-1697 (Image), 1785-1788 (Desc), 1795-1798 (Title), 1812-1846 (SVG), 1887-1905 (Use),
1928-1934 (Script), 1941-1947 (Hyperlink). `id`, `stroke` and `fill` are modelled elsewhere. -/
def lookups : Cls → List (Str × Lookup)
  | .rect =>
    [("x".toList, .values ["x".toList] (some (.inl 0))), ("y".toList, .values ["y".toList] (some (.inl 0))),
     ("width".toList, .values ["width".toList] (some (.inl 1))), ("height".toList, .values ["height".toList] (some (.inl 1))),
     ("rx".toList, .values ["rx".toList] none), ("ry".toList, .values ["ry".toList] none)] ++ graphical ++ transformable
  | .ellipse =>
    [("rx".toList, .values ["rx".toList] none), ("ry".toList, .values ["ry".toList] none), ("cx".toList, .values ["cx".toList] none),
     ("cy".toList, .values ["cy".toList] none)] ++ graphical ++ transformable
  | .circle =>
    [("r".toList, .values ["r".toList] none), ("cx".toList, .values ["cx".toList] none), ("cy".toList, .values ["cy".toList] none)] ++
      graphical ++ transformable
  | .line =>
    [("x1".toList, .values ["x1".toList] none), ("y1".toList, .values ["y1".toList] none), ("x2".toList, .values ["x2".toList] none),
     ("y2".toList, .values ["y2".toList] none)] ++ graphical ++ transformable
  | .polyline | .polygon => [("points".toList, .values ["points".toList] none)] ++ graphical ++ transformable
  | .path => [("d".toList, .values ["d".toList] none)] ++ graphical ++ transformable
  | .group => transformable
  | .clipPath => [("unit_type".toList, .values ["clipPathUnits".toList] (some (.inr "userSpaceOnUse".toList)))]
  | .mask => placed
  | .pattern => placed ++ linked
  | .text | .tspan =>
    placed ++ [("dx".toList, .values ["dx".toList] none), ("dy".toList, .values ["dy".toList] none)] ++ graphical ++ transformable
  | .image => placed ++ linked ++ fitted ++ graphical ++ transformable
  | .desc => [("desc".toList, .values ["desc".toList] none)]
  | .title => [("title".toList, .values ["title".toList] none)]
  | .svg => placed ++ fitted ++ transformable
  | .use => placed
  | .script | .hyperlink => linked
  | _ => []

/-- what a property can be: an attribute, None, a default, or an `ElementBuilder`, nodes.py:61-66, 386-390 -/
inductive Got (V : Type)
  | attr (v : V)
  | nothing
  | number (n : ℕ)
  | text (s : Str)
  | builder (c : Cls)
  deriving DecidableEq

/-- the default of a `Lookup`, as in nodes.py:709, 1385, 446 -/
def defaultOf : Option (ℕ ⊕ Str) → Got V
  | none => .nothing
  | some (.inl n) => .number n
  | some (.inr s) => .text s

/-- the first key that is there, nodes.py:1465-1468; one key is `values.get(key)`, nodes.py:709 -/
def firstOf (values : Dict V) : List Str → Option V
  | [] => none
  | k :: ks =>
    match dictGet values k with
    | some v => some v
    | none => firstOf values ks

/-- the body of a property, as in nodes.py:706-709, 1462-1468, 1840-1842 -/
def lookUp (d : Dom V) (i : ℕ) (n : NodeRec V) : Lookup → Except PyErr (Got V)
  | .own k =>
    match n.attrs with
    | none => .error .attributeError
    | some a => .ok (match dictGet a k with
      | some v => .attr v
      | none => .nothing)
  | .values ks dflt =>
    match getValues d i with
    | .error e => .error e
    | .ok values => .ok (match firstOf values ks with
      | some v => .attr v
      | none => defaultOf dflt)

/-- `element.name`: nodes.py:61-66 `__getattribute__`; a Mask (nodes.py:1394) is not a Node and does not have it. Simplified: attributes
that are not in `lookups` are all missing. -/
def getAttribute (d : Dom V) (i : ℕ) (name : Str) : Except PyErr (Got V) :=
  match d.nodes[i]? with
  | none => .error .attributeError
  | some n =>
    match (if n.cls = .mask then none else dictGet bootstrap (dashes name)) with
    | some c => .ok (.builder c)
    | none =>
      match dictGet (lookups n.cls) name with
      | none => .error .attributeError
      | some l => lookUp d i n l

end Svgio.Dom
