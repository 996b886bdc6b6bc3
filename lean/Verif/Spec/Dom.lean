import Verif.Model.Dom

/-!
What documents should look like: XML trees, SVG element names, parents and children.
-/

namespace Svgio.Spec

open Svgio.Dom

variable {V : Type} [DecidableEq V]

/-! ### XML trees -/

mutual
/-- what an XML reader reports for an element: its start, its children, its end -/
def events : Xml V → List (Ev V)
  | .elem tag attrs kids => .start tag attrs :: eventsList kids ++ [.stop]
/-- the same for a list of elements -/
def eventsList : List (Xml V) → List (Ev V)
  | [] => []
  | x :: r => events x ++ eventsList r
end

mutual
/-- tags and attributes of all elements in document order -/
def elements : Xml V → List (Str × Dict V)
  | .elem tag attrs kids => (tag, attrs) :: elementsList kids
/-- the same for a list of elements -/
def elementsList : List (Xml V) → List (Str × Dict V)
  | [] => []
  | x :: r => elements x ++ elementsList r
end

/-- the SVG namespace as `xml.etree` writes it in tags -/
def svgNs : Str := "{http://www.w3.org/2000/svg}".toList

/-- the name of an SVG element; elements without a namespace count as SVG -/
def localName (tag : Str) : Str := if svgNs.isPrefixOf tag then tag.drop svgNs.length else tag

/-- the names of the SVG elements for which the library has a class -/
def svgNames : List (Str × Cls) :=
  [("a".toList, .hyperlink), ("circle".toList, .circle), ("clipPath".toList, .clipPath), ("defs".toList, .defs),
   ("desc".toList, .desc), ("ellipse".toList, .ellipse), ("g".toList, .group), ("image".toList, .image), ("line".toList, .line),
   ("linearGradient".toList, .linearGradient), ("marker".toList, .marker), ("mask".toList, .mask),
   ("metadata".toList, .metadata), ("path".toList, .path), ("pattern".toList, .pattern), ("polygon".toList, .polygon),
   ("polyline".toList, .polyline), ("radialGradient".toList, .radialGradient), ("rect".toList, .rect),
   ("script".toList, .script), ("style".toList, .style), ("svg".toList, .svg), ("symbol".toList, .symbol),
   ("text".toList, .text), ("title".toList, .title), ("tspan".toList, .tspan), ("use".toList, .use)]

/-- the class an element should get: that of its name, or `Node` -/
def classFor (tag : Str) : Cls := ((svgNames.find? (fun p => p.1 = localName tag)).map (·.2)).getD .node

/-- the tag is in the SVG namespace or in no namespace that looks like it -/
def NsOk (tag : Str) : Prop := "{http://www.w3.org/2000/svg".toList.isPrefixOf tag → svgNs.isPrefixOf tag

/-- elements whose names the library spells differently -/
def misspelt : List Str :=
  ["clipPath".toList, "linearGradient".toList, "radialGradient".toList, "clip-path".toList, "lineargradient".toList,
   "radialgradient".toList]

/-- elements that cannot be loaded -/
def rejected : List Str :=
  ["defs".toList, "marker".toList, "metadata".toList, "style".toList, "symbol".toList, "lineargradient".toList,
   "radialgradient".toList]

mutual
/-- no element is one of those that cannot be loaded, and masks are empty -/
def Loadable : Xml V → Prop
  | .elem tag _ kids => NsOk tag ∧ localName tag ∉ rejected ∧ (localName tag = "mask".toList → kids = []) ∧ LoadableList kids
/-- the same for a list of elements -/
def LoadableList : List (Xml V) → Prop
  | [] => True
  | x :: r => Loadable x ∧ LoadableList r
end

mutual
/-- The node at address `i`, child of `p`, and everything below it, is the element `x`: the same attributes, the children in
order. `C` relates tags and classes. -/
def Shows (C : Str → Cls → Prop) (d : Dom V) (i p : ℕ) : Xml V → Prop
  | .elem tag attrs kids => ∃ n : NodeRec V, d.nodes[i]? = some n ∧ C tag n.cls ∧ n.attrs = some attrs ∧ n.parent = some p ∧
      n.doc = some 0 ∧ ShowsList C d i n.kids kids
/-- the same for a list of children of `p` -/
def ShowsList (C : Str → Cls → Prop) (d : Dom V) (p : ℕ) : List ℕ → List (Xml V) → Prop
  | [], [] => True
  | i :: r, x :: xs => Shows C d i p x ∧ ShowsList C d p r xs
  | _, _ => False
end

/-! ### parents and children -/

/-- Parents and child lists agree; the document is the root and every node knows it. -/
structure Consistent (d : Dom V) : Prop where
  /-- the root is the document, without a parent -/
  root : ∃ r : NodeRec V, d.nodes[0]? = some r ∧ r.cls = .document ∧ r.parent = none
  /-- every other node has a parent, made before it: there are no cycles -/
  parent : ∀ (i : ℕ) (n : NodeRec V), d.nodes[i]? = some n → i ≠ 0 → ∃ p, p < i ∧ n.parent = some p
  /-- every node belongs to the document -/
  doc : ∀ (i : ℕ) (n : NodeRec V), d.nodes[i]? = some n → n.doc = some 0
  /-- a node's list holds exactly the nodes whose parent it is -/
  kids : ∀ (p : ℕ) (r : NodeRec V), d.nodes[p]? = some r → ∀ c, c ∈ r.kids ↔ ∃ n : NodeRec V, d.nodes[c]? = some n ∧ n.parent = some p
  /-- each once -/
  once : ∀ (p : ℕ) (r : NodeRec V), d.nodes[p]? = some r → r.kids.Nodup

/-- the value of attribute `k` on the closest of the node and its ancestors that has it -/
inductive Inherited (d : Dom V) : ℕ → Str → V → Prop
  | own {i n a k v} : d.nodes[i]? = some n → n.attrs = some a → dictGet a k = some v → Inherited d i k v
  | up {i n a k v p} : d.nodes[i]? = some n → n.attrs = some a → dictGet a k = none → n.parent = some p → Inherited d p k v →
      Inherited d i k v

/-- the node is the other one or below it -/
inductive Below (d : Dom V) : ℕ → ℕ → Prop
  | self {i} : Below d i i
  | up {i j p n} : d.nodes[i]? = some n → n.parent = some p → Below d p j → Below d i j

/-- `j` is at position `k` among the children of `p` -/
def ChildAt (d : Dom V) (p k j : ℕ) : Prop := ∃ r, d.nodes[p]? = some r ∧ r.kids[k]? = some j

/-- Two nodes have the same structure: as many children, of the same structure, whatever the classes and attributes. Masks have no
structure in common with others. -/
inductive Alike (d : Dom V) : ℕ → ℕ → Prop
  | mask {i n} : d.nodes[i]? = some n → n.cls = .mask → Alike d i i
  | node {i j a b} : d.nodes[i]? = some a → d.nodes[j]? = some b → a.cls ≠ .mask → b.cls ≠ .mask →
      a.kids.length = b.kids.length → (∀ x ∈ a.kids.zip b.kids, Alike d x.1 x.2) → Alike d i j

/-- Two nodes are the same but for their addresses: class, attributes and children. -/
inductive Same (d : Dom V) : ℕ → ℕ → Prop
  | node {i j a b} : d.nodes[i]? = some a → d.nodes[j]? = some b → a.cls = b.cls → a.attrs = b.attrs →
      a.kids.length = b.kids.length → (∀ x ∈ a.kids.zip b.kids, Same d x.1 x.2) → Same d i j

/-- the names under which the library saves the elements that it loaded under the same name -/
def kept : List Str :=
  ["circle".toList, "desc".toList, "ellipse".toList, "g".toList, "image".toList, "line".toList, "path".toList, "pattern".toList,
   "polygon".toList, "polyline".toList, "rect".toList, "script".toList, "svg".toList, "text".toList, "title".toList,
   "tspan".toList, "use".toList]

mutual
/-- only elements with these names -/
def Kept : Xml V → Prop
  | .elem tag _ kids => NsOk tag ∧ localName tag ∈ kept ∧ KeptList kids
/-- the same for a list of elements -/
def KeptList : List (Xml V) → Prop
  | [] => True
  | x :: r => Kept x ∧ KeptList r
end

mutual
/-- the tree with the names of the elements without the namespace -/
def unqualified : Xml V → Xml V
  | .elem tag attrs kids => .elem (localName tag) attrs (unqualifiedList kids)
/-- the same for a list of elements -/
def unqualifiedList : List (Xml V) → List (Xml V)
  | [] => []
  | x :: r => unqualified x :: unqualifiedList r
end

/-- the geometric properties of the shapes, in the order in which the documentation of the classes lists them -/
def geometry : Cls → List Str
  | .rect => ["x".toList, "y".toList, "width".toList, "height".toList, "rx".toList, "ry".toList]
  | .ellipse => ["cx".toList, "cy".toList, "rx".toList, "ry".toList]
  | .circle => ["cx".toList, "cy".toList, "r".toList]
  | .line => ["x1".toList, "y1".toList, "x2".toList, "y2".toList]
  | .polyline | .polygon => ["points".toList]
  | .path => ["d".toList]
  | _ => []

/-! ### start and end events -/

section
variable {T E : Type} [DecidableEq T] [DecidableEq E]

/-- what a reader of start and end events has: the elements that are open, innermost first, each with its finished children, and
the finished trees outside of them. An end must fit the innermost open element. -/
def feed : List (T × E × List (Item T E)) × List (Item T E) → List (T × Bool × E) →
    Option (List (T × E × List (Item T E)) × List (Item T E))
  | s, [] => some s
  | (stack, done), (t, true, e) :: r => feed ((t, e, []) :: stack, done) r
  | ([], _), (_, false, _) :: _ => none
  | ((t', e', ks) :: stack, done), (t, false, e) :: r =>
    if t = t' ∧ e = e' then
      match stack with
      | [] => feed ([], done ++ [.node t e ks]) r
      | (t2, e2, ks2) :: stack => feed ((t2, e2, ks2 ++ [.node t e ks]) :: stack, done) r
    else none

/-- the trees denoted by a sequence of start and end events, if it is well nested -/
def rebuild (evs : List (T × Bool × E)) : Option (List (Item T E)) :=
  match feed ([], []) evs with
  | some ([], done) => some done
  | _ => none

mutual
/-- all elements in document order -/
def inOrder : Item T E → List (T × E)
  | .bad => []
  | .node t e ks => (t, e) :: inOrderList ks
/-- the same for a list -/
def inOrderList : List (Item T E) → List (T × E)
  | [] => []
  | x :: r => inOrder x ++ inOrderList r
end

mutual
/-- a tree: every item is a triple -/
def IsTree : Item T E → Prop
  | .bad => False
  | .node _ _ ks => AreTrees ks
/-- the same for a list -/
def AreTrees : List (Item T E) → Prop
  | [] => True
  | x :: r => IsTree x ∧ AreTrees r
end
end

end Svgio.Spec
