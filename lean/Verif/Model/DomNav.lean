import Verif.Model.Dom

/-!
Navigation in the document tree: svgio/nodes.py:126-202, 252-254, 277-282, 325-375. A Mask is not a node and has none of these attributes.
-/

namespace Svgio.Dom

variable {V : Type} [DecidableEq V]

/-- the object at an address, if its class is derived from `Node`: nodes.py:42, 1394 (Mask) -/
def asNode (d : Dom V) (i : ℕ) : Except PyErr (NodeRec V) :=
  match d.nodes[i]? with
  | none => .error .attributeError
  | some n => if n.cls = .mask then .error .attributeError else .ok n

/-- the object at an address, if its class is derived from `Element`: nodes.py:318 -/
def asElement (d : Dom V) (i : ℕ) : Except PyErr (NodeRec V) :=
  match d.nodes[i]? with
  | none => .error .attributeError
  | some n => if isElement n.cls then .ok n else .error .attributeError

/-- nodes.py:126-136 `first_child` -/
def firstChild (d : Dom V) (i : ℕ) : Except PyErr (Option ℕ) := do
  let n ← asNode d i
  if n.kids.length ≠ 0 then .ok n.kids[0]? else .ok none

/-- nodes.py:148-158 `last_child` -/
def lastChild (d : Dom V) (i : ℕ) : Except PyErr (Option ℕ) := do
  let n ← asNode d i
  if n.kids.length ≠ 0 then .ok n.kids[n.kids.length - 1]? else .ok none

/-- nodes.py:252-254 `has_child_nodes()` -/
def hasChildNodes (d : Dom V) (i : ℕ) : Except PyErr Bool := do
  let n ← asNode d i
  .ok (n.kids.length != 0)

/-- nodes.py:138-146 `is_connected` -/
def isConnected (d : Dom V) (i : ℕ) : Except PyErr Bool := do
  let n ← asNode d i
  .ok n.parent.isSome

/-- nodes.py:182-188 `owner_document` -/
def ownerDocument (d : Dom V) (i : ℕ) : Except PyErr (Option ℕ) := do
  let n ← asNode d i
  .ok n.doc

/-- nodes.py:190-194 `parent_element`, 196-202 `parent_node` -/
def parentNode (d : Dom V) (i : ℕ) : Except PyErr (Option ℕ) := do
  let n ← asNode d i
  .ok n.parent

/-- nodes.py:329-331 `child_element_count` -/
def childElementCount (d : Dom V) (i : ℕ) : Except PyErr ℕ := do
  let n ← asElement d i
  .ok n.kids.length

/-- nodes.py:365-367 `first_element_child` -/
def firstElementChild (d : Dom V) (i : ℕ) : Except PyErr (Option ℕ) := do
  let _ ← asElement d i
  firstChild d i

/-- nodes.py:369-371 `last_element_child` -/
def lastElementChild (d : Dom V) (i : ℕ) : Except PyErr (Option ℕ) := do
  let _ ← asElement d i
  lastChild d i

end Svgio.Dom
