import Verif.Model.DomProps

/-!
Data of image elements: svgio/nodes.py:1647-1661, 1705-1751.
-/

namespace Svgio.Dom

/-- nodes.py:1654-1661: the beginnings of a data URL, with the number of characters that are dropped -/
def dataUrls : List (Str × ℕ) :=
  [("data:image/png;base64,".toList, 22), ("data:image/jpg;base64,".toList, 22), ("data:image/jpeg;base64,".toList, 23),
   ("data:image/svg+xml;base64,".toList, 26)]

/-- `url.startswith(prefix)`, nodes.py:1650 -/
def startsWith (s pre : Str) : Bool := pre.isPrefixOf s

/-- nodes.py:1654-1661: the first of the beginnings that fits -/
def dataUrl (url : Str) : Option ℕ := (dataUrls.find? fun p => startsWith url p.1).map (·.2)

/-- nodes.py:1647-1661 `image.data`: None, or `b64decode(self.url[n:])`. `self.url` is looked up like any attribute. `href` is a text or None,
and None has no `startswith`. -/
def imageData (b64 : Str → Str) (d : Dom Str) (i : ℕ) : Except PyErr (Option Str) := do
  match ← getAttribute d i "href".toList with
  | .attr url =>
    if startsWith url "data:image/".toList then
      match dataUrl url with
      | none => .ok none
      | some n =>
        match ← getAttribute d i "url".toList with
        | .attr u => .ok (some (b64 (u.drop n)))
        | _ => .error .typeError
    else .ok none
  | _ => .error .attributeError

/-- nodes.py:1705-1715 `image.load()`, with `pil` telling whether PIL can be imported; `opened` is what opening the image or the file does,
nodes.py:1717-1751, of which OSError is caught. `set_values_by_image` is looked up like any attribute. -/
def imageLoad (b64 : Str → Str) (pil : Bool) (opened : Except PyErr Unit) (d : Dom Str) (i : ℕ) : Except PyErr Unit :=
  if pil then do
    match ← imageData b64 d i with
    | some _ => opened
    | none =>
      match ← getAttribute d i "href".toList with
      | .attr _ => opened
      | _ => .ok ()
    let _ ← getAttribute d i "set_values_by_image".toList
    .ok ()
  else .ok ()

end Svgio.Dom
