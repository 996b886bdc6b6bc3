import Mathlib.Data.Nat.Notation
import Verif.Model.Py

/-!
Walking from node to node.
-/

namespace Svgio.Spec

/-- Starting here and going on with `next` until it answers None visits exactly these nodes, in this order. -/
inductive Walks (next : ℕ → Except PyErr (Option ℕ)) : Option ℕ → List ℕ → Prop
  | stop : Walks next none []
  | go {i n l} : next i = .ok n → Walks next n l → Walks next (some i) (i :: l)

end Svgio.Spec
