import Verif.Spec.PathData

/-! Path data that differ only in their separators. -/

namespace Svgio.Spec

/-- `SameText s s'`: the same characters outside separators, and each non-empty run of separators in one
corresponds to a non-empty run in the other; runs at the end may be empty. -/
inductive SameText : List Char → List Char → Prop
  | done (w w') : AllSep w → AllSep w' → SameText w w'
  | char (c s s') : ¬ IsSep c → SameText s s' → SameText (c :: s) (c :: s')
  | gap (w w' s s') : AllSep w → AllSep w' → w ≠ [] → w' ≠ [] → SameText s s' → SameText (w ++ s) (w' ++ s')

end Svgio.Spec
