import Verif.Model.Seg

/-!
The hash of a point.
-/

namespace Svgio.Pt

/-- basic.py:1478-1482 `hash(point)`. `hash2` is Python's `hash` of a pair of numbers. -/
def hash {K : Type} (hash2 : K × K → ℤ) (p : Pt K) : ℤ := hash2 (p.x, p.y)

end Svgio.Pt
