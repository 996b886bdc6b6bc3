import Verif.Model.PathLex

/-! Concrete runs of the lexer and the path data parser. -/

namespace Svgio

example : matchFloat "-12.50e+2,3".toList = some ("-12.50e+2".toList, ",3".toList) := by decide +kernel
example : matchFloat "1.5.5".toList = some ("1.5".toList, ".5".toList) := by decide +kernel
example : matchFloat "12.z".toList = some ("12".toList, ".z".toList) := by decide +kernel
example : matchFloat "1em".toList = some ("1".toList, "em".toList) := by decide +kernel
example : floatVal "-12.50e+2".toList = -1250 := by decide +kernel
example : floatVal ".5E-1".toList = 1/20 := by decide +kernel

namespace Lexer

/-- end points and error of a parse, for examples -/
def ends (s : String) : List (Option (Pt ℚ)) × Option PyErr :=
  let r := parse floatVal dummyArc [] s.toList
  (r.1.path.map Seg.stop, r.2)

example : ends "M1,1 2,2h3V-1z" =
    ([some ⟨1,1⟩, some ⟨2,2⟩, some ⟨5,2⟩, some ⟨5,-1⟩, some ⟨1,1⟩], none) := by decide +kernel
example : ends "m1,1l1-1.5.5 3L z" = ([some ⟨1,1⟩, some ⟨2,-1/2⟩, some ⟨5/2,5/2⟩, some ⟨1,1⟩, some ⟨1,1⟩], none) := by
  decide +kernel
example : ends "M0,0 L1" = ([some ⟨0,0⟩], some .valueError) := by decide +kernel
example : ends "M0,0H" = ([some ⟨0,0⟩], some .noneCoord) := by decide +kernel
example : ends "M0,0a1 1 0 0010 10" = ([some ⟨0,0⟩, some ⟨10,10⟩], none) := by decide +kernel

end Lexer

end Svgio
