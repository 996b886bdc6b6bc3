import Verif.Lemmas.RegexMore
import Verif.Model.Viewbox

/-!
C129: the text readers of the library are the regular expressions of constants.py. The patterns are the texts of
constants.py, compiled by `Regex.compile`; `Regex.run` gives all ways to match in the order in which Python's `re` tries
them. Every matcher that the other models use is equal to the pattern, on every text.
-/

namespace Svgio.Props

open Regex

/-- the first match of a compiled pattern at the beginning of the text -/
def reMatch (r : Option Re) (s : List Char) : Option St := r.bind (fun r => matchAt r 0 s)

/-- all matches of a compiled pattern, from the left, as `findall` gives them -/
def reFindall (r : Option Re) (s : List Char) : List St := r.elim [] (fun r => findall r s)

/-- group `n` of a match as `findall` shows it: empty if it took no part -/
def shown (q : St) (n : ℕ) : List Char := (q.group n).getD []

/-- **C129** (numbers): the model's matcher for numbers takes exactly the text that `PATTERN_FLOAT` matches. -/
theorem C129_float (s : List Char) :
    matchFloat s = (reMatch REGEX_FLOAT s).map (fun q => (s.take (s.length - q.rest.length), q.rest)) := by
  rw [float_eq]
  exact float_agree 0 s

example : matchFloat "-1.5e-3em".toList = some ("-1.5e-3".toList, "em".toList) := by decide +kernel

example : (reMatch REGEX_FLOAT "-1.5e-3em".toList).map (fun q => q.rest) = some "em".toList := by decide +kernel

/-- **C129** (numbers, `findall`): the numbers in a text, as for a viewBox, are all matches of `PATTERN_FLOAT` from the left; group 0 is
the whole match. -/
theorem C129_floats (s : List Char) :
    findAll matchFloat 0 s = (reFindall (REGEX_FLOAT.map (Re.grp 0)) s).map (fun q => shown q 0) := by
  rw [float_eq]
  refine findAll_findall (r := .grp 0 reFloat) ?_ (consumes_of_eats (eats_grp eats_float)) s
  intro n s
  rw [float_agree n s]
  unfold matchAt
  rw [run]
  cases run reFloat ⟨n, s, []⟩ with
  | nil => rfl
  | cons q l => rfl

example : findAll matchFloat 0 "0,-1 2.5.5x".toList = ["0".toList, "-1".toList, "2.5".toList, ".5".toList] := by decide +kernel

/-- **C129** (lengths): the number and the unit of a length text are the two groups of the first match of `REGEX_LENGTH`. -/
theorem C129_length (s : List Char) :
    Len.searchLength s = (reFindall REGEX_LENGTH s).head?.map (fun q => (shown q 1, shown q 2)) := by
  rw [length_eq]
  exact length_search s 0 (s.length + 1) (by omega)

example : Len.searchLength "a 12.5mm".toList = some ("12.5".toList, "mm".toList) := by decide +kernel

/-- **C129** (transforms): name and body of the functions in a transform text are the groups of all matches of
`REGEX_TRANSFORM_TEMPLATE`, and the parameters in a body are the groups of all matches of `REGEX_TRANSFORM_PARAMETER`, number and unit
joined. -/
theorem C129_transform (s : List Char) :
    findAll Transform.matchTemplate 0 s = (reFindall REGEX_TRANSFORM_TEMPLATE s).map (fun q => (shown q 1, shown q 2)) ∧
    findAll Transform.matchParam 0 s = (reFindall REGEX_TRANSFORM_PARAMETER s).map (fun q => shown q 1 ++ shown q 2) := by
  rw [template_eq, param_eq]
  exact ⟨findAll_findall (fun n s => template_match n s) (consumes_of_eats eats_template) s,
    findAll_findall (fun n s => param_match n s) (consumes_of_eats eats_param) s⟩

example : (reFindall REGEX_TRANSFORM_TEMPLATE "rotate(30deg, 1) skewx (2)".toList).map (fun q => (shown q 1, shown q 2))
    = [("rotate".toList, "30deg, 1".toList), ("skewx".toList, "2".toList)] := by decide +kernel

/-- **C129** (hexadecimal colours): a text is taken for a hexadecimal colour exactly if `REGEX_COLOR_HEX` matches it. -/
theorem C129_hex (s : List Char) : Color.matchHex s = (reMatch REGEX_COLOR_HEX s).isSome := by
  rw [hex_eq]
  exact hex_match s

example : Color.matchHex "#fA0".toList = true ∧ Color.matchHex "#fg0".toList = false := by decide +kernel

/-- **C129** (colour functions): the groups found for `rgb`, `rgb` with percentages and `hsl` are the groups of the three patterns. -/
theorem C129_colour (s : List Char) :
    (reMatch REGEX_COLOR_RGB s).map (fun q => (q.group 1, q.group 2, q.group 3, q.group 4))
      = (Color.matchFun "rgb".toList false false false s).map (fun g => (some g.1, some g.2.1, some g.2.2.1, g.2.2.2)) ∧
    (reMatch REGEX_COLOR_RGB_PERCENT s).map (fun q => (q.group 1, q.group 2, q.group 3, q.group 4))
      = (Color.matchFun "rgb".toList true true true s).map (fun g => (some g.1, some g.2.1, some g.2.2.1, g.2.2.2)) ∧
    (reMatch REGEX_COLOR_HSL s).map (fun q => (q.group 1, q.group 2, q.group 3, q.group 4))
      = (Color.matchFun "hsl".toList false true true s).map (fun g => (some g.1, some g.2.1, some g.2.2.1, g.2.2.2)) := by
  rw [rgb_eq, rgbp_eq, hsl_eq]
  exact ⟨fun_match _ _ _ _ s, fun_match _ _ _ _ s, fun_match _ _ _ _ s⟩

example : Color.matchFun "hsl".toList false true true "hsl(120, 50%, 25%, 0.5)".toList ≠ none := by decide +kernel

/-- **C129** (references): the id in a `url(#id)` text is the group of the first match of `REGEX_IRI`. -/
theorem C129_iri (s : List Char) : Dom.findIri s = (reFindall REGEX_IRI s).head?.bind (fun q => q.group 1) := by
  rw [iri_eq]
  exact iri_find s 0 (s.length + 1) (by omega)

example : Dom.findIri "url(#ab)".toList = some "ab".toList := by decide +kernel

/-- **C129** (path data): commands, numbers and flags of path data are read as the loops of the source read them with `svg_re`, `num_re`
and `flag_re`. -/
theorem C129_path {K : Type} [Field K] [LinearOrder K] (rd : List Char → K) (l : Lexer.Lx) :
    (∃ r, svg_re = some r ∧
      commandLoop r (l.rest.length + 1) l = ((Lexer.command l).1.map (fun c => [c]), (Lexer.command l).2)) ∧
    (∃ r, num_re = some r ∧ moreLoop r (l.rest.length + 1) l = Lexer.more l ∧
      ((numberLoop r (l.rest.length + 1) l).1.map rd, (numberLoop r (l.rest.length + 1) l).2) = Lexer.number rd l) ∧
    (∃ r, flag_re = some r ∧
      flagLoop r (l.rest.length + 1) l
        = ((Lexer.flag l).1.map (fun b => if b then ['1'] else ['0']), (Lexer.flag l).2)) :=
  ⟨⟨_, svg_eq, command_loop _ svg_eq _ l (by omega)⟩,
    ⟨_, num_eq, more_loop _ num_eq _ l (by omega), number_loop rd _ num_eq _ l (by omega)⟩,
    ⟨_, flag_eq, flag_loop _ flag_eq _ l (by omega)⟩⟩

example : Lexer.command ⟨" ,z1".toList, none⟩ = (some 'z', ⟨"1".toList, none⟩) := by decide +kernel

end Svgio.Props
