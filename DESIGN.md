# A Lean 4 model of svgio

The code modelled is `/repo/svgio` (`basic.py`, `path.py`, `nodes.py`,
`constants.py`) at the pinned commit.  The properties are in
`properties.jsonl`, their status in `MANIFEST.json`.

## Layout

* `lean/Verif/Model/*.lean` – transcription of the Python functions. Every
  definition cites file and lines.
* `lean/Verif/Spec/*.lean` – small specifications, written without reference to
  the model's helper functions.
* `lean/Verif/Lemmas/*.lean` – helper lemmas.
* `lean/Verif/Props/*.lean` – the property theorems, with `example`s showing that
  the hypotheses can be met, and counterexample theorems where the code does not
  do what the English property says.

## Modelling conventions

* Numbers. Python floats are modelled by an arbitrary linearly ordered field `K`
  (instantiated by `ℚ` in examples; `ℝ` where `sqrt`, `sin`, `cos` are needed).
  Rounding, overflow, NaN, infinities and -0.0 are **not** modelled, except in the
  Color opacity/alpha theorems, where *any* rounding function of relative error
  at most 2^-53 is allowed, and in the `%.12G` / `%.12f` printing functions, which are
  modelled digit by digit. Python ints are `Int`.
* Strings are `List Char`. Each regular expression in `constants.py` is a
  hand-written matcher next to a comment with the expression. That these
  matchers are the regular expressions is proved (C129), from the texts of the
  expressions and a model of the `re` engine (Model/Regex.lean).
* Exceptions are values (`Except PyErr`), one constructor per Python exception
  class. Where the state at the time of the exception matters (path parsing)
  it is part of the result.
* Objects are values; in-place updates become functional updates. Where objects can
  be shared there is a second model with references: nodes (Model/Dom.lean) and the
  segments of paths (Model/PathHeap.lean). C140 shows that the model with values and the
  one with references agree as long as the segments given to paths are new.
* Loops whose termination is part of a claim are given fuel and an explicit
  `outOfFuel` error; the claim is that it is never produced.

## Plan per property

| id | model | proof |
|----|-------|-------|
| C01 | packed value `Option Int`, channel getters/setters with `Int` land/lor/shift | bitwise extensionality (`Int.testBit`) |
| C02 | `Color.__init__`, `rgb_to_int`, `crimp`, rounding functions abstract | error bound on `a/255*255`, then bits |
| C03 | argb/rgb/rgba setters | bitwise |
| C04 | hex printing of bytes, hex parsing | digit round trip per nibble, lists |
| C05 | `parse_color_hex` on char lists | case analysis on length; nibble arithmetic |
| C06 | keyword chain of `parse_color_lookup` | whole table evaluated by the kernel, lifted by normalisation lemma; aliceblue is a counterexample |
| C07 | `__eq__` | low 32 bits |
| C08 | opacity getter/setter, abstract rounding | error bound |
| C09 | `over` | integer inequalities |
| C10 | `distance_sq` | algebra; counterexample for "zero only on equal" |
| C11 | `hsl_to_int`, hue/saturation/lightness | range analysis; counterexample for write-back |
| C12 | `distinct` with an exact integer cube root | shell enumeration is a bijection; counterexample with the float root |
| C13 | Length parse / str | list lemmas on the regex matcher |
| C14–C18 | Length arithmetic by unit case analysis | field arithmetic; counterexamples for pt/pc and for `==` |
| C19–C21 | Point operations | field arithmetic; `Real.sqrt` for distance |
| C22 | hull loop over sorted points | angle about the first point grows; sides by transitivity of turns; counterexample with collinear points |
| C23–C24 | Angle over ℝ / ordered field with a positive `tau` | floor arithmetic; counterexample at the seam |
| C25–C29 | Matrix as six numbers, all mutators | `ring`, `field_simp`, trigonometric identities |
| C30 | transform list as parsed list of (name, params) plus the string level matcher | induction over the list |
| C31 | Matrix with Length translation entries | linearity of `value` |
| C32–C34, C75 | `viewbox_transform`, `set_viewbox` | order reasoning; printing lemma of C13 |
| C35 | lexer with fuel | measure: remaining input |
| C36 | lexer+builders | invariant over the run |
| C37 | lexer | simulation between strings equal up to separator runs |
| C38–C42 | lexer+builders against a command semantics (Spec) | induction over command lists |
| C43–C44 | lexer | induction over the run; counterexample for atomicity |
| C45 | `svg_d` and `d` of segments | refinement through C38; arcs only up to end points |
| C46 | `%.12G` and the strip | digit arithmetic; counterexample for exponents ending in 0 |
| C84, C85 | `str(segment)`, `Subpath.d` | as C45; counterexamples for smooth curves and Close |
| C47–C49 | path as list of segments with optional end points | invariant; counterexamples for insert/set/delete |
| C50–C51 | path + cache state machine, segment length abstract | invariant over histories; counterexample for reverse |
| C52–C53 | subpath windows | list induction |
| C54–C56 | reverse, copy, direct_close | list induction; counterexample for copy |
| C57,C64 | segment evaluation polynomials | `ring` |
| C58–C60 | bbox functions | factorised differences for quadratics; extreme points of a compact interval for cubics; counterexample for cubic |
| C88–C93 | the constructor of arcs with keywords | a third point of a circle lies on the arc on its side of the chord; half angles; the sweep found is the difference of the parameters modulo a turn |
| C94 | slices of a path | the bounds are those of Python; the edit is take and drop around the slice, then C48 for the repairs |
| C95, C96 | editing and transforming through a subpath | the window is a contiguous part; C49 and C57 transfer to it |
| C97 | box of a subpath | the boxes of C58–C60 and C86, and the least and greatest of a list |
| C98 | path data in place of a segment | as `extend` of the parsed segments |
| C99, C100 | arithmetic and powers of points | one value per operand type; vector laws by ring; powers by de Moivre up to rounding |
| C101, C102 | matrices and segments as sequences | Python's iteration over items as a loop with fuel; induction over the items |
| C103 | the forms of `Move` | case distinction over the arguments |
| C104 | how light a colour is | the bytes of the value; weighted sums with weights that add up to 1; with doubles: rounding keeps the order, and all 256 greys |
| C105, C106 | segments and boxes of shapes, boxes of images | the segments draw the image of the shape; boxes as in C97 |
| C107–C109 | transforms of segments, their lengths and boxes | algebra of matrices; the integrand of a length is multiplied by the factor; a tight box is unique |
| C110 | `repr` | Python calls as a small grammar (`Spec/PyCall.lean`); the printed numbers are close (C46), the constructor sets the points |
| C111 | hash of points | any hash of pairs; a chain of equal points joins any two points |
| C112 | path data to points | C38 (segments) with C57 and C78 (their points), by induction over the commands |
| C113 | operators of lengths, relative length as text | from C14 and C18 by the value of one unit |
| C114 | `abs(color)` | from C02: bytes are not changed by clamping |
| C115 | points of a path after reading | the agreement of path and pen kept by every command (C38); the first point of any path by cases on its first segment |
| C116 | children, parents and siblings | the invariant of C66; a walk is a list of steps |
| C117, C118 | the table of properties of all classes | the whole table by evaluation, lifted by C68 to all documents |
| C119 | loading, the property `d`, reading path data | C65, C117 and C112 combined |
| C120, C121, C122 | the same code with a rounding after every operation, in Python's order; doubles as one instance | exact cases by evaluation, errors added up operation by operation |
| C123 | the functions of an arc between points, parameters and angles | points of the ellipse through its frame of axes, angles through sine and cosine |
| C124 | the patterns and readers of the colour functions, as matchers on texts | a grammar with white space, the matcher proved equivalent to it; channels by cases of the hue |
| C125 | the matcher of numbers and their values | the grammar with positional values, by induction over the digits |
| C126 | printing and reading of numbers and paths, a rounding at each reading | a number near one of 12 digits has the same digits; the path by the printed commands (C45) |
| C127 | printing with 12 decimals, reading to the nearest double | nearest double is not further than the printed one; two doubles never differ by 1e-12 |
| C128 | the conversions between hue, saturation, lightness and channels, with a rounding after each operation | the wave of a channel along the circle is Lipschitz and periodic, so that a wrong branch costs little; the getters by the spacing of the channels |
| C129 | the patterns of `constants.py` as text, a compiler for them and a backtracking matcher giving all matches in order of preference; the loops of the path lexer with the patterns | each compiled pattern is computed once (`decide +kernel`) and its first match is described by continuation lemmas; the hand-written matchers used by the other models are equal to it |
| C130 | `Point(text)` with the pattern `REGEX_COORD_PAIR` run by the model of the `re` engine | the pattern is deterministic: the first number cannot be cut short because no gap begins with a character of a number; then the first suffix that matches |
| C131 | the three setters of a colour, with the conversion of C11 | the levels of CSS (C124) where the hue is small; far hues fall through all branches of the conversion |
| C132 | style sheets in the loop of `parse`: `REGEX_CSS_STYLE` run by the model of the `re` engine, then splitting at commas | induction over the rules of the sheet; the first way to match takes the whole selector text and the whole body |
| C133 | the text of all styles for an element, split again into declarations | texts with declarations stay such texts when joined with `;`; the last one wins |
| C134 | the loop over the events with its stack of values | mutual induction over the tree: an element leaves stack and values as they were; then induction along nested elements |
| C135 | the values of nested elements (C134), read by the transform parser of C30 | joining the lists of functions along the nesting |
| C136 | products of matrices and transformed segments with a rounding after each operation | rows of absolute values as a norm that is submultiplicative; induction over the brackets; a Bezier curve moves no further than its points |
| C137 | the inverse with a rounding after each operation | relative error of the determinant, its reciprocal and the entries |
| C138 | `==` and `!=` of segments and paths | case distinction over classes; induction over the two lists |
| C139 | the methods that a path has from `MutableSequence` | induction over the loop of `index`; `del path[-1]` changes nothing else, so that `clear` ends by induction; C49 for the other places |
| C140 | paths as lists of references to segment objects | every function again with reads and writes of objects; a simulation of separate lists, by induction over the history, with the invariant that no object is referred to twice |
| C141 | `bbox` of lines and Bezier curves with a rounding after every operation | the computed extreme parameters are exact for a nearby curve; its distance is bounded operation by operation |
| C142 | `Subpath.bbox` over the boxes of C141 | least and greatest of a list round nothing, so the errors of C141 carry over |
| C143 | `Path.point` and `_calc_lengths` with doubles | sums of doubles have a relative error per addition (induction); search by induction over the segments |
| C144 | `Point.convex_hull` and `orientation` with doubles | on a grid every operation is exact, then C22; members by induction; the endless walk by exhibiting its cycle |
| C145 | `Color.__init__` with every keyword | each keyword assignment on the channels of the value, using the lemmas of C25 and C80 |
| C146 | `Text.parse_font` and the pattern it uses, run by the regex engine | which alternative of each group matches first, by induction over the words and over the face |
| C147 | `Image.data` and `Image.load` on the tree of C65 | which attributes an image has, by the tables of `Model/DomProps.lean` |
| C148 | `Point.distance`, `Linear.length`, `Path.length` with doubles | relative error of each operation, then of the root; sums by induction; positions from C143 |
| C149 | `viewbox_transform` of elements and `Viewbox.transform` on the tree of C65, attributes being numbers, texts or viewboxes | inherited values by C68, then C34 |
| C150 | `Rect.position`, `Circle.center`, `Ellipse.center` with `Point(x, y)` | inherited values by C68; texts by C130 |
| C151 | `Arc.npoint`, `point_at_t`, `get_start_t`, `t_at_point`, `point_at_angle` with floats, the trigonometric functions off by one unit in the last place | errors of unit vectors in the plane; the test for the far side of the ellipse with the bounds of pi to 20 digits |
| C152 | `Matrix.pre_scale`, `post_scale`, `pre_rotate`, `post_rotate`, `pre_skew`, `post_skew`, `Angle.degrees` with floats | on doubles all products but those of the pivot are exact; the rest by the error of a transformed point (C122) |
| C153 | `Viewbox.viewbox_transform` with floats | the rounded scales keep their order up to the rounding (`min_near`, `max_near`), then the error of each shift; the text by C34 |
| C154 | `Point.polar`, `polar_to`, `angle_to`, exactly and with floats | argument and norm of complex numbers; with floats the error of `Point.angle` (C151) |
| C155 | `Angle` with floats: units, `==`, `normalized`, `as_positive_degrees`, `is_orthogonal` | the remainder is exact but for one rounding; adding 360 is exact from -2^55 to -360, moves at least 104 from -2^62 on, and not at all below; false near whole turns |
| C156 | reading path data with floats: `_rcoord`, `horizontal`, `vertical`, `smooth_point`, and the parser around them | simulation of the exact parser, command by command, on all texts; the distance grows by one rounding per relative command, and for reflected control points by two more of the current point |
| C157 | `Path.d` and `Path.parse` together, for coordinates that 12 digits cannot hold | the text writes commands with perturbed arguments; simulation of drawing them, position by position; the floats are added by C156 |
| C158 | the bisection `segment_length`, without scipy, for cubic curves and arcs | the speed is compared with the speed in the direction of the velocity in the middle of each piece, which bounds arc minus chord; induction over halving |
| C159 | the bisection `segment_length` with every operation rounded to doubles | ends at depth k are j/2^k and (j+1)/2^k; when their middle is no double they are neighbours and another step gains nothing. Lower bound: induction over levels, a factor lost at each |
| C160 | `Length`: `value`, `+`, `-`, the order, percentages, every operation rounded | roundings of a product are counted; the exact model is the specification; a difference of two doubles rounds to a number of the same sign |
| C161 | `is_smooth_from` | stated with derivatives of the points that `point(t)` gives; they are computed and compared with the differences the code compares |
| C162 | transform lists read from text, with floats | the matrix computed so far stays near to the exact one by a factor that is an exponential of the roundings so far; one lemma for a product of two near matrices, one for each elementary matrix, and induction over the list |
| C163 | arcs built from SVG parameters, with floats | every value is related to the exact one by a bound relative to a scale (`Lemmas/Scaled.lean`); the computed centre is near to a point from which both ends are seen on the same ellipse, because the factor of the centre and the radii enter both ends alike; the angle between the ends is bounded through its cosine, which costs half of the digits |
| C164 | points of arcs built from SVG parameters, with floats | C163 gives an ellipse near to the axes found and to the start; C151 says where the points are on the ellipse of these axes; the two ellipses are compared as images of the unit circle, so that the same sweep keeps near points near |
| C165 | box of an arc, with floats | both coordinates are waves `c + A cos t + B sin t` of the parameter; the angles found almost solve `A sin t = B cos t`, so the wave is near to one with an exact extreme there; the rounded positions are near to those of the extremes, one that falls outside of the arc is near to an end; C151 compares the computed points with the wave |
| C166 | box of an arc built from SVG parameters, with floats | C163 and the comparison of ellipses of C164 give the ends' distance from the ellipse that C165 asks for; a sweep that the code takes for 0 is almost a number of turns, so the ends would be near to each other |
| C167 | the parameters printed by `Arc.d` | the printed radii fit, so the reader does not enlarge them; the chord gives the cosine of the sweep, the flags then give the sweep, and chord and sweep give the start on the unit circle and with it the centre; with rounded radii, for circles: equal chords give nearly equal half angles, since the cosine of the half angle stays above one half |
| C168 | the constructor of arcs with positional arguments | case by case on the branches; the rest is the keyword constructor of C88–C93 and the SVG parameters of C78 |
| C169 | a length in pixels and in inches | by cases on the unit, against the value of C18 |
| C170 | items of a path by index, insertion and sums | the repairs of ends keep class and flags; the index by cases on its sign |
| C86, C87 | box and length of arcs | cosine waves: the extremes are at the angles tried; change of variables in the integral, and the bisection of C77 |
| C76–C77 | lengths of lines, quadratics and, by bisection, cubics | fundamental theorem of calculus; induction over the recursion |
| C61–C63, C78–C80 | arcs over ℝ | field + sqrt identities; directions as points of the unit circle; recursion over counts; counterexamples for transforms |
| C65–C73, C81–C83 | DOM as a rose tree / heap of nodes | structural induction; counterexamples for siblings, serialisation, builders |

Properties that turn out to be false of the code are kept: the negation is
proved with a witness, what does hold is proved under a name ending in `_partial`,
and the disagreement is listed below under "Findings".

## Trusted base

* Lean 4.33.0 kernel and the axioms `propext`, `Classical.choice`, `Quot.sound`
  (listed per theorem below once proved).
* That the model says what the Python code does: it was transcribed by reading.
* Not modelled: rendering of floats other than stated, the numpy and scipy paths (except numpy's interpolation of lines),
  XML tokenising (the `xml.etree` library), sharing of objects other than nodes and segments, the
  interpreter's recursion limit.

## What is modelled so far

* `basic.py`: `Color` (500-1434), `Length` (30-497, without `Length(None)`),
  `Point` (1437-1829, without polar coordinates; parsing in `Model/PointText.lean`), `Angle` (1832-1908, without trigonometry),
  `Matrix` (1911-2517, without printing), transform texts (2066-2165), `Viewbox` (2520-2688, without elements whose size is a `Length`).
* `path.py`: `PathLexicalParser` (22-326), the segment classes as data, the builders, editing, subpaths, reversing,
  `direct_close`, the length cache and position lookup of `Path` and `Subpath` (1948-3001).
* `path.py`, segments without arcs (334-1129): transforming, evaluation, boxes, closest point, lengths (without the scipy
  integral), reversing.
* `path.py`, arcs (1132-1762, 2765-2785): the SVG end point parameters, evaluation, transforming, reversing, curves in place of
  arcs. The tangent at its poles is replaced by a quarter turn. Other constructor forms, boxes and lengths of arcs are in the files named below.
* `nodes.py`: loading, builders, lookup, inheritance, siblings, equality, `xml()`, paint, references, `_shadow_iter` (42-563, 1974-1986,
  2308-2336; `Model/Dom.lean`). Nodes are addresses into a list, so sharing is visible. Not: text content, geometry of shapes, `render`,
  `Image`, and the objects that the module function `parse` (1989-2305) makes.
* The constructor of arcs with keyword arguments: path.py:1133-1378 (`Model/ArcCtor.lean`), over ℝ; with positional arguments and
  complex numbers in `Model/ArcPos.lean`.
* Slices of paths, path data in place of segments, and editing, transforming, comparing and boxes of subpaths: path.py:1966-2108,
  2372-2382, 2595-2633, 2760-2763, 2800-2952 (`Model/SubpathEdit.lean`, `Model/SegBox.lean`). Segments are values there; see
  the next entry.
* Paths as lists of references to segment objects, programs with several paths: path.py:1966-2108, 2244-2340, 2595-2688, 2800-3001
  (`Model/PathHeap.lean`). Points are values: all constructors and assignments copy them.
* Operators of points, items of points, matrices and segments, loops over them, forms of `Move`, and sums beginning with a segment or
  text: basic.py:1449-1739, 1927-2036, 2227-2235, path.py:376-414, 519-597, 2098-2106, 2690-2697 (`Model/PointOps.lean`,
  `Model/Sequence.lean`).
* Measures of colours: basic.py:1282-1323 (`Model/ColorMeasure.lean`), and the same with doubles (`Model/ColorMeasureFloat.lean`).
* Segments and boxes of lines and rectangles, boxes of images: nodes.py:653-668, 766-816, 1201-1217, 1753-1778 (`Model/Shapes.lean`).
  Circle, Ellipse, Polyline and Polygon are not modelled: their `segments` read `rx`, `rotation` or `points` where these do not exist.
* Lengths of segments as one function, with the integrand given to scipy: path.py:493-501, 671-675, 863-895, 1076-1093
  (`Model/SegLength.lean`). `scipy.integrate.quad` is a parameter.
* `repr` of points, matrices, angles, lengths, colours and segments and the constructors called by these texts
  (`Model/Repr.lean`), hashes of points (`Model/PointHash.lean`).
* Points of segments of any class as one function (`Model/Picture.lean`).
* Reversed operators of lengths and a relative length as text (`Model/LengthOps.lean`), navigation in the tree (`Model/DomNav.lean`).
* Properties of elements that show attributes (`Model/DomProps.lean`), segments of path, polyline, polygon, circle and ellipse elements
  (`Model/ElementShapes.lean`).
* Rounding to IEEE doubles without overflow (`Model/Ieee.lean`), and points, matrices and curves computed with a rounding after every
  operation (`Model/FloatGeom.lean`, `Model/FloatTransform.lean`, `Model/FloatBox.lean`,
  `Model/FloatLocate.lean`, `Model/FloatHull.lean`,
  `Model/FloatLength.lean`, `Model/FloatArc.lean`, `Model/FloatTurn.lean`, `Model/FloatViewbox.lean`, `Model/FloatAngle.lean`, `Model/Polar.lean`, `Model/FloatPath.lean`, `Model/FloatBisect.lean`, `Model/FloatUnits.lean`, `Model/FloatTransformText.lean`, `Model/FloatSvgArc.lean`, `Model/FloatArcBox.lean`); of `**`, `math.sqrt`, `sum`, `cos`, `sin`, `tan`, `acos`, `atan` and `atan2` only an error bound is assumed (C165 also assumes `sin(0) = 0`) (`FloatPow`, `FloatSqrt`,
  `FloatRoot`, `FloatSum`, `FloatTrig`, `FloatAcos`, `FloatAtan`). `C121_doubles` shows that doubles satisfy what `FloatRounding` assumes.
* Angles and parameters of arcs (`Model/ArcParams.lean`).
* Colours from arguments and keywords (`Model/ColorInit.lean`); font texts (`Model/Font.lean`); data of images (`Model/Image.lean`);
  viewBox, position and centre of elements (`Model/DomViewbox.lean`, `Model/DomPoints.lean`).
* Colours with floats (Model/ColorFloat.lean): `hsl_to_int`, `parse_color_hsl`, `parse_color_rgbp`, `hue`, `saturation`, `lightness`, with a rounding after each operation.
* Regular expressions (Model/Regex.lean, Model/RegexLex.lean): the subset of the pattern language used in `constants.py` (sets, escapes, groups, alternatives, greedy quantifiers, look-ahead, `^`, `$`), with `match`, `search`, `findall`; lazy quantifiers, back references and flags are not modelled, and `\d` means the ASCII digits.
* Points from texts (Model/PointText.lean); the setters `hue`, `saturation`, `lightness` (Model/ColorSet.lean).
* Style sheets, cascade and inherited values in the loop of `parse` in svgio/nodes.py:2025-2305 (Model/Css.lean), without the objects that are made from the values.
* What a path has from `MutableSequence` (`index`, `count`, `in`, `pop`, `remove`, `clear`), with Python's own code of these methods, and `!=` (`Model/PathSeq.lean`).
* Boxes and lengths of arcs: path.py:1454-1462, 1535-1570, 1889-1921 (`Model/ArcMeasure.lean`). The elliptic integral of scipy is
  taken to be exact.
* Printing of points and path data: basic.py:1525-1535, path.py:387-399, the methods `d` of the segments (599-606, 718-726, 737-745,
  897-927, 1095-1129, 1923-1945), 2699-2758, 2954-2956 (`Model/Print.lean`). `%.12G` and `%G` are modelled on rationals, correctly
  rounded; the parameters that `Arc.d` computes are given by a function there,
  and are modelled over the reals in `Model/ArcD.lean`.

Citations were at first written partly from memory and some ranges were wrong. All were later recomputed from the
source's syntax tree. Definitions without a citation are Python built-ins or proof devices such as fuel.

## Seeded bugs

`seeded/LOG.jsonl` has one line per attempt. Lines with `"survived": true` are edits that no theorem caught; their
note says why. Attempts before these lines were added were logged only when a theorem failed. A failure shows that
the proofs no longer go through, not by itself that the statement became false. `failed` may name a
lemma used by the property theorem rather than the property theorem itself.

## Findings

Places where the code does not do what the English property says, each with a theorem giving the witness.

| property | what happens | theorem |
|---|---|---|
| C14 | 1pt + 1pc is 13pt, but resolves to 17.3329 and not 1.3333 + 16 pixels | `C14_point_pica` |
| C15 | comparing 1in with 100px raises ValueError although both resolve at a known ppi | `C15_raises` |
| C15 | 12pt is not less than 1pc although 15.9996 < 16 | `C15_point_pica` |
| C16 | 12pt / 1pc is 1 | `C16_point_pica` |
| C17 | a length in px, pt, pc, mm, cm or in equals every length: `==` compares the left side with itself | `C17_all_equal` |
| C17 | 3pt is not equal to the number it resolves to: `in_pixels` divides where `value` multiplies | `C17_points` |
| C18 | vmin and vmax both use the height of the viewbox | `C18_vmin_vmax` |
| C22 | with collinear points the hull can leave an input point outside | `C22_collinear_wrong` |
| C24 | angles just below and at a whole turn are not equal although closer than the tolerance | `C24_seam` |
| C31 | percentages under a rotation are resolved along the wrong axis | `C31_percent_wrong` |
| C31 | lengths of two units in one list raise ValueError even if each can be resolved | `C31_units_refused` |
| C33 | with `defer`, or two spaces, in preserveAspectRatio the scale is not uniform | `C33_words_wrong` |
| C40 | a smooth command after a curve of the other kind reflects its control point | `C40_mixed_wrong` |
| C44 | V and A without numbers are ignored; a failed addition keeps the segments read so far | `C44_missing_ignored`, `C44_failed_add_not_atomic` |
| C47 | adding a fragment that does not start with a move leaves a gap | `C47_extend_fragment_not_connected` |
| C49 | some edits break connectivity; deleting a move repairs the wrong close | `C49_not_connected`, `C49_delete_move_off_by_one` |
| C50 | reverse and validate_connections leave a stale length; the error argument is ignored once cached | `C50_reverse_stale`, `C50_validate_stale`, `C50_error_ignored` |
| C53 | an index outside a subpath returns a segment of its neighbour | `C53_out_of_range_leaks` |
| C54 | reversing is wrong when drawn segments follow a close without a move | `C54_after_close_wrong` |
| C55 | the copy of a path is empty, so p + q loses p | `C55_copy_empty`, `C55_sum_drops_first` |
| C141 | with doubles, the box of the curve through (0,0), (0,65536), (0,65536), (0,-2^-39) ends at 0, although the curve goes up to 49152: the roots of the derivative cancel | `C141_cubic_wrong` |
| C143 | on a path of seven lines of the same length, `point(0.9999999999999999)` is the start of the last line: the sevenths add up to less, the search ends without a hit, and the last segment is evaluated at 0 | `C143_end_wrong` |
| C144 | `Point.convex_hull` never ends on four points, two near (1048576, 1048576), (12582912, 12582912) and (25165824, 25165824): the rounded orientations send the walk round two of them, and it ends only at the first | `C144_endless_wrong` |
| C145 | `Color(red=255, green=0, blue=0)` is transparent: without an argument the value starts as 0, alpha included, and the channels leave alpha as it is | `C145_transparent_wrong` |
| C145 | `Color(h=.., s=.., l=..)` is grey: each assignment converts back and forth, and black has no saturation to keep | `C145_hsl_wrong` |
| C146 | `parse_font` of named sizes sets the size 0; `larger` and `smaller` match as `large` and `small`, and the rest of the word becomes part of the face | `C146_names_wrong` |
| C146 | `parse_font` of a font without a generic family, such as `12px Arial`, raises IndexError | `C146_no_family_wrong` |
| C146 | `parse_font` of a text with two matches raises TypeError from `list(*...)` | `C146_two_wrong` |
| C147 | `image.data` raises AttributeError for every base64 data URL: it decodes `self.url`, which does not exist | `C147_data_wrong` |
| C147 | `image.data` of an image without href raises AttributeError instead of None | `C147_none_wrong` |
| C147 | `image.load()` raises AttributeError whenever PIL is installed: `set_values_by_image` does not exist | `C147_load_wrong` |
| C148 | the length of a line shorter than `2^-538` is 0: the squares of the differences underflow | `C148_tiny_wrong` |
| C149 | `svg.viewbox_transform` raises AttributeError for every loaded element with a viewBox; `Viewbox.transform(element)` is empty or fails, as the attributes are texts | `C149_loaded_wrong` |
| C149 | `viewbox_transform` of images and patterns always raises AttributeError: there is no attribute `viewbox` | `C149_image_wrong` |
| C149 | an svg element without x or y gets an empty transform instead of one for x = y = 0 | `C149_default_wrong` |
| C150 | the centre of a circle from a file has texts as coordinates | `C150_text_wrong` |
| C150 | the centre of a circle with cx and without cy raises IndexError | `C150_second_wrong` |
| C150 | the centre of a circle without cx has None for x | `C150_first_wrong` |
| C137 | a matrix of determinant -1 can be refused with ZeroDivisionError | `C137_lost_wrong` |
| C151 | all points of a closed arc whose sweep is an `Angle` of a full turn, or a tiny positive one, are its start | `C151_turn_wrong` |
| C155 | with doubles `Angle.degrees(3240) != Angle.degrees(0)` and `Angle.turns(11) != Angle.turns(0)`; `Angle.degrees(810)` is not orthogonal; `normalized()` of -2^-60 is tau | `C155_turns_wrong` |
| C155 | with doubles `as_positive_degrees` of -2^-60 is 360 | `C155_positive_wrong` |
| C155 | with doubles `as_positive_degrees` of -2^58 radians never ends | `C155_endless_wrong` |
| C45 | relative output loses digits: coordinates of 12 digits each, with different numbers of decimals, come back different | `C45_relative_wrong` |
| C157 | a relative step of 1.5e-10 is written as 1.5E-1, so the point read is 0.15 away | `C157_small_step_wrong` |
| C158 | `length(error, min_depth=0)` of a curve like the letter S is its chord, whatever `error` is | `C158_error_wrong` |
| C116 | a Mask has none of the properties of a node, though it can have children | `C116_mask_wrong` |
| C117 | groups have no properties for presentation attributes | `C117_group_wrong` |
| C160 | with doubles 10.01mm > 1.001cm, but not 1.001cm < 10.01mm | `C160_order_wrong` |
| C163 | an SVG arc whose radii are so small that their square is 0 in floats raises ZeroDivisionError; SVG enlarges them | `C163_tiny_wrong` |
| C163 | a large arc between ends that are very near to each other compared with the radius (2^-27 apart on a circle of radius 1) gets the sweep 0, so an almost full circle is lost | `C163_lost_wrong` |
| C162 | `skew` with one angle, which CSS allows, is ignored | `C162_skew_one_wrong` |
| C167 | an arc that turns by a full turn draws its whole ellipse; what `d()` prints for it is read back as a single point | `C167_full_turn_wrong` |
| C168 | six positional arguments with complex numbers in place of points are taken for SVG parameters: a quarter of a circle becomes a single point or a TypeError | `C168_complex_wrong` |
| C168 | start and end by position with `center`, `rx`, `ry`, `rotation` by name give an arc; all six by name are a TypeError | `C168_rotation_wrong` |
| C168 | None as the end among six positional arguments stays None, while the same arguments by name give an end | `C168_none_wrong` |
| C167 | radii are printed with 6 digits and ends with 12: half a circle of radius 0.9999996, printed with radius 1, is more than 0.0008 away when read back | `C167_digits_wrong` |
| C169 | `in_pixels()` of points and picas divides by the pixels per unit: 1pc is 16 pixels, but a sixteenth is given | `C169_pixels_wrong` |
| C59 | the box of a cubic curve whose third difference is 0 can miss part of the curve | `C59_wrong` |
| C60 | the closest point of a line that is a single point is the number 0 | `C60_degenerate_wrong` |
| C60 | with numpy the closest point of the infinite line is taken from the segment | `C60_numpy_wrong` |
| C62, C79 | a reflection that exchanges x and y does not reverse the sweep | `C62_wrong` |
| C63 | an arc with sweep 0, as from a zero radius, is dropped instead of becoming a line | `C63_zero_sweep_wrong` |
| C78 | with a negative radius the arc is drawn around the wrong centre | `C78_negative_wrong` |
| C79 | a skewed circle is drawn on a wrong ellipse | `C79_skew_wrong` |
| C45 | `path.d()`, `str(path)` and `repr(path)` always raise TypeError: `Path` has no `__abs__` | `C45_default_wrong` |
| C45 | a flat quadratic curve after a cubic one (or conversely) is printed as a smooth one and read back with another control point | `C45_mixed_wrong` |
| C46 | the point (1.5e-10, 0) is printed as `1.5E-1,0` | `C46_exponent_wrong` |
| C84 | `str(QuadraticBezier(0, 1+1j, 2))` has no control point; `str(Close(...))` no end | `C84_smooth_wrong`, `C84_close_wrong` |
| C84 | `segment.d(current)` is relative when the segment is flagged absolute, and conversely | `C84_flag_wrong` |
| C86 | the box of an arc with a radius of 0 has its sides in the wrong order, or is too small; of a full turn given as `Angle` it is a point | `C86_flat_wrong`, `C86_full_turn_wrong` |
| C87 | the lengths of these arcs are 0 | `C87_flat_wrong`, `C87_full_turn_wrong` |
| C88 | three points on a line raise ZeroDivisionError or give a centre with different distances | `C88_line_wrong` |
| C89 | `Arc(start=0, end=2, bulge=0)` raises ZeroDivisionError | `C89_zero_wrong` |
| C90 | without `ccw`, a half circle turns in the direction opposite to that of all smaller arcs | `C90_half_wrong` |
| C91 | `Arc(end=, center=, sweep=)` overwrites the end and leaves the start None | `C91_end_wrong` |
| C92 | `Arc(start=, end=, rx=, ry=, ccw=True)` turns away from its end | `C92_ccw_wrong` |
| C93 | `Arc(center=, rx=, ry=, rotation=, start=, end=)` raises TypeError | `C93_six_wrong` |
| C53 | a slice of a subpath with bounds outside it shows segments of its neighbours | `C53_slice_leaks` |
| C95 | `subpath += segment` puts it before the last segment, which leaves the subpath | `C95_append_wrong` |
| C95 | `subpath += path` adds nothing | `C95_append_path_wrong` |
| C95 | `del subpath[1:3]` makes the subpath show the beginning of the next one | `C95_slice_wrong` |
| C95 | `subpath + segment` has lost the segments of the subpath; `text + subpath` adds the whole path | `C95_sum_wrong`, `C95_text_sum_wrong` |
| C96 | `subpath *= matrix` leaves the path disconnected and its cached length as it was; `subpath * matrix` is empty | `C96_disconnected_wrong`, `C96_length_wrong`, `C96_product_wrong` |
| C97 | the box of the second subpath of a path also holds the end of the first | `C97_move_wrong` |
| C98 | `path[i] = text` raises AttributeError; `path.insert(i, text)` and relative path data do not do what they say | `C98_set_wrong`, `C98_insert_wrong`, `C98_relative_wrong` |
| C55 | `segment + path` loses the path, `segment + text` the segment, and `segment + segment` does not join them | `C55_segment_path_wrong`, `C55_segment_text_wrong`, `C55_segments_wrong` |
| C100 | the coordinates of `point ** n` are rounded to whole numbers; powers of points left of the y axis are taken from the wrong angle, and those of points on it fail | `C100_round_wrong`, `C100_left_wrong`, `C100_zero_wrong` |
| C101 | a loop over a matrix never ends | `C101_iteration_wrong` |
| C102 | a loop over a segment gives None where two neighbouring points are missing; an inner loop over the same segment ends the outer one | `C102_gap_wrong`, `C102_nested_wrong` |
| C103 | `Move(point, relative=True)` has no end | `C103_relative_wrong` |
| C104 | the intensity of white is 765/768 | `C104_intensity_wrong` |
| C104 | with doubles, the luminance of white is 0.9999999999999999 | `C104_white_wrong` |
| C105 | a line without a transform has no segments; no rectangle has; also not with `is_degenerate` added, if it has no radii | `C105_line_wrong`, `C105_rect_wrong`, `C105_rect_radii_wrong` |
| C106 | the box of an image without a transform fails; without a size it ignores `transformed=False` | `C106_no_transform_wrong`, `C106_no_size_wrong` |
| C107 | turning an arc by a quarter and then mirroring it changes the sign of its sweep; the product of the matrices does not | `C107_arc_wrong` |
| C110 | `repr(Color(None))` is `Color('None')`, which evaluates to black | `C110_color_wrong` |
| C110 | an angle just below a full turn is printed as a number above a full turn | `C110_angle_wrong` |
| C111 | points that compare equal have different hashes | `C111_hash_wrong` |
| C64 | a full turn whose sweep is an `Angle` is drawn as one point, and as a circle after `reverse()` | `C64_full_wrong` |
| C112 | an arc with a radius 0 is not drawn as a straight line | `C112_radius_wrong` |
| C113 | a percentage of a length 0 is the length 0%, which does not resolve | `C113_zero_wrong` |
| C113 | `Length('50%') * Length('50%')` is 2500% | `C113_percent_wrong` |
| C18 | a percentage of the text "0px" does not resolve | `C18_text_wrong` |
| C116 | `parent_element` of the root element is the document | `C116_root_wrong` |
| C116 | `first_element_child` may be a node that is no Element | `C116_element_wrong` |
| C67 | an element of an unknown tag found by its id has no `id` | `C67_id_wrong` |
| C105 | circles and ellipses have no segments (AttributeError), polylines and polygons neither (None) | `C105_circle_wrong`, `C105_poly_wrong` |
| C117 | `href` is the `xlink:href` if both are there; `use`, `a` and `clipPath` elements lack properties; a rectangle without a width has width 1; `title.title` and `desc.desc` are builders | `C117_href_wrong`, `C117_missing_wrong`, `C117_default_wrong`, `C117_title_wrong` |
| C118 | only the closest of nested transforms is given | `C118_nested_wrong` |
| C119 | the transform of a path element does not move its segments | `C119_transform_wrong` |
| C120 | without numpy, `Line((1e17, 0), (1, 0)).point(1)` is (0, 0) | `C120_end_wrong` |
| C121 | a point with the coordinate 2^-34 that is moved by 2^20 and back is not equal to itself | `C121_back_wrong` |
| C123 | `arc.get_ellipse()` always raises NameError, `path.py` does not import `Ellipse` | `C123_ellipse_wrong` |
| C124 | `rgb(1.5,2,3)` raises ValueError | `C124_decimal_wrong` |
| C124 | `hsl(720,100%,50%)` is black, not red: only one turn is taken off a hue | `C124_hue_wrong` |
| C124 | `hsl(0,0%,50%)` is 127 127 127 and `rgb(50%,50%,50%)` is 128 128 128 | `C124_cut_wrong` |
| C124 | upper-case names, a percent opacity, hues with a unit and spaces instead of commas give opaque black without an error | `C124_other` |
| C126 | 1.5e-10 is saved as 1.5E-1, and then as 0.15 | `C126_exponent_wrong` |
| C128 | cyan written back from its own hue, saturation and lightness is `#00feff`, and so is `hsl(180,100%,50%)`: the channels are cut instead of rounded | `C128_back_wrong`, `C128_cyan_wrong` |
| C130 | `Point(str(Point(1.5e-10, 0)))` is `Point(0.15, 0)` | `C130_str_wrong` |
| C131 | assigning `saturation` or `lightness` to a colour of hue 7/3 degrees or more, or its own `hue`, makes it grey | `C131_grey_wrong`, `C131_turns_wrong` |
| C132 | `parse`: an empty rule `c{}` spoils the selector of the next rule; a comment becomes a part of a selector | `C132_empty_rule_wrong`, `C132_comment_wrong` |
| C133 | `parse`: `.a{fill:red}` and `style="stroke:blue"` together give neither; likewise `*{fill:red} rect{stroke:blue}`; classes are separated by single spaces only | `C133_separator_wrong`, `C133_class_wrong` |
| C134 | `parse`: a `style` element without a text raises TypeError | `C134_empty_style_wrong` |
| C134 | `parse`: `xmlns:fill="uri"` sets the fill of the elements after it | `C134_namespace_wrong` |
| C132-C134 | `parse` always fails with AttributeError, since `SVG._use_structure_parse` (nodes.py:2025) does not exist | read from the code; the model starts after this call |
| C138 | `==` of paths is not transitive: the tolerance of 1e-12 adds up over two comparisons | `C138_transitive_wrong` |
| C139 | `path.pop(-2)` leaves a gap: `__delitem__` does not resolve negative indices before it repairs the connection | `C139_pop_wrong` |
| C140 | a segment given to a second path is shared: `q.append(p[1])` moves the start of the line in `p`, `Path(subpath)` and `Path(p[0:2])` are transformed together with `p`, `segment + subpath` changes the path of the subpath, and a segment held twice is transformed twice | `C140_shared_wrong` |
| C85 | `subpath.d(smooth=False)` uses short forms | `C85_smooth_ignored_wrong` |
| C65 | loading `defs`, `marker`, `metadata`, `style` or `symbol` raises TypeError; a mask with children AttributeError | `C65_fails_wrong`, `C65_mask_wrong` |
| C65 | `linearGradient`, `radialGradient` and `clipPath` are loaded as plain nodes | `C65_class_wrong` |
| C66 | `document.add(node)` leaves the node in two lists, with its old parent | `C66_add_wrong` |
| C67 | elements made by builders are never found by id | `C67_builder_wrong` |
| C68 | `get_values` of an image made by a builder raises AttributeError | `C68_image_wrong` |
| C69 | the next sibling of the second of two equal siblings is itself | `C69_equal_wrong` |
| C69 | `previous_element_sibling` is the next sibling | `C69_previous_element_wrong` |
| C70 | `a` is saved as `hyperlink`, unknown elements as `node`; masks cannot be saved | `C70_names_wrong`, `C70_mask_wrong` |
| C70 | `document.write` writes `Document(...)`, which is not XML | `C70_write_wrong` |
| C71 | `stroke` with an inherited `stroke-opacity` always raises RecursionError | `C71_stroke_wrong` |
| C72 | `url('#a')`, names with line breaks and texts with two references are not resolved | `C72_quotes_wrong`, `C72_newline_wrong`, `C72_two_wrong` |
| C81 | `circle(1, 2, 3)` has no center; `defs`, `image` and others refuse attributes | `C81_circle_wrong`, `C81_arguments_wrong` |
| C82 | a rectangle without `x` takes the `x` of an ancestor | `C82_inherited_wrong` |
| C83 | a rectangle and a circle with other attributes are equal nodes | `C83_different_wrong` |
| C74 | npoint is wrong when some segment gets no position | `C74_npoint_wrong` |

Seen while modelling transform texts, without a theorem: `ex` is not among the units, so `2ex` is 2 pixels; a function with empty parentheses is ignored. Seen while modelling nodes:
the text inside elements is not kept; `xml()` imports a module that Python 3.9 removed.

The findings about `Color` (C06, C10, C11, C12) are in the notes of `MANIFEST.json`.

## Axioms per theorem

Generated from `#print axioms` for every theorem in `MANIFEST.json` (prefix `Svgio.Props.`).

* `Classical.choice`, `Quot.sound`, `propext`: `C01_channel_set_get`, `C01_channel_none`, `C02_rgb`, `C02_rgba`, `C03_argb`, `C03_rgb`, `C03_rgba`, `C04_hex_round_trip`, `C05_hex_text`, `C05_case`, `C06_keywords_partial`, `C06_aliceblue_wrong`, `C06_transparent`, `C06_unknown_black`, `C07_eq_iff`, `C07_low_bits`, `C08_opacity_write_back`, `C08_opacity_set`, `C08_opacity_none`, `C09_over_extremes`, `C09_over_between`, `C09_over_none`, `C09_blend`, `C10_distance_partial`, `C10_distance_zero_close_partial`, `C100_power_partial`, `C100_zero_wrong`, `C100_left_wrong`, `C100_round_wrong`, `C101_items_partial`, `C102_list_partial`, `C102_points_partial`, `C104_luminance`, `C104_order`, `C104_brightness`, `C104_intensity_wrong`, `C104_float`, `C104_float_brightness`, `C104_white_wrong`, `C105_line_partial`, `C105_line_wrong`, `C105_rect_partial`, `C105_rect_wrong`, `C105_rect_radii_wrong`, `C105_round_partial`, `C105_circle_wrong`, `C105_poly_wrong`, `C106_tight_partial`, `C106_no_transform_wrong`, `C106_no_size_wrong`, `C107_compose_partial`, `C107_arc_wrong`, `C108_rigid`, `C108_scale`, `C108_reverse`, `C108_scipy`, `C109_scale_partial`, `C109_reverse_partial`, `Svgio.Arc.C109_arc_scale_partial`, `Svgio.Arc.C109_arc_reverse_partial`, `C11_hsl_turns_partial`, `C11_hsl_range`, `C11_hsl_grey`, `C11_getters_range`, `C11_write_back_fails`, `C110_point`, `C110_matrix`, `C110_segment`, `C110_arc`, `C110_length`, `C110_color_partial`, `C110_color_wrong`, `C110_angle_partial`, `C110_angle_wrong`, `C111_same_partial`, `C111_hash_wrong`, `C112_picture_partial`, `C112_radius_wrong`, `C113_signs`, `C113_reflected`, `C113_percent_partial`, `C113_percent_wrong`, `C114_abs`, `C115_points`, `C115_first`, `C115_smooth_partial`, `C116_walk_partial`, `C116_up`, `C116_count`, `C116_elements_partial`, `C116_root_wrong`, `C116_element_wrong`, `C117_own_partial`, `C117_presentation`, `C117_href_wrong`, `C117_missing_wrong`, `C117_default_wrong`, `C117_title_wrong`, `C117_group_wrong`, `C118_transform_partial`, `C118_nested_wrong`, `C119_file_partial`, `C119_same`, `C119_transform_wrong`, `C12_distinct_partial`, `C12_float_root_collision`, `C12_distinct_wrong`, `C120_curves`, `C120_lines_partial`, `C120_end_wrong`, `C121_doubles`, `C121_identity`, `C121_inverse`, `C121_back_partial`, `C121_back_wrong`, `C122_transform`, `C122_point`, `C122_equal`, `Svgio.Arc.C123_t`, `Svgio.Arc.C123_angle`, `Svgio.Arc.C123_back`, `Svgio.Arc.C123_circular`, `Svgio.Arc.C123_ellipse_wrong`, `C124_rgb`, `C124_percent`, `C124_hsl_partial`, `C124_other`, `C124_decimal_wrong`, `C124_hue_wrong`, `C124_cut_wrong`, `C125_read`, `C125_only`, `C126_settles`, `C126_same_number`, `C126_exponent_wrong`, `C126_path_partial`, `C127_same_text`, `doubles_apart`, `C128_hsl_partial`, `C128_percent`, `C128_back_partial`, `C128_back_wrong`, `C128_cyan_wrong`, `C129_float`, `C129_floats`, `C129_length`, `C129_transform`, `C129_hex`, `C129_colour`, `C129_iri`, `C129_path`, `C13_reads`, `C13_no_number`, `C13_round_trip`, `C130_reads`, `C130_error`, `C130_str_partial`, `C130_str_wrong`, `C131_none`, `C131_hue_partial`, `C131_others_partial`, `C131_grey_wrong`, `C131_turns_wrong`, `C132_sheets_partial`, `C132_empty_rule_wrong`, `C132_comment_wrong`, `C133_cascade_partial`, `C133_separator_wrong`, `C133_class_wrong`, `C134_values_partial`, `C134_lines_partial`, `C134_own_partial`, `C134_nearest`, `C134_transform`, `C134_currentColor`, `C134_empty_style_wrong`, `C134_namespace_wrong`, `C135_nested`, `C135_document`, `C135_none`, `C136_product`, `C136_segment`, `C137_back`, `C137_singular`, `C137_lost_wrong`, `C138_path`, `C138_laws_partial`, `C138_transitive_wrong`, `C139_index`, `C139_count`, `C139_pop_last`, `C139_clear`, `C139_pop_partial`, `C139_remove_partial`, `C139_pop_wrong`, `C14_add_partial`, `C14_refuses`, `C14_point_pica`, `C140_history_partial`, `C140_unique_partial`, `C140_frame`, `C140_shared_wrong`, `C141_line`, `C141_quadratic`, `C141_touched_partial`, `C141_cubic_partial`, `C141_cubic_wrong`, `C142_tight_partial`, `C142_polygon`, `C143_point_partial`, `C143_inside`, `C143_zero`, `C143_outside`, `C143_end_wrong`, `C144_grid_partial`, `C144_members_partial`, `C144_endless_wrong`, `C145_channels`, `C145_args`, `C145_names`, `C145_packed`, `C145_none`, `C145_transparent_wrong`, `C145_hsl_wrong`, `C146_font_partial`, `C146_bare`, `C146_names_wrong`, `C146_no_family_wrong`, `C146_two_wrong`, `C147_other_partial`, `C147_data_wrong`, `C147_none_wrong`, `C147_load_wrong`, `C148_length`, `C148_point_partial`, `C148_tiny_wrong`, `C149_built_partial`, `C149_raises`, `C149_others`, `C149_loaded_wrong`, `C149_image_wrong`, `C149_default_wrong`, `C15_compare_partial`, `C15_raises`, `C15_point_pica`, `C150_numbers_partial`, `C150_others`, `C150_pair_wrong`, `C150_box_wrong`, `C150_text_wrong`, `C150_second_wrong`, `C150_first_wrong`, `C151_ends`, `C151_ellipse`, `C151_follows`, `C151_closed`, `C151_turn_wrong`, `C152_scale`, `C152_turn`, `C152_units`, `C152_degrees`, `C152_back`, `C152_skew`, `C153_numbers`, `C153_text`, `C153_corner`, `C153_none`, `C154_polar`, `C154_back`, `C154_float`, `C154_float_back`, `C155_back`, `C155_normalized`, `C155_equal`, `C155_close_partial`, `C155_turns_partial`, `C155_positive_partial`, `C155_ends_partial`, `C155_orthogonal`, `C155_turns_wrong`, `C155_positive_wrong`, `C155_endless_wrong`, `C156_drift`, `C156_absolute`, `C156_meaning`, `C156_adds_up`, `C157_drift`, `C157_plain`, `C157_loaded`, `C157_small_step_wrong`, `C158_cubic`, `C158_cubic_fast`, `C158_arc`, `C158_error_wrong`, `C159_ends`, `C159_polygon`, `C159_cubic`, `C16_quotient_partial`, `C16_number`, `C16_point_pica`, `C160_value`, `C160_mul`, `C160_float`, `C160_add`, `C160_compare`, `C160_compare_units`, `C160_order_wrong`, `C161_after_curve`, `C161_after_other`, `C162_list`, `C162_skew_one_wrong`, `C163_arc`, `C163_flat`, `C163_tiny_wrong`, `C163_lost_wrong`, `C164_points`, `C165_box`, `C166_box`, `Svgio.Arc.C167_read_back`, `Svgio.Arc.C167_again`, `Svgio.Arc.C167_svg`, `Svgio.Arc.C167_circle_digits`, `Svgio.Arc.C167_full_turn_wrong`, `Svgio.Arc.C167_digits_wrong`, `Svgio.Arc.C168_names_partial`, `Svgio.Arc.C168_native_partial`, `Svgio.Arc.C168_svg`, `Svgio.Arc.C168_complex_wrong`, `Svgio.Arc.C168_rotation_wrong`, `Svgio.Arc.C168_none_wrong`, `C169_inches`, `C169_pixels_wrong`, `C17_all_equal`, `C17_points`, `C170_insert`, `C18_percent`, `C18_linear`, `C18_physical`, `C18_text_partial`, `C18_text_wrong`, `C19_equality`, `C19_not_transitive`, `C20_orientation`, `C21_reflection`, `C21_distance`, `C21_towards_distance`, `C22_terminates_partial`, `C22_sides_partial`, `C22_collinear_wrong`, `C23_units`, `C23_parse`, `C23_refuse_partial`, `C24_turns_partial`, `C24_close_partial`, `C24_seam`, `C24_positive_degrees`, `C25_product`, `C26_monoid`, `C27_inverse`, `C28_angles`, `C29_rotate`, `C30_list`, `C30_concat`, `C31_late_partial`, `C31_product_partial`, `C31_percent_axes`, `C31_percent_wrong`, `C31_units_refused`, `C32_none`, `C33_align`, `C33_default`, `C33_words_wrong`, `C34_text`, `C35_parse_terminates`, `C36_connected_partial`, `C36_close_first_not_connected`, `C37_separators`, `C38_svg_partial`, `C38_text_meaning`, `C39_relative_equivalent`, `C40_smooth_quad_partial`, `C40_smooth_cubic_partial`, `C40_mixed_wrong`, `C41_close_returns`, `C41_z_adds_close`, `C42_segment_completing_close`, `C43_incremental`, `C44_unknown_stops`, `C44_missing_partial`, `C44_missing_ignored`, `C44_failed_add_not_atomic`, `C45_absolute`, `C45_exact_partial`, `C45_equal_partial`, `C45_default_wrong`, `C45_mixed_wrong`, `C45_relative_wrong`, `C46_coordinate_partial`, `C46_exact_partial`, `C46_exponent_wrong`, `C46_point`, `C47_building_connected`, `C47_extend_fragment_not_connected`, `C48_validate_connections`, `C48_is_valid`, `C49_insert_partial`, `C49_setitem_partial`, `C49_delitem_partial`, `C49_insert_move_partial`, `C49_setitem_move_partial`, `C49_delitem_move_partial`, `C49_not_connected`, `C49_delete_move_off_by_one`, `C50_reverse_stale`, `C50_validate_stale`, `C51_point`, `C51_point_ends`, `C52_subpaths`, `C53_slice_partial`, `C53_equal`, `C54_reverse_partial`, `C54_after_close_wrong`, `C55_iadd_partial`, `C55_text_sum_partial`, `C55_sum_drops_first`, `C55_segment_path_wrong`, `C55_segments_wrong`, `C56_direct_close`, `C58_tight`, `C60_bbox`, `C59_tight_partial`, `C59_touched_partial`, `C59_wrong`, `C60_bbox`, `C60_box`, `C60_closest_partial`, `C60_bbox`, `C60_numpy_wrong`, `Svgio.Arc.C61_parameters`, `Svgio.Arc.C62_arc_partial`, `Svgio.Arc.C62_signs_partial`, `Svgio.Arc.C62_wrong`, `Svgio.Arc.C63_curves`, `Svgio.Arc.C63_replace`, `Svgio.Arc.C63_zero_sweep_wrong`, `C64_reverse`, `C64_arc_partial`, `C64_full_wrong`, `C65_tree_partial`, `C65_succeeds_partial`, `C65_fails_wrong`, `C65_mask_wrong`, `C65_class_wrong`, `C66_consistent`, `C66_builder`, `C66_add_wrong`, `C67_load_partial`, `C67_builder_wrong`, `C67_id_partial`, `C67_id_wrong`, `C68_inherited_partial`, `C68_loaded`, `C68_image_wrong`, `C69_siblings_partial`, `C69_root`, `C69_equal_wrong`, `C69_previous_element_wrong`, `C69_next_element_partial`, `C70_xml_partial`, `C70_names_wrong`, `C70_mask_wrong`, `C70_write_wrong`, `C71_fill`, `C71_stroke_partial`, `C71_stroke_wrong`, `C72_url_partial`, `C72_finds_partial`, `C72_newline_wrong`, `C72_quotes_wrong`, `C72_two_wrong`, `C74_npoint_partial`, `C74_npoint_wrong`, `C75_reads`, `C75_round_trip`, `C75_short`, `C76_length`, `C76_line`, `C77_bisection`, `Svgio.Arc.C78_arc`, `Svgio.Arc.C78_negative_wrong`, `Svgio.Arc.C79_transform_partial`, `Svgio.Arc.C62_signs_partial`, `Svgio.Arc.C79_skew_wrong`, `Svgio.Arc.C62_wrong`, `Svgio.Arc.C80_cubics`, `Svgio.Arc.C80_quads`, `C81_builder_partial`, `C81_clip_path`, `C81_circle_wrong`, `C81_arguments_wrong`, `C82_own_partial`, `C82_inherited_wrong`, `C83_equal_partial`, `C83_different_wrong`, `C84_segment_partial`, `C84_smooth_wrong`, `C84_close_wrong`, `C84_flag_wrong`, `C85_subpath_partial`, `C85_smooth_ignored_wrong`, `Svgio.Arc.C86_tight_partial`, `Svgio.Arc.C86_flat_wrong`, `Svgio.Arc.C86_full_turn_wrong`, `Svgio.Arc.C87_length`, `Svgio.Arc.C87_circle`, `Svgio.Arc.C87_full_turn_wrong`, `Svgio.Arc.C87_flat_wrong`, `Svgio.Arc.C88_three_points_partial`, `Svgio.Arc.C88_line_wrong`, `Svgio.Arc.C89_sagitta_partial`, `Svgio.Arc.C89_bulge_partial`, `Svgio.Arc.C89_zero_wrong`, `Svgio.Arc.C90_radius_partial`, `Svgio.Arc.C90_half_wrong`, `Svgio.Arc.C91_center_partial`, `Svgio.Arc.C91_sweep`, `Svgio.Arc.C91_end_wrong`, `Svgio.Arc.C92_quarter_partial`, `Svgio.Arc.C92_ccw_wrong`, `Svgio.Arc.C93_box_partial`, `Svgio.Arc.C93_turned_partial`, `Svgio.Arc.C93_six_wrong`, `C94_set`, `C94_del`, `C95_set_partial`, `C95_del_partial`, `C95_radd_partial`, `C95_set_slice_partial`, `C95_append_wrong`, `C95_append_text_wrong`, `C95_append_path_wrong`, `C95_slice_wrong`, `C95_sum_wrong`, `C95_text_sum_wrong`, `C96_transform`, `C96_product_wrong`, `C96_disconnected_wrong`, `C96_length_wrong`, `C97_tight_partial`, `C97_none`, `C97_move_wrong`, `C98_append_partial`, `C98_insert_wrong`, `C98_relative_wrong`, `C99_type_error`
* `Quot.sound`, `propext`: `C101_iteration_wrong`, `C102_len`, `C102_gap_wrong`, `C102_nested_wrong`, `C103_forms_partial`, `C103_relative_wrong`, `C113_zero_wrong`, `C138_segment`, `C169_pixels_partial`, `C169_none`, `C17_equal_partial`, `C17_number_partial`, `C170_getitem`, `C170_setitem`, `C170_delitem`, `C170_sums`, `C18_resolve_partial`, `C18_vmin_vmax`, `C21_towards`, `C28_scale`, `C35_body_consumes`, `C50_length_partial`, `C50_error_ignored`, `C53_indices_partial`, `C53_out_of_range_leaks`, `C53_slice_leaks`, `C55_copy_empty`, `C55_segment_text_wrong`, `C57_transform`, `C57_curves`, `C60_degenerate_wrong`, `C94_get`, `C98_set_wrong`, `C99_vectors`, `C99_laws`, `C99_matrix`, `C99_items`, `C99_iteration`
* `propext`: `C07_equivalence`, `C10_distance_zero_unequal`, `C116_mask_wrong`, `C73_rebuild`, `C73_once`, `C73_bad`
* no axioms: `C111_separates`
