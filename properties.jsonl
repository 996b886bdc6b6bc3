{"id": "C01", "title": "Colour channels are independent registers", "statement": "Assigning any number to one of red, green, blue, alpha of a Color makes that channel read back as the number clamped to 0..255 and truncated, and leaves the other three channels reading exactly as before; on a Color whose value is None every such assignment raises ValueError.", "quantifier": "every Color value (any Python int, of any size or sign, or None), every channel, every assigned number", "why_tests_cant": "2^32 packed values times four channels times all assigned numbers; the packed value may be any unbounded Python int", "anchors": ["svgio/basic.py:Color.red", "svgio/basic.py:Color.green", "svgio/basic.py:Color.blue", "svgio/basic.py:Color.alpha", "svgio/basic.py:Color.crimp"]}
{"id": "C02", "title": "Building a colour from components keeps the components", "statement": "Color(r,g,b) and Color(r,g,b,a) produce a packed value in 0..2^32-1 whose channels are the given integers clamped to 0..255 (alpha 255 when omitted), in spite of the float division a/255.0 and re-multiplication by 255.0.", "quantifier": "all integer components and every rounding behaviour of the two float operations with relative error at most 2^-53", "why_tests_cant": "the float round trip a -> a/255.0 -> round(x*255.0) has to survive every rounding for every a, and out-of-range ints are unbounded", "anchors": ["svgio/basic.py:Color.__init__", "svgio/basic.py:Color.rgb_to_int", "svgio/basic.py:Color.crimp"]}
{"id": "C03", "title": "Packed colour views agree", "statement": "rgb, argb and rgba are views of one colour: writing argb and reading argb returns the written value modulo 2^32, the channels read the corresponding bytes, writing rgb yields an opaque colour with exactly that rgb.", "quantifier": "every integer written to rgb, argb or rgba", "why_tests_cant": "all unbounded integers, including negative ones, under Python's infinite two's complement semantics", "anchors": ["svgio/basic.py:Color.rgb", "svgio/basic.py:Color.argb", "svgio/basic.py:Color.rgba"]}
{"id": "C04", "title": "Hex text round trip", "statement": "For every non-None colour c, Color(c.hex) == c and Color(c.hexa) == c; the text is '#' and 6 digits exactly when alpha is 255, else 8 digits.", "quantifier": "every Color value (all Python ints)", "why_tests_cant": "the whole 2^32 value space plus values outside it", "anchors": ["svgio/basic.py:Color.hex", "svgio/basic.py:Color.hexa", "svgio/basic.py:Color.parse", "svgio/basic.py:Color.parse_color_hex", "svgio/basic.py:Color.__eq__"]}
{"id": "C05", "title": "Hex colour text is read as CSS says", "statement": "Text of 3, 4, 6 or 8 hex digits of either case with an optional '#' is read as the CSS colour (short forms doubled, missing alpha opaque); 5 or 7 digits give opaque black; upper and lower case give the same colour.", "quantifier": "every string of 3..8 hex digits, with or without '#'", "why_tests_cant": "16^8 strings", "anchors": ["svgio/basic.py:Color.parse", "svgio/basic.py:Color.parse_color_hex", "svgio/constants.py:REGEX_COLOR_HEX"]}
{"id": "C06", "title": "Colour keywords follow the CSS table", "statement": "Every CSS colour keyword, in any letter case and with any spaces interspersed, parses to the CSS/SVG colour for that keyword, and any text that is neither a keyword nor another recognised form nor an integer is opaque black.", "quantifier": "all strings; all 148 keywords", "why_tests_cant": "letter case and space placement give unboundedly many spellings, and the fall-through covers every other string", "anchors": ["svgio/basic.py:Color.parse_color_lookup"]}
{"id": "C07", "title": "Colour equality is an equivalence on the 32-bit colour", "statement": "== between Color objects (or Color and int or text) is reflexive, symmetric and transitive, depends only on the low 32 bits, None equals only None, and != is its negation.", "quantifier": "all triples of colours", "why_tests_cant": "a three-way quantification over unbounded ints", "anchors": ["svgio/basic.py:Color.__eq__", "svgio/basic.py:Color.__ne__"]}
{"id": "C08", "title": "Opacity and alpha agree", "statement": "Setting opacity to the opacity read from a colour leaves the colour unchanged; setting opacity x gives alpha round(255x) clamped to 0..255, and the other channels are unchanged; opacity of a None colour is None and setting it raises ValueError.", "quantifier": "all colours, all opacities, every float rounding of relative error at most 2^-53", "why_tests_cant": "depends on float rounding for each of 256 alphas and on every possible opacity", "anchors": ["svgio/basic.py:Color.opacity"]}
{"id": "C09", "title": "Compositing follows Porter-Duff over", "statement": "Color.over(top, bottom): an opaque top gives the top, a fully transparent top gives the bottom, and in between each resulting channel lies between the two input channels and the resulting alpha is at least each input alpha up to rounding; blend stores that value.", "quantifier": "all pairs of colours", "why_tests_cant": "2^64 pairs", "anchors": ["svgio/basic.py:Color.over", "svgio/basic.py:Color.blend"]}
{"id": "C10", "title": "Colour distance is a sane dissimilarity", "statement": "distance_sq is symmetric, never negative, zero between a colour and itself, ignores alpha; and is zero only for equal rgb.", "quantifier": "all pairs of colours", "why_tests_cant": "2^48 rgb pairs", "anchors": ["svgio/basic.py:Color.distance_sq", "svgio/basic.py:Color.distance"]}
{"id": "C11", "title": "HSL views agree with RGB", "statement": "Reading hue, saturation, lightness and writing the same triple back leaves the rgb channels unchanged; hsl_to_int always yields channels in 0..255 and equal channels when saturation is 0; lightness and saturation always lie in 0..1.", "quantifier": "all colours, all hsl triples", "why_tests_cant": "16.7 million colours and a continuum of triples", "anchors": ["svgio/basic.py:Color.hsl", "svgio/basic.py:Color.hsl_to_int", "svgio/basic.py:Color.hue", "svgio/basic.py:Color.saturation", "svgio/basic.py:Color.lightness"]}
{"id": "C12", "title": "Color.distinct gives distinct colours", "statement": "Color.distinct(i) and Color.distinct(j) differ for i != j as long as both indices are below 256^3, and every rgb colour is reached.", "quantifier": "all index pairs", "why_tests_cant": "all pairs of naturals; the enumeration is unbounded", "anchors": ["svgio/basic.py:Color.distinct"]}
{"id": "C13", "title": "Length text keeps amount and unit", "statement": "Length(text) for a number followed by a unit has exactly that amount and that unit, text without any number gives 0 without unit, and str() prints amount and unit so that reading it again gives an equal amount (to 12 decimals) and the same unit.", "quantifier": "all strings", "why_tests_cant": "unbounded strings", "anchors": ["svgio/basic.py:Length.__init__", "svgio/basic.py:Length.__str__", "svgio/basic.py:Length.str", "svgio/constants.py:REGEX_LENGTH"]}
{"id": "C14", "title": "Adding lengths adds their resolved values", "statement": "When a + b is accepted, resolving the sum (value(ppi)) equals the sum of the resolved values, subtraction likewise; adding lengths of units that have no common measure raises ValueError unless one is zero.", "quantifier": "all pairs of lengths, all ppi", "why_tests_cant": "continuum of amounts, all unit pairs", "anchors": ["svgio/basic.py:Length.__iadd__", "svgio/basic.py:Length.__add__", "svgio/basic.py:Length.__sub__", "svgio/basic.py:Length.value"]}
{"id": "C15", "title": "Comparing lengths agrees with their resolved values", "statement": "a < b, a <= b, a > b, a >= b answer as the comparison of resolved values whenever both can be resolved; exactly one of a<b, a>=b holds.", "quantifier": "all pairs of lengths", "why_tests_cant": "continuum of amounts, all unit pairs", "anchors": ["svgio/basic.py:Length.__lt__", "svgio/basic.py:Length.__le__", "svgio/basic.py:Length.__gt__", "svgio/basic.py:Length.__ge__"]}
{"id": "C16", "title": "Quotient of lengths is the ratio of their values", "statement": "When a / b is accepted for lengths, the result times the resolved value of b is the resolved value of a; dividing by a number divides the amount and keeps the unit.", "quantifier": "all pairs of lengths", "why_tests_cant": "continuum of amounts, all unit pairs", "anchors": ["svgio/basic.py:Length.__truediv__"]}
{"id": "C17", "title": "Length equality distinguishes different lengths", "statement": "a == b is true exactly when both denote the same length (same resolved value, within 1e-12), so Length('1px') != Length('2px').", "quantifier": "all pairs of lengths", "why_tests_cant": "continuum of amounts", "anchors": ["svgio/basic.py:Length.__eq__", "svgio/basic.py:Length.__ne__", "svgio/basic.py:Length.in_pixels", "svgio/basic.py:Length.in_inches"]}
{"id": "C18", "title": "Lengths resolve lazily and consistently", "statement": "value() returns a number when the needed context (ppi, relative length, font size, viewbox) is given and the unchanged Length when it is not; to_mm, to_cm and to_inch keep the physical size; resolution is linear in the amount.", "quantifier": "all lengths, all contexts", "why_tests_cant": "continuum of amounts and contexts", "anchors": ["svgio/basic.py:Length.value", "svgio/basic.py:Length.to_mm", "svgio/basic.py:Length.to_cm", "svgio/basic.py:Length.to_inch"]}
{"id": "C19", "title": "Point equality is tolerant, reflexive and symmetric", "statement": "p == q iff both coordinates differ by at most 1e-12; it is reflexive and symmetric, != is its negation, and equal points stay equal under translation.", "quantifier": "all pairs of points", "why_tests_cant": "continuum", "anchors": ["svgio/basic.py:Point.__eq__", "svgio/basic.py:Point.__ne__"]}
{"id": "C20", "title": "Orientation is a consistent turn predicate", "statement": "Point.orientation(p,q,r) is 0 iff the points are collinear, is unchanged by cyclic rotation of the arguments and by translation, and swaps 1 and 2 when two arguments are exchanged.", "quantifier": "all triples of points", "why_tests_cant": "continuum of triples", "anchors": ["svgio/basic.py:Point.orientation"]}
{"id": "C21", "title": "Interpolation and reflection laws", "statement": "Point.towards(a,b,0) is a, (a,b,1) is b, (a,b,t) equals (b,a,1-t); move_towards agrees with towards; reflected_across is an involution and keeps the mirror point as midpoint; distance is symmetric, zero only for equal points and satisfies the triangle inequality.", "quantifier": "all points and amounts", "why_tests_cant": "continuum", "anchors": ["svgio/basic.py:Point.towards", "svgio/basic.py:Point.move_towards", "svgio/basic.py:Point.reflected_across", "svgio/basic.py:Point.distance", "svgio/basic.py:Point.distance_to"]}
{"id": "C22", "title": "Convex hull encloses the points", "statement": "Point.convex_hull yields only input points, terminates, and every input point lies on or to one side of every hull edge.", "quantifier": "all finite point sets", "why_tests_cant": "unbounded sets incl. collinear and duplicate points", "anchors": ["svgio/basic.py:Point.convex_hull"]}
{"id": "C23", "title": "Angle units convert consistently", "statement": "Angle.degrees(x).as_degrees == x, and likewise for gradians, turns and radians; parsing text with the unit deg, grad, rad, turn or % or no unit gives the same angle as the corresponding constructor, in any letter case.", "quantifier": "all numbers and all number texts", "why_tests_cant": "continuum, and all spellings", "anchors": ["svgio/basic.py:Angle.degrees", "svgio/basic.py:Angle.gradians", "svgio/basic.py:Angle.turns", "svgio/basic.py:Angle.as_degrees", "svgio/basic.py:Angle.parse"]}
{"id": "C24", "title": "Angles are compared modulo a full turn", "statement": "Two angles that differ by a whole number of turns are equal and normalize to the same value in [0, tau); as_positive_degrees terminates, is never negative and is congruent to as_degrees modulo 360; angles closer than the tolerance modulo a turn are equal.", "quantifier": "all angles", "why_tests_cant": "continuum; includes the seam at 0", "anchors": ["svgio/basic.py:Angle.__eq__", "svgio/basic.py:Angle.normalized", "svgio/basic.py:Angle.as_positive_degrees"]}
{"id": "C25", "title": "Matrix product means apply one after the other", "statement": "A point times (A * B) equals (point times A) times B, for Matrix objects and for every route (*, @, *=, post_cat, and pre_cat in the opposite order); transform_vector ignores translation.", "quantifier": "all matrices and points", "why_tests_cant": "continuum", "anchors": ["svgio/basic.py:Matrix.matrix_multiply", "svgio/basic.py:Matrix.__imatmul__", "svgio/basic.py:Matrix.post_cat", "svgio/basic.py:Matrix.pre_cat", "svgio/basic.py:Matrix.point_in_matrix_space", "svgio/basic.py:Matrix.transform_vector", "svgio/basic.py:Matrix.vector", "svgio/basic.py:Point.__mul__"]}
{"id": "C26", "title": "Matrices form a monoid and determinants multiply", "statement": "Matrix product is associative with Matrix() as identity on both sides, is_identity() holds only for the identity, and the determinant of a product is the product of the determinants.", "quantifier": "all matrices", "why_tests_cant": "continuum", "anchors": ["svgio/basic.py:Matrix.matrix_multiply", "svgio/basic.py:Matrix.is_identity", "svgio/basic.py:Matrix.determinant", "svgio/basic.py:Matrix.reset"]}
{"id": "C27", "title": "Inverse undoes a transform", "statement": "If the determinant is non-zero, m * ~m and ~m * m are the identity and point_in_inverse_space undoes point_in_matrix_space, while ~m leaves m itself unchanged; if it is zero ZeroDivisionError is raised.", "quantifier": "all matrices and points", "why_tests_cant": "continuum", "anchors": ["svgio/basic.py:Matrix.inverse", "svgio/basic.py:Matrix.__invert__", "svgio/basic.py:Matrix.point_in_inverse_space"]}
{"id": "C28", "title": "Scaling, rotating and skewing about a pivot fixes the pivot", "statement": "post_scale, post_rotate, post_skew (and the pre_ versions, and the x / y forms) with a pivot x,y compose the current matrix with the transform that fixes the pivot and acts like the plain one relative to it, whatever the pivot, including 0 and None.", "quantifier": "all matrices, pivots, factors and angles", "why_tests_cant": "continuum, with the special case split at pivot (0,0)", "anchors": ["svgio/basic.py:Matrix.post_scale", "svgio/basic.py:Matrix.post_rotate", "svgio/basic.py:Matrix.post_skew", "svgio/basic.py:Matrix.pre_scale", "svgio/basic.py:Matrix.pre_rotate", "svgio/basic.py:Matrix.pre_skew"]}
{"id": "C29", "title": "Rotations are rigid and add up", "statement": "Matrix.rotate preserves distances and orientation, rotate(a)*rotate(b) equals rotate(a+b), and its inverse is rotate(-a).", "quantifier": "all angles and points", "why_tests_cant": "continuum", "anchors": ["svgio/basic.py:Matrix.rotate"]}
{"id": "C30", "title": "A transform list acts right to left", "statement": "Parsing a transform attribute 'T1 T2 ... Tn' gives the matrix that applies Tn first and T1 last; parsing the concatenation of two attributes with a space equals composing their matrices, for all functions matrix, translate, translateX/Y, scale, scaleX/Y, rotate, skew, skewX/Y.", "quantifier": "all lists of transform functions of any length", "why_tests_cant": "unbounded lists", "anchors": ["svgio/basic.py:Matrix.parse", "svgio/constants.py:REGEX_TRANSFORM_TEMPLATE"]}
{"id": "C31", "title": "Unresolved translations compose and resolve late", "statement": "A matrix whose translation holds a Length resolves, by render(ppi, width, height, ...), to the matrix obtained by resolving the lengths first.", "quantifier": "all transform lists with lengths of one unit, all contexts", "why_tests_cant": "continuum of amounts and contexts", "anchors": ["svgio/basic.py:Matrix.render", "svgio/basic.py:Matrix.matrix_multiply", "svgio/basic.py:Length.value"]}
{"id": "C32", "title": "preserveAspectRatio none maps the viewbox onto the element exactly", "statement": "With align 'none' the returned transform maps the corners of the viewBox rectangle to the corners of the element rectangle.", "quantifier": "all element and viewBox rectangles of non-zero size", "why_tests_cant": "continuum", "anchors": ["svgio/basic.py:Viewbox.viewbox_transform"]}
{"id": "C33", "title": "meet fits, slice covers, alignment is honoured", "statement": "For any other align value the scale is uniform; with meet the mapped viewBox lies inside the element and touches it in one direction, with slice it covers the element; xMin/xMid/xMax and yMin/yMid/yMax align the corresponding edges or centres; the default is xMidYMid meet.", "quantifier": "all rectangles of positive size, all ten align values, meet and slice", "why_tests_cant": "continuum", "anchors": ["svgio/basic.py:Viewbox.viewbox_transform"]}
{"id": "C34", "title": "Viewbox transform text denotes the transform", "statement": "The text returned by viewbox_transform, parsed by Matrix, is the computed translate-then-scale matrix (numbers to 12 decimals); it is empty exactly when data is missing or the transform is the identity; a zero viewBox dimension raises ZeroDivisionError.", "quantifier": "all rectangles, including missing values", "why_tests_cant": "continuum", "anchors": ["svgio/basic.py:Viewbox.viewbox_transform", "svgio/basic.py:Viewbox.transform", "svgio/basic.py:Viewbox.set_viewbox"]}
{"id": "C35", "title": "Path data parsing always terminates", "statement": "Path(text) either returns a path or raises an exception for every string; every loop iteration of the lexer consumes input.", "quantifier": "all strings", "why_tests_cant": "unbounded strings", "anchors": ["svgio/path.py:PathLexicalParser.parse", "svgio/path.py:PathLexicalParser._more", "svgio/path.py:PathLexicalParser._number"]}
{"id": "C36", "title": "A parsed path is connected", "statement": "After parsing any text into an empty or already connected path, each segment starts where the previous one ended and each close ends at the last move (what _is_valid checks), also when parsing stopped with an error.", "quantifier": "all strings and all starting paths", "why_tests_cant": "unbounded strings and histories", "anchors": ["svgio/path.py:PathLexicalParser.parse", "svgio/path.py:Path.append", "svgio/path.py:Path._validate_connection", "svgio/path.py:Path._validate_close", "svgio/path.py:Path._is_valid"]}
{"id": "C37", "title": "Separators are interchangeable", "statement": "Replacing any run of separators (space, comma, tab, newline, form feed, carriage return) in path data by any other non-empty run, and adding separators at either end, does not change the parsed path.", "quantifier": "all strings, all separator runs", "why_tests_cant": "unbounded strings", "anchors": ["svgio/path.py:PathLexicalParser._command", "svgio/path.py:PathLexicalParser._more", "svgio/path.py:PathLexicalParser._number", "svgio/path.py:PathLexicalParser._flag", "svgio/constants.py:PATTERN_COMMAWSP"]}
{"id": "C38", "title": "Path data text means its SVG commands", "statement": "For every list of SVG path commands, written with any number spelling and any separators the grammar allows, Path(text) has exactly the segments the SVG command semantics prescribes (implicit lineto after moveto, repeated argument groups, h/v, current point after close).", "quantifier": "all command lists, all spellings", "why_tests_cant": "unbounded command lists and spellings", "anchors": ["svgio/path.py:PathLexicalParser.parse", "svgio/path.py:Path.move", "svgio/path.py:Path.line", "svgio/path.py:Path.horizontal", "svgio/path.py:Path.vertical", "svgio/path.py:Path.quad", "svgio/path.py:Path.cubic", "svgio/path.py:Path.arc", "svgio/path.py:Path.closed"]}
{"id": "C39", "title": "Absolute and relative spellings are equivalent", "statement": "Rewriting every command of a path in relative form (subtracting the current point) and parsing gives the same points as the absolute form.", "quantifier": "all command lists", "why_tests_cant": "unbounded command lists", "anchors": ["svgio/path.py:PathLexicalParser._rcoord", "svgio/path.py:PathLexicalParser.parse", "svgio/path.py:Path.horizontal", "svgio/path.py:Path.vertical"]}
{"id": "C40", "title": "Smooth commands reflect the previous control point", "statement": "T after a quadratic curve and S after a cubic curve use the reflection of the previous control point in the current point; after any other command (including T after a cubic and S after a quadratic) they use the current point itself.", "quantifier": "all paths", "why_tests_cant": "all histories preceding the smooth command", "anchors": ["svgio/path.py:Path.smooth_point", "svgio/path.py:Path.smooth_quad", "svgio/path.py:Path.smooth_cubic"]}
{"id": "C41", "title": "Close returns to the latest move", "statement": "z ends at the most recent moveto target, and the following command continues from that point; several subpaths and repeated z included.", "quantifier": "all paths", "why_tests_cant": "all histories", "anchors": ["svgio/path.py:Path.closed", "svgio/path.py:Path.z_point", "svgio/path.py:Path._validate_close", "svgio/path.py:Path.current_point"]}
{"id": "C42", "title": "Segment-completing close", "statement": "A z in place of the final coordinate pair of L, T, Q, S, C or A ends that segment at the latest move and then closes.", "quantifier": "all paths and commands", "why_tests_cant": "all histories", "anchors": ["svgio/path.py:PathLexicalParser.parse", "svgio/path.py:Path.z_point"]}
{"id": "C43", "title": "Parsing is incremental", "statement": "Parsing s1 + s2 equals parsing s1 and then adding s2 to the path, when s1 is completely consumed and s2 starts with a command.", "quantifier": "all pairs of strings", "why_tests_cant": "unbounded strings", "anchors": ["svgio/path.py:Path.parse", "svgio/path.py:Path.__iadd__"]}
{"id": "C44", "title": "Malformed path data is reported or truncated, never misread", "statement": "An unknown character where a command is expected ends parsing with everything before it kept; a missing coordinate raises ValueError; a failed += leaves the path as it was.", "quantifier": "all malformed strings", "why_tests_cant": "unbounded strings", "anchors": ["svgio/path.py:PathLexicalParser.parse", "svgio/path.py:PathLexicalParser._coord", "svgio/path.py:Path.__iadd__"]}
{"id": "C45", "title": "Writing and re-reading a path gives the same path", "statement": "For a connected path, parsing d() (absolute, relative or as stored; smooth or not) gives a path equal segment by segment to the original, when its coordinates are printable in 12 digits.", "quantifier": "all connected paths", "why_tests_cant": "unbounded paths", "anchors": ["svgio/path.py:Path.svg_d", "svgio/path.py:Path.d", "svgio/path.py:Move.d", "svgio/path.py:Line.d", "svgio/path.py:Close.d", "svgio/path.py:QuadraticBezier.d", "svgio/path.py:CubicBezier.d", "svgio/path.py:Arc.d", "svgio/path.py:QuadraticBezier.is_smooth_from", "svgio/path.py:CubicBezier.is_smooth_from"]}
{"id": "C46", "title": "Printed coordinates denote the coordinate", "statement": "str(Point) prints each coordinate so that reading it back gives the coordinate rounded to 12 significant digits.", "quantifier": "all numbers", "why_tests_cant": "continuum of numbers and exponents", "anchors": ["svgio/basic.py:Point.__str__"]}
{"id": "C47", "title": "Building a path keeps it connected", "statement": "Any sequence of move, line, horizontal, vertical, quad, smooth_quad, cubic, smooth_cubic, arc, closed, append and += of segments that have an end point leaves the path connected.", "quantifier": "all operation sequences", "why_tests_cant": "unbounded histories", "anchors": ["svgio/path.py:Path.append", "svgio/path.py:Path.move", "svgio/path.py:Path.line", "svgio/path.py:Path.closed", "svgio/path.py:Path._validate_connection", "svgio/path.py:Path._validate_close"]}
{"id": "C48", "title": "validate_connections repairs any path", "statement": "After validate_connections() (and hence Path(list_of_segments)) the path is connected, end points of drawn segments are unchanged, and running it again changes nothing.", "quantifier": "all segment lists whose drawn segments have an end point", "why_tests_cant": "unbounded lists", "anchors": ["svgio/path.py:Path.validate_connections", "svgio/path.py:Path._is_valid", "svgio/path.py:Path.__init__"]}
{"id": "C49", "title": "Editing a connected path keeps it connected", "statement": "insert, item assignment and deletion at any valid index of a connected path leave it connected.", "quantifier": "all paths, all indices, all segments", "why_tests_cant": "unbounded histories", "anchors": ["svgio/path.py:Path.insert", "svgio/path.py:Path.__setitem__", "svgio/path.py:Path.__delitem__", "svgio/path.py:Path._validate_subpath", "svgio/path.py:Path._validate_move", "svgio/path.py:Path._validate_close"]}
{"id": "C50", "title": "Cached length is never stale", "statement": "After any sequence of path operations, length() returns the sum of the lengths of the current segments.", "quantifier": "all histories of append, insert, extend, assignment, deletion, reverse, length and point queries", "why_tests_cant": "unbounded histories", "anchors": ["svgio/path.py:Path.length", "svgio/path.py:Path._calc_lengths", "svgio/path.py:Path.append", "svgio/path.py:Path.insert", "svgio/path.py:Path.__setitem__", "svgio/path.py:Path.__delitem__", "svgio/path.py:Path.reverse"]}
{"id": "C51", "title": "Position lookup finds the right segment", "statement": "point(t) for 0<t<1 never divides by zero and evaluates the segment in which the fraction t of the total length falls, at the matching local fraction in [0,1].", "quantifier": "all paths, all t", "why_tests_cant": "unbounded paths, continuum of t", "anchors": ["svgio/path.py:Path.point"]}
{"id": "C52", "title": "Subpaths partition the path", "statement": "as_subpaths yields consecutive non-overlapping windows whose concatenation is the whole path; each window after the first starts with a move and contains no other move; count_subpaths matches.", "quantifier": "all non-empty paths", "why_tests_cant": "unbounded paths", "anchors": ["svgio/path.py:Path.as_subpaths", "svgio/path.py:Path.subpath", "svgio/path.py:Path.count_subpaths", "svgio/path.py:Subpath.__iter__"]}
{"id": "C53", "title": "Subpath indices address the window", "statement": "subpath[i] for -len <= i < len is the i-th segment of the window (negative from the end), iteration visits exactly the window, and other indices raise IndexError.", "quantifier": "all windows and indices", "why_tests_cant": "unbounded", "anchors": ["svgio/path.py:Subpath.__getitem__", "svgio/path.py:Subpath._numeric_index", "svgio/path.py:Subpath.index_to_path_index"]}
{"id": "C54", "title": "Reversing a path", "statement": "Path.reverse keeps the number and kind of drawn segments, traverses the same points in the opposite order and keeps the path connected; reversing twice restores the path.", "quantifier": "all connected paths", "why_tests_cant": "unbounded paths", "anchors": ["svgio/path.py:Path.reverse", "svgio/path.py:Subpath.reverse", "svgio/path.py:Subpath._reverse_segments"]}
{"id": "C55", "title": "Copies and sums of paths keep all segments", "statement": "copy(path) equals path, and p + q has the segments of p followed by those of q.", "quantifier": "all paths", "why_tests_cant": "unbounded paths", "anchors": ["svgio/path.py:Path.__copy__", "svgio/path.py:Path.__add__", "svgio/path.py:Path.__radd__", "svgio/path.py:Path.__init__"]}
{"id": "C56", "title": "direct_close makes closes zero-length", "statement": "After direct_close() every close starts at its end point, no drawn geometry is lost, and the path is still connected.", "quantifier": "all connected paths", "why_tests_cant": "unbounded paths", "anchors": ["svgio/path.py:Path.direct_close"]}
{"id": "C57", "title": "Transforming a segment transforms every point on it", "statement": "For lines, closes and Bezier curves, (segment * matrix).point(t) equals segment.point(t) * matrix for every t; the original segment is unchanged by *.", "quantifier": "all segments, matrices and t", "why_tests_cant": "continuum", "anchors": ["svgio/path.py:PathSegment.__mul__", "svgio/path.py:Linear.__imul__", "svgio/path.py:QuadraticBezier.__imul__", "svgio/path.py:CubicBezier.__imul__", "svgio/path.py:QuadraticBezier.npoint", "svgio/path.py:CubicBezier.npoint"]}
{"id": "C58", "title": "Quadratic bounding box is tight", "statement": "bbox() of a quadratic Bezier contains point(t) for all t in [0,1] and each side is touched by the curve.", "quantifier": "all curves, all t", "why_tests_cant": "continuum", "anchors": ["svgio/path.py:QuadraticBezier.bbox", "svgio/path.py:QuadraticBezier.npoint"]}
{"id": "C59", "title": "Cubic bounding box is tight", "statement": "bbox() of a cubic Bezier contains point(t) for all t in [0,1] and each side is touched by the curve.", "quantifier": "all curves, all t", "why_tests_cant": "continuum", "anchors": ["svgio/path.py:CubicBezier.bbox", "svgio/path.py:CubicBezier._real_minmax", "svgio/path.py:CubicBezier.npoint"]}
{"id": "C60", "title": "Line bounding box and closest point", "statement": "bbox() of a line is the smallest box holding all its points; closest_segment_point returns a point of the line (segment, or infinite line when bounds are not respected) at minimal distance from the given point.", "quantifier": "all lines and points", "why_tests_cant": "continuum", "anchors": ["svgio/path.py:PathSegment.bbox", "svgio/path.py:Linear.closest_segment_point", "svgio/path.py:Linear.npoint"]}
{"id": "C61", "title": "Arc end-point parameterization", "statement": "The arc built from SVG parameters has both end points on the ellipse with the computed centre, radii and rotation; radii are enlarged only when too small, and then just enough.", "quantifier": "all arc parameters with non-zero radii and distinct end points", "why_tests_cant": "continuum", "anchors": ["svgio/path.py:Arc._svg_parameterize"]}
{"id": "C62", "title": "Arcs follow affine transforms", "statement": "Transforming an arc by a matrix transforms start, end and centre by that matrix and reverses the sweep direction exactly when the matrix reverses orientation.", "quantifier": "all arcs and matrices", "why_tests_cant": "continuum", "anchors": ["svgio/path.py:Arc.__imul__"]}
{"id": "C63", "title": "Arc approximations are connected and end exactly at the arc's ends", "statement": "as_cubic_curves and as_quad_curves yield the requested number of curves, the first starting at the arc's start, the last ending at the arc's end, each starting where the previous ended; replacing arcs in a path keeps the path connected.", "quantifier": "all arcs, all counts", "why_tests_cant": "unbounded counts", "anchors": ["svgio/path.py:Arc.as_cubic_curves", "svgio/path.py:Arc.as_quad_curves", "svgio/path.py:Path.approximate_arcs_with_cubics", "svgio/path.py:Path.approximate_arcs_with_quads"]}
{"id": "C64", "title": "Reversing a segment reverses its parameter", "statement": "After reverse(), point(t) equals the old point(1-t) for lines, Bezier curves and arcs, and reversing twice restores the segment.", "quantifier": "all segments and t", "why_tests_cant": "continuum", "anchors": ["svgio/path.py:PathSegment.reverse", "svgio/path.py:CubicBezier.reverse", "svgio/path.py:Arc.reverse"]}
{"id": "C65", "title": "Loading builds the document tree faithfully", "statement": "Document(source) builds a tree with one node per XML element, in the same nesting and order, with the attributes of the element and the class chosen by tag.", "quantifier": "all XML element trees", "why_tests_cant": "unbounded trees", "anchors": ["svgio/nodes.py:Node.parse", "svgio/nodes.py:BOOTSTRAP", "svgio/nodes.py:Document.__init__"]}
{"id": "C66", "title": "Parent links and child lists agree", "statement": "In every document reached by loading and then any sequence of builder calls (node.rect(...), node.g(), ...), each child's parent is the node whose list holds it, its document is the root, and a builder call appends exactly one child at the end and changes nothing else.", "quantifier": "all histories", "why_tests_cant": "unbounded histories", "anchors": ["svgio/nodes.py:Node.parse", "svgio/nodes.py:ElementBuilder.__call__", "svgio/nodes.py:Node.__getattribute__"]}
{"id": "C67", "title": "Lookup by id finds the element", "statement": "After loading, get_element_by_id(x) returns the element with that id, the last one in document order when several share it, None when there is none; elements added through builders are found as well.", "quantifier": "all documents and ids", "why_tests_cant": "unbounded documents", "anchors": ["svgio/nodes.py:Node.parse", "svgio/nodes.py:Document.get_element_by_id", "svgio/nodes.py:ElementBuilder.__call__"]}
{"id": "C68", "title": "Inherited values come from the nearest ancestor", "statement": "get_values(node)[k] is the value of attribute k on the closest of node and its ancestors that defines it, and is absent iff none defines it.", "quantifier": "all nodes and attribute names", "why_tests_cant": "unbounded ancestor chains", "anchors": ["svgio/nodes.py:Document.get_ancestors", "svgio/nodes.py:Document.get_values"]}
{"id": "C69", "title": "Sibling navigation", "statement": "next_sibling and previous_sibling are the adjacent children of the parent, None at the ends; previous_element_sibling agrees with previous_sibling.", "quantifier": "all trees and nodes", "why_tests_cant": "unbounded trees; depends on node equality", "anchors": ["svgio/nodes.py:Node.next_sibling", "svgio/nodes.py:Node.previous_sibling", "svgio/nodes.py:Element.previous_element_sibling"]}
{"id": "C70", "title": "Saving and loading loses nothing", "statement": "xml() of a loaded document has the same elements, tags, attributes and nesting as the source, and loading it again gives the same tree.", "quantifier": "all XML element trees", "why_tests_cant": "unbounded trees", "anchors": ["svgio/nodes.py:Node.xml", "svgio/nodes.py:Node.tag", "svgio/nodes.py:BOOTSTRAP", "svgio/nodes.py:Node.parse"]}
{"id": "C71", "title": "Paint properties resolve", "statement": "fill and stroke of an element give the inherited colour with the inherited opacity applied, and None when no colour is set.", "quantifier": "all elements and attribute values", "why_tests_cant": "unbounded trees", "anchors": ["svgio/nodes.py:GraphicalElement.fill", "svgio/nodes.py:GraphicalElement.stroke"]}
{"id": "C72", "title": "url() references resolve to ids", "statement": "get_element_by_url('url(#name)') returns the element with id name.", "quantifier": "all ids", "why_tests_cant": "unbounded strings", "anchors": ["svgio/nodes.py:Document.get_element_by_url", "svgio/constants.py:REGEX_IRI"]}
{"id": "C73", "title": "Shadow traversal visits each element once, well nested", "statement": "_shadow_iter yields a well-nested start/end event sequence in document order with exactly one start and one end per element, from which the tree can be rebuilt.", "quantifier": "all trees", "why_tests_cant": "unbounded trees", "anchors": ["svgio/nodes.py:_shadow_iter"]}
{"id": "C74", "title": "Many positions at once agree with single positions", "statement": "npoint(positions) evaluates every position in the segment in which that fraction of the total length falls, at the matching local fraction, whatever the other positions in the array are.", "quantifier": "all paths of non-zero length, all arrays of positions in [0,1]", "why_tests_cant": "unbounded arrays; the fault depends on which segments get no position", "anchors": ["svgio/path.py:Path.npoint"]}
{"id": "C75", "title": "A viewBox survives printing and reading", "statement": "Viewbox(text) for a text that begins with four numbers, separated by white space or commas, holds these four numbers; Viewbox(str(v)) has the numbers of v to 12 decimals; with fewer than four numbers the rest stays unknown and the transform is empty.", "quantifier": "all texts of the viewBox syntax, all rectangles", "why_tests_cant": "unbounded texts, continuum of values", "anchors": ["svgio/basic.py:Viewbox.set_viewbox", "svgio/basic.py:Viewbox.__str__", "svgio/basic.py:Length.str"]}
{"id": "C76", "title": "Lengths of lines and quadratic curves are exact", "statement": "length() of a line is the distance of its ends; length() of a quadratic Bezier is the integral of its speed over [0,1], also when the control points are collinear or the curve turns back on itself, up to 1e-10.", "quantifier": "all lines and quadratic curves", "why_tests_cant": "continuum; special cases on sets of measure zero", "anchors": ["svgio/path.py:QuadraticBezier.length", "svgio/path.py:Linear.length"]}
{"id": "C77", "title": "Length by bisection ends and is bracketed", "statement": "Without scipy, length(error, min_depth) of a cubic Bezier with positive error ends after finitely many nested calls; the result is at most the length of the curve and at least the length of the polygon with 2^(min_depth+1) corners on the curve, hence at least the distance of its ends.", "quantifier": "all curves, errors and minimal depths", "why_tests_cant": "continuum, unbounded recursion", "anchors": ["svgio/path.py:PathSegment.segment_length", "svgio/path.py:CubicBezier.length"]}
{"id": "C78", "title": "An SVG arc is drawn as SVG says", "statement": "The arc built from start, radii, rotation, flags and end starts and ends at the given points and runs along an ellipse with the given rotation and the radii, scaled up by the least factor if too small, in the direction of the sweep flag, over more than half a turn exactly when the large-arc flag asks for it (when the radii were not scaled up); negative radii count by their absolute value.", "quantifier": "all arc parameters with non-zero radii and distinct end points", "why_tests_cant": "continuum", "anchors": ["svgio/path.py:Arc._svg_parameterize", "svgio/path.py:Arc.point"]}
{"id": "C79", "title": "A transformed arc draws the transformed curve", "statement": "Every point of an arc times a matrix is the transformed point of the arc.", "quantifier": "all arcs, invertible matrices and positions", "why_tests_cant": "continuum", "anchors": ["svgio/path.py:Arc.__imul__", "svgio/path.py:Arc.point"]}
{"id": "C80", "title": "Curves in place of an arc stay close to it", "statement": "The cubic curves that replace an arc never leave its ellipse to the outside and stay outside the ellipse shrunk by the square root of 1 - sin^6(slice/2)/4; the quadratic curves never enter the ellipse and stay inside the ellipse enlarged by (5 + 3C - 2C^2)/6, C = cos(slice/2).", "quantifier": "all arcs whose ends are on the ellipse, all counts, all points of the curves", "why_tests_cant": "continuum", "anchors": ["svgio/path.py:Arc.as_cubic_curves", "svgio/path.py:Arc.as_quad_curves"]}
{"id": "C81", "title": "Builder arguments become attributes", "statement": "node.name(*args, **kwargs) makes an element of the class for that name whose attributes are the keyword arguments and, for shapes, the positional arguments as the geometric properties in their documented order, and nothing else.", "quantifier": "all documents, names and arguments", "why_tests_cant": "unbounded argument lists; all names and classes", "anchors": ["svgio/nodes.py:ElementBuilder.__call__", "svgio/nodes.py:Node.__init__", "svgio/nodes.py:Rect.__init__", "svgio/nodes.py:Circle.__init__", "svgio/nodes.py:Ellipse.__init__", "svgio/nodes.py:Line.__init__"]}
{"id": "C82", "title": "Geometric properties are the element's own", "statement": "rect.x, rect.width, line.x1 and the like give the element's own attribute, or the default when the element has none; attributes of ancestors do not matter.", "quantifier": "all documents, elements and properties", "why_tests_cant": "unbounded ancestor chains", "anchors": ["svgio/nodes.py:Rect.x", "svgio/nodes.py:Line.x1", "svgio/nodes.py:Document.get_values"]}
{"id": "C83", "title": "is_equal_node compares type, attributes and children", "statement": "a.is_equal_node(b) holds exactly if the nodes have the same class, the same attributes and equal children in the same order.", "quantifier": "all documents and pairs of nodes", "why_tests_cant": "unbounded trees", "anchors": ["svgio/nodes.py:Node.is_equal_node"]}
{"id": "C84", "title": "The text of a segment draws the segment", "statement": "str(segment) is path data that moves to the start of the segment and draws the segment, with coordinates rounded to 12 digits.", "quantifier": "all segments", "why_tests_cant": "all kinds, flags and coordinates", "anchors": ["svgio/path.py:PathSegment.__str__", "svgio/path.py:Line.d", "svgio/path.py:QuadraticBezier.d", "svgio/path.py:CubicBezier.d", "svgio/path.py:Arc.d"]}
{"id": "C85", "title": "The text of a subpath draws the subpath", "statement": "Reading subpath.d(relative, smooth) as path data gives the segments of the subpath; smooth=False avoids the short forms of curves.", "quantifier": "all connected paths and subpaths", "why_tests_cant": "unbounded paths", "anchors": ["svgio/path.py:Subpath.d", "svgio/path.py:Path.svg_d"]}
{"id": "C86", "title": "The box of an arc is the tightest one", "statement": "arc.bbox() contains every point of the arc, and each of its sides touches the arc.", "quantifier": "all arcs", "why_tests_cant": "all radii, rotations, start angles and sweeps", "anchors": ["svgio/path.py:Arc.bbox", "svgio/path.py:Arc.theta", "svgio/path.py:Arc.delta"]}
{"id": "C87", "title": "The length of an arc", "statement": "arc.length() is the length of the curve that arc.point traces: exact for circles and with scipy; without scipy a lower bound that is at least the length of a fine polygon in the curve.", "quantifier": "all arcs, tolerances and depths", "why_tests_cant": "an integral over all ellipses", "anchors": ["svgio/path.py:Arc.length", "svgio/path.py:Arc._exact_length", "svgio/path.py:Arc._line_length"]}
{"id": "C88", "title": "An arc through three points", "statement": "Arc(start=, control=, end=) for three points on no line is the arc of a circle from start to end that passes the control point on the way.", "quantifier": "all triples of points on no line", "why_tests_cant": "all positions, with special cases for horizontal and vertical chords", "anchors": ["svgio/path.py:Arc.__init__"]}
{"id": "C89", "title": "An arc given by sagitta or bulge", "statement": "Arc(start=, end=, sagitta=s) has its middle at distance s from the middle of the chord; Arc(start=, end=, bulge=b) turns by 4*atan(b).", "quantifier": "all pairs of different points and all numbers", "why_tests_cant": "all positions and signs", "anchors": ["svgio/path.py:Arc.__init__"]}
{"id": "C90", "title": "An arc given by two points and a radius", "statement": "Arc(start=, end=, r=, ccw=) is the arc of at most half a turn from start to end on a circle with this radius, enlarged if the points are too far apart, in the direction that ccw tells.", "quantifier": "all pairs of different points, radii and directions", "why_tests_cant": "all positions; boundary between fitting and enlarged radii", "anchors": ["svgio/path.py:Arc.__init__"]}
{"id": "C91", "title": "An arc given by its centre", "statement": "Arc(start=, end=, center=, ccw=) is the arc of the circle around the centre; Arc(start=, center=, sweep=) turns by sweep from the start; Arc(end=, center=, sweep=) turns by sweep to the end.", "quantifier": "all points and sweeps", "why_tests_cant": "all positions", "anchors": ["svgio/path.py:Arc.__init__"]}
{"id": "C92", "title": "A quarter of an ellipse", "statement": "Arc(start=, end=, rx=, ry=, scooped=, ccw=) with radii equal to the width and height of the box of the ends is a quarter of an ellipse from start to end.", "quantifier": "all pairs of points that differ in both coordinates", "why_tests_cant": "all quadrants and directions", "anchors": ["svgio/path.py:Arc.__init__"]}
{"id": "C93", "title": "An arc of a given ellipse", "statement": "Arc(left=, right=, top=, bottom=, start=, end=, ccw=) and Arc(center=, rx=, ry=, rotation=, start=, end=, ccw=) with ends on the ellipse are the arcs of this ellipse from start to end.", "quantifier": "all boxes, radii, rotations and points on the ellipse", "why_tests_cant": "all positions", "anchors": ["svgio/path.py:Arc.__init__"]}
{"id": "C94", "title": "Slices of a path", "statement": "path[a:b] gives the segments at those places; path[a:b] = segments replaces exactly these by the given ones, and del path[a:b] removes exactly these; all other segments are kept and the ones on both sides are joined again.", "quantifier": "all paths, all bounds (negative, missing or out of range) and all lists of segments", "why_tests_cant": "all combinations of bounds and lengths", "anchors": ["svgio/path.py:Path.__getitem__", "svgio/path.py:Path.__setitem__", "svgio/path.py:Path.__delitem__", "svgio/path.py:Path.validate_connections"]}
{"id": "C95", "title": "Editing a path through a subpath", "statement": "Assigning to, deleting from and adding to a subpath change the subpath as the same operation changes a list, and leave the segments of the other subpaths as they are.", "quantifier": "all connected paths, subpaths, indices and segments", "why_tests_cant": "all positions of the subpath in the path", "anchors": ["svgio/path.py:Subpath.__setitem__", "svgio/path.py:Subpath.__delitem__", "svgio/path.py:Subpath.__iadd__", "svgio/path.py:Subpath.__add__", "svgio/path.py:Subpath.__radd__"]}
{"id": "C96", "title": "Transforming a subpath", "statement": "subpath *= matrix transforms the points of the subpath and leaves the rest of the path as it is; the path stays connected and its length is that of the new segments. subpath * matrix is the transformed subpath.", "quantifier": "all paths, subpaths and matrices", "why_tests_cant": "all matrices and positions", "anchors": ["svgio/path.py:Subpath.__imul__", "svgio/path.py:Subpath.__mul__", "svgio/path.py:Subpath.__copy__"]}
{"id": "C97", "title": "The box of a subpath", "statement": "subpath.bbox() holds all that the subpath draws, and each side is touched; it is None only for a subpath without segments.", "quantifier": "all subpaths", "why_tests_cant": "continuum of points", "anchors": ["svgio/path.py:Subpath.bbox", "svgio/path.py:PathSegment.bbox"]}
{"id": "C98", "title": "Path data in place of segments", "statement": "Where a path takes a segment it also takes path data as a string: path.extend(text) adds what the text draws after the end of the path; path.insert(i, text) and path[i] = text put the segments of the text at that place.", "quantifier": "all paths and texts", "why_tests_cant": "all combinations of paths and texts", "anchors": ["svgio/path.py:Path.append", "svgio/path.py:Path.extend", "svgio/path.py:Path.insert", "svgio/path.py:Path.__setitem__"]}
{"id": "C99", "title": "Arithmetic of points", "statement": "p + q, p - q, q - p and the in-place forms are the sum and difference of vectors, and p * q the product of complex numbers, whether q is a point, a pair of numbers, a complex number or a number; anything else raises TypeError. The usual laws hold, p * matrix is the image of p, and p[0] and p[1] are the coordinates, also in a loop.", "quantifier": "all points and operands", "why_tests_cant": "unboundedly many operands of several types", "anchors": ["svgio/basic.py:Point.__add__", "svgio/basic.py:Point.__sub__", "svgio/basic.py:Point.__rsub__", "svgio/basic.py:Point.__mul__", "svgio/basic.py:Point.__getitem__"]}
{"id": "C100", "title": "Powers of points", "statement": "p ** n is the n-th power of the complex number p.", "quantifier": "all points and natural exponents", "why_tests_cant": "continuum of points", "anchors": ["svgio/basic.py:Point.__pow__", "svgio/basic.py:Point.argz"]}
{"id": "C101", "title": "A matrix as a sequence", "statement": "matrix[0] to matrix[5] are the six components; assigning to one changes only this one; Matrix(*components) is the matrix again; and a loop over a matrix goes through the six components.", "quantifier": "all matrices and indices", "why_tests_cant": "all matrices", "anchors": ["svgio/basic.py:Matrix.__getitem__", "svgio/basic.py:Matrix.__setitem__", "svgio/basic.py:Matrix.__init__"]}
{"id": "C102", "title": "A segment as a sequence", "statement": "A loop over a segment goes through its points that are set, in order, also within another loop over it; len(segment) is the number of its points; path.as_points() gives the points of all segments.", "quantifier": "all segments and paths", "why_tests_cant": "all combinations of missing points", "anchors": ["svgio/path.py:PathSegment.__iter__", "svgio/path.py:PathSegment.__next__", "svgio/path.py:Path.as_points"]}
{"id": "C103", "title": "The forms of Move", "statement": "All documented ways to call Move set the same two points, with or without further keywords.", "quantifier": "all points and keywords", "why_tests_cant": "all combinations of arguments", "anchors": ["svgio/path.py:Move.__init__"]}
{"id": "C104", "title": "How light a colour is", "statement": "brightness, luminance, luma and intensity are 0 for black, 1 for white, k/255 for the grey of level k, between 0 and 1 for all colours, do not depend on the opacity, and do not fall when a channel rises. blackness is 1 minus brightness. They are None for a colour without value.", "quantifier": "all colours", "why_tests_cant": "4 billion colours", "anchors": ["svgio/basic.py:Color.intensity", "svgio/basic.py:Color.brightness", "svgio/basic.py:Color.blackness", "svgio/basic.py:Color.luminance", "svgio/basic.py:Color.luma"]}
{"id": "C105", "title": "Segments of basic shapes", "statement": "segments() of a line, rectangle, circle, ellipse, polyline or polygon draws the shape, moved by its transform, as a connected path, and bbox() is its tight box.", "quantifier": "all shapes and transforms", "why_tests_cant": "continuum of shapes", "anchors": ["svgio/nodes.py:Line.segments", "svgio/nodes.py:Rect.segments", "svgio/nodes.py:Ellipse.segments", "svgio/nodes.py:Circle.segments", "svgio/nodes.py:_Polyshape.segments", "svgio/nodes.py:Shape.bbox"]}
{"id": "C106", "title": "The box of an image", "statement": "bbox() of an image is the tight box of its area, moved by its transform; with transformed=False it is not moved.", "quantifier": "all sizes and transforms", "why_tests_cant": "continuum of points of the area", "anchors": ["svgio/nodes.py:Image.bbox"]}
{"id": "C107", "title": "Transforms of a segment compose", "statement": "Transforming a segment by A and then by B gives the segment transformed by A * B, for segment * matrix and in place; the identity matrix changes nothing, and the inverse matrix undoes a transform.", "quantifier": "all segments and matrices", "why_tests_cant": "continuum of matrices", "anchors": ["svgio/path.py:PathSegment.__mul__", "svgio/path.py:Move.__imul__", "svgio/path.py:Linear.__imul__", "svgio/path.py:QuadraticBezier.__imul__", "svgio/path.py:CubicBezier.__imul__", "svgio/path.py:Arc.__imul__", "svgio/basic.py:Matrix.__matmul__"]}
{"id": "C108", "title": "Lengths of lines and Bezier curves follow similarities", "statement": "Turning, moving or mirroring a line, quadratic or cubic curve does not change its length(); scaling by k multiplies it by k; reversing does not change it. Exactly for lines; up to 1e-10 for each length of a quadratic curve that is scaled or reversed; for cubic curves exactly if the tolerance is scaled too, and with scipy up to its accuracy.", "quantifier": "all segments but arcs, all similarities", "why_tests_cant": "continuum of curves and transforms", "anchors": ["svgio/path.py:Linear.length", "svgio/path.py:QuadraticBezier.length", "svgio/path.py:CubicBezier.length"]}
{"id": "C109", "title": "Boxes follow scalings and reversal", "statement": "The bbox() of a segment scaled along the axes and moved is the box of the segment, scaled and moved; reversing a segment does not change its box.", "quantifier": "all segments and axis scalings", "why_tests_cant": "continuum of curves and transforms", "anchors": ["svgio/path.py:Linear.bbox", "svgio/path.py:QuadraticBezier.bbox", "svgio/path.py:CubicBezier.bbox"]}
{"id": "C110", "title": "repr can be evaluated", "statement": "eval(repr(x)) == x for every point, matrix, angle, length, colour and path segment.", "quantifier": "all values", "why_tests_cant": "unboundedly many values", "anchors": ["svgio/basic.py:Point.__repr__", "svgio/basic.py:Matrix.__repr__", "svgio/basic.py:Angle.__repr__", "svgio/basic.py:Length.__repr__", "svgio/basic.py:Color.__repr__", "svgio/path.py:Move.__repr__", "svgio/path.py:Close.__repr__", "svgio/path.py:Line.__repr__", "svgio/path.py:QuadraticBezier.__repr__", "svgio/path.py:CubicBezier.__repr__", "svgio/path.py:Arc.__repr__"]}
{"id": "C111", "title": "Equal points have equal hashes", "statement": "If p == q then hash(p) == hash(q), so that points can be members of sets and keys of dictionaries.", "quantifier": "all pairs of points", "why_tests_cant": "all pairs of points", "anchors": ["svgio/basic.py:Point.__hash__", "svgio/basic.py:Point.__eq__"]}
{"id": "C112", "title": "From path data to the picture", "statement": "The points of the segments that parse() makes of path data are the points of the picture that the SVG specification says these data draw: lines, Bezier curves, smooth curves, and elliptical arcs given by their end points, with all relative and absolute commands.", "quantifier": "all texts that write path data, and all parameters of the curves", "why_tests_cant": "unboundedly many texts, continuum of points", "anchors": ["svgio/path.py:PathLexicalParser.parse", "svgio/path.py:Path.arc", "svgio/path.py:Arc._svg_parameterize", "svgio/path.py:Arc.point", "svgio/path.py:CubicBezier.point", "svgio/path.py:QuadraticBezier.point", "svgio/path.py:Linear.point"]}
{"id": "C113", "title": "Signs, reversed operators and percentages of lengths", "statement": "-a, abs(a), k*a and a*k of a length resolve to minus the value, its absolute value and the product; n+a and n-a with a number n resolve to the sum and the difference with the value, or are refused with ValueError exactly if the unit has no common measure with pixels; p% times a length is that part of it.", "quantifier": "all lengths, numbers and contexts in which the length resolves", "why_tests_cant": "infinitely many numbers, all units and contexts", "anchors": ["svgio/basic.py:Length.__neg__", "svgio/basic.py:Length.__abs__", "svgio/basic.py:Length.__radd__", "svgio/basic.py:Length.__rsub__", "svgio/basic.py:Length.__rmul__", "svgio/basic.py:Length.__mul__"]}
{"id": "C114", "title": "Opaque copy of a colour", "statement": "abs(color) has the red, green and blue of the color and is opaque, and abs of it is the same again; the color none stays none.", "quantifier": "all packed colour values", "why_tests_cant": "2^32 colours, floating point in the constructor", "anchors": ["svgio/basic.py:Color.__abs__", "svgio/basic.py:Color.rgb_to_int"]}
{"id": "C115", "title": "The points of a path read from text", "statement": "After path data are read, first_point is the target of the first moveto, current_point the current point of the SVG pen, z_point the start of the current subpath, and smooth_point the reflection of the last control point, or the current point if the last command is no curve. The first_point of any path, read or not, is where the curve of its first segment begins, and None if it has no segment.", "quantifier": "all texts that write path data; for the last sentence, all paths whose first segment is a curve or a move that does not start elsewhere", "why_tests_cant": "unboundedly many texts", "anchors": ["svgio/path.py:Path.first_point", "svgio/path.py:Path.current_point", "svgio/path.py:Path.z_point", "svgio/path.py:Path.smooth_point", "svgio/path.py:PathLexicalParser.parse"]}
{"id": "C116", "title": "Walking through the children of a node", "statement": "Going from first_child by next_sibling visits every child once and in order, and from last_child by previous_sibling in the opposite order; parent_node is the node whose list has the child; is_connected, has_child_nodes and child_element_count agree with the tree.", "quantifier": "all documents made by loading and by tree operations, and all their nodes", "why_tests_cant": "all trees and histories of operations", "anchors": ["svgio/nodes.py:Node.first_child", "svgio/nodes.py:Node.last_child", "svgio/nodes.py:Node.next_sibling", "svgio/nodes.py:Node.previous_sibling", "svgio/nodes.py:Node.parent_node", "svgio/nodes.py:Node.is_connected", "svgio/nodes.py:Element.child_element_count", "svgio/nodes.py:Element.first_element_child"]}
{"id": "C117", "title": "Properties of elements show their attributes", "statement": "Each property of an element (rect.x, circle.r, path.d, image.href, svg.viewBox, clip_path.unit_type, ...) is the attribute of that name that the element has, and the initial value if it is missing; stroke_width, stroke_opacity and fill_opacity are taken from the closest ancestor that has the attribute.", "quantifier": "all documents made by loading and by builders, all their elements, and all properties of their classes", "why_tests_cant": "all trees and attributes, 29 classes with their properties", "anchors": ["svgio/nodes.py:Rect.x", "svgio/nodes.py:Ellipse.rx", "svgio/nodes.py:Circle.r", "svgio/nodes.py:Line.x1", "svgio/nodes.py:Path.d", "svgio/nodes.py:Image.href", "svgio/nodes.py:SVG.viewBox", "svgio/nodes.py:ClipPath.unit_type", "svgio/nodes.py:GraphicalElement.stroke_width", "svgio/nodes.py:Transformable.transform", "svgio/nodes.py:Node.__getattribute__"]}
{"id": "C118", "title": "Transform of a nested element", "statement": "transform of an element is the transform from its coordinates to those of the document: the product of its own and those of its ancestors.", "quantifier": "all documents and elements", "why_tests_cant": "all depths of nesting", "anchors": ["svgio/nodes.py:Transformable.transform", "svgio/nodes.py:Document.get_values"]}
{"id": "C119", "title": "From a file to the picture of a path element", "statement": "After a document is loaded, segments() of a path element draws the picture that the SVG specification says its attribute d draws.", "quantifier": "all documents, path elements in them, and texts that write path data", "why_tests_cant": "all trees and unboundedly many texts", "anchors": ["svgio/nodes.py:Path.segments", "svgio/nodes.py:Path.d", "svgio/nodes.py:Node.parse", "svgio/path.py:Path.__init__", "svgio/path.py:PathLexicalParser.parse"]}
{"id": "C120", "title": "Curves reach their end points with floats", "statement": "With floating-point numbers, point(0) of a line, quadratic or cubic segment is exactly its start and point(1) exactly its end, with numpy or without.", "quantifier": "all segments whose coordinates are floats, and every rounding that errs as IEEE doubles do", "why_tests_cant": "rounding depends on every bit of the coordinates", "anchors": ["svgio/path.py:PathSegment.point", "svgio/path.py:Linear.npoint", "svgio/path.py:QuadraticBezier.npoint", "svgio/path.py:CubicBezier.npoint", "svgio/basic.py:Point.towards"]}
{"id": "C121", "title": "Identity and translations with floats", "statement": "With floating-point numbers, the identity matrix changes no point and no matrix, a translation gives the correctly rounded sum, its inverse is exactly the opposite translation, and a point moved and moved back equals the point before as == compares points.", "quantifier": "all points, matrices and translations whose numbers are floats", "why_tests_cant": "rounding depends on every bit of the coordinates", "anchors": ["svgio/basic.py:Matrix.point_in_matrix_space", "svgio/basic.py:Matrix.matrix_multiply", "svgio/basic.py:Matrix.inverse", "svgio/basic.py:Matrix.point_in_inverse_space", "svgio/basic.py:Point.__eq__"]}
{"id": "C122", "title": "Rounding errors of points", "statement": "With floating-point numbers, a transformed point differs from the exact one by at most one part in 2^51 of the sizes of its terms, and a point of a line, quadratic or cubic segment at a position from 0 to 1 by at most one part in 2^47 of the largest coordinate; for coordinates up to 128 this is within the tolerance of Point.__eq__.", "quantifier": "all matrices, points, line, quadratic and cubic segments, positions from 0 to 1, and every rounding that errs as IEEE doubles do", "why_tests_cant": "rounding errors for all numbers", "anchors": ["svgio/basic.py:Matrix.point_in_matrix_space", "svgio/path.py:PathSegment.point", "svgio/path.py:QuadraticBezier.npoint", "svgio/path.py:CubicBezier.npoint", "svgio/basic.py:Point.towards", "svgio/basic.py:Point.__eq__"]}
{"id": "C123", "title": "Angles and parameters of an arc", "statement": "On the ellipse of an arc, point_at_t and t_at_point, and point_at_angle and angle_at_point, undo each other up to full turns; get_start_angle, get_end_angle, get_start_t and get_end_t are those of the ends; is_circular tells whether all points are equally far from the centre; get_ellipse() gives the ellipse.", "quantifier": "all arcs, parameters, angles and points of the ellipse", "why_tests_cant": "quadrants, rotations and mirrored axes of every ellipse", "anchors": ["svgio/path.py:Arc.point_at_t", "svgio/path.py:Arc.t_at_point", "svgio/path.py:Arc.point_at_angle", "svgio/path.py:Arc.angle_at_point", "svgio/path.py:Arc.get_start_angle", "svgio/path.py:Arc.get_end_angle", "svgio/path.py:Arc.get_start_t", "svgio/path.py:Arc.get_end_t", "svgio/path.py:Arc.is_circular", "svgio/path.py:Arc.radius", "svgio/path.py:Arc.get_ellipse"]}
{"id": "C124", "title": "Colour functions", "statement": "A colour written as rgb(), rgba(), hsl() or hsla() with commas has the channels that CSS says: numbers limited to 0..255, percentages of 255 rounded, the levels of the hue, saturation and lightness, and 255 times the opacity; every other text with a parenthesis is opaque black.", "quantifier": "all texts, all spellings of the numbers, white space anywhere, and every rounding that errs as IEEE doubles do", "why_tests_cant": "unbounded numbers and white space, and a formula with many cases", "anchors": ["svgio/basic.py:Color.parse", "svgio/basic.py:Color.parse_color_rgb", "svgio/basic.py:Color.parse_color_rgbp", "svgio/basic.py:Color.parse_color_hsl", "svgio/basic.py:Color.hsl_to_int", "svgio/basic.py:Color.rgb_to_int", "svgio/constants.py:REGEX_COLOR_RGB", "svgio/constants.py:REGEX_COLOR_RGB_PERCENT", "svgio/constants.py:REGEX_COLOR_HSL"]}
{"id": "C125", "title": "Numbers in text have their decimal value", "statement": "A number in path data, a transform, a list of points, a length, an angle or a colour is read to its end and no further, and has the value of its sign, digits, decimal point and exponent.", "quantifier": "all number texts and all texts after them that do not continue the number", "why_tests_cant": "unbounded digits and exponents", "anchors": ["svgio/constants.py:PATTERN_FLOAT", "svgio/constants.py:REGEX_FLOAT", "svgio/path.py:PathLexicalParser._number", "svgio/basic.py:Length.__init__"]}
{"id": "C126", "title": "Saving, loading and saving again settles", "statement": "When a path is written with d(relative=False, smooth=False), read with floats, and written again, nothing changes from the second text on: the third text is the second and the points read are the same. The second text is already the first one.", "quantifier": "all connected paths, all coordinates that are 0 or at least 1e-300, and every rounding that errs at most as IEEE doubles do", "why_tests_cant": "every coordinate and every rounding of a decimal to a float", "anchors": ["svgio/path.py:Path.d", "svgio/path.py:Path.parse", "svgio/basic.py:Point.__str__"]}
{"id": "C127", "title": "A length printed and read stays the same text", "statement": "A float amount printed as a length, read into the nearest float and printed again gives the same text.", "quantifier": "all floats except negative ones that are printed as -0", "why_tests_cant": "all 2^64 floats", "anchors": ["svgio/basic.py:Length.str", "svgio/basic.py:Length.__str__", "svgio/basic.py:Length.__init__"]}
{"id": "C128", "title": "Colours of hue, saturation and lightness, with floats", "statement": "With the rounding of floats at every step, hsl(h, s%, l%) gives the channels that CSS defines, up to cutting to a whole number, rgb(p%, p%, p%) the rounded percentages, and writing back the hue (in turns), saturation and lightness that were read restores the red, green and blue of the colour.", "quantifier": "all texts of these forms, all colours, and every rounding that errs at most as IEEE doubles do", "why_tests_cant": "2^24 colours times the roundings, and unboundedly many texts", "anchors": ["svgio/basic.py:Color.hsl_to_int", "svgio/basic.py:Color.parse_color_hsl", "svgio/basic.py:Color.parse_color_rgbp", "svgio/basic.py:Color.hue", "svgio/basic.py:Color.saturation", "svgio/basic.py:Color.lightness", "svgio/basic.py:Color.hsl"]}
{"id": "C129", "title": "Texts are read as the library's regular expressions say", "statement": "For every text, what is taken for a number, a length with its unit, the list of numbers of a viewBox, the functions and parameters of a transform, a hexadecimal colour, the arguments of rgb() and hsl(), the id of a url(), and the commands, numbers and flags of path data, is what the published regular expressions find there with leftmost, greedy, backtracking matching.", "quantifier": "all texts", "why_tests_cant": "Backtracking and findall on arbitrary texts have no finite set of cases; a wrong priority between alternatives shows only on special texts.", "anchors": ["svgio/constants.py:REGEX_FLOAT", "svgio/constants.py:REGEX_LENGTH", "svgio/constants.py:REGEX_TRANSFORM_TEMPLATE", "svgio/constants.py:REGEX_TRANSFORM_PARAMETER", "svgio/constants.py:REGEX_COLOR_HEX", "svgio/constants.py:REGEX_COLOR_RGB", "svgio/constants.py:REGEX_COLOR_HSL", "svgio/constants.py:REGEX_IRI", "svgio/constants.py:svg_re", "svgio/constants.py:num_re", "svgio/constants.py:flag_re", "svgio/path.py:SVGLexicalParser"]}
{"id": "C130", "title": "Points from texts", "statement": "Point(text) is the first pair of numbers in the text that are separated by a comma, white space or the minus sign of the second one; a text without such a pair raises IndexError; Point(str(p)) is p again, up to the digits that are printed, and is printed like p.", "quantifier": "all texts; all points, and every rounding that errs at most as IEEE doubles do", "why_tests_cant": "Which pair is found first depends on backtracking at every position of an arbitrary text.", "anchors": ["svgio/basic.py:Point.__init__", "svgio/basic.py:Point.__str__", "svgio/constants.py:REGEX_COORD_PAIR"]}
{"id": "C131", "title": "Assigning hue, saturation and lightness", "statement": "color.hue = x, color.saturation = x and color.lightness = x change this value to x and keep the other two and the opacity; an unset colour raises ValueError.", "quantifier": "all colours and all values", "why_tests_cant": "16.7 million colours times a continuum of values", "anchors": ["svgio/basic.py:Color.hue", "svgio/basic.py:Color.saturation", "svgio/basic.py:Color.lightness", "svgio/basic.py:Color.hsl"]}
{"id": "C132", "title": "Style sheets are read", "statement": "After any number of style sheets, the style that is kept for a selector has exactly the declarations of the rules with this selector, in their order; a rule with several selectors counts for each of them.", "quantifier": "all sequences of style sheets that are written as rules with selectors and declarations, with any white space", "why_tests_cant": "Sheets are unbounded texts, read by a regular expression with backtracking.", "anchors": ["svgio/nodes.py:parse", "svgio/constants.py:REGEX_CSS_STYLE"]}
{"id": "C133", "title": "The cascade", "statement": "An element gets a property from the last declaration of it, where rules for * come before rules for its tag, its id and its classes, and its style attribute is last; attributes count where there is no declaration. currentColor is the colour of the element, or else of its parent; a transform comes behind the one of the parent.", "quantifier": "all style sheets, elements, attributes, classes and inherited values", "why_tests_cant": "Texts of arbitrarily many rules are joined and split again.", "anchors": ["svgio/nodes.py:parse"]}
{"id": "C134", "title": "Inherited values in a document", "statement": "Every element that is displayed has its own values, or else those of the innermost element around it that has one; id, viewBox, preserveAspectRatio and clip-path are not inherited; transforms are all those around it, outermost first; elements with display none are left out with all that is in them; the values of an element end with it, and a style sheet counts for the elements after it.", "quantifier": "all documents (trees of any depth and width), style sheets anywhere in them", "why_tests_cant": "The loop keeps a stack over an event stream of any length and depth.", "anchors": ["svgio/nodes.py:parse"]}
{"id": "C135", "title": "Nested transforms compose", "statement": "In a document, the transform of an element, read by Matrix, is the one that applies its own transform first, then those of the elements around it up to the outermost; an element has no transform exactly if there is none around it and it has none itself.", "quantifier": "elements nested to any depth, with any transform lists of C30", "why_tests_cant": "unbounded depth and arbitrary transform lists", "anchors": ["svgio/nodes.py:parse", "svgio/basic.py:Matrix.parse"]}
{"id": "C136", "title": "Products of transforms with floats", "statement": "With float arithmetic, a point moved by a product of transforms, however the product is bracketed, and a point moved by the transforms one after the other agree up to rounding errors that grow only linearly with the number of transforms; and the points of a transformed line or curve are the transformed points of it up to rounding.", "quantifier": "all lists of transforms, brackets, points, segments without arcs and positions from 0 to 1", "why_tests_cant": "unbounded products; a continuum of transforms and points; errors of all roundings together", "anchors": ["svgio/basic.py:Matrix.matrix_multiply", "svgio/basic.py:Matrix.point_in_matrix_space", "svgio/path.py:PathSegment.__mul__", "svgio/path.py:CubicBezier.__imul__"]}
{"id": "C137", "title": "Inverse transforms with floats", "statement": "With float arithmetic, moving a point by a transform and back by its inverse gives the point up to a rounding error in proportion to the sizes of the transform and its inverse; the inverse is not refused. A transform with determinant 0 is refused and stays as it was.", "quantifier": "all transforms whose determinant is not lost in rounding and that are far from underflow; all points", "why_tests_cant": "continuum of matrices; errors of all roundings together", "anchors": ["svgio/basic.py:Matrix.inverse", "svgio/basic.py:Matrix.point_in_inverse_space"]}
{"id": "C138", "title": "Comparing segments and paths", "statement": "Two segments are equal exactly if they are of the same class and their points agree within 1e-12; two paths are equal exactly if they have equally many segments and these are equal one by one; != is the opposite; equality is reflexive, symmetric and transitive.", "quantifier": "all segments and paths, of any length", "why_tests_cant": "continuum of coordinates at the edge of the tolerance; all combinations of classes and missing points", "anchors": ["svgio/path.py:Move.__eq__", "svgio/path.py:Linear.__eq__", "svgio/path.py:QuadraticBezier.__eq__", "svgio/path.py:CubicBezier.__eq__", "svgio/path.py:Arc.__eq__", "svgio/path.py:Path.__eq__", "svgio/path.py:Path.__ne__"]}
{"id": "C139", "title": "A path as a mutable sequence", "statement": "path.index, in and count look for equal segments as they do for lists; pop gives a segment and takes it away, remove takes the first equal one away, and the path stays connected; clear ends with an empty path; what is not there raises ValueError or IndexError.", "quantifier": "all paths, segments, indices and bounds, of any size", "why_tests_cant": "unbounded lengths and indices; repairs of the neighbours depend on all positions", "anchors": ["svgio/path.py:Path.__getitem__", "svgio/path.py:Path.__delitem__", "svgio/path.py:Path.__len__", "svgio/path.py:Path._validate_connection", "svgio/path.py:Path._validate_subpath"]}
{"id": "C140", "title": "Paths do not disturb each other", "statement": "Each segment object exists only once in each path and in one path only; whatever is done to one path - appending, inserting, replacing, deleting, slices, +=, transforming and reversing its subpaths, reversing it - leaves every other path as it was, so that after any history each path holds what its own edits make of it.", "quantifier": "all histories of commands on any number of paths, of any length", "why_tests_cant": "which objects two paths share depends on the whole history; unbounded number of histories", "anchors": ["svgio/path.py:Path", "svgio/path.py:Path.__init__", "svgio/path.py:Path.append", "svgio/path.py:Path.insert", "svgio/path.py:Path.__setitem__", "svgio/path.py:Path.__delitem__", "svgio/path.py:Path.__iadd__", "svgio/path.py:Path.reverse", "svgio/path.py:Subpath.__imul__", "svgio/path.py:Subpath.reverse", "svgio/path.py:Subpath.__radd__"]}
{"id": "C141", "title": "Boxes with floats", "statement": "With floats, segment.bbox() still holds every point of the line or curve and each side is still touched, up to a rounding error that is small in proportion to the coordinates.", "quantifier": "all lines, quadratic and cubic curves, all coordinates, all parameters from 0 to 1, and every rounding that errs at most as IEEE doubles do", "why_tests_cant": "continuum of coordinates; cancellation shows only for rare coordinates", "anchors": ["svgio/path.py:PathSegment.bbox", "svgio/path.py:QuadraticBezier.bbox", "svgio/path.py:CubicBezier.bbox", "svgio/path.py:CubicBezier._real_minmax"]}
{"id": "C142", "title": "The box of a subpath, with floats", "statement": "With floats, subpath.bbox() still holds all that the subpath draws and each side is still touched, up to the error of the worst of its segments; for a subpath without curves there is no error.", "quantifier": "all subpaths of moves, lines, quadratic and cubic curves, all coordinates, and every rounding that errs at most as IEEE doubles do", "why_tests_cant": "continuum of coordinates, unboundedly many segments", "anchors": ["svgio/path.py:Subpath.bbox", "svgio/path.py:PathSegment.bbox", "svgio/path.py:QuadraticBezier.bbox", "svgio/path.py:CubicBezier.bbox"]}
{"id": "C143", "title": "Position lookup with floats", "statement": "With doubles, path.point(t) for 0<t<1 never divides by zero, evaluates a segment of the path at a position in [0,1] of it, and this is the place where the fraction t of the total length falls, up to one rounding for each segment.", "quantifier": "all paths, all lengths of segments, all doubles t between 0 and 1", "why_tests_cant": "the rounding of the sums depends on all lengths; it fails only for the last doubles before 1", "anchors": ["svgio/path.py:Path.point", "svgio/path.py:Path._calc_lengths"]}
{"id": "C144", "title": "Convex hull with floats", "statement": "With doubles, Point.convex_hull(points) comes to an end, yields only points that were given, none twice, starts at a leftmost one, and every given point lies on the same side of every edge or on it.", "quantifier": "all finite collections of points whose coordinates are doubles", "why_tests_cant": "rounded orientations of nearly collinear points can contradict each other and make the walk go round for ever; tests with a few shapes do not meet such points", "anchors": ["svgio/basic.py:Point.convex_hull", "svgio/basic.py:Point.orientation"]}
{"id": "C145", "title": "Colours from keywords", "statement": "Color(value, red=.., green=.., blue=.., alpha=..) is the colour of the value with each named channel replaced by the given number, brought into 0..255; Color(red=r, green=g, blue=b) is Color(r, g, b); rgba, argb and rgb keywords set the packed value; h, s, l keywords set hue, saturation and lightness.", "quantifier": "all values, all sets of keywords, all numbers", "why_tests_cant": "seventeen keywords in any combination with up to four arguments, each over all numbers", "anchors": ["svgio/basic.py:Color.__init__"]}
{"id": "C146", "title": "Font texts", "statement": "text.parse_font(font) of a CSS font text sets weight, size, face and generic family as the text gives them; a text without a generic family, or with a named size, is understood as well.", "quantifier": "all font texts: any number of words for style, variant, weight and stretch, any size, face and family", "why_tests_cant": "the texts are unbounded and the pattern backtracks over every split of size, face and family", "anchors": ["svgio/nodes.py:Text.parse_font", "svgio/nodes.py:Text.parse_font_weight"]}
{"id": "C147", "title": "Data of images", "statement": "image.data is the decoded content of a base64 data URL of type png, jpg, jpeg or svg+xml, and None for every other reference and for an image without one; image.load() does not fail where the image can be opened.", "quantifier": "all loaded documents, all image elements, all references", "why_tests_cant": "all references and all positions in a document, where href can also come from an ancestor", "anchors": ["svgio/nodes.py:Image.data", "svgio/nodes.py:Image.load"]}
{"id": "C148", "title": "Lengths of paths of lines with floats", "statement": "With doubles, path.length() of moves, lines and closes is the sum of the distances up to rounding, and path.point(t) is the point at the fraction t of that length up to rounding.", "quantifier": "all paths of moves, lines and closes whose coordinates are doubles, all positions", "why_tests_cant": "rounding errors add up over any number of segments; squares of small differences vanish", "anchors": ["svgio/basic.py:Point.distance", "svgio/path.py:Linear.length", "svgio/path.py:Path.length", "svgio/path.py:Path.point"]}
{"id": "C149", "title": "The viewBox of an element", "statement": "viewbox_transform of an element is the transform that fits its viewBox into its rectangle, and empty if it has no viewBox; x and y are 0 if they are not given.", "quantifier": "all documents, loaded or built, all elements with a viewBox, all rectangles and aspect ratios", "why_tests_cant": "continuum of rectangles; attributes may come from any ancestor and be texts or numbers", "anchors": ["svgio/nodes.py:SVG.viewbox_transform", "svgio/nodes.py:Image.viewbox_transform", "svgio/nodes.py:Pattern.viewbox_transform", "svgio/basic.py:Viewbox.transform"]}
{"id": "C150", "title": "Position and centre of shapes", "statement": "rect.position, circle.center and ellipse.center are the point with the coordinates that the element has, and 0 for one that it does not have.", "quantifier": "all documents, loaded or built, all rectangles, circles and ellipses, all texts and numbers as coordinates", "why_tests_cant": "all texts, and attributes that may come from any ancestor", "anchors": ["svgio/nodes.py:Rect.position", "svgio/nodes.py:Circle.center", "svgio/nodes.py:Ellipse.center", "svgio/basic.py:Point.__init__"]}
{"id": "C151", "title": "Points of arcs, computed with floats", "statement": "arc.point(t), computed with doubles, is the start for 0 and the end for 1, and for other positions in between it is the point of the ellipse at the parameter of the start plus t times the sweep, up to rounding.", "quantifier": "all arcs with radii that are not tiny, all starts, all sweeps up to a turn, all positions, all float functions cos, sin, tan, atan2 and sqrt that are accurate to one unit in the last place", "why_tests_cant": "continuum of arcs and positions; errors depend on the platform's trigonometric functions", "anchors": ["svgio/path.py:Arc.npoint", "svgio/path.py:Arc.point_at_t", "svgio/path.py:Arc.get_start_t", "svgio/path.py:Arc.t_at_point", "svgio/path.py:Arc.point_at_angle"]}
{"id": "C152", "title": "Scaling, turning and skewing about a point, computed with floats", "statement": "A new matrix scaled, rotated or skewed about a point, with pre_ or post_ methods and doubles, moves every point to where the exact operation about that point takes it, up to a few roundings of the coordinates; rotate(d, x, y) turns by d degrees, and turning there and back returns to the point.", "quantifier": "all scales, angles, pivots and points; all float functions cos, sin and tan accurate to one unit in the last place", "why_tests_cant": "continuum of angles, pivots and points; cancellation for pivots far from the origin", "anchors": ["svgio/basic.py:Matrix.pre_rotate", "svgio/basic.py:Matrix.post_rotate", "svgio/basic.py:Matrix.pre_skew", "svgio/basic.py:Matrix.post_skew", "svgio/basic.py:Matrix.pre_scale", "svgio/basic.py:Matrix.post_scale", "svgio/basic.py:Angle.degrees", "svgio/basic.py:Matrix.point_in_matrix_space"]}
{"id": "C153", "title": "The transform of a viewBox, computed with floats", "statement": "With doubles the scales and shifts of the transform of a viewBox, and the matrix read from its text, are those of the exact computation for every preserveAspectRatio up to a few roundings (and half a unit of the twelfth decimal in the text); with none the corners of the viewBox go to the corners of the element up to these roundings; a zero size raises ZeroDivisionError and missing numbers give an empty text.", "quantifier": "all element and viewBox rectangles, missing values, every text of preserveAspectRatio", "why_tests_cant": "continuum of rectangles; cancellation for viewBoxes far from the origin; the choice of the smaller scale is made between rounded numbers", "anchors": ["svgio/basic.py:Viewbox.viewbox_transform", "svgio/basic.py:Viewbox.transform"]}
{"id": "C154", "title": "Polar coordinates of points", "statement": "Point.polar(p, a, r) and p.polar_to(a, r) are at the distance |r| from p, seen from p at the angle a (the opposite angle for negative r); going from p by p.angle_to(q) and p.distance_to(q) leads to q; q.angle_to(p) is opposite to p.angle_to(q). With doubles this holds up to a few roundings of the coordinates.", "quantifier": "all points, angles and distances; all float functions cos, sin and atan2 accurate to one unit in the last place", "why_tests_cant": "continuum of points and angles", "anchors": ["svgio/basic.py:Point.polar", "svgio/basic.py:Point.polar_to", "svgio/basic.py:Point.angle", "svgio/basic.py:Point.angle_to", "svgio/basic.py:Point.distance", "svgio/basic.py:Point.distance_to"]}
{"id": "C155", "title": "Angles computed with floats", "statement": "With doubles, an angle given in degrees, gradians or turns gives these back up to a few roundings; normalized() is in [0, tau) and differs from the angle by whole turns; angles are equal exactly when they differ by whole turns up to 1e-11; as_positive_degrees ends and gives a number of degrees in [0, 360) for negative angles; whole quarter turns are orthogonal.", "quantifier": "all doubles", "why_tests_cant": "all doubles, including numbers just below zero or a full turn, and huge ones; the loop may need arbitrarily many steps", "anchors": ["svgio/basic.py:Angle.__eq__", "svgio/basic.py:Angle.normalized", "svgio/basic.py:Angle.degrees", "svgio/basic.py:Angle.as_degrees", "svgio/basic.py:Angle.as_positive_degrees", "svgio/basic.py:Angle.is_orthogonal"]}
{"id": "C156", "title": "Path data read with floats", "statement": "Reading any path data text with doubles fails with the same exception and at the same place as reading it exactly, and gives the same number of segments of the same classes. The end points of the n-th segment are off by at most n roundings of the largest coordinate, control points by at most n^2; without relative and smooth commands every coordinate is off by one rounding only.", "quantifier": "all texts, well formed or not, all paths they are added to, all coordinates in the range of doubles, up to 2^24 segments", "why_tests_cant": "all texts; rounding errors add up over arbitrarily long relative path data", "anchors": ["svgio/path.py:PathLexicalParser._rcoord", "svgio/path.py:PathLexicalParser.parse", "svgio/path.py:Path.smooth_point", "svgio/path.py:Path.horizontal", "svgio/path.py:Path.vertical", "svgio/path.py:Path.smooth_quad", "svgio/path.py:Path.smooth_cubic"]}
{"id": "C157", "title": "A saved path, read again, is near the original", "statement": "For a connected path that starts with a move, d(relative, transformed=False, smooth) is path data that read back as a path with the same number of segments of the same classes; end points of the n-th segment are off by at most n units in the twelfth digit of the largest coordinate, control points by at most n^2 such units and n times the tolerance of ==. Reading with doubles adds at most a thousandth part of that.", "quantifier": "all connected paths, any coordinates, every choice of relative and smooth", "why_tests_cant": "unbounded paths, in which the rounding of relative output adds up; every coordinate", "anchors": ["svgio/path.py:Path.svg_d", "svgio/path.py:Path.d", "svgio/path.py:Path.parse", "svgio/basic.py:Point.__str__", "svgio/path.py:QuadraticBezier.is_smooth_from", "svgio/path.py:CubicBezier.is_smooth_from"]}
{"id": "C158", "title": "Lengths found without scipy have a known accuracy", "statement": "Without scipy, length(error, min_depth) of a cubic curve or an arc of an ellipse ends for every error > 0, is never larger than the true length, and is too small by at most an explicit amount that is halved when min_depth grows by one: 3*D/2^min_depth for a cubic curve with second differences up to D, R*sweep^2/2^(min_depth+1) for an arc. If the curve nowhere moves slower than some v and min_depth is large enough for that, the amount falls to a quarter each time. The argument error alone does not bound the error.", "quantifier": "all cubic curves and arcs of ellipses, every error > 0 and min_depth", "why_tests_cant": "the bisection is recursive without a fixed depth, and the true length has no closed form to compare with", "anchors": ["svgio/path.py:PathSegment.segment_length", "svgio/path.py:PathSegment._line_length", "svgio/path.py:CubicBezier.length", "svgio/path.py:Arc.length"]}
{"id": "C159", "title": "Lengths found by bisection with floats", "statement": "Computed with floats and without scipy, the bisection behind length(error, min_depth) ends for every curve, even one that is not continuous, and for every error >= 0, also 0, after at most 1075 nested calls, or min_depth + 1 if that is more. For error >= 2^-1000 and min_depth <= 50 the result is not smaller than the polygon through the 2^(min_depth+1)+1 points computed at equal steps, but for a factor 1 - 2^-37 and 2^-1000; so the length of a cubic curve is too small by at most 3*D/2^min_depth and an explicit rounding error.", "quantifier": "all functions from parameters to points, all cubic curves, every error and min_depth, every hypot that rounds as math.hypot does", "why_tests_cant": "the depth of the recursion depends on how floats round at every scale down to subnormal numbers", "anchors": ["svgio/path.py:PathSegment.segment_length", "svgio/path.py:PathSegment._line_length", "svgio/path.py:CubicBezier.length", "svgio/basic.py:Point.__abs__"]}
{"id": "C160", "title": "Lengths with units computed with floats", "statement": "Resolving a Length with floats gives a number exactly where exact arithmetic gives one, and then that number up to a relative error 2^-49 (and 2^-1064 times the largest number given); a Length that cannot be resolved keeps its unit, and the same exceptions are raised. Adding or subtracting two Lengths gives the unit of exact arithmetic and an amount off by at most 2^-49 of the first amount and of the result. Multiplying two Lengths and float(length) are accurate to 2^-49 and raise the same exceptions. Lengths of the same unit are compared exactly. Lengths of different units are compared correctly unless they differ by less than 2^-48 of the first, where a > b and b < a can differ.", "quantifier": "all lengths, all units, all of ppi, relative length, font size, font height and viewbox, every rounding with relative error 2^-53", "why_tests_cant": "the rounding error depends on the bits of every amount and factor; tests use amounts that convert exactly", "anchors": ["svgio/basic.py:Length.__iadd__", "svgio/basic.py:Length.__imul__", "svgio/basic.py:Length.__float__", "svgio/basic.py:Length.__lt__", "svgio/basic.py:Length.__gt__", "svgio/basic.py:Length.value"]}
{"id": "C161", "title": "What is_smooth_from says", "statement": "After a curve of the same sort, is_smooth_from(previous) is true exactly if this curve begins where the previous one ends, up to 1e-12, and with the velocity the previous one ends with, up to 1e-12 times the degree. After any other segment, or None, it is true exactly if this curve begins at rest, up to the same tolerance.", "quantifier": "all pairs of curves whose points are given", "why_tests_cant": "the velocity is a limit of differences of points of the curve; there are infinitely many pairs of curves", "anchors": ["svgio/path.py:QuadraticBezier.is_smooth_from", "svgio/path.py:CubicBezier.is_smooth_from"]}
{"id": "C162", "title": "Transform lists read from text with floats", "statement": "Matrix(text) computed with floats moves every point to where the functions of the text, applied one after the other from the last to the first, move it exactly. The error is at most (1 + r) / 2^49, times how much the functions enlarge, times the size of the point. Here r counts roundings: about 10 for each function, more for large angles and for skews near to a quarter turn.", "quantifier": "all texts of transform functions in the SVG grammar, in every letter case, with lengths in px, pt, pc or without unit, no skew by a quarter turn, and at most 2^48 roundings; all points; all implementations of cos, sin and tan that are accurate to the last bits", "why_tests_cant": "there are infinitely many texts and points, and the errors of a long list add up", "anchors": ["svgio/basic.py:Matrix.parse", "svgio/basic.py:Angle.parse", "svgio/basic.py:Length.value", "svgio/basic.py:Matrix.point_in_matrix_space"]}
{"id": "C163", "title": "Arcs built from SVG parameters with floats", "statement": "An arc built from SVG parameters with floats raises nothing. Its axes are those of an ellipse turned by the rotation, up to 2^-38 of the size of the coordinates and radii; the start is on that ellipse up to 2^-39 of that size; going on by the sweep leads to the end up to 2^-39 of that size and 2^-14 of the radii. Both radii are enlarged by the same factor, almost the least with which the ellipse can reach both ends. The sweep has the direction asked for and is at most one turn; unless the ends are very near to each other compared with the radii, it is at least or at most half a turn as asked for, up to 2^-14. Equal ends or a zero radius give an arc that is a single point.", "quantifier": "all ends with coordinates of at most 2^64 that are not equal for the library, all radii from 2^-64 to 2^64, all rotations of at most two turns, both flags; all implementations of cos, sin, sqrt and acos that are accurate to the last bits", "why_tests_cant": "the parameters are real numbers; the errors depend on all of them, and become large where the radius only just suffices", "anchors": ["svgio/path.py:Arc._svg_parameterize", "svgio/path.py:Arc.__init__"]}
{"id": "C164", "title": "Points of arcs built from SVG parameters with floats", "statement": "An arc built from SVG parameters follows an ellipse that is turned by the rotation, has radii enlarged by the same factor as little as possible, and passes both ends: the point at a position p, computed with floats, is the point of this ellipse after the part p of the sweep. The error is at most C^3 / 2^30 of the size of the coordinates and radii, where C is that size divided by the smaller radius. The first and last points are exactly the start and the end.", "quantifier": "all positions from 0 to 1, all ends with coordinates of at most 2^64 that are not equal for the library, all radii from 2^-64 to 2^64 with C at most 4096, all rotations of at most two turns, both flags; all implementations of the mathematical functions that are accurate to the last bits", "why_tests_cant": "the parameters and the positions are real numbers; the errors of building the arc and of following it add up", "anchors": ["svgio/path.py:Arc._svg_parameterize", "svgio/path.py:PathSegment.point", "svgio/path.py:Arc.npoint", "svgio/path.py:Arc.point_at_t"]}
{"id": "C165", "title": "The box of an arc with floats", "statement": "With floats, arc.bbox() holds every point the arc computes and each of its sides goes through one of them, for a sweep that is not taken for 0. Points may be outside by twice the distance of the ends from the ellipse plus C^3 / 2^41 of the size of the coordinates and radii, where C is that size divided by the smaller radius.", "quantifier": "all arcs with radii of at least 2^-400, a start in any direction, and a sweep from 2^-60 up to a turn; all positions from 0 to 1; all implementations of the mathematical functions that are accurate to the last bits", "why_tests_cant": "the parameters and the positions are real numbers; the outermost points are found by an arctangent whose argument can be any number, and a rounded position may fall outside the arc", "anchors": ["svgio/path.py:Arc.bbox", "svgio/path.py:Arc.theta", "svgio/path.py:Arc.delta", "svgio/path.py:Arc.npoint"]}
{"id": "C166", "title": "The box of an arc built from SVG parameters, with floats", "statement": "For an arc built from SVG parameters whose ends are at least 2^-12 of its size apart, bbox(), computed with floats, returns a box that holds every point the arc computes, and each side of the box goes through one of these points. Points may be outside by 2^-13 of the radii plus C^3 / 2^29 of the size of the coordinates and radii, where C is that size divided by the smaller radius.", "quantifier": "all positions from 0 to 1, all ends with coordinates of at most 2^64, all radii from 2^-64 to 2^64 with C at most 4096, all rotations of at most two turns, both flags; all implementations of the mathematical functions that are accurate to the last bits", "why_tests_cant": "the parameters and the positions are real numbers; the errors of building the arc, of following it and of finding its outermost points add up", "anchors": ["svgio/path.py:Arc._svg_parameterize", "svgio/path.py:Arc.bbox", "svgio/path.py:Arc.npoint"]}
{"id": "C167", "title": "What an arc prints is the arc", "statement": "An arc that runs from one point to another along an ellipse and turns by less than a full turn prints, with d(), radii, rotation, flags and end from which the path reader builds the same arc: the same centre, sweep and first axis, and the same point at every position; printing that arc gives the same parameters again. This holds for every arc that was read from a path with positive radii. (This is about the numbers before they are rounded to 6 digits. With the radii rounded so, an arc of a circle that turns by at most a quarter turn is read back with every point within a ten-thousandth of the radius.)", "quantifier": "all arcs with radii that are not 0 and ends that differ, all positions", "why_tests_cant": "the parameters of an arc are real numbers; the centre, which is not printed, is found again from two flags", "anchors": ["svgio/path.py:Arc.d", "svgio/path.py:Arc._svg_parameterize", "svgio/path.py:Arc.get_rotation", "svgio/path.py:Arc.npoint"]}
{"id": "C168", "title": "Arcs from positional arguments", "statement": "In Arc(...) the positional arguments start, end, center, prx, pry, sweep mean the same as the keywords of these names, together with any other keywords, and a point may be given as a complex number; seven arguments, or six with the radii as one complex number, are SVG parameters, and the arc is drawn as SVG says.", "quantifier": "all lists of arguments (points, complex numbers, numbers, None) and all keyword arguments", "why_tests_cant": "the forms are told apart by the number and classes of the arguments, and each combination of positions and keywords is a different call; the values are real numbers", "anchors": ["svgio/path.py:Arc.__init__", "svgio/path.py:Arc._svg_complex_parameterize", "svgio/basic.py:Point.__init__"]}
{"id": "C169", "title": "Lengths in pixels and in inches", "statement": "in_pixels() of a length in px, pt, pc or without unit is its value; in_inches() of a length in mm, cm or in, times the pixels per inch, is its value at that resolution; for every other unit both are None.", "quantifier": "all lengths, all resolutions and all other arguments of value()", "why_tests_cant": "every amount, with every unit, in every context", "anchors": ["svgio/basic.py:Length.in_pixels", "svgio/basic.py:Length.in_inches", "svgio/basic.py:Length.value"]}
{"id": "C170", "title": "Positions in a path are those of a list", "statement": "path[i], path[i] = s, del path[i] and path.insert(i, s) act at the position that the index i, negative or not, means in a Python list, and raise IndexError if there is none (insert: within the path); path += path and segment + segment keep the order. Segments that are not replaced keep their class, controls, radii and flags; only their ends may change.", "quantifier": "all paths, connected or not, all integers i and all segments", "why_tests_cant": "every path of every length with every index", "anchors": ["svgio/path.py:Path.__getitem__", "svgio/path.py:Path.__setitem__", "svgio/path.py:Path.__delitem__", "svgio/path.py:Path.insert", "svgio/path.py:Path.__iadd__", "svgio/path.py:PathSegment.__add__"]}
