{
 "claims": [
  {
   "property": "C01",
   "status": "proved",
   "theorems": [
    "Svgio.Props.C01_channel_set_get",
    "Svgio.Props.C01_channel_none"
   ],
   "note": ""
  },
  {
   "property": "C02",
   "status": "proved",
   "theorems": [
    "Svgio.Props.C02_rgb",
    "Svgio.Props.C02_rgba"
   ],
   "note": ""
  },
  {
   "property": "C03",
   "status": "proved",
   "theorems": [
    "Svgio.Props.C03_argb",
    "Svgio.Props.C03_rgb",
    "Svgio.Props.C03_rgba"
   ],
   "note": ""
  },
  {
   "property": "C04",
   "status": "proved",
   "theorems": [
    "Svgio.Props.C04_hex_round_trip"
   ],
   "note": ""
  },
  {
   "property": "C05",
   "status": "proved",
   "theorems": [
    "Svgio.Props.C05_hex_text",
    "Svgio.Props.C05_case"
   ],
   "note": ""
  },
  {
   "property": "C06",
   "status": "partial",
   "theorems": [
    "Svgio.Props.C06_keywords_partial",
    "Svgio.Props.C06_aliceblue_wrong",
    "Svgio.Props.C06_transparent",
    "Svgio.Props.C06_unknown_black"
   ],
   "note": "The property is false of the code for aliceblue (C06_aliceblue_wrong); every other CSS keyword is proved."
  },
  {
   "property": "C07",
   "status": "proved",
   "theorems": [
    "Svgio.Props.C07_eq_iff",
    "Svgio.Props.C07_equivalence",
    "Svgio.Props.C07_low_bits"
   ],
   "note": ""
  },
  {
   "property": "C08",
   "status": "proved",
   "theorems": [
    "Svgio.Props.C08_opacity_write_back",
    "Svgio.Props.C08_opacity_set",
    "Svgio.Props.C08_opacity_none"
   ],
   "note": "Float rounding is the FloatRounding relation (relative error 2^-53)."
  },
  {
   "property": "C09",
   "status": "proved",
   "theorems": [
    "Svgio.Props.C09_over_extremes",
    "Svgio.Props.C09_over_between",
    "Svgio.Props.C09_over_none",
    "Svgio.Props.C09_blend"
   ],
   "note": ""
  },
  {
   "property": "C10",
   "status": "partial",
   "theorems": [
    "Svgio.Props.C10_distance_partial",
    "Svgio.Props.C10_distance_zero_unequal",
    "Svgio.Props.C10_distance_zero_close_partial"
   ],
   "note": "Distance zero does not imply equality because of operator precedence in distance_sq (C10_distance_zero_unequal)."
  },
  {
   "property": "C100",
   "status": "partial",
   "theorems": [
    "Svgio.Props.C100_power_partial",
    "Svgio.Props.C100_zero_wrong",
    "Svgio.Props.C100_left_wrong",
    "Svgio.Props.C100_round_wrong"
   ],
   "note": "The coordinates of the power are rounded to whole numbers; proved up to that."
  },
  {
   "property": "C101",
   "status": "partial",
   "theorems": [
    "Svgio.Props.C101_items_partial",
    "Svgio.Props.C101_iteration_wrong"
   ],
   "note": "A loop over a matrix never ends."
  },
  {
   "property": "C102",
   "status": "partial",
   "theorems": [
    "Svgio.Props.C102_list_partial",
    "Svgio.Props.C102_len",
    "Svgio.Props.C102_points_partial",
    "Svgio.Props.C102_gap_wrong",
    "Svgio.Props.C102_nested_wrong"
   ],
   "note": "False where two neighbouring points are missing, and for nested loops."
  },
  {
   "property": "C103",
   "status": "partial",
   "theorems": [
    "Svgio.Props.C103_forms_partial",
    "Svgio.Props.C103_relative_wrong"
   ],
   "note": "Move(e, relative=True) has no end."
  },
  {
   "property": "C104",
   "status": "partial",
   "theorems": [
    "Svgio.Props.C104_luminance",
    "Svgio.Props.C104_order",
    "Svgio.Props.C104_brightness",
    "Svgio.Props.C104_intensity_wrong",
    "Svgio.Props.C104_float",
    "Svgio.Props.C104_float_brightness",
    "Svgio.Props.C104_white_wrong"
   ],
   "note": "Exact arithmetic, and with doubles up to 2^-52 (C104_float). False for intensity, and of luminance of white with doubles, which is 0.9999999999999999."
  },
  {
   "property": "C105",
   "status": "partial",
   "theorems": [
    "Svgio.Props.C105_line_partial",
    "Svgio.Props.C105_line_wrong",
    "Svgio.Props.C105_rect_partial",
    "Svgio.Props.C105_rect_wrong",
    "Svgio.Props.C105_rect_radii_wrong",
    "Svgio.Props.C105_round_partial",
    "Svgio.Props.C105_circle_wrong",
    "Svgio.Props.C105_poly_wrong"
   ],
   "note": "Lines with a transform. Rectangles only if the missing method is_degenerate is added. Circles, ellipses, polylines and polygons have no segments."
  },
  {
   "property": "C106",
   "status": "partial",
   "theorems": [
    "Svgio.Props.C106_tight_partial",
    "Svgio.Props.C106_no_transform_wrong",
    "Svgio.Props.C106_no_size_wrong"
   ],
   "note": "For images with a transform and a known size."
  },
  {
   "property": "C107",
   "status": "partial",
   "theorems": [
    "Svgio.Props.C107_compose_partial",
    "Svgio.Props.C107_arc_wrong"
   ],
   "note": "Arcs only for scalings along the axes, or turns and scalings by one factor; false of other transforms of arcs."
  },
  {
   "property": "C108",
   "status": "proved",
   "theorems": [
    "Svgio.Props.C108_rigid",
    "Svgio.Props.C108_scale",
    "Svgio.Props.C108_reverse",
    "Svgio.Props.C108_scipy"
   ],
   "note": ""
  },
  {
   "property": "C109",
   "status": "partial",
   "theorems": [
    "Svgio.Props.C109_scale_partial",
    "Svgio.Props.C109_reverse_partial",
    "Svgio.Arc.C109_arc_scale_partial",
    "Svgio.Arc.C109_arc_reverse_partial"
   ],
   "note": "Cubic curves whose box is tight (C59). Arcs whose box is tight (C86) and that the code transforms correctly (C79): axes along the coordinate axes, or factors of the same size."
  },
  {
   "property": "C11",
   "status": "partial",
   "theorems": [
    "Svgio.Props.C11_hsl_turns_partial",
    "Svgio.Props.C11_hsl_range",
    "Svgio.Props.C11_hsl_grey",
    "Svgio.Props.C11_getters_range",
    "Svgio.Props.C11_write_back_fails"
   ],
   "note": "The getter returns the hue in degrees, the setter reads turns, and the setter forces alpha to 255 (C11_write_back_fails). With the hue divided by 360 the round trip holds on opaque colours, in exact arithmetic. With floats: C128."
  },
  {
   "property": "C110",
   "status": "partial",
   "theorems": [
    "Svgio.Props.C110_point",
    "Svgio.Props.C110_matrix",
    "Svgio.Props.C110_segment",
    "Svgio.Props.C110_arc",
    "Svgio.Props.C110_length",
    "Svgio.Props.C110_color_partial",
    "Svgio.Props.C110_color_wrong",
    "Svgio.Props.C110_angle_partial",
    "Svgio.Props.C110_angle_wrong"
   ],
   "note": "False of Color(None) and of angles next to a multiple of a full turn. The text of the sweep of an arc, a float, is assumed to denote it. Lengths: the unit is the same and the amount up to half a unit of the 12th decimal."
  },
  {
   "property": "C111",
   "status": "partial",
   "theorems": [
    "Svgio.Props.C111_same_partial",
    "Svgio.Props.C111_separates",
    "Svgio.Props.C111_hash_wrong"
   ],
   "note": "Only for points with the same coordinates; false in general, because equality is tolerant."
  },
  {
   "property": "C112",
   "status": "partial",
   "theorems": [
    "Svgio.Props.C112_picture_partial",
    "Svgio.Props.C112_radius_wrong"
   ],
   "note": "No smooth command after a curve of the other sort; arcs with positive radii, and end points that are the same or do not compare equal. False of arcs with a radius 0."
  },
  {
   "property": "C113",
   "status": "partial",
   "theorems": [
    "Svgio.Props.C113_signs",
    "Svgio.Props.C113_reflected",
    "Svgio.Props.C113_percent_partial",
    "Svgio.Props.C113_zero_wrong",
    "Svgio.Props.C113_percent_wrong"
   ],
   "note": "A percentage of a length 0 is not resolved; a percentage of a percentage is a hundred times too large."
  },
  {
   "property": "C114",
   "status": "proved",
   "theorems": [
    "Svgio.Props.C114_abs"
   ],
   "note": ""
  },
  {
   "property": "C115",
   "status": "partial",
   "theorems": [
    "Svgio.Props.C115_points",
    "Svgio.Props.C115_first",
    "Svgio.Props.C115_smooth_partial"
   ],
   "note": "smooth_point: no smooth command after a curve of the other sort (C40)."
  },
  {
   "property": "C116",
   "status": "partial",
   "theorems": [
    "Svgio.Props.C116_walk_partial",
    "Svgio.Props.C116_up",
    "Svgio.Props.C116_count",
    "Svgio.Props.C116_elements_partial",
    "Svgio.Props.C116_root_wrong",
    "Svgio.Props.C116_element_wrong",
    "Svgio.Props.C116_mask_wrong"
   ],
   "note": "The walks need children of pairwise different structure (C69). parent_element of the root is the document, and first_element_child need not be an Element."
  },
  {
   "property": "C117",
   "status": "partial",
   "theorems": [
    "Svgio.Props.C117_own_partial",
    "Svgio.Props.C117_presentation",
    "Svgio.Props.C117_href_wrong",
    "Svgio.Props.C117_missing_wrong",
    "Svgio.Props.C117_default_wrong",
    "Svgio.Props.C117_title_wrong",
    "Svgio.Props.C117_group_wrong"
   ],
   "note": "Presentation attributes in full. Others: if the element has the attribute, or no ancestor has it; href if there is no xlink:href; four properties are missing, and the default of width and height of a rectangle is 1."
  },
  {
   "property": "C118",
   "status": "partial",
   "theorems": [
    "Svgio.Props.C118_transform_partial",
    "Svgio.Props.C118_nested_wrong"
   ],
   "note": "Only if at most one of the element and its ancestors has a transform; otherwise only the closest one is given."
  },
  {
   "property": "C119",
   "status": "partial",
   "theorems": [
    "Svgio.Props.C119_file_partial",
    "Svgio.Props.C119_same",
    "Svgio.Props.C119_transform_wrong"
   ],
   "note": "With the restrictions of C112; transforms are ignored."
  },
  {
   "property": "C12",
   "status": "partial",
   "theorems": [
    "Svgio.Props.C12_distinct_partial",
    "Svgio.Props.C12_float_root_collision",
    "Svgio.Props.C12_distinct_wrong"
   ],
   "note": "Injectivity holds when the cube root used is exact; the floating-point root of the code makes two indices collide."
  },
  {
   "property": "C120",
   "status": "partial",
   "theorems": [
    "Svgio.Props.C120_curves",
    "Svgio.Props.C120_lines_partial",
    "Svgio.Props.C120_end_wrong"
   ],
   "note": "Curves in full. The end of a line is exact with numpy; without numpy only if the differences of the coordinates are floats, otherwise it can be missed by far."
  },
  {
   "property": "C121",
   "status": "partial",
   "theorems": [
    "Svgio.Props.C121_doubles",
    "Svgio.Props.C121_identity",
    "Svgio.Props.C121_inverse",
    "Svgio.Props.C121_back_partial",
    "Svgio.Props.C121_back_wrong"
   ],
   "note": "Moving there and back only for numbers up to 2000; larger ones lose digits. No overflow."
  },
  {
   "property": "C122",
   "status": "proved",
   "theorems": [
    "Svgio.Props.C122_transform",
    "Svgio.Props.C122_point",
    "Svgio.Props.C122_equal"
   ],
   "note": "Without overflow; ** errs by at most one unit in the last place. Arcs are not part of the claim."
  },
  {
   "property": "C123",
   "status": "partial",
   "theorems": [
    "Svgio.Arc.C123_t",
    "Svgio.Arc.C123_angle",
    "Svgio.Arc.C123_back",
    "Svgio.Arc.C123_circular",
    "Svgio.Arc.C123_ellipse_wrong"
   ],
   "note": "All but get_ellipse(), which always fails: path.py has no Ellipse."
  },
  {
   "property": "C124",
   "status": "partial",
   "theorems": [
    "Svgio.Props.C124_rgb",
    "Svgio.Props.C124_percent",
    "Svgio.Props.C124_hsl_partial",
    "Svgio.Props.C124_other",
    "Svgio.Props.C124_decimal_wrong",
    "Svgio.Props.C124_hue_wrong",
    "Svgio.Props.C124_cut_wrong"
   ],
   "note": "rgb() in full except decimals, which raise ValueError. hsl() for hues from -240 to 600 degrees, and the channels are cut, not rounded; exact arithmetic inside the hsl formula. With floats: C128."
  },
  {
   "property": "C125",
   "status": "proved",
   "theorems": [
    "Svgio.Props.C125_read",
    "Svgio.Props.C125_only"
   ],
   "note": "Exact values; the rounding of float() is not part of the claim."
  },
  {
   "property": "C126",
   "status": "partial",
   "theorems": [
    "Svgio.Props.C126_settles",
    "Svgio.Props.C126_same_number",
    "Svgio.Props.C126_exponent_wrong",
    "Svgio.Props.C126_path_partial"
   ],
   "note": "Paths without arcs; the first text may differ where C46 fails (shortened exponent). Every rounding within the error of doubles. For relative output: C157."
  },
  {
   "property": "C127",
   "status": "proved",
   "theorems": [
    "Svgio.Props.C127_same_text",
    "Svgio.Props.doubles_apart"
   ],
   "note": "With the model of rounding to the nearest double; the float -0.0 is not modelled."
  },
  {
   "property": "C128",
   "status": "partial",
   "theorems": [
    "Svgio.Props.C128_hsl_partial",
    "Svgio.Props.C128_percent",
    "Svgio.Props.C128_back_partial",
    "Svgio.Props.C128_back_wrong",
    "Svgio.Props.C128_cyan_wrong"
   ],
   "note": "False: cyan is read as hue 180, saturation 1, lightness 0.5 and written back as #00feff. Proved: each channel is the same or one less; channels of texts are 255 times the level of CSS, cut, with an error below 2^-25, for hues from -240 to 600."
  },
  {
   "property": "C129",
   "status": "proved",
   "theorems": [
    "Svgio.Props.C129_float",
    "Svgio.Props.C129_floats",
    "Svgio.Props.C129_length",
    "Svgio.Props.C129_transform",
    "Svgio.Props.C129_hex",
    "Svgio.Props.C129_colour",
    "Svgio.Props.C129_iri",
    "Svgio.Props.C129_path"
   ],
   "note": "The patterns are the texts of constants.py, compiled and run by a model of the re engine (all matches in order of preference). The engine itself is part of the trusted base."
  },
  {
   "property": "C13",
   "status": "proved",
   "theorems": [
    "Svgio.Props.C13_reads",
    "Svgio.Props.C13_no_number",
    "Svgio.Props.C13_round_trip"
   ],
   "note": "Exact decimal values: the rounding of float() to 53 bits is not modelled."
  },
  {
   "property": "C130",
   "status": "partial",
   "theorems": [
    "Svgio.Props.C130_reads",
    "Svgio.Props.C130_error",
    "Svgio.Props.C130_str_partial",
    "Svgio.Props.C130_str_wrong"
   ],
   "note": "Reading is proved for all texts. Printing and reading fails where the exponent is shortened (C46, C130_str_wrong)."
  },
  {
   "property": "C131",
   "status": "partial",
   "theorems": [
    "Svgio.Props.C131_none",
    "Svgio.Props.C131_hue_partial",
    "Svgio.Props.C131_others_partial",
    "Svgio.Props.C131_grey_wrong",
    "Svgio.Props.C131_turns_wrong"
   ],
   "note": "The hue is read in degrees but assigned in turns; from a hue of 7/3 degrees on, assigning the saturation or the lightness makes the colour grey; the opacity is lost. Proved: the hue in turns, and the other two for hue 0, with channels cut to whole numbers. Exact arithmetic."
  },
  {
   "property": "C132",
   "status": "partial",
   "theorems": [
    "Svgio.Props.C132_sheets_partial",
    "Svgio.Props.C132_empty_rule_wrong",
    "Svgio.Props.C132_comment_wrong"
   ],
   "note": "Fails after empty rules and with comments. The loop of `parse` is modelled as it would run: as it stands `parse` fails at once, since `SVG._use_structure_parse` does not exist."
  },
  {
   "property": "C133",
   "status": "partial",
   "theorems": [
    "Svgio.Props.C133_cascade_partial",
    "Svgio.Props.C133_separator_wrong",
    "Svgio.Props.C133_class_wrong"
   ],
   "note": "Fails where a rule without a final semicolon meets the style attribute, or a rule for * meets one for the tag, and for classes with line breaks between them. The loop of `parse` is modelled as it would run."
  },
  {
   "property": "C134",
   "status": "partial",
   "theorems": [
    "Svgio.Props.C134_values_partial",
    "Svgio.Props.C134_lines_partial",
    "Svgio.Props.C134_own_partial",
    "Svgio.Props.C134_nearest",
    "Svgio.Props.C134_transform",
    "Svgio.Props.C134_currentColor",
    "Svgio.Props.C134_empty_style_wrong",
    "Svgio.Props.C134_namespace_wrong"
   ],
   "note": "Fails for style elements without a text and for namespace declarations, which are taken for values. Not modelled: the transform of a viewBox and the objects that are made from the values. The loop of `parse` is modelled as it would run."
  },
  {
   "property": "C135",
   "status": "proved",
   "theorems": [
    "Svgio.Props.C135_nested",
    "Svgio.Props.C135_document",
    "Svgio.Props.C135_none"
   ],
   "note": "Along elements inside each other, from C134 and C30; the transform of a viewBox is not part of it."
  },
  {
   "property": "C136",
   "status": "proved",
   "theorems": [
    "Svgio.Props.C136_product",
    "Svgio.Props.C136_segment"
   ],
   "note": "Any rounding with relative error 2^-53 and absolute error 2^-1074 (C121_doubles: doubles are one). Bounds: one part in 2^49 per transform of the product of the row sums; arcs are left out of the second theorem."
  },
  {
   "property": "C137",
   "status": "proved",
   "theorems": [
    "Svgio.Props.C137_back",
    "Svgio.Props.C137_singular",
    "Svgio.Props.C137_lost_wrong"
   ],
   "note": "A matrix of whole numbers with determinant -1 can be refused, if it is lost in rounding (C137_lost_wrong). For determinants that lose at most 40 bits (|ad|+|cb| at most 2^40 times the determinant), entries up to 2^100 and determinants from 2^-100; the exact version is C27."
  },
  {
   "property": "C138",
   "status": "partial",
   "theorems": [
    "Svgio.Props.C138_segment",
    "Svgio.Props.C138_path",
    "Svgio.Props.C138_laws_partial",
    "Svgio.Props.C138_transitive_wrong"
   ],
   "note": "All but transitivity, which fails at the edge of the tolerance. The sweep of an arc is a plain number."
  },
  {
   "property": "C139",
   "status": "partial",
   "theorems": [
    "Svgio.Props.C139_index",
    "Svgio.Props.C139_count",
    "Svgio.Props.C139_pop_last",
    "Svgio.Props.C139_clear",
    "Svgio.Props.C139_pop_partial",
    "Svgio.Props.C139_remove_partial",
    "Svgio.Props.C139_pop_wrong"
   ],
   "note": "index, in, count, pop() and clear() in full. pop(i) and remove under the conditions of C49; pop with other negative indices leaves gaps (C139_pop_wrong)."
  },
  {
   "property": "C14",
   "status": "partial",
   "theorems": [
    "Svgio.Props.C14_add_partial",
    "Svgio.Props.C14_refuses",
    "Svgio.Props.C14_point_pica"
   ],
   "note": "False for a point and a pica, where the code uses the ratio 12 but resolves with 16 and 1.3333 (C14_point_pica); all other unit pairs and the refusals are proved. With floats: C160."
  },
  {
   "property": "C140",
   "status": "partial",
   "theorems": [
    "Svgio.Props.C140_history_partial",
    "Svgio.Props.C140_unique_partial",
    "Svgio.Props.C140_frame",
    "Svgio.Props.C140_shared_wrong"
   ],
   "note": "For all histories in which the segments given to a path are new objects: same contents and same exceptions as separate lists of segments, which also justifies taking segments as values in the other claims. For all histories: a path that shares no segment with the paths a command uses is left alone. False when a segment object is given to a second path (append(q[k]), Path(subpath), Path(q[a:b]), segment + subpath)."
  },
  {
   "property": "C141",
   "status": "partial",
   "theorems": [
    "Svgio.Props.C141_line",
    "Svgio.Props.C141_quadratic",
    "Svgio.Props.C141_touched_partial",
    "Svgio.Props.C141_cubic_partial",
    "Svgio.Props.C141_cubic_wrong"
   ],
   "note": "Lines exactly and quadratic curves in full. Cubic curves: sides are always touched; the curve is held up to B^2/(2^39 |D|), with the third difference D of at least 3e-12, or inner points between the outer ones. False of cubic curves in general: with doubles the box can miss a whole curve (C141_cubic_wrong). Overflow is not modelled."
  },
  {
   "property": "C142",
   "status": "partial",
   "theorems": [
    "Svgio.Props.C142_tight_partial",
    "Svgio.Props.C142_polygon"
   ],
   "note": "Moves, lines and quadratic curves in full, cubic curves under the conditions of C141. Missing: arcs (C165 for one arc), a move that starts elsewhere than it ends (C97_move_wrong), cubic curves as in C141_cubic_wrong."
  },
  {
   "property": "C143",
   "status": "partial",
   "theorems": [
    "Svgio.Props.C143_point_partial",
    "Svgio.Props.C143_inside",
    "Svgio.Props.C143_zero",
    "Svgio.Props.C143_outside",
    "Svgio.Props.C143_end_wrong"
   ],
   "note": "The place up to (n+3)/2^51 of the length, for n segments and t up to 1-(n+1)/2^51; for every t a segment of the path at a position in it. False of the last doubles before 1, where the start of the last segment can be given (C143_end_wrong). The lengths of the segments are taken as they are given; at most 2^40 segments."
  },
  {
   "property": "C144",
   "status": "partial",
   "theorems": [
    "Svgio.Props.C144_grid_partial",
    "Svgio.Props.C144_members_partial",
    "Svgio.Props.C144_endless_wrong"
   ],
   "note": "All of it for coordinates that are multiples of a power of two, up to 2^25 of them (whole numbers up to 33 millions), with the collinear case of C22 left out; given points and leftmost start for all. False in general: on four given doubles the walk never ends (C144_endless_wrong)."
  },
  {
   "property": "C145",
   "status": "partial",
   "theorems": [
    "Svgio.Props.C145_channels",
    "Svgio.Props.C145_args",
    "Svgio.Props.C145_names",
    "Svgio.Props.C145_packed",
    "Svgio.Props.C145_none",
    "Svgio.Props.C145_transparent_wrong",
    "Svgio.Props.C145_hsl_wrong"
   ],
   "note": "Channel keywords, their short names and precedence, and the packed keywords, for all values and numbers. False: a colour built of red, green and blue alone is transparent (C145_transparent_wrong); h, s and l together give grey (C145_hsl_wrong)."
  },
  {
   "property": "C146",
   "status": "partial",
   "theorems": [
    "Svgio.Props.C146_font_partial",
    "Svgio.Props.C146_bare",
    "Svgio.Props.C146_names_wrong",
    "Svgio.Props.C146_no_family_wrong",
    "Svgio.Props.C146_two_wrong"
   ],
   "note": "All texts of words followed by one space, a whole size with a unit, a face or none, and a family. Line heights, decimal sizes and other white space between the words are missing. False: named sizes give 0 (C146_names_wrong), a font without a generic family raises IndexError (C146_no_family_wrong), two fonts TypeError (C146_two_wrong)."
  },
  {
   "property": "C147",
   "status": "partial",
   "theorems": [
    "Svgio.Props.C147_other_partial",
    "Svgio.Props.C147_data_wrong",
    "Svgio.Props.C147_none_wrong",
    "Svgio.Props.C147_load_wrong"
   ],
   "note": "None for references that are not base64 data URLs. False of every base64 data URL and of images without a reference, which raise AttributeError, and of load() with PIL. The decoding itself is a parameter of the model."
  },
  {
   "property": "C148",
   "status": "partial",
   "theorems": [
    "Svgio.Props.C148_length",
    "Svgio.Props.C148_point_partial",
    "Svgio.Props.C148_tiny_wrong"
   ],
   "note": "Length of all such paths up to 2^40 segments, with an absolute error of n/2^535 beside the relative one. Positions for t up to 1-(n+1)/2^51 and paths of length at least 2^-400. False of very short lines: lengths up to 2^-538 are 0 (C148_tiny_wrong). Overflow is not modelled."
  },
  {
   "property": "C149",
   "status": "partial",
   "theorems": [
    "Svgio.Props.C149_built_partial",
    "Svgio.Props.C149_raises",
    "Svgio.Props.C149_others",
    "Svgio.Props.C149_loaded_wrong",
    "Svgio.Props.C149_image_wrong",
    "Svgio.Props.C149_default_wrong"
   ],
   "note": "svg elements without a viewBox, and those built with a Viewbox object and numbers. False of every element from a file, whose attributes are texts, of elements without x or y, and of images and patterns."
  },
  {
   "property": "C15",
   "status": "partial",
   "theorems": [
    "Svgio.Props.C15_compare_partial",
    "Svgio.Props.C15_raises",
    "Svgio.Props.C15_point_pica"
   ],
   "note": "False where both resolve but the units have no fixed ratio (ValueError, C15_raises) and for points against picas (C15_point_pica); proved elsewhere. With floats: C160."
  },
  {
   "property": "C150",
   "status": "partial",
   "theorems": [
    "Svgio.Props.C150_numbers_partial",
    "Svgio.Props.C150_others",
    "Svgio.Props.C150_pair_wrong",
    "Svgio.Props.C150_box_wrong",
    "Svgio.Props.C150_text_wrong",
    "Svgio.Props.C150_second_wrong",
    "Svgio.Props.C150_first_wrong"
   ],
   "note": "Elements built with numbers, of which the second may be missing. False of files: the coordinates are texts; without the second coordinate IndexError is raised; a missing first one is None."
  },
  {
   "property": "C151",
   "status": "partial",
   "theorems": [
    "Svgio.Props.C151_ends",
    "Svgio.Props.C151_ellipse",
    "Svgio.Props.C151_follows",
    "Svgio.Props.C151_closed",
    "Svgio.Props.C151_turn_wrong"
   ],
   "note": "False only of closed arcs whose sweep is an Angle of a full turn. The bound grows with the cube of a number that says how flat the ellipse is and how far from the origin. parameter_exists: every start but the centre has a parameter. Overflow is left out."
  },
  {
   "property": "C152",
   "status": "proved",
   "theorems": [
    "Svgio.Props.C152_scale",
    "Svgio.Props.C152_turn",
    "Svgio.Props.C152_units",
    "Svgio.Props.C152_degrees",
    "Svgio.Props.C152_back",
    "Svgio.Props.C152_skew"
   ],
   "note": "Cosine, sine and tangent are assumed to give doubles at the angle. The pre_ and post_ methods of a new matrix give the same matrix. Overflow is left out."
  },
  {
   "property": "C153",
   "status": "proved",
   "theorems": [
    "Svgio.Props.C153_numbers",
    "Svgio.Props.C153_text",
    "Svgio.Props.C153_corner",
    "Svgio.Props.C153_none"
   ],
   "note": "The rounding is any function with half a unit of error (FloatRounding). Overflow is left out."
  },
  {
   "property": "C154",
   "status": "proved",
   "theorems": [
    "Svgio.Props.C154_polar",
    "Svgio.Props.C154_back",
    "Svgio.Props.C154_float",
    "Svgio.Props.C154_float_back"
   ],
   "note": "Real arithmetic, and doubles with cosine, sine and atan2 assumed accurate to one unit in the last place. Overflow is left out."
  },
  {
   "property": "C155",
   "status": "partial",
   "theorems": [
    "Svgio.Props.C155_back",
    "Svgio.Props.C155_normalized",
    "Svgio.Props.C155_equal",
    "Svgio.Props.C155_close_partial",
    "Svgio.Props.C155_turns_partial",
    "Svgio.Props.C155_positive_partial",
    "Svgio.Props.C155_ends_partial",
    "Svgio.Props.C155_orthogonal",
    "Svgio.Props.C155_turns_wrong",
    "Svgio.Props.C155_positive_wrong",
    "Svgio.Props.C155_endless_wrong"
   ],
   "note": "The code is wrong near whole turns: Angle.degrees(3240) is not equal to Angle.degrees(0), 810 degrees are not orthogonal, normalized() can be tau and as_positive_degrees can be 360. as_positive_degrees never ends below -2^62 degrees; between -2^62 and -2^55 it ends, but its value is not described. Overflow is left out."
  },
  {
   "property": "C156",
   "status": "proved",
   "theorems": [
    "Svgio.Props.C156_drift",
    "Svgio.Props.C156_absolute",
    "Svgio.Props.C156_meaning",
    "Svgio.Props.C156_adds_up"
   ],
   "note": "The ellipses of arcs are not compared, only their end points (C151 for their points); constructors of arcs are assumed to raise only when parameters are missing. Overflow is left out."
  },
  {
   "property": "C157",
   "status": "partial",
   "theorems": [
    "Svgio.Props.C157_drift",
    "Svgio.Props.C157_plain",
    "Svgio.Props.C157_loaded",
    "Svgio.Props.C157_small_step_wrong"
   ],
   "note": "Except for written numbers whose exponent is shortened (C46; relative steps below 1e-9 can be read as 0.1 and more) and short forms of flat curves after curves of the other degree (C45). Of arcs the end points are compared; their parameters are rounded to 6 digits. C157_plain is a plain sufficient condition."
  },
  {
   "property": "C158",
   "status": "proved",
   "theorems": [
    "Svgio.Props.C158_cubic",
    "Svgio.Props.C158_cubic_fast",
    "Svgio.Props.C158_arc",
    "Svgio.Props.C158_error_wrong"
   ],
   "note": "Exact arithmetic. C158_error_wrong: whatever error is, with min_depth = 0 a curve longer than 4 can be said to have the length 3. That the bisection of arcs ends is in C87_length. With floats: C159."
  },
  {
   "property": "C159",
   "status": "proved",
   "theorems": [
    "Svgio.Props.C159_ends",
    "Svgio.Props.C159_polygon",
    "Svgio.Props.C159_cubic"
   ],
   "note": "Doubles without overflow; math.hypot as assumed in FloatHypot, which hypot_exists shows can be met. An upper bound for the float result is not stated: the number of pieces, each rounded, is not bounded usefully. Exact arithmetic: C158."
  },
  {
   "property": "C16",
   "status": "partial",
   "theorems": [
    "Svgio.Props.C16_quotient_partial",
    "Svgio.Props.C16_number",
    "Svgio.Props.C16_point_pica"
   ],
   "note": "False for a point and a pica (C16_point_pica)."
  },
  {
   "property": "C160",
   "status": "proved",
   "theorems": [
    "Svgio.Props.C160_value",
    "Svgio.Props.C160_mul",
    "Svgio.Props.C160_float",
    "Svgio.Props.C160_add",
    "Svgio.Props.C160_compare",
    "Svgio.Props.C160_compare_units",
    "Svgio.Props.C160_order_wrong"
   ],
   "note": "Doubles without overflow. Compared with the exact model of C14, C15, C18, so what is wrong there (point and pica) is wrong here too. C160_order_wrong: 10.01mm > 1.001cm, but not 1.001cm < 10.01mm."
  },
  {
   "property": "C161",
   "status": "proved",
   "theorems": [
    "Svgio.Props.C161_after_curve",
    "Svgio.Props.C161_after_other"
   ],
   "note": "Exact arithmetic."
  },
  {
   "property": "C162",
   "status": "proved",
   "theorems": [
    "Svgio.Props.C162_list",
    "Svgio.Props.C162_skew_one_wrong"
   ],
   "note": "Doubles; overflow, infinities and NaN are outside the model. How much a function enlarges and its roundings are defined in Spec/TransformCost.lean."
  },
  {
   "property": "C163",
   "status": "proved",
   "theorems": [
    "Svgio.Props.C163_arc",
    "Svgio.Props.C163_flat",
    "Svgio.Props.C163_tiny_wrong",
    "Svgio.Props.C163_lost_wrong"
   ],
   "note": "Doubles; overflow, infinities and NaN are outside the model. Outside the ranges of the statement the code fails: radii whose square is 0 divide by zero (C163_tiny_wrong), and a large arc between ends that are very near to each other is lost (C163_lost_wrong)."
  },
  {
   "property": "C164",
   "status": "proved",
   "theorems": [
    "Svgio.Props.C164_points"
   ],
   "note": "Doubles; overflow, infinities and NaN are outside the model. The end of the ellipse is met up to 2^-14 of the radii (C163)."
  },
  {
   "property": "C165",
   "status": "proved",
   "theorems": [
    "Svgio.Props.C165_box"
   ],
   "note": "Doubles; overflow, infinities and NaN are outside the model. Assumed of the mathematical functions: error bounds, and that the sine of 0 is 0."
  },
  {
   "property": "C166",
   "status": "proved",
   "theorems": [
    "Svgio.Props.C166_box"
   ],
   "note": "Doubles; overflow, infinities and NaN are outside the model. Assumed of the mathematical functions: error bounds, that sines and cosines are doubles, and that the sine of 0 is 0."
  },
  {
   "property": "C167",
   "status": "proved",
   "theorems": [
    "Svgio.Arc.C167_read_back",
    "Svgio.Arc.C167_again",
    "Svgio.Arc.C167_svg",
    "Svgio.Arc.C167_circle_digits",
    "Svgio.Arc.C167_full_turn_wrong",
    "Svgio.Arc.C167_digits_wrong"
   ],
   "note": "Exact arithmetic, before the numbers are rounded to 6 digits. Of an arc that turns by a full turn only the start is left. The rounding can move points by much more than the sixth digit: C167_digits_wrong. For arcs of circles up to a quarter turn it moves no point by more than a ten-thousandth of the radius: C167_circle_digits (radii rational, ends exact)."
  },
  {
   "property": "C168",
   "status": "partial",
   "theorems": [
    "Svgio.Arc.C168_names_partial",
    "Svgio.Arc.C168_native_partial",
    "Svgio.Arc.C168_svg",
    "Svgio.Arc.C168_complex_wrong",
    "Svgio.Arc.C168_rotation_wrong",
    "Svgio.Arc.C168_none_wrong"
   ],
   "note": "False for a complex end among six arguments, for six names with rotation among them, and for None among six arguments."
  },
  {
   "property": "C169",
   "status": "partial",
   "theorems": [
    "Svgio.Props.C169_pixels_partial",
    "Svgio.Props.C169_inches",
    "Svgio.Props.C169_none",
    "Svgio.Props.C169_pixels_wrong"
   ],
   "note": "in_pixels() of points and picas divides where value() multiplies."
  },
  {
   "property": "C17",
   "status": "partial",
   "theorems": [
    "Svgio.Props.C17_equal_partial",
    "Svgio.Props.C17_number_partial",
    "Svgio.Props.C17_all_equal",
    "Svgio.Props.C17_points"
   ],
   "note": "False of the code: a length in px, pt, pc, mm, cm or in equals every length (C17_all_equal)."
  },
  {
   "property": "C170",
   "status": "proved",
   "theorems": [
    "Svgio.Props.C170_getitem",
    "Svgio.Props.C170_setitem",
    "Svgio.Props.C170_delitem",
    "Svgio.Props.C170_insert",
    "Svgio.Props.C170_sums"
   ],
   "note": "insert for positions within the path. Which ends the neighbours get is C49. A copy of a segment that is no Bezier curve has the flag smooth set to its default; the sum is for paths where it is."
  },
  {
   "property": "C18",
   "status": "partial",
   "theorems": [
    "Svgio.Props.C18_resolve_partial",
    "Svgio.Props.C18_percent",
    "Svgio.Props.C18_linear",
    "Svgio.Props.C18_physical",
    "Svgio.Props.C18_vmin_vmax",
    "Svgio.Props.C18_text_partial",
    "Svgio.Props.C18_text_wrong"
   ],
   "note": "vmin and vmax both use the viewbox height (C18_vmin_vmax). A percentage of a text that is a length 0 is not resolved (C18_text_wrong). With floats: C160."
  },
  {
   "property": "C19",
   "status": "proved",
   "theorems": [
    "Svgio.Props.C19_equality",
    "Svgio.Props.C19_not_transitive"
   ],
   "note": "All clauses; also that the relation is not transitive."
  },
  {
   "property": "C20",
   "status": "proved",
   "theorems": [
    "Svgio.Props.C20_orientation"
   ],
   "note": "All clauses."
  },
  {
   "property": "C21",
   "status": "proved",
   "theorems": [
    "Svgio.Props.C21_towards",
    "Svgio.Props.C21_reflection",
    "Svgio.Props.C21_distance",
    "Svgio.Props.C21_towards_distance"
   ],
   "note": "All clauses, in exact real arithmetic. Polar coordinates: C154."
  },
  {
   "property": "C22",
   "status": "partial",
   "theorems": [
    "Svgio.Props.C22_terminates_partial",
    "Svgio.Props.C22_sides_partial",
    "Svgio.Props.C22_collinear_wrong"
   ],
   "note": "Termination and input points only: proved for all inputs. The sides: proved when no line through the first hull point has two other input points; false otherwise (C22_collinear_wrong). With floats: C144."
  },
  {
   "property": "C23",
   "status": "proved",
   "theorems": [
    "Svgio.Props.C23_units",
    "Svgio.Props.C23_parse",
    "Svgio.Props.C23_refuse_partial"
   ],
   "note": "Number texts are those of PATTERN_FLOAT; other spellings accepted by Python float() are not modelled. With floats: C155."
  },
  {
   "property": "C24",
   "status": "partial",
   "theorems": [
    "Svgio.Props.C24_turns_partial",
    "Svgio.Props.C24_close_partial",
    "Svgio.Props.C24_seam",
    "Svgio.Props.C24_positive_degrees"
   ],
   "note": "All clauses except closeness across the seam, where it is false (C24_seam). With floats: C155."
  },
  {
   "property": "C25",
   "status": "proved",
   "theorems": [
    "Svgio.Props.C25_product"
   ],
   "note": "Numeric entries. With floats: C136."
  },
  {
   "property": "C26",
   "status": "proved",
   "theorems": [
    "Svgio.Props.C26_monoid"
   ],
   "note": ""
  },
  {
   "property": "C27",
   "status": "proved",
   "theorems": [
    "Svgio.Props.C27_inverse"
   ],
   "note": " With floats: C137."
  },
  {
   "property": "C28",
   "status": "proved",
   "theorems": [
    "Svgio.Props.C28_scale",
    "Svgio.Props.C28_angles"
   ],
   "note": "Exact sine, cosine and tangent over the reals. With floats: C152."
  },
  {
   "property": "C29",
   "status": "proved",
   "theorems": [
    "Svgio.Props.C29_rotate"
   ],
   "note": " With floats: C152."
  },
  {
   "property": "C30",
   "status": "proved",
   "theorems": [
    "Svgio.Props.C30_list",
    "Svgio.Props.C30_concat"
   ],
   "note": "Lists as in the SVG grammar, numbers of PATTERN_FLOAT, lengths in px, pt, pc or without unit; other units in C31. Exact real arithmetic."
  },
  {
   "property": "C31",
   "status": "partial",
   "theorems": [
    "Svgio.Props.C31_late_partial",
    "Svgio.Props.C31_product_partial",
    "Svgio.Props.C31_percent_axes",
    "Svgio.Props.C31_percent_wrong",
    "Svgio.Props.C31_units_refused"
   ],
   "note": "Proved for one unit; with percentages only for lists that do not mix the axes, false otherwise (C31_percent_wrong). Lists with two units are refused by the library (C31_units_refused)."
  },
  {
   "property": "C32",
   "status": "proved",
   "theorems": [
    "Svgio.Props.C32_none"
   ],
   "note": "Any second word. Exact arithmetic. With floats: C153."
  },
  {
   "property": "C33",
   "status": "proved",
   "theorems": [
    "Svgio.Props.C33_align",
    "Svgio.Props.C33_default",
    "Svgio.Props.C33_words_wrong"
   ],
   "note": "The nine alignments, with meet, slice or no second word, and the default. C33_words_wrong: with the word defer in front, or two spaces, the scale is not uniform. With floats: C153."
  },
  {
   "property": "C34",
   "status": "proved",
   "theorems": [
    "Svgio.Props.C34_text"
   ],
   "note": "Element and viewBox are numbers or missing; Length values for the element are not modelled. With floats: C153."
  },
  {
   "property": "C35",
   "status": "proved",
   "theorems": [
    "Svgio.Props.C35_parse_terminates",
    "Svgio.Props.C35_body_consumes"
   ],
   "note": ""
  },
  {
   "property": "C36",
   "status": "partial",
   "theorems": [
    "Svgio.Props.C36_connected_partial",
    "Svgio.Props.C36_close_first_not_connected"
   ],
   "note": "A path data text that begins with a close, before any move, gives a disconnected path (C36_close_first_not_connected); every other text is proved."
  },
  {
   "property": "C37",
   "status": "proved",
   "theorems": [
    "Svgio.Props.C37_separators"
   ],
   "note": ""
  },
  {
   "property": "C38",
   "status": "partial",
   "theorems": [
    "Svgio.Props.C38_svg_partial",
    "Svgio.Props.C38_text_meaning"
   ],
   "note": "Smooth commands after a curve of the other kind do not follow SVG (C40_mixed_wrong); C38_text_meaning states exactly what they do, C38_svg_partial excludes them. With floats: C156."
  },
  {
   "property": "C39",
   "status": "proved",
   "theorems": [
    "Svgio.Props.C39_relative_equivalent"
   ],
   "note": "With floats: C156."
  },
  {
   "property": "C40",
   "status": "partial",
   "theorems": [
    "Svgio.Props.C40_smooth_quad_partial",
    "Svgio.Props.C40_smooth_cubic_partial",
    "Svgio.Props.C40_mixed_wrong"
   ],
   "note": "False for a smooth command after a curve of the other kind (C40_mixed_wrong)."
  },
  {
   "property": "C41",
   "status": "proved",
   "theorems": [
    "Svgio.Props.C41_close_returns",
    "Svgio.Props.C41_z_adds_close"
   ],
   "note": ""
  },
  {
   "property": "C42",
   "status": "proved",
   "theorems": [
    "Svgio.Props.C42_segment_completing_close"
   ],
   "note": ""
  },
  {
   "property": "C43",
   "status": "proved",
   "theorems": [
    "Svgio.Props.C43_incremental"
   ],
   "note": ""
  },
  {
   "property": "C44",
   "status": "partial",
   "theorems": [
    "Svgio.Props.C44_unknown_stops",
    "Svgio.Props.C44_missing_partial",
    "Svgio.Props.C44_missing_ignored",
    "Svgio.Props.C44_failed_add_not_atomic"
   ],
   "note": "False of the code for V and A without numbers (C44_missing_ignored) and for failed additions, which keep the segments read so far (C44_failed_add_not_atomic)."
  },
  {
   "property": "C45",
   "status": "partial",
   "theorems": [
    "Svgio.Props.C45_absolute",
    "Svgio.Props.C45_exact_partial",
    "Svgio.Props.C45_equal_partial",
    "Svgio.Props.C45_default_wrong",
    "Svgio.Props.C45_mixed_wrong",
    "Svgio.Props.C45_relative_wrong"
   ],
   "note": "For d(transformed=False). Absolute output without short forms for all paths; otherwise for coordinates of a fixed number of decimals and no flat curve of the other kind after a curve; arc parameters are rounded to 6 digits. d() and str(path) always raise TypeError. Relative output of coordinates with different numbers of decimals is not exact (C45_relative_wrong); C157 says by how much."
  },
  {
   "property": "C46",
   "status": "partial",
   "theorems": [
    "Svgio.Props.C46_coordinate_partial",
    "Svgio.Props.C46_exact_partial",
    "Svgio.Props.C46_exponent_wrong",
    "Svgio.Props.C46_point"
   ],
   "note": "The text is always a number; its value is exactly the correctly rounded one unless the exponent ends in 0, where it is wrong."
  },
  {
   "property": "C47",
   "status": "proved",
   "theorems": [
    "Svgio.Props.C47_building_connected",
    "Svgio.Props.C47_extend_fragment_not_connected"
   ],
   "note": "Building with the path builders, append and += of paths that start with a move. += of a fragment that does not start with a move is not connected (C47_extend_fragment_not_connected)."
  },
  {
   "property": "C48",
   "status": "proved",
   "theorems": [
    "Svgio.Props.C48_validate_connections",
    "Svgio.Props.C48_is_valid"
   ],
   "note": ""
  },
  {
   "property": "C49",
   "status": "partial",
   "theorems": [
    "Svgio.Props.C49_insert_partial",
    "Svgio.Props.C49_setitem_partial",
    "Svgio.Props.C49_delitem_partial",
    "Svgio.Props.C49_insert_move_partial",
    "Svgio.Props.C49_setitem_move_partial",
    "Svgio.Props.C49_delitem_move_partial",
    "Svgio.Props.C49_not_connected",
    "Svgio.Props.C49_delete_move_off_by_one"
   ],
   "note": "Edits that move the start of a closed subpath that is followed by more segments, and negative indices, break connectivity in the code (C49_not_connected, C49_delete_move_off_by_one); the others are proved."
  },
  {
   "property": "C50",
   "status": "partial",
   "theorems": [
    "Svgio.Props.C50_length_partial",
    "Svgio.Props.C50_reverse_stale",
    "Svgio.Props.C50_validate_stale",
    "Svgio.Props.C50_error_ignored"
   ],
   "note": "reverse and validate_connections leave a stale length (C50_reverse_stale, C50_validate_stale); all other histories are proved."
  },
  {
   "property": "C51",
   "status": "proved",
   "theorems": [
    "Svgio.Props.C51_point",
    "Svgio.Props.C51_point_ends"
   ],
   "note": "Exact arithmetic; segment lengths are a parameter. With floats: C143."
  },
  {
   "property": "C52",
   "status": "proved",
   "theorems": [
    "Svgio.Props.C52_subpaths"
   ],
   "note": ""
  },
  {
   "property": "C53",
   "status": "partial",
   "theorems": [
    "Svgio.Props.C53_indices_partial",
    "Svgio.Props.C53_out_of_range_leaks",
    "Svgio.Props.C53_slice_partial",
    "Svgio.Props.C53_slice_leaks",
    "Svgio.Props.C53_equal"
   ],
   "note": "Indices outside the window give segments of the neighbouring subpaths instead of IndexError (C53_out_of_range_leaks)."
  },
  {
   "property": "C54",
   "status": "partial",
   "theorems": [
    "Svgio.Props.C54_reverse_partial",
    "Svgio.Props.C54_after_close_wrong"
   ],
   "note": "False when drawn segments follow a close without a move (C54_after_close_wrong); proved for exactly connected paths of the other form."
  },
  {
   "property": "C55",
   "status": "partial",
   "theorems": [
    "Svgio.Props.C55_iadd_partial",
    "Svgio.Props.C55_text_sum_partial",
    "Svgio.Props.C55_copy_empty",
    "Svgio.Props.C55_sum_drops_first",
    "Svgio.Props.C55_segment_path_wrong",
    "Svgio.Props.C55_segment_text_wrong",
    "Svgio.Props.C55_segments_wrong"
   ],
   "note": "copy(path) is empty and p + q loses p (C55_copy_empty, C55_sum_drops_first); in-place addition is proved."
  },
  {
   "property": "C56",
   "status": "proved",
   "theorems": [
    "Svgio.Props.C56_direct_close"
   ],
   "note": ""
  },
  {
   "property": "C57",
   "status": "proved",
   "theorems": [
    "Svgio.Props.C57_transform",
    "Svgio.Props.C57_curves"
   ],
   "note": "Moves, lines, closes, quadratic and cubic curves, with and without numpy. That * leaves the original unchanged is built into the model, where segments are values. With floats: C136."
  },
  {
   "property": "C58",
   "status": "proved",
   "theorems": [
    "Svgio.Props.C58_tight",
    "Svgio.Props.C60_bbox"
   ],
   "note": "Exact arithmetic. With floats: C141."
  },
  {
   "property": "C59",
   "status": "partial",
   "theorems": [
    "Svgio.Props.C59_tight_partial",
    "Svgio.Props.C59_touched_partial",
    "Svgio.Props.C59_wrong",
    "Svgio.Props.C60_bbox"
   ],
   "note": "Proved when, along each axis, the third difference is at least 1e-12 or the inner coordinates lie between the outer ones. Otherwise false (C59_wrong). Sides are always touched. With floats: C141."
  },
  {
   "property": "C60",
   "status": "partial",
   "theorems": [
    "Svgio.Props.C60_box",
    "Svgio.Props.C60_closest_partial",
    "Svgio.Props.C60_bbox",
    "Svgio.Props.C60_degenerate_wrong",
    "Svgio.Props.C60_numpy_wrong"
   ],
   "note": "Boxes in full. The closest point for lines that are not a single point, on the segment, and on the infinite line without numpy; the other cases are false."
  },
  {
   "property": "C61",
   "status": "proved",
   "theorems": [
    "Svgio.Arc.C61_parameters"
   ],
   "note": "Real arithmetic. Points of arcs with floats: C151."
  },
  {
   "property": "C62",
   "status": "partial",
   "theorems": [
    "Svgio.Arc.C62_arc_partial",
    "Svgio.Arc.C62_signs_partial",
    "Svgio.Arc.C62_wrong"
   ],
   "note": "The code reverses the sweep by the signs of two matrix entries. C62_signs_partial says for which matrices this is right; C62_wrong is a reflection for which it is not."
  },
  {
   "property": "C63",
   "status": "partial",
   "theorems": [
    "Svgio.Arc.C63_curves",
    "Svgio.Arc.C63_replace",
    "Svgio.Arc.C63_zero_sweep_wrong"
   ],
   "note": "Curves in full. Replacing in a path for paths that do not begin with an arc and arcs of non-zero sweep; an arc of sweep 0 is dropped."
  },
  {
   "property": "C64",
   "status": "partial",
   "theorems": [
    "Svgio.Props.C64_reverse",
    "Svgio.Props.C64_arc_partial",
    "Svgio.Props.C64_full_wrong"
   ],
   "note": "Arcs: ends on the ellipse and, for a full turn, a sweep that is a plain number; false of full turns given as an Angle."
  },
  {
   "property": "C65",
   "status": "partial",
   "theorems": [
    "Svgio.Props.C65_tree_partial",
    "Svgio.Props.C65_succeeds_partial",
    "Svgio.Props.C65_fails_wrong",
    "Svgio.Props.C65_mask_wrong",
    "Svgio.Props.C65_class_wrong"
   ],
   "note": "Every tree that loads is represented exactly. Some SVG elements raise an exception or get the wrong class."
  },
  {
   "property": "C66",
   "status": "proved",
   "theorems": [
    "Svgio.Props.C66_consistent",
    "Svgio.Props.C66_builder",
    "Svgio.Props.C66_add_wrong"
   ],
   "note": "For all histories of loading, also failing, and builder calls. document.add is not part of the claim and breaks it."
  },
  {
   "property": "C67",
   "status": "partial",
   "theorems": [
    "Svgio.Props.C67_load_partial",
    "Svgio.Props.C67_builder_wrong",
    "Svgio.Props.C67_id_partial",
    "Svgio.Props.C67_id_wrong"
   ],
   "note": "Proved for loaded elements; false for elements added through builders. Elements of unknown tags have no id."
  },
  {
   "property": "C68",
   "status": "partial",
   "theorems": [
    "Svgio.Props.C68_inherited_partial",
    "Svgio.Props.C68_loaded",
    "Svgio.Props.C68_image_wrong"
   ],
   "note": "Proved when the node and its ancestors have attributes, as in every loaded document; images and masks from builders have none."
  },
  {
   "property": "C69",
   "status": "partial",
   "theorems": [
    "Svgio.Props.C69_siblings_partial",
    "Svgio.Props.C69_root",
    "Svgio.Props.C69_equal_wrong",
    "Svgio.Props.C69_previous_element_wrong",
    "Svgio.Props.C69_next_element_partial"
   ],
   "note": "Right exactly if no earlier sibling has the same structure; previous_element_sibling is wrong."
  },
  {
   "property": "C70",
   "status": "partial",
   "theorems": [
    "Svgio.Props.C70_xml_partial",
    "Svgio.Props.C70_names_wrong",
    "Svgio.Props.C70_mask_wrong",
    "Svgio.Props.C70_write_wrong"
   ],
   "note": "Proved for trees of the elements that keep their name; text content is not modelled and is lost by the code."
  },
  {
   "property": "C71",
   "status": "partial",
   "theorems": [
    "Svgio.Props.C71_fill",
    "Svgio.Props.C71_stroke_partial",
    "Svgio.Props.C71_stroke_wrong"
   ],
   "note": "fill proved; stroke never returns when an opacity is inherited."
  },
  {
   "property": "C72",
   "status": "partial",
   "theorems": [
    "Svgio.Props.C72_url_partial",
    "Svgio.Props.C72_finds_partial",
    "Svgio.Props.C72_newline_wrong",
    "Svgio.Props.C72_quotes_wrong",
    "Svgio.Props.C72_two_wrong"
   ],
   "note": "Proved for names without line breaks."
  },
  {
   "property": "C73",
   "status": "proved",
   "theorems": [
    "Svgio.Props.C73_rebuild",
    "Svgio.Props.C73_once",
    "Svgio.Props.C73_bad"
   ],
   "note": "For all trees."
  },
  {
   "property": "C74",
   "status": "partial",
   "theorems": [
    "Svgio.Props.C74_npoint_partial",
    "Svgio.Props.C74_npoint_wrong"
   ],
   "note": "False when some segment gets no position (C74_npoint_wrong)."
  },
  {
   "property": "C75",
   "status": "proved",
   "theorems": [
    "Svgio.Props.C75_reads",
    "Svgio.Props.C75_round_trip",
    "Svgio.Props.C75_short"
   ],
   "note": "Numbers of PATTERN_FLOAT."
  },
  {
   "property": "C76",
   "status": "proved",
   "theorems": [
    "Svgio.Props.C76_length",
    "Svgio.Props.C76_line"
   ],
   "note": "Real arithmetic. The result is exact unless 0 < |start - 2 control + end| < 1e-10. Lengths of paths with floats: C148."
  },
  {
   "property": "C77",
   "status": "proved",
   "theorems": [
    "Svgio.Props.C77_bisection"
   ],
   "note": "Real arithmetic; nested calls counted by fuel. How accurate the bisection is: C158."
  },
  {
   "property": "C78",
   "status": "partial",
   "theorems": [
    "Svgio.Arc.C78_arc",
    "Svgio.Arc.C78_negative_wrong"
   ],
   "note": "Proved for positive radii; false for negative ones. Real arithmetic."
  },
  {
   "property": "C79",
   "status": "partial",
   "theorems": [
    "Svgio.Arc.C79_transform_partial",
    "Svgio.Arc.C62_signs_partial",
    "Svgio.Arc.C79_skew_wrong",
    "Svgio.Arc.C62_wrong"
   ],
   "note": "Proved when the transformed axes stay perpendicular and the code recognizes the orientation; otherwise false."
  },
  {
   "property": "C80",
   "status": "proved",
   "theorems": [
    "Svgio.Arc.C80_cubics",
    "Svgio.Arc.C80_quads"
   ],
   "note": "For arcs whose ends are on their ellipse, and slices below half a turn (cubics) or 69 degrees (quadratics); the default is 30 degrees."
  },
  {
   "property": "C81",
   "status": "partial",
   "theorems": [
    "Svgio.Props.C81_builder_partial",
    "Svgio.Props.C81_clip_path",
    "Svgio.Props.C81_circle_wrong",
    "Svgio.Props.C81_arguments_wrong"
   ],
   "note": "False for positional arguments of circle and for builders that take no attributes."
  },
  {
   "property": "C82",
   "status": "partial",
   "theorems": [
    "Svgio.Props.C82_own_partial",
    "Svgio.Props.C82_inherited_wrong"
   ],
   "note": "Right when the element or no ancestor has the attribute; otherwise the ancestor's value is returned."
  },
  {
   "property": "C83",
   "status": "partial",
   "theorems": [
    "Svgio.Props.C83_equal_partial",
    "Svgio.Props.C83_different_wrong"
   ],
   "note": "Same nodes are equal; the converse is false."
  },
  {
   "property": "C84",
   "status": "partial",
   "theorems": [
    "Svgio.Props.C84_segment_partial",
    "Svgio.Props.C84_smooth_wrong",
    "Svgio.Props.C84_close_wrong",
    "Svgio.Props.C84_flag_wrong"
   ],
   "note": "False for curves with smooth=True, the default, and for Close. d(current) without relative does the opposite of the stored flag."
  },
  {
   "property": "C85",
   "status": "partial",
   "theorems": [
    "Svgio.Props.C85_subpath_partial",
    "Svgio.Props.C85_smooth_ignored_wrong"
   ],
   "note": "Coordinates as in C45; the argument smooth is ignored."
  },
  {
   "property": "C86",
   "status": "partial",
   "theorems": [
    "Svgio.Arc.C86_tight_partial",
    "Svgio.Arc.C86_flat_wrong",
    "Svgio.Arc.C86_full_turn_wrong"
   ],
   "note": "For arcs with positive radii whose sweep is not taken for 0; false for a radius of 0 and for a full turn given as Angle. With floats: C165."
  },
  {
   "property": "C87",
   "status": "partial",
   "theorems": [
    "Svgio.Arc.C87_length",
    "Svgio.Arc.C87_circle",
    "Svgio.Arc.C87_full_turn_wrong",
    "Svgio.Arc.C87_flat_wrong"
   ],
   "note": "For arcs with positive radii whose sweep is not taken for 0; false for a radius of 0 and for a full turn given as Angle. scipy is taken to be exact. How accurate the bisection is: C158."
  },
  {
   "property": "C88",
   "status": "partial",
   "theorems": [
    "Svgio.Arc.C88_three_points_partial",
    "Svgio.Arc.C88_line_wrong"
   ],
   "note": "False for three points on a line."
  },
  {
   "property": "C89",
   "status": "partial",
   "theorems": [
    "Svgio.Arc.C89_sagitta_partial",
    "Svgio.Arc.C89_bulge_partial",
    "Svgio.Arc.C89_zero_wrong"
   ],
   "note": "For numbers other than 0 and different ends; 0 fails."
  },
  {
   "property": "C90",
   "status": "partial",
   "theorems": [
    "Svgio.Arc.C90_radius_partial",
    "Svgio.Arc.C90_half_wrong"
   ],
   "note": "False for the direction of a half circle when ccw is not given."
  },
  {
   "property": "C91",
   "status": "partial",
   "theorems": [
    "Svgio.Arc.C91_center_partial",
    "Svgio.Arc.C91_sweep",
    "Svgio.Arc.C91_end_wrong"
   ],
   "note": "False when end, centre and sweep are given."
  },
  {
   "property": "C92",
   "status": "partial",
   "theorems": [
    "Svgio.Arc.C92_quarter_partial",
    "Svgio.Arc.C92_ccw_wrong"
   ],
   "note": "False with ccw=True."
  },
  {
   "property": "C93",
   "status": "partial",
   "theorems": [
    "Svgio.Arc.C93_box_partial",
    "Svgio.Arc.C93_turned_partial",
    "Svgio.Arc.C93_six_wrong"
   ],
   "note": "With rotation only when ccw is given too."
  },
  {
   "property": "C94",
   "status": "proved",
   "theorems": [
    "Svgio.Props.C94_set",
    "Svgio.Props.C94_del",
    "Svgio.Props.C94_get"
   ],
   "note": ""
  },
  {
   "property": "C95",
   "status": "partial",
   "theorems": [
    "Svgio.Props.C95_set_partial",
    "Svgio.Props.C95_del_partial",
    "Svgio.Props.C95_radd_partial",
    "Svgio.Props.C95_set_slice_partial",
    "Svgio.Props.C95_append_wrong",
    "Svgio.Props.C95_append_text_wrong",
    "Svgio.Props.C95_append_path_wrong",
    "Svgio.Props.C95_slice_wrong",
    "Svgio.Props.C95_sum_wrong",
    "Svgio.Props.C95_text_sum_wrong"
   ],
   "note": "Single indices, under the conditions of C49, and segment + subpath. False for subpath += segment, subpath += path, deleted slices, subpath + segment and text + subpath."
  },
  {
   "property": "C96",
   "status": "partial",
   "theorems": [
    "Svgio.Props.C96_transform",
    "Svgio.Props.C96_product_wrong",
    "Svgio.Props.C96_disconnected_wrong",
    "Svgio.Props.C96_length_wrong"
   ],
   "note": "The transform of the points is proved. The path does not stay connected, a cached length is kept, and subpath * matrix is empty."
  },
  {
   "property": "C97",
   "status": "partial",
   "theorems": [
    "Svgio.Props.C97_tight_partial",
    "Svgio.Props.C97_none",
    "Svgio.Props.C97_move_wrong"
   ],
   "note": "False for a subpath whose move starts elsewhere. With floats: C142."
  },
  {
   "property": "C98",
   "status": "partial",
   "theorems": [
    "Svgio.Props.C98_append_partial",
    "Svgio.Props.C98_set_wrong",
    "Svgio.Props.C98_insert_wrong",
    "Svgio.Props.C98_relative_wrong"
   ],
   "note": "For text beginning with an absolute move, at the end of the path; assignment and insertion fail."
  },
  {
   "property": "C99",
   "status": "proved",
   "theorems": [
    "Svgio.Props.C99_vectors",
    "Svgio.Props.C99_type_error",
    "Svgio.Props.C99_laws",
    "Svgio.Props.C99_matrix",
    "Svgio.Props.C99_items",
    "Svgio.Props.C99_iteration"
   ],
   "note": ""
  }
 ]
}