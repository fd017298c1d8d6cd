STATUS={
'C01':('proved','Every representable integer; numbers outside the 8-column range are refused.'),
'C02':('proved','Exact grammar of a DE integer field.'),
'C03':('proved','Exact set of accepted 80-column lines.'),
'C04':('partial','Lines are well formed while the sequence number stays within seven digits; C04_hstr_overflow shows the string emitter does not check that limit.'),
'C05':('proved','Any list of integers, strings without line ends, real texts and defaulted parameters, through the emitters, the line reader and the parsers.'),
'C06':('proved','Any non-empty string, any surrounding data.'),
'C07':('partial','Proved for tokens, integers and reals; for strings only when the declared length does not overflow an int (C07_hstring_overflow is the counterexample).'),
'C08':('proved','Any list of items and strings through the section emitters; the lines are read back exactly.'),
'C09':('proved','All finite values, positive resolutions and legal delimiters; the digit estimate may be any value the rounded logarithm can give.'),
'C10':('partial','Holds for 1e-8 <= |x| <= 1e300 at every resolution (error at most 1/2000 of the resolution or half a unit of the 16th digit); C10_tiny_lost: values below 1e-8 are written as zero even when the resolution is finer. The last rounding from the decimal read to a double is not modelled.'),
'C11':('partial','Every legal entry without a level pointer, all supported types and forms; C11_level_pointer_unreadable shows an entry with a level pointer is written but refused by the reader, C11_form124_unchecked that type 124 accepts any form.'),
'C12':('proved','All status values; exact set of accepted status columns.'),
'C13':('proved','Numbers written for entities resolve to the same entities; numbers outside the list are refused; C13_even_numbers_accepted records that even numbers inside it are not.'),
'C14':('partial','Record-level round trip; counts of eight or more digits are lost (C14_large_count_lost). The counts equal the section sizes of the text written for every legal model (C14_file_counts_partial); missing: models that are not legal, e.g. with boolean trees.'),
'C15':('partial','C15_accepted_iff gives the exact set of accepted strings, which is larger than the property allows: seconds have no upper limit (C15_second_unchecked), blanks and signs are accepted (C15_blank_accepted), and a month of 13 indexes outside a table (C15_bad_month_undefined). Every correct date is accepted.'),
'C16':('partial','Every pair except a parameter delimiter ";" and the default parameter delimiter with another record delimiter; the latter is refused (C16_comma_custom_record_refused) although the writer produces it. The record delimiter itself is unchecked (C16_record_delimiter_unchecked).'),
'C19':('partial','Holds when parameter 26 is present, with the exact conversion factor; without it scale and unit stay as written (C19_without_note_not_normalised).'),
'C47':('partial','All parameters of legal global data except the line width (C47_line_width_lost); empty product and system names become none; resolutions in [1e-12,1e-8) are written as zero (C47_fine_resolution_written_zero) and refused (C47_resolution_positive).'),
'C44':('partial','Every text whose length is not exactly 72 is kept, in order, and survives write and read; a text of exactly 72 columns is dropped (C44_full_line_dropped).'),
'C45':('partial','The name written to the file is the right one for every unit; the query GetUnitName reports the name of the next unit (C45_query_reports_next_unit, C45_query_wrong).'),
'C46':('partial','Names are distinct exactly when the calls fall in different seconds (C46_distinct_iff_seconds_distinct_partial); two calls in one second collide (C46_same_second_same_name).'),
'C36':('partial','Composition, associativity and identity over any commutative ring; the overall transform of an entity on a finite chain. A cycle of transforms makes the query recurse without end (C36_cycle_never_returns).'),
'C48':('partial','All paths holding a dot (or ending in a separator), all orders of queries, and SetExtension before any query; the base name of a path without a dot throws (C48_no_dot_throws), SetExtension misbehaves after a query or with a leading dot, and Append reports failure on success.'),
'C49':('proved','All strings.'),
'C51':('proved','Exact arithmetic over the reals; rounding of double arithmetic is not modelled.'),
'C53':('partial','Exact arithmetic over the reals; degenerate triangles get the z direction (C53_degenerate_not_perpendicular).'),
'C29':('partial','Lines, conics, transforms, surfaces of revolution, tabulated cylinders, cylinders and extrusions: all values up to 1e300 (unit axis where one is required). Arcs only with some distance from the reader\'s consistency check; C29_arc_refused is an arc with equal radii that is written and refused.'),
'C30':('partial','Composite curves, curves on surfaces, faces, shells, subfigure definitions and instances, vertex lists, edge lists and names, for all contents. Trimmed surfaces only with an outer boundary (C30_trimmed_without_boundary_refused), solids only without voids (C30_solid_voids_refused). Loops fail: undefined if an edge has no parameter curve (C30_loop_without_curves_undefined), never read back otherwise (C30_loop_lost, last edge with one curve). Colours with optional pointers but no name are misread (C30_colour_extras_misread), long colour names are not written at all (C30_long_colour_name_not_written).'),
'C31':('partial','False for every tree: what is written is refused on reading (C31_every_tree_refused). Proved part: the codes written are those of the nodes in order (C31_written_partial).'),
'C37':('partial','The check is a disjunction that is always true: every form number is accepted (C37_any_form_accepted).'),
'C38':('proved','Exact arithmetic over the rationals.'),
'C39':('partial','The coefficients are scaled with the wrong powers; C39_rescale_residue gives the exact residue and C39_end_point_leaves_conic a conic whose end points leave it. Holds for conics without linear and constant terms.'),
'C40':('partial','A height below the resolution is replaced by it; a radius below the resolution replaces the height instead (C40_radius_repair_hits_height).'),
'C43':('partial','Optional pointers are read back for every entity type proved under C29/C30; every entity with a short first comment is refused on reading (C43_comment_refused).'),
'C33':('partial','Sizes agree after every accepted SetNURBSData and after every successful read; curves and surfaces with consistent data and weights of at least 1e-8 round trip. Smaller weights are accepted but the file is refused (C33_small_weight_refused); a call refused for its range leaves sizes and arrays inconsistent (C33_refused_range_breaks_curve/_surface); GetNURBSData is undefined whenever there are data (C33_get_undefined).'),
'C17':('partial','Exact factor for every unit pair and every model whose entities the code can scale (exact arithmetic); A to B to C equals A to C for all models. Fails for conics (C17_circle_not_scaled), lines on parameter planes (C17_line_on_param_plane_scaled), shared parameter curves (C17_shared_curve_scaled), unsupported entities (C17_null_entity_half_converted); user cycles hang (C17_user_cycle_never_returns); global lengths other than the resolution are kept (C17_global_lengths_kept).'),
'C18':('partial','Holds when the scale was one; from any other scale the resolution gets the wrong factor (C18_resolution_wrong).'),
'C20':('partial','Every program of legal and careful calls, of any length; Careful leaves out the calls for which it is false, each with a counterexample: C20_fails_boolean_tree, C20_fails_DelPTI, C20_fails_DelDE, C21_fails_matrix_property, C21_fails_placeholder_property, C21_fails_face_surface, C21_fails_face_bound. Also for histories that start from a file (C20_after_read_partial). Loops (508) are left out: their destructor leaves dangling pointers (C58_fails_clear_solid).'),
'C21':('partial','Every reached state and every careful deletion. False for operands of boolean trees with several operands and vertex lists in use (C21_fails_boolean_tree_stale, C21_fails_vertex_list), for properties of matrices and placeholders, and for faces (C21_fails_*). Validity flags: see C22.'),
'C27':('partial','All states and pairs of entities for registering; removal of an absent user only without optional pointers, otherwise it fails (C27_fails_absent_undefined, C27_fails_absent_removes_other).'),
'C28':('partial','Every state reached by legal and careful calls; AddDE, AddArg and AddOptionalEntity accept the entity itself (C28_fails_subfigure_self, C28_fails_boolean_tree_self, C28_fails_property_self) and matrices can form a circle (C28_fails_transform_circle); a file may do the same (C28_fails_file).'),
'C41':('partial','Every reached state; deleting a vertex list in use is undefined (C21_fails_vertex_list).'),
'C22':('partial','Every history of legal calls in which a flag variable is attached to at most one live entity at a time; a variable attached to two entities is cleared when the first goes (C22_fails_two_owners).'),
'C50':('partial','Every history of legal calls that avoids four misuses, each with a counterexample: the guard of the outline wrapper lets stale handles through (C50_fails_curve_on_plane), the next one refuses every valid handle (C50_fails_segment_wall, C50_segment_wall_always_refused), copying a wrapper (C50_fails_copy) and a wrapper created without a model (C50_fails_parent_flag_uninitialised).'),

'C23':('partial','Every program that works with one model (C23_single_model); with several models, every program that keeps each entity in one of them. An entity put into a second model leads to a duplicate (C23_fails_address_reuse). Adding a present entity changes nothing; deletion and unlinking remove exactly the entity.'),
'C24':('partial','Every reached state in which every entity in use is complete: one pass removes only useless entities and keeps the order; no useless one is left if users come before what they use, or after as many passes as there are entities. One pass may leave an orphan (C24_fails_orphan_left), and an incomplete entity is removed although another needs it (C24_fails_needed_removed). The pass at the end of Read is covered by C24_after_read_partial.'),
'C32':('partial','All call sequences: the list starts with two operands; a written tree without underflow describes one solid, and so does every written tree of a caller that adds operators only when two results wait. The library itself accepts operators that lack an operand (C32_fails_underflow, C32_fails_read); destroying an operand makes the others unusable in this tree (C32_lost_operand).'),
'C34':('partial','All sequences of additions and destructions: connected for callers that compare with GetEndPoint; destroying a segment opens no gap; nothing is added to a closed curve. The library accepts any gap, when building and when reading (C34_fails_gap, C34_fails_read).'),
'C35':('partial','Every heap in which instances have their definition: the depth is that of the longest descent, one more than the largest depth contained, and it is found whenever descents are bounded. The API can make a circular definition, for which the computation never returns (C35_fails_circle); an instance without definition counts one (C35_fails_empty_instance).'),
'C42':('partial','All classes, states and values: what the working setters set is observed, no setter changes another attribute. Setters that report success without effect (C42_fails_ignored), views that cannot be set (C42_fails_view), label associations and colour entities that are never observed (C42_fails_labelAssoc, C42_fails_colorEnt); labels are cut to eight characters and line weights to the largest of the model.'),
'C52':('partial','Every reached state and every pair of different models: all entities are moved once, references stay, the new definition refers to exactly the packaged ones. Nothing is moved when there is nothing to package (C52_fails_nothing_moved); a model exported into itself loses everything (C52_fails_self). Units, scale and line weights are not part of this model.'),
'C54':('partial','Every program that keeps each entity in one model; adoption for all calls. AddEntity and the setters leave the entity in its old model, so that it is destroyed twice (C54_fails_two_models, C54_fails_two_models_setter); destroying a model is undefined if a vertex list comes before its edge list (C54_fails_teardown); an unlinked entity is not adopted again (C54_fails_unlinked).'),
'C25':('partial','Refusal of a non-empty model for all calls; every failure before linking leaves no entities. A failure while linking keeps them (C25_failed_link_keeps_entities). Start text left in a model makes every later read fail (C25_start_text_blocks).'),
'C26':('partial','An existing readable file is kept and an empty model is never written, for all calls. A file that can be written but not read is replaced without permission (C26_write_only_overwritten); a path without a dot or an attribute too wide for its column is noticed after truncation (C26_no_dot_throws, C26_failed_write_destroys).'),
'C55':('partial','All five sections, for every model whose entities are legal (lines, arcs, conics, transforms, lists, colours, names and so on, any number and order). The pointers come back too, if they are in order (C55_pointers_partial). Models that were never read have no date and come back with that of the writing (C55_new_partial). Entities whose own round trip fails (C30, C31, C43) are not legal.'),
'C56':('proved','Every list of records that comes from a file, of any size; the exact pointers are given by Spec/Link.lean. Geometric conditions (closed curves of extrusions, end points of composite curves) are parameters. C56_curve_twice_once shows one of the exceptions named in the property.'),
'C57':('partial','Every file in which no solid, face or shell lists a part twice; such a file is accepted and leaves a dangling pointer behind (C57_fails_face_twice).'),
'C58':('partial','Defined for every file without optional pointers in which no directory entry points at its own entity, vertex pointers of edge lists lead to vertex lists and part lists have no negative numbers. Directory pointers to the entity itself and wrong vertex pointers are undefined (C58_fails_self_pointer, C58_fails_vertex_pointer); clearing is undefined after a failed read (C58_fails_clear) and even after a successful read of an ordinary solid (C58_fails_clear_solid).'),
'C59':('proved','Every list of records that comes from a file; what is allowed where is given by Spec/Link.lean, which also shows the few places without a check (curves on surfaces, edges and curves of loops, members of subfigures).'),
'C60':('proved','Every file with readable records whose pointers are in order (Spec/Accept.lean), with any number of entities. Geometric conditions (closed curves of extrusions, end points of composite curves) are parameters.'),
'C61':('partial','Every segment made by any sequence of definitions, reversals and splits, in exact arithmetic. The box holds within the stated tolerance of 1e-8 for lines and arcs; a line that is almost vertical gets an inverted box (C61_box_inverted).'),
'C62':('partial','All pairs of circles, in exact arithmetic; circles that cross so little that they overlap by less than 0.001 are reported as touching (C62_crossing_missed).'),
'C63':('partial','All pairs of lines that are clearly not parallel, and all clearly separate parallel ones. A line within another one is missed (C63_overlap_missed), short crossing lines are missed (C63_short_missed), consecutive lines count as an edge (C63_consecutive_edge).'),
'C64':('partial','Circle and line in either order, an arc asked about a line (within 1e-14 at its ends) and an arc asked about a circle, away from tangency. A line asked about an arc may report its own end (C64_line_arc_wrong, C64_line_arc_partial); circle and arc, and two arcs, compare directions about one centre with angles about the other (C64_circle_arc_missed, C64_circle_arc_wrong).'),
'C65':('partial','All lines split at points that do not match each other, all arcs split at points in directions of the arc, all circles split at points in different directions. Other inputs break it: C65_line_empty_piece, C65_arc_outside (arcs with angles above pi, left by a previous split), C65_circle_lost.'),
'C66':('partial','All combinations of empty and missing fields for instances; for cylinders unless the field of the last axis component is empty, which is refused (C66_cylinder_empty_refused); for extrusions unless the record ends before the last component of a direction that is not (0,0,1) (C66_extrusion_end_wrong).'),
'C67':('partial','Every history of calls, in exact arithmetic. Outlines of straight lines always end up counterclockwise (C67_orientation_lines); with arcs only if the polygon over ends and midpoints runs the same way (C67_orientation_partial); an arch is turned the wrong way (C67_orientation_wrong). The box holds within the tolerance of the boxes of the segments.'),
'C68':('partial','Points of the bounding box in general position: not close to the outline and not at the height of a corner or of the top or bottom of a circle; for polygons also points at the height of corners (C68_corner_partial); for an outline that is one circle every point of the plane off the circle except those beside its top or bottom (C68_circle); coordinates up to ten million; exact arithmetic. Errors in full. A point on the bottom side of a square is reported outside (C68_edge_outside), a point beside the top of a circle inside (C68_beside_circle).'),
'C69':('partial','Contents, boundaries and the facing side for every pair of heights with the first one greater, up to the tolerance of the ends of an arc. Creating an entity is assumed to succeed. What fails: heights that differ by less than 0.001 are refused for arcs and circles and accepted for lines (C69_thin_hole); with the heights swapped the straight walls face the other way and the curved ones do not (C69_facing_upside_down). Arcs whose ends match within 1e-8 are excluded.'),
'C70':('partial','Curves in the parameter plane for all segments, curves in space for all but the arcs that run counterclockwise and start beyond half a turn: those come out as the whole circle (C70_curves_wrong). Up to the tolerance of the ends of an arc. The bounding box must have a width. Creating entities is assumed to succeed, and SISL to do what its manual says.'),
'C71':('partial','All lists, in exact arithmetic. Two sides of a triangle are closed by the third or thrown away depending on how they were drawn (C71_depends_on_direction). IsCCW in full for straight lines only; an empty list is undefined behaviour (C71_undefined).'),
'C72':('proved','Exact arithmetic over the reals; the truncation of angles to a ten-thousandth of a degree is modelled.'),
'C73':('partial','All texts. A word that only begins like a number is taken for that number, whatever follows (C73_prefix for all words with their exponents, C73_junk); a word without a digit is refused (C73_none), and so is one in which the letter e follows the number (C73_bare_exponent).'),
'C74':('partial','Texts without quote marks and line ends, numbers up to 1e300. A quote mark cuts the text (C74_quote_lost), a line end makes the file unreadable (C74_newline_refused). Which texts are read, and as what: C74_words.'),
'C75':('partial','Version 3; names without quote marks and line ends that are not keywords in any case; diameters of 0.3 mm or more. Reading is right for all records of both versions (C75_words) and for whole sections (C75_section). The least diameter depends on the unit (C75_least_differs). Otherwise: C75_name_becomes_keyword, C75_quote_refused, C75_tiny_unreadable.'),
'C76':('partial','Reading is right for all records of both versions in mm and thou (C76_words_partial) and for sections of new, named parts (C76_section_partial); in version 2 files in tens of nanometres the positions of parts are not converted although those of holes are (C76_tnm_not_converted). Writing and reading: version 3, mm and thou. On the bottom side only outlines without offset in x and without angle; others are mirrored (C76_bottom_mirrored, C76_bottom_turned). Names without white space that are not reserved; otherwise C76_space_cut, C76_board_unreadable, C76_unnamed_split.'),
'C77':('partial','Components: unless DelComponent is called with a namesake (C77_deleted_by_namesake). Holes of the board: proved; holes of components are not protected by their owner (C77_component_hole_deleted). Outline: unless deleted, which is not checked (C77_outline_deleted).'),
'C78':('partial','Round trip: thickness not printed as zero (C78_thin_board), no touching of the first point on the way (C78_touching_refused), angles not within a hundredth of a degree of zero or a full turn, direction not a matter of rounding (C78_polygon_robust for polygons). Accepted texts: proved for boards; the last outline may run either way (C78_last_direction), components with properties may be open (C78_open_component), comments are read as points (C78_comment_is_point). Which texts are read, and as what: C78_words and C78_section, in both versions and all units. Comments of the section are not modelled.'),
'C79':('partial','The property is false for other outlines, which are never readable again (C79_other_unreadable), for placement outlines and keepouts without a height (C79_place_unreadable, C79_keepout_unreadable) and for sections without outlines, which are not written (C79_empty_lost). Otherwise proved for outlines that do not touch their first point on the way and have angles not within a hundredth of a degree of zero or a full turn. Which texts are read, and as what: C79_words, for all kinds of sections, in both versions and all units. Comments of the sections are in C80.'),
'C80':('partial','The round trip is proved for boards without other outlines (never readable, C79), with one outline per section and the conditions of C75, C76, C78 and C79 on the parts. Proved to be false: comments on placement or notes survive only with components or notes (C80_comments_lost); components with neither outline nor hole are not in the file (BoardBack.others); a line with one unknown word hides the shorter lines after it without an error (C80_junk_loses); a last line without a line end is not looked at (C80_last_line); WriteFile writes thousandths of an inch when asked for millimetres (C80_unit_reversed); reading twice doubles everything but the outline of the board (C80_reading_adds). The library file is not in this property.'),
'C81':('partial','The round trip is proved for the parts in use, in millimetres or thousandths of an inch, with names, words and properties the format can carry and at most one closed outline. Proved to be false of the code: parts not used are not written (C81_unused_lost); properties of mechanical parts are not written (C81_mechanical_props_lost); an empty comment drops the comments before it (C81_comment_lost); in version 2 the unit TNM is refused and any unknown word is taken for it (C81_tnm); a second part of the same unique name is dropped or makes the file unreadable, and different names can have the same unique name (C81_second_dropped, C81_names_clash); an open outline followed by a property is accepted (C81_open_accepted). The default outline that stands in for missing parts is not modelled beyond its name.'),
'C82':('partial','Contiguity is proved when every arc of the outline meets the circle once at most and a line that meets it twice has the inside on its left; C82_gap proves it false of the code for an arc that meets the circle twice: the operation reports success, takes the wrong part of the arc away and leaves two gaps. That the new border encloses the difference or the union is C83. The bounding box is left out of date.'),
'C83':('partial','Proved for circles that cross the border away from its corners, where GetIntersections finds the common points (C62, C64), IsInside is right about the two points of the circle halfway between them (C68), and an arc that the circle meets twice starts outside of the circle (C82_gap shows that it fails otherwise). That the operation succeeds under these conditions is proved for exactly two common points with the circle on both sides (C83_success_partial); another number of common points but none is an error (C83_number), so is a segment that runs along the circle (C83_edge), a circle that stays on one side is ignored without an error (C83_one_side). Outlines that are one circle: C83_two_circles gives the region for two circles that cross, C83_circles_refused the refusals for circles that are apart or nested, and C83_not_joined proves that the claim fails when a point halfway between the common points lies at the height of the top or bottom of the other circle: two overlapping circles are reported as not joined without an error. Circles through corners are not covered.'),
'C84':('partial','Proved for outlines that cross in two points away from their corners, where GetIntersections finds the common points (C62, C64) and IsInside is right about the two midpoints it is asked about (C68). The order of the segments is proved for joining when no segment of the result runs clockwise, and for cutting out when no corner of the other outline is inside; C84_order is a drawn case in which SubOutline reports success and leaves an outline that is not contiguous. That the operations succeed under these conditions is proved for exactly two common points (C84_success_partial); any other number but none is an error that leaves both outlines alone (C84_number), and so are borders that run along each other from a common end on (C84_edge). Outlines with a circle and common points at corners are not covered.'),
'C85':('partial','Refusals and the case without treatment of overlaps hold without conditions. With treatment of overlaps the region is proved for borders that are apart or cross in two points away from their corners, with the conditions of C84, and acceptance is proved too; for holes under the conditions of C83, in boards and cutouts that may also be one circle, with acceptance and, for a number of common points that is neither none nor two, the refusal. That cutouts stay apart and within the board needs the caller: C85_outside is a cutout outside of the board that is accepted, C85_hole_twice a hole accepted twice.'),
'C86':('partial','Proved for sections whose parts are all in the library. C86_unknown_part and C86_crash show what fails otherwise: the converter asks the reader not to make substitutes, so that a part that is not in the library leaves a null pointer, through which the converter then calls a function. Rounding of the sine and cosine is left out.'),
'C88':('partial','C88_bundles (which holes go together, none lost) is proved for all lists of holes any two of which cross or have no point in common. The region of a bundle and of the board (C88_bundle_partial, C88_board_partial) needs the conditions of C83 wherever a circle crosses an outline, and cutouts that are apart in the end. C88_lost and C88_dangling show that the property fails without such conditions: a hole listed twice makes the program drop holes that overlap each other, and two holes that overlap in an unlucky position leave a pointer to a deleted outline.'),
'C87':('partial','C87_item and C87_outline_partial need: lines, arcs and circles that are longer (or of a larger radius) than the tolerance of the IGES library, and coordinates of at most ten kilometres. The property fails as stated: C87_open (reader and converter have different ideas of closed) and C87_repeated (a repeated point makes the conversion fail).'),
'C89':('partial','C89_component is proved for all outlines of lines, arcs and circles that are converted and closed, C89_counterclockwise for polygons, C89_list for all lists. The board is proved for segments that meet stated conditions (C89_board_partial). The property fails elsewhere: an outline that the reader takes for closed and the library does not gives an empty body (C89_open), a board thinner than 0.001 with a hole has no walls (C89_no_walls), both faces of an OTHER outline face the same way and below the board its straight walls face inwards (C89_other_top, C89_other_bottom), only the first OTHER outline is made (C89_second_other), and GetCurves of the wrapper hands over entries that are not set (C89_curves_unset).'),
'C90':('partial','C90_unused (what is written is in use) is proved for all histories. The converse needs that no record is made by the constructor with offsets together with a part, which does not count the new user (C90_offsets_lost), and that no part is cleared while in use (C90_cleared_lost). C90_defined holds for all careful programs; a record that was given to two components is deleted twice (C90_shared_record).'),
'C91':('partial','C91_partial holds for all careful programs. It fails for NewAPIEntity with a type that has no wrapper (C91_unsupported) and for DelEntity of a wrapper whose entity is listed (C91_wrapper_deletes): both leave a dangling pointer in the model. NewIGESEntity is always undefined (C91_new_entity_undefined). NewAPIEntity adds two entities (C91_new, C91_twice).'),
'C92':('partial','C92_partial holds for all programs. Exceptions: the empty name of the receiver is reported as the sender\'s (C92_receiver), a null pointer for it is undefined (C92_null_receiver_undefined), and scaling changes the resolution. C92_file: all values that a file can hold come back, except the line width (C47_line_width_lost); empty names become "none"; resolutions below 1e-8 are accepted but written as zero (C92_fine_resolution_lost). Programs with conversions of units are not covered by C92_file.'),
'C93':('partial','C93_partial: all reachable states, units with a length, scales in range, entities that the code can scale (Sound). Not true in general: the answers of the conversions are not looked at, so that user defined units, a scale out of range or an unsupported entity give wrong sizes silently (C93_units_ignored, C93_scale_ignored, C93_half_converted). Weights keep their meaning only if the numbers of gradations divide (C93_part_iff); into fewer gradations all become 1 (C93_weights_lost). A model that is not exported because nothing can be packaged is changed nevertheless (C93_kept_model_weights). Names of parts made in one second are equal (C93_same_name).'),
'C94':('partial','Proved for everything but the comments of the outline of the board (C94_partial, C94_after_failure_partial, C94_history_partial). Not true: Clear does not touch the outline of the board, so its comments stay in front of those of the next file and pile up (C94_comments_pile_up), and a board written after Clear has the old outline (C94_outline_stays).'),
'C95':('partial','Proved: what is accepted (C95_accepted), nothing is lost and NULL changes nothing (C95_partial), the same file gives the same outline after any calls (C95_again), a part written to a file is loaded from it (C95_roundtrip_partial, with the conditions of C81). Not true: an outline with the same corners is taken for the same, so that height, arcs, properties and names of the file may be those of another file (C95_other_height, C95_other_names); whether a part with properties can be loaded depends on the version of the board file read last (C95_version). File names are taken to be full names.'),
'C96':('partial','Proved for slots up to a metre wide (C96_partial, the border is exact, the ends of the segments meet to within a micrometre); the direction for slots that are not extremely small for their distance from the x axis (C96_clockwise). A slot a kilometre wide can lose half its outline while AddSlot reports success (C96_wide_lost): the angle of a cap is cut to four decimals and the next side is then refused by push.'),
'C97':('partial','Ends: proved for knots that hold the curve to its end control points and the full range (C97_start, C97_end); a shorter range is accepted and the ends are then wrong (C97_trimmed). Plane: a curve reported plane is within 1.8e-8 of the polygon length for each control point after the third of the plane (C97_plane_partial), and plane control points are found to be plane with the right normal (C97_plane_found), both if no three consecutive control points are on a line; otherwise the normal can lie along the curve (C97_straight_wrong_normal) and a plane curve can be reported not to be (C97_straight_not_found). Curves are always reported open (C97_flags). After a refused range the ends are read through a NULL pointer (C97_refused_undefined). The SISL build is not modelled.'),
'C98':('partial','Single curves for all transforms (C98_simple); composite curves with the transforms of the segments (C98_composite), and without for segments that have none (C98_composite_partial): otherwise leaving out the transform of the composite curve also leaves out those of its segments (C98_own_transform). Closed: proved for arcs, conics and composite curves of two or more segments within 1.8e7 of the origin (C98_arc_closed, C98_conic, C98_closed) and of one arc (C98_one_arc); a composite curve of one closed ellipse or NURBS curve is reported open (C98_one_other).'),
'C99':('partial','Members, holes and comments for all histories (C99_members, C99_comments, C99_index). Header lines unless the model is cleared or read after a query (C99_headers_partial); then pointers to deleted lines are handed out (C99_headers_stale, C99_headers_stale_write), and the number of lines is never told (C99_headers_size). The edges query always fails and may have edges that are gone (C99_edges_never, C99_edges_stale). The wrapper of the members query, and the bounds query, are undefined for an empty list (C99_dll_empty_undefined, C99_bounds_partial). Common points and parts of split segments are handed out right for arrays and counts that belong together (C99_points, C99_splits, C99_split_partial); a count without an array makes the array shorter than the count (C99_split_overrun).'),
'C100':('partial','Ownership, accepted values, legal contents, part names and numbers for all histories (C100_other_system, C100_side, C100_height, C100_legal, C100_uid, C100_numbers); saving and reading of sections built by calls, except other outlines (C100_survives_partial, with the conditions of C79). A refused SetSide or SetMaxHeight is not without effect: the side is lost and the board cannot be saved, the height becomes zero (C100_refused_partial, C100_side_lost, C100_height_lost). Clear keeps the thickness or sets the height to zero (C100_clear_partial, C100_clear_height).'),
'C101':('partial','Last accepted value at every place of every getter, for all histories, for ten of the eleven classes (C101_last_partial, C101_answer), acceptance (C101_accepted), invalid handles of all classes but the property (C101_invalid_partial). The end of the generatrix of a tabulated cylinder is stored wrongly: the last coordinate becomes the first and the other two can never be set (C101_generatrix_wrong, C101_generatrix_never, C101_generatrix_flat), and so it is in the file (C101_generatrix_saved); lines and conics are found in the file as they were set (C101_line_saved, C101_conic_saved). The name of a property through an invalid handle is undefined (C101_property_undefined). The height of a start or end point given as a point of space is ignored (C101_height_ignored).'),
'C102':('partial','One holder, no double deletion, no leak and exact deletion for all histories that keep the rules (C102_owned_partial, C102_no_leak_partial, C102_destroy_partial), taking and refusing (C102_given, C102_refused). The code does not enforce the rules: a handle can be attached to a segment that an outline owns, which is then deleted twice (C102_attached_twice), and an outline can be made its own cutout, which loses it (C102_own_cutout). That a merge deletes exactly the segments it does not keep is taken as its answer, not proved of opOutline.'),
'C103':('partial','Accepted edges: C103_added, for every model in which pointers and users agree. Refused edges: C103_null, C103_refused_partial; false if the loop already has the curve (C103_refused_breaks: the curve forgets the loop, so that deleting it leaves a dangling pointer), and the refused edge stays counted (C103_refused_counts). Deleting an edge list in use is undefined for every loop (C103_delete_used); for a list no edge uses the loop keeps its edges (C103_delete_unused).'),
'C104':('partial','Labels: C104_label, C104_label_null, C104_label_saved (every supported class but 124, text without a blank at its beginning); blanks at the beginning are lost (C104_label_blank). Colours: C104_colour_defined, C104_colour_cycle, C104_colours. Labels of instances are different for designators of at most eight characters (C104_instances_partial); every longer one shares its label with another (C104_instances_mixed).'),
'C105':('partial','C105_merged_partial: all inputs whose lines have a meaning (C105_pos_line, C105_orient_line: every line with decimal numbers of at most 300 digits has), for directions that are not very short and whose length is one or clearly not one. Same rule as the IDF converter: C105_same_rule. Very short directions become the z axis (C105_axis_short); a direction of almost the length one changes shapes (C105_axis_near), but squares of distances by a twenty millionth part at most (C105_orient_shape). Units: C105_unit. File names: C105_file_name. Failures: C105_nothing.'),
'C106':('partial','C106_bounded_partial: planes with a curve and at least one optional pointer. The property fails otherwise: no plane without optional pointers is read back (C106_lost: the record is never closed); planes without a curve lose the delimiter after the curve (C106_unbounded_misread); planes off the origin are not scaled (C106_rescale_lost, C106_rescale_partial for the others); the first entity of a file is never taken as the curve (C106_curve_partial); planes without a curve use an indeterminate pointer (C106_indeterminate); bounded planes count as orphans (C106_culled).'),
'C107':('partial','C107_names, C107_run and C107_inputs_kept hold for all arguments. The property fails in two parts: the exit status is 0 although the parts could not be made or the model could not be written (C107_status_blind; C107_status_partial is the half that holds), and a file whose path does not end in .emn or holds a backslash is not the one that is read (C107_other_file; C107_given_partial for the others).'),
}
