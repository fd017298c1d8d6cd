{
 "claims": [
  {
   "property": "C01",
   "status": "proved",
   "theorems": [
    "Iges.Props.C01_deInt_roundtrip",
    "Iges.Props.C01_deInt_refused"
   ],
   "note": "Every representable integer; numbers outside the 8-column range are refused."
  },
  {
   "property": "C02",
   "status": "proved",
   "theorems": [
    "Iges.Props.C02_field_value",
    "Iges.Props.C02_refused_keeps_var",
    "Iges.Props.C02_out_of_range_field"
   ],
   "note": "Exact grammar of a DE integer field."
  },
  {
   "property": "C03",
   "status": "proved",
   "theorems": [
    "Iges.Props.C03_record_iff",
    "Iges.Props.C03_emitted_line_accepted"
   ],
   "note": "Exact set of accepted 80-column lines."
  },
  {
   "property": "C04",
   "status": "partial",
   "theorems": [
    "Iges.Props.C04_pd_lines",
    "Iges.Props.C04_pd_line_readable",
    "Iges.Props.C04_hstr_overflow"
   ],
   "note": "Lines are well formed while the sequence number stays within seven digits; C04_hstr_overflow shows the string emitter does not check that limit."
  },
  {
   "property": "C05",
   "status": "proved",
   "theorems": [
    "Iges.Props.C05_params_roundtrip"
   ],
   "note": "Any list of integers, strings without line ends, real texts and defaulted parameters, through the emitters, the line reader and the parsers."
  },
  {
   "property": "C06",
   "status": "proved",
   "theorems": [
    "Iges.Props.C06_hollerith_roundtrip"
   ],
   "note": "Any non-empty string, any surrounding data."
  },
  {
   "property": "C07",
   "status": "partial",
   "theorems": [
    "Iges.Props.C07_token",
    "Iges.Props.C07_int",
    "Iges.Props.C07_real",
    "Iges.Props.C07_hstring_partial",
    "Iges.Props.C07_hstring_overflow",
    "Iges.Props.C07_hstring_wraps",
    "Iges.Props.C07_chain_terminates"
   ],
   "note": "Proved for tokens, integers and reals; for strings only when the declared length does not overflow an int (C07_hstring_overflow is the counterexample)."
  },
  {
   "property": "C08",
   "status": "proved",
   "theorems": [
    "Iges.Props.C08_global_lines",
    "Iges.Props.C08_global_line_readable",
    "Iges.Props.C08_global_params_roundtrip"
   ],
   "note": "Any list of items and strings through the section emitters; the lines are read back exactly."
  },
  {
   "property": "C09",
   "status": "proved",
   "theorems": [
    "Iges.Props.C09_real_text",
    "Iges.Props.C09_bad_resolution"
   ],
   "note": "All finite values, positive resolutions and legal delimiters; the digit estimate may be any value the rounded logarithm can give."
  },
  {
   "property": "C10",
   "status": "partial",
   "theorems": [
    "Iges.Props.C10_real_precision_partial",
    "Iges.Props.C10_small_values",
    "Iges.Props.C10_tiny_lost"
   ],
   "note": "Holds for 1e-8 <= |x| <= 1e300 at every resolution (error at most 1/2000 of the resolution or half a unit of the 16th digit); C10_tiny_lost: values below 1e-8 are written as zero even when the resolution is finer. The last rounding from the decimal read to a double is not modelled."
  },
  {
   "property": "C11",
   "status": "partial",
   "theorems": [
    "Iges.Props.C11_de_roundtrip_partial",
    "Iges.Props.C11_level_pointer_unreadable",
    "Iges.Props.C11_entity_forms",
    "Iges.Props.C11_form124_unchecked"
   ],
   "note": "Every legal entry without a level pointer, all supported types and forms; C11_level_pointer_unreadable shows an entry with a level pointer is written but refused by the reader, C11_form124_unchecked that type 124 accepts any form."
  },
  {
   "property": "C12",
   "status": "proved",
   "theorems": [
    "Iges.Props.C12_status_roundtrip",
    "Iges.Props.C12_status_decode_iff"
   ],
   "note": "All status values; exact set of accepted status columns."
  },
  {
   "property": "C13",
   "status": "proved",
   "theorems": [
    "Iges.Props.C13_resolve_written",
    "Iges.Props.C13_seq_injective",
    "Iges.Props.C13_outside_refused",
    "Iges.Props.C13_even_numbers_accepted"
   ],
   "note": "Numbers written for entities resolve to the same entities; numbers outside the list are refused; C13_even_numbers_accepted records that even numbers inside it are not."
  },
  {
   "property": "C14",
   "status": "partial",
   "theorems": [
    "Iges.Props.C14_terminate_roundtrip",
    "Iges.Props.C14_large_count_lost",
    "Iges.Props.C14_file_counts_partial"
   ],
   "note": "Record-level round trip; counts of eight or more digits are lost (C14_large_count_lost). The counts equal the section sizes of the text written for every legal model (C14_file_counts_partial); missing: models that are not legal, e.g. with boolean trees."
  },
  {
   "property": "C15",
   "status": "partial",
   "theorems": [
    "Iges.Props.C15_accepted_iff",
    "Iges.Props.C15_valid_accepted_partial",
    "Iges.Props.C15_second_unchecked",
    "Iges.Props.C15_blank_accepted",
    "Iges.Props.C15_bad_month_undefined"
   ],
   "note": "C15_accepted_iff gives the exact set of accepted strings, which is larger than the property allows: seconds have no upper limit (C15_second_unchecked), blanks and signs are accepted (C15_blank_accepted), and a month of 13 indexes outside a table (C15_bad_month_undefined). Every correct date is accepted."
  },
  {
   "property": "C16",
   "status": "partial",
   "theorems": [
    "Iges.Props.C16_delimiters_honoured_partial",
    "Iges.Props.C16_comma_custom_record_refused",
    "Iges.Props.C16_record_delimiter_unchecked"
   ],
   "note": "Every pair except a parameter delimiter \";\" and the default parameter delimiter with another record delimiter; the latter is refused (C16_comma_custom_record_refused) although the writer produces it. The record delimiter itself is unchecked (C16_record_delimiter_unchecked)."
  },
  {
   "property": "C17",
   "status": "partial",
   "theorems": [
    "Iges.Props.C17_same_unit",
    "Iges.Props.C17_extern_refused",
    "Iges.Props.C17_convert_partial",
    "Iges.Props.C17_compose",
    "Iges.Props.C17_global_lengths_kept",
    "Iges.Props.C17_null_entity_half_converted",
    "Iges.Props.C17_line_on_param_plane_scaled",
    "Iges.Props.C17_shared_curve_scaled",
    "Iges.Props.C17_circle_not_scaled",
    "Iges.Props.C17_user_cycle_never_returns",
    "Iges.Props.C17_import_scaled_partial"
   ],
   "note": "Exact factor for every unit pair and every model whose entities the code can scale (exact arithmetic); A to B to C equals A to C for all models. Fails for conics (C17_circle_not_scaled), lines on parameter planes (C17_line_on_param_plane_scaled), shared parameter curves (C17_shared_curve_scaled), unsupported entities (C17_null_entity_half_converted); user cycles hang (C17_user_cycle_never_returns); global lengths other than the resolution are kept (C17_global_lengths_kept)."
  },
  {
   "property": "C18",
   "status": "partial",
   "theorems": [
    "Iges.Props.C18_out_of_range",
    "Iges.Props.C18_effect",
    "Iges.Props.C18_scale_partial",
    "Iges.Props.C18_resolution_wrong"
   ],
   "note": "Holds when the scale was one; from any other scale the resolution gets the wrong factor (C18_resolution_wrong)."
  },
  {
   "property": "C19",
   "status": "partial",
   "theorems": [
    "Iges.Props.C19_note_present_normalised_partial",
    "Iges.Props.C19_written_factor_partial",
    "Iges.Props.C19_without_note_not_normalised"
   ],
   "note": "Holds when parameter 26 is present, with the exact conversion factor; without it scale and unit stay as written (C19_without_note_not_normalised)."
  },
  {
   "property": "C20",
   "status": "partial",
   "theorems": [
    "Iges.Props.C20_references_symmetric_partial",
    "Iges.Props.C20_fails_boolean_tree",
    "Iges.Props.C20_fails_DelPTI",
    "Iges.Props.C20_fails_DelDE",
    "Iges.Props.C20_after_read_partial"
   ],
   "note": "Every program of legal and careful calls, of any length; Careful leaves out the calls for which it is false, each with a counterexample: C20_fails_boolean_tree, C20_fails_DelPTI, C20_fails_DelDE, C21_fails_matrix_property, C21_fails_placeholder_property, C21_fails_face_surface, C21_fails_face_bound. Also for histories that start from a file (C20_after_read_partial). Loops (508) are left out: their destructor leaves dangling pointers (C58_fails_clear_solid)."
  },
  {
   "property": "C21",
   "status": "partial",
   "theorems": [
    "Iges.Props.C21_delete_leaves_nothing_partial",
    "Iges.Props.C21_fails_matrix_property",
    "Iges.Props.C21_fails_placeholder_property",
    "Iges.Props.C21_fails_boolean_tree_stale",
    "Iges.Props.C21_fails_face_surface",
    "Iges.Props.C21_fails_face_delete",
    "Iges.Props.C21_fails_face_bound",
    "Iges.Props.C21_fails_vertex_list"
   ],
   "note": "Every reached state and every careful deletion. False for operands of boolean trees with several operands and vertex lists in use (C21_fails_boolean_tree_stale, C21_fails_vertex_list), for properties of matrices and placeholders, and for faces (C21_fails_*). Validity flags: see C22."
  },
  {
   "property": "C22",
   "status": "partial",
   "theorems": [
    "Iges.Props.Flags.C22_flag_tracks_life_partial",
    "Iges.Props.Flags.C22_only_attached_flags_written",
    "Iges.Props.Flags.C22_destroy_reports",
    "Iges.Props.Flags.C22_fails_two_owners"
   ],
   "note": "Every history of legal calls in which a flag variable is attached to at most one live entity at a time; a variable attached to two entities is cleared when the first goes (C22_fails_two_owners)."
  },
  {
   "property": "C23",
   "status": "partial",
   "theorems": [
    "Iges.Props.Lists.C23_no_duplicates_partial",
    "Iges.Props.Lists.C23_single_model",
    "Iges.Props.Lists.C23_add_present",
    "Iges.Props.Lists.C23_add_absent",
    "Iges.Props.Lists.C23_unlink_exact",
    "Iges.Props.Lists.C23_unlink_absent",
    "Iges.Props.Lists.C23_del_exact",
    "Iges.Props.Lists.C23_del_absent",
    "Iges.Props.Lists.C23_fails_address_reuse"
   ],
   "note": "Every program that works with one model (C23_single_model); with several models, every program that keeps each entity in one of them. An entity put into a second model leads to a duplicate (C23_fails_address_reuse). Adding a present entity changes nothing; deletion and unlinking remove exactly the entity."
  },
  {
   "property": "C24",
   "status": "partial",
   "theorems": [
    "Iges.Props.Cull.C24_cull_partial",
    "Iges.Props.Cull.C24_cull_ordered_partial",
    "Iges.Props.Cull.C24_cull_repeated_partial",
    "Iges.Props.Cull.C24_fails_orphan_left",
    "Iges.Props.Cull.C24_fails_needed_removed",
    "Iges.Props.C24_after_read_partial"
   ],
   "note": "Every reached state in which every entity in use is complete: one pass removes only useless entities and keeps the order; no useless one is left if users come before what they use, or after as many passes as there are entities. One pass may leave an orphan (C24_fails_orphan_left), and an incomplete entity is removed although another needs it (C24_fails_needed_removed). The pass at the end of Read is covered by C24_after_read_partial."
  },
  {
   "property": "C25",
   "status": "partial",
   "theorems": [
    "Iges.Props.C25_refuses_nonempty",
    "Iges.Props.C25_failed_empty_partial",
    "Iges.Props.C25_failed_link_keeps_entities",
    "Iges.Props.C25_start_text_blocks"
   ],
   "note": "Refusal of a non-empty model for all calls; every failure before linking leaves no entities. A failure while linking keeps them (C25_failed_link_keeps_entities). Start text left in a model makes every later read fail (C25_start_text_blocks)."
  },
  {
   "property": "C26",
   "status": "partial",
   "theorems": [
    "Iges.Props.C26_existing_kept_partial",
    "Iges.Props.C26_write_only_overwritten",
    "Iges.Props.C26_empty_model_not_written",
    "Iges.Props.C26_unformattable_untouched",
    "Iges.Props.C26_no_dot_throws",
    "Iges.Props.C26_failed_write_destroys"
   ],
   "note": "An existing readable file is kept and an empty model is never written, for all calls. A file that can be written but not read is replaced without permission (C26_write_only_overwritten); a path without a dot or an attribute too wide for its column is noticed after truncation (C26_no_dot_throws, C26_failed_write_destroys)."
  },
  {
   "property": "C27",
   "status": "partial",
   "theorems": [
    "Iges.Props.C27_counted_once_partial",
    "Iges.Props.C27_fails_absent_undefined",
    "Iges.Props.C27_fails_absent_removes_other"
   ],
   "note": "All states and pairs of entities for registering; removal of an absent user only without optional pointers, otherwise it fails (C27_fails_absent_undefined, C27_fails_absent_removes_other)."
  },
  {
   "property": "C28",
   "status": "partial",
   "theorems": [
    "Iges.Props.C28_fails_subfigure_self",
    "Iges.Props.C28_fails_boolean_tree_self",
    "Iges.Props.C28_fails_property_self",
    "Iges.Props.C28_fails_transform_circle",
    "Iges.Props.C28_no_self_reference_partial",
    "Iges.Props.C28_fails_file"
   ],
   "note": "Every state reached by legal and careful calls; AddDE, AddArg and AddOptionalEntity accept the entity itself (C28_fails_subfigure_self, C28_fails_boolean_tree_self, C28_fails_property_self) and matrices can form a circle (C28_fails_transform_circle); a file may do the same (C28_fails_file)."
  },
  {
   "property": "C29",
   "status": "partial",
   "theorems": [
    "Iges.Props.C29_arc_partial",
    "Iges.Props.C29_line",
    "Iges.Props.C29_conic",
    "Iges.Props.C29_transform",
    "Iges.Props.C29_revolution",
    "Iges.Props.C29_tabulated",
    "Iges.Props.C29_cylinder",
    "Iges.Props.C29_extrusion",
    "Iges.Props.C29_arc_refused",
    "Iges.Props.Ranges.C29_colour_range",
    "Iges.Props.Ranges.C29_colour_written"
   ],
   "note": "Lines, conics, transforms, surfaces of revolution, tabulated cylinders, cylinders and extrusions: all values up to 1e300 (unit axis where one is required). Arcs only with some distance from the reader's consistency check; C29_arc_refused is an arc with equal radii that is written and refused."
  },
  {
   "property": "C30",
   "status": "partial",
   "theorems": [
    "Iges.Props.C30_subfigure_instance",
    "Iges.Props.C30_colour_partial",
    "Iges.Props.C30_name",
    "Iges.Props.C30_colour_extras_misread",
    "Iges.Props.C30_long_colour_name_not_written",
    "Iges.Props.C30_composite",
    "Iges.Props.C30_composite_empty_not_written",
    "Iges.Props.C30_surface_curve",
    "Iges.Props.C30_trimmed_partial",
    "Iges.Props.C30_trimmed_without_boundary_refused",
    "Iges.Props.C30_solid_partial",
    "Iges.Props.C30_face",
    "Iges.Props.C30_shell",
    "Iges.Props.C30_solid_voids_refused",
    "Iges.Props.C30_subfigure",
    "Iges.Props.C30_edge_list",
    "Iges.Props.C30_empty_lists_undefined",
    "Iges.Props.C30_loop_without_curves_undefined",
    "Iges.Props.C30_loop_lost",
    "Iges.Props.C30_vertex_list"
   ],
   "note": "Composite curves, curves on surfaces, faces, shells, subfigure definitions and instances, vertex lists, edge lists and names, for all contents. Trimmed surfaces only with an outer boundary (C30_trimmed_without_boundary_refused), solids only without voids (C30_solid_voids_refused). Loops fail: undefined if an edge has no parameter curve (C30_loop_without_curves_undefined), never read back otherwise (C30_loop_lost, last edge with one curve). Colours with optional pointers but no name are misread (C30_colour_extras_misread), long colour names are not written at all (C30_long_colour_name_not_written)."
  },
  {
   "property": "C31",
   "status": "partial",
   "theorems": [
    "Iges.Props.C31_every_tree_refused",
    "Iges.Props.C31_written_partial"
   ],
   "note": "False for every tree: what is written is refused on reading (C31_every_tree_refused). Proved part: the codes written are those of the nodes in order (C31_written_partial)."
  },
  {
   "property": "C32",
   "status": "partial",
   "theorems": [
    "Iges.Props.Ranges.C32_operator_accepted",
    "Iges.Props.Ranges.C32_operators_known",
    "Iges.Props.TreeBuild.C32_written_partial",
    "Iges.Props.TreeBuild.C32_read_partial",
    "Iges.Props.TreeBuild.C32_fails_read",
    "Iges.Props.TreeBuild.C32_starts_with_operands",
    "Iges.Props.TreeBuild.C32_careful_partial",
    "Iges.Props.TreeBuild.C32_no_good_tree_refused",
    "Iges.Props.TreeBuild.C32_fails_underflow",
    "Iges.Props.TreeBuild.C32_fails_rebuild",
    "Iges.Props.TreeBuild.C32_lost_operand"
   ],
   "note": "All call sequences: the list starts with two operands; a written tree without underflow describes one solid, and so does every written tree of a caller that adds operators only when two results wait. The library itself accepts operators that lack an operand (C32_fails_underflow, C32_fails_read); destroying an operand makes the others unusable in this tree (C32_lost_operand)."
  },
  {
   "property": "C33",
   "status": "partial",
   "theorems": [
    "Iges.Props.C33_set_curve",
    "Iges.Props.C33_set_curve_refused",
    "Iges.Props.C33_refused_range_breaks_curve",
    "Iges.Props.C33_sizes_partial",
    "Iges.Props.C33_get_undefined",
    "Iges.Props.C33_read_curve",
    "Iges.Props.C33_curve",
    "Iges.Props.C33_small_weight_refused",
    "Iges.Props.C33_set_surface",
    "Iges.Props.C33_get_surface_undefined",
    "Iges.Props.C33_refused_range_breaks_surface",
    "Iges.Props.C33_read_surface",
    "Iges.Props.C33_surface",
    "Iges.Props.Ranges.C33_set_curve_range",
    "Iges.Props.Ranges.C33_set_surface_range"
   ],
   "note": "Sizes agree after every accepted SetNURBSData and after every successful read; curves and surfaces with consistent data and weights of at least 1e-8 round trip. Smaller weights are accepted but the file is refused (C33_small_weight_refused); a call refused for its range leaves sizes and arrays inconsistent (C33_refused_range_breaks_curve/_surface); GetNURBSData is undefined whenever there are data (C33_get_undefined)."
  },
  {
   "property": "C34",
   "status": "partial",
   "theorems": [
    "Iges.Props.Composite.C34_destroy",
    "Iges.Props.Composite.C34_careful_partial",
    "Iges.Props.Composite.C34_closed_refuses",
    "Iges.Props.Composite.C34_not_past_closing",
    "Iges.Props.Composite.C34_fails_gap",
    "Iges.Props.Composite.C34_read_partial",
    "Iges.Props.Composite.C34_fails_read",
    "Iges.Props.Ranges.C34_closed_meets",
    "Iges.Props.Ranges.C34_closed_found"
   ],
   "note": "All sequences of additions and destructions: connected for callers that compare with GetEndPoint; destroying a segment opens no gap; nothing is added to a closed curve. The library accepts any gap, when building and when reading (C34_fails_gap, C34_fails_read)."
  },
  {
   "property": "C35",
   "status": "partial",
   "theorems": [
    "Iges.Props.Depth.C35_depth_partial",
    "Iges.Props.Depth.C35_depth_step_partial",
    "Iges.Props.Depth.C35_depth_finite_partial",
    "Iges.Props.Depth.C35_circle_never_returns",
    "Iges.Props.Depth.C35_fails_circle",
    "Iges.Props.Depth.C35_fails_empty_instance"
   ],
   "note": "Every heap in which instances have their definition: the depth is that of the longest descent, one more than the largest depth contained, and it is found whenever descents are bounded. The API can make a circular definition, for which the computation never returns (C35_fails_circle); an instance without definition counts one (C35_fails_empty_instance)."
  },
  {
   "property": "C36",
   "status": "partial",
   "theorems": [
    "Iges.Props.C36_product_is_composition",
    "Iges.Props.C36_associative",
    "Iges.Props.C36_identity",
    "Iges.Props.C36_action_faithful",
    "Iges.Props.C36_overall_transform_partial",
    "Iges.Props.C36_cycle_never_returns",
    "Iges.Props.C36_rescale_offset"
   ],
   "note": "Composition, associativity and identity over any commutative ring; the overall transform of an entity on a finite chain. A cycle of transforms makes the query recurse without end (C36_cycle_never_returns)."
  },
  {
   "property": "C37",
   "status": "partial",
   "theorems": [
    "Iges.Props.C37_any_form_accepted",
    "Iges.Props.C37_legal_forms_accepted_partial"
   ],
   "note": "The check is a disjunction that is always true: every form number is accepted (C37_any_form_accepted)."
  },
  {
   "property": "C38",
   "status": "proved",
   "theorems": [
    "Iges.Props.C38_classification",
    "Iges.Props.C38_scale_invariant"
   ],
   "note": "Exact arithmetic over the rationals."
  },
  {
   "property": "C39",
   "status": "partial",
   "theorems": [
    "Iges.Props.C39_rescale_residue",
    "Iges.Props.C39_end_point_leaves_conic",
    "Iges.Props.C39_homogeneous_partial"
   ],
   "note": "The coefficients are scaled with the wrong powers; C39_rescale_residue gives the exact residue and C39_end_point_leaves_conic a conic whose end points leave it. Holds for conics without linear and constant terms."
  },
  {
   "property": "C40",
   "status": "partial",
   "theorems": [
    "Iges.Props.C40_radius_repair_hits_height",
    "Iges.Props.C40_height_repaired_partial"
   ],
   "note": "A height below the resolution is replaced by it; a radius below the resolution replaces the height instead (C40_radius_repair_hits_height)."
  },
  {
   "property": "C41",
   "status": "partial",
   "theorems": [
    "Iges.Props.C41_vertex_list_shared_partial"
   ],
   "note": "Every reached state; deleting a vertex list in use is undefined (C21_fails_vertex_list)."
  },
  {
   "property": "C42",
   "status": "partial",
   "theorems": [
    "Iges.Props.Attr.C42_observed_partial",
    "Iges.Props.Attr.C42_exclusive",
    "Iges.Props.Attr.C42_frame",
    "Iges.Props.Attr.C42_label",
    "Iges.Props.Attr.C42_weight",
    "Iges.Props.Attr.C42_fails_ignored",
    "Iges.Props.Attr.C42_fails_view",
    "Iges.Props.Attr.C42_fails_labelAssoc",
    "Iges.Props.Attr.C42_fails_colorEnt",
    "Iges.Props.Attr.C42_refused_number",
    "Iges.Props.Tighten.C42_entity_refused"
   ],
   "note": "All classes, states and values: what the working setters set is observed, no setter changes another attribute. Setters that report success without effect (C42_fails_ignored), views that cannot be set (C42_fails_view), label associations and colour entities that are never observed (C42_fails_labelAssoc, C42_fails_colorEnt); labels are cut to eight characters and line weights to the largest of the model."
  },
  {
   "property": "C43",
   "status": "partial",
   "theorems": [
    "Iges.Props.C43_comment_refused",
    "Iges.Props.C43_pointers_kept",
    "Iges.Props.C43_optional_pointers_partial",
    "Iges.Props.Tighten.C43_comment_columns",
    "Iges.Props.Tighten.C43_comments_taken"
   ],
   "note": "Optional pointers are read back for every entity type proved under C29/C30; every entity with a short first comment is refused on reading (C43_comment_refused)."
  },
  {
   "property": "C44",
   "status": "partial",
   "theorems": [
    "Iges.Props.C44_text_kept_partial",
    "Iges.Props.C44_texts_in_order_partial",
    "Iges.Props.C44_full_line_dropped",
    "Iges.Props.C44_header_roundtrip",
    "Iges.Props.C44_default_line",
    "Iges.Props.Tighten.C44_no_gaps"
   ],
   "note": "Every text whose length is not exactly 72 is kept, in order, and survives write and read; a text of exactly 72 columns is dropped (C44_full_line_dropped)."
  },
  {
   "property": "C45",
   "status": "partial",
   "theorems": [
    "Iges.Props.C45_written_name_partial",
    "Iges.Props.C45_query_reports_next_unit",
    "Iges.Props.C45_query_wrong"
   ],
   "note": "The name written to the file is the right one for every unit; the query GetUnitName reports the name of the next unit (C45_query_reports_next_unit, C45_query_wrong)."
  },
  {
   "property": "C46",
   "status": "partial",
   "theorems": [
    "Iges.Props.C46_distinct_iff_seconds_distinct_partial",
    "Iges.Props.C46_part_ne_assembly",
    "Iges.Props.C46_same_second_same_name"
   ],
   "note": "Names are distinct exactly when the calls fall in different seconds (C46_distinct_iff_seconds_distinct_partial); two calls in one second collide (C46_same_second_same_name)."
  },
  {
   "property": "C47",
   "status": "partial",
   "theorems": [
    "Iges.Props.C47_globals_roundtrip_partial",
    "Iges.Props.C47_line_width_lost",
    "Iges.Props.C47_fine_resolution_written_zero",
    "Iges.Props.C47_resolution_positive",
    "Iges.Props.C47_new_partial"
   ],
   "note": "All parameters of legal global data except the line width (C47_line_width_lost); empty product and system names become none; resolutions in [1e-12,1e-8) are written as zero (C47_fine_resolution_written_zero) and refused (C47_resolution_positive)."
  },
  {
   "property": "C48",
   "status": "partial",
   "theorems": [
    "Iges.Props.C48_queries_partial",
    "Iges.Props.C48_no_dot_throws",
    "Iges.Props.C48_set_extension_partial",
    "Iges.Props.C48_set_extension_after_query",
    "Iges.Props.C48_set_extension_leading_dot",
    "Iges.Props.C48_append_reports_failure"
   ],
   "note": "All paths holding a dot (or ending in a separator), all orders of queries, and SetExtension before any query; the base name of a path without a dot throws (C48_no_dot_throws), SetExtension misbehaves after a query or with a leading dot, and Append reports failure on success."
  },
  {
   "property": "C49",
   "status": "proved",
   "theorems": [
    "Iges.Props.C49_native_path",
    "Iges.Props.C49_no_foreign_separator"
   ],
   "note": "All strings."
  },
  {
   "property": "C50",
   "status": "partial",
   "theorems": [
    "Iges.Props.Wrap.C50_never_stale_partial",
    "Iges.Props.Wrap.C50_end_noticed_partial",
    "Iges.Props.Wrap.C50_isValid_partial",
    "Iges.Props.Wrap.C50_attach_same_type_partial",
    "Iges.Props.Wrap.C50_fails_curve_on_plane",
    "Iges.Props.Wrap.C50_fails_segment_wall",
    "Iges.Props.Wrap.C50_segment_wall_always_refused",
    "Iges.Props.Wrap.C50_fails_copy",
    "Iges.Props.Wrap.C50_fails_parent_flag_uninitialised"
   ],
   "note": "Every history of legal calls that avoids four misuses, each with a counterexample: the guard of the outline wrapper lets stale handles through (C50_fails_curve_on_plane), the next one refuses every valid handle (C50_fails_segment_wall, C50_segment_wall_always_refused), copying a wrapper (C50_fails_copy) and a wrapper created without a model (C50_fails_parent_flag_uninitialised)."
  },
  {
   "property": "C51",
   "status": "proved",
   "theorems": [
    "Iges.Props.C51_match_iff",
    "Iges.Props.C51_match_far_iff",
    "Iges.Props.C51_reflexive",
    "Iges.Props.C51_symmetric",
    "Iges.Props.C51_tolerance"
   ],
   "note": "Exact arithmetic over the reals; rounding of double arithmetic is not modelled."
  },
  {
   "property": "C52",
   "status": "partial",
   "theorems": [
    "Iges.Props.Export.C52_export_partial",
    "Iges.Props.Export.C52_nothing",
    "Iges.Props.Export.C52_fails_nothing_moved",
    "Iges.Props.Export.C52_fails_self"
   ],
   "note": "Every reached state and every pair of different models: all entities are moved once, references stay, the new definition refers to exactly the packaged ones. Nothing is moved when there is nothing to package (C52_fails_nothing_moved); a model exported into itself loses everything (C52_fails_self). Units, scale and line weights are not part of this model."
  },
  {
   "property": "C53",
   "status": "partial",
   "theorems": [
    "Iges.Props.C53_unit_length",
    "Iges.Props.C53_direction_kept",
    "Iges.Props.C53_perpendicular",
    "Iges.Props.C53_degenerate_not_perpendicular"
   ],
   "note": "Exact arithmetic over the reals; degenerate triangles get the z direction (C53_degenerate_not_perpendicular)."
  },
  {
   "property": "C54",
   "status": "partial",
   "theorems": [
    "Iges.Props.Lists.C54_one_model_partial",
    "Iges.Props.Lists.C54_teardown_partial",
    "Iges.Props.Lists.C54_adopted",
    "Iges.Props.Lists.C54_fails_two_models",
    "Iges.Props.Lists.C54_fails_two_models_setter",
    "Iges.Props.Lists.C54_fails_teardown",
    "Iges.Props.Lists.C54_fails_unlinked"
   ],
   "note": "Every program that keeps each entity in one model; adoption for all calls. AddEntity and the setters leave the entity in its old model, so that it is destroyed twice (C54_fails_two_models, C54_fails_two_models_setter); destroying a model is undefined if a vertex list comes before its edge list (C54_fails_teardown); an unlinked entity is not adopted again (C54_fails_unlinked)."
  },
  {
   "property": "C55",
   "status": "partial",
   "theorems": [
    "Iges.Props.C55_whole_file_partial",
    "Iges.Props.C55_pointers_partial",
    "Iges.Props.C55_case_pointers",
    "Iges.Props.C55_new_partial"
   ],
   "note": "All five sections, for every model whose entities are legal (lines, arcs, conics, transforms, lists, colours, names and so on, any number and order). The pointers come back too, if they are in order (C55_pointers_partial). Models that were never read have no date and come back with that of the writing (C55_new_partial). Entities whose own round trip fails (C30, C31, C43) are not legal."
  },
  {
   "property": "C56",
   "status": "proved",
   "theorems": [
    "Iges.Props.C56_pointers_of_the_file",
    "Iges.Props.C56_curve_twice_once"
   ],
   "note": "Every list of records that comes from a file, of any size; the exact pointers are given by Spec/Link.lean. Geometric conditions (closed curves of extrusions, end points of composite curves) are parameters. C56_curve_twice_once shows one of the exceptions named in the property."
  },
  {
   "property": "C57",
   "status": "partial",
   "theorems": [
    "Iges.Props.C57_users_after_read_partial",
    "Iges.Props.C57_fails_face_twice"
   ],
   "note": "Every file in which no solid, face or shell lists a part twice; such a file is accepted and leaves a dangling pointer behind (C57_fails_face_twice)."
  },
  {
   "property": "C58",
   "status": "partial",
   "theorems": [
    "Iges.Props.C58_fails_self_pointer",
    "Iges.Props.C58_fails_vertex_pointer",
    "Iges.Props.C58_fails_clear",
    "Iges.Props.C58_fails_clear_solid",
    "Iges.Props.C58_linking_defined_partial"
   ],
   "note": "Defined for every file without optional pointers in which no directory entry points at its own entity, vertex pointers of edge lists lead to vertex lists and part lists have no negative numbers. Directory pointers to the entity itself and wrong vertex pointers are undefined (C58_fails_self_pointer, C58_fails_vertex_pointer); clearing is undefined after a failed read (C58_fails_clear) and even after a successful read of an ordinary solid (C58_fails_clear_solid)."
  },
  {
   "property": "C59",
   "status": "proved",
   "theorems": [
    "Iges.Props.C59_pointers_typed"
   ],
   "note": "Every list of records that comes from a file; what is allowed where is given by Spec/Link.lean, which also shows the few places without a check (curves on surfaces, edges and curves of loops, members of subfigures)."
  },
  {
   "property": "C60",
   "status": "proved",
   "theorems": [
    "Iges.Props.C60_read_accepts",
    "Iges.Props.C60_case_solid"
   ],
   "note": "Every file with readable records whose pointers are in order (Spec/Accept.lean), with any number of entities. Geometric conditions (closed curves of extrusions, end points of composite curves) are parameters."
  },
  {
   "property": "C61",
   "status": "partial",
   "theorems": [
    "Iges.Props.C61_box_inverted",
    "Iges.Props.C61_line_points",
    "Iges.Props.C61_arc_points",
    "Iges.Props.C61_circle_points",
    "Iges.Props.C61_arc_accepted",
    "Iges.Props.C61_box",
    "Iges.Props.C61_reverse",
    "Iges.Props.C61_reverse_ends",
    "Iges.Props.C61_midpoint",
    "Iges.Props.C61_length"
   ],
   "note": "Every segment made by any sequence of definitions, reversals and splits, in exact arithmetic. The box holds within the stated tolerance of 1e-8 for lines and arcs; a line that is almost vertical gets an inverted box (C61_box_inverted)."
  },
  {
   "property": "C62",
   "status": "partial",
   "theorems": [
    "Iges.Props.C62_meet",
    "Iges.Props.C62_meet_iff",
    "Iges.Props.C62_flag",
    "Iges.Props.C62_order",
    "Iges.Props.C62_crossing_missed"
   ],
   "note": "All pairs of circles, in exact arithmetic; circles that cross so little that they overlap by less than 0.001 are reported as touching (C62_crossing_missed)."
  },
  {
   "property": "C63",
   "status": "partial",
   "theorems": [
    "Iges.Props.C63_meet",
    "Iges.Props.C63_parallel",
    "Iges.Props.C63_overlap_missed",
    "Iges.Props.C63_short_missed",
    "Iges.Props.C63_consecutive_edge"
   ],
   "note": "All pairs of lines that are clearly not parallel, and all clearly separate parallel ones. A line within another one is missed (C63_overlap_missed), short crossing lines are missed (C63_short_missed), consecutive lines count as an edge (C63_consecutive_edge)."
  },
  {
   "property": "C64",
   "status": "partial",
   "theorems": [
    "Iges.Props.C64_line_arc_wrong",
    "Iges.Props.C64_circle_arc_missed",
    "Iges.Props.C64_circle_arc_wrong",
    "Iges.Props.C64_circle_line",
    "Iges.Props.C64_arc_line",
    "Iges.Props.C64_line_arc_partial",
    "Iges.Props.C64_arc_circle"
   ],
   "note": "Circle and line in either order, an arc asked about a line (within 1e-14 at its ends) and an arc asked about a circle, away from tangency. A line asked about an arc may report its own end (C64_line_arc_wrong, C64_line_arc_partial); circle and arc, and two arcs, compare directions about one centre with angles about the other (C64_circle_arc_missed, C64_circle_arc_wrong)."
  },
  {
   "property": "C65",
   "status": "partial",
   "theorems": [
    "Iges.Props.C65_line_empty_piece",
    "Iges.Props.C65_arc_outside",
    "Iges.Props.C65_circle_lost",
    "Iges.Props.C65_arc",
    "Iges.Props.C65_arc_taken",
    "Iges.Props.C65_arc_accepts",
    "Iges.Props.C65_circle",
    "Iges.Props.C65_line",
    "Iges.Props.C65_line_accepts",
    "Iges.Props.C65_circle_accepts",
    "Iges.Props.C65_refused"
   ],
   "note": "All lines split at points that do not match each other, all arcs split at points in directions of the arc, all circles split at points in different directions. Other inputs break it: C65_line_empty_piece, C65_arc_outside (arcs with angles above pi, left by a previous split), C65_circle_lost."
  },
  {
   "property": "C66",
   "status": "partial",
   "theorems": [
    "Iges.Props.C66_cylinder_partial",
    "Iges.Props.C66_extrusion_partial",
    "Iges.Props.C66_instance",
    "Iges.Props.C66_cylinder_empty_refused",
    "Iges.Props.C66_extrusion_end_wrong"
   ],
   "note": "All combinations of empty and missing fields for instances; for cylinders unless the field of the last axis component is empty, which is refused (C66_cylinder_empty_refused); for extrusions unless the record ends before the last component of a direction that is not (0,0,1) (C66_extrusion_end_wrong)."
  },
  {
   "property": "C67",
   "status": "partial",
   "theorems": [
    "Iges.Props.Outlines.C67_accepts",
    "Iges.Props.Outlines.C67_refused",
    "Iges.Props.Outlines.C67_chain",
    "Iges.Props.Outlines.C67_drawable",
    "Iges.Props.Outlines.C67_contiguous",
    "Iges.Props.Outlines.C67_contents",
    "Iges.Props.Outlines.C67_box",
    "Iges.Props.Outlines.C67_orientation_partial",
    "Iges.Props.Outlines.C67_orientation_lines",
    "Iges.Props.Outlines.C67_orientation_wrong"
   ],
   "note": "Every history of calls, in exact arithmetic. Outlines of straight lines always end up counterclockwise (C67_orientation_lines); with arcs only if the polygon over ends and midpoints runs the same way (C67_orientation_partial); an arch is turned the wrong way (C67_orientation_wrong). The box holds within the tolerance of the boxes of the segments."
  },
  {
   "property": "C68",
   "status": "partial",
   "theorems": [
    "Iges.Props.Inside.C68_inside_partial",
    "Iges.Props.Inside.C68_error",
    "Iges.Props.Inside.C68_circle_partial",
    "Iges.Props.Inside.C68_edge_outside",
    "Iges.Props.Inside.C68_beside_circle",
    "Iges.Props.Inside.C68_circle",
    "Iges.Props.InsideCorner.C68_corner_partial"
   ],
   "note": "Points of the bounding box in general position: not close to the outline and not at the height of a corner or of the top or bottom of a circle; for polygons also points at the height of corners (C68_corner_partial); for an outline that is one circle every point of the plane off the circle except those beside its top or bottom (C68_circle); coordinates up to ten million; exact arithmetic. Errors in full. A point on the bottom side of a square is reported outside (C68_edge_outside), a point beside the top of a circle inside (C68_beside_circle)."
  },
  {
   "property": "C69",
   "status": "partial",
   "theorems": [
    "Iges.Props.Walls.C69_board_made",
    "Iges.Props.Walls.C69_board",
    "Iges.Props.Walls.C69_board_facing",
    "Iges.Props.Walls.C69_circle_made",
    "Iges.Props.Walls.C69_thin",
    "Iges.Props.Walls.C69_thin_hole",
    "Iges.Props.Walls.C69_wall",
    "Iges.Props.Walls.C69_wall_exact",
    "Iges.Props.Walls.C69_line_made",
    "Iges.Props.Walls.C69_arc_made",
    "Iges.Props.Walls.C69_boundary",
    "Iges.Props.Walls.C69_half_turn",
    "Iges.Props.Walls.C69_facing",
    "Iges.Props.Walls.C69_facing_upside_down"
   ],
   "note": "Contents, boundaries and the facing side for every pair of heights with the first one greater, up to the tolerance of the ends of an arc. Creating an entity is assumed to succeed. What fails: heights that differ by less than 0.001 are refused for arcs and circles and accepted for lines (C69_thin_hole); with the heights swapped the straight walls face the other way and the curved ones do not (C69_facing_upside_down). Arcs whose ends match within 1e-8 are excluded."
  },
  {
   "property": "C70",
   "status": "partial",
   "theorems": [
    "Iges.Props.Face.C70_face_made",
    "Iges.Props.Face.C70_face_partial",
    "Iges.Props.Face.C70_curves_wrong",
    "Iges.Props.Face.C70_set_arc",
    "Iges.Props.Face.C70_curves_run",
    "Iges.Props.Face.C70_curves_fit_partial",
    "Iges.Props.Face.C70_plane_fit",
    "Iges.Props.Face.C70_plane_run"
   ],
   "note": "Curves in the parameter plane for all segments, curves in space for all but the arcs that run counterclockwise and start beyond half a turn: those come out as the whole circle (C70_curves_wrong). Up to the tolerance of the ends of an arc. The bounding box must have a width. Creating entities is assumed to succeed, and SISL to do what its manual says."
  },
  {
   "property": "C71",
   "status": "partial",
   "theorems": [
    "Iges.Props.IdfLoop.C71_loop",
    "Iges.Props.IdfLoop.C71_undefined",
    "Iges.Props.IdfLoop.C71_progress",
    "Iges.Props.IdfLoop.C71_leftmost",
    "Iges.Props.IdfLoop.C71_polygon",
    "Iges.Props.IdfLoop.C71_direction",
    "Iges.Props.IdfLoop.C71_depends_on_direction"
   ],
   "note": "All lists, in exact arithmetic. Two sides of a triangle are closed by the third or thrown away depending on how they were drawn (C71_depends_on_direction). IsCCW in full for straight lines only; an empty list is undefined behaviour (C71_undefined)."
  },
  {
   "property": "C72",
   "status": "proved",
   "theorems": [
    "Iges.Props.IdfArc.C72_arc",
    "Iges.Props.IdfArc.C72_circle",
    "Iges.Props.IdfArc.C72_kicad",
    "Iges.Props.IdfArc.C72_minx",
    "Iges.Props.IdfArc.C72_swap"
   ],
   "note": "Exact arithmetic over the reals; the truncation of angles to a ten-thousandth of a degree is modelled."
  },
  {
   "property": "C73",
   "status": "partial",
   "theorems": [
    "Iges.Props.IdfWords.C73_prefix",
    "Iges.Props.IdfWords.C73_none",
    "Iges.Props.IdfWords.C73_bare_exponent",
    "Iges.Props.IdfWords.C73_word",
    "Iges.Props.IdfWords.C73_unique",
    "Iges.Props.IdfWords.C73_written",
    "Iges.Props.IdfWords.C73_line",
    "Iges.Props.IdfWords.C73_number",
    "Iges.Props.IdfWords.C73_junk"
   ],
   "note": "All texts. A word that only begins like a number is taken for that number, whatever follows (C73_prefix for all words with their exponents, C73_junk); a word without a digit is refused (C73_none), and so is one in which the letter e follows the number (C73_bare_exponent)."
  },
  {
   "property": "C74",
   "status": "partial",
   "theorems": [
    "Iges.Props.IdfNotes.C74_words",
    "Iges.Props.IdfNotes.C74_roundtrip",
    "Iges.Props.IdfNotes.C74_stable",
    "Iges.Props.IdfNotes.C74_quote_lost",
    "Iges.Props.IdfNotes.C74_newline_refused"
   ],
   "note": "Texts without quote marks and line ends, numbers up to 1e300. A quote mark cuts the text (C74_quote_lost), a line end makes the file unreadable (C74_newline_refused). Which texts are read, and as what: C74_words."
  },
  {
   "property": "C75",
   "status": "partial",
   "theorems": [
    "Iges.Props.IdfDrill.C75_roundtrip",
    "Iges.Props.IdfDrill.C75_made",
    "Iges.Props.IdfDrill.C75_name_becomes_keyword",
    "Iges.Props.IdfDrill.C75_tiny_unreadable",
    "Iges.Props.IdfDrill.C75_quote_refused",
    "Iges.Props.IdfDrill.C75_bounds",
    "Iges.Props.IdfDrill.C75_words",
    "Iges.Props.IdfDrill.C75_section",
    "Iges.Props.IdfDrill.C75_least_differs"
   ],
   "note": "Version 3; names without quote marks and line ends that are not keywords in any case; diameters of 0.3 mm or more. Reading is right for all records of both versions (C75_words) and for whole sections (C75_section). The least diameter depends on the unit (C75_least_differs). Otherwise: C75_name_becomes_keyword, C75_quote_refused, C75_tiny_unreadable."
  },
  {
   "property": "C76",
   "status": "partial",
   "theorems": [
    "Iges.Props.IdfPlace.C76_roundtrip_partial",
    "Iges.Props.IdfPlace.C76_first",
    "Iges.Props.IdfPlace.C76_bottom_mirrored",
    "Iges.Props.IdfPlace.C76_bottom_turned",
    "Iges.Props.IdfPlace.C76_space_cut",
    "Iges.Props.IdfPlace.C76_board_unreadable",
    "Iges.Props.IdfPlace.C76_unnamed_split",
    "Iges.Props.IdfPlace.C76_section_partial",
    "Iges.Props.IdfPlace.C76_words_partial",
    "Iges.Props.IdfPlace.C76_tnm_not_converted"
   ],
   "note": "Reading is right for all records of both versions in mm and thou (C76_words_partial) and for sections of new, named parts (C76_section_partial); in version 2 files in tens of nanometres the positions of parts are not converted although those of holes are (C76_tnm_not_converted). Writing and reading: version 3, mm and thou. On the bottom side only outlines without offset in x and without angle; others are mirrored (C76_bottom_mirrored, C76_bottom_turned). Names without white space that are not reserved; otherwise C76_space_cut, C76_board_unreadable, C76_unnamed_split."
  },
  {
   "property": "C77",
   "status": "partial",
   "theorems": [
    "Iges.Props.IdfOwner.C77_locked_partial",
    "Iges.Props.IdfOwner.C77_refused",
    "Iges.Props.IdfOwner.C77_allowed",
    "Iges.Props.IdfOwner.C77_position_once",
    "Iges.Props.IdfOwner.C77_board_holes",
    "Iges.Props.IdfOwner.C77_board_hole_deleted",
    "Iges.Props.IdfOwner.C77_outline_partial",
    "Iges.Props.IdfOwner.C77_outline_first",
    "Iges.Props.IdfOwner.C77_deleted_by_namesake",
    "Iges.Props.IdfOwner.C77_component_hole_deleted",
    "Iges.Props.IdfOwner.C77_outline_deleted",
    "Iges.Props.IdfOwner.C77_dangling",
    "Iges.Props.IdfOwner.C77_unplaced_stays"
   ],
   "note": "Components: unless DelComponent is called with a namesake (C77_deleted_by_namesake). Holes of the board: proved; holes of components are not protected by their owner (C77_component_hole_deleted). Outline: unless deleted, which is not checked (C77_outline_deleted)."
  },
  {
   "property": "C78",
   "status": "partial",
   "theorems": [
    "Iges.Props.IdfOutline.C78_roundtrip_partial",
    "Iges.Props.IdfOutline.C78_closed",
    "Iges.Props.IdfOutline.C78_polygon_robust",
    "Iges.Props.IdfOutline.C78_thin_board",
    "Iges.Props.IdfOutline.C78_comment_is_point",
    "Iges.Props.IdfOutline.C78_index_fraction",
    "Iges.Props.IdfOutline.C78_open_component",
    "Iges.Props.IdfOutline.C78_last_direction",
    "Iges.Props.IdfOutline.C78_write_defined",
    "Iges.Props.IdfOutline.C78_touching_refused",
    "Iges.Props.IdfOutline.C78_words",
    "Iges.Props.IdfOutline.C78_section"
   ],
   "note": "Round trip: thickness not printed as zero (C78_thin_board), no touching of the first point on the way (C78_touching_refused), angles not within a hundredth of a degree of zero or a full turn, direction not a matter of rounding (C78_polygon_robust for polygons). Accepted texts: proved for boards; the last outline may run either way (C78_last_direction), components with properties may be open (C78_open_component), comments are read as points (C78_comment_is_point). Which texts are read, and as what: C78_words and C78_section, in both versions and all units. Comments of the section are not modelled."
  },
  {
   "property": "C79",
   "status": "partial",
   "theorems": [
    "Iges.Props.IdfSections.C79_words",
    "Iges.Props.IdfSections.C79_roundtrip_partial",
    "Iges.Props.IdfSections.C79_other_unreadable",
    "Iges.Props.IdfSections.C79_place_unreadable",
    "Iges.Props.IdfSections.C79_keepout_unreadable",
    "Iges.Props.IdfSections.C79_accepts",
    "Iges.Props.IdfSections.C79_empty_lost",
    "Iges.Props.IdfSections.C79_no_side_refused",
    "Iges.Props.IdfSections.C79_end_line"
   ],
   "note": "The property is false for other outlines, which are never readable again (C79_other_unreadable), for placement outlines and keepouts without a height (C79_place_unreadable, C79_keepout_unreadable) and for sections without outlines, which are not written (C79_empty_lost). Otherwise proved for outlines that do not touch their first point on the way and have angles not within a hundredth of a degree of zero or a full turn. Which texts are read, and as what: C79_words, for all kinds of sections, in both versions and all units. Comments of the sections are in C80."
  },
  {
   "property": "C80",
   "status": "partial",
   "theorems": [
    "Iges.Props.IdfBoard.C80_roundtrip_partial",
    "Iges.Props.IdfBoard.C80_after_placement",
    "Iges.Props.IdfBoard.C80_last_line",
    "Iges.Props.IdfBoard.C80_junk_loses",
    "Iges.Props.IdfBoard.C80_needs_outline",
    "Iges.Props.IdfBoard.C80_comments_lost",
    "Iges.Props.IdfBoard.C80_unit_reversed",
    "Iges.Props.IdfBoard.C80_reading_adds"
   ],
   "note": "The round trip is proved for boards without other outlines (never readable, C79), with one outline per section and the conditions of C75, C76, C78 and C79 on the parts. Proved to be false: comments on placement or notes survive only with components or notes (C80_comments_lost); components with neither outline nor hole are not in the file (BoardBack.others); a line with one unknown word hides the shorter lines after it without an error (C80_junk_loses); a last line without a line end is not looked at (C80_last_line); WriteFile writes thousandths of an inch when asked for millimetres (C80_unit_reversed); reading twice doubles everything but the outline of the board (C80_reading_adds). The library file is not in this property."
  },
  {
   "property": "C81",
   "status": "partial",
   "theorems": [
    "Iges.Props.IdfLib.C81_roundtrip_partial",
    "Iges.Props.IdfLib.C81_unused_lost",
    "Iges.Props.IdfLib.C81_mechanical_props_lost",
    "Iges.Props.IdfLib.C81_files_partial",
    "Iges.Props.IdfLib.C81_reading",
    "Iges.Props.IdfLib.C81_comment_lost",
    "Iges.Props.IdfLib.C81_tnm",
    "Iges.Props.IdfLib.C81_second_dropped",
    "Iges.Props.IdfLib.C81_names_clash",
    "Iges.Props.IdfLib.C81_open_accepted",
    "Iges.Props.IdfLib.C81_tnm_example"
   ],
   "note": "The round trip is proved for the parts in use, in millimetres or thousandths of an inch, with names, words and properties the format can carry and at most one closed outline. Proved to be false of the code: parts not used are not written (C81_unused_lost); properties of mechanical parts are not written (C81_mechanical_props_lost); an empty comment drops the comments before it (C81_comment_lost); in version 2 the unit TNM is refused and any unknown word is taken for it (C81_tnm); a second part of the same unique name is dropped or makes the file unreadable, and different names can have the same unique name (C81_second_dropped, C81_names_clash); an open outline followed by a property is accepted (C81_open_accepted). The default outline that stands in for missing parts is not modelled beyond its name."
  },
  {
   "property": "C82",
   "status": "partial",
   "theorems": [
    "Iges.Props.C82_untouched",
    "Iges.Props.C82_refused",
    "Iges.Props.C82_contiguous_partial",
    "Iges.Props.C82_border",
    "Iges.Props.OutlineOps.C82_gap"
   ],
   "note": "Contiguity is proved when every arc of the outline meets the circle once at most and a line that meets it twice has the inside on its left; C82_gap proves it false of the code for an arc that meets the circle twice: the operation reports success, takes the wrong part of the arc away and leaves two gaps. That the new border encloses the difference or the union is C83. The bounding box is left out of date."
  },
  {
   "property": "C83",
   "status": "partial",
   "theorems": [
    "Iges.Props.C83_refused_edge",
    "Iges.Props.C83_edge",
    "Iges.Props.C83_region_partial",
    "Iges.Props.C83_inside",
    "Iges.Props.C83_circles",
    "Iges.Props.C83_circles_done",
    "Iges.Props.C83_circles_refused",
    "Iges.Props.C83_two_circles",
    "Iges.Props.C83_not_joined",
    "Iges.Props.C83_success_partial",
    "Iges.Props.C83_number",
    "Iges.Props.C83_one_side"
   ],
   "note": "Proved for circles that cross the border away from its corners, where GetIntersections finds the common points (C62, C64), IsInside is right about the two points of the circle halfway between them (C68), and an arc that the circle meets twice starts outside of the circle (C82_gap shows that it fails otherwise). That the operation succeeds under these conditions is proved for exactly two common points with the circle on both sides (C83_success_partial); another number of common points but none is an error (C83_number), so is a segment that runs along the circle (C83_edge), a circle that stays on one side is ignored without an error (C83_one_side). Outlines that are one circle: C83_two_circles gives the region for two circles that cross, C83_circles_refused the refusals for circles that are apart or nested, and C83_not_joined proves that the claim fails when a point halfway between the common points lies at the height of the top or bottom of the other circle: two overlapping circles are reported as not joined without an error. Circles through corners are not covered."
  },
  {
   "property": "C84",
   "status": "partial",
   "theorems": [
    "Iges.Props.C84_region_partial",
    "Iges.Props.C84_order",
    "Iges.Props.C84_success_partial",
    "Iges.Props.C84_number",
    "Iges.Props.C84_refused_edge",
    "Iges.Props.C84_edge",
    "Iges.Props.C84_refused",
    "Iges.Props.C84_apart",
    "Iges.Props.C84_kept_partial"
   ],
   "note": "Proved for outlines that cross in two points away from their corners, where GetIntersections finds the common points (C62, C64) and IsInside is right about the two midpoints it is asked about (C68). The order of the segments is proved for joining when no segment of the result runs clockwise, and for cutting out when no corner of the other outline is inside; C84_order is a drawn case in which SubOutline reports success and leaves an outline that is not contiguous. That the operations succeed under these conditions is proved for exactly two common points (C84_success_partial); any other number but none is an error that leaves both outlines alone (C84_number), and so are borders that run along each other from a common end on (C84_edge). Outlines with a circle and common points at corners are not covered."
  },
  {
   "property": "C85",
   "status": "partial",
   "theorems": [
    "Iges.Props.C85_refused",
    "Iges.Props.C85_unchecked",
    "Iges.Props.C85_region_partial",
    "Iges.Props.C85_hole_partial",
    "Iges.Props.C85_outside",
    "Iges.Props.C85_hole_twice",
    "Iges.Props.C85_hole_accepted_partial",
    "Iges.Props.C85_hole_refused",
    "Iges.Props.C85_round_partial"
   ],
   "note": "Refusals and the case without treatment of overlaps hold without conditions. With treatment of overlaps the region is proved for borders that are apart or cross in two points away from their corners, with the conditions of C84, and acceptance is proved too; for holes under the conditions of C83, in boards and cutouts that may also be one circle, with acceptance and, for a number of common points that is neither none nor two, the refusal. That cutouts stay apart and within the board needs the caller: C85_outside is a cutout outside of the board that is accepted, C85_hole_twice a hole accepted twice."
  },
  {
   "property": "C86",
   "status": "partial",
   "theorems": [
    "Iges.Idf.Placed.C86_transform",
    "Iges.Idf.Placed.C86_side",
    "Iges.Idf.Placed.C86_placed",
    "Iges.Idf.Placed.C86_unknown_part",
    "Iges.Idf.Placed.C86_crash"
   ],
   "note": "Proved for sections whose parts are all in the library. C86_unknown_part and C86_crash show what fails otherwise: the converter asks the reader not to make substitutes, so that a part that is not in the library leaves a null pointer, through which the converter then calls a function. Rounding of the sine and cosine is left out."
  },
  {
   "property": "C87",
   "status": "partial",
   "theorems": [
    "Iges.Props.C87_item",
    "Iges.Props.C87_outline_partial",
    "Iges.Props.C87_open",
    "Iges.Props.C87_repeated"
   ],
   "note": "C87_item and C87_outline_partial need: lines, arcs and circles that are longer (or of a larger radius) than the tolerance of the IGES library, and coordinates of at most ten kilometres. The property fails as stated: C87_open (reader and converter have different ideas of closed) and C87_repeated (a repeated point makes the conversion fail)."
  },
  {
   "property": "C88",
   "status": "partial",
   "theorems": [
    "Iges.Props.C88_bundle_partial",
    "Iges.Props.C88_board_partial",
    "Iges.Props.C88_hole",
    "Iges.Props.C88_bundles",
    "Iges.Props.C88_pair",
    "Iges.Props.C88_dangling",
    "Iges.Props.C88_lost"
   ],
   "note": "C88_bundles (which holes go together, none lost) is proved for all lists of holes any two of which cross or have no point in common. The region of a bundle and of the board (C88_bundle_partial, C88_board_partial) needs the conditions of C83 wherever a circle crosses an outline, and cutouts that are apart in the end. C88_lost and C88_dangling show that the property fails without such conditions: a hole listed twice makes the program drop holes that overlap each other, and two holes that overlap in an unlucky position leave a pointer to a deleted outline."
  },
  {
   "property": "C89",
   "status": "partial",
   "theorems": [
    "Iges.Props.C89_component",
    "Iges.Props.C89_board_partial",
    "Iges.Props.C89_counterclockwise",
    "Iges.Props.C89_open",
    "Iges.Props.C89_no_walls",
    "Iges.Props.C89_other_top",
    "Iges.Props.C89_other_bottom",
    "Iges.Props.C89_second_other",
    "Iges.Props.C89_list",
    "Iges.Props.C89_curves_unset"
   ],
   "note": "C89_component is proved for all outlines of lines, arcs and circles that are converted and closed, C89_counterclockwise for polygons, C89_list for all lists. The board is proved for segments that meet stated conditions (C89_board_partial). The property fails elsewhere: an outline that the reader takes for closed and the library does not gives an empty body (C89_open), a board thinner than 0.001 with a hole has no walls (C89_no_walls), both faces of an OTHER outline face the same way and below the board its straight walls face inwards (C89_other_top, C89_other_bottom), only the first OTHER outline is made (C89_second_other), and GetCurves of the wrapper hands over entries that are not set (C89_curves_unset)."
  },
  {
   "property": "C90",
   "status": "partial",
   "theorems": [
    "Iges.Props.IdfUse.C90_unused",
    "Iges.Props.IdfUse.C90_partial",
    "Iges.Props.IdfUse.C90_offsets_lost",
    "Iges.Props.IdfUse.C90_cleared_lost",
    "Iges.Props.IdfUse.C90_defined",
    "Iges.Props.IdfUse.C90_shared_record",
    "Iges.Props.IdfUse.C90_refused",
    "Iges.Props.IdfUse.C90_exchanged",
    "Iges.Props.IdfUse.C90_board"
   ],
   "note": "C90_unused (what is written is in use) is proved for all histories. The converse needs that no record is made by the constructor with offsets together with a part, which does not count the new user (C90_offsets_lost), and that no part is cleared while in use (C90_cleared_lost). C90_defined holds for all careful programs; a record that was given to two components is deleted twice (C90_shared_record)."
  },
  {
   "property": "C91",
   "status": "partial",
   "theorems": [
    "Iges.Props.ApiModel.C91_partial",
    "Iges.Props.ApiModel.C91_clear",
    "Iges.Props.ApiModel.C91_deleted",
    "Iges.Props.ApiModel.C91_unlinked",
    "Iges.Props.ApiModel.C91_new",
    "Iges.Props.ApiModel.C91_twice",
    "Iges.Props.ApiModel.C91_unsupported",
    "Iges.Props.ApiModel.C91_wrapper_deletes",
    "Iges.Props.ApiModel.C91_new_entity_undefined",
    "Iges.Props.ApiModel.C91_refused",
    "Iges.Props.ApiModel.C91_types",
    "Iges.Props.ApiModel.C91_not_listed",
    "Iges.Props.ApiModel.C91_attach"
   ],
   "note": "C91_partial holds for all careful programs. It fails for NewAPIEntity with a type that has no wrapper (C91_unsupported) and for DelEntity of a wrapper whose entity is listed (C91_wrapper_deletes): both leave a dangling pointer in the model. NewIGESEntity is always undefined (C91_new_entity_undefined). NewAPIEntity adds two entities (C91_new, C91_twice)."
  },
  {
   "property": "C92",
   "status": "partial",
   "theorems": [
    "Iges.Props.ApiGlobals.C92_partial",
    "Iges.Props.ApiGlobals.C92_reported",
    "Iges.Props.ApiGlobals.C92_receiver",
    "Iges.Props.ApiGlobals.C92_answers",
    "Iges.Props.ApiGlobals.C92_null_receiver_undefined",
    "Iges.Props.ApiGlobals.C92_no_model",
    "Iges.Props.ApiGlobals.C92_file",
    "Iges.Props.ApiGlobals.C92_fine_resolution_lost"
   ],
   "note": "C92_partial holds for all programs. Exceptions: the empty name of the receiver is reported as the sender's (C92_receiver), a null pointer for it is undefined (C92_null_receiver_undefined), and scaling changes the resolution. C92_file: all values that a file can hold come back, except the line width (C47_line_width_lost); empty names become \"none\"; resolutions below 1e-8 are accepted but written as zero (C92_fine_resolution_lost). Programs with conversions of units are not covered by C92_file."
  },
  {
   "property": "C93",
   "status": "partial",
   "theorems": [
    "Iges.Props.ExportScale.C93_partial",
    "Iges.Props.ExportScale.C93_units_ignored",
    "Iges.Props.ExportScale.C93_scale_ignored",
    "Iges.Props.ExportScale.C93_half_converted",
    "Iges.Props.ExportScale.C93_part_iff",
    "Iges.Props.ExportScale.C93_weights_lost",
    "Iges.Props.ExportScale.C93_weight_too_large",
    "Iges.Props.ExportScale.C93_kept_model_weights",
    "Iges.Props.ExportScale.C93_null_handle",
    "Iges.Props.ExportScale.C93_same_name",
    "Iges.Props.ExportScale.C93_nothing_to_do"
   ],
   "note": "C93_partial: all reachable states, units with a length, scales in range, entities that the code can scale (Sound). Not true in general: the answers of the conversions are not looked at, so that user defined units, a scale out of range or an unsupported entity give wrong sizes silently (C93_units_ignored, C93_scale_ignored, C93_half_converted). Weights keep their meaning only if the numbers of gradations divide (C93_part_iff); into fewer gradations all become 1 (C93_weights_lost). A model that is not exported because nothing can be packaged is changed nevertheless (C93_kept_model_weights). Names of parts made in one second are equal (C93_same_name)."
  },
  {
   "property": "C94",
   "status": "partial",
   "theorems": [
    "Iges.Props.IdfClear.C94_partial",
    "Iges.Props.IdfClear.C94_after_failure_partial",
    "Iges.Props.IdfClear.C94_history_partial",
    "Iges.Props.IdfClear.C94_comments_pile_up",
    "Iges.Props.IdfClear.C94_outline_stays"
   ],
   "note": "Proved for everything but the comments of the outline of the board (C94_partial, C94_after_failure_partial, C94_history_partial). Not true: Clear does not touch the outline of the board, so its comments stay in front of those of the next file and pile up (C94_comments_pile_up), and a board written after Clear has the old outline (C94_outline_stays)."
  },
  {
   "property": "C95",
   "status": "partial",
   "theorems": [
    "Iges.Props.IdfPart.C95_accepted",
    "Iges.Props.IdfPart.C95_partial",
    "Iges.Props.IdfPart.C95_again",
    "Iges.Props.IdfPart.C95_loaded",
    "Iges.Props.IdfPart.C95_roundtrip_partial",
    "Iges.Props.IdfPart.C95_version",
    "Iges.Props.IdfPart.C95_other_height",
    "Iges.Props.IdfPart.C95_other_names"
   ],
   "note": "Proved: what is accepted (C95_accepted), nothing is lost and NULL changes nothing (C95_partial), the same file gives the same outline after any calls (C95_again), a part written to a file is loaded from it (C95_roundtrip_partial, with the conditions of C81). Not true: an outline with the same corners is taken for the same, so that height, arcs, properties and names of the file may be those of another file (C95_other_height, C95_other_names); whether a part with properties can be loaded depends on the version of the board file read last (C95_version). File names are taken to be full names."
  },
  {
   "property": "C96",
   "status": "partial",
   "theorems": [
    "Iges.Props.IdfSlot.C96_refused",
    "Iges.Props.IdfSlot.C96_partial",
    "Iges.Props.IdfSlot.C96_clockwise",
    "Iges.Props.IdfSlot.C96_wide_lost"
   ],
   "note": "Proved for slots up to a metre wide (C96_partial, the border is exact, the ends of the segments meet to within a micrometre); the direction for slots that are not extremely small for their distance from the x axis (C96_clockwise). A slot a kilometre wide can lose half its outline while AddSlot reports success (C96_wide_lost): the angle of a cap is cut to four decimals and the next side is then refused by push."
  },
  {
   "property": "C97",
   "status": "partial",
   "theorems": [
    "Iges.Props.C97_start",
    "Iges.Props.C97_end",
    "Iges.Props.C97_plane_partial",
    "Iges.Props.C97_plane_found",
    "Iges.Props.C97_flags",
    "Iges.Props.C97_unset",
    "Iges.Props.C97_trimmed",
    "Iges.Props.C97_straight_wrong_normal",
    "Iges.Props.C97_straight_not_found",
    "Iges.Props.C97_refused_undefined"
   ],
   "note": "Ends: proved for knots that hold the curve to its end control points and the full range (C97_start, C97_end); a shorter range is accepted and the ends are then wrong (C97_trimmed). Plane: a curve reported plane is within 1.8e-8 of the polygon length for each control point after the third of the plane (C97_plane_partial), and plane control points are found to be plane with the right normal (C97_plane_found), both if no three consecutive control points are on a line; otherwise the normal can lie along the curve (C97_straight_wrong_normal) and a plane curve can be reported not to be (C97_straight_not_found). Curves are always reported open (C97_flags). After a refused range the ends are read through a NULL pointer (C97_refused_undefined). The SISL build is not modelled."
  },
  {
   "property": "C98",
   "status": "partial",
   "theorems": [
    "Iges.Props.C98_simple",
    "Iges.Props.C98_ends",
    "Iges.Props.C98_rescale",
    "Iges.Props.C98_composite",
    "Iges.Props.C98_composite_partial",
    "Iges.Props.C98_own_transform",
    "Iges.Props.C98_closed",
    "Iges.Props.C98_arc_closed",
    "Iges.Props.C98_one_arc",
    "Iges.Props.C98_one_other",
    "Iges.Props.C98_conic"
   ],
   "note": "Single curves for all transforms (C98_simple); composite curves with the transforms of the segments (C98_composite), and without for segments that have none (C98_composite_partial): otherwise leaving out the transform of the composite curve also leaves out those of its segments (C98_own_transform). Closed: proved for arcs, conics and composite curves of two or more segments within 1.8e7 of the origin (C98_arc_closed, C98_conic, C98_closed) and of one arc (C98_one_arc); a composite curve of one closed ellipse or NURBS curve is reported open (C98_one_other)."
  },
  {
   "property": "C99",
   "status": "partial",
   "theorems": [
    "Iges.Props.C99_members",
    "Iges.Props.C99_members_dll_partial",
    "Iges.Props.C99_dll_empty_undefined",
    "Iges.Props.C99_comments",
    "Iges.Props.C99_index",
    "Iges.Props.C99_headers_partial",
    "Iges.Props.C99_headers_stale",
    "Iges.Props.C99_headers_stale_write",
    "Iges.Props.C99_headers_size",
    "Iges.Props.C99_edges_never",
    "Iges.Props.C99_edges_partial",
    "Iges.Props.C99_edges_stale",
    "Iges.Props.C99_bounds_partial",
    "Iges.Props.HandoutSplit.C99_points",
    "Iges.Props.HandoutSplit.C99_points_again",
    "Iges.Props.HandoutSplit.C99_split_partial",
    "Iges.Props.HandoutSplit.C99_split_overrun",
    "Iges.Props.HandoutSplit.C99_split_lost",
    "Iges.Props.HandoutSplit.C99_splits"
   ],
   "note": "Members, holes and comments for all histories (C99_members, C99_comments, C99_index). Header lines unless the model is cleared or read after a query (C99_headers_partial); then pointers to deleted lines are handed out (C99_headers_stale, C99_headers_stale_write), and the number of lines is never told (C99_headers_size). The edges query always fails and may have edges that are gone (C99_edges_never, C99_edges_stale). The wrapper of the members query, and the bounds query, are undefined for an empty list (C99_dll_empty_undefined, C99_bounds_partial). Common points and parts of split segments are handed out right for arrays and counts that belong together (C99_points, C99_splits, C99_split_partial); a count without an array makes the array shorter than the count (C99_split_overrun)."
  },
  {
   "property": "C100",
   "status": "partial",
   "theorems": [
    "Iges.Props.IdfSetters.C100_other_system",
    "Iges.Props.IdfSetters.C100_side",
    "Iges.Props.IdfSetters.C100_height",
    "Iges.Props.IdfSetters.C100_refused_partial",
    "Iges.Props.IdfSetters.C100_side_lost",
    "Iges.Props.IdfSetters.C100_height_lost",
    "Iges.Props.IdfSetters.C100_legal",
    "Iges.Props.IdfSetters.C100_survives_partial",
    "Iges.Props.IdfSetters.C100_clear_partial",
    "Iges.Props.IdfSetters.C100_clear_height",
    "Iges.Props.IdfSetters.C100_uid",
    "Iges.Props.IdfSetters.C100_numbers"
   ],
   "note": "Ownership, accepted values, legal contents, part names and numbers for all histories (C100_other_system, C100_side, C100_height, C100_legal, C100_uid, C100_numbers); saving and reading of sections built by calls, except other outlines (C100_survives_partial, with the conditions of C79). A refused SetSide or SetMaxHeight is not without effect: the side is lost and the board cannot be saved, the height becomes zero (C100_refused_partial, C100_side_lost, C100_height_lost). Clear keeps the thickness or sets the height to zero (C100_clear_partial, C100_clear_height)."
  },
  {
   "property": "C101",
   "status": "partial",
   "theorems": [
    "Iges.Props.Accessors.C101_accepted",
    "Iges.Props.Accessors.C101_last_partial",
    "Iges.Props.Accessors.C101_answer",
    "Iges.Props.Accessors.C101_invalid_partial",
    "Iges.Props.Accessors.C101_property_undefined",
    "Iges.Props.Accessors.C101_generatrix_wrong",
    "Iges.Props.Accessors.C101_generatrix_never",
    "Iges.Props.Accessors.C101_generatrix_flat",
    "Iges.Props.Accessors.C101_height_ignored",
    "Iges.Props.Accessors.C101_line_saved",
    "Iges.Props.Accessors.C101_conic_saved",
    "Iges.Props.Accessors.C101_generatrix_saved"
   ],
   "note": "Last accepted value at every place of every getter, for all histories, for ten of the eleven classes (C101_last_partial, C101_answer), acceptance (C101_accepted), invalid handles of all classes but the property (C101_invalid_partial). The end of the generatrix of a tabulated cylinder is stored wrongly: the last coordinate becomes the first and the other two can never be set (C101_generatrix_wrong, C101_generatrix_never, C101_generatrix_flat), and so it is in the file (C101_generatrix_saved); lines and conics are found in the file as they were set (C101_line_saved, C101_conic_saved). The name of a property through an invalid handle is undefined (C101_property_undefined). The height of a start or end point given as a point of space is ignored (C101_height_ignored)."
  },
  {
   "property": "C102",
   "status": "partial",
   "theorems": [
    "Iges.Props.Ownership.C102_owned_partial",
    "Iges.Props.Ownership.C102_no_leak_partial",
    "Iges.Props.Ownership.C102_destroy_partial",
    "Iges.Props.Ownership.C102_refused",
    "Iges.Props.Ownership.C102_given",
    "Iges.Props.Ownership.C102_attached_twice",
    "Iges.Props.Ownership.C102_shared",
    "Iges.Props.Ownership.C102_own_cutout"
   ],
   "note": "One holder, no double deletion, no leak and exact deletion for all histories that keep the rules (C102_owned_partial, C102_no_leak_partial, C102_destroy_partial), taking and refusing (C102_given, C102_refused). The code does not enforce the rules: a handle can be attached to a segment that an outline owns, which is then deleted twice (C102_attached_twice), and an outline can be made its own cutout, which loses it (C102_own_cutout). That a merge deletes exactly the segments it does not keep is taken as its answer, not proved of opOutline."
  },
  {
   "property": "C103",
   "status": "partial",
   "theorems": [
    "Iges.Props.LoopEdge.C103_added",
    "Iges.Props.LoopEdge.C103_refused_partial",
    "Iges.Props.LoopEdge.C103_null",
    "Iges.Props.LoopEdge.C103_refused_breaks",
    "Iges.Props.LoopEdge.C103_delete_used",
    "Iges.Props.LoopEdge.C103_delete_unused",
    "Iges.Props.LoopEdge.C103_refused_counts"
   ],
   "note": "Accepted edges: C103_added, for every model in which pointers and users agree. Refused edges: C103_null, C103_refused_partial; false if the loop already has the curve (C103_refused_breaks: the curve forgets the loop, so that deleting it leaves a dangling pointer), and the refused edge stays counted (C103_refused_counts). Deleting an edge list in use is undefined for every loop (C103_delete_used); for a list no edge uses the loop keeps its edges (C103_delete_unused)."
  },
  {
   "property": "C104",
   "status": "partial",
   "theorems": [
    "Iges.Props.Look.C104_label",
    "Iges.Props.Look.C104_label_null",
    "Iges.Props.Look.C104_label_saved",
    "Iges.Props.Look.C104_label_blank",
    "Iges.Props.Look.C104_instances_partial",
    "Iges.Props.Look.C104_instances_mixed",
    "Iges.Props.Look.C104_colour_defined",
    "Iges.Props.Look.C104_colour_cycle",
    "Iges.Props.Look.C104_colours"
   ],
   "note": "Labels: C104_label, C104_label_null, C104_label_saved (every supported class but 124, text without a blank at its beginning); blanks at the beginning are lost (C104_label_blank). Colours: C104_colour_defined, C104_colour_cycle, C104_colours. Labels of instances are different for designators of at most eight characters (C104_instances_partial); every longer one shares its label with another (C104_instances_mixed)."
  },
  {
   "property": "C105",
   "status": "partial",
   "theorems": [
    "Iges.Props.MergeTool.C105_pos_numbers",
    "Iges.Props.MergeTool.C105_orient_numbers",
    "Iges.Props.MergeTool.C105_pos_line",
    "Iges.Props.MergeTool.C105_orient_line",
    "Iges.Props.MergeTool.C105_orient_shape",
    "Iges.Props.MergeTool.C105_same_rule",
    "Iges.Props.MergeTool.C105_orient_partial",
    "Iges.Props.MergeTool.C105_orient_rigid",
    "Iges.Props.MergeTool.C105_axis_short",
    "Iges.Props.MergeTool.C105_axis_near",
    "Iges.Props.MergeTool.C105_file_name",
    "Iges.Props.MergeTool.C105_unit",
    "Iges.Props.MergeTool.C105_merged_partial",
    "Iges.Props.MergeTool.C105_nothing"
   ],
   "note": "C105_merged_partial: all inputs whose lines have a meaning (C105_pos_line, C105_orient_line: every line with decimal numbers of at most 300 digits has), for directions that are not very short and whose length is one or clearly not one. Same rule as the IDF converter: C105_same_rule. Very short directions become the z axis (C105_axis_short); a direction of almost the length one changes shapes (C105_axis_near), but squares of distances by a twenty millionth part at most (C105_orient_shape). Units: C105_unit. File names: C105_file_name. Failures: C105_nothing."
  },
  {
   "property": "C106",
   "status": "partial",
   "theorems": [
    "Iges.Props.Planes.C106_lost",
    "Iges.Props.Planes.C106_bounded_partial",
    "Iges.Props.Planes.C106_unbounded_misread",
    "Iges.Props.Planes.C106_rescale_lost",
    "Iges.Props.Planes.C106_rescale_partial",
    "Iges.Props.Planes.C106_curve_partial",
    "Iges.Props.Planes.C106_indeterminate",
    "Iges.Props.Planes.C106_culled"
   ],
   "note": "C106_bounded_partial: planes with a curve and at least one optional pointer. The property fails otherwise: no plane without optional pointers is read back (C106_lost: the record is never closed); planes without a curve lose the delimiter after the curve (C106_unbounded_misread); planes off the origin are not scaled (C106_rescale_lost, C106_rescale_partial for the others); the first entity of a file is never taken as the curve (C106_curve_partial); planes without a curve use an indeterminate pointer (C106_indeterminate); bounded planes count as orphans (C106_culled)."
  },
  {
   "property": "C107",
   "status": "partial",
   "theorems": [
    "Iges.Props.IdfMain.C107_names",
    "Iges.Props.IdfMain.C107_run",
    "Iges.Props.IdfMain.C107_inputs_kept",
    "Iges.Props.IdfMain.C107_status_partial",
    "Iges.Props.IdfMain.C107_status_blind",
    "Iges.Props.IdfMain.C107_given_partial",
    "Iges.Props.IdfMain.C107_other_file"
   ],
   "note": "C107_names, C107_run and C107_inputs_kept hold for all arguments. The property fails in two parts: the exit status is 0 although the parts could not be made or the model could not be written (C107_status_blind; C107_status_partial is the half that holds), and a file whose path does not end in .emn or holds a backslash is not the one that is read (C107_other_file; C107_given_partial for the others)."
  }
 ]
}