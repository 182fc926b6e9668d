{
 "claims": [
  {
   "property": "C01",
   "status": "proved",
   "theorems": [
    "Verif.OctTree.C01_boxoverlap_exact_3d",
    "Verif.OctTree.C01_boxoverlap_exact_2d",
    "Verif.OctTree.C01_boxoverlap_symm"
   ],
   "note": "over every linearly ordered field; floats without rounding"
  },
  {
   "property": "C02",
   "status": "proved",
   "theorems": [
    "Verif.OctTree.C02_query_exact"
   ],
   "note": "all histories of constructor/addElement/updateCenter/setters/getElements with well-formed boxes; order of the returned set unspecified"
  },
  {
   "property": "C03",
   "status": "proved",
   "theorems": [
    "Verif.OctTree.C03_depth_bounded"
   ],
   "note": "termination is totality of the Lean definition (well-founded on remaining depth)"
  },
  {
   "property": "C04",
   "status": "proved",
   "theorems": [
    "Verif.Kin.C04_world_transform_coherent",
    "Verif.Kin.C04_unknown_part",
    "Verif.Kin.C04_set_joint_local",
    "Verif.Kin.C04_new_frame_free",
    "Verif.Kin.C04_stale_after_frame_redefinition"
   ],
   "note": "Proved for every reachable history in which a frame that already has children is not redefined with add_frame; C04_stale_after_frame_redefinition is a concrete history showing that condition is needed in the code (stale cache)."
  },
  {
   "property": "C05",
   "status": "proved",
   "theorems": [
    "Verif.Kin.C05_forest",
    "Verif.Kin.C05_chain_to_root",
    "Verif.Kin.C05_descendants",
    "Verif.Kin.C05_step_total",
    "Verif.Kin.C05_add_part_rejects",
    "Verif.Kin.C05_validate_clean"
   ],
   "note": "Invariant over all histories. get_chain_to_root theorem excludes parts named '' (falsy in Python)."
  },
  {
   "property": "C06",
   "status": "proved",
   "theorems": [
    "Verif.Kin.C06_topo_perm",
    "Verif.Kin.C06_parents_first"
   ],
   "note": "For every set iteration order."
  },
  {
   "property": "C07",
   "status": "proved",
   "theorems": [
    "Verif.Kin.C07_compose_assoc",
    "Verif.Kin.C07_identity_neutral",
    "Verif.Kin.C07_inverse_left",
    "Verif.Kin.C07_inverse_right",
    "Verif.Kin.C07_point_compose",
    "Verif.Kin.C07_vector_compose",
    "Verif.Kin.C07_preserves_distance",
    "Verif.Kin.C07_rigid_identity",
    "Verif.Kin.C07_rigid_compose",
    "Verif.Kin.C07_rigid_inverse",
    "Verif.Kin.C07_translation",
    "Verif.Kin.C07_rotations_rigid",
    "Verif.Kin.C07_axis_fixed",
    "Verif.Kin.C07_axis_angle_turns",
    "Verif.Kin.C07_coordinate_axes",
    "Verif.Kin.C07_axis_angle_coordinate",
    "Verif.Kin.C07_vector_difference"
   ],
   "note": "Over any commutative ring (reals for the rotations)."
  },
  {
   "property": "C08",
   "status": "proved",
   "theorems": [
    "Verif.Kin.C08_value_within_limits",
    "Verif.Kin.C08_clamp",
    "Verif.Kin.C08_fixed_no_motion",
    "Verif.Kin.C08_chain_in_limits"
   ],
   "note": "For clamped sets (clamp=True, the default); the constructor does not clamp the initial value."
  },
  {
   "property": "C09",
   "status": "proved",
   "theorems": [
    "Verif.Kin.C09_relative_compose"
   ],
   "note": "Over any group of transforms; instance for the code's own rigid matrices in the same file."
  },
  {
   "property": "C10",
   "status": "proved",
   "theorems": [
    "Verif.Collision.C10_registry_refines_list",
    "Verif.Collision.C10_register_rejects"
   ],
   "note": "Refinement to a plain list for every history of register/unregister/clear."
  },
  {
   "property": "C100",
   "status": "partial",
   "theorems": [
    "Verif.GeoJson.C36_references",
    "Verif.GeoJson.C100_solid_ids_clash"
   ],
   "note": "Violated: solids may clash with solids. Surface ids are unique (C36_references)."
  },
  {
   "property": "C101",
   "status": "partial",
   "theorems": [
    "Verif.GeoJson.C36_round_trip",
    "Verif.GeoJson.C101_material_lost"
   ],
   "note": "Violated: the third slot is read as voids, anything else in it is lost, and the fourth slot is not written at all."
  },
  {
   "property": "C102",
   "status": "proved",
   "theorems": [
    "Verif.GeoJson.C102_layers"
   ],
   "note": ""
  },
  {
   "property": "C103",
   "status": "proved",
   "theorems": [
    "Verif.GeoJson.C103_rejects"
   ],
   "note": ""
  },
  {
   "property": "C104",
   "status": "partial",
   "theorems": [
    "Verif.Sketch.C104_roundtrip_partial",
    "Verif.Sketch.C104_result",
    "Verif.Sketch.C104_writable",
    "Verif.Sketch.C104_reversed",
    "Verif.Sketch.C104_points_lost",
    "Verif.Sketch.C104_document",
    "Verif.Sketch.C104_polylines",
    "Verif.Sketch.C104_preview",
    "Verif.Sketch.C104_orientation"
   ],
   "note": "violated: lines are projected on z = 0, polylines fall apart into lines, reversed arcs come back forward (C104_reversed), points are lost (C104_points_lost), tilted arcs and nested lists cannot be written (C104_writable)"
  },
  {
   "property": "C105",
   "status": "partial",
   "theorems": [
    "Verif.Geom.C105_unsample_near_partial",
    "Verif.Geom.C105_short_line_accepts_far_point"
   ],
   "note": "Violated for short lines: the test is on the area, not the distance."
  },
  {
   "property": "C106",
   "status": "partial",
   "theorems": [
    "Verif.Geom.C106_small_crossing_missed",
    "Verif.Geom.C106_perpendicular_found_partial"
   ],
   "note": "Violated: the determinant is compared with an absolute epsilon."
  },
  {
   "property": "C107",
   "status": "partial",
   "theorems": [
    "Verif.Geom.C107_inside_sound_partial",
    "Verif.Geom.C107_hexagon_centre_outside"
   ],
   "note": "Violated: the fan only covers consecutive triples, the centre of a hexagon is reported outside. Sound direction proved."
  },
  {
   "property": "C108",
   "status": "partial",
   "theorems": [
    "Verif.Geom.C108_square_centre_outside",
    "Verif.Geom.C108_inside_sound_partial"
   ],
   "note": "Violated: the ray through a vertex is counted twice."
  },
  {
   "property": "C109",
   "status": "proved",
   "theorems": [
    "Verif.Geom.C109_on_circle",
    "Verif.Geom.C109_endpoints",
    "Verif.Geom.C109_reversed"
   ],
   "note": ""
  },
  {
   "property": "C11",
   "status": "proved",
   "theorems": [
    "Verif.Collision.C11_overlap_verdict",
    "Verif.Collision.C11_compatible_names"
   ],
   "note": "overlaps_with/check_compatibility are arbitrary functions."
  },
  {
   "property": "C110",
   "status": "partial",
   "theorems": [
    "Verif.Geom.C110_uniform_partial",
    "Verif.Geom.C110_negative_end"
   ],
   "note": "Violated for arcs with one angle 0 and a negative other one."
  },
  {
   "property": "C111",
   "status": "partial",
   "theorems": [
    "Verif.Geom.C111_unsample_sample_partial",
    "Verif.Geom.C111_end_at_360"
   ],
   "note": "Violated for end angle 360."
  },
  {
   "property": "C112",
   "status": "partial",
   "theorems": [
    "Verif.Geom.C112_circle_box_partial",
    "Verif.Geom.C112_arc_sticks_out"
   ],
   "note": "Violated: the box is that of five samples. Proved for full circles."
  },
  {
   "property": "C113",
   "status": "proved",
   "theorems": [
    "Verif.Geom.C113_segment_distance",
    "Verif.Geom.C113_line_distance"
   ],
   "note": ""
  },
  {
   "property": "C114",
   "status": "partial",
   "theorems": [
    "Verif.Geom.C114_foot_partial",
    "Verif.Geom.C114_beyond_ends_partial",
    "Verif.Geom.C114_closest_point_off_line",
    "Verif.Geom.C114_param_of_start"
   ],
   "note": "Proved for the infinite line and for points beyond the ends of a segment. Violated otherwise: the wrong one of two candidates may be returned; the parameter is measured from the end."
  },
  {
   "property": "C115",
   "status": "partial",
   "theorems": [
    "Verif.Geom.C115_on_both_partial",
    "Verif.Geom.C115_complete_partial",
    "Verif.Geom.C115_end_point_dropped",
    "Verif.Geom.C115_outside_segment"
   ],
   "note": "Full circles; filtering by the angular range of a partial arc is not modelled. Soundness and completeness of the roots are proved away from the tangency tolerance; the code drops a crossing at the segment's end point (parameter exactly 1) and with inside=True returns points beyond the segment: both are machine-checked counterexamples."
  },
  {
   "property": "C116",
   "status": "proved",
   "theorems": [
    "Verif.Geom.C116_tangents",
    "Verif.Geom.C116_rejects"
   ],
   "note": "Circles of equal height; real arithmetic."
  },
  {
   "property": "C117",
   "status": "proved",
   "theorems": [
    "Verif.Geom.C117_translate",
    "Verif.Geom.C117_compose"
   ],
   "note": "over the reals"
  },
  {
   "property": "C118",
   "status": "partial",
   "theorems": [
    "Verif.Geom.C118_rotate_figure_partial",
    "Verif.Geom.C118_wrapped_arc"
   ],
   "note": "Violated for arcs that wrap past 360 and are rotated so that start becomes 0. Proved when every arc has start<=end<start+360, axis z."
  },
  {
   "property": "C119",
   "status": "partial",
   "theorems": [
    "Verif.Geom.C119_mirror_straight_partial",
    "Verif.Geom.C119_mirror_arc_partial",
    "Verif.Geom.C119_xy_complement",
    "Verif.Geom.C119_contour_torn"
   ],
   "note": "Violated: arcs are traversed in the opposite direction, xy turns arcs into their complement."
  },
  {
   "property": "C12",
   "status": "proved",
   "theorems": [
    "Verif.Collision.C12_every_pair_once",
    "Verif.Collision.C12_summary_adds_up"
   ],
   "note": "Geometry kernel and provider are arbitrary; cache shown transparent for a deterministic provider."
  },
  {
   "property": "C120",
   "status": "partial",
   "theorems": [
    "Verif.Geom.C120_factors_partial",
    "Verif.Geom.C120_second_factor_ignored",
    "Verif.Geom.C120_zero_factors_ignored",
    "Verif.Geom.C120_negative_factor_breaks_arc"
   ],
   "note": "Violated; proved when all three factors are given and sy, sz are not both 0."
  },
  {
   "property": "C121",
   "status": "proved",
   "theorems": [
    "Verif.Spline.C121_bernstein",
    "Verif.Spline.C121_ends",
    "Verif.Spline.C121_bernstein_function",
    "Verif.Spline.C121_sampling"
   ],
   "note": ""
  },
  {
   "property": "C122",
   "status": "proved",
   "theorems": [
    "Verif.Spline.C122_hull",
    "Verif.Spline.C122_affine",
    "Verif.Spline.C122_reverse"
   ],
   "note": ""
  },
  {
   "property": "C123",
   "status": "proved",
   "theorems": [
    "Verif.Spline.C123_tangent",
    "Verif.Spline.C123_end_tangent"
   ],
   "note": ""
  },
  {
   "property": "C124",
   "status": "proved",
   "theorems": [
    "Verif.Spline.C124_weights",
    "Verif.Spline.C124_too_few",
    "Verif.Spline.C124_hull",
    "Verif.Spline.C124_ends",
    "Verif.Spline.C124_affine",
    "Verif.Spline.C124_local",
    "Verif.Spline.C124_sampling"
   ],
   "note": ""
  },
  {
   "property": "C125",
   "status": "partial",
   "theorems": [
    "Verif.Spline.C125_sampling_closes_partial",
    "Verif.Spline.C125_closed_always_raises",
    "Verif.Spline.C125_degree_one_open"
   ],
   "note": "Violated: closed B-splines of degree at least 2 always raise IndexError; of degree 1 they do not end at their start. Proved: sampling closes the polyline whenever evaluation succeeds."
  },
  {
   "property": "C126",
   "status": "partial",
   "theorems": [
    "Verif.Spline.C126_convex_partial",
    "Verif.Spline.C126_hull_partial",
    "Verif.Spline.C126_start_partial",
    "Verif.Spline.C126_single_span_partial",
    "Verif.Spline.C126_end_wrong",
    "Verif.Spline.C126_accepts_iff",
    "Verif.Spline.C126_samples"
   ],
   "note": "Violated at the end of the curve: with more than degree+1 control points the last point is wrong and can leave the convex hull (C126_end_wrong). Proved for all parameters below 1, and at 1 for a single span."
  },
  {
   "property": "C127",
   "status": "partial",
   "theorems": [
    "Verif.Spline.C127_total",
    "Verif.Spline.C127_through_partial",
    "Verif.Spline.C127_sampling_partial",
    "Verif.Spline.C127_tolerance_misses",
    "Verif.Spline.C127_negative_alpha_raises"
   ],
   "note": "Proved for alpha >= 0 when neighbouring points coincide or have distance^alpha >= 1e-12; violated otherwise (C127_tolerance_misses), and a negative alpha makes the first point of an open curve raise."
  },
  {
   "property": "C128",
   "status": "proved",
   "theorems": [
    "Verif.Spline.C128_rigid"
   ],
   "note": ""
  },
  {
   "property": "C129",
   "status": "partial",
   "theorems": [
    "Verif.Spline.C129_no_kink_partial",
    "Verif.Spline.C129_closed_no_kink_partial",
    "Verif.Spline.C129_not_C1"
   ],
   "note": "Violated as documented: only the direction of the derivative is continuous, its length jumps when the spacing changes (C129_not_C1)."
  },
  {
   "property": "C13",
   "status": "partial",
   "theorems": [
    "Verif.Collision.C13_registry_shared_partial",
    "Verif.Collision.C13_empty_registry_dropped"
   ],
   "note": "Holds for registries non-empty at construction (or set_interface_registry); refuted for empty ones: `interface_registry or InterfaceRegistry()` (C13_empty_registry_dropped)."
  },
  {
   "property": "C130",
   "status": "proved",
   "theorems": [
    "Verif.Conic.C130_ellipse",
    "Verif.Conic.C130_normal"
   ],
   "note": "Exactly perpendicular to the normal, except up to 1.5e-5 for normals within 1e-10 of the z axis (stated in Spec.PlaneOf)."
  },
  {
   "property": "C131",
   "status": "partial",
   "theorems": [
    "Verif.Conic.C131_ellipse_arc_partial",
    "Verif.Conic.C131_swapped_arc"
   ],
   "note": "Proved when the first semi-axis is not the smaller; otherwise the axes are swapped but the arc angles are not adjusted (C131_swapped_arc)."
  },
  {
   "property": "C132",
   "status": "proved",
   "theorems": [
    "Verif.Conic.C132_parabola",
    "Verif.Conic.C132_hyperbola"
   ],
   "note": ""
  },
  {
   "property": "C133",
   "status": "partial",
   "theorems": [
    "Verif.Conic.C133_ellipse_partial",
    "Verif.Conic.C133_parabola_partial",
    "Verif.Conic.C133_hyperbola_partial",
    "Verif.Conic.C133_ignores_normal"
   ],
   "note": "Proved in the default plane (for end > start); violated for other normals, which the tangent functions ignore."
  },
  {
   "property": "C134",
   "status": "partial",
   "theorems": [
    "Verif.Conic.C134_box_partial",
    "Verif.Conic.C134_box_misses",
    "Verif.Conic.C134_length_partial"
   ],
   "note": "Violated: the box is that of samples and can miss the curve (C134_box_misses)."
  },
  {
   "property": "C135",
   "status": "proved",
   "theorems": [
    "Verif.Interp.C135_binds_by_position",
    "Verif.Interp.C135_wrong_count",
    "Verif.Interp.C135_default"
   ],
   "note": "Positional calls. The default theorem is for the last parameter; defaults are evaluated in the caller's context (C26_default_sees_caller)."
  },
  {
   "property": "C136",
   "status": "proved",
   "theorems": [
    "Verif.Interp.C136_first_arm",
    "Verif.Interp.C136_no_arm"
   ],
   "note": "Evaluation of lambda values and of python expressions inside arms is as in the rest of the interpreter model."
  },
  {
   "property": "C137",
   "status": "proved",
   "theorems": [
    "Verif.Parser.C137_terminates"
   ],
   "note": "recursion depth 12n+12 always suffices; CPython's recursion limit is not modelled"
  },
  {
   "property": "C138",
   "status": "proved",
   "theorems": [
    "Verif.Parser.C138_block",
    "Verif.Parser.C138_stmt",
    "Verif.Parser.C138_expr",
    "Verif.Parser.C138_expr_sound",
    "Verif.Parser.C138_type",
    "Verif.Parser.C138_block_tree",
    "Verif.Parser.C138_call_arguments"
   ],
   "note": "iff with an independent grammar (Parser/Grammar.lean)"
  },
  {
   "property": "C139",
   "status": "proved",
   "theorems": [
    "Verif.Parser.C139_unambiguous"
   ],
   "note": ""
  },
  {
   "property": "C14",
   "status": "proved",
   "theorems": [
    "Verif.Resolver.C14_priority_order",
    "Verif.Resolver.C14_order_unique",
    "Verif.Resolver.C14_run_unique",
    "Verif.Resolver.C14_each_once"
   ],
   "note": "'each exactly once' holds when target_filter does not repeat a target (a repeated listing is a repeated request)."
  },
  {
   "property": "C140",
   "status": "proved",
   "theorems": [
    "Verif.Parser.C140_precedence",
    "Verif.Parser.C140_left_chain",
    "Verif.Parser.C140_power_chain",
    "Verif.Parser.C140_unary_first",
    "Verif.Parser.C140_conditional"
   ],
   "note": "-x**y is (-x)**y and not x==y is (not x)==y, as documented in the class docstring, unlike Python"
  },
  {
   "property": "C141",
   "status": "proved",
   "theorems": [
    "Verif.Parser.C141_parentheses",
    "Verif.Parser.C141_compose"
   ],
   "note": ""
  },
  {
   "property": "C142",
   "status": "partial",
   "theorems": [
    "Verif.Parser.C142_other_targets_partial",
    "Verif.Parser.C142_name_declares"
   ],
   "note": "violated: x = e is always a declaration; only targets that are not a bare name become assignments"
  },
  {
   "property": "C143",
   "status": "partial",
   "theorems": [
    "Verif.Parser.C143_arms_partial",
    "Verif.Parser.C143_bare_name_refused"
   ],
   "note": "violated: a leading name is swallowed as the word `case`, so an arm with a bare name pattern is refused"
  },
  {
   "property": "C144",
   "status": "partial",
   "theorems": [
    "Verif.Parser.C144_block_value_last_partial",
    "Verif.Parser.C144_block_value_refused"
   ],
   "note": "violated: only as the last statement of a block"
  },
  {
   "property": "C145",
   "status": "partial",
   "theorems": [
    "Verif.Parser.C145_brackets_match_partial",
    "Verif.Parser.C145_with_any_bracket",
    "Verif.Parser.C145_python_unfinished"
   ],
   "note": "violated by emit ... with and by unfinished python blocks; holds for texts without these words"
  },
  {
   "property": "C146",
   "status": "proved",
   "theorems": [
    "Verif.Parser.C146_module_terminates"
   ],
   "note": ""
  },
  {
   "property": "C147",
   "status": "partial",
   "theorems": [
    "Verif.Parser.C147_hint_partial",
    "Verif.Parser.C147_type_error"
   ],
   "note": "violated: @meta(k = -\"text\") raises TypeError; all other values can be read"
  },
  {
   "property": "C148",
   "status": "partial",
   "theorems": [
    "Verif.Parser.C148_def_keeps_decorators_partial",
    "Verif.Parser.C148_command_drops_decorators",
    "Verif.Parser.C148_dangling_decorator"
   ],
   "note": "violated: commands lose their decorators, decorators at the end of the text are dropped silently"
  },
  {
   "property": "C149",
   "status": "proved",
   "theorems": [
    "Verif.Parser.C149_last_meta_wins",
    "Verif.Parser.C149_last_key_wins"
   ],
   "note": ""
  },
  {
   "property": "C15",
   "status": "partial",
   "theorems": [
    "Verif.Resolver.C15_output_parts_partial",
    "Verif.Resolver.C15_success_iff",
    "Verif.Resolver.C15_consumed_cutter_in_output"
   ],
   "note": "False as stated: a consumed cutter that is itself a target stays in the output (witness theorem). Everything else is proved."
  },
  {
   "property": "C150",
   "status": "partial",
   "theorems": [
    "Verif.Parser.C150_flat_body_partial",
    "Verif.Parser.C150_native_cut",
    "Verif.Parser.C150_nested_refused"
   ],
   "note": "violated: the body ends at the first decrease of indentation"
  },
  {
   "property": "C151",
   "status": "partial",
   "theorems": [
    "Verif.Parser.C151_path_partial",
    "Verif.Parser.C151_any_text"
   ],
   "note": "violated: any token with a text value is accepted as a path component"
  },
  {
   "property": "C152",
   "status": "proved",
   "theorems": [
    "Verif.Checker.C152_compile",
    "Verif.Checker.C152_accepts_iff_well_typed",
    "Verif.Checker.parsed_wf"
   ],
   "note": "Typing rules in Checker/Rules.lean; both directions, for any source text, through lexer, parser and checker."
  },
  {
   "property": "C153",
   "status": "proved",
   "theorems": [
    "Verif.Checker.C153_order"
   ],
   "note": ""
  },
  {
   "property": "C154",
   "status": "partial",
   "theorems": [
    "Verif.Checker.C154_scoping_partial",
    "Verif.Checker.C154_violated"
   ],
   "note": "Scoping specified independently of types (Checker/Scope.lean). Violated by the code: named arguments of commands, elif branches of if expressions are not checked; blocks of if expressions leak their names."
  },
  {
   "property": "C155",
   "status": "partial",
   "theorems": [
    "Verif.Pipe.C155_sound_partial",
    "Verif.Pipe.C155_ends_partial",
    "Verif.Pipe.C155_violated_fails",
    "Verif.Pipe.C155_violated_type"
   ],
   "note": "Proved for the core language (tameMod): scalars, lists of literals, operators, conditionals, loops, assignments, calls of commands and of honest built-in functions, unbounded in program, run and recursion limit. The full claim is false: machine-checked accepted programs that fail, raise or emit another type."
  },
  {
   "property": "C156",
   "status": "partial",
   "theorems": [
    "Verif.Checker.C156_python_partial",
    "Verif.Checker.C156_missed"
   ],
   "note": "Exact for the places the checker looks at; violated by the code in elif branches of if expressions."
  },
  {
   "property": "C157",
   "status": "partial",
   "theorems": [
    "Verif.Checker.C157_recursion_partial",
    "Verif.Checker.C157_recursion_seen",
    "Verif.Checker.C157_missed",
    "Verif.Checker.allCycles_sound",
    "Verif.Checker.allCycles_complete"
   ],
   "note": "Exact for the calls the checker looks at; violated by the code for calls in named arguments."
  },
  {
   "property": "C158",
   "status": "partial",
   "theorems": [
    "Verif.Checker.C158_limit_partial",
    "Verif.Checker.C158_violated",
    "Verif.Checker.C158_stops"
   ],
   "note": "Same verdict for all positive limits. Violated: the limit 0 accepts everything; more errors than the limit can be reported."
  },
  {
   "property": "C159",
   "status": "partial",
   "theorems": [
    "Verif.Checker.C159_total_partial",
    "Verif.Checker.C159_violated"
   ],
   "note": "Violated by the code: return statements and declarations without a value raise AttributeError."
  },
  {
   "property": "C16",
   "status": "proved",
   "theorems": [
    "Verif.Resolver.C16_invalid_passthrough",
    "Verif.Resolver.C16_no_cutters"
   ],
   "note": "Both resolvers."
  },
  {
   "property": "C160",
   "status": "partial",
   "theorems": [
    "Verif.Pipe.C160_conditional_partial",
    "Verif.Pipe.C160_if_expression_never_succeeds",
    "Verif.Pipe.C160_if_expression_without_else",
    "Verif.Pipe.C160_violated"
   ],
   "note": "Proved for conditional expressions; every if expression with an else branch fails at run time although the checker accepts it."
  },
  {
   "property": "C161",
   "status": "partial",
   "theorems": [
    "Verif.Checker.C161_violated",
    "Verif.Checker.C161_named_builtin"
   ],
   "note": "Violated by the code: the number and names of arguments of commands are not checked, nor are extra arguments of built-in functions. What is enforced is in the typing rules (C152)."
  },
  {
   "property": "C162",
   "status": "partial",
   "theorems": [
    "Verif.Pipe.C162_sums_accepted",
    "Verif.Pipe.C162_strings_run",
    "Verif.Checker.C162_rejected"
   ],
   "note": "Violated in general: every accepted sum has operands that are numbers, geometry or lists, so no concatenation of strings and no arithmetic on unannotated parameters is ever accepted, while the interpreter performs every one."
  },
  {
   "property": "C163",
   "status": "partial",
   "theorems": [
    "Verif.Pipe.C163_assignment_partial",
    "Verif.Pipe.C163_violated",
    "Verif.Checker.C163_assignment"
   ],
   "note": "Proved for assignments the parser takes for such; violated by 't = e' in a nested block, which declares a new variable."
  },
  {
   "property": "C164",
   "status": "partial",
   "theorems": [
    "Verif.Pipe.C164_elements_partial",
    "Verif.Pipe.C164_violated"
   ],
   "note": "Proved for list literals with elements of one type; violated for mixed and concatenated lists and list arguments (2.5 + 1 = 3)."
  },
  {
   "property": "C165",
   "status": "proved",
   "theorems": [
    "Verif.Geom.C165_length",
    "Verif.Geom.C165_at_least"
   ],
   "note": "over the reals"
  },
  {
   "property": "C166",
   "status": "proved",
   "theorems": [
    "Verif.Geom.C166_segment_ends"
   ],
   "note": "over the reals"
  },
  {
   "property": "C167",
   "status": "partial",
   "theorems": [
    "Verif.Geom.C167_on_circle",
    "Verif.Geom.C167_off_arc"
   ],
   "note": "Proved: only points at the distance of the radius have a parameter. Violated: points of the circle that are not on the arc get a parameter outside [0,1] rather than False."
  },
  {
   "property": "C168",
   "status": "partial",
   "theorems": [
    "Verif.Surf.C168_translate_partial",
    "Verif.Surf.C168_rotate_partial",
    "Verif.Surf.C168_mirror_partial",
    "Verif.Surf.C168_scale_partial",
    "Verif.Surf.C168_depends_on_position"
   ],
   "note": "Proved for consistently oriented meshes whose distinct vertices do not round to the same edge key. Without orientation the claim is false of the code: a tetrahedron with one face walked backwards passes issolidclosed and its volume changes with position."
  },
  {
   "property": "C169",
   "status": "proved",
   "theorems": [
    "Verif.Surf.C169_closed_iff",
    "Verif.Surf.C169_order_and_direction",
    "Verif.Surf.C169_errors"
   ],
   "note": ""
  },
  {
   "property": "C17",
   "status": "partial",
   "theorems": [
    "Verif.Assembly.C17_integrity",
    "Verif.Assembly.C17_accepted_iff",
    "Verif.Assembly.C17_rejected_unchanged_partial",
    "Verif.Assembly.C17_matrix_part_half_added",
    "Verif.Assembly.C17_import_not_atomic",
    "Verif.Assembly.C17_mate_names_not_unique"
   ],
   "note": "Integrity and acceptance conditions proved for every history. Refuted parts: add_part with a Matrix transform raises after registering the part; import_transforms is not atomic; mate and constraint names are not unique."
  },
  {
   "property": "C170",
   "status": "partial",
   "theorems": [
    "Verif.Surf.C170_in_range_partial",
    "Verif.Surf.C170_accepts_iff",
    "Verif.Surf.C170_dangling_accepted"
   ],
   "note": "Violated: out-of-range indices are accepted and the measuring functions raise IndexError; the positive part assumes in-range indices."
  },
  {
   "property": "C171",
   "status": "partial",
   "theorems": [
    "Verif.Surf.C171_stores_partial",
    "Verif.Surf.C171_result",
    "Verif.Surf.C171_holes_need_boundary",
    "Verif.Surf.C171_one_metadata"
   ],
   "note": "Violated for an empty boundary followed by holes (TypeError)."
  },
  {
   "property": "C172",
   "status": "partial",
   "theorems": [
    "Verif.Surf.C172_scale_origin_partial",
    "Verif.Surf.C172_translate",
    "Verif.Surf.C172_rotate",
    "Verif.Surf.C172_mirror",
    "Verif.Surf.C172_reverse",
    "Verif.Surf.C172_scale_about_opposite",
    "Verif.Surf.C172_two_factors_crash"
   ],
   "note": "Translation, rotation, mirror and reversal fully; scaling about a centre other than the origin is violated (fixed point is minus the centre), two factors raise ZeroDivisionError."
  },
  {
   "property": "C173",
   "status": "partial",
   "theorems": [
    "Verif.Surf.C173_tight_partial",
    "Verif.Surf.C173_empty_surface_crash",
    "Verif.Surf.C173_none"
   ],
   "note": "A vertex-less surface after one with vertices raises TypeError."
  },
  {
   "property": "C174",
   "status": "proved",
   "theorems": [
    "Verif.Surf.C174_add",
    "Verif.Surf.C174_built",
    "Verif.Surf.C174_tiny_triangle",
    "Verif.Surf.C174_normals"
   ],
   "note": "C174_tiny_triangle records that triangles smaller than epsilon become degenerate faces."
  },
  {
   "property": "C175",
   "status": "proved",
   "theorems": [
    "Verif.Surf.C175_area",
    "Verif.Surf.C175_congruent",
    "Verif.Surf.C175_rigid"
   ],
   "note": ""
  },
  {
   "property": "C176",
   "status": "proved",
   "theorems": [
    "Verif.Surf.C176_each_edge_once"
   ],
   "note": ""
  },
  {
   "property": "C177",
   "status": "partial",
   "theorems": [
    "Verif.Surf.C177_normals_partial",
    "Verif.Surf.C177_uniform_partial",
    "Verif.Surf.C177_inside_out"
   ],
   "note": "Holds for positive products of factors; for negative ones the normals point against the faces / the mesh turns inside out."
  },
  {
   "property": "C178",
   "status": "proved",
   "theorems": [
    "Verif.Prim.C178_prism",
    "Verif.Prim.C178_outward"
   ],
   "note": "prism and rectangularPlane modelled over the reals; sizes at least 2*epsilon"
  },
  {
   "property": "C179",
   "status": "partial",
   "theorems": [
    "Verif.Prim.C179_frustum",
    "Verif.Prim.C179_cone_partial",
    "Verif.Prim.C179_near_round",
    "Verif.Prim.C179_default",
    "Verif.Prim.C179_small_cone_open"
   ],
   "note": "Proved when r*h is at least 0.00045 (r at least 0.0009). For smaller cones the claim is false: tri2p0n rejects the thin triangles, the exception is swallowed and the cone comes out without side faces (C179_small_cone_open)."
  },
  {
   "property": "C18",
   "status": "partial",
   "theorems": [
    "Verif.Assembly.C18_no_cache_partial",
    "Verif.Assembly.C18_consistent_history_partial",
    "Verif.Assembly.C18_after_invalidate",
    "Verif.Assembly.C18_stale_parent",
    "Verif.Assembly.C18_stale_mate"
   ],
   "note": "Violated by the code: the cache key is only mate name and axis. Proved: no-cache solvers, consistent histories, and after invalidation every answer is right; negative theorems exhibit the stale answers."
  },
  {
   "property": "C180",
   "status": "proved",
   "theorems": [
    "Verif.Prim.C180_chord",
    "Verif.Prim.C180_sagitta",
    "Verif.Prim.C180_zero_chord"
   ],
   "note": "Positive limits; a chord limit of 0 raises ZeroDivisionError (C180_zero_chord)."
  },
  {
   "property": "C181",
   "status": "proved",
   "theorems": [
    "Verif.Prim.C181_sphere",
    "Verif.Prim.C181_closed",
    "Verif.Prim.C181_icosahedron",
    "Verif.Prim.C181_zero"
   ],
   "note": "Model: SphereModel.lean, real arithmetic; the two-digit formatting of the keys is an arbitrary function. Hypothesis: the new vertex list is not the object the table was last used with (id reuse is excluded; what happens then is bounded by C182_any_state)."
  },
  {
   "property": "C182",
   "status": "proved",
   "theorems": [
    "Verif.Prim.C182_any_state",
    "Verif.Prim.C182_stable"
   ],
   "note": "any state; arbitrary number formatting"
  },
  {
   "property": "C183",
   "status": "partial",
   "theorems": [
    "Verif.Prim.C183_revolution_partial",
    "Verif.Prim.C183_default_partial",
    "Verif.Prim.C183_two_poles",
    "Verif.Prim.C183_no_steps"
   ],
   "note": "Proved for rings wide enough to be told apart by the table (2 eps, n eps/2, and n eps/4 in area); below that the code merges or drops triangles. Both ends on the axis with one step: ValueError (C183_two_poles); no steps: ZeroDivisionError. The BREP result is not modelled."
  },
  {
   "property": "C184",
   "status": "proved",
   "theorems": [
    "Verif.Path.C184_empty",
    "Verif.Path.C184_total",
    "Verif.Path.C184_shares",
    "Verif.Path.C184_last",
    "Verif.Path.C184_clamped",
    "Verif.Path.C184_line",
    "Verif.Path.C184_arc",
    "Verif.Path.C184_continuous",
    "Verif.Path.C184_endpoints",
    "Verif.Path.C184_full_circle"
   ],
   "note": "exact arithmetic; C184_full_circle shows that an arc with equal ends has length 0"
  },
  {
   "property": "C185",
   "status": "proved",
   "theorems": [
    "Verif.Path.C185_part",
    "Verif.Path.C185_whole",
    "Verif.Path.C185_length",
    "Verif.Path.C185_whole_length"
   ],
   "note": "exact arithmetic; arcs are required to be arcs (IsArc) and the path to be joined"
  },
  {
   "property": "C186",
   "status": "partial",
   "theorems": [
    "Verif.Path.C186_monotone",
    "Verif.Path.C186_one",
    "Verif.Path.C186_range",
    "Verif.Path.C186_inverse_partial",
    "Verif.Path.C186_not_inverse",
    "Verif.Path.C186_zero"
   ],
   "note": "the conversions undo each other only when all segments have the same length; C186_not_inverse is a path of lengths 1 and 3 where they do not, and parameter 0 raises ValueError (C186_zero)"
  },
  {
   "property": "C187",
   "status": "partial",
   "theorems": [
    "Verif.Path.C187_order_partial",
    "Verif.Path.C187_out_of_range",
    "Verif.Path.C187_unknown",
    "Verif.Path.C184_empty"
   ],
   "note": "parameters out of range are clamped instead of rejected; segments of unknown type are dropped from parts and lengths"
  },
  {
   "property": "C188",
   "status": "partial",
   "theorems": [
    "Verif.Checks.C188_iff",
    "Verif.Checks.C188_closed",
    "Verif.Checks.C188_sphere",
    "Verif.Checks.C188_open",
    "Verif.Checks.C188_not_surface",
    "Verif.Checks.C188_direction_ignored",
    "Verif.Checks.C188_positions_ignored",
    "Verif.Checks.C188_double"
   ],
   "note": "the check is exactly 'every two vertex numbers are joined by 0 or 2 triangle sides' (C188_iff), which all oriented closed meshes meet (C188_closed) but others too: directions are ignored, and two equal triangles pass (C188_double); vertices are told apart by number, not position"
  },
  {
   "property": "C189",
   "status": "partial",
   "theorems": [
    "Verif.Checks.C189_iff",
    "Verif.Checks.C189_flat_partial",
    "Verif.Checks.C189_closed_rejected",
    "Verif.Checks.C189_tetrahedron",
    "Verif.Checks.C189_normals_ignored"
   ],
   "note": "right for flat meshes (C189_flat_partial); every closed consistently oriented surface is reported inconsistent (C189_closed_rejected), and the stored normals are never read"
  },
  {
   "property": "C19",
   "status": "proved",
   "theorems": [
    "Verif.Assembly.C19_flush",
    "Verif.Assembly.C19_concentric",
    "Verif.Assembly.C19_plane_datum_normal",
    "Verif.Assembly.C19_solve_coincident"
   ],
   "note": "Real arithmetic."
  },
  {
   "property": "C190",
   "status": "partial",
   "theorems": [
    "Verif.Checks.C190_points",
    "Verif.Checks.C190_direction",
    "Verif.Checks.C190_neighbours_partial",
    "Verif.Checks.C190_nothing_lost",
    "Verif.Checks.C190_closing",
    "Verif.Checks.C190_corners",
    "Verif.Checks.C190_rings",
    "Verif.Checks.C190_ring_ends",
    "Verif.Checks.C190_degenerate"
   ],
   "note": "all parts proved except that the last and first point of a loop may stay within the tolerance of each other (C190_closing)"
  },
  {
   "property": "C191",
   "status": "proved",
   "theorems": [
    "Verif.Checks.C191_normal",
    "Verif.Checks.C191_perpendicular",
    "Verif.Checks.C191_area",
    "Verif.Checks.C191_orient",
    "Verif.Checks.C191_centroid",
    "Verif.Checks.C191_degenerate"
   ],
   "note": "exact arithmetic; C191_degenerate: triangle_is_degenerate and triangle_normal use tolerances that differ by a factor of 2"
  },
  {
   "property": "C192",
   "status": "proved",
   "theorems": [
    "Verif.Checks.C192_closed",
    "Verif.Checks.C192_single"
   ],
   "note": ""
  },
  {
   "property": "C193",
   "status": "proved",
   "theorems": [
    "Verif.Segment.C193_partition",
    "Verif.Segment.C193_forward",
    "Verif.Segment.C193_all",
    "Verif.Segment.C193_ids",
    "Verif.Segment.C193_solids"
   ],
   "note": "solid kernel arbitrary; failed cuts are those with a warning"
  },
  {
   "property": "C194",
   "status": "proved",
   "theorems": [
    "Verif.Segment.C194_neighbours",
    "Verif.Segment.C194_symmetric"
   ],
   "note": ""
  },
  {
   "property": "C195",
   "status": "partial",
   "theorems": [
    "Verif.Segment.C195_graph_partial",
    "Verif.Segment.C195_no_forward_link"
   ],
   "note": "the graph is copied before the next segment is linked: it has only backward links, in every result"
  },
  {
   "property": "C196",
   "status": "partial",
   "theorems": [
    "Verif.Segment.C196_tab",
    "Verif.Segment.C196_male_partial",
    "Verif.Segment.C196_single",
    "Verif.Segment.C196_receiver_none",
    "Verif.Segment.C196_female_without_tab"
   ],
   "note": "male is right for all cuts, all types are right for one cut; with two cuts a receiver is reported none, or a segment female that receives nothing"
  },
  {
   "property": "C197",
   "status": "proved",
   "theorems": [
    "Verif.Segment.C197_errors",
    "Verif.Segment.C197_cut_point"
   ],
   "note": ""
  },
  {
   "property": "C198",
   "status": "proved",
   "theorems": [
    "Verif.Segment.C198_separate"
   ],
   "note": ""
  },
  {
   "property": "C199",
   "status": "proved",
   "theorems": [
    "Verif.Segment.C199_profile",
    "Verif.Segment.C199_fits"
   ],
   "note": "over the reals"
  },
  {
   "property": "C20",
   "status": "proved",
   "theorems": [
    "Verif.Metadata.C20_init_keeps",
    "Verif.Metadata.C20_init_idempotent",
    "Verif.Metadata.C20_add_tags",
    "Verif.Metadata.C20_tags_nodup",
    "Verif.Metadata.C20_set_layer",
    "Verif.Metadata.C20_set_material",
    "Verif.Metadata.C20_add_compliance",
    "Verif.Metadata.C20_add_analysis"
   ],
   "note": "An empty layer is replaced by 'default' (stated)."
  },
  {
   "property": "C200",
   "status": "partial",
   "theorems": [
    "Verif.Segment.C200_centred_partial",
    "Verif.Segment.C200_misses_cut"
   ],
   "note": "holds if all segments of the spine have the same length; otherwise the connector may not even reach the cut"
  },
  {
   "property": "C201",
   "status": "partial",
   "theorems": [
    "Verif.Segment.C201_ids_partial",
    "Verif.Segment.C201_same_id"
   ],
   "note": "ids use int(100 t)"
  },
  {
   "property": "C202",
   "status": "partial",
   "theorems": [
    "Verif.Segment.C202_length_ignored"
   ],
   "note": "does not hold: the result never depends on it"
  },
  {
   "property": "C203",
   "status": "partial",
   "theorems": [
    "Verif.Segment.C203_even",
    "Verif.Segment.C203_none",
    "Verif.Segment.C203_zero",
    "Verif.Segment.C203_limit_partial",
    "Verif.Segment.C203_too_long"
   ],
   "note": "the limit holds if all segments of the spine have the same length"
  },
  {
   "property": "C204",
   "status": "proved",
   "theorems": [
    "Verif.Segment.C204_errors",
    "Verif.Segment.C204_ranges",
    "Verif.Segment.C204_planes"
   ],
   "note": "what the kernel cuts out between the planes is not modelled"
  },
  {
   "property": "C205",
   "status": "proved",
   "theorems": [
    "Verif.Segment.C205_tab",
    "Verif.Segment.C205_errors"
   ],
   "note": ""
  },
  {
   "property": "C206",
   "status": "proved",
   "theorems": [
    "Verif.Ring.C206_shape",
    "Verif.Ring.C206_none",
    "Verif.Ring.C206_zero"
   ],
   "note": "any ordered field with a floor"
  },
  {
   "property": "C207",
   "status": "partial",
   "theorems": [
    "Verif.Ring.C207_avoids_partial",
    "Verif.Ring.C207_hits_hole",
    "Verif.Ring.C207_two_pieces",
    "Verif.Ring.C207_nearest"
   ],
   "note": "holds unless the last resort (even cuts) is returned; the last resort is returned although valid cuts exist"
  },
  {
   "property": "C208",
   "status": "partial",
   "theorems": [
    "Verif.Ring.C208_equal_partial",
    "Verif.Ring.C208_too_long"
   ],
   "note": "holds if the even cuts are clear of the holes; adjusted cuts can leave a piece longer than the limit"
  },
  {
   "property": "C209",
   "status": "proved",
   "theorems": [
    "Verif.Ring.C209_spine",
    "Verif.Ring.C209_length",
    "Verif.Ring.C209_even",
    "Verif.Ring.C209_zero",
    "Verif.Ring.C209_tilt"
   ],
   "note": "over the reals"
  },
  {
   "property": "C21",
   "status": "partial",
   "theorems": [
    "Verif.Metadata.C21_enum_rejected_partial",
    "Verif.Metadata.C21_add_rejected_keeps_partial",
    "Verif.Metadata.C21_add_appends",
    "Verif.Metadata.C21_rejected_datum_leaves_namespace",
    "Verif.Metadata.C21_rejected_operation_overwrites_kind",
    "Verif.Metadata.C21_rejected_material_writes_name",
    "Verif.Metadata.C21_surface_fields",
    "Verif.Metadata.C21_keepout_fields",
    "Verif.Metadata.C21_datum_fields"
   ],
   "note": "Violated for rejections noticed after the first write (three negative theorems). Proved: enum/id rejections leave everything; rejected add_* keep every existing value."
  },
  {
   "property": "C210",
   "status": "proved",
   "theorems": [
    "Verif.Ring.C210_attachment",
    "Verif.Ring.C210_on_spine"
   ],
   "note": "over the reals"
  },
  {
   "property": "C211",
   "status": "partial",
   "theorems": [
    "Verif.Ring.C211_profile_partial",
    "Verif.Ring.C211_thick",
    "Verif.Ring.C211_negative"
   ],
   "note": "a wall too thick silently gives a solid profile (the connector of the same beam raises); a negative wall gives a hole larger than the outline; C211_profile_partial is the part that holds"
  },
  {
   "property": "C212",
   "status": "proved",
   "theorems": [
    "Verif.Ring.C212_hole",
    "Verif.Ring.C212_zero_direction",
    "Verif.Ring.C212_small"
   ],
   "note": "dimensions and line of the sweep; the sweep itself is not modelled"
  },
  {
   "property": "C213",
   "status": "proved",
   "theorems": [
    "Verif.Valid.C213_verdict",
    "Verif.Valid.C213_raise",
    "Verif.Valid.C213_total"
   ],
   "note": "for any evaluation of the single constraints"
  },
  {
   "property": "C214",
   "status": "partial",
   "theorems": [
    "Verif.Valid.C214_results_partial",
    "Verif.Valid.C214_lost"
   ],
   "note": "holds if the names differ; with equal names a failed result is replaced by a later one"
  },
  {
   "property": "C215",
   "status": "partial",
   "theorems": [
    "Verif.Valid.C215_total_partial",
    "Verif.Valid.C215_missing_frame",
    "Verif.Valid.C215_raises"
   ],
   "note": "holds unless axis_b is invalid, boxes are given for MIN_DISTANCE without a second part, or a mesh has no vertices: then the exception ends the whole report"
  },
  {
   "property": "C216",
   "status": "proved",
   "theorems": [
    "Verif.Valid.C216_coincident",
    "Verif.Valid.C216_at_distance",
    "Verif.Valid.C216_reference"
   ],
   "note": "over the reals"
  },
  {
   "property": "C217",
   "status": "partial",
   "theorems": [
    "Verif.Valid.C217_face_partial",
    "Verif.Valid.C217_unknown_face",
    "Verif.Valid.C217_message"
   ],
   "note": "a name that is neither a standard face nor a frame is silently taken as the part's origin"
  },
  {
   "property": "C218",
   "status": "partial",
   "theorems": [
    "Verif.Valid.C218_parallel_partial",
    "Verif.Valid.C218_reference_partial",
    "Verif.Valid.C218_zero_reference"
   ],
   "note": "holds except for a reference axis of zero, which is parallel to everything"
  },
  {
   "property": "C219",
   "status": "proved",
   "theorems": [
    "Verif.Valid.C219_perpendicular",
    "Verif.Valid.C219_reference"
   ],
   "note": "over the reals"
  },
  {
   "property": "C22",
   "status": "partial",
   "theorems": [
    "Verif.Lexer.C22_terminates",
    "Verif.Lexer.C22_one_eof",
    "Verif.Lexer.C22_indent_balance",
    "Verif.Lexer.C22_balanced_partial",
    "Verif.Lexer.C22_lenient_dedent_unbalanced"
   ],
   "note": "Termination, single EOF and the exact balance law proved for all sources; 'never negative' is violated by the lenient dedent branch (negative theorem), and holds when no lenient dedent occurs."
  },
  {
   "property": "C220",
   "status": "proved",
   "theorems": [
    "Verif.Valid.C220_motion"
   ],
   "note": "over the reals"
  },
  {
   "property": "C221",
   "status": "partial",
   "theorems": [
    "Verif.Valid.C221_concentric_partial",
    "Verif.Valid.C221_symmetric_partial",
    "Verif.Valid.C221_not_symmetric"
   ],
   "note": "only the distance of the second origin from the first axis is measured; symmetric only for exactly parallel axes"
  },
  {
   "property": "C222",
   "status": "proved",
   "theorems": [
    "Verif.Valid.C222_tangent",
    "Verif.Valid.C222_exact",
    "Verif.Valid.C222_cases"
   ],
   "note": "over the reals"
  },
  {
   "property": "C223",
   "status": "partial",
   "theorems": [
    "Verif.Valid.C223_bolt_partial",
    "Verif.Valid.C223_blind",
    "Verif.Valid.C223_misaligned",
    "Verif.Valid.C223_degenerate"
   ],
   "note": "the holes are never compared; only the centres and normals are"
  },
  {
   "property": "C224",
   "status": "partial",
   "theorems": [
    "Verif.Valid.C224_min_distance_partial",
    "Verif.Valid.C224_origins",
    "Verif.Valid.C224_too_strict"
   ],
   "note": "satisfied implies far enough apart (for a positive distance); the converse fails"
  },
  {
   "property": "C225",
   "status": "partial",
   "theorems": [
    "Verif.Valid.C225_stack_partial",
    "Verif.Valid.C225_upside_down"
   ],
   "note": "exact for upright parts; wrong for parts upside down"
  },
  {
   "property": "C226",
   "status": "partial",
   "theorems": [
    "Verif.Valid.C226_no_overlap",
    "Verif.Valid.C226_disjoint",
    "Verif.Valid.C226_unturned",
    "Verif.Valid.C226_depth",
    "Verif.Valid.C226_skipped",
    "Verif.Valid.C226_too_strict"
   ],
   "note": "the first four are the part that holds; without boxes and meshes the constraint is always satisfied; turned parts can fail though far apart"
  },
  {
   "property": "C227",
   "status": "proved",
   "theorems": [
    "Verif.Valid.C227_transform_box"
   ],
   "note": "over any ordered field"
  },
  {
   "property": "C228",
   "status": "proved",
   "theorems": [
    "Verif.Valid.C228_ray"
   ],
   "note": "over any ordered field"
  },
  {
   "property": "C229",
   "status": "partial",
   "theorems": [
    "Verif.Valid.C229_parity",
    "Verif.Valid.C229_box_partial",
    "Verif.Valid.C229_diagonal",
    "Verif.Valid.C229_centre",
    "Verif.Valid.C229_random"
   ],
   "note": "proved for boxes off the diagonals; on the diagonals (e.g. the centre of every box) the answer is wrong; other closed meshes are not proved"
  },
  {
   "property": "C23",
   "status": "proved",
   "theorems": [
    "Verif.Lexer.C23_scan_string",
    "Verif.Lexer.C23_spelling_exists",
    "Verif.Lexer.C23_tokenize_string"
   ],
   "note": "Surrogate code points are outside Lean's Char; int()'s extra spellings inside hex escapes are treated as errors."
  },
  {
   "property": "C230",
   "status": "partial",
   "theorems": [
    "Verif.Valid.C230_apart",
    "Verif.Valid.C230_failed",
    "Verif.Valid.C230_symmetric",
    "Verif.Valid.C230_reason",
    "Verif.Valid.C230_missed"
   ],
   "note": "all but the last clause; without the collision library a bar through a wedge is missed"
  },
  {
   "property": "C231",
   "status": "proved",
   "theorems": [
    "Verif.Record.C231_load_case"
   ],
   "note": "any combination of optional fields"
  },
  {
   "property": "C232",
   "status": "partial",
   "theorems": [
    "Verif.Record.C232_valid_partial",
    "Verif.Record.C232_zero_direction"
   ],
   "note": "holds except that the zero vector is accepted as a direction"
  },
  {
   "property": "C233",
   "status": "partial",
   "theorems": [
    "Verif.Record.C233_bolts_partial",
    "Verif.Record.C233_valid",
    "Verif.Record.C233_fraction"
   ],
   "note": "holds for whole numbers of bolts; fractions are accepted and truncated when written (then possibly refused)"
  },
  {
   "property": "C234",
   "status": "partial",
   "theorems": [
    "Verif.Record.C234_frame_partial",
    "Verif.Record.C234_frozen",
    "Verif.Record.C234_datum"
   ],
   "note": "name, datum, description and present transform are kept; a frame that followed a datum does not follow it any more after reading"
  },
  {
   "property": "C235",
   "status": "partial",
   "theorems": [
    "Verif.Record.C235_part_partial"
   ],
   "note": "everything is kept except that frames from datums become fixed (C234_frozen)"
  },
  {
   "property": "C236",
   "status": "proved",
   "theorems": [
    "Verif.Record.C236_result",
    "Verif.Record.C236_unknown"
   ],
   "note": ""
  },
  {
   "property": "C237",
   "status": "partial",
   "theorems": [
    "Verif.Record.C237_record",
    "Verif.Record.C237_signature",
    "Verif.Record.C237_created"
   ],
   "note": "the hash is a parameter without collisions; the record created from the empty source is not accepted for the empty source"
  },
  {
   "property": "C238",
   "status": "partial",
   "theorems": [
    "Verif.Record.C238_config",
    "Verif.Record.C238_color_partial",
    "Verif.Record.C238_capital"
   ],
   "note": "colors with a capital letter in the palette are never found"
  },
  {
   "property": "C239",
   "status": "partial",
   "theorems": [
    "Verif.Record.C239_sidecar_partial",
    "Verif.Record.C239_same_sidecar"
   ],
   "note": "holds for names with one dot; names with versions (bolt.v1.step, bolt.v2.step) share a sidecar"
  },
  {
   "property": "C24",
   "status": "partial",
   "theorems": [
    "Verif.Lexer.C24_comment_skipped_partial",
    "Verif.Lexer.C24_unclosed",
    "Verif.Lexer.C24_comment_line",
    "Verif.Lexer.C24_leading_comment_indents"
   ],
   "note": "Violated for comments preceding code on a line (negative theorem); proved for comments inside a line without newline, comment lines, and unclosed comments."
  },
  {
   "property": "C240",
   "status": "proved",
   "theorems": [
    "Verif.Record.C240_content"
   ],
   "note": "the order of the keys is not claimed"
  },
  {
   "property": "C241",
   "status": "proved",
   "theorems": [
    "Verif.Ana.C241_plane",
    "Verif.Ana.C241_sphere",
    "Verif.Ana.C241_cylinder",
    "Verif.Ana.C241_cone",
    "Verif.Ana.C241_torus"
   ],
   "note": ""
  },
  {
   "property": "C242",
   "status": "partial",
   "theorems": [
    "Verif.Ana.C242_plane",
    "Verif.Ana.C242_sphere",
    "Verif.Ana.C242_cylinder",
    "Verif.Ana.C242_torus",
    "Verif.Ana.C242_cone_partial",
    "Verif.Ana.C242_cone_inward"
   ],
   "note": "proved but for cones, whose normals are perpendicular unit vectors that point inward"
  },
  {
   "property": "C243",
   "status": "proved",
   "theorems": [
    "Verif.Ana.C243_vertices",
    "Verif.Ana.C243_triangles",
    "Verif.Ana.C243_boundary"
   ],
   "note": "surfaces other than stored meshes, which are returned as they are"
  },
  {
   "property": "C244",
   "status": "partial",
   "theorems": [
    "Verif.Ana.C244_hull_partial",
    "Verif.Ana.C244_end",
    "Verif.Ana.C244_end_v",
    "Verif.Ana.C244_square",
    "Verif.Ana.C244_mean"
   ],
   "note": "holds but at the far ends of the ranges, where a clamped surface of positive degree evaluates to its first control point"
  },
  {
   "property": "C245",
   "status": "partial",
   "theorems": [
    "Verif.Brep.C245_edges",
    "Verif.Brep.C245_closed",
    "Verif.Brep.C245_euler",
    "Verif.Brep.C245_empty",
    "Verif.Brep.C245_sense"
   ],
   "note": "boundary and non-manifold edges and the Euler characteristic are exact; 'closed' means every edge is run over twice or not at all: senses are ignored and a shell without known faces is closed"
  },
  {
   "property": "C246",
   "status": "partial",
   "theorems": [
    "Verif.Brep.C246_claimed",
    "Verif.Brep.C246_detected",
    "Verif.Brep.C246_frame",
    "Verif.Brep.C246_refused",
    "Verif.Brep.C246_stale"
   ],
   "note": "acceptance and the frame are proved; a refused shell stays in the graph, and the mark goes stale"
  },
  {
   "property": "C247",
   "status": "partial",
   "theorems": [
    "Verif.Brep.C247_vertex_partial",
    "Verif.Brep.C247_edge_partial",
    "Verif.Brep.C247_face",
    "Verif.Brep.C247_order",
    "Verif.Brep.C247_again",
    "Verif.Brep.C247_seam"
   ],
   "note": "face_edges proved for all graphs; vertex_edges and edge_faces for histories in the natural order without repeated identities; the other histories and seams are counterexamples"
  },
  {
   "property": "C248",
   "status": "proved",
   "theorems": [
    "Verif.Brep.C248_accept",
    "Verif.Brep.C248_add"
   ],
   "note": "the geometric tests (intersecting shells, point in shell) are arbitrary functions"
  },
  {
   "property": "C249",
   "status": "partial",
   "theorems": [
    "Verif.Brep.C249_read_partial",
    "Verif.Brep.C249_closure",
    "Verif.Brep.C249_incidence",
    "Verif.Brep.C249_defaults",
    "Verif.Brep.C249_arc"
   ],
   "note": "all is read back but incidence, senses and tolerances of edges and whether shells are outer; arcs without parameters make the graph unreadable"
  },
  {
   "property": "C25",
   "status": "partial",
   "theorems": [
    "Verif.Types.C25_reflexive",
    "Verif.Types.C25_lists_covariant",
    "Verif.Types.C25_optional",
    "Verif.Types.C25_optional_inner",
    "Verif.Types.C25_common_type",
    "Verif.Types.C25_common_type_complete_partial",
    "Verif.Types.C25_common_type_misses_lists",
    "Verif.Types.C25_not_transitive",
    "Verif.Types.C25_optional_rejects_none",
    "Verif.Types.C25_empty_list_rejected",
    "Verif.Types.C25_rules"
   ],
   "note": "Reflexivity, list covariance and soundness of the common type proved for all types; the code is not transitive, rejects none for optionals and misses common types of lists (negative theorems)."
  },
  {
   "property": "C250",
   "status": "proved",
   "theorems": [
    "Verif.Brep.C250_topology"
   ],
   "note": ""
  },
  {
   "property": "C251",
   "status": "proved",
   "theorems": [
    "Verif.Brep.C251_translate"
   ],
   "note": "B-spline and mesh surfaces, whose points are moved one by one, are not included"
  },
  {
   "property": "C252",
   "status": "partial",
   "theorems": [
    "Verif.Brep.C252_plane",
    "Verif.Brep.C252_sphere",
    "Verif.Brep.C252_cylinder_partial",
    "Verif.Brep.C252_cone_partial",
    "Verif.Brep.C252_torus_partial",
    "Verif.Brep.C252_patch",
    "Verif.Brep.C252_line"
   ],
   "note": "proved for planes (patch by patch) and for the full spheres, cylinders, cones and tori; patches of the latter are not moved correctly (the reference direction is not transformed), and before reading back a cylinder turned by a right angle is flat"
  },
  {
   "property": "C253",
   "status": "partial",
   "theorems": [
    "Verif.Brep.C253_round",
    "Verif.Brep.C253_cylinder_partial",
    "Verif.Brep.C253_plane",
    "Verif.Brep.C253_circle",
    "Verif.Brep.C253_negative"
   ],
   "note": "proved for spheres and tori; cylinders and cones keep their range of v, planes their size, circles their radius; negative factors give graphs that cannot be read"
  },
  {
   "property": "C254",
   "status": "partial",
   "theorems": [
    "Verif.Obj.C254_fresh_partial",
    "Verif.Obj.C254_elem",
    "Verif.Obj.C254_error"
   ],
   "note": "proved for all histories in which no query raises and the property elem is not set; after either the stored values are stale"
  },
  {
   "property": "C255",
   "status": "partial",
   "theorems": [
    "Verif.Obj.C255_surface_partial",
    "Verif.Obj.C255_moved",
    "Verif.Obj.C255_failed"
   ],
   "note": "proved for histories of queries without transformations and failures; after a transformation the old surface is returned"
  },
  {
   "property": "C256",
   "status": "partial",
   "theorems": [
    "Verif.Obj.C256_fresh_partial",
    "Verif.Obj.C256_first",
    "Verif.Obj.C256_moved",
    "Verif.Obj.C256_half",
    "Verif.Obj.C256_combination"
   ],
   "note": "proved for histories that ask for geom first after construction and each transformation; otherwise the query raises and geom stays empty or old; a transformation that raises leaves some operands transformed"
  },
  {
   "property": "C257",
   "status": "partial",
   "theorems": [
    "Verif.Obj.C257_area_partial",
    "Verif.Obj.C257_line",
    "Verif.Obj.C257_xy",
    "Verif.Obj.C257_arc"
   ],
   "note": "proved for polylines at the xz and yz planes; at the xy plane the sign of the area changes, and points and arcs cannot be mirrored"
  },
  {
   "property": "C258",
   "status": "partial",
   "theorems": [
    "Verif.Obj.C258_outline_partial",
    "Verif.Obj.C258_length",
    "Verif.Obj.C258_line"
   ],
   "note": "proved for points at one height (lines not longer than epsilon are left out); arcs and circles as elements are not modelled; with lines as elements the outline is broken"
  },
  {
   "property": "C259",
   "status": "partial",
   "theorems": [
    "Verif.Obj.C259_polyline_partial",
    "Verif.Obj.C259_lines"
   ],
   "note": "proved for closed polylines; lines are ignored"
  },
  {
   "property": "C26",
   "status": "partial",
   "theorems": [
    "Verif.Interp.C26_scope_stack",
    "Verif.Interp.C26_scope_stack_expr",
    "Verif.Interp.C26_shadow",
    "Verif.Interp.C26_block_local",
    "Verif.Interp.C26_for_local_partial",
    "Verif.Interp.C26_if_local_partial",
    "Verif.Interp.C26_assign",
    "Verif.Interp.C26_match_leaks",
    "Verif.Interp.C26_default_sees_caller"
   ],
   "note": "Scope stack, shadowing, block locality and assignment proved for all programs; for/if locality proved for conditions without a binding match. A name bound by a match arm stays bound afterwards and default values are evaluated among the caller's variables: the code violates lexical scoping there (negative theorems)."
  },
  {
   "property": "C260",
   "status": "partial",
   "theorems": [
    "Verif.Obj.C260_sample_partial"
   ],
   "note": "polygons of points at one height; arcs and circles as elements are not modelled"
  },
  {
   "property": "C261",
   "status": "proved",
   "theorems": [
    "Verif.Obj.C261_rect"
   ],
   "note": "sides longer than epsilon"
  },
  {
   "property": "C262",
   "status": "proved",
   "theorems": [
    "Verif.Bool3.C262_pieces",
    "Verif.Bool3.C262_clip"
   ],
   "note": "over any ordered field"
  },
  {
   "property": "C263",
   "status": "partial",
   "theorems": [
    "Verif.Bool3.C263_area_partial"
   ],
   "note": "exact, at tolerance 0; with a tolerance points within it of a plane count on both sides"
  },
  {
   "property": "C264",
   "status": "proved",
   "theorems": [
    "Verif.Bool3.C264_fan"
   ],
   "note": ""
  },
  {
   "property": "C265",
   "status": "proved",
   "theorems": [
    "Verif.Bool3.C265_unique",
    "Verif.Bool3.C265_dedupe"
   ],
   "note": ""
  },
  {
   "property": "C266",
   "status": "partial",
   "theorems": [
    "Verif.Bool3.C266_convex_partial",
    "Verif.Bool3.C266_ell_cut"
   ],
   "note": "proved for convex solids; in an L-shaped prism half of a triangle inside is called outside. The rest of _clip_triangle_against_solid (classification of pieces by their midpoints) is not modelled"
  },
  {
   "property": "C267",
   "status": "partial",
   "theorems": [
    "Verif.Bool3.C267_box_partial",
    "Verif.Bool3.C267_ell_wrong",
    "Verif.Bool3.C267_convex_wrong",
    "Verif.Bool3.C267_hit"
   ],
   "note": "proved for every triangulation of the sides of a box; violated for an L-shaped and for a convex prism"
  },
  {
   "property": "C268",
   "status": "proved",
   "theorems": [
    "Verif.Bool3.C268_far"
   ],
   "note": ""
  },
  {
   "property": "C269",
   "status": "proved",
   "theorems": [
    "Verif.Bool3.C269_order"
   ],
   "note": ""
  },
  {
   "property": "C27",
   "status": "proved",
   "theorems": [
    "Verif.Interp.C27_depth_restored",
    "Verif.Interp.C27_within_limit",
    "Verif.Interp.C27_refused",
    "Verif.Interp.C27_admitted"
   ],
   "note": "All programs, limits and exit paths."
  },
  {
   "property": "C270",
   "status": "partial",
   "theorems": [
    "Verif.Bool3.C270_answers_partial",
    "Verif.Bool3.C270_small_triangle"
   ],
   "note": "proved without degenerate triangles; a hit on a small triangle raises ValueError"
  },
  {
   "property": "C271",
   "status": "partial",
   "theorems": [
    "Verif.Bool3.C271_keeps_partial",
    "Verif.Bool3.C271_never_watertight"
   ],
   "note": "the triangles are kept as stated; no nonempty result passes surface_watertight, because triangles share no vertex numbers"
  },
  {
   "property": "C272",
   "status": "partial",
   "theorems": [
    "Verif.Bool3.C272_parts",
    "Verif.Bool3.C272_symmetric_partial",
    "Verif.Bool3.C272_boxes"
   ],
   "note": "clipping is an arbitrary function; the fallback branches are shown dead; a union of which nothing is left of either boundary depends on the order of the operands"
  },
  {
   "property": "C273",
   "status": "proved",
   "theorems": [
    "Verif.Loops.C273_stitch"
   ],
   "note": "points, pieces and nearness (reflexive, symmetric) are arbitrary"
  },
  {
   "property": "C274",
   "status": "partial",
   "theorems": [
    "Verif.Loops.C274_closed_partial",
    "Verif.Loops.C274_close_corners"
   ],
   "note": "proved where nearness is transitive; violated with two corners less than two tolerances apart"
  },
  {
   "property": "C275",
   "status": "proved",
   "theorems": [
    "Verif.Loops.C275_once"
   ],
   "note": ""
  },
  {
   "property": "C276",
   "status": "partial",
   "theorems": [
    "Verif.Loops.C276_even_odd_partial",
    "Verif.Loops.C276_bracket"
   ],
   "note": "proved where the centroid of the corners tells nesting; a bracket around three sides of a square becomes a hole of the square"
  },
  {
   "property": "C277",
   "status": "partial",
   "theorems": [
    "Verif.Loops.C277_even_odd",
    "Verif.Loops.C277_above_below",
    "Verif.Loops.C277_zero_division"
   ],
   "note": "exact away from the sides, with the margin the 1e-16 in the code needs; a side falling by exactly 1e-16 raises ZeroDivisionError"
  },
  {
   "property": "C278",
   "status": "proved",
   "theorems": [
    "Verif.Loops.C278_finalize",
    "Verif.Loops.C278_sequence"
   ],
   "note": ""
  },
  {
   "property": "C279",
   "status": "proved",
   "theorems": [
    "Verif.Loops.C279_lines"
   ],
   "note": ""
  },
  {
   "property": "C28",
   "status": "proved",
   "theorems": [
    "Verif.Interp.C28_success_iff",
    "Verif.Interp.C28_last_emit",
    "Verif.Interp.C28_return_stops"
   ],
   "note": "C28_last_emit is for commands without a @meta hint, which rewraps the emitted data."
  },
  {
   "property": "C280",
   "status": "partial",
   "theorems": [
    "Verif.Loops.C280_polar",
    "Verif.Loops.C280_circle",
    "Verif.Loops.C280_small_circle"
   ],
   "note": "polarSampleArc for arcs with normalised angles; circles whose sides are longer than the tolerances; a circle of diameter up to minlen becomes a single point"
  },
  {
   "property": "C281",
   "status": "proved",
   "theorems": [
    "Verif.Loops.C281_linear",
    "Verif.Loops.C281_next",
    "Verif.Loops.C281_none"
   ],
   "note": ""
  },
  {
   "property": "C282",
   "status": "partial",
   "theorems": [
    "Verif.Loops.C282_circle",
    "Verif.Loops.C282_part_partial",
    "Verif.Loops.C282_holes",
    "Verif.Loops.C282_cases",
    "Verif.Loops.C282_minus_circle"
   ],
   "note": "about z axes, for circles and figures whose arcs are given with start <= end < start+360 (see C118); for an angle of -360 the last copy lies on the first"
  },
  {
   "property": "C283",
   "status": "partial",
   "theorems": [
    "Verif.Loops.C283_points",
    "Verif.Loops.C283_arc_partial",
    "Verif.Loops.C283_flat_box"
   ],
   "note": "points always; arcs in boxes at least 2 maxr wide in all three directions; in a flat box the centre is off the plane"
  },
  {
   "property": "C284",
   "status": "partial",
   "theorems": [
    "Verif.Loops.C284_poly_partial",
    "Verif.Loops.C284_zero_angles",
    "Verif.Loops.C284_crosses_itself"
   ],
   "note": "closed, in the box, distances, and counterclockwise around the centre where no angle is half of the sum or more; otherwise sides can cross; ZeroDivisionError if all draws are 0"
  },
  {
   "property": "C285",
   "status": "proved",
   "theorems": [
    "Verif.Loops.C285_samples",
    "Verif.Loops.C285_line",
    "Verif.Loops.C285_arcs",
    "Verif.Loops.C285_centre"
   ],
   "note": "the number of samples round(360*turns/dstep) is a parameter"
  },
  {
   "property": "C286",
   "status": "proved",
   "theorems": [
    "Verif.Hints.C286_keys",
    "Verif.Hints.C286_idempotent"
   ],
   "note": "For every module, with str, float, lower and splitting abstract up to str(str)=str and float(float)=float."
  },
  {
   "property": "C287",
   "status": "proved",
   "theorems": [
    "Verif.Hints.C287_errors",
    "Verif.Hints.C287_named"
   ],
   "note": "The schema is stated by full keys (EntryOk, HintOk), independently of how the code splits them."
  },
  {
   "property": "C288",
   "status": "partial",
   "theorems": [
    "Verif.Hints.C288_accepted_partial",
    "Verif.Hints.C288_joint_kind",
    "Verif.Hints.C288_feature_kind",
    "Verif.Hints.C288_documented_example"
   ],
   "note": "Violated: no joint_kind passes both the transform and the application (disjoint tables), and of the transform's feature kinds only pocket can be applied; the documented example raises ValueError. Proved for the eleven other keys."
  },
  {
   "property": "C289",
   "status": "partial",
   "theorems": [
    "Verif.Hints.C289_twice_partial",
    "Verif.Hints.C289_additive",
    "Verif.Hints.C289_lands",
    "Verif.Hints.C289_tags",
    "Verif.Hints.C289_entries",
    "Verif.Hints.C289_other"
   ],
   "note": "Violated for tags: they are appended again each time. Proved for all fields of assembly (but the four lists) and operation and other root fields."
  },
  {
   "property": "C29",
   "status": "partial",
   "theorems": [
    "Verif.Interp.C29_both_evaluated",
    "Verif.Interp.C29_not_short_circuit",
    "Verif.Interp.C29_value_partial"
   ],
   "note": "The code does not short-circuit: both operands are always evaluated (negative theorems). The value is the right one when both evaluate."
  },
  {
   "property": "C290",
   "status": "partial",
   "theorems": [
    "Verif.Hints.C290_normalised_partial",
    "Verif.Hints.C290_target_filter"
   ],
   "note": "Violated for a target_filter list with something else than strings; proved for every other hint, errors included."
  },
  {
   "property": "C291",
   "status": "proved",
   "theorems": [
    "Verif.Accept.C291_failed",
    "Verif.Accept.C291_status",
    "Verif.Accept.C291_order"
   ],
   "note": ""
  },
  {
   "property": "C292",
   "status": "partial",
   "theorems": [
    "Verif.Accept.C292_passed_partial",
    "Verif.Accept.C292_missing_metric",
    "Verif.Accept.C292_nan"
   ],
   "note": "violated: a metric that is missing or NaN passes"
  },
  {
   "property": "C293",
   "status": "partial",
   "theorems": [
    "Verif.Accept.C293_failed_criteria_partial",
    "Verif.Accept.C293_listed_failed",
    "Verif.Accept.C293_equality",
    "Verif.Accept.C293_underscore",
    "Verif.Accept.C293_results"
   ],
   "note": "violated: equalities and keys with underscores are not reported"
  },
  {
   "property": "C294",
   "status": "partial",
   "theorems": [
    "Verif.Accept.C294_calculix",
    "Verif.Accept.C294_calculix_order",
    "Verif.Accept.C294_fenics_order",
    "Verif.Accept.C294_fenics_partial",
    "Verif.Accept.C294_equality_ignored",
    "Verif.Accept.C294_nan"
   ],
   "note": "violated: FEniCS stops at a missing metric; == and ~= are ignored; NaN passes FEniCS"
  },
  {
   "property": "C295",
   "status": "proved",
   "theorems": [
    "Verif.Accept.C295_valid",
    "Verif.Accept.C295_result",
    "Verif.Accept.C295_unknown"
   ],
   "note": ""
  },
  {
   "property": "C296",
   "status": "partial",
   "theorems": [
    "Verif.Accept.C296_total_partial",
    "Verif.Accept.C296_list_kind",
    "Verif.Accept.C296_list_status"
   ],
   "note": "violated: unhashable kind or status raises TypeError"
  },
  {
   "property": "C297",
   "status": "partial",
   "theorems": [
    "Verif.Accept.C297_load_partial",
    "Verif.Accept.C297_execution",
    "Verif.Accept.C297_null_options",
    "Verif.Accept.C297_null_materials",
    "Verif.Accept.C297_required"
   ],
   "note": "violated: sections the validator does not look at"
  },
  {
   "property": "C298",
   "status": "partial",
   "theorems": [
    "Verif.Accept.C298_first",
    "Verif.Accept.C298_again_partial",
    "Verif.Accept.C298_one_entry",
    "Verif.Accept.C298_stale"
   ],
   "note": "violated: fields of earlier runs stay"
  },
  {
   "property": "C299",
   "status": "proved",
   "theorems": [
    "Verif.Step.C299_written",
    "Verif.Step.C299_references"
   ],
   "note": "write_step on the list of triangles of mesh_view; the texts of numbers and the header are left out"
  },
  {
   "property": "C30",
   "status": "proved",
   "theorems": [
    "Verif.Pkg.C30_verdict",
    "Verif.Pkg.C30_messages",
    "Verif.Pkg.C30_colour_range",
    "Verif.Pkg.C30_metallic_range"
   ],
   "note": "For every manifest on which the call returns (C86 is about raising)."
  },
  {
   "property": "C300",
   "status": "proved",
   "theorems": [
    "Verif.Step.C300_points",
    "Verif.Step.C300_edges",
    "Verif.Step.C300_lines"
   ],
   "note": "coordinates compared exactly, as the dictionary of tuples does"
  },
  {
   "property": "C301",
   "status": "proved",
   "theorems": [
    "Verif.Step.C301_parts",
    "Verif.Step.C301_names"
   ],
   "note": "read back with an independent reader of the entities"
  },
  {
   "property": "C302",
   "status": "proved",
   "theorems": [
    "Verif.Step.C302_faces",
    "Verif.Step.C301_parts"
   ],
   "note": ""
  },
  {
   "property": "C303",
   "status": "partial",
   "theorems": [
    "Verif.Step.C303_solid_partial",
    "Verif.Step.C301_parts",
    "Verif.Step.C303_flat_solid"
   ],
   "note": "proved: closed solid iff each side is used exactly twice in the mesh; the direction of the uses is not tested, so a triangle listed twice the same way round is written as a solid (C303_flat_solid)"
  },
  {
   "property": "C304",
   "status": "proved",
   "theorems": [
    "Verif.Step.C304_lines",
    "Verif.Step.C304_reference",
    "Verif.Step.C304_planes"
   ],
   "note": "over the reals; six-decimal rounding of the file is not modelled"
  },
  {
   "property": "C305",
   "status": "partial",
   "theorems": [
    "Verif.Thread.C305_domain",
    "Verif.Thread.C305_order",
    "Verif.Thread.C305_ends_partial",
    "Verif.Thread.C305_left_short"
   ],
   "note": "the ends are reached by right-handed threads only; a left-handed thread's last sample is short of x_end by the part of the turn (C305_left_short)"
  },
  {
   "property": "C306",
   "status": "proved",
   "theorems": [
    "Verif.Thread.C306_same"
   ],
   "note": "ordered fields with a floor; rounding left out"
  },
  {
   "property": "C307",
   "status": "partial",
   "theorems": [
    "Verif.Thread.C307_bounds_partial",
    "Verif.Thread.C307_negative"
   ],
   "note": "the bounds are proved for taper 0 and threads not deeper than the shaft's radius; for deeper ones the first sample has a negative radius (C307_negative)"
  },
  {
   "property": "C308",
   "status": "proved",
   "theorems": [
    "Verif.Thread.C308_shape",
    "Verif.Thread.C308_periodic",
    "Verif.Thread.C308_turn"
   ],
   "note": ""
  },
  {
   "property": "C309",
   "status": "proved",
   "theorems": [
    "Verif.Thread.C309_straight",
    "Verif.Thread.C309_density"
   ],
   "note": ""
  },
  {
   "property": "C31",
   "status": "partial",
   "theorems": [
    "Verif.Pkg.C31_one_entry",
    "Verif.Pkg.C31_hash_current_partial",
    "Verif.Pkg.C31_dotdot_stale",
    "Verif.Pkg.C31_categories_stale",
    "Verif.Pkg.C31_metadata_overrides"
   ],
   "note": "At most one entry per path proved for all histories. The recorded hash can be stale (negative theorems): two spellings of one path, the same path in two categories, metadata overriding the hash. Proved current for plain destinations used in one category."
  },
  {
   "property": "C310",
   "status": "partial",
   "theorems": [
    "Verif.Thread.C310_metric",
    "Verif.Thread.C310_unified",
    "Verif.Thread.C310_flats",
    "Verif.Thread.C310_units"
   ],
   "note": "unified_profile multiplies by the pitch twice: the depth is 0.64952 pitch^2, right only for a pitch of 1 mm"
  },
  {
   "property": "C311",
   "status": "proved",
   "theorems": [
    "Verif.Select.C311_range",
    "Verif.Select.C311_top",
    "Verif.Select.C311_bottom"
   ],
   "note": "real numbers; the edges and their curves are what the geometry kernel says"
  },
  {
   "property": "C312",
   "status": "partial",
   "theorems": [
    "Verif.Select.C312_crossing_partial",
    "Verif.Select.C312_flat"
   ],
   "note": "edges within the tolerance of the height are selected as crossing it, also those that lie at the height (C312_flat)"
  },
  {
   "property": "C313",
   "status": "proved",
   "theorems": [
    "Verif.Select.C313_near",
    "Verif.Select.C313_cylinder"
   ],
   "note": ""
  },
  {
   "property": "C314",
   "status": "proved",
   "theorems": [
    "Verif.Select.C314_length"
   ],
   "note": ""
  },
  {
   "property": "C315",
   "status": "proved",
   "theorems": [
    "Verif.Select.C315_direction",
    "Verif.Select.C315_horizontal"
   ],
   "note": "straight = taken for straight by the middle of the curve, see C316"
  },
  {
   "property": "C316",
   "status": "partial",
   "theorems": [
    "Verif.Select.C316_info_partial",
    "Verif.Select.C316_straight",
    "Verif.Select.C316_bent",
    "Verif.Select.C316_filters"
   ],
   "note": "straight edges are taken for straight, but so are curves whose middle is in the middle of the chord (C316_bent); edge_info uses rounded thresholds, so it says vertical of a few edges the selection does not return"
  },
  {
   "property": "C317",
   "status": "partial",
   "theorems": [
    "Verif.Select.C317_union_partial",
    "Verif.Select.C317_intersect_partial",
    "Verif.Select.C317_subtract_partial",
    "Verif.Select.C317_parts_partial",
    "Verif.Select.C317_none",
    "Verif.Select.C317_collision"
   ],
   "note": "holds if different edges have different hash codes; two edges with the same hash code are one (C317_collision)"
  },
  {
   "property": "C318",
   "status": "proved",
   "theorems": [
    "Verif.Catalog.C318_directories",
    "Verif.Catalog.C318_search",
    "Verif.Catalog.C318_custom",
    "Verif.Catalog.C318_series"
   ],
   "note": "POSIX only; YAML parsing outside the model"
  },
  {
   "property": "C319",
   "status": "proved",
   "theorems": [
    "Verif.Catalog.C319_fresh",
    "Verif.Catalog.C319_same",
    "Verif.Catalog.C319_failed"
   ],
   "note": "single thread; directories are cached too: a directory made after the first call is not seen until the caches are cleared (part of C319_failed)"
  },
  {
   "property": "C32",
   "status": "proved",
   "theorems": [
    "Verif.Pkg.C32_sign_keeps_hash",
    "Verif.Pkg.C32_signatures_ignored",
    "Verif.Pkg.C32_order_ignored",
    "Verif.Pkg.C32_detects"
   ],
   "note": "SHA-256 is a parameter; collisions appear in the conclusion."
  },
  {
   "property": "C320",
   "status": "partial",
   "theorems": [
    "Verif.Catalog.C320_untouched_partial",
    "Verif.Catalog.C320_alias"
   ],
   "note": "the returned dictionary is the cached one: changes are seen by later callers (C320_alias)"
  },
  {
   "property": "C321",
   "status": "partial",
   "theorems": [
    "Verif.Catalog.C321_size",
    "Verif.Catalog.C321_mixed"
   ],
   "note": "names with both capitals and small letters, as of fine threads, are found in the exact spelling only (C321_mixed)"
  },
  {
   "property": "C322",
   "status": "partial",
   "theorems": [
    "Verif.Catalog.C322_hardware",
    "Verif.Catalog.C322_class",
    "Verif.Catalog.C322_default"
   ],
   "note": "the default class 6g/6H does not exist for unified threads: such calls without a class fail (C322_default)"
  },
  {
   "property": "C323",
   "status": "partial",
   "theorems": [
    "Verif.Builtin.C323_min",
    "Verif.Builtin.C323_max",
    "Verif.Builtin.C323_abs",
    "Verif.Builtin.C323_rounding",
    "Verif.Builtin.C323_angles",
    "Verif.Builtin.C323_exp_partial"
   ],
   "note": "real arithmetic without rounding; exp is constant beyond ±700, without an error"
  },
  {
   "property": "C324",
   "status": "proved",
   "theorems": [
    "Verif.Builtin.C324_range",
    "Verif.Builtin.C324_len",
    "Verif.Builtin.C324_elements",
    "Verif.Builtin.C324_flatten_mixed"
   ],
   "note": ""
  },
  {
   "property": "C325",
   "status": "partial",
   "theorems": [
    "Verif.Builtin.C325_typed",
    "Verif.Builtin.C325_concat_partial",
    "Verif.Builtin.C325_concat_mixed"
   ],
   "note": "concat of lists of different types claims the type of the first (C325_concat_mixed)"
  },
  {
   "property": "C326",
   "status": "proved",
   "theorems": [
    "Verif.Builtin.C326_sum",
    "Verif.Builtin.C326_bool",
    "Verif.Builtin.C326_extremes"
   ],
   "note": "real arithmetic without rounding"
  },
  {
   "property": "C327",
   "status": "partial",
   "theorems": [
    "Verif.Builtin.C327_regions",
    "Verif.Builtin.C327_triangle",
    "Verif.Builtin.C327_convex_partial",
    "Verif.Builtin.C327_cut",
    "Verif.Builtin.C327_invariant",
    "Verif.Builtin.C327_rectangle",
    "Verif.Builtin.C327_regular",
    "Verif.Builtin.C327_arcs",
    "Verif.Builtin.C327_hole"
   ],
   "note": "arcs do not count, and regions with holes have area 0 (C327_arcs, C327_hole)"
  },
  {
   "property": "C328",
   "status": "proved",
   "theorems": [
    "Verif.Builtin.C328_perimeter",
    "Verif.Builtin.C328_holes",
    "Verif.Builtin.C328_shapes"
   ],
   "note": "lines at constant height (others are measured in the projection)"
  },
  {
   "property": "C329",
   "status": "partial",
   "theorems": [
    "Verif.Builtin.C329_symmetric_partial",
    "Verif.Builtin.C329_inside",
    "Verif.Builtin.C329_subdivided"
   ],
   "note": "it is the mean of the vertices: splitting an edge moves it (C329_subdivided)"
  },
  {
   "property": "C33",
   "status": "partial",
   "theorems": [
    "Verif.Pkg.C33_is_valid",
    "Verif.Pkg.C33_overall",
    "Verif.Pkg.C33_disagree",
    "Verif.Pkg.C33_invalid_ignored"
   ],
   "note": "Both verdicts characterised; they disagree when an entry names an unknown method (negative theorem)."
  },
  {
   "property": "C330",
   "status": "proved",
   "theorems": [
    "Verif.Builtin.C330_mirror",
    "Verif.Builtin.C330_error"
   ],
   "note": "axes shorter than 1e-10 count as zero"
  },
  {
   "property": "C331",
   "status": "partial",
   "theorems": [
    "Verif.Builtin.C331_translate",
    "Verif.Builtin.C331_rotate_partial",
    "Verif.Builtin.C331_rotate_small",
    "Verif.Builtin.C331_scale_partial",
    "Verif.Builtin.C331_scale_stale",
    "Verif.Builtin.C331_stale_example",
    "Verif.Builtin.C331_mirror_partial",
    "Verif.Builtin.C331_mirror_oblique"
   ],
   "note": "scaling by different factors leaves shape and native representation as they were (C331_scale_stale); mirrors with normals that are not along an axis use a coordinate plane (C331_mirror_oblique); tiny rotations turn the shape only. The kernel is modelled by its point maps"
  },
  {
   "property": "C332",
   "status": "proved",
   "theorems": [
    "Verif.Builtin.C332_union",
    "Verif.Builtin.C332_intersection",
    "Verif.Builtin.C332_difference",
    "Verif.Builtin.C332_lists",
    "Verif.Builtin.C332_errors"
   ],
   "note": "relative to the operation on two solids"
  },
  {
   "property": "C333",
   "status": "partial",
   "theorems": [
    "Verif.Builtin.C333_mesh_partial",
    "Verif.Builtin.C333_native",
    "Verif.Builtin.C333_shape",
    "Verif.Builtin.C333_drift",
    "Verif.Builtin.C333_normals"
   ],
   "note": "only the mesh is moved by the transform: the shape is turned by 0.001° besides, the native representation only turned by 0.001° (C333_native, C333_shape, C333_drift), normals are multiplied by the matrix (C333_normals)"
  },
  {
   "property": "C334",
   "status": "proved",
   "theorems": [
    "Verif.Gear.C334_closed",
    "Verif.Gear.C334_accepted",
    "Verif.Gear.C334_teeth",
    "Verif.Gear.C334_mirror"
   ],
   "note": "real arithmetic without rounding"
  },
  {
   "property": "C335",
   "status": "proved",
   "theorems": [
    "Verif.Gear.C335_involute",
    "Verif.Gear.C335_ends",
    "Verif.Gear.C335_order"
   ],
   "note": "for first flanks; the second are their mirror images (C334_mirror)"
  },
  {
   "property": "C336",
   "status": "proved",
   "theorems": [
    "Verif.Gear.C336_thickness",
    "Verif.Gear.C336_mesh"
   ],
   "note": "about the involutes the points are on (C335)"
  },
  {
   "property": "C337",
   "status": "partial",
   "theorems": [
    "Verif.Gear.C337_root_partial",
    "Verif.Gear.C337_below",
    "Verif.Gear.C337_far",
    "Verif.Gear.C337_spline",
    "Verif.Gear.C337_root_place",
    "Verif.Gear.C337_spline_points"
   ],
   "note": "violated: gears of many teeth have points inside the dedendum circle (C337_below), splines dig deeper (C337_spline), and one or two teeth have a negative dedendum radius (C337_far)"
  },
  {
   "property": "C338",
   "status": "partial",
   "theorems": [
    "Verif.Gear.C338_disjoint_partial",
    "Verif.Gear.C338_overlap",
    "Verif.Gear.C338_pointed"
   ],
   "note": "violated: large gears overlap at the base circle (C338_overlap, 106 teeth or more at 20 degrees), gears with few teeth at the tip (C338_pointed); neither is refused"
  },
  {
   "property": "C339",
   "status": "proved",
   "theorems": [
    "Verif.Export.C339_interfaces",
    "Verif.Export.C339_own_mates"
   ],
   "note": ""
  },
  {
   "property": "C34",
   "status": "proved",
   "theorems": [
    "Verif.Stl.C34_size",
    "Verif.Stl.C34_round_trip",
    "Verif.Stl.C34_solid_name_lost"
   ],
   "note": "Names starting with 'solid' are excluded: C34_solid_name_lost shows the file is then misread."
  },
  {
   "property": "C340",
   "status": "partial",
   "theorems": [
    "Verif.Export.C340_consistent_partial",
    "Verif.Export.C340_renamed"
   ],
   "note": "Proved for assemblies whose parts keep their definition's name; C340_renamed is an assembly with two exported parts of the same id and an interface that refers to none."
  },
  {
   "property": "C341",
   "status": "partial",
   "theorems": [
    "Verif.Export.C341_joint_partial",
    "Verif.Export.C341_second_lost",
    "Verif.Export.C341_unknown_frozen"
   ],
   "note": "Violated: a second motion mate is dropped; joints the target does not know become fixed."
  },
  {
   "property": "C342",
   "status": "partial",
   "theorems": [
    "Verif.Export.C342_constraints_partial",
    "Verif.Export.C342_angle_radians",
    "Verif.Export.C342_parallel_planes",
    "Verif.Export.C342_rigid_concentric"
   ],
   "note": "Proved for pairs without non-zero angles, parallel planes and rigid mates; the three theorems after it show what happens otherwise."
  },
  {
   "property": "C343",
   "status": "proved",
   "theorems": [
    "Verif.Export.C343_insertion"
   ],
   "note": ""
  },
  {
   "property": "C344",
   "status": "partial",
   "theorems": [
    "Verif.Export.C344_load_cases",
    "Verif.Export.C344_bolts_partial",
    "Verif.Export.C344_lost"
   ],
   "note": "Load cases in full; a bolt pattern needs a mate in its own direction."
  },
  {
   "property": "C345",
   "status": "proved",
   "theorems": [
    "Verif.Export.C345_datums",
    "Verif.Export.C345_material",
    "Verif.Export.C345_attributes"
   ],
   "note": ""
  },
  {
   "property": "C346",
   "status": "proved",
   "theorems": [
    "Verif.Export.C346_valid",
    "Verif.Export.C346_read",
    "Verif.Export.C346_round_trip"
   ],
   "note": "Directions are lists; a string or dictionary of length three passes the check too."
  },
  {
   "property": "C347",
   "status": "partial",
   "theorems": [
    "Verif.Export.C347_bolts_partial",
    "Verif.Export.C347_fraction"
   ],
   "note": "Fractional numbers of bolts are accepted and cannot be read back."
  },
  {
   "property": "C348",
   "status": "partial",
   "theorems": [
    "Verif.Export.C348_geoms_partial",
    "Verif.Export.C348_mixed"
   ],
   "note": "Proved for entries in millimetres."
  },
  {
   "property": "C349",
   "status": "proved",
   "theorems": [
    "Verif.Plane.C349_plane"
   ],
   "note": ""
  },
  {
   "property": "C35",
   "status": "proved",
   "theorems": [
    "Verif.Stl.C35_faces",
    "Verif.Stl.C35_vertices",
    "Verif.Stl.C35_plain",
    "Verif.Stl.C35_tolerance"
   ],
   "note": ""
  },
  {
   "property": "C350",
   "status": "proved",
   "theorems": [
    "Verif.Plane.C350_exists",
    "Verif.Plane.C350_inverse",
    "Verif.Plane.C350_forward",
    "Verif.Plane.C350_case"
   ],
   "note": ""
  },
  {
   "property": "C351",
   "status": "proved",
   "theorems": [
    "Verif.Plane.C351_distance",
    "Verif.Plane.C351_sign"
   ],
   "note": ""
  },
  {
   "property": "C352",
   "status": "partial",
   "theorems": [
    "Verif.Plane.C352_hit",
    "Verif.Plane.C352_complete_partial",
    "Verif.Plane.C352_shallow"
   ],
   "note": "violated for lines that cross the plane with a rise below epsilon (C352_shallow)"
  },
  {
   "property": "C353",
   "status": "partial",
   "theorems": [
    "Verif.Plane.C353_hit",
    "Verif.Plane.C353_complete_partial",
    "Verif.Plane.C353_basis_refused",
    "Verif.Plane.C353_outside",
    "Verif.Plane.C353_case"
   ],
   "note": "violated: the planar basis is refused, the triangle bounds the answer without inside; lines with a rise below epsilon are missed"
  },
  {
   "property": "C354",
   "status": "partial",
   "theorems": [
    "Verif.Plane.C354_on_planes_partial",
    "Verif.Plane.C354_false_partial",
    "Verif.Plane.C354_disjoint",
    "Verif.Plane.C354_sticks_out",
    "Verif.Plane.C354_opposite",
    "Verif.Plane.C354_case",
    "Verif.Plane.C354_coplanar"
   ],
   "note": "violated: see C354_disjoint, C354_sticks_out, C354_opposite. Proved: the segment lies on both planes; False is right for normals that differ and triangles that are not coplanar. The coplanar boolean is a parameter"
  },
  {
   "property": "C355",
   "status": "partial",
   "theorems": [
    "Verif.Plane.C355_distance_partial",
    "Verif.Plane.C355_error",
    "Verif.Plane.C355_sliver",
    "Verif.Plane.C355_sliver_case",
    "Verif.Plane.C355_case"
   ],
   "note": "violated for slivers with an edge below epsilon (C355_sliver)"
  },
  {
   "property": "C356",
   "status": "proved",
   "theorems": [
    "Verif.Intent.C356_sphere",
    "Verif.Intent.C356_plane",
    "Verif.Intent.C356_missing"
   ],
   "note": "spheres of radius at least 1e-10; a mag of 0 is the only refusal of a plane"
  },
  {
   "property": "C357",
   "status": "partial",
   "theorems": [
    "Verif.Intent.C357_cylinder_partial",
    "Verif.Intent.C357_axis_ignored"
   ],
   "note": "violated for axes that are not parallel to z (C357_axis_ignored); proved for those that are"
  },
  {
   "property": "C358",
   "status": "proved",
   "theorems": [
    "Verif.Intent.C358_ends",
    "Verif.Intent.C358_type"
   ],
   "note": "for names with at most one dot; what follows a second dot is dropped"
  },
  {
   "property": "C359",
   "status": "proved",
   "theorems": [
    "Verif.Intent.C359_all",
    "Verif.Intent.C359_refused"
   ],
   "note": ""
  },
  {
   "property": "C36",
   "status": "proved",
   "theorems": [
    "Verif.GeoJson.C36_round_trip",
    "Verif.GeoJson.C36_references"
   ],
   "note": ""
  },
  {
   "property": "C360",
   "status": "proved",
   "theorems": [
    "Verif.Intent.C360_success",
    "Verif.Intent.C360_radius"
   ],
   "note": ""
  },
  {
   "property": "C361",
   "status": "proved",
   "theorems": [
    "Verif.Intent.C361_issues",
    "Verif.Intent.C361_agrees",
    "Verif.Intent.C361_disagree"
   ],
   "note": ""
  },
  {
   "property": "C362",
   "status": "partial",
   "theorems": [
    "Verif.Intent.C362_consistent_partial",
    "Verif.Intent.C362_overlapping"
   ],
   "note": "violated: every clearance is satisfied (C362_overlapping)"
  },
  {
   "property": "C363",
   "status": "proved",
   "theorems": [
    "Verif.Intent.C363_contact",
    "Verif.Intent.C363_roll",
    "Verif.Intent.C363_orient",
    "Verif.Intent.C363_parallel"
   ],
   "note": ""
  },
  {
   "property": "C364",
   "status": "proved",
   "theorems": [
    "Verif.Thread.C364_fit"
   ],
   "note": "about the radius function of the thread, not the lead-in at the ends (C307); pitch at least 3.2 epsilon, depth at most the bolt's radius"
  },
  {
   "property": "C365",
   "status": "proved",
   "theorems": [
    "Verif.Thread.C365_length"
   ],
   "note": "lengths of at least epsilon, positive diameters"
  },
  {
   "property": "C366",
   "status": "proved",
   "theorems": [
    "Verif.Thread.C366_accepted",
    "Verif.Thread.C366_total"
   ],
   "note": ""
  },
  {
   "property": "C367",
   "status": "partial",
   "theorems": [
    "Verif.Surrogate.C367_holes_partial",
    "Verif.Surrogate.C367_none",
    "Verif.Surrogate.C367_out_of_plane"
   ],
   "note": "The holes are always in a plane parallel to xy, whatever the direction of the circle: those of the library's DDSM115 are not in the face they are in (C367_out_of_plane). Everything else is proved for every circle."
  },
  {
   "property": "C368",
   "status": "proved",
   "theorems": [
    "Verif.Surrogate.C368_fit",
    "Verif.Surrogate.C368_library"
   ],
   "note": "Every sun gear made with the servo's name and bolt circle; the four gears of the library are such."
  },
  {
   "property": "C369",
   "status": "partial",
   "theorems": [
    "Verif.Surrogate.C369_features",
    "Verif.Surrogate.C369_checked_partial",
    "Verif.Surrogate.C369_left_handed"
   ],
   "note": "The check says nothing of the handedness of the frame, and the library's DDSM115 has a left-handed one (C369_left_handed). The rest of the check is exact."
  },
  {
   "property": "C37",
   "status": "proved",
   "theorems": [
    "Verif.Xform.C37_set_get",
    "Verif.Xform.C37_index_check",
    "Verif.Xform.C37_rows_cols",
    "Verif.Xform.C37_mul",
    "Verif.Xform.C37_mulVec",
    "Verif.Xform.C37_mulScalar",
    "Verif.Xform.C37_laws",
    "Verif.Xform.C37_copy",
    "Verif.Xform.C37_ofFlat",
    "Verif.Xform.C37_translation",
    "Verif.Xform.C37_scale",
    "Verif.Xform.C37_scale_ignores_second_factor",
    "Verif.Xform.C37_rotation_unit",
    "Verif.Xform.C37_rotation_compose",
    "Verif.Xform.C37_rotation_rejects_non_unit",
    "Verif.Xform.C37_rotation_axis_002",
    "Verif.Xform.C37_scale_arguments"
   ],
   "note": "Exact arithmetic over a field / the reals. Rotation laws for unit axes; for a non-unit axis Rotation raises AttributeError (geom.geom), proved in C37_rotation_rejects_non_unit."
  },
  {
   "property": "C38",
   "status": "partial",
   "theorems": [
    "Verif.Geom.C38_rotate",
    "Verif.Geom.C38_scale_origin_partial",
    "Verif.Geom.C38_scale_about_opposite",
    "Verif.Geom.C38_scale_moves_centre"
   ],
   "note": "Rotation proved. Scaling about a centre other than the origin is violated: the figure is scaled about the opposite point."
  },
  {
   "property": "C39",
   "status": "proved",
   "theorems": [
    "Verif.Geom.C39_sample",
    "Verif.Geom.C39_unsample_sample",
    "Verif.Geom.C39_degenerate",
    "Verif.Geom.C39_segment",
    "Verif.Geom.C39_endpoints",
    "Verif.Geom.C39_arclength"
   ],
   "note": "over the reals"
  },
  {
   "property": "C40",
   "status": "proved",
   "theorems": [
    "Verif.Geom.C40_tight",
    "Verif.Geom.C40_small",
    "Verif.Geom.C40_line",
    "Verif.Geom.C40_list",
    "Verif.Geom.C40_list_arcs"
   ],
   "note": "over the reals; straight members and full circles; boxes of other arcs: C112"
  },
  {
   "property": "C41",
   "status": "proved",
   "theorems": [
    "Verif.Geom.C41_on_both",
    "Verif.Geom.C41_params",
    "Verif.Geom.C41_complete",
    "Verif.Geom.C41_none",
    "Verif.Geom.C41_not_coplanar"
   ],
   "note": "over the reals; 'well enough' = squared determinant at least epsilon"
  },
  {
   "property": "C42",
   "status": "proved",
   "theorems": [
    "Verif.Geom.C42_reproduces",
    "Verif.Geom.C42_unique",
    "Verif.Geom.C42_error",
    "Verif.Geom.C42_inside"
   ],
   "note": "over the reals"
  },
  {
   "property": "C43",
   "status": "partial",
   "theorems": [
    "Verif.Geom.C43_reverse_partial",
    "Verif.Geom.C43_twice_partial",
    "Verif.Geom.C43_polyline_lost",
    "Verif.Geom.C43_arc_not_restored"
   ],
   "note": "Violated for polylines (None) and for arcs already sample-reversed. Proved otherwise, nested to any depth."
  },
  {
   "property": "C44",
   "status": "partial",
   "theorems": [
    "Verif.Geom.C44_two_segments_never",
    "Verif.Geom.C44_two_segments_witness",
    "Verif.Geom.C44_all_crossings_partial"
   ],
   "note": "Violated: a polyline of exactly two segments is never tested. Proved for three or more segments."
  },
  {
   "property": "C45",
   "status": "proved",
   "theorems": [
    "Verif.Geom.C45_arclength",
    "Verif.Geom.C45_on_segment",
    "Verif.Geom.C45_endpoints",
    "Verif.Geom.C45_repeated_first_vertex"
   ],
   "note": "over the reals; a repeated first vertex raises ZeroDivisionError at u=0 (C45_repeated_first_vertex)"
  },
  {
   "property": "C46",
   "status": "proved",
   "theorems": [
    "Verif.Geom.C46_knots"
   ],
   "note": ""
  },
  {
   "property": "C47",
   "status": "partial",
   "theorems": [
    "Verif.Kin.C47_dict_roundtrip",
    "Verif.Kin.C47_euler_roundtrip_fails",
    "Verif.Kin.C47_euler_meaning_partial"
   ],
   "note": "The dictionary part holds; the Euler part is refuted: from_euler composes Rx*Ry*Rz while to_euler decomposes as Rz*Ry*Rx (C47_euler_roundtrip_fails)."
  },
  {
   "property": "C48",
   "status": "partial",
   "theorems": [
    "Verif.Kin.C48_chain_roundtrip",
    "Verif.Kin.C48_datum_frames_lost"
   ],
   "note": "Proved when no part hangs on a custom frame of GLOBAL_DATUM and no part is named ''; the datum condition is necessary in the code (C48_datum_frames_lost)."
  },
  {
   "property": "C49",
   "status": "partial",
   "theorems": [
    "Verif.Collision.C49_compatible_symm_partial",
    "Verif.Collision.C49_thread_symm_partial",
    "Verif.Collision.C49_compatible_basic",
    "Verif.Collision.C49_gear_compat_asymmetric",
    "Verif.Collision.C49_verdict_order_dependent"
   ],
   "note": "Refuted in general: the tolerance is relative to the first operand (C49_gear_compat_asymmetric, C49_verdict_order_dependent); holds for equal module/diameter/pitch."
  },
  {
   "property": "C50",
   "status": "proved",
   "theorems": [
    "Verif.Collision.C50_aabb_exact"
   ],
   "note": ""
  },
  {
   "property": "C51",
   "status": "proved",
   "theorems": [
    "Verif.Collision.C51_gear_mesh_check",
    "Verif.Collision.C51_gear_diameters"
   ],
   "note": ""
  },
  {
   "property": "C52",
   "status": "proved",
   "theorems": [
    "Verif.Resolver.C52_stages_in_order",
    "Verif.Resolver.C52_single_stage",
    "Verif.Resolver.C52_repeated_stage_applies_twice"
   ],
   "note": "Stage names distinct and no cutter is itself a target; with repeated stage names operations are applied again (witness)."
  },
  {
   "property": "C53",
   "status": "partial",
   "theorems": [
    "Verif.Xform.C53_copy_of_transposed_independent_partial",
    "Verif.Xform.C53_copy_shares_rows"
   ],
   "note": "Holds for copies of transposed matrices; refuted for untransposed ones, whose copies share row lists (C53_copy_shares_rows)."
  },
  {
   "property": "C54",
   "status": "partial",
   "theorems": [
    "Verif.Assembly.C54_transform_partial",
    "Verif.Assembly.C54_compose",
    "Verif.Assembly.C54_ndarray_ignored",
    "Verif.Assembly.C54_ndarray_is_identity",
    "Verif.Assembly.C54_rotation_rigid",
    "Verif.Assembly.C54_translation_rigid",
    "Verif.Assembly.C54_direction_unit"
   ],
   "note": "Proved for Matrix and row-list arguments; refuted for numpy arrays, which are silently treated as the identity (C54_ndarray_ignored, C54_ndarray_is_identity)."
  },
  {
   "property": "C55",
   "status": "partial",
   "theorems": [
    "Verif.Assembly.C55_validate_partial",
    "Verif.Assembly.C55_ignores_part_positions"
   ],
   "note": "Verdict proved relative to the transformed datum; refuted for positions: numpy transforms are ignored, so moving parts never changes the verdict (C55_ignores_part_positions)."
  },
  {
   "property": "C56",
   "status": "partial",
   "theorems": [
    "Verif.Assembly.C56_raises_iff_invalid_partial",
    "Verif.Assembly.C56_never_assembly_error"
   ],
   "note": "Raises iff invalid; refuted: the exception is AttributeError, never AssemblyError."
  },
  {
   "property": "C57",
   "status": "partial",
   "theorems": [
    "Verif.Assembly.C57_dof_partial",
    "Verif.Assembly.C57_other_mates_raise"
   ],
   "note": "Holds for COINCIDENT/CONCENTRIC mates; any other mate type raises AttributeError (MateType.FLUSH does not exist)."
  },
  {
   "property": "C58",
   "status": "partial",
   "theorems": [
    "Verif.Assembly.C58_facing",
    "Verif.Assembly.C58_parallel",
    "Verif.Assembly.C58_perpendicular",
    "Verif.Assembly.C58_radial",
    "Verif.Assembly.C58_at_radius",
    "Verif.Assembly.C58_tangent",
    "Verif.Assembly.C58_tangent_ignores_radius",
    "Verif.Assembly.C58_unimplemented_types_always_fail",
    "Verif.Assembly.C58_parallel_zero_axis_passes",
    "Verif.Assembly.C58_facing_names",
    "Verif.Assembly.C58_facing_unknown_name",
    "Verif.Assembly.C58_custom"
   ],
   "note": "Six implemented checks proved for non-zero vectors against Mathlib's angle; refuted: four declared types always fail, a zero axis is parallel to everything, TANGENT_TO_CIRCLE ignores the radius."
  },
  {
   "property": "C59",
   "status": "proved",
   "theorems": [
    "Verif.Assembly.C59_evaluate",
    "Verif.Assembly.C59_error_is_distance",
    "Verif.Assembly.C59_velocity_never_unsatisfies"
   ],
   "note": ""
  },
  {
   "property": "C60",
   "status": "proved",
   "theorems": [
    "Verif.Assembly.C60_mate_round_trip"
   ],
   "note": ""
  },
  {
   "property": "C61",
   "status": "partial",
   "theorems": [
    "Verif.Assembly.C61_coupled_motion_partial",
    "Verif.Assembly.C61_screw_ignores_reverse_and_offset",
    "Verif.Assembly.C61_mate_dof",
    "Verif.Assembly.C61_mate_dof_table"
   ],
   "note": "Screws with a pitch ignore reverse and offset; GEAR/RACK_PINION/CAM report -1 degrees of freedom."
  },
  {
   "property": "C62",
   "status": "partial",
   "theorems": [
    "Verif.Assembly.C62_mate_axis_partial",
    "Verif.Assembly.C62_axis_sign_reversed"
   ],
   "note": "Violated for X, Y, -X, -Y (sign reversed, proved for every pose); right for Z and -Z; rigidity and position proved for all names."
  },
  {
   "property": "C63",
   "status": "partial",
   "theorems": [
    "Verif.Assembly.C63_perpendicular",
    "Verif.Assembly.C63_parallel_revolute_partial",
    "Verif.Assembly.C63_small_angle_ignored"
   ],
   "note": "PERPENDICULAR exact; PARALLEL/REVOLUTE exact outside and within 0.0142 inside a 0.8 degree window, where the code does nothing (negative theorem)."
  },
  {
   "property": "C64",
   "status": "partial",
   "theorems": [
    "Verif.Assembly.C64_distance_partial"
   ],
   "note": "Violated: the child part's origin, not its datum, is placed; the theorem characterises exactly when the claim holds."
  },
  {
   "property": "C65",
   "status": "partial",
   "theorems": [
    "Verif.Assembly.C65_missing_datum_partial",
    "Verif.Assembly.C65_compute_transform_always_raises",
    "Verif.Assembly.C65_attribute_error"
   ],
   "note": "Violated: MateType has no ALIGNED member, so every first call raises AttributeError."
  },
  {
   "property": "C66",
   "status": "proved",
   "theorems": [
    "Verif.Assembly.C66_chain",
    "Verif.Assembly.C66_chain_stops",
    "Verif.Assembly.C66_star_treated_as_chain"
   ],
   "note": "New solver; NaN poses end the modelled loop early."
  },
  {
   "property": "C67",
   "status": "partial",
   "theorems": [
    "Verif.Assembly.C67_rigid_accepted",
    "Verif.Assembly.C67_accepted_near_rigid",
    "Verif.Assembly.C67_bottom_row_loose"
   ],
   "note": "Bottom row is compared with numpy's default relative tolerance 1e-5, so 1.00001 passes (negative theorem); the rest proved."
  },
  {
   "property": "C68",
   "status": "partial",
   "theorems": [
    "Verif.Assembly.Registry.C68_register_source",
    "Verif.Assembly.Registry.C68_register_datum",
    "Verif.Assembly.Registry.C68_file_datum",
    "Verif.Assembly.Registry.C68_negative_lookup_is_sticky",
    "Verif.Assembly.Registry.C68_register_datum_shadows_file",
    "Verif.Assembly.Registry.C68_file_replaces_registered",
    "Verif.Assembly.Registry.C68_search_paths"
   ],
   "note": "Registration proved for all histories; file lookups violated in three ways (negative theorems)."
  },
  {
   "property": "C69",
   "status": "partial",
   "theorems": [
    "Verif.Assembly.C69_datum_frame",
    "Verif.Assembly.C69_point_frame",
    "Verif.Assembly.C69_frame_not_normalised"
   ],
   "note": "FRAME datums are not normalised (negative theorem); plane, circle, axis, point proved."
  },
  {
   "property": "C70",
   "status": "proved",
   "theorems": [
    "Verif.Metadata.C70_id_stable"
   ],
   "note": ""
  },
  {
   "property": "C71",
   "status": "partial",
   "theorems": [
    "Verif.Metadata.C71_read_initialised_partial",
    "Verif.Metadata.C71_read_mutates"
   ],
   "note": "Violated: create=False still stores a metadata dictionary into an object that has none."
  },
  {
   "property": "C72",
   "status": "proved",
   "theorems": [
    "Verif.Lexer.C72_covers",
    "Verif.Lexer.C72_pair_operators",
    "Verif.Lexer.C72_single_operators",
    "Verif.Lexer.C72_words"
   ],
   "note": ""
  },
  {
   "property": "C73",
   "status": "proved",
   "theorems": [
    "Verif.Lexer.C73_line_continuation"
   ],
   "note": ""
  },
  {
   "property": "C74",
   "status": "proved",
   "theorems": [
    "Verif.Lexer.C74_decimal",
    "Verif.Lexer.C74_hex",
    "Verif.Lexer.C74_binary"
   ],
   "note": "CPython's 4300-digit limit not modelled."
  },
  {
   "property": "C75",
   "status": "partial",
   "theorems": [
    "Verif.Lexer.C75_layout_partial",
    "Verif.Lexer.C75_multiline_string_indents"
   ],
   "note": "Violated with multi-line strings or leading block comments (negative theorems); proved for sources without them."
  },
  {
   "property": "C76",
   "status": "partial",
   "theorems": [
    "Verif.Types.C76_list_literal_partial",
    "Verif.Types.C76_optional_element_wrong"
   ],
   "note": "Proved for element types that are not optional/unknown/error; with an optional element the code infers a type rejecting an earlier element."
  },
  {
   "property": "C77",
   "status": "partial",
   "theorems": [
    "Verif.Interp.C77_terminates_partial",
    "Verif.Interp.C77_named_default_diverges"
   ],
   "note": "Proved for programs without named arguments inside default values; with them the recursion guard is bypassed and evaluation never ends, whatever the limit."
  },
  {
   "property": "C78",
   "status": "proved",
   "theorems": [
    "Verif.Interp.C78_conditional",
    "Verif.Interp.C78_if_first",
    "Verif.Interp.C78_if_else"
   ],
   "note": ""
  },
  {
   "property": "C79",
   "status": "proved",
   "theorems": [
    "Verif.Interp.C79_size_limit",
    "Verif.Interp.C79_depth_limit"
   ],
   "note": ""
  },
  {
   "property": "C80",
   "status": "partial",
   "theorems": [
    "Verif.Interp.C80_call_as_condition",
    "Verif.Interp.C80_require_escapes",
    "Verif.Interp.C80_value_partial"
   ],
   "note": "Violated: the truth value of any command call raises AttributeError, which escapes execute."
  },
  {
   "property": "C81",
   "status": "partial",
   "theorems": [
    "Verif.Interp.C81_outermost",
    "Verif.Interp.C81_shadow_ignored",
    "Verif.Interp.C81_partial"
   ],
   "note": "Violated: the outermost binding wins; proved when no name is bound twice."
  },
  {
   "property": "C82",
   "status": "partial",
   "theorems": [
    "Verif.Interp.C82_undefined_assignment_succeeds",
    "Verif.Interp.C82_no_change_partial"
   ],
   "note": "Violated: the run succeeds; the assignment only records an entry nobody reports."
  },
  {
   "property": "C83",
   "status": "partial",
   "theorems": [
    "Verif.Interp.C83_nested_requirement_lost",
    "Verif.Interp.C83_all_reported_partial"
   ],
   "note": "Violated for called commands; proved for the requirements of the command itself."
  },
  {
   "property": "C84",
   "status": "partial",
   "theorems": [
    "Verif.Interp.C84_mixed_list_truncates",
    "Verif.Interp.C84_scalar_tagged_partial"
   ],
   "note": "Proved for expressions of literals, variables, operators and conditionals; violated for elements of mixed lists."
  },
  {
   "property": "C85",
   "status": "proved",
   "theorems": [
    "Verif.Interp.C85_exact",
    "Verif.Interp.C85_div_mod",
    "Verif.Interp.C85_pow_zero"
   ],
   "note": ""
  },
  {
   "property": "C86",
   "status": "partial",
   "theorems": [
    "Verif.Pkg.C86_returns_partial",
    "Verif.Pkg.C86_raises"
   ],
   "note": "Violated: entries without path, visual: null etc. raise. Proved for manifests of the documented shape."
  },
  {
   "property": "C87",
   "status": "partial",
   "theorems": [
    "Verif.Pkg.C87_unchanged_partial",
    "Verif.Pkg.C87_failed_call_copies"
   ],
   "note": "Violated: an unsupported category raises after the file was copied. Proved for supported categories and well-formed sections."
  },
  {
   "property": "C88",
   "status": "partial",
   "theorems": [
    "Verif.Pkg.C88_inside_partial",
    "Verif.Pkg.C88_escapes"
   ],
   "note": "Violated by destinations with '..'. Proved without '..'."
  },
  {
   "property": "C89",
   "status": "partial",
   "theorems": [
    "Verif.Pkg.C89_fresh_partial",
    "Verif.Pkg.C89_other_algorithm"
   ],
   "note": "Violated for every algorithm other than sha256 (proved for sha512, all inputs). Proved for sha256."
  },
  {
   "property": "C90",
   "status": "partial",
   "theorems": [
    "Verif.Pkg.C90_kept_partial",
    "Verif.Pkg.C90_second_gpg_overwrites"
   ],
   "note": "Violated: a second GPG signature overwrites the first one's file. Proved when the new signature file is fresh."
  },
  {
   "property": "C91",
   "status": "partial",
   "theorems": [
    "Verif.Pkg.C91_valid_checked_partial",
    "Verif.Pkg.C91_ssh_unchecked",
    "Verif.Pkg.C91_garbage_untrusted"
   ],
   "note": "Violated: without an allowed_signers file any content counts as VALID_UNTRUSTED. Proved for VALID."
  },
  {
   "property": "C92",
   "status": "proved",
   "theorems": [
    "Verif.Pkg.C92_tamper",
    "Verif.Pkg.C92_ssh_needs_key",
    "Verif.Pkg.C92_signature_file"
   ],
   "note": ""
  },
  {
   "property": "C93",
   "status": "partial",
   "theorems": [
    "Verif.Pkg.C93_validate_detects_partial",
    "Verif.Pkg.C93_artefacts_ignored"
   ],
   "note": "Violated: verify_package looks at no artefact. validate_package does."
  },
  {
   "property": "C94",
   "status": "proved",
   "theorems": [
    "Verif.Pkg.C94_recompute"
   ],
   "note": ""
  },
  {
   "property": "C95",
   "status": "partial",
   "theorems": [
    "Verif.Stl.C95_round_trip_partial",
    "Verif.Stl.C95_nan_facet_lost",
    "Verif.Stl.C95_name_adds_facet"
   ],
   "note": "Violated: facets with nan/inf coordinates are dropped and a name containing facet text adds facets. Proved for finite coordinates and harmless names."
  },
  {
   "property": "C96",
   "status": "partial",
   "theorems": [
    "Verif.Stl.C96_complete_partial",
    "Verif.Stl.C96_truncated_silently"
   ],
   "note": "Violated: a truncated file is read silently. Proved for the count found."
  },
  {
   "property": "C97",
   "status": "partial",
   "theorems": [
    "Verif.Stl.C97_normals",
    "Verif.Stl.C97_kept_partial",
    "Verif.Stl.C97_small_dropped"
   ],
   "note": "Violated: faces whose cross product is at most 5e-6 long are dropped. Proved for larger ones."
  },
  {
   "property": "C98",
   "status": "partial",
   "theorems": [
    "Verif.GeoJson.C98_surfaces_partial",
    "Verif.GeoJson.C98_others_dropped",
    "Verif.GeoJson.C98_same_id_dropped"
   ],
   "note": "Violated: with a solid present, sketches and free surfaces are dropped; of free surfaces with equal ids only the first is exported. Proved for solids (C36) and for documents of surfaces with distinct ids."
  },
  {
   "property": "C99",
   "status": "partial",
   "theorems": [
    "Verif.GeoJson.C99_metadata_id_partial",
    "Verif.GeoJson.C99_shared_surface_id"
   ],
   "note": "Violated when solids share a surface object. Proved otherwise."
  }
 ]
}