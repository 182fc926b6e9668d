# yapCAD formal model — design

Everything is Lean 4.33 under `lean/Verif/`; `lean/Verif.lean` imports it all. The statements are in
`properties.jsonl`, the status of each claim and the names of its theorems in `MANIFEST.json`, the experiments with
wrong programs in `seeded/LOG.jsonl`. The tables in sections 3 to 5 are generated from these files, from the citations in
the model and from Lean's own report of axioms.

## 1. Trusted base

* **Lean's kernel.** No axiom is added, nothing is left open, no compiled code is trusted (`decide +kernel` has the kernel
  evaluate a decision procedure; it is only used for finite facts inside a proof, such as the side lists of a cube).
  Section 5 lists the axioms of every theorem named in the manifest: a subset of `propext`, `Classical.choice`,
  `Quot.sound`.
* **The reading of the Python code.** No translation tool was used and the code was never run. Every definition of the
  model cites the file and lines it transcribes, and simplifications are stated in that comment or in the header of the
  model file. Section 4 says which functions are modelled and which are not.
* **Python itself.** Dictionaries keep insertion order; `list[i]` with a negative index counts from the end; sorting is
  stable; an exception leaves the effects made before it. These are written out in the model where they matter.
* **Numbers.** Floats are elements of an arbitrary linearly ordered field (OctTree, Kin, Metadata) or real numbers
  (wherever square roots or trigonometric functions occur). Rounding, NaN, infinities and overflow are outside the model,
  except in the STL and interpreter models, where float operations are arbitrary functions. The code's epsilons are kept
  with their values; trigonometric functions, `atan2`, `round`, `%` are the mathematical ones.
* **The outside world is a parameter.** OpenCascade and trimesh kernels, gpg and ssh-keygen, SHA digests, `uuid4`, the
  file system, number printing, built-in and native functions of the DSL, embedded Python: the theorems quantify over
  them, and what is needed of them is a visible hypothesis.

## 2. How each area is modelled and proved

For each area `X`: `Verif/X/*Model.lean` (or the file named like the class) has the transcription, `Spec.lean` or the
beginning of the properties file has the small independent notions the theorems use, and the other files have lemmas
and the theorems `Cnn_...`. An exception is a value (`Except`), a mutable object a state that is passed on; what a raising
call leaves behind is part of the result where the property is about it. Beside a theorem with hypotheses stands an
`example` that meets them. Where the code does not have the property, the theorem that holds is named `..._partial` and
theorems without that suffix give the witnesses against the full statement.

| area | properties | model | proofs |
|---|---|---|---|
| OctTree | C01–C03 | tree of boxes over an ordered field, depth as fuel-free recursion | induction on the depth: a common point of query and box descends into one child |
| Kin | C04–C09, C47, C48 | chain as state machine over association lists, transforms from a group, rotations over ℝ | invariants over operation lists, refinement of cached lookup to the product along the path, matrix algebra |
| Collision | C10–C13, C49–C51 | registry as map, detector with an arbitrary kernel | refinement, list combinatorics |
| Resolver | C14–C16, C52 | resolver over an abstract boolean engine | fold invariants, stability of sorting |
| Xform | C37, C53 | 4×4 matrices over a field, plus a heap model for sharing of rows | matrix algebra, Rodrigues' formula |
| Assembly | C17–C19, C54–C69 | assembly object and heap of part definitions, mates, solver with cache, constraints, datums, registry with files | invariants over histories, vector geometry over ℝ |
| Metadata | C20, C21, C70, C71 | ordered dictionaries with the effects of raising calls | induction over updates |
| Lexer | C22–C24, C72–C75 | functional lexer over `List Char` | induction on the text; layout algorithm against a specification by indentation columns |
| Types | C25, C76 | inductive types | structural induction |
| Parser | C137–C151 | one step function per parser method with recursion depth, proved never to run out | soundness and completeness against an inductive grammar |
| Checker | C152–C154, C156–C159, C161–C163 | checker monad with scopes and diagnostics | typing rules and scoping rules stated separately; soundness by induction over checker runs |
| Interp | C26–C29, C77–C85, C135, C136 | big-step interpreter with fuel, proved sufficient | induction on fuel and syntax |
| Pipe | C155, C160, C162–C164 | lexer, parser, checker and interpreter composed | type preservation for the core language, counterexamples as source text |
| Pkg | C30–C33, C86–C94 | manifest as YAML value, files as map | history induction, exact characterisation of verdicts |
| Stl | C34, C35, C95–C97 | bytes and characters | round trips by induction on the facets |
| GeoJson | C36, C98–C103 | store of shared surfaces, uuid supply | round trip with identity of shared objects |
| Geom | C38–C46, C105–C120, C165–C167 | vectors, lines, arcs, polylines and nested figures over ℝ | analytic geometry, induction over figures |
| Spline | C121–C129 | Bézier, B-spline, NURBS, Catmull-Rom over ℝ | induction on degree (de Boor, Bernstein), convexity, derivatives |
| Conic | C130–C134 | ellipse, parabola, hyperbola over ℝ | analytic geometry, derivatives |
| Surf | C168–C177 | surfaces and solids over ℝ, edge keys by rounding | edge counting, signed volume under affine maps (cancellation of opposite sides) |
| Prim | C178–C183 | prism, cone, sphere, surface of revolution, vertex table | labelled meshes: every side once in each direction; counting vertices of the subdivided icosahedron |
| Path | C184–C187 | points, tangents, parts and lengths of 3D paths | real arithmetic; rotation about an axis; induction over the segments |
| Checks | C188–C192 | mesh checks, triangle helpers, preparation of polygons for triangulation | counting sides; sum of the face normals of a closed mesh; any answer of the ear clipping library |
| Segment | C193–C205 | segmentation of swept elements, connectors, proposed cuts | any solid kernel; invariant of the loop over the cuts; explicit types when nothing fails |
| Ring | C206–C212 | rings: spines, attachment points, profiles, holes, cuts that avoid holes | real arithmetic and trigonometry; the placement of cuts over any ordered field, counterexamples computed over the rationals |
| Valid | C213–C230 | validation of assemblies against constraints; boxes, rays and meshes | real arithmetic and inverse trigonometric functions; rigid motions; boxes, rays and meshes over any ordered field, counterexamples computed over the rationals |
| Record | C231–C240 | records written as dictionaries and read again: load cases, bolt patterns, kinematic parts, collision results, provenance, viewer configuration, metadata sidecars | JSON values; case analysis and induction; any hash without collisions |
| Ana | C241–C244 | analytic surfaces: points, normals, meshes, B-spline surfaces | real arithmetic and trigonometry, derivatives; grids by index arithmetic; the Cox–de Boor recursion of Spline |
| Brep | C245–C253 | topology graphs of native B-reps: closure, additions, incidence, validation of solids, writing and reading, transformation | graphs as partial functions from any type of identities; histories by induction; geometric tests as arbitrary functions; surfaces of Ana over the reals |
| Obj | C254–C261 | the classes Geometry, Boolean and Polygon: caches, mirrored figures, outlines, samples, rectangles | state machines with arbitrary figures and functions of figures, refinement of a machine without caches by induction on histories; outlines over the reals |
| Bool3 | C262–C272 | native boolean operations on solids: cutting of polygons by planes, triangulation, merging of points, points in solids, surfaces of results, choice of triangles | ordered fields, distances by their squares; octrees as arbitrary functions; induction on polygons and planes; kernel computation on rational solids for the counterexamples |
| Loops | C273–C285 | geom_util: stitching into loops, components and holes, points in polygons, polygons from figures, patterns, random figures, spirals | arbitrary points and pieces with a nearness relation, counting of ends, forests; ordered fields; the reals for arcs; random numbers as an arbitrary stream |
| Hints | C286–C290 | `@meta` hints: the metadata transform, applying hints to metadata | dictionaries in insertion order; `str`, `float`, `lower` and splitting as arbitrary functions with their laws; every entry reduced to one write, fixed points |
| Accept | C291–C298 | analysis plans: evaluation of acceptance criteria (native, CalculiX, FEniCS), schema of plans and results, loading, recording in the manifest | metrics as numbers of an ordered field or NaN; dictionaries of arbitrary values; stripping of blanks as an arbitrary predicate |
| Step | C299–C304 | the faceted STEP export | coordinates as an arbitrary type with equality; a separate reader of the entities; flood fill as transitive closure; the reals for lines and planes |
| Thread | C305–C310 | thread profiles: sampling, radius, standard profiles | ordered fields with a floor; the shape as a function of the distance from the nearest crest; sets of numbers as finite sets |
| Select | C311–C317 | selection of edges of a solid by height, place, length, direction; set operations | real numbers; an edge is a parametrized curve, a length and a hash code, as the geometry kernel gives them |
| Catalog | C318–C322 | fastener catalogs: search order, caches, size lookup, bolt and nut data | a state machine over the two caches, the returned dictionaries, and a file system and environment that may change between calls; YAML parsing, `expanduser`, `resolve` outside; `str.upper`/`lower` arbitrary functions |
| Builtin | C323–C333 | built-ins of the DSL: numbers, lists, aggregation, area and perimeter, centroid, moving solids, boolean operations of many solids, applying transforms | ordered fields and real numbers; a solid as its mesh (Surf) and the points of its shape and native representation; boolean operations over an arbitrary operation on two solids |
| Sketch | C104 | sketches in geometry documents | geometry lists to primitives and back, for all element kinds; characterization of the result by induction; sampled polylines of curves, bounding box and metadata outside |
| Gear | C334–C338 | the gear outline (`contrib/figgear.py`) | points in the plane, real trigonometry; involutes as unwound strings; lists of points by index, rotation of lists for the symmetry |
| Assembly graph export | C339–C348 | `assembly/mechatron_export.py` and `assembly/load_case.py`: parts, interfaces, joints, constraints, insertion, load cases, bolt patterns, visual primitives (`Verif.Export.*`); the exporter reads the state of `Verif.Assembly` | dictionary grouping by induction on the list of mates, invariants over histories of calls, case analysis of the mate kinds |
| Planes and triangles | C349–C355 | `geom3d.py:196-458`: plane and basis of a triangle, distances from planes and triangles, intersections of lines with planes and of two triangles (`Verif.Plane.*`) over the matrices of `Verif.Xform` and `linePointXY`, `barycentricXY` of `Verif.Geom`; the in-plane boolean of coplanar triangles is a parameter | orthonormal frames as matrices, polynomial identities, convexity; computed wrong answers |
| Assembly intents | C356–C363 | `assembly/intent.py`: reference geometry, connections, requirements, `collect_constraints`, `solve`, `validate`, clearances (`Verif.Intent.*`); names are lists of characters split at dots; reports and the constraints' descriptions are left out | trigonometric identities; induction on names and on the lists of requirements; a witness for each violated claim |
| Catalog bolts and nuts | C364–C366 | `fasteners/builders.py` and the checks of `fasteners_legacy.py` (`Verif.Thread.{Builder,Fit}`): profiles with tolerances, thread lengths, accepted specifications; solids are not modelled | comparison of the two piecewise linear shapes of `C308_shape`; case analysis |
| Bought parts | C367–C369 | `assembly/mate_surrogates.py` (`Verif.Surrogate.*`): features, bolt circles, the library of motors, servos and sun gears, the check; texts, corners of polygons and printing are left out | angles modulo a turn; evaluation of the features by name |

## 3. Property by property

369 properties; 204 partial, 165 proved.

| id | property | modelled code | theorems | status and remarks |
|---|---|---|---|---|
| C01 | Octree box overlap test is exact | octtree.py: boxoverlap2, boxoverlap | OctTree/Props.lean: `C01_boxoverlap_exact_3d`, `C01_boxoverlap_exact_2d`, `C01_boxoverlap_symm` | proved. over every linearly ordered field; floats without rounding |
| C02 | Spatial tree query is complete and sound | octtree.py: NTree.addElement, NTree.updateTree, NTree.getElements, box2boxes, bbox2quad, bbox2oct | OctTree/Props.lean: `C02_query_exact` | proved. all histories of constructor/addElement/updateCenter/setters/getElements with well-formed boxes; order of the returned set unspecified |
| C03 | Tree subdivision terminates with bounded depth | octtree.py: NTree.updateTree | OctTree/Props.lean: `C03_depth_bounded` | proved. termination is totality of the Lean definition (well-founded on remaining depth) |
| C04 | World transform cache is coherent | kinematics/chain.py: KinematicChain.add_part, set_joint_value, get_world_transform, _invalidate_subtree | Kin/ChainProps.lean: `C04_world_transform_coherent`, `C04_unknown_part`, `C04_set_joint_local`, `C04_new_frame_free`, `C04_stale_after_frame_redefinition` | proved. Proved for every reachable history in which a frame that already has children is not redefined with add_frame; C04_stale_after_frame_redefinition is a concrete history showing that condition is needed in the code (stale cache). |
| C05 | Kinematic chain is always a forest | kinematics/chain.py: KinematicChain.add_part, get_chain_to_root, get_descendants, topological_sort | Kin/ChainProps.lean: `C05_forest`, `C05_chain_to_root`, `C05_descendants`, `C05_step_total`, `C05_add_part_rejects`, `C05_validate_clean` | proved. Invariant over all histories. get_chain_to_root theorem excludes parts named '' (falsy in Python). |
| C06 | Topological order puts parents first | kinematics/chain.py: _topological_sort, from_dict | Kin/ChainProps.lean: `C06_topo_perm`, `C06_parents_first` | proved. For every set iteration order. |
| C07 | Rigid transform algebra | kinematics/transform.py: Transform.compose, Transform.inverse, Transform.apply_to_point | Kin/TransformProps.lean: `C07_compose_assoc`, `C07_identity_neutral`, `C07_inverse_left`, `C07_inverse_right`, `C07_point_compose`, `C07_vector_compose`, `C07_preserves_distance`, `C07_rigid_identity`, `C07_rigid_compose`, `C07_rigid_inverse`, `C07_translation`, `C07_rotations_rigid`, `C07_axis_fixed`; Kin/RotationProps.lean: `C07_axis_angle_turns`, `C07_coordinate_axes`, `C07_axis_angle_coordinate`, `C07_vector_difference` | proved. Over any commutative ring (reals for the rotations). |
| C08 | Joint values are always inside their limits | kinematics/joint.py: Joint.clamp_value, Joint.set_value, Joint.get_transform | Kin/ChainProps.lean: `C08_value_within_limits`, `C08_clamp`, `C08_fixed_no_motion`, `C08_chain_in_limits` | proved. For clamped sets (clamp=True, the default); the constructor does not clamp the initial value. |
| C09 | Relative transforms compose | kinematics/chain.py: get_relative_transform | Kin/ChainProps.lean: `C09_relative_compose` | proved. Over any group of transforms; instance for the code's own rigid matrices in the same file. |
| C10 | Interface registry indexes agree with its contents | collision/registry.py: InterfaceRegistry.register, unregister, get, get_interfaces_for_part | Collision/Props.lean: `C10_registry_refines_list`, `C10_register_rejects` | proved. Refinement to a plain list for every history of register/unregister/clear. |
| C11 | Overlap is excused only by a compatible interface | collision/registry.py: InterfaceRegistry.check_overlap_compatibility | Collision/Props.lean: `C11_overlap_verdict`, `C11_compatible_names` | proved. overlaps_with/check_compatibility are arbitrary functions. |
| C12 | Collision check covers every pair exactly once | collision/detector.py: CollisionDetector.check_assembly, get_collision_summary | Collision/Props.lean: `C12_every_pair_once`, `C12_summary_adds_up` | proved. Geometry kernel and provider are arbitrary; cache shown transparent for a deterministic provider. |
| C13 | Caller's interface registry is the one consulted | collision/detector.py: CollisionDetector.__init__; collision/registry.py: __len__ | Collision/Props.lean: `C13_registry_shared_partial`, `C13_empty_registry_dropped` | partial. Holds for registries non-empty at construction (or set_interface_registry); refuted for empty ones: `interface_registry or InterfaceRegistry()` (C13_empty_registry_dropped). |
| C14 | Operator cuts are applied in priority order, stably | assembly/resolver.py: BasicResolver.resolve | Resolver/Props.lean: `C14_priority_order`, `C14_order_unique`, `C14_run_unique`, `C14_each_once` | proved. 'each exactly once' holds when target_filter does not repeat a target (a repeated listing is a repeated request). |
| C15 | Failure policy of the resolver | assembly/resolver.py: BasicResolver.resolve | Resolver/Props.lean: `C15_output_parts_partial`, `C15_success_iff`, `C15_consumed_cutter_in_output` | partial. False as stated: a consumed cutter that is itself a target stays in the output (witness theorem). Everything else is proved. |
| C16 | Invalid assemblies pass through unchanged | assembly/resolver.py: BasicResolver.validate, BasicResolver.resolve | Resolver/Props.lean: `C16_invalid_passthrough`, `C16_no_cutters` | proved. Both resolvers. |
| C17 | Assembly referential integrity | assembly/assembly.py: Assembly.add_part, add_mate, add_constraint, add_load_case, add_bolt_pattern | Assembly/Props.lean: `C17_integrity`, `C17_accepted_iff`, `C17_rejected_unchanged_partial`, `C17_matrix_part_half_added`, `C17_import_not_atomic`, `C17_mate_names_not_unique` | partial. Integrity and acceptance conditions proved for every history. Refuted parts: add_part with a Matrix transform raises after registering the part; import_transforms is not atomic; mate and constraint names are not unique. |
| C18 | Mate solver answers depend on the mate's inputs | assembly/solver.py: MateConstraintSolver.solve_mate, invalidate_cache | Assembly/SolverProps.lean: `C18_no_cache_partial`, `C18_consistent_history_partial`, `C18_after_invalidate`, `C18_stale_parent`, `C18_stale_mate` | partial. Violated by the code: the cache key is only mate name and axis. Proved: no-cache solvers, consistent histories, and after invalidation every answer is right; negative theorems exhibit the stale answers. |
| C19 | Coincident mate places datums together | assembly/face_mate.py: compute_flush_transform, compute_concentric_transform, _rotation_between_vectors, _apply_rotation_about_axis; assembly/solver.py: solve_mate, _solve_constraint | Assembly/FaceMateProps.lean: `C19_flush`, `C19_concentric`, `C19_plane_datum_normal`; Assembly/SolverProps.lean: `C19_solve_coincident` | proved. Real arithmetic. |
| C20 | Metadata initialisation never overwrites | metadata.py: _ensure_root, add_tags, set_layer | Metadata/Props.lean: `C20_init_keeps`, `C20_init_idempotent`, `C20_add_tags`, `C20_tags_nodup`, `C20_set_layer`; Metadata/Fields.lean: `C20_set_material`, `C20_add_compliance`, `C20_add_analysis` | proved. An empty layer is replaced by 'default' (stated). |
| C21 | Rejected metadata updates leave metadata unchanged | metadata.py: set_operation, add_datum, add_bolt_pattern, _validate_enum | Metadata/Props.lean: `C21_enum_rejected_partial`, `C21_add_rejected_keeps_partial`, `C21_add_appends`, `C21_rejected_datum_leaves_namespace`, `C21_rejected_operation_overwrites_kind`, `C21_rejected_material_writes_name`; Metadata/Fields.lean: `C21_surface_fields`, `C21_keepout_fields`, `C21_datum_fields` | partial. Violated for rejections noticed after the first write (three negative theorems). Proved: enum/id rejections leave everything; rejected add_* keep every existing value. |
| C22 | DSL lexer always terminates with a balanced token stream | dsl/lexer.py: Lexer.tokenize, _handle_line_start | Lexer/Props.lean: `C22_terminates`, `C22_one_eof`, `C22_indent_balance`, `C22_balanced_partial`, `C22_lenient_dedent_unbalanced` | partial. Termination, single EOF and the exact balance law proved for all sources; 'never negative' is violated by the lenient dedent branch (negative theorem), and holds when no lenient dedent occurs. |
| C23 | String literals denote what was escaped | dsl/lexer.py: _scan_string, _scan_escape | Lexer/Props2.lean: `C23_scan_string`, `C23_spelling_exists`, `C23_tokenize_string` | proved. Surrogate code points are outside Lean's Char; int()'s extra spellings inside hex escapes are treated as errors. |
| C24 | Nested comments are skipped exactly | dsl/lexer.py: _skip_block_comment | Lexer/Props2.lean: `C24_comment_skipped_partial`, `C24_unclosed`, `C24_comment_line`, `C24_leading_comment_indents` | partial. Violated for comments preceding code on a line (negative theorem); proved for comments inside a line without newline, comment lines, and unclosed comments. |
| C25 | Type assignability laws | dsl/types.py: Type.is_assignable_from, common_type | Types/Props.lean: `C25_reflexive`, `C25_lists_covariant`, `C25_optional`, `C25_optional_inner`, `C25_common_type`, `C25_common_type_complete_partial`, `C25_common_type_misses_lists`, `C25_not_transitive`, `C25_optional_rejects_none`, `C25_empty_list_rejected`, `C25_rules` | partial. Reflexivity, list covariance and soundness of the common type proved for all types; the code is not transitive, rejects none for optionals and misses common types of lists (negative theorems). |
| C26 | Lexical scoping of the interpreter | dsl/runtime/context.py: Scope, ExecutionContext.new_scope; dsl/runtime/interpreter.py | Interp/Props.lean: `C26_scope_stack`, `C26_scope_stack_expr`, `C26_shadow`, `C26_block_local`, `C26_for_local_partial`, `C26_if_local_partial`, `C26_assign`, `C26_match_leaks`, `C26_default_sees_caller` | partial. Scope stack, shadowing, block locality and assignment proved for all programs; for/if locality proved for conditions without a binding match. A name bound by a match arm stays bound afterwards and default values are evaluated among the caller's variables: the code violates lexical scoping there (negative theorems). |
| C27 | Recursion guard | dsl/runtime/interpreter.py: _call_command | Interp/Props.lean: `C27_depth_restored`, `C27_within_limit`, `C27_refused`, `C27_admitted` | proved. All programs, limits and exit paths. |
| C28 | Result of a command run | dsl/runtime/interpreter.py: execute, _execute_emit, _execute_require | Interp/Props.lean: `C28_success_iff`, `C28_last_emit`, `C28_return_stops` | proved. C28_last_emit is for commands without a @meta hint, which rewraps the emitted data. |
| C29 | Boolean operators short-circuit | dsl/runtime/interpreter.py: _eval_binary | Interp/Props.lean: `C29_both_evaluated`, `C29_not_short_circuit`, `C29_value_partial` | partial. The code does not short-circuit: both operands are always evaluated (negative theorems). The value is the right one when both evaluate. |
| C30 | Package validation verdict | package/validator.py: validate_package, _check_file, _validate_material | Pkg/Props.lean: `C30_verdict`, `C30_messages`; Pkg/Extra.lean: `C30_colour_range`, `C30_metallic_range` | proved. For every manifest on which the call returns (C86 is about raising). |
| C31 | One manifest entry per geometry path | package/core.py: add_geometry_file | Pkg/Add.lean: `C31_one_entry`, `C31_hash_current_partial`, `C31_dotdot_stale`, `C31_categories_stale`, `C31_metadata_overrides` | partial. At most one entry per path proved for all histories. The recorded hash can be stale (negative theorems): two spellings of one path, the same path in two categories, metadata overriding the hash. Proved current for plain destinations used in one category. |
| C32 | Signing does not disturb what is signed | package/signing.py: _compute_canonical_manifest_hash, sign_package | Pkg/Sign.lean: `C32_sign_keeps_hash`, `C32_signatures_ignored`, `C32_order_ignored`, `C32_detects` | proved. SHA-256 is a parameter; collisions appear in the conclusion. |
| C33 | Verification verdict of signatures | package/signing.py: verify_package, VerificationResult | Pkg/Sign.lean: `C33_is_valid`, `C33_overall`, `C33_disagree`, `C33_invalid_ignored` | partial. Both verdicts characterised; they disagree when an entry names an unknown method (negative theorem). |
| C34 | Binary STL round trip | io/stl.py: _write_binary, _is_binary_stl, _parse_binary_stl | Stl/Binary.lean: `C34_size`, `C34_round_trip`, `C34_solid_name_lost` | proved. Names starting with 'solid' are excluded: C34_solid_name_lost shows the file is then misread. |
| C35 | STL import shares vertices faithfully | io/stl.py: _triangles_to_surface | Stl/Mesh.lean: `C35_faces`, `C35_vertices`, `C35_plain`, `C35_tolerance` | proved.  |
| C36 | Geometry JSON round trip | io/geometry_json.py: geometry_to_json, geometry_from_json | GeoJson/Main.lean: `C36_round_trip`, `C36_references` | proved.  |
| C37 | 4x4 matrix multiplication respects the transpose flag | xform.py: Matrix.mul, Matrix.get, Matrix.set, Rotation, Translation, Scale | Xform/Props.lean: `C37_set_get`, `C37_index_check`, `C37_rows_cols`, `C37_mul`, `C37_mulVec`, `C37_mulScalar`, `C37_laws`, `C37_copy`, `C37_ofFlat`, `C37_translation`, `C37_scale`, `C37_scale_ignores_second_factor`, `C37_rotation_unit`, `C37_rotation_compose`, `C37_rotation_rejects_non_unit`, `C37_rotation_axis_002`, `C37_scale_arguments` | proved. Exact arithmetic over a field / the reals. Rotation laws for unit axes; for a non-unit axis Rotation raises AttributeError (geom.geom), proved in C37_rotation_rejects_non_unit. |
| C38 | Scaling and rotating about a centre fix the centre | geom.py: scale, rotate | Geom/FigProps.lean: `C38_rotate`, `C38_scale_origin_partial`, `C38_scale_about_opposite`, `C38_scale_moves_centre` | partial. Rotation proved. Scaling about a centre other than the origin is violated: the figure is scaled about the opposite point. |
| C39 | Line parametrisation round trip | geom.py: sampleline, unsampleline, segmentline | Geom/LineProps.lean: `C39_sample`, `C39_unsample_sample`, `C39_degenerate`, `C39_segment`, `C39_endpoints`, `C39_arclength` | proved. over the reals |
| C40 | Bounding boxes are tight | geom.py: polybbox, linebbox, geomlistbbox, isinsidebbox | Geom/PolyProps.lean: `C40_tight`, `C40_small`, `C40_line`; Geom/FigProps4.lean: `C40_list`; Geom/Tight.lean: `C40_list_arcs` | proved. over the reals; straight members and full circles; boxes of other arcs: C112 |
| C41 | Line intersections lie on both lines | geom.py: lineLineIntersectXY | Geom/LineProps.lean: `C41_on_both`, `C41_params`, `C41_complete`, `C41_none`, `C41_not_coplanar` | proved. over the reals; 'well enough' = squared determinant at least epsilon |
| C42 | Barycentric coordinates reproduce the point | geom.py: barycentricXY, isInsideTriangleXY | Geom/PolyProps.lean: `C42_reproduces`, `C42_unique`, `C42_error`, `C42_inside` | proved. over the reals |
| C43 | Reversing a geometry list reverses its sampling | geom.py: reverseGeomList | Geom/FigProps4.lean: `C43_reverse_partial`, `C43_twice_partial`, `C43_polyline_lost`, `C43_arc_not_restored` | partial. Violated for polylines (None) and for arcs already sample-reversed. Proved otherwise, nested to any depth. |
| C44 | Polyline intersection considers every segment | geom.py: intersectSimplePolyXY | Geom/PolyProps.lean: `C44_two_segments_never`, `C44_two_segments_witness`, `C44_all_crossings_partial` | partial. Violated: a polyline of exactly two segments is never tested. Proved for three or more segments. |
| C45 | Sampling a polyline stays on it | geom.py: samplepoly, __lineslength | Geom/PolyProps.lean: `C45_arclength`, `C45_on_segment`, `C45_endpoints`, `C45_repeated_first_vertex` | proved. over the reals; a repeated first vertex raises ZeroDivisionError at u=0 (C45_repeated_first_vertex) |
| C46 | Uniform knot vectors are valid | geom.py: _open_uniform_knot_vector, nurbs | Geom/PolyProps.lean: `C46_knots` | proved.  |
| C47 | Transform serialisation round trip | kinematics/transform.py: to_dict, from_dict, from_euler, to_euler | Kin/TransformProps.lean: `C47_dict_roundtrip`, `C47_euler_roundtrip_fails`; Kin/RotationProps.lean: `C47_euler_meaning_partial` | partial. The dictionary part holds; the Euler part is refuted: from_euler composes Rx*Ry*Rz while to_euler decomposes as Rz*Ry*Rx (C47_euler_roundtrip_fails). |
| C48 | Kinematic chain JSON round trip | kinematics/chain.py: to_dict, from_dict, _topological_sort; kinematics/part.py: to_dict, from_dict | Kin/ChainProps.lean: `C48_chain_roundtrip`, `C48_datum_frames_lost` | partial. Proved when no part hangs on a custom frame of GLOBAL_DATUM and no part is named ''; the datum condition is necessary in the code (C48_datum_frames_lost). |
| C49 | Interface compatibility does not depend on the order of the parts | collision/gear_interface.py: check_compatibility; collision/thread_interface.py: check_compatibility; collision/registry.py: check_overlap_compatibility | Collision/Props.lean: `C49_compatible_symm_partial`, `C49_thread_symm_partial`, `C49_compatible_basic`, `C49_gear_compat_asymmetric`, `C49_verdict_order_dependent` | partial. Refuted in general: the tolerance is relative to the first operand (C49_gear_compat_asymmetric, C49_verdict_order_dependent); holds for equal module/diameter/pitch. |
| C50 | Bounding box pre-filter is exact | collision/detector.py: _aabb_intersects | Collision/Props.lean: `C50_aabb_exact` | proved.  |
| C51 | Gear positioning check | collision/gear_interface.py: check_gear_mesh_collision, get_center_distance | Collision/Props.lean: `C51_gear_mesh_check`, `C51_gear_diameters` | proved.  |
| C52 | Staged resolution runs stages in order | assembly/resolver.py:StagedResolver.resolve | Resolver/Props.lean: `C52_stages_in_order`, `C52_single_stage`, `C52_repeated_stage_applies_twice` | proved. Stage names distinct and no cutter is itself a target; with repeated stage names operations are applied again (witness). |
| C53 | Copying a Matrix gives an independent matrix | xform.py: Matrix.__init__, getrow, setrow, set | Xform/Props.lean: `C53_copy_of_transposed_independent_partial`, `C53_copy_shares_rows` | partial. Holds for copies of transposed matrices; refuted for untransposed ones, whose copies share row lists (C53_copy_shares_rows). |
| C54 | Datums move with their part | assembly/datum.py: Datum.__post_init__, Datum.transform; xform.py: Matrix.__init__ | Assembly/DatumProps.lean: `C54_transform_partial`, `C54_compose`, `C54_ndarray_ignored`, `C54_ndarray_is_identity`, `C54_rotation_rigid`, `C54_translation_rigid`, `C54_direction_unit` | partial. Proved for Matrix and row-list arguments; refuted for numpy arrays, which are silently treated as the identity (C54_ndarray_ignored, C54_ndarray_is_identity). |
| C55 | Assembly validation verdict | assembly/assembly.py: Assembly.validate, get_transformed_datum; assembly/datum.py: Datum.transform | Assembly/Props.lean: `C55_validate_partial`, `C55_ignores_part_positions` | partial. Verdict proved relative to the transformed datum; refuted for positions: numpy transforms are ignored, so moving parts never changes the verdict (C55_ignores_part_positions). |
| C56 | Strict validation raises AssemblyError | assembly/assembly.py: Assembly.validate_and_raise | Assembly/Props.lean: `C56_raises_iff_invalid_partial`, `C56_never_assembly_error` | partial. Raises iff invalid; refuted: the exception is AttributeError, never AssemblyError. |
| C57 | Remaining degrees of freedom | assembly/assembly.py: Assembly.get_degrees_of_freedom | Assembly/Props.lean: `C57_dof_partial`, `C57_other_mates_raise` | partial. Holds for COINCIDENT/CONCENTRIC mates; any other mate type raises AttributeError (MateType.FLUSH does not exist). |
| C58 | Constraint checks measure the named geometric quantity | assembly/constraint.py: Constraint.evaluate and the _check_ methods | Assembly/ConstraintProps.lean: `C58_facing`, `C58_parallel`, `C58_perpendicular`, `C58_radial`, `C58_at_radius`, `C58_tangent`, `C58_tangent_ignores_radius`, `C58_unimplemented_types_always_fail`, `C58_parallel_zero_axis_passes`, `C58_facing_names`, `C58_facing_unknown_name`, `C58_custom` | partial. Six implemented checks proved for non-zero vectors against Mathlib's angle; refuted: four declared types always fail, a zero axis is parallel to everything, TANGENT_TO_CIRCLE ignores the radius. |
| C59 | Mate limit evaluation | assembly/mate.py: Mate.evaluate | Assembly/MateProps.lean: `C59_evaluate`, `C59_error_is_distance`, `C59_velocity_never_unsatisfies` | proved.  |
| C60 | Mate serialisation round trip | assembly/mate.py: Mate.to_dict, Mate.from_dict | Assembly/MateProps.lean: `C60_mate_round_trip` | proved.  |
| C61 | Coupled motion | assembly/mate.py: Mate.compute_coupled_motion, is_coupled, degrees_of_freedom | Assembly/MateProps.lean: `C61_coupled_motion_partial`, `C61_screw_ignores_reverse_and_offset`, `C61_mate_dof`, `C61_mate_dof_table` | partial. Screws with a pitch ignore reverse and offset; GEAR/RACK_PINION/CAM report -1 degrees of freedom. |
| C62 | Mate axis remapping points z along the named axis | assembly/solver.py: MATE_AXIS_ROTATIONS, apply_mate_axis_rotation | Assembly/SolverProps.lean: `C62_mate_axis_partial`, `C62_axis_sign_reversed` | partial. Violated for X, Y, -X, -Y (sign reversed, proved for every pose); right for Z and -Z; rigidity and position proved for all names. |
| C63 | Directional mates align directions | assembly/solver.py: _solve_parallel, _solve_perpendicular, _solve_concentric, _solve_revolute, _rotation_between_vectors, _rodrigues_rotation | Assembly/SolverProps.lean: `C63_perpendicular`, `C63_parallel_revolute_partial`, `C63_small_angle_ignored` | partial. PERPENDICULAR exact; PARALLEL/REVOLUTE exact outside and within 0.0142 inside a 0.8 degree window, where the code does nothing (negative theorem). |
| C64 | Distance mate keeps the child datum at the offset | assembly/solver.py: _solve_distance | Assembly/SolverProps.lean: `C64_distance_partial` | partial. Violated: the child part's origin, not its datum, is placed; the theorem characterises exactly when the claim holds. |
| C65 | FaceToFaceMate.compute_transform computes | assembly/face_mate.py: FaceToFaceMate.compute_transform | Assembly/FaceMateProps.lean: `C65_missing_datum_partial`, `C65_compute_transform_always_raises`, `C65_attribute_error` | partial. Violated: MateType has no ALIGNED member, so every first call raises AttributeError. |
| C66 | Mate chains accumulate poses | assembly/solver.py: solve_mate_chain | Assembly/SolverProps.lean: `C66_chain`, `C66_chain_stops`, `C66_star_treated_as_chain` | proved. New solver; NaN poses end the modelled loop early. |
| C67 | validate_transform accepts exactly rigid transforms | assembly/solver.py: validate_transform | Assembly/SolverProps.lean: `C67_rigid_accepted`, `C67_accepted_near_rigid`, `C67_bottom_row_loose` | partial. Bottom row is compared with numpy's default relative tolerance 1e-5, so 1.00001 passes (negative theorem); the rest proved. |
| C68 | The datum registry returns what was registered | assembly/datum_registry.py: DatumRegistry | Assembly/RegistryProps.lean: `C68_register_source`, `C68_register_datum`, `C68_file_datum`, `C68_negative_lookup_is_sticky`, `C68_register_datum_shadows_file`, `C68_file_replaces_registered`, `C68_search_paths` | partial. Registration proved for all histories; file lookups violated in three ways (negative theorems). |
| C69 | Datum frames are rigid frames at the datum | assembly/datum_registry.py: datum_to_transform_matrix | Assembly/RegistryProps.lean: `C69_datum_frame`, `C69_point_frame`, `C69_frame_not_normalised` | partial. FRAME datums are not normalised (negative theorem); plane, circle, axis, point proved. |
| C70 | Surface and solid ids are stable | metadata.py: ensure_surface_id, ensure_solid_id, get_surface_metadata, set_surface_units | Metadata/Props.lean: `C70_id_stable` | proved.  |
| C71 | Reading metadata does not modify | metadata.py: get_surface_metadata, get_solid_metadata | Metadata/Props.lean: `C71_read_initialised_partial`, `C71_read_mutates` | partial. Violated: create=False still stores a metadata dictionary into an object that has none. |
| C72 | Tokens cover the source | dsl/lexer.py: Lexer.tokenize | Lexer/Props.lean: `C72_covers`; Lexer/Props2.lean: `C72_pair_operators`, `C72_single_operators`, `C72_words` | proved.  |
| C73 | Brackets suspend line structure | dsl/lexer.py: _scan_token, _handle_line_start | Lexer/Props.lean: `C73_line_continuation` | proved.  |
| C74 | Integer literals denote their value | dsl/lexer.py: _scan_number, _scan_hex_number | Lexer/Props2.lean: `C74_decimal`, `C74_hex`, `C74_binary` | proved. CPython's 4300-digit limit not modelled. |
| C75 | Indentation tokens only at line starts | dsl/lexer.py: _handle_line_start, _advance | Lexer/Layout.lean: `C75_layout_partial`; Lexer/Props2.lean: `C75_multiline_string_indents` | partial. Violated with multi-line strings or leading block comments (negative theorems); proved for sources without them. |
| C76 | List literal types accept their elements | dsl/checker.py:_check_list_literal; dsl/types.py:common_type | Types/Props.lean: `C76_list_literal_partial`, `C76_optional_element_wrong` | partial. Proved for element types that are not optional/unknown/error; with an optional element the code infers a type rejecting an earlier element. |
| C77 | Every DSL run ends | dsl/runtime/interpreter.py: execute, _call_command, _eval_function_call | Interp/Props2.lean: `C77_terminates_partial`, `C77_named_default_diverges` | partial. Proved for programs without named arguments inside default values; with them the recursion guard is bypassed and evaluation never ends, whatever the limit. |
| C78 | Only the selected branch runs | dsl/runtime/interpreter.py: _eval_conditional, _execute_if | Interp/Props2.lean: `C78_conditional`, `C78_if_first`, `C78_if_else` | proved.  |
| C79 | Comprehension limits | dsl/runtime/interpreter.py: _eval_list_comprehension, _process_comprehension_clauses | Interp/Props2.lean: `C79_size_limit`, `C79_depth_limit` | proved.  |
| C80 | Command results can be used like any value | dsl/runtime/interpreter.py: _call_command; dsl/runtime/values.py: EmitResult | Interp/Props2.lean: `C80_call_as_condition`, `C80_require_escapes`, `C80_value_partial` | partial. Violated: the truth value of any command call raises AttributeError, which escapes execute. |
| C81 | Embedded Python sees the innermost bindings | dsl/runtime/interpreter.py: _execute_python_block / _execute_native | Interp/Props2.lean: `C81_outermost`, `C81_shadow_ignored`, `C81_partial` | partial. Violated: the outermost binding wins; proved when no name is bound twice. |
| C82 | Assigning an undefined variable is an error | dsl/runtime/interpreter.py: _execute_assignment; dsl/runtime/context.py: set_variable | Interp/Props2.lean: `C82_undefined_assignment_succeeds`, `C82_no_change_partial` | partial. Violated: the run succeeds; the assignment only records an entry nobody reports. |
| C83 | Failed requirements are reported | dsl/runtime/interpreter.py: execute, _execute_require, _call_command | Interp/Props2.lean: `C83_nested_requirement_lost`, `C83_all_reported_partial` | partial. Violated for called commands; proved for the requirements of the command itself. |
| C84 | Run-time type tags agree with the data | dsl/runtime/interpreter.py: _eval_binary_op, _eval_list_literal, _eval_index; dsl/runtime/values.py | Interp/Props2.lean: `C84_mixed_list_truncates`, `C84_scalar_tagged_partial` | partial. Proved for expressions of literals, variables, operators and conditionals; violated for elements of mixed lists. |
| C85 | Integer arithmetic is exact | dsl/runtime/interpreter.py: _eval_binary_op | Interp/Props2.lean: `C85_exact`, `C85_div_mod`, `C85_pow_zero` | proved.  |
| C86 | Validation always gives a verdict | package/validator.py: validate_package | Pkg/Props.lean: `C86_returns_partial`, `C86_raises` | partial. Violated: entries without path, visual: null etc. raise. Proved for manifests of the documented shape. |
| C87 | A failed import leaves the package unchanged | package/core.py: add_geometry_file | Pkg/Add.lean: `C87_unchanged_partial`, `C87_failed_call_copies` | partial. Violated: an unsupported category raises after the file was copied. Proved for supported categories and well-formed sections. |
| C88 | Imports stay inside the package | package/core.py: add_geometry_file | Pkg/Add.lean: `C88_inside_partial`, `C88_escapes` | partial. Violated by destinations with '..'. Proved without '..'. |
| C89 | A new package validates | package/core.py: create_package_from_entities; package/validator.py: validate_package | Pkg/Add.lean: `C89_fresh_partial`, `C89_other_algorithm` | partial. Violated for every algorithm other than sha256 (proved for sha512, all inputs). Proved for sha256. |
| C90 | Adding a signature keeps the earlier ones | package/signing.py: sign_package | Pkg/Sign.lean: `C90_kept_partial`, `C90_second_gpg_overwrites` | partial. Violated: a second GPG signature overwrites the first one's file. Proved when the new signature file is fresh. |
| C91 | VALID_UNTRUSTED means checked | package/signing.py: _verify_gpg_signature, _verify_ssh_signature | Pkg/Sign.lean: `C91_valid_checked_partial`, `C91_ssh_unchecked`, `C91_garbage_untrusted` | partial. Violated: without an allowed_signers file any content counts as VALID_UNTRUSTED. Proved for VALID. |
| C92 | Tampering with a signed manifest is detected | package/signing.py: verify_package | Pkg/Sign.lean: `C92_tamper`; Pkg/Extra.lean: `C92_ssh_needs_key`, `C92_signature_file` | proved.  |
| C93 | Verification covers the package's files | package/signing.py: verify_package; package/validator.py: validate_package | Pkg/Sign.lean: `C93_validate_detects_partial`, `C93_artefacts_ignored` | partial. Violated: verify_package looks at no artefact. validate_package does. |
| C94 | Recomputed hashes are current | package/core.py: PackageManifest.recompute_hashes | Pkg/Recompute.lean: `C94_recompute` | proved.  |
| C95 | ASCII STL round trip | io/stl.py: _write_ascii, _parse_ascii_stl | Stl/Ascii.lean: `C95_round_trip_partial`, `C95_nan_facet_lost`, `C95_name_adds_facet` | partial. Violated: facets with nan/inf coordinates are dropped and a name containing facet text adds facets. Proved for finite coordinates and harmless names. |
| C96 | A damaged binary STL file is reported | io/stl.py: _parse_binary_stl | Stl/Binary.lean: `C96_complete_partial`, `C96_truncated_silently` | partial. Violated: a truncated file is read silently. Proved for the count found. |
| C97 | Exported triangles carry unit normals and none is lost | mesh.py: mesh_view; io/stl.py: write_stl | Stl/Mesh.lean: `C97_normals`, `C97_kept_partial`, `C97_small_dropped` | partial. Violated: faces whose cross product is at most 5e-6 long are dropped. Proved for larger ones. |
| C98 | Everything exported is loaded | io/geometry_json.py: geometry_to_json, geometry_from_json | GeoJson/Extra.lean: `C98_surfaces_partial`, `C98_others_dropped`, `C98_same_id_dropped` | partial. Violated: with a solid present, sketches and free surfaces are dropped; of free surfaces with equal ids only the first is exported. Proved for solids (C36) and for documents of surfaces with distinct ids. |
| C99 | Reloaded surfaces carry the id they are listed under | io/geometry_json.py: _serialize_solid | GeoJson/Main.lean: `C99_metadata_id_partial`; GeoJson/Extra.lean: `C99_shared_surface_id` | partial. Violated when solids share a surface object. Proved otherwise. |
| C100 | Entity ids in a document are unique | io/geometry_json.py: geometry_to_json | GeoJson/Main.lean: `C36_references`; GeoJson/Extra.lean: `C100_solid_ids_clash` | partial. Violated: solids may clash with solids. Surface ids are unique (C36_references). |
| C101 | A solid's remaining fields survive | io/geometry_json.py: _serialize_solid, geometry_from_json; geom3d.py: solid | GeoJson/Main.lean: `C36_round_trip`; GeoJson/Extra.lean: `C101_material_lost` | partial. Violated: the third slot is read as voids, anything else in it is lost, and the fourth slot is not written at all. |
| C102 | Layers are inherited on export | io/geometry_json.py: _serialize_solid | GeoJson/Extra.lean: `C102_layers` | proved.  |
| C103 | Dangling references are rejected | io/geometry_json.py: geometry_from_json | GeoJson/Extra.lean: `C103_rejects` | proved.  |
| C104 | Sketches survive export and import | io/geometry_json.py: _serialize_sketch, geometry_from_json; geom.py: arc, ellipse, catmullrom, nurbs | Sketch/Props.lean: `C104_roundtrip_partial`, `C104_result`, `C104_writable`, `C104_reversed`, `C104_points_lost`, `C104_document`, `C104_polylines`, `C104_preview`, `C104_orientation` | partial. violated: lines are projected on z = 0, polylines fall apart into lines, reversed arcs come back forward (C104_reversed), points are lost (C104_points_lost), tilted arcs and nested lists cannot be written (C104_writable) |
| C105 | Unsampling a line accepts only points on it | geom.py: unsampleline | Geom/LineProps.lean: `C105_unsample_near_partial`, `C105_short_line_accepts_far_point` | partial. Violated for short lines: the test is on the area, not the distance. |
| C106 | Crossing segments are found at every scale | geom.py: lineLineIntersectXY | Geom/LineProps.lean: `C106_small_crossing_missed`, `C106_perpendicular_found_partial` | partial. Violated: the determinant is compared with an absolute epsilon. |
| C107 | Point in convex polygon | geom.py: isInsideConvexPolyXY | Geom/PolyProps.lean: `C107_inside_sound_partial`, `C107_hexagon_centre_outside` | partial. Violated: the fan only covers consecutive triples, the centre of a hexagon is reported outside. Sound direction proved. |
| C108 | Point in polygon | geom.py: isinsidepolyXY | Geom/PolyProps.lean: `C108_square_centre_outside`, `C108_inside_sound_partial` | partial. Violated: the ray through a vertex is counted twice. |
| C109 | Arc samples lie on the circle | geom.py: samplearc | Geom/ArcProps.lean: `C109_on_circle`, `C109_endpoints`, `C109_reversed` | proved.  |
| C110 | Arc length agrees with sampling | geom.py: samplearc, arclength | Geom/ArcProps.lean: `C110_uniform_partial`, `C110_negative_end` | partial. Violated for arcs with one angle 0 and a negative other one. |
| C111 | Arc parametrisation round trip | geom.py: samplearc, unsamplearc | Geom/ArcProps.lean: `C111_unsample_sample_partial`, `C111_end_at_360` | partial. Violated for end angle 360. |
| C112 | The bounding box of an arc contains the arc | geom.py: arcbbox | Geom/ArcProps.lean: `C112_circle_box_partial`, `C112_arc_sticks_out` | partial. Violated: the box is that of five samples. Proved for full circles. |
| C113 | Point to line distance | geom.py: linePointXY | Geom/CircleProps.lean: `C113_segment_distance`, `C113_line_distance` | proved.  |
| C114 | Closest point on a line | geom.py: linePointXY | Geom/CircleProps.lean: `C114_foot_partial`, `C114_closest_point_off_line`, `C114_param_of_start`; Geom/Tight.lean: `C114_beyond_ends_partial` | partial. Proved for the infinite line and for points beyond the ends of a segment. Violated otherwise: the wrong one of two candidates may be returned; the parameter is measured from the end. |
| C115 | Line-circle intersections lie on both figures and none is missed | geom.py:lineArcIntersectXY | Geom/LineArcProps.lean: `C115_on_both_partial`, `C115_complete_partial`, `C115_end_point_dropped`, `C115_outside_segment` | partial. Full circles; filtering by the angular range of a partial arc is not modelled. Soundness and completeness of the roots are proved away from the tangency tolerance; the code drops a crossing at the segment's end point (parameter exactly 1) and with inside=True returns points beyond the segment: both are machine-checked counterexamples. |
| C116 | Circle-circle outer tangents are tangent to both circles | geom.py:circleCircleTangentsXY | Geom/LineArcProps.lean: `C116_tangents`, `C116_rejects` | proved. Circles of equal height; real arithmetic. |
| C117 | Translation moves every sampled point | geom.py: translate, sample, length, samplegeomlist | Geom/FigProps.lean: `C117_translate`, `C117_compose` | proved. over the reals |
| C118 | Rotation turns every sampled point | geom.py: rotate, sample | Geom/FigProps2.lean: `C118_rotate_figure_partial`, `C118_wrapped_arc` | partial. Violated for arcs that wrap past 360 and are rotated so that start becomes 0. Proved when every arc has start<=end<start+360, axis z. |
| C119 | Mirroring | geom.py: mirror | Geom/FigProps3.lean: `C119_mirror_straight_partial`, `C119_mirror_arc_partial`, `C119_xy_complement`, `C119_contour_torn` | partial. Violated: arcs are traversed in the opposite direction, xy turns arcs into their complement. |
| C120 | Scale factors are honoured | geom.py: scale; xform.py: Scale | Geom/FigProps.lean: `C120_factors_partial`, `C120_second_factor_ignored`, `C120_zero_factors_ignored`, `C120_negative_factor_breaks_arc` | partial. Violated; proved when all three factors are given and sy, sz are not both 0. |
| C121 | Bezier curves are Bernstein combinations | spline.py:bezier_point; spline.py:bezier_curve; spline.py:_bernstein | Spline/Bezier.lean: `C121_bernstein`, `C121_ends`, `C121_bernstein_function`, `C121_sampling` | proved.  |
| C122 | Bezier curves stay in the hull and follow affine maps | spline.py:bezier_point | Spline/Bezier.lean: `C122_hull`, `C122_affine`, `C122_reverse` | proved.  |
| C123 | Bezier tangents are derivatives | spline.py:bezier_tangent | Spline/Bezier.lean: `C123_tangent`, `C123_end_tangent` | proved.  |
| C124 | Open B-splines are local convex combinations | spline.py:bspline_point; spline.py:_bspline_basis; spline.py:bspline_curve | Spline/BSpline.lean: `C124_weights`, `C124_too_few`, `C124_hull`, `C124_ends`, `C124_affine`, `C124_local`, `C124_sampling` | proved.  |
| C125 | Closed B-splines can be evaluated and close up | spline.py:bspline_point; spline.py:bspline_curve | Spline/BSpline.lean: `C125_sampling_closes_partial`, `C125_closed_always_raises`, `C125_degree_one_open` | partial. Violated: closed B-splines of degree at least 2 always raise IndexError; of degree 1 they do not end at their start. Proved: sampling closes the polyline whenever evaluation succeeds. |
| C126 | NURBS curves are weighted convex combinations and interpolate their ends | spline.py:evaluate_nurbs; spline.py:_nip; geom.py:nurbs | Spline/NurbsProps.lean: `C126_convex_partial`, `C126_hull_partial`, `C126_start_partial`, `C126_single_span_partial`, `C126_end_wrong`, `C126_accepts_iff`, `C126_samples` | partial. Violated at the end of the curve: with more than degree+1 control points the last point is wrong and can leave the convex hull (C126_end_wrong). Proved for all parameters below 1, and at 1 for a single span. |
| C127 | Catmull-Rom splines pass through their control points | spline.py:evaluate_catmullrom; spline.py:sample_catmullrom; geom.py:catmullrom | Spline/CatmullProps.lean: `C127_total`, `C127_through_partial`, `C127_sampling_partial`, `C127_tolerance_misses`, `C127_negative_alpha_raises` | partial. Proved for alpha >= 0 when neighbouring points coincide or have distance^alpha >= 1e-12; violated otherwise (C127_tolerance_misses), and a negative alpha makes the first point of an open curve raise. |
| C128 | Catmull-Rom splines follow rigid motions | spline.py:evaluate_catmullrom | Spline/CatmullProps.lean: `C128_rigid` | proved.  |
| C129 | Catmull-Rom splines are C1 | spline.py:evaluate_catmullrom; geom.py:catmullrom | Spline/CatmullTangent.lean: `C129_no_kink_partial`, `C129_closed_no_kink_partial`, `C129_not_C1` | partial. Violated as documented: only the direction of the derivative is continuous, its length jumps when the spacing changes (C129_not_C1). |
| C130 | Ellipse samples lie on the ellipse in its plane | geom.py:ellipse; geom.py:ellipse_sample | Conic/Props.lean: `C130_ellipse`, `C130_normal` | proved. Exactly perpendicular to the normal, except up to 1.5e-5 for normals within 1e-10 of the z axis (stated in Spec.PlaneOf). |
| C131 | Ellipse arcs run from the start to the end angle | geom.py:ellipse; geom.py:ellipse_sample | Conic/Props.lean: `C131_ellipse_arc_partial`, `C131_swapped_arc` | partial. Proved when the first semi-axis is not the smaller; otherwise the axes are swapped but the arc angles are not adjusted (C131_swapped_arc). |
| C132 | Parabola and hyperbola samples satisfy the focal definitions | geom.py:parabola_sample; geom.py:hyperbola_sample | Conic/Props2.lean: `C132_parabola`, `C132_hyperbola` | proved.  |
| C133 | Conic tangents are unit derivatives | geom.py:ellipse_tangent; geom.py:parabola_tangent; geom.py:hyperbola_tangent | Conic/Props2.lean: `C133_ellipse_partial`, `C133_parabola_partial`, `C133_hyperbola_partial`, `C133_ignores_normal` | partial. Proved in the default plane (for end > start); violated for other normals, which the tangent functions ignore. |
| C134 | Conic bounding boxes contain the curve and lengths are inscribed | geom.py:ellipse_bbox; geom.py:parabola_bbox; geom.py:hyperbola_bbox; geom.py:ellipse_length | Conic/Props2.lean: `C134_box_partial`, `C134_box_misses`, `C134_length_partial` | partial. Violated: the box is that of samples and can miss the curve (C134_box_misses). |
| C135 | A called command sees its arguments | dsl/runtime/interpreter.py: _call_command | Interp/Calls.lean: `C135_binds_by_position`, `C135_wrong_count`, `C135_default` | proved. Positional calls. The default theorem is for the last parameter; defaults are evaluated in the caller's context (C26_default_sees_caller). |
| C136 | A match runs the first matching arm | dsl/runtime/interpreter.py: _eval_match, _pattern_matches | Interp/Calls.lean: `C136_first_arm`, `C136_no_arm` | proved. Evaluation of lambda values and of python expressions inside arms is as in the rest of the interpreter model. |
| C137 | The DSL parser ends on every input | dsl/parser.py:Parser._parse_expression; dsl/parser.py:Parser._parse_statement; dsl/parser.py:Parser._parse_block | Parser/Props.lean: `C137_terminates` | proved. recursion depth 12n+12 always suffices; CPython's recursion limit is not modelled |
| C138 | The DSL parser accepts exactly the language's grammar | dsl/parser.py:Parser | Parser/Props.lean: `C138_block`, `C138_stmt`, `C138_expr`, `C138_expr_sound`, `C138_type`; Parser/Trees.lean: `C138_block_tree`, `C138_call_arguments` | proved. iff with an independent grammar (Parser/Grammar.lean) |
| C139 | DSL programs have one reading | dsl/parser.py:Parser | Parser/Props.lean: `C139_unambiguous` | proved.  |
| C140 | Operator precedence and associativity | dsl/parser.py:Parser.PRECEDENCE; dsl/parser.py:Parser._parse_binary_expr | Parser/Props.lean: `C140_precedence`, `C140_left_chain`, `C140_power_chain`, `C140_unary_first`, `C140_conditional` | proved. -x**y is (-x)**y and not x==y is (not x)==y, as documented in the class docstring, unlike Python |
| C141 | Parentheses override precedence | dsl/parser.py:Parser._parse_grouped_or_lambda | Parser/Props.lean: `C141_parentheses`, `C141_compose` | proved.  |
| C142 | Assignment updates a variable | dsl/parser.py:Parser._parse_simple_var_decl; dsl/parser.py:Parser._parse_statement | Parser/Props2.lean: `C142_other_targets_partial`, `C142_name_declares` | partial. violated: x = e is always a declaration; only targets that are not a bare name become assignments |
| C143 | Match arms with names, literals and wildcards | dsl/parser.py:Parser._parse_match_arm; dsl/parser.py:Parser._parse_pattern | Parser/Props2.lean: `C143_arms_partial`, `C143_bare_name_refused` | partial. violated: a leading name is swallowed as the word `case`, so an arm with a bare name pattern is refused |
| C144 | Values with indented blocks | dsl/parser.py:Parser._expect_newline_or_eof; dsl/parser.py:Parser._parse_simple_var_decl | Parser/Props2.lean: `C144_block_value_last_partial`, `C144_block_value_refused` | partial. violated: only as the last statement of a block |
| C145 | Brackets and indentation match in accepted programs | dsl/parser.py:Parser._parse_emit_statement; dsl/parser.py:Parser._parse_python_block | Parser/Props2.lean: `C145_brackets_match_partial`, `C145_with_any_bracket`, `C145_python_unfinished` | partial. violated by emit ... with and by unfinished python blocks; holds for texts without these words |
| C146 | Module parsing ends | dsl/parser.py:Parser.parse_module | Parser/ModuleProps.lean: `C146_module_terminates` | proved.  |
| C147 | Malformed modules are reported as parser errors | dsl/parser.py:Parser._ui_hint_value; dsl/parser.py:Parser._parse_meta_decorator | Parser/ModuleProps2.lean: `C147_hint_partial`, `C147_type_error` | partial. violated: @meta(k = -"text") raises TypeError; all other values can be read |
| C148 | Decorators stay with their declaration | dsl/parser.py:Parser.parse_module; dsl/parser.py:Parser._parse_command | Parser/ModuleProps2.lean: `C148_def_keeps_decorators_partial`, `C148_command_drops_decorators`, `C148_dangling_decorator` | partial. violated: commands lose their decorators, decorators at the end of the text are dropped silently |
| C149 | Later @meta values win | dsl/parser.py:Parser._parse_meta_decorator; dsl/parser.py:Parser.parse_module | Parser/ModuleProps2.lean: `C149_last_meta_wins`, `C149_last_key_wins` | proved.  |
| C150 | Native functions are read in full | dsl/parser.py:Parser._parse_native_function | Parser/ModuleProps2.lean: `C150_flat_body_partial`, `C150_native_cut`, `C150_nested_refused` | partial. violated: the body ends at the first decrease of indentation |
| C151 | Module paths consist of names | dsl/parser.py:Parser._parse_module_path_component; dsl/parser.py:Parser._parse_use_statement | Parser/ModuleProps2.lean: `C151_path_partial`, `C151_any_text` | partial. violated: any token with a text value is accepted as a path component |
| C152 | A source is accepted exactly if it is well typed | dsl/checker.py: TypeChecker.check; dsl/runtime/interpreter.py: compile_and_run | Checker/Props.lean: `C152_compile`; Checker/ModSound.lean: `C152_accepts_iff_well_typed`; Checker/ParsedWf.lean: `parsed_wf` | proved. Typing rules in Checker/Rules.lean; both directions, for any source text, through lexer, parser and checker. |
| C153 | The order of declarations does not matter | dsl/checker.py: _check_module, _register_command | Checker/Props.lean: `C153_order` | proved.  |
| C154 | Names are declared before use | dsl/checker.py: _check_identifier, _check_function_call, _check_if_expr; dsl/symbols.py: SymbolTable | Checker/Scope.lean: `C154_scoping_partial`; Checker/ScopeEx.lean: `C154_violated` | partial. Scoping specified independently of types (Checker/Scope.lean). Violated by the code: named arguments of commands, elif branches of if expressions are not checked; blocks of if expressions leak their names. |
| C155 | Accepted DSL programs do not go wrong | dsl/checker.py:TypeChecker; dsl/runtime/interpreter.py:Interpreter.execute; dsl/runtime/interpreter.py:compile_and_run | Pipe/Props.lean: `C155_sound_partial`, `C155_ends_partial`; Pipe/Witness.lean: `C155_violated_fails`, `C155_violated_type` | partial. Proved for the core language (tameMod): scalars, lists of literals, operators, conditionals, loops, assignments, calls of commands and of honest built-in functions, unbounded in program, run and recursion limit. The full claim is false: machine-checked accepted programs that fail, raise or emit another type. |
| C156 | The checker knows when there is Python code | dsl/checker.py: requires_python, _check_python_block | Checker/Props.lean: `C156_python_partial`; Checker/Props2.lean: `C156_missed` | partial. Exact for the places the checker looks at; violated by the code in elif branches of if expressions. |
| C157 | Recursion is reported | dsl/checker.py: _check_recursion, _find_cycles | Checker/Props.lean: `C157_recursion_partial`, `C157_recursion_seen`; Checker/Props2.lean: `C157_missed`; Checker/Cycles.lean: `allCycles_sound`, `allCycles_complete` | partial. Exact for the calls the checker looks at; violated by the code for calls in named arguments. |
| C158 | The limit on errors does not change the verdict | dsl/checker.py: TypeChecker.__init__, _check_statement, _check_expression | Checker/Props2.lean: `C158_limit_partial`, `C158_violated`, `C158_stops` | partial. Same verdict for all positive limits. Violated: the limit 0 accepts everything; more errors than the limit can be reported. |
| C159 | The checker never raises | dsl/checker.py: _check_statement, _check_return_statement, _check_let_statement | Checker/Total.lean: `C159_total_partial`, `C159_violated` | partial. Violated by the code: return statements and declarations without a value raise AttributeError. |
| C160 | Conditional expressions and if expressions have the value of the chosen branch | dsl/runtime/interpreter.py:_eval_conditional_expr; dsl/runtime/interpreter.py:_eval_if_expr | Pipe/IfExpr.lean: `C160_conditional_partial`, `C160_if_expression_never_succeeds`, `C160_if_expression_without_else`; Pipe/Witness2.lean: `C160_violated` | partial. Proved for conditional expressions; every if expression with an else branch fails at run time although the checker accepts it. |
| C161 | Calls have the right arguments | dsl/checker.py: _check_builtin_call, _check_function_call | Checker/Props2.lean: `C161_violated`, `C161_named_builtin` | partial. Violated by the code: the number and names of arguments of commands are not checked, nor are extra arguments of built-in functions. What is enforced is in the typing rules (C152). |
| C162 | What the interpreter can run is not rejected | dsl/checker.py:_check_binary_op | Pipe/Concat.lean: `C162_sums_accepted`, `C162_strings_run`; Checker/ScopeEx.lean: `C162_rejected` | partial. Violated in general: every accepted sum has operands that are numbers, geometry or lists, so no concatenation of strings and no arithmetic on unannotated parameters is ever accepted, while the interpreter performs every one. |
| C163 | Assignment updates the variable | dsl/parser.py:_parse_statement; dsl/runtime/interpreter.py:_execute_let | Pipe/Assign.lean: `C163_assignment_partial`; Pipe/Witness2.lean: `C163_violated`; Checker/ScopeEx.lean: `C163_assignment` | partial. Proved for assignments the parser takes for such; violated by 't = e' in a nested block, which declares a new variable. |
| C164 | Elements of a list keep their value in arithmetic | dsl/runtime/values.py; dsl/runtime/interpreter.py:_eval_binary_op | Pipe/Assign.lean: `C164_elements_partial`; Pipe/Witness2.lean: `C164_violated` | partial. Proved for list literals with elements of one type; violated for mixed and concatenated lists and list arguments (2.5 + 1 = 3). |
| C165 | Length of a polyline | geom.py: polylength | Geom/Tight.lean: `C165_length`, `C165_at_least` | proved. over the reals |
| C166 | Segments of arcs begin and end where asked | geom.py: segmentarc; geom.py: samplearc | Geom/Tight.lean: `C166_segment_ends` | proved. over the reals |
| C167 | Unsampling an arc accepts only points on it | geom.py: unsamplearc | Geom/Tight.lean: `C167_on_circle`, `C167_off_arc` | partial. Proved: only points at the distance of the radius have a parameter. Violated: points of the circle that are not on the arc get a parameter outside [0,1] rather than False. |
| C168 | Volume survives moving a solid | geom3d.py: volumeof; geom3d.py: translatesolid; geom3d.py: rotatesolid; geom3d.py: mirrorsolid; geom3d.py: scalesolid | Surf/VolumeProps.lean: `C168_translate_partial`, `C168_rotate_partial`, `C168_mirror_partial`, `C168_scale_partial`; Surf/Witness.lean: `C168_depends_on_position` | partial. Proved for consistently oriented meshes whose distinct vertices do not round to the same edge key. Without orientation the claim is false of the code: a tetrahedron with one face walked backwards passes issolidclosed and its volume changes with position. |
| C169 | Closed means every edge is shared by two triangles | geom3d.py: issolidclosed | Surf/Closed.lean: `C169_closed_iff`, `C169_order_and_direction`, `C169_errors` | proved.  |
| C170 | An accepted surface can be used | geom3d.py: issurface | Surf/Witness.lean: `C170_in_range_partial`, `C170_dangling_accepted`; Surf/VolumeProps.lean: `C170_accepts_iff` | partial. Violated: out-of-range indices are accepted and the measuring functions raise IndexError; the positive part assumes in-range indices. |
| C171 | The surface constructor stores what it is given | geom3d.py: surface | Surf/Props.lean: `C171_stores_partial`, `C171_result`, `C171_holes_need_boundary`, `C171_one_metadata` | partial. Violated for an empty boundary followed by holes (TypeError). |
| C172 | Moving surfaces | geom3d.py: translatesurface; geom3d.py: rotatesurface; geom3d.py: mirrorsurface; geom3d.py: reversesurface; geom3d.py: scalesurface | Surf/Props.lean: `C172_scale_origin_partial`, `C172_translate`, `C172_rotate`, `C172_mirror`, `C172_reverse`, `C172_scale_about_opposite`, `C172_two_factors_crash` | partial. Translation, rotation, mirror and reversal fully; scaling about a centre other than the origin is violated (fixed point is minus the centre), two factors raise ZeroDivisionError. |
| C173 | Bounding box of a solid is tight | geom3d.py: solidbbox; geom3d.py: surfacebbox | Surf/Props.lean: `C173_tight_partial`, `C173_empty_surface_crash`, `C173_none` | partial. A vertex-less surface after one with vertices raises TypeError. |
| C174 | Building a surface triangle by triangle | geom3d.py: addTri2Surface | Surf/Build.lean: `C174_add`, `C174_built`, `C174_tiny_triangle`, `C174_normals` | proved. C174_tiny_triangle records that triangles smaller than epsilon become degenerate faces. |
| C175 | Surface area | geom3d.py: surfacearea | Surf/Build.lean: `C175_area`, `C175_congruent`, `C175_rigid` | proved.  |
| C176 | Outline of a surface | geom3d.py: surf2lines | Surf/Build.lean: `C176_each_edge_once` | proved.  |
| C177 | Scaling keeps normals outward | geom3d.py: scalesurface | Surf/Props.lean: `C177_normals_partial`, `C177_uniform_partial`, `C177_inside_out` | partial. Holds for positive products of factors; for negative ones the normals point against the faces / the mesh turns inside out. |
| C178 | prism builds the solid box of the requested size | geom3d_util.py: prism, rectangularPlane; geom3d.py: issolidclosed, volumeof | Prim/Prism.lean: `C178_prism`, `C178_outward` | proved. prism and rectangularPlane modelled over the reals; sizes at least 2*epsilon |
| C179 | conic builds a closed cone or frustum | geom3d_util.py: conic, circleSurface, tri2p0n; geom3d.py: issolidclosed, volumeof | Prim/Conic.lean: `C179_frustum`, `C179_cone_partial`, `C179_near_round`, `C179_default`, `C179_small_cone_open` | partial. Proved when r*h is at least 0.00045 (r at least 0.0009). For smaller cones the claim is false: tri2p0n rejects the thin triangles, the exception is swallowed and the cone comes out without side faces (C179_small_cone_open). |
| C180 | Adaptive resolution honours its limits | geom3d_util.py: adaptive_arc_segments, adaptive_angr_from_radius | Prim/Adaptive.lean: `C180_chord`, `C180_sagitta`, `C180_zero_chord` | proved. Positive limits; a chord limit of 0 raises ZeroDivisionError (C180_zero_chord). |
| C181 | Sphere surfaces are round, valid and consistently oriented at every depth | geom3d_util.py:sphereSurface; geom3d_util.py:subdivide; geom3d_util.py:addVertex; geom3d_util.py:makeIcoPoints | Prim/Ball.lean: `C181_sphere`, `C181_closed`, `C181_icosahedron`, `C181_zero` | proved. Model: SphereModel.lean, real arithmetic; the two-digit formatting of the keys is an arbitrary function. Hypothesis: the new vertex list is not the object the table was last used with (id reuse is excluded; what happens then is bounded by C182_any_state). |
| C182 | The shared vertex table never hands out a wrong vertex | geom3d_util.py:addVertex | Prim/Table.lean: `C182_any_state`, `C182_stable` | proved. any state; arbitrary number formatting |
| C183 | Surfaces of revolution are closed and enclose the stack of frusta | geom3d_util.py:makeRevolutionSurface; geom3d_util.py:addVertex; geom3d.py:issolidclosed; geom3d.py:volumeof | Prim/Lathe.lean: `C183_revolution_partial`, `C183_default_partial`, `C183_two_poles`, `C183_no_steps` | partial. Proved for rings wide enough to be told apart by the table (2 eps, n eps/2, and n eps/4 in area); below that the code merges or drops triangles. Both ends on the axis with one step: ValueError (C183_two_poles); no steps: ZeroDivisionError. The BREP result is not modelled. |
| C184 | evaluate_path3d_at_t follows the path | manufacturing/path_utils.py:evaluate_path3d_at_t; manufacturing/path_utils.py:path_length | Path/Props.lean: `C184_empty`, `C184_total`, `C184_shares`, `C184_last`, `C184_clamped`, `C184_line`, `C184_arc`, `C184_continuous`, `C184_endpoints`, `C184_full_circle` | proved. exact arithmetic; C184_full_circle shows that an arc with equal ends has length 0 |
| C185 | extract_sub_path returns exactly the part of the path between two parameters | manufacturing/path_utils.py:extract_sub_path | Path/Props.lean: `C185_part`, `C185_whole`, `C185_length`, `C185_whole_length` | proved. exact arithmetic; arcs are required to be arcs (IsArc) and the path to be joined |
| C186 | length_to_parameter and parameter_to_length are inverse | manufacturing/path_utils.py:length_to_parameter; manufacturing/path_utils.py:parameter_to_length | Path/Props.lean: `C186_monotone`, `C186_one`, `C186_range`, `C186_inverse_partial`, `C186_not_inverse`, `C186_zero` | partial. the conversions undo each other only when all segments have the same length; C186_not_inverse is a path of lengths 1 and 3 where they do not, and parameter 0 raises ValueError (C186_zero) |
| C187 | Path functions raise the documented ValueErrors | manufacturing/path_utils.py:extract_sub_path; manufacturing/path_utils.py:evaluate_path3d_at_t | Path/Props.lean: `C187_order_partial`, `C187_out_of_range`, `C187_unknown`, `C184_empty` | partial. parameters out of range are clamped instead of rejected; segments of unknown type are dropped from parts and lengths |
| C188 | surface_watertight recognises closed meshes | geometry_checks.py:surface_watertight | Checks/Props.lean: `C188_iff`, `C188_closed`, `C188_sphere`, `C188_open`, `C188_not_surface`, `C188_direction_ignored`, `C188_positions_ignored`, `C188_double` | partial. the check is exactly 'every two vertex numbers are joined by 0 or 2 triangle sides' (C188_iff), which all oriented closed meshes meet (C188_closed) but others too: directions are ignored, and two equal triangles pass (C188_double); vertices are told apart by number, not position |
| C189 | faces_oriented recognises consistently oriented meshes | geometry_checks.py:faces_oriented | Checks/Props.lean: `C189_iff`, `C189_flat_partial`, `C189_closed_rejected`, `C189_tetrahedron`, `C189_normals_ignored` | partial. right for flat meshes (C189_flat_partial); every closed consistently oriented surface is reported inconsistent (C189_closed_rejected), and the stored normals are never read |
| C190 | triangulate_polygon prepares loops correctly | triangulator.py:triangulate_polygon | Checks/Loop.lean: `C190_points`, `C190_direction`, `C190_neighbours_partial`, `C190_nothing_lost`, `C190_closing`, `C190_corners`, `C190_rings`, `C190_ring_ends`, `C190_degenerate` | partial. all parts proved except that the last and first point of a loop may stay within the tolerance of each other (C190_closing) |
| C191 | Triangle helpers | geometry_utils.py:triangle_normal; geometry_utils.py:triangle_area; geometry_utils.py:orient_triangle; geometry_utils.py:triangle_centroid | Checks/Props.lean: `C191_normal`, `C191_perpendicular`, `C191_area`, `C191_orient`, `C191_centroid`, `C191_degenerate` | proved. exact arithmetic; C191_degenerate: triangle_is_degenerate and triangle_normal use tolerances that differ by a factor of 2 |
| C192 | is_closed_polygon | geometry_checks.py:is_closed_polygon | Checks/Props.lean: `C192_closed`, `C192_single` | proved.  |
| C193 | Segmentation covers the whole element without gaps or overlap | manufacturing/segmentation.py:segment_swept_element; manufacturing/data.py:Segment; manufacturing/data.py:SegmentationResult.get_segment | Segment/Props.lean: `C193_partition`, `C193_forward`, `C193_all`, `C193_ids`; Segment/Roles.lean: `C193_solids` | proved. solid kernel arbitrary; failed cuts are those with a warning |
| C194 | Segments are mated to their neighbours and only to them | manufacturing/segmentation.py:segment_swept_element; manufacturing/data.py:Segment.mates_with | Segment/Props.lean: `C194_neighbours`, `C194_symmetric` | proved.  |
| C195 | The assembly graph is the mating relation | manufacturing/segmentation.py:segment_swept_element; manufacturing/data.py:SegmentationResult.assembly_graph | Segment/Props.lean: `C195_graph_partial`, `C195_no_forward_link` | partial. the graph is copied before the next segment is linked: it has only backward links, in every result |
| C196 | Connector types say who has the tab and who receives it | manufacturing/segmentation.py:segment_swept_element; manufacturing/data.py:Segment.connector_type | Segment/Props.lean: `C196_tab`; Segment/Roles.lean: `C196_male_partial`, `C196_single`; Segment/Examples.lean: `C196_receiver_none`, `C196_female_without_tab` | partial. male is right for all cuts, all types are right for one cut; with two cuts a receiver is reported none, or a segment female that receives nothing |
| C197 | Invalid segmentation requests are refused | manufacturing/data.py:CutPoint.__post_init__; manufacturing/segmentation.py:segment_swept_element | Segment/Props.lean: `C197_errors`, `C197_cut_point` | proved.  |
| C198 | Connectors kept apart are listed once each | manufacturing/segmentation.py:segment_swept_element; manufacturing/data.py:SegmentationResult.connectors | Segment/Roles.lean: `C198_separate` | proved.  |
| C199 | A connector fits into the profile | manufacturing/connectors.py:compute_connector_profile_dimensions; manufacturing/connectors.py:compute_inner_profile_dimensions; manufacturing/connectors.py:offset_rectangular_profile | Segment/Connect.lean: `C199_profile`, `C199_fits` | proved. over the reals |
| C200 | An interior connector is centred on its cut | manufacturing/connectors.py:create_interior_connector | Segment/Connect.lean: `C200_centred_partial`, `C200_misses_cut` | partial. holds if all segments of the spine have the same length; otherwise the connector may not even reach the cut |
| C201 | Connector ids identify connectors | manufacturing/connectors.py:compute_connector_spec | Segment/Connect.lean: `C201_ids_partial`, `C201_same_id` | partial. ids use int(100 t) |
| C202 | The connector length given with a cut is used | manufacturing/data.py:CutPoint.connector_length; manufacturing/segmentation.py:segment_swept_element | Segment/Roles.lean: `C202_length_ignored` | partial. does not hold: the result never depends on it |
| C203 | Proposed cuts keep segments under the maximum length | manufacturing/segmentation.py:compute_optimal_cuts | Segment/Connect.lean: `C203_even`, `C203_none`, `C203_zero`, `C203_limit_partial`, `C203_too_long` | partial. the limit holds if all segments of the spine have the same length |
| C204 | Ring pieces lie between the planes of their ends | manufacturing/segmentation.py:segment_closed_ring | Segment/Connect.lean: `C204_errors`, `C204_ranges`, `C204_planes` | proved. what the kernel cuts out between the planes is not modelled |
| C205 | A terminal tab points out of the spine | manufacturing/connectors.py:create_terminal_connector; manufacturing/connectors.py:_get_spine_endpoint_and_tangent | Segment/Connect.lean: `C205_tab`, `C205_errors` | proved.  |
| C206 | Ring cuts are the right number, in order, inside the ring | manufacturing/rings.py:compute_ring_cuts_avoiding_holes | Ring/Cuts.lean: `C206_shape`, `C206_none`, `C206_zero` | proved. any ordered field with a floor |
| C207 | Ring cuts keep their distance from holes | manufacturing/rings.py:compute_ring_cuts_avoiding_holes | Ring/Cuts.lean: `C207_avoids_partial`, `C207_hits_hole`; Ring/Search.lean: `C207_two_pieces`, `C207_nearest` | partial. holds unless the last resort (even cuts) is returned; the last resort is returned although valid cuts exist |
| C208 | Ring pieces are not longer than the maximal length | manufacturing/rings.py:compute_ring_cuts_avoiding_holes | Ring/Cuts.lean: `C208_equal_partial`, `C208_too_long` | partial. holds if the even cuts are clear of the holes; adjusted cuts can leave a piece longer than the limit |
| C209 | A ring's spine is a closed regular polygon in the tilted plane | manufacturing/rings.py:create_ring_spine; manufacturing/rings.py:_rotate_path3d; manufacturing/rings.py:_translate_path3d | Ring/Props.lean: `C209_spine`, `C209_length`, `C209_even`, `C209_zero`, `C209_tilt` | proved. over the reals |
| C210 | Attachment points lie on the ring and point to its center | manufacturing/rings.py:compute_arc_attachment_point; manufacturing/rings.py:_rotate_point_and_direction; manufacturing/rings.py:create_ring_spine | Ring/Props.lean: `C210_attachment`, `C210_on_spine` | proved. over the reals |
| C211 | A ring profile is a rectangle with a smaller rectangular hole | manufacturing/rings.py:create_ring_profile | Ring/Props.lean: `C211_profile_partial`, `C211_thick`, `C211_negative` | partial. a wall too thick silently gives a solid profile (the connector of the same beam raises); a negative wall gives a hole larger than the outline; C211_profile_partial is the part that holds |
| C212 | The hole for a connector fits it | manufacturing/rings.py:create_female_hole_solid; manufacturing/connectors.py:compute_connector_profile_dimensions | Ring/Props.lean: `C212_hole`, `C212_zero_direction`, `C212_small` | proved. dimensions and line of the sweep; the sweep itself is not modelled |
| C213 | The validation verdict is that of the error constraints | assembly/kinematic_integration.py:AssemblyValidator.validate; assembly/kinematic_integration.py:AssemblyValidator.validate_and_raise; assembly/kinematic_integration.py:validate_assembly | Valid/Report.lean: `C213_verdict`, `C213_raise`, `C213_total` | proved. for any evaluation of the single constraints |
| C214 | The report has the result of every constraint | assembly/kinematic_integration.py:AssemblyValidator.validate | Valid/Report.lean: `C214_results_partial`, `C214_lost` | partial. holds if the names differ; with equal names a failed result is replaced by a later one |
| C215 | Evaluating a constraint gives a result, never an exception | assembly/kinematic_integration.py:KinematicConstraint.evaluate; assembly/kinematic_integration.py:AssemblyValidator.validate | Valid/Report.lean: `C215_total_partial`, `C215_missing_frame`, `C215_raises` | partial. holds unless axis_b is invalid, boxes are given for MIN_DISTANCE without a second part, or a mesh has no vertices: then the exception ends the whole report |
| C216 | COINCIDENT and AT_DISTANCE measure the distance of the places | assembly/kinematic_integration.py:KinematicConstraint._evaluate_coincident; assembly/kinematic_integration.py:KinematicConstraint._evaluate_at_distance | Valid/Angle.lean: `C216_coincident`, `C216_at_distance`, `C216_reference` | proved. over the reals |
| C217 | Named faces are where they should be | assembly/kinematic_integration.py:KinematicConstraint._get_face_position; assembly/kinematic_integration.py:KinematicConstraint._get_standard_face_offset | Valid/Angle.lean: `C217_face_partial`, `C217_unknown_face`, `C217_message` | partial. a name that is neither a standard face nor a frame is silently taken as the part's origin |
| C218 | PARALLEL measures the angle between two lines | assembly/kinematic_integration.py:KinematicConstraint._evaluate_parallel; assembly/kinematic_integration.py:KinematicConstraint._get_local_axis | Valid/Angle.lean: `C218_parallel_partial`, `C218_reference_partial`, `C218_zero_reference` | partial. holds except for a reference axis of zero, which is parallel to everything |
| C219 | PERPENDICULAR measures the deviation from 90 degrees | assembly/kinematic_integration.py:KinematicConstraint._evaluate_perpendicular | Valid/Angle.lean: `C219_perpendicular`, `C219_reference` | proved. over the reals |
| C220 | Constraints between two parts do not depend on where the assembly stands | assembly/kinematic_integration.py:KinematicConstraint.evaluate | Valid/Motion.lean: `C220_motion` | proved. over the reals |
| C221 | CONCENTRIC means that two axes lie on one line | assembly/kinematic_integration.py:KinematicConstraint._evaluate_concentric | Valid/Motion.lean: `C221_concentric_partial`, `C221_symmetric_partial`, `C221_not_symmetric` | partial. only the distance of the second origin from the first axis is measured; symmetric only for exactly parallel axes |
| C222 | TANGENT measures the angle to the radius in the horizontal plane | assembly/kinematic_integration.py:KinematicConstraint._evaluate_tangent | Valid/Motion.lean: `C222_tangent`, `C222_exact`, `C222_cases` | proved. over the reals |
| C223 | BOLT_PATTERN means that the bolt holes line up | assembly/kinematic_integration.py:KinematicConstraint._evaluate_bolt_pattern | Valid/Motion.lean: `C223_bolt_partial`, `C223_blind`, `C223_misaligned`, `C223_degenerate` | partial. the holes are never compared; only the centres and normals are |
| C224 | MIN_DISTANCE means that the parts are that far apart | assembly/kinematic_integration.py:KinematicConstraint._evaluate_min_distance; assembly/kinematic_integration.py:KinematicConstraint._calculate_bbox_separation | Valid/Box.lean: `C224_min_distance_partial`, `C224_origins`, `C224_too_strict` | partial. satisfied implies far enough apart (for a positive distance); the converse fails |
| C225 | Z_STACK_CLEARANCE means that one part is above the other | assembly/kinematic_integration.py:KinematicConstraint._evaluate_z_stack_clearance | Valid/Box.lean: `C225_stack_partial`, `C225_upside_down` | partial. exact for upright parts; wrong for parts upside down |
| C226 | NO_OVERLAP with boxes means that the parts do not meet | assembly/kinematic_integration.py:KinematicConstraint._evaluate_no_overlap | Valid/Box.lean: `C226_no_overlap`, `C226_disjoint`, `C226_unturned`, `C226_depth`, `C226_skipped`, `C226_too_strict` | partial. the first four are the part that holds; without boxes and meshes the constraint is always satisfied; turned parts can fail though far apart |
| C227 | The transformed box is the least box around the part | assembly/kinematic_integration.py:KinematicConstraint._transform_aabb | Valid/Core.lean: `C227_transform_box` | proved. over any ordered field |
| C228 | The ray test is right | assembly/kinematic_integration.py:_ray_triangle_intersect | Valid/Mesh.lean: `C228_ray` | proved. over any ordered field |
| C229 | A point in a closed mesh counts as inside | assembly/kinematic_integration.py:_points_inside_mesh_simple | Valid/Mesh.lean: `C229_parity`, `C229_box_partial`, `C229_diagonal`, `C229_centre`, `C229_random` | partial. proved for boxes off the diagonals; on the diagonals (e.g. the centre of every box) the answer is wrong; other closed meshes are not proved |
| C230 | The mesh check finds collisions | assembly/kinematic_integration.py:check_mesh_collision; assembly/kinematic_integration.py:_check_collision_sampling; assembly/kinematic_integration.py:_aabb_intersects | Valid/Mesh.lean: `C230_apart`, `C230_failed`, `C230_symmetric`, `C230_reason`, `C230_missed` | partial. all but the last clause; without the collision library a bar through a wedge is missed |
| C231 | Load cases survive serialisation | assembly/load_case.py:LoadCase.to_dict; assembly/load_case.py:LoadCase.from_dict; assembly/load_case.py:LoadAttach.to_dict | Record/Props.lean: `C231_load_case` | proved. any combination of optional fields |
| C232 | A load case that is read is well formed | assembly/load_case.py:LoadCase.from_dict; assembly/load_case.py:LoadCase.__post_init__ | Record/Props.lean: `C232_valid_partial`, `C232_zero_direction` | partial. holds except that the zero vector is accepted as a direction |
| C233 | Bolt patterns survive serialisation | assembly/load_case.py:BoltPattern.to_dict; assembly/load_case.py:BoltPattern.from_dict; assembly/load_case.py:BoltPattern.__post_init__ | Record/Props.lean: `C233_bolts_partial`, `C233_valid`, `C233_fraction` | partial. holds for whole numbers of bolts; fractions are accepted and truncated when written (then possibly refused) |
| C234 | Kinematic frames survive serialisation | kinematics/frame.py:CoordinateFrame.to_dict; kinematics/frame.py:CoordinateFrame.from_dict; kinematics/frame.py:CoordinateFrame.get_transform | Record/Props.lean: `C234_frame_partial`, `C234_frozen`, `C234_datum` | partial. name, datum, description and present transform are kept; a frame that followed a datum does not follow it any more after reading |
| C235 | Kinematic parts survive serialisation | kinematics/part.py:KinematicPart.to_dict; kinematics/part.py:KinematicPart.from_dict; kinematics/joint.py:Joint.to_dict; kinematics/joint.py:Joint.from_dict | Record/Props.lean: `C235_part_partial` | partial. everything is kept except that frames from datums become fixed (C234_frozen) |
| C236 | Collision results survive serialisation | collision/result.py:CollisionResult.to_dict; collision/result.py:CollisionResult.from_dict | Record/Props.lean: `C236_result`, `C236_unknown` | proved.  |
| C237 | Provenance records and source signatures | dsl/runtime/provenance.py:Provenance.to_dict; dsl/runtime/provenance.py:Provenance.from_dict; dsl/runtime/provenance.py:compute_source_signature; dsl/runtime/provenance.py:create_provenance; dsl/runtime/provenance.py:verify_source_signature | Record/Props.lean: `C237_record`, `C237_signature`, `C237_created` | partial. the hash is a parameter without collisions; the record created from the empty source is not accepted for the empty source |
| C238 | The viewer's configuration survives serialisation and finds its colors | viewer/config.py:ViewerConfig.to_dict; viewer/config.py:ViewerConfig.from_dict; viewer/config.py:ViewerConfig.get_color; viewer/config.py:ViewerConfig.screenshot_path | Record/Props.lean: `C238_config`, `C238_color_partial`, `C238_capital` | partial. colors with a capital letter in the palette are never found |
| C239 | Different geometry files have different metadata sidecars | io/meta_yaml.py:sidecar_path_for | Record/Props.lean: `C239_sidecar_partial`, `C239_same_sidecar` | partial. holds for names with one dot; names with versions (bolt.v1.step, bolt.v2.step) share a sidecar |
| C240 | The metadata sidecar is complete | io/meta_yaml.py:dump_metadata_yaml | Record/Props.lean: `C240_content` | proved. the order of the keys is not claimed |
| C241 | Analytic surfaces are the sets their names say | analytic_surfaces.py:plane_surface; analytic_surfaces.py:sphere_surface; analytic_surfaces.py:cylinder_surface; analytic_surfaces.py:cone_surface; analytic_surfaces.py:torus_surface; analytic_surfaces.py:evaluate_surface | Ana/Points.lean: `C241_plane`, `C241_sphere`, `C241_cylinder`, `C241_cone`, `C241_torus` | proved.  |
| C242 | Normals of analytic surfaces | analytic_surfaces.py:surface_normal; analytic_surfaces.py:plane_surface_normal; analytic_surfaces.py:sphere_surface_normal; analytic_surfaces.py:cylinder_surface_normal; analytic_surfaces.py:cone_surface_normal; analytic_surfaces.py:torus_surface_normal | Ana/Normals.lean: `C242_plane`, `C242_sphere`, `C242_cylinder`, `C242_torus`, `C242_cone_partial`, `C242_cone_inward` | partial. proved but for cones, whose normals are perpendicular unit vectors that point inward |
| C243 | Meshes of analytic surfaces | analytic_surfaces.py:tessellate_surface | Ana/Tess.lean: `C243_vertices`, `C243_triangles`, `C243_boundary` | proved. surfaces other than stored meshes, which are returned as they are |
| C244 | B-spline surfaces stay within their control points | analytic_surfaces.py:bspline_surface; analytic_surfaces.py:evaluate_bspline_surface; analytic_surfaces.py:_bspline_basis | Ana/BSpline.lean: `C244_hull_partial`, `C244_end`, `C244_end_v`, `C244_square`, `C244_mean` | partial. holds but at the far ends of the ranges, where a clamped surface of positive degree evaluates to its first control point |
| C245 | Closure of a shell | native_brep.py:compute_shell_closure; native_brep.py:TopologyGraph | Brep/Closure.lean: `C245_edges`, `C245_closed`, `C245_euler`, `C245_empty`, `C245_sense` | partial. boundary and non-manifold edges and the Euler characteristic are exact; 'closed' means every edge is run over twice or not at all: senses are ignored and a shell without known faces is closed |
| C246 | Adding shells | native_brep.py:TopologyGraph.add_shell; native_brep.py:validate_shell_closure | Brep/Adding.lean: `C246_claimed`, `C246_detected`, `C246_frame`, `C246_refused`, `C246_stale` | partial. acceptance and the frame are proved; a refused shell stays in the graph, and the mark goes stale |
| C247 | Incidence in topology graphs | native_brep.py:TopologyGraph.add_edge; native_brep.py:TopologyGraph.add_face; native_brep.py:TopologyGraph.vertex_edges; native_brep.py:TopologyGraph.edge_faces; native_brep.py:TopologyGraph.face_edges | Brep/Incidence.lean: `C247_vertex_partial`, `C247_edge_partial`, `C247_face`, `C247_order`, `C247_again`, `C247_seam` | partial. face_edges proved for all graphs; vertex_edges and edge_faces for histories in the natural order without repeated identities; the other histories and seams are counterexamples |
| C248 | Validation of solids | native_brep.py:TopologyGraph.validate_solid; native_brep.py:TopologyGraph.add_solid | Brep/Adding.lean: `C248_accept`, `C248_add` | proved. the geometric tests (intersecting shells, point in shell) are arbitrary functions |
| C249 | Writing and reading topology graphs | native_brep.py:serialize_topology_graph; native_brep.py:deserialize_topology_graph; native_brep.py:_serialize_surface; native_brep.py:_deserialize_surface | Brep/Serial.lean: `C249_read_partial`, `C249_closure`, `C249_incidence`, `C249_defaults`, `C249_arc` | partial. all is read back but incidence, senses and tolerances of edges and whether shells are outer; arcs without parameters make the graph unreadable |
| C250 | Transformation keeps the topology | native_brep.py:transform_topology_graph | Brep/Transform.lean: `C250_topology` | proved.  |
| C251 | Translated surfaces | native_brep.py:translate_native_brep; native_brep.py:_transform_surface_inplace; native_brep.py:_transform_vector | Brep/Transform.lean: `C251_translate` | proved. B-spline and mesh surfaces, whose points are moved one by one, are not included |
| C252 | Rotated and mirrored surfaces | native_brep.py:rotate_native_brep; native_brep.py:mirror_native_brep; native_brep.py:_transform_surface_inplace | Brep/Transform.lean: `C252_plane`, `C252_sphere`, `C252_cylinder_partial`, `C252_cone_partial`, `C252_torus_partial`, `C252_patch`, `C252_line` | partial. proved for planes (patch by patch) and for the full spheres, cylinders, cones and tori; patches of the latter are not moved correctly (the reference direction is not transformed), and before reading back a cylinder turned by a right angle is flat |
| C253 | Scaled surfaces and curves | native_brep.py:scale_native_brep | Brep/Transform.lean: `C253_round`, `C253_cylinder_partial`, `C253_plane`, `C253_circle`, `C253_negative` | partial. proved for spheres and tori; cylinders and cones keep their range of v, planes their size, circles their radius; negative factors give graphs that cannot be read |
| C254 | Cached values of Geometry objects | geometry.py:Geometry._updateInternals; geometry.py:Geometry.bbox; geometry.py:Geometry.elem; geometry.py:Geometry.translate | Obj/Cache.lean: `C254_fresh_partial`, `C254_elem`, `C254_error` | partial. proved for all histories in which no query raises and the property elem is not set; after either the stored values are stale |
| C255 | Surfaces of Geometry objects | geometry.py:Geometry.surface; geometry.py:Geometry._clearSurfaceCache | Obj/Cache.lean: `C255_surface_partial`, `C255_moved`, `C255_failed` | partial. proved for histories of queries without transformations and failures; after a transformation the old surface is returned |
| C256 | Cached values of Boolean objects | combine.py:Boolean.geom; combine.py:Boolean.translate; geometry.py:Geometry._updateInternals | Obj/Cache.lean: `C256_fresh_partial`, `C256_first`, `C256_moved`, `C256_half`, `C256_combination` | partial. proved for histories that ask for geom first after construction and each transformation; otherwise the query raises and geom stays empty or old; a transformation that raises leaves some operands transformed |
| C257 | Mirrored Geometry objects keep the sign of their area | geometry.py:Geometry.mirror; geom.py:reverseGeomList | Obj/Polygon.lean: `C257_area_partial`, `C257_line`, `C257_xy`, `C257_arc` | partial. proved for polylines at the xz and yz planes; at the xy plane the sign of the area changes, and points and arcs cannot be mirrored |
| C258 | Outlines of polygons | poly.py:Polygon._makeoutline; poly.py:Polygon.addPoint; poly.py:Polygon.addLine; poly.py:cullZeroLength | Obj/Polygon.lean: `C258_outline_partial`, `C258_length`, `C258_line` | partial. proved for points at one height (lines not longer than epsilon are left out); arcs and circles as elements are not modelled; with lines as elements the outline is broken |
| C259 | Polygons from figures | poly.py:Polygon.__init__ | Obj/Polygon.lean: `C259_polyline_partial`, `C259_lines` | partial. proved for closed polylines; lines are ignored |
| C260 | Samples of polygons | poly.py:Polygon.sample | Obj/Polygon.lean: `C260_sample_partial` | partial. polygons of points at one height; arcs and circles as elements are not modelled |
| C261 | Rectangles | poly.py:Rect | Obj/Polygon.lean: `C261_rect` | proved. sides longer than epsilon |
| C262 | Pieces of a polygon cut by planes | boolean/native.py:_split_polygon_by_planes; boolean/native.py:_split_polygon_by_plane; boolean/native.py:_clip_polygon_against_plane; boolean/native.py:_segment_plane_intersection | Bool3/Parts.lean: `C262_pieces`, `C262_clip` | proved. over any ordered field |
| C263 | Cutting conserves area | boolean/native.py:_split_polygon_by_planes | Bool3/Area.lean: `C263_area_partial` | partial. exact, at tolerance 0; with a tolerance points within it of a plane count on both sides |
| C264 | Fan triangulation of pieces | boolean/native.py:_triangulate_polygon | Bool3/Parts.lean: `C264_fan` | proved.  |
| C265 | Merging close points | boolean/native.py:_unique_points; boolean/native.py:_dedupe_polygon | Bool3/Parts.lean: `C265_unique`, `C265_dedupe` | proved.  |
| C266 | Cutting a triangle by the faces of a solid | boolean/native.py:_split_polygon_by_planes; boolean/native.py:_clip_triangle_against_solid | Bool3/Parts.lean: `C266_convex_partial`, `C266_ell_cut` | partial. proved for convex solids; in an L-shaped prism half of a triangle inside is called outside. The rest of _clip_triangle_against_solid (classification of pieces by their midpoints) is not modelled |
| C267 | Points in solids | boolean/native.py:solid_contains_point; boolean/native.py:_ray_triangle_intersection | Bool3/Contains.lean: `C267_box_partial`, `C267_hit`; Bool3/Cases.lean: `C267_ell_wrong`, `C267_convex_wrong` | partial. proved for every triangulation of the sides of a box; violated for an L-shaped and for a convex prism |
| C268 | Points beyond the bounding box | boolean/native.py:solid_contains_point | Bool3/Contains.lean: `C268_far` | proved.  |
| C269 | Order of surfaces does not matter to containment | boolean/native.py:solid_contains_point; boolean/native.py:_group_hits | Bool3/Order.lean: `C269_order` | proved.  |
| C270 | Containment always has an answer | boolean/native.py:solid_contains_point; boolean/native.py:_group_hits | Bool3/Cases.lean: `C270_answers_partial`, `C270_small_triangle` | partial. proved without degenerate triangles; a hit on a small triangle raises ValueError |
| C271 | Surfaces from triangles | boolean/native.py:_surface_from_triangles; geometry_checks.py:surface_watertight | Bool3/Result.lean: `C271_keeps_partial`, `C271_never_watertight` | partial. the triangles are kept as stated; no nonempty result passes surface_watertight, because triangles share no vertex numbers |
| C272 | Which triangles a boolean operation keeps | boolean/native.py:solid_boolean; boolean/native.py:_boolean_fragments | Bool3/Result.lean: `C272_parts`, `C272_symmetric_partial`; Bool3/Contains.lean: `C272_boxes` | partial. clipping is an arbitrary function; the fallback branches are shown dead; a union of which nothing is left of either boundary depends on the order of the operands |
| C273 | Stitching lines and arcs into loops | geom_util.py:_stitch_geomlist | Loops/Stitch.lean: `C273_stitch` | proved. points, pieces and nearness (reflexive, symmetric) are arbitrary |
| C274 | Closed outlines become closed loops | geom_util.py:_stitch_geomlist | Loops/Stitch.lean: `C274_closed_partial`, `C274_close_corners` | partial. proved where nearness is transitive; violated with two corners less than two tolerances apart |
| C275 | Components contain every loop once | geom_util.py:_assemble_components; geom_util.py:_orient_loop; geom_util.py:geomlist2poly_components | Loops/Region.lean: `C275_once` | proved.  |
| C276 | Components follow the even-odd rule | geom_util.py:_assemble_components; geom_util.py:geomlist2poly_with_holes | Loops/Region.lean: `C276_even_odd_partial`; Loops/Inside.lean: `C276_bracket` | partial. proved where the centroid of the corners tells nesting; a bracket around three sides of a square becomes a hole of the square |
| C277 | Points in polygons by crossings | geom_util.py:_point_in_polygon_xy | Loops/Inside.lean: `C277_even_odd`, `C277_above_below`, `C277_zero_division` | partial. exact away from the sides, with the margin the 1e-16 in the code needs; a side falling by exactly 1e-16 raises ZeroDivisionError |
| C278 | Polygons from geometry are closed | geom_util.py:_finalize_poly_points; geom_util.py:_convert_geom_sequence | Loops/Polyg.lean: `C278_finalize`, `C278_sequence` | proved.  |
| C279 | Loops of lines survive | geom_util.py:_convert_geom_sequence; geom_util.py:_finalize_poly_points | Loops/Polyg.lean: `C279_lines` | proved.  |
| C280 | Arcs and circles become polygons on them | geom_util.py:polarSampleArc; geom_util.py:_convert_geom_sequence; geom_util.py:geomlist2poly | Loops/Polyg.lean: `C280_polar`, `C280_circle`, `C280_small_circle` | partial. polarSampleArc for arcs with normalised angles; circles whose sides are longer than the tolerances; a circle of diameter up to minlen becomes a single point |
| C281 | Linear patterns | geom_util.py:linear_pattern | Loops/Patterns.lean: `C281_linear`, `C281_next`, `C281_none` | proved.  |
| C282 | Radial patterns | geom_util.py:radial_pattern | Loops/Patterns.lean: `C282_circle`, `C282_part_partial`, `C282_holes`, `C282_cases`, `C282_minus_circle` | partial. about z axes, for circles and figures whose arcs are given with start <= end < start+360 (see C118); for an angle of -360 the last copy lies on the first |
| C283 | Random points and arcs are in the box | geom_util.py:randomPoints; geom_util.py:randomCenterInBox; geom_util.py:randomArc | Loops/Random.lean: `C283_points`, `C283_arc_partial`, `C283_flat_box` | partial. points always; arcs in boxes at least 2 maxr wide in all three directions; in a flat box the centre is off the plane |
| C284 | Random polygons are simple | geom_util.py:randomPoly | Loops/Random.lean: `C284_poly_partial`, `C284_zero_angles`, `C284_crosses_itself` | partial. closed, in the box, distances, and counterclockwise around the centre where no angle is half of the sum or more; otherwise sides can cross; ZeroDivisionError if all draws are 0 |
| C285 | Spirals | geom_util.py:makeLineSpiral; geom_util.py:makeArcSpiral | Loops/Spiral.lean: `C285_samples`, `C285_line`, `C285_arcs`, `C285_centre` | proved. the number of samples round(360*turns/dstep) is a parameter |
| C286 | The metadata transform only normalises values, once | dsl/transforms/metadata.py:MetadataTransform.transform; dsl/transforms/metadata.py:_validate_operation_field; dsl/transforms/metadata.py:_cross_check | Hints/Props.lean: `C286_keys`, `C286_idempotent` | proved. For every module, with str, float, lower and splitting abstract up to str(str)=str and float(float)=float. |
| C287 | The metadata transform reports an error exactly when a hint breaks the schema | dsl/transforms/metadata.py:MetadataTransform.transform; dsl/transforms/metadata.py:_validate_operation_field; dsl/transforms/metadata.py:_cross_check | Hints/Props.lean: `C287_errors`, `C287_named` | proved. The schema is stated by full keys (EntryOk, HintOk), independently of how the code splits them. |
| C288 | Hints accepted by the transform can be applied | dsl/transforms/metadata.py:MetadataTransform.transform; dsl/transforms/metadata.py:_validate_operation_field; dsl/transforms/metadata.py:_cross_check; dsl/meta_apply.py:apply_meta_hint; dsl/meta_apply.py:apply_meta_hint_to_raw; dsl/meta_apply.py:_apply_operation | Hints/Apply.lean: `C288_accepted_partial`, `C288_joint_kind`, `C288_feature_kind`, `C288_documented_example` | partial. Violated: no joint_kind passes both the transform and the application (disjoint tables), and of the transform's feature kinds only pocket can be applied; the documented example raises ValueError. Proved for the eleven other keys. |
| C289 | Applying a hint is idempotent and additive | dsl/meta_apply.py:apply_meta_hint; dsl/meta_apply.py:apply_meta_hint_to_raw; dsl/meta_apply.py:_apply_operation | Hints/Twice.lean: `C289_twice_partial`, `C289_additive`, `C289_lands`, `C289_tags`; Hints/Sections.lean: `C289_entries`, `C289_other` | partial. Violated for tags: they are appended again each time. Proved for all fields of assembly (but the four lists) and operation and other root fields. |
| C290 | Normalising a hint does not change what is applied | dsl/transforms/metadata.py:MetadataTransform.transform; dsl/transforms/metadata.py:_validate_operation_field; dsl/transforms/metadata.py:_cross_check; dsl/meta_apply.py:apply_meta_hint; dsl/meta_apply.py:apply_meta_hint_to_raw; dsl/meta_apply.py:_apply_operation | Hints/Apply.lean: `C290_normalised_partial`, `C290_target_filter` | partial. Violated for a target_filter list with something else than strings; proved for every other hint, errors included. |
| C291 | A native check fails exactly if a criterion is violated | package/analysis/yapcad_native.py:YapCADNativeAdapter._evaluate_acceptance | Accept/Eval.lean: `C291_failed`, `C291_status`, `C291_order` | proved.  |
| C292 | A native check that passed meets every criterion | package/analysis/yapcad_native.py:YapCADNativeAdapter._evaluate_acceptance | Accept/Eval.lean: `C292_passed_partial`, `C292_missing_metric`, `C292_nan` | partial. violated: a metric that is missing or NaN passes |
| C293 | The reported failed criteria and results agree with the status | package/analysis/yapcad_native.py:YapCADNativeAdapter._evaluate_acceptance; package/analysis/yapcad_native.py:YapCADNativeAdapter._get_failed_criteria | Accept/Eval.lean: `C293_failed_criteria_partial`, `C293_listed_failed`, `C293_equality`, `C293_underscore`, `C293_results` | partial. violated: equalities and keys with underscores are not reported |
| C294 | The solvers' adapters evaluate the criteria alike | package/analysis/calculix.py:CalculixAdapter._evaluate_acceptance; package/analysis/fenics.py:FenicsxAdapter._evaluate_acceptance | Accept/Eval.lean: `C294_calculix`, `C294_calculix_order`, `C294_fenics_order`, `C294_fenics_partial`, `C294_equality_ignored`, `C294_nan` | partial. violated: FEniCS stops at a missing metric; == and ~= are ignored; NaN passes FEniCS |
| C295 | Schema validation accepts exactly the plans and results of the schema | package/analysis/schema.py:validate_plan; package/analysis/schema.py:validate_result | Accept/Schema.lean: `C295_valid`, `C295_result`, `C295_unknown` | proved.  |
| C296 | Schema validation never raises | package/analysis/schema.py:validate_plan; package/analysis/schema.py:validate_result | Accept/Schema.lean: `C296_total_partial`, `C296_list_kind`, `C296_list_status` | partial. violated: unhashable kind or status raises TypeError |
| C297 | A valid plan can be loaded | package/analysis/schema.py:validate_plan; package/analysis/schema.py:validate_result; package/analysis/base.py:load_plan | Accept/Load.lean: `C297_load_partial`, `C297_execution`, `C297_null_options`, `C297_null_materials`, `C297_required` | partial. violated: sections the validator does not look at |
| C298 | Recording a run replaces the plan's result and nothing else | package/analysis/cli.py:analyze_package; package/analysis/base.py:AnalysisResult.to_manifest_entry | Accept/Load.lean: `C298_first`, `C298_again_partial`, `C298_one_entry`, `C298_stale` | partial. violated: fields of earlier runs stay |
| C299 | STEP export: references are sound | io/step.py:write_step; io/step.py:_EntityWriter | Step/Props.lean: `C299_written`, `C299_references` | proved. write_step on the list of triangles of mesh_view; the texts of numbers and the header are left out |
| C300 | STEP export: points and edges are shared | io/step.py:write_step | Step/Props.lean: `C300_points`, `C300_edges`, `C300_lines` | proved. coordinates compared exactly, as the dictionary of tuples does |
| C301 | STEP export: one part for each connected piece | io/step.py:write_step | Step/Props.lean: `C301_parts`, `C301_names` | proved. read back with an independent reader of the entities |
| C302 | STEP export: the faces are the triangles | io/step.py:write_step | Step/Props.lean: `C302_faces`, `C301_parts` | proved.  |
| C303 | STEP export: solids are closed | io/step.py:write_step | Step/Props.lean: `C303_solid_partial`, `C301_parts`, `C303_flat_solid` | partial. proved: closed solid iff each side is used exactly twice in the mesh; the direction of the uses is not tested, so a triangle listed twice the same way round is written as a solid (C303_flat_solid) |
| C304 | STEP export: lines and planes are what the corners say | io/step.py:_normalize; io/step.py:_perpendicular; io/step.py:_distance | Step/Reals.lean: `C304_lines`, `C304_reference`, `C304_planes` | proved. over the reals; six-decimal rounding of the file is not modelled |
| C305 | Thread profile: samples run from end to end | threadgen.py:sample_thread_profile | Thread/Sampling.lean: `C305_domain`, `C305_order`, `C305_ends_partial`, `C305_left_short` | partial. the ends are reached by right-handed threads only; a left-handed thread's last sample is short of x_end by the part of the turn (C305_left_short) |
| C306 | Thread profile: profiles at different angles match | threadgen.py:sample_thread_profile | Thread/Sampling.lean: `C306_same` | proved. ordered fields with a floor; rounding left out |
| C307 | Thread profile: radius within the thread | threadgen.py:sample_thread_profile; threadgen.py:_radius_at | Thread/Radius.lean: `C307_bounds_partial`, `C307_negative` | partial. the bounds are proved for taper 0 and threads not deeper than the shaft's radius; for deeper ones the first sample has a negative radius (C307_negative) |
| C308 | Thread profile: the shape is a periodic trapezoid | threadgen.py:_radius_at; threadgen.py:ThreadProfile.lead | Thread/Radius.lean: `C308_shape`, `C308_periodic`, `C308_turn` | proved.  |
| C309 | Thread profile: samples lose no detail | threadgen.py:_collect_breakpoints; threadgen.py:_pitch_breakpoints | Thread/Linear.lean: `C309_straight`, `C309_density` | proved.  |
| C310 | Thread profile: depths of the standards | threadgen.py:metric_profile; threadgen.py:unified_profile | Thread/Radius.lean: `C310_metric`, `C310_unified`, `C310_flats`, `C310_units` | partial. unified_profile multiplies by the pitch twice: the depth is 0.64952 pitch^2, right only for a pitch of 1 mm |
| C311 | Edges selected by height | brep_edge_select.py:select_edges_at_z; brep_edge_select.py:select_edges_in_z_range; brep_edge_select.py:select_top_edges; brep_edge_select.py:select_bottom_edges | Select/Position.lean: `C311_range`, `C311_top`, `C311_bottom` | proved. real numbers; the edges and their curves are what the geometry kernel says |
| C312 | Edges that cross a height | brep_edge_select.py:select_edges_crossing_z | Select/Position.lean: `C312_crossing_partial`, `C312_flat` | partial. edges within the tolerance of the height are selected as crossing it, also those that lie at the height (C312_flat) |
| C313 | Edges selected by place | brep_edge_select.py:select_edges_near_point; brep_edge_select.py:select_edges_in_cylinder | Select/Position.lean: `C313_near`, `C313_cylinder` | proved.  |
| C314 | Edges selected by length | brep_edge_select.py:select_edges_by_length | Select/Position.lean: `C314_length` | proved.  |
| C315 | Edges selected by direction | brep_edge_select.py:select_edges_by_direction; brep_edge_select.py:select_horizontal_edges | Select/Direction.lean: `C315_direction`, `C315_horizontal` | proved. straight = taken for straight by the middle of the curve, see C316 |
| C316 | Straight edges are told from curved ones | brep_edge_select.py:_get_edge_direction; brep_edge_select.py:filter_curved_edges; brep_edge_select.py:filter_linear_edges; brep_edge_select.py:edge_info | Select/Direction.lean: `C316_info_partial`, `C316_straight`, `C316_bent`, `C316_filters` | partial. straight edges are taken for straight, but so are curves whose middle is in the middle of the chord (C316_bent); edge_info uses rounded thresholds, so it says vertical of a few edges the selection does not return |
| C317 | Selections combine as sets | brep_edge_select.py:union_edges; brep_edge_select.py:intersect_edges; brep_edge_select.py:subtract_edges | Select/Sets.lean: `C317_union_partial`, `C317_intersect_partial`, `C317_subtract_partial`, `C317_parts_partial`, `C317_none`, `C317_collision` | partial. holds if different edges have different hash codes; two edges with the same hash code are one (C317_collision) |
| C318 | Fastener catalogs: search order | fasteners/catalog.py:_get_data_dirs; fasteners/catalog.py:_load_catalog_impl; fasteners/catalog.py:_load_yaml; fasteners/catalog.py:load_catalog | Catalog/Search.lean: `C318_directories`, `C318_search`, `C318_custom`, `C318_series` | proved. POSIX only; YAML parsing outside the model |
| C319 | Fastener catalogs: caching | fasteners/catalog.py:clear_cache; fasteners/catalog.py:load_catalog; fasteners/catalog.py:_load_catalog_cached | Catalog/Cache.lean: `C319_fresh`, `C319_same`, `C319_failed` | proved. single thread; directories are cached too: a directory made after the first call is not seen until the caches are cleared (part of C319_failed) |
| C320 | Fastener catalogs: callers do not affect each other | fasteners/catalog.py:load_catalog; fasteners/catalog.py:get_thread_data | Catalog/Cache.lean: `C320_untouched_partial`, `C320_alias` | partial. the returned dictionary is the cached one: changes are seen by later callers (C320_alias) |
| C321 | Fastener sizes: lookup | fasteners/catalog.py:get_thread_data | Catalog/Lookup.lean: `C321_size`, `C321_mixed` | partial. names with both capitals and small letters, as of fine threads, are found in the exact spelling only (C321_mixed) |
| C322 | Bolt and nut data | fasteners/catalog.py:get_bolt_data; fasteners/catalog.py:get_nut_data | Catalog/Lookup.lean: `C322_hardware`, `C322_class`, `C322_default` | partial. the default class 6g/6H does not exist for unified threads: such calls without a class fail (C322_default) |
| C323 | DSL numbers: min, max, abs, rounding, angles, exp | dsl/runtime/builtins.py:_register_math_functions | Builtin/NumProps.lean: `C323_min`, `C323_max`, `C323_abs`, `C323_rounding`, `C323_angles`, `C323_exp_partial` | partial. real arithmetic without rounding; exp is constant beyond ±700, without an error |
| C324 | DSL lists: range, len, concat, reverse, flatten | dsl/runtime/builtins.py:_register_utility_functions | Builtin/NumProps.lean: `C324_range`, `C324_len`, `C324_elements`, `C324_flatten_mixed` | proved.  |
| C325 | DSL lists: values fit their types | dsl/runtime/builtins.py:_register_utility_functions | Builtin/NumProps.lean: `C325_typed`, `C325_concat_partial`, `C325_concat_mixed` | partial. concat of lists of different types claims the type of the first (C325_concat_mixed) |
| C326 | DSL lists: aggregation | dsl/runtime/builtins.py:_register_utility_functions | Builtin/NumProps.lean: `C326_sum`, `C326_bool`, `C326_extremes` | proved. real arithmetic without rounding |
| C327 | DSL: area of regions | dsl/runtime/builtins.py:_area | Builtin/RegionProps.lean: `C327_regions`, `C327_triangle`, `C327_convex_partial`, `C327_cut`, `C327_invariant`, `C327_rectangle`, `C327_regular`, `C327_arcs`, `C327_hole` | partial. arcs do not count, and regions with holes have area 0 (C327_arcs, C327_hole) |
| C328 | DSL: perimeter of regions | dsl/runtime/builtins.py:_perimeter | Builtin/RegionProps.lean: `C328_perimeter`, `C328_holes`, `C328_shapes` | proved. lines at constant height (others are measured in the projection) |
| C329 | DSL: centroid of solids | dsl/runtime/builtins.py:_centroid | Builtin/SolidProps.lean: `C329_symmetric_partial`, `C329_inside`, `C329_subdivided` | partial. it is the mean of the vertices: splitting an edge moves it (C329_subdivided) |
| C330 | DSL: mirror_2d | dsl/runtime/builtins.py:_mirror_2d | Builtin/SolidProps.lean: `C330_mirror`, `C330_error` | proved. axes shorter than 1e-10 count as zero |
| C331 | DSL: translate, rotate, scale, mirror of solids | dsl/runtime/builtins.py:_translate; dsl/runtime/builtins.py:_rotate; dsl/runtime/builtins.py:_scale; dsl/runtime/builtins.py:_mirror_solid; geom3d.py:translatesolid; geom3d.py:rotatesolid; geom3d.py:scalesolid; geom3d.py:mirrorsolid | Builtin/SolidProps.lean: `C331_translate`, `C331_rotate_partial`, `C331_rotate_small`, `C331_scale_partial`, `C331_scale_stale`, `C331_stale_example`, `C331_mirror_partial`, `C331_mirror_oblique` | partial. scaling by different factors leaves shape and native representation as they were (C331_scale_stale); mirrors with normals that are not along an axis use a coordinate plane (C331_mirror_oblique); tiny rotations turn the shape only. The kernel is modelled by its point maps |
| C332 | DSL: union, intersection, difference of many solids | dsl/runtime/builtins.py:_register_boolean_functions | Builtin/SolidProps.lean: `C332_union`, `C332_intersection`, `C332_difference`, `C332_lists`, `C332_errors` | proved. relative to the operation on two solids |
| C333 | DSL: apply a transform to a solid | dsl/runtime/builtins.py:_apply; geom3d.py:rotatesolid; brep.py:apply_matrix_to_brep_solid | Builtin/SolidProps.lean: `C333_mesh_partial`, `C333_native`, `C333_shape`, `C333_drift`, `C333_normals` | partial. only the mesh is moved by the transform: the shape is turned by 0.001° besides, the native representation only turned by 0.001° (C333_native, C333_shape, C333_drift), normals are multiplied by the matrix (C333_normals) |
| C334 | Gears: closed and regular outlines | contrib/figgear.py: make_gear_figure | Gear/Props.lean: `C334_closed`, `C334_accepted`, `C334_teeth`, `C334_mirror` | proved. real arithmetic without rounding |
| C335 | Gears: flanks are involutes | contrib/figgear.py: make_gear_figure | Gear/Props.lean: `C335_involute`, `C335_ends`, `C335_order` | proved. for first flanks; the second are their mirror images (C334_mirror) |
| C336 | Gears: thickness and pitch | contrib/figgear.py: make_gear_figure | Gear/Props.lean: `C336_thickness`, `C336_mesh` | proved. about the involutes the points are on (C335) |
| C337 | Gears: the root is at the dedendum circle | contrib/figgear.py: make_gear_figure | Gear/Props.lean: `C337_root_partial`, `C337_below`, `C337_far`, `C337_spline`, `C337_root_place`, `C337_spline_points` | partial. violated: gears of many teeth have points inside the dedendum circle (C337_below), splines dig deeper (C337_spline), and one or two teeth have a negative dedendum radius (C337_far) |
| C338 | Gears: teeth do not overlap | contrib/figgear.py: make_gear_figure | Gear/Teeth.lean: `C338_disjoint_partial`, `C338_overlap`, `C338_pointed` | partial. violated: large gears overlap at the base circle (C338_overlap, 106 teeth or more at 20 degrees), gears with few teeth at the tip (C338_pointed); neither is refused |
| C339 | Graph export: one interface per joined pair | assembly/mechatron_export.py:to_mechatron_snapshot; assembly/mechatron_export.py:_interface_for_mate_group | Export/Graph.lean: `C339_interfaces`, `C339_own_mates` | proved.  |
| C340 | Graph export: nothing refers to a part that is missing | assembly/mechatron_export.py:to_mechatron_snapshot; assembly/assembly.py:Assembly.add_part | Export/Graph.lean: `C340_consistent_partial`, `C340_renamed` | partial. Proved for assemblies whose parts keep their definition's name; C340_renamed is an assembly with two exported parts of the same id and an interface that refers to none. |
| C341 | Graph export: the joint is the mate's joint | assembly/mechatron_export.py:_joint_for_mate; assembly/mechatron_export.py:_interface_for_mate_group; assembly/mechatron_export.py:_resolve_mate_axis | Export/Mates.lean: `C341_joint_partial`, `C341_second_lost`, `C341_unknown_frozen` | partial. Violated: a second motion mate is dropped; joints the target does not know become fixed. |
| C342 | Graph export: constraints say what the mates say | assembly/mechatron_export.py:_mate_constraint_for_mate | Export/Mates.lean: `C342_constraints_partial`, `C342_angle_radians`, `C342_parallel_planes`, `C342_rigid_concentric` | partial. Proved for pairs without non-zero angles, parallel planes and rigid mates; the three theorems after it show what happens otherwise. |
| C343 | Graph export: insertion is against the parent's face | assembly/mechatron_export.py:_resolve_insertion_vector | Export/Mates.lean: `C343_insertion` | proved.  |
| C344 | Graph export: load cases and bolt patterns are not lost | assembly/mechatron_export.py:to_mechatron_snapshot; assembly/assembly.py:Assembly.add_load_case; assembly/assembly.py:Assembly.add_bolt_pattern | Export/Graph.lean: `C344_load_cases`, `C344_bolts_partial`, `C344_lost` | partial. Load cases in full; a bolt pattern needs a mate in its own direction. |
| C345 | Graph export: parts keep their datums and material | assembly/mechatron_export.py:_datum_to_mechatron; assembly/mechatron_export.py:_material_to_mechatron | Export/Geoms.lean: `C345_datums`, `C345_material`, `C345_attributes` | proved.  |
| C346 | Load cases: checked, and survive being written and read | assembly/load_case.py:LoadCase.__post_init__; assembly/load_case.py:LoadCase.to_dict; assembly/load_case.py:LoadCase.from_dict; assembly/load_case.py:LoadAttach.to_dict | Export/LoadCase.lean: `C346_valid`, `C346_read`, `C346_round_trip` | proved. Directions are lists; a string or dictionary of length three passes the check too. |
| C347 | Bolt patterns: checked, and survive being written and read | assembly/load_case.py:BoltPattern | Export/LoadCase.lean: `C347_bolts_partial`, `C347_fraction` | partial. Fractional numbers of bolts are accepted and cannot be read back. |
| C348 | Graph export: visual primitives in metres | assembly/mechatron_export.py:_geom_to_mechatron | Export/Geoms.lean: `C348_geoms_partial`, `C348_mixed` | partial. Proved for entries in millimetres. |
| C349 | Plane of a triangle | geom3d.py:tri2p0n | Plane/Basis.lean: `C349_plane` | proved.  |
| C350 | Planar basis of a triangle | geom3d.py:tri2p0n; xform.py:Matrix.mul | Plane/Basis.lean: `C350_exists`, `C350_inverse`, `C350_forward`, `C350_case` | proved.  |
| C351 | Signed distance from a plane | geom3d.py:signedPlaneDistance | Plane/Basis.lean: `C351_distance`, `C351_sign` | proved.  |
| C352 | Line and coordinate plane | geom3d.py:linePlaneIntersect | Plane/Inter.lean: `C352_hit`, `C352_complete_partial`, `C352_shallow` | partial. violated for lines that cross the plane with a rise below epsilon (C352_shallow) |
| C353 | Line and triangle | geom3d.py:linePlaneIntersect; geom.py:isInsideTriangleXY | Plane/Inter.lean: `C353_hit`, `C353_complete_partial`, `C353_basis_refused`, `C353_outside`, `C353_case` | partial. violated: the planar basis is refused, the triangle bounds the answer without inside; lines with a rise below epsilon are missed |
| C354 | Intersection of two triangles | geom3d.py:triTriIntersect; native_brep.py:triTriIntersect; boolean/native.py:triTriIntersect | Plane/TriTri.lean: `C354_on_planes_partial`, `C354_false_partial`, `C354_disjoint`, `C354_sticks_out`, `C354_opposite`, `C354_case`, `C354_coplanar` | partial. violated: see C354_disjoint, C354_sticks_out, C354_opposite. Proved: the segment lies on both planes; False is right for normals that differ and triangles that are not coplanar. The coplanar boolean is a parameter |
| C355 | Signed distance from a triangle | geom3d.py:signedFaceDistance; geom.py:linePointXY | Plane/Face.lean: `C355_distance_partial`, `C355_error`, `C355_sliver`, `C355_sliver_case`, `C355_case` | partial. violated for slivers with an edge below epsilon (C355_sliver) |
| C356 | Spheres and planes of the reference geometry | assembly/intent.py:ReferenceGeometry.get_surface_point; assembly/intent.py:ReferenceGeometry.get_normal_at | Intent/Props.lean: `C356_sphere`, `C356_plane`, `C356_missing` | proved. spheres of radius at least 1e-10; a mag of 0 is the only refusal of a plane |
| C357 | Cylinders of the reference geometry | assembly/intent.py:ReferenceGeometry.get_surface_point; assembly/intent.py:ReferenceGeometry.get_normal_at | Intent/Props.lean: `C357_cylinder_partial`, `C357_axis_ignored` | partial. violated for axes that are not parallel to z (C357_axis_ignored); proved for those that are |
| C358 | Connections become mates | assembly/intent.py:Connection.to_mate_spec; assembly/intent.py:Connection.get_parent_part; assembly/intent.py:Connection.get_child_datum | Intent/Props.lean: `C358_ends`, `C358_type` | proved. for names with at most one dot; what follows a second dot is dropped |
| C359 | Constraints of an intent | assembly/intent.py:AssemblyIntent.collect_constraints; assembly/intent.py:ParallelAxesRequirement.get_implied_constraints | Intent/Props.lean: `C359_all`, `C359_refused` | proved.  |
| C360 | Solving an intent | assembly/intent.py:AssemblyIntent.solve; assembly/intent.py:ContactRequirement.get_implied_constraints | Intent/Solve.lean: `C360_success`, `C360_radius` | proved.  |
| C361 | Validating an intent | assembly/intent.py:AssemblyIntent.validate; assembly/intent.py:AssemblyIntent.add_reference_geometry; assembly/intent.py:AssemblyIntent.solve | Intent/Solve.lean: `C361_issues`, `C361_agrees`, `C361_disagree` | proved.  |
| C362 | Clearances | assembly/intent.py:Clearance.validate | Intent/Solve.lean: `C362_consistent_partial`, `C362_overlapping` | partial. violated: every clearance is satisfied (C362_overlapping) |
| C363 | What requirements imply | assembly/intent.py:ContactRequirement.get_implied_constraints; assembly/intent.py:RollRequirement.get_implied_constraints; assembly/intent.py:AxisOrientationRequirement.get_implied_constraints; assembly/intent.py:ParallelAxesRequirement.get_implied_constraints | Intent/Solve.lean: `C363_contact`, `C363_roll`, `C363_orient`, `C363_parallel` | proved.  |
| C364 | Catalog bolts fit catalog nuts | fasteners/builders.py:_make_profile_from_catalog; threadgen.py:_radius_at | Thread/Fit.lean: `C364_fit` | proved. about the radius function of the thread, not the lead-in at the ends (C307); pitch at least 3.2 epsilon, depth at most the bolt's radius |
| C365 | Thread length of catalog bolts | fasteners/builders.py:_default_thread_length; fasteners/builders.py:build_hex_bolt_from_catalog | Thread/Fit.lean: `C365_length` | proved. lengths of at least epsilon, positive diameters |
| C366 | Catalog bolts that are accepted | fasteners/builders.py:build_hex_bolt_from_catalog; fasteners_legacy.py:_validate_spec; fasteners_legacy.py:build_hex_cap_screw | Thread/Fit.lean: `C366_accepted`, `C366_total` | proved.  |
| C367 | Bolt circles | assembly/mate_surrogates.py:Feature.get_hole_positions; assembly/mate_surrogates.py:create_ddsm115_surrogate | Surrogate/Props.lean: `C367_holes_partial`, `C367_none`, `C367_out_of_plane` | partial. The holes are always in a plane parallel to xy, whatever the direction of the circle: those of the library's DDSM115 are not in the face they are in (C367_out_of_plane). Everything else is proved for every circle. |
| C368 | A sun gear fits its servo | assembly/mate_surrogates.py:create_sun_gear_surrogate; assembly/mate_surrogates.py:create_xh540_surrogate; assembly/mate_surrogates.py:create_xh430_surrogate; assembly/mate_surrogates.py:create_xl330_surrogate; assembly/mate_surrogates.py:get_all_surrogates | Surrogate/Props.lean: `C368_fit`, `C368_library` | proved. Every sun gear made with the servo's name and bolt circle; the four gears of the library are such. |
| C369 | Features and frames of parts | assembly/mate_surrogates.py:MateSurrogate.add_feature; assembly/mate_surrogates.py:MateSurrogate.get_feature; assembly/mate_surrogates.py:validate_surrogates | Surrogate/Props.lean: `C369_features`, `C369_checked_partial`, `C369_left_handed` | partial. The check says nothing of the handedness of the frame, and the library's DDSM115 has a left-handed one (C369_left_handed). The rest of the check is exact. |

## 4. What is modelled

For every Python file of the package: functions and methods with at least one line cited by a definition of the model, and the rest.
A cited function is modelled up to the simplifications stated at the citation.

1017 of 2109 functions and methods in 82 files.

| file | modelled | not modelled |
|---|---|---|
| analytic_surfaces.py | plane_surface, evaluate_plane_surface, plane_surface_normal, sphere_surface, evaluate_sphere_surface, sphere_surface_normal, cylinder_surface, evaluate_cylinder_surface, cylinder_surface_normal, cone_surface, evaluate_cone_surface, cone_surface_normal, torus_surface, evaluate_torus_surface, torus_surface_normal, bspline_surface, _bspline_basis, evaluate_bspline_surface, bspline_surface_normal, evaluate_tessellated_surface, tessellated_surface_normal, evaluate_surface, surface_normal, tessellate_surface | is_plane_surface, is_sphere_surface, is_cylinder_surface, is_cone_surface, is_torus_surface, is_bspline_surface, tessellated_surface, is_tessellated_surface, is_analytic_surface |
| assembly/assembly.py | Assembly.__init__, Assembly.add_part, Assembly.add_mate, Assembly.add_constraint, Assembly.add_load_case, Assembly.add_bolt_pattern, Assembly.get_transformed_datum, Assembly.validate, Assembly.validate_and_raise, Assembly.get_degrees_of_freedom, Assembly.import_transforms_from_kinematic_chain | AssemblyError.__init__, AssemblyError._format_message, AssemblyValidationResult.__str__, AssemblyValidationResult.report, Assembly.get_load_case, Assembly.get_bolt_pattern, Assembly.export_to_urdf, Assembly.export_to_blender_rig, Assembly.__repr__, Assembly.report |
| assembly/constraint.py | ConstraintResult.__str__, Constraint.evaluate, Constraint._check_tangent_to_circle, Constraint._check_radial, Constraint._check_facing, Constraint._check_at_radius, Constraint._check_parallel, Constraint._check_perpendicular, Constraint._parse_direction | angle_between_vectors, distance_to_point, dot_product, is_tangent_to_circle, is_radial_from_center |
| assembly/datum.py | Datum.__post_init__, Datum.transform, PartDefinition.add_datum | PartDefinition.get_datum, PartDefinition.validate_datums |
| assembly/datum_registry.py | DatumRegistry._get_instance, DatumRegistry.get_datum, DatumRegistry.register_source, DatumRegistry.register_datum, DatumRegistry.list_datums, DatumRegistry.add_search_path, DatumRegistry.clear, DatumRegistry._load_source, DatumRegistry._find_source_file, DatumRegistry._load_surrogate_json, DatumRegistry._try_part_name_lookup, datum_to_transform_matrix | DatumRegistry.get_datums_for_source, DatumRegistry.register_part, DatumRegistry.list_sources, DatumRegistry._load_dsl_datums, DatumRegistry._datum_from_dict |
| assembly/face_mate.py | FaceToFaceMate.compute_transform, compute_flush_transform, compute_concentric_transform, compute_parallel_transform, _rotation_between_vectors, _apply_rotation_about_axis | MateValidationResult.__str__, FaceToFaceMate.validate, FaceToFaceMate.invalidate_cache, create_face_mate, create_axis_mate |
| assembly/intent.py | ReferenceGeometry.get_surface_point, ReferenceGeometry.get_normal_at, ContactRequirement.get_implied_constraints, ContactRequirement.get_derived_parameters, RollRequirement.get_implied_constraints, AxisOrientationRequirement.get_implied_constraints, ParallelAxesRequirement.get_implied_constraints, ReachRequirement.get_implied_constraints, ReachRequirement.get_derived_parameters, Connection.get_parent_part, Connection.get_parent_datum, Connection.get_child_part, Connection.get_child_datum, Connection.to_mate_spec, Clearance.validate, AssemblyIntent.add_reference_geometry, AssemblyIntent.collect_constraints, AssemblyIntent.collect_derived_parameters, AssemblyIntent.solve, AssemblyIntent.validate | FunctionalRequirement.get_implied_constraints, FunctionalRequirement.get_derived_parameters, SolveResult.report, AssemblyIntent.add_requirement, AssemblyIntent.add_connection, AssemblyIntent.add_clearance, AssemblyIntent.to_assembly, AssemblyIntent.report, create_wheel_assembly_intent, create_scara_arm_intent |
| assembly/kinematic_integration.py | check_mesh_collision, _aabb_intersects, _check_collision_sampling, _points_inside_mesh_simple, _ray_triangle_intersect, ConstraintEvaluationResult.__str__, KinematicConstraint._get_local_axis, KinematicConstraint._transform_vector, KinematicConstraint._get_standard_face_offset, KinematicConstraint._get_face_position, KinematicConstraint.evaluate, KinematicConstraint._evaluate_coincident, KinematicConstraint._evaluate_concentric, KinematicConstraint._evaluate_parallel, KinematicConstraint._evaluate_perpendicular, KinematicConstraint._evaluate_tangent, KinematicConstraint._evaluate_at_distance, KinematicConstraint._evaluate_bolt_pattern, KinematicConstraint._evaluate_min_distance, KinematicConstraint._evaluate_z_stack_clearance, KinematicConstraint._evaluate_no_overlap, KinematicConstraint._evaluate_mesh_collision, KinematicConstraint._calculate_bbox_separation, KinematicConstraint._transform_aabb, AssemblyValidator.validate, AssemblyValidator.validate_and_raise, validate_assembly | MeshCollisionResult.__str__, _extract_transform_matrix, _estimate_penetration, KinematicConstraint._get_origin, ValidationReport.__str__, ValidationReport.detailed_report, AssemblyValidator.__init__, AssemblyValidator.add_constraint, AssemblyValidator.add_constraints, AssemblyValidator.clear_constraints, create_tangent_constraint, create_parallel_constraint, create_coincident_constraint, create_z_stack_clearance_constraint, create_no_overlap_constraint, create_mesh_collision_constraint, create_min_distance_constraint, create_face_distance_constraint, create_face_coincident_constraint |
| assembly/load_case.py | LoadAttach.to_dict, LoadCase.__post_init__, LoadCase.to_dict, LoadCase.from_dict, BoltPattern.__post_init__, BoltPattern.to_dict, BoltPattern.from_dict | – |
| assembly/mate.py | Mate.validate, Mate.degrees_of_freedom, Mate.evaluate, Mate.is_coupled, Mate.compute_coupled_motion, Mate.to_dict, Mate.from_dict | Mate.part1, Mate.part2, Mate.datum1, Mate.datum2, create_revolute_mate, create_prismatic_mate, create_gear_mate, CoincidentResult.__str__, evaluate_coincident, check_bolt_circle_alignment, create_coincident_mate |
| assembly/mate_surrogates.py | Feature.get_hole_positions, MateSurrogate.add_feature, MateSurrogate.get_feature, create_ddsm115_surrogate, create_xh540_surrogate, create_xh430_surrogate, create_xl330_surrogate, create_sun_gear_surrogate, get_all_surrogates, validate_surrogates | MateSurrogate.get_transform_to_standard_frame, print_surrogate_summary |
| assembly/mechatron_export.py | _homogeneous_to_point3d, _homogeneous_to_vec3d, _datum_to_mechatron, _material_to_mechatron, _resolve_mate_axis, _joint_for_mate, _mate_constraint_for_mate, _is_motion_mate, _resolve_insertion_vector, _interface_for_mate_group, to_mechatron_snapshot, _geom_to_mechatron | to_mechatron_json, _ordered_part_names |
| assembly/resolver.py | AssemblyResolver._collect_cutters, AssemblyResolver._validate_cutters, AssemblyResolver._apply_boolean, AssemblyResolver._handle_policy, BasicResolver.resolve, StagedResolver.__init__, StagedResolver.resolve | AssemblyResolver.resolve, KinematicResolver.__init__, KinematicResolver.resolve, get_resolver, resolve_assembly |
| assembly/solver.py | MateMateSolveResult.__str__, MateConstraintSolver.__init__, MateConstraintSolver.solve_mate, MateConstraintSolver.solve_all, MateConstraintSolver.validate_transform, MateConstraintSolver.invalidate_cache, MateConstraintSolver._solve_constraint, MateConstraintSolver._solve_concentric, MateConstraintSolver._solve_parallel, MateConstraintSolver._solve_perpendicular, MateConstraintSolver._solve_distance, MateConstraintSolver._solve_angle, MateConstraintSolver._get_datum_direction, MateConstraintSolver._rotation_between_vectors, MateConstraintSolver._rodrigues_rotation, MateConstraintSolver._apply_mate_axis_rotation, apply_mate_axis_rotation, solve_mate_chain | ValidationResult.__str__, MateConstraintSolver._solve_coincident, MateConstraintSolver._solve_revolute, MateConstraintSolver._get_datum |
| boolean/native.py | _bbox_overlap, _segment_bbox, _plane_eval, _segment_plane_intersection, _dedupe_polygon, _clip_polygon_against_plane, _split_polygon_by_plane, _split_polygon_by_planes, _triangulate_polygon, _unique_points, _boolean_fragments, _ray_triangle_intersection, _surface_from_triangles, _iter_triangles_from_surface, _group_hits, solid_contains_point, solid_boolean | _geom3d, _ensure_surface_metadata_dict, _triangle_bbox, _triangle_plane_intersection_points, _candidate_planes_for_triangle, invalidate_surface_octree, _triangle_plane, _plane_key, _plane_key_no_sense, _determine_surface_orientation, _sub3, _dot3, _cross3, _mag3, _normalize3, _point_to_key, _canonical_edge_key, _lerp_point, _point_in_triangle, _segment_triangle_intersection_param, _collect_segment_intersections, _points_to_polygon, _orient_triangle, _clip_triangle_against_solid, stitch_open_edges, stitch_solid, _union_boundary_from_inside, _filter_triangles_against_other, surface_octree, _iter_triangles_from_solid, _triangle_normal, solids_intersect |
| brep.py | translate_brep_solid, rotate_brep_solid, mirror_brep_solid, scale_brep_solid, _apply_trsf_to_brep, apply_matrix_to_brep_solid | occ_available, require_occ, _shape_to_bytes, _shape_from_bytes, attach_brep_to_solid, brep_from_solid, has_brep_data, _regenerate_solid_id, transform_brep_shape, _clear_brep_data, BrepVertex.__init__, BrepVertex.shape, BrepEdge.__init__, BrepEdge.shape, BrepFace.__init__, BrepFace.shape, BrepSolid.__init__, BrepSolid.shape, BrepSolid.tessellate, _get_all_edges, fillet_all_edges, chamfer_all_edges, fillet_edges, chamfer_edges, is_brep |
| brep_edge_select.py | _get_edge_direction, _get_edge_endpoints, _get_edge_length, _get_edge_midpoint, _get_unique_edges, select_vertical_edges, select_horizontal_edges, select_edges_by_direction, select_edges_by_length, select_edges_at_z, select_edges_in_z_range, select_edges_crossing_z, select_top_edges, select_bottom_edges, select_edges_near_point, select_edges_in_cylinder, filter_curved_edges, filter_linear_edges, edge_info, union_edges, intersect_edges, subtract_edges | _ensure_occ_imports, _cast_to_edge, get_all_edges |
| collision/detector.py | CollisionDetector.__init__, CollisionDetector.set_interface_registry, CollisionDetector.check_collision, CollisionDetector.check_assembly, CollisionDetector.get_collision_summary, CollisionDetector._get_geometry, CollisionDetector._aabb_intersects | GeometryProvider.get_geometry, CollisionDetector.clear_cache, CollisionDetector.preferred_method, CollisionDetector._to_numpy_transform, CollisionDetector._check_brep_collision, CollisionDetector._load_brep_shape, CollisionDetector._check_mesh_collision, CollisionDetector._load_mesh, CollisionDetector._check_aabb_collision |
| collision/gear_interface.py | GearMeshInterface.pitch_diameter, GearMeshInterface.outside_diameter, GearMeshInterface.root_diameter, GearMeshInterface.get_center_distance, GearMeshInterface.check_compatibility, check_gear_mesh_collision | GearMeshInterface.__post_init__, GearMeshInterface.addendum, GearMeshInterface.dedendum, GearMeshInterface.base_diameter, GearMeshInterface.get_bounding_cylinder, GearMeshInterface.get_engagement_depth, GearMeshInterface.get_mesh_overlap_depth, GearMeshInterface.get_expected_overlap_volume, GearMeshInterface.to_dict, create_planetary_gearbox_interfaces |
| collision/interface.py | (module level) | CompatibilityResult.__str__, CompatibilityResult.__repr__, InterfaceVolume.get_bounding_cylinder, InterfaceVolume.check_compatibility, InterfaceVolume.get_engagement_depth, InterfaceVolume.overlaps_with, InterfaceVolume.transform_center, InterfaceVolume.transform_axis, InterfaceVolume.to_dict |
| collision/registry.py | InterfaceRegistry.__init__, InterfaceRegistry.register, InterfaceRegistry.unregister, InterfaceRegistry.get, InterfaceRegistry.get_interfaces_for_part, InterfaceRegistry.get_interfaces_by_type, InterfaceRegistry.has_interfaces, InterfaceRegistry.find_compatible_interfaces, InterfaceRegistry.check_overlap_compatibility, InterfaceRegistry.get_compatible_interface_names, InterfaceRegistry.get_all_interfaces, InterfaceRegistry.get_all_parts, InterfaceRegistry.clear, InterfaceRegistry.__len__ | InterfaceRegistry.register_many, InterfaceRegistry.to_dict, InterfaceRegistry.__contains__, InterfaceRegistry.__iter__, InterfaceRegistry.__repr__ |
| collision/result.py | CollisionResult.__str__, CollisionResult.is_error, CollisionResult.is_interface_overlap, CollisionResult.to_dict, CollisionResult.from_dict, CollisionResult.no_collision, CollisionResult.error | CollisionResult.__repr__, CollisionResult.pair_key |
| collision/thread_interface.py | ThreadInterface.check_compatibility | ThreadInterface.__post_init__, ThreadInterface.minor_diameter, ThreadInterface.pitch_diameter, ThreadInterface.thread_depth, ThreadInterface.get_bounding_cylinder, ThreadInterface.get_engagement_depth, ThreadInterface.from_metric_size, ThreadInterface.to_dict, create_bolt_pattern_interfaces |
| combine.py | Boolean.__init__, Boolean._calcCenter, Boolean.translate, Boolean.scale, Boolean.rotate, Boolean.mirror, Boolean.transform, Boolean.geom | Boolean.__repr__, Boolean.type, Boolean._poly_to_segments, Boolean._prepare_geom, Boolean._combine_geom |
| contrib/figgear.py | _inv, _catmull_rom, _add_bottom_points_line, _add_bottom_points_spline, _ensure_closed, make_gear_figure | – |
| dsl/checker.py | TypeChecker.__init__, TypeChecker.check, TypeChecker._check_module, TypeChecker._register_native_block, TypeChecker._register_native_function, TypeChecker._register_command, TypeChecker._check_command, TypeChecker._check_meta_hint, TypeChecker._check_block, TypeChecker._check_statement, TypeChecker._check_let_statement, TypeChecker._check_assignment_statement, TypeChecker._check_require_statement, TypeChecker._check_emit_statement, TypeChecker._check_for_statement, TypeChecker._check_if_statement, TypeChecker._check_return_statement, TypeChecker._check_python_block, TypeChecker._check_expression, TypeChecker._check_literal, TypeChecker._check_identifier, TypeChecker._check_binary_op, TypeChecker._check_unary_op, TypeChecker._check_function_call, TypeChecker._check_builtin_call, TypeChecker._check_recursion, TypeChecker._check_method_call, TypeChecker._check_member_access, TypeChecker._check_index_access, TypeChecker._check_list_literal, TypeChecker._check_list_comprehension, TypeChecker._check_range_expr, TypeChecker._check_conditional_expr, TypeChecker._check_if_expr, TypeChecker._check_match_expr, TypeChecker._check_pattern, TypeChecker._check_dict_literal, TypeChecker._check_lambda_expr, TypeChecker._check_python_expr, TypeChecker._resolve_type_node, TypeChecker._error, TypeChecker._warning, check | – |
| dsl/errors.py | DiagnosticCollector.__init__, DiagnosticCollector.add, DiagnosticCollector.add_error, DiagnosticCollector.error_count | Diagnostic.format, Diagnostic.to_json, DslError.__init__, DslError.__str__, error_unexpected_character, error_unterminated_string, error_unterminated_multiline_string, error_unterminated_comment, error_invalid_escape_sequence, error_invalid_number_literal, error_invalid_hex_literal, error_invalid_binary_literal, error_unexpected_token, error_unexpected_eof, error_invalid_expression, error_type_mismatch, error_undefined_identifier, error_require_failed, warning_python_block, DiagnosticCollector.warning_count, DiagnosticCollector.has_errors, DiagnosticCollector.has_warnings, DiagnosticCollector.should_stop, DiagnosticCollector.format_all, DiagnosticCollector.to_json |
| dsl/lexer.py | Lexer.__init__, Lexer._advance, Lexer._skip_comment, Lexer._skip_multiline_comment, Lexer._handle_line_start, Lexer._scan_string, Lexer._scan_multiline_string, Lexer._scan_escape_sequence, Lexer._scan_number, Lexer._scan_hex_number, Lexer._scan_binary_number, Lexer._scan_identifier_or_keyword, Lexer._scan_token, Lexer.tokenize, tokenize | Lexer.lines, Lexer.get_source_line, Lexer._location, Lexer._span, Lexer._peek, Lexer._match, Lexer._is_at_end, Lexer._skip_whitespace_within_line, Lexer._make_token, Lexer.__iter__ |
| dsl/meta_apply.py | _apply_assembly_list_field, _apply_assembly, _apply_operation, _apply_root, apply_meta_hint, apply_meta_hint_to_raw | – |
| dsl/parser.py | Parser._current, Parser._peek, Parser._advance, Parser._consume, Parser._skip_newlines, Parser._expect_newline_or_eof, Parser._parse_type, Parser._parse_conditional_expr, Parser._parse_binary_expr, Parser._parse_unary_expr, Parser._parse_postfix_expr, Parser._parse_call, Parser._parse_arguments, Parser._parse_argument, Parser._parse_primary_expr, Parser._parse_grouped_or_lambda, Parser._parse_list_literal, Parser._parse_dict_literal, Parser._parse_if_expr, Parser._parse_match_expr, Parser._parse_match_arm, Parser._parse_pattern, Parser._parse_statement, Parser._parse_var_decl, Parser._parse_simple_var_decl, Parser._parse_let_statement, Parser._parse_require_statement, Parser._parse_assert_statement, Parser._parse_emit_statement, Parser._parse_for_statement, Parser._parse_if_statement, Parser._parse_python_block, Parser._parse_return_statement, Parser._parse_block, Parser._parse_brace_block, Parser._parse_parameter, Parser._parse_meta_decorator, Parser._parse_meta_key, Parser._consume_identifier_or_type_keyword, Parser._parse_param_ui_hint, Parser._ui_hint_value, Parser._parse_decorator, Parser._parse_function_def, Parser._parse_command, Parser._parse_module_path_component, Parser._parse_use_statement, Parser._parse_native_function_decl, Parser._parse_native_block, Parser._parse_native_function, Parser.parse_module, parse | Parser.__init__, Parser._is_at_end, Parser._check, Parser._check_any, Parser._check_ahead, Parser._match, Parser._error, Parser._span_from, Parser._parse_expression, Parser._parse_pass_statement |
| dsl/runtime/builtins.py | BuiltinRegistry._register_math_functions, BuiltinRegistry._register_transform_functions, BuiltinRegistry._register_region_functions, BuiltinRegistry._register_boolean_functions, BuiltinRegistry._register_query_functions, BuiltinRegistry._register_utility_functions | _make_sig, BuiltinRegistry.__init__, BuiltinRegistry.get_function, BuiltinRegistry.get_method, BuiltinRegistry.register, BuiltinRegistry.register_method, BuiltinRegistry._register_all, BuiltinRegistry._register_point_vector_functions, BuiltinRegistry._register_curve_functions, BuiltinRegistry._register_solid_functions, BuiltinRegistry._register_phase2_geometry_functions, BuiltinRegistry._register_phase3_text_functions, BuiltinRegistry._register_phase4_path_functions, BuiltinRegistry._register_fastener_functions, BuiltinRegistry._register_fillet_chamfer_functions, BuiltinRegistry._register_edge_selection_functions, BuiltinRegistry._register_assembly_functions, get_builtin_registry, call_builtin, call_method |
| dsl/runtime/context.py | Scope.get, Scope.set, Scope.update, Scope.contains, ExecutionContext.get_variable, ExecutionContext.set_variable, ExecutionContext.update_variable, ExecutionContext.new_scope, ExecutionContext.add_require_failure, create_context | ExecutionContext.set_emit, ExecutionContext.add_error, ExecutionContext.add_warning, ExecutionContext._get_source_line, ExecutionContext.has_errors, ExecutionContext.has_warnings, ExecutionContext.signal_return, ExecutionContext.should_return, ExecutionContext.return_value, ExecutionContext.clear_return |
| dsl/runtime/interpreter.py | ExecutionResult.geometry, ExecutionResult.metadata, Interpreter.execute, Interpreter._wrap_parameters, Interpreter._execute_command, Interpreter._apply_command_meta_hint, Interpreter._execute_statement, Interpreter._execute_let, Interpreter._execute_assignment, Interpreter._execute_require, Interpreter._execute_emit, Interpreter._execute_for, Interpreter._execute_if_statement, Interpreter._execute_return, Interpreter._execute_block, Interpreter._execute_python_block, Interpreter._evaluate, Interpreter._eval_literal, Interpreter._eval_identifier, Interpreter._eval_binary_op, Interpreter._eval_unary_op, Interpreter._eval_function_call, Interpreter._call_command, Interpreter._call_native_function, Interpreter._eval_method_call, Interpreter._eval_member_access, Interpreter._eval_index_access, Interpreter._eval_list_literal, Interpreter._eval_list_comprehension, Interpreter._eval_comprehension_clauses, Interpreter._eval_range, Interpreter._eval_dict_literal, Interpreter._eval_conditional_expr, Interpreter._eval_if_expr, Interpreter._eval_match_expr, Interpreter._pattern_matches, Interpreter._eval_lambda, Interpreter._eval_python_expr, compile_and_run | Interpreter.__init__, Interpreter._execute_native_block, execute |
| dsl/runtime/provenance.py | Provenance.to_dict, Provenance.from_dict, compute_source_signature, create_provenance, verify_source_signature | Provenance.to_json |
| dsl/runtime/values.py | Value.__repr__, Value.is_truthy, int_val, float_val, bool_val, string_val, list_val, none_val, EmitResult.data, EmitResult.type | dict_val, point_val, vector_val, transform_val, solid_val, assembly_val, region2d_val, surface_val, shell_val, path3d_val, edge_list_val, unwrap_value, unwrap_values, wrap_value, check_type, coerce_numeric, RequireFailure.__str__ |
| dsl/symbols.py | Scope.define, Scope.lookup_local, Scope.lookup, SymbolTable.__init__, SymbolTable._init_builtins, SymbolTable.push_scope, SymbolTable.pop_scope, SymbolTable.define, SymbolTable.lookup, SymbolTable.lookup_builtin, SymbolTable.is_builtin, SymbolTable.current_scope_name, SymbolTable.get_all_builtins, get_method_signature | SymbolTable._register_builtin |
| dsl/tokens.py | is_type_token | SourceLocation.__str__, SourceSpan.__str__, Token.__str__, is_deprecated_keyword, get_deprecation_message |
| dsl/transforms/base.py | TreeTransform.transform, TreeTransform.visit_module, TreeTransform.visit_command, TreeTransform.visit_statement, TreeTransform.visit_assignment, TreeTransform.visit_require, TreeTransform.visit_emit, TreeTransform.visit_for, TreeTransform.visit_expr_statement, TreeTransform.visit_return, TreeTransform.visit_block, TreeTransform.visit_python_block, TreeTransform.visit_expression | AstTransform.name, AstTransform.transform, TreeTransform.visit_let, TreeTransform.visit_literal, TreeTransform.visit_identifier, TreeTransform.visit_binary_op, TreeTransform.visit_unary_op, TreeTransform.visit_function_call, TreeTransform.visit_method_call, TreeTransform.visit_member_access, TreeTransform.visit_index_access, TreeTransform.visit_list_literal, TreeTransform.visit_list_comprehension, TreeTransform.visit_range, TreeTransform.visit_dict_literal, TreeTransform.visit_if_expr, TreeTransform.visit_match_expr, TreeTransform.visit_lambda, TreeTransform.visit_python_expr, TransformPipeline.__init__, TransformPipeline.add, TransformPipeline.apply, IdentityTransform.name, IdentityTransform.transform |
| dsl/transforms/metadata.py | _check_enum, _coerce_bool, _coerce_string_list, _validate_assembly_field, _validate_operation_field, _cross_check, MetadataTransform.transform | get_transform_diagnostics, _coerce_float, MetadataTransform.name |
| dsl/types.py | Type.name, Type.tier, Type.is_assignable_from, Type.__str__, PrimitiveType.name, PrimitiveType.tier, PrimitiveType.is_assignable_from, GeometricPrimitiveType.name, GeometricPrimitiveType.tier, GeometricPrimitiveType.is_assignable_from, CurveType.name, CurveType.tier, CompoundCurveType.name, CompoundCurveType.tier, CompoundCurveType.is_assignable_from, SurfaceType.name, SurfaceType.tier, SolidType.name, SolidType.tier, ListType.name, ListType.tier, ListType.is_assignable_from, DictType.name, DictType.tier, OptionalTypeWrapper.name, OptionalTypeWrapper.tier, OptionalTypeWrapper.is_assignable_from, NoneType.name, NoneType.tier, FunctionType.name, FunctionType.tier, UnknownType.name, UnknownType.tier, UnknownType.is_assignable_from, ErrorType.name, ErrorType.tier, ErrorType.is_assignable_from, resolve_type_name, is_numeric, common_type | make_list_type, make_optional_type, is_geometric_primitive, is_curve, is_compound_curve, is_surface, is_solid, is_geometry |
| fasteners/builders.py | _make_profile_from_catalog, _default_thread_length, build_hex_bolt_from_catalog | build_hex_nut_from_catalog |
| fasteners/catalog.py | clear_cache, _get_data_dirs, _load_catalog_cached, _load_catalog_impl, _load_yaml, load_catalog, get_thread_data, get_bolt_data, get_nut_data | list_available_sizes, list_tolerance_classes |
| fasteners_legacy.py | build_hex_cap_screw, _validate_spec | build_hex_nut, metric_hex_cap_screw, unified_hex_cap_screw, metric_hex_nut, unified_hex_nut, _build_thread, _build_shank, _build_washer, _build_hex_head, _circle_loop_xy, _build_hex_cap_with_hole, _build_internal_thread_surface, _build_hex_side_surfaces, _default_thread_length, _union_solids, _stack_solids, _scrub_surface_octrees, metric_hex_cap_catalog, unified_hex_cap_catalog, metric_hex_nut_catalog, unified_hex_nut_catalog, _normalized_washer_dims |
| geom.py | catmullrom, nurbs, bspline, ellipse, isellipse, isfullellipse, ellipse_sample, ellipse_tangent, ellipse_length, ellipse_bbox, parabola, isparabola, parabola_sample, parabola_tangent, parabola_length, parabola_bbox, hyperbola, ishyperbola, hyperbola_sample, hyperbola_tangent, hyperbola_length, hyperbola_bbox, _open_uniform_knot_vector, close, vect, vclose, isvect, isdirectlist, add, sub, scale3, mul, orthoXY, cross, add4, scale4, mul4, dot, mag, dist, isinsidebbox, isCardinalPlanar, isXYPlanar, dot4, point, ispoint, pointbbox, line, isline, linelength, linecenter, sampleline, segmentline, unsampleline, linebbox, lineLineIntersectXY, linePointXY, arc, isarc, iscircle, arclength, samplearc, segmentarc, unsamplearc, arcbbox, _lineArcIntersectXY, lineArcIntersectXY, _circleCircleTangentsXY, _barycentricXY, barycentricXY, ispoly, polybbox, isinsidepolyXY, __lineslength, samplepoly, intersectSimplePolyXY, polylength, isgeomlist, samplegeomlist, reverseGeomList, geomlistbbox, _isInsideTriangleXY, isInsideTriangleXY, _isInsideConvexPolyXY, isInsideConvexPolyXY, length, bbox, sample, translate, scale, rotate, mirror | iscatmullrom, isnurbs, bezier, isbezier, isbspline, isgoodnum, isdirect, sub4, homo, isinsidebbox2D, isYZPlanar, isXZPlanar, mag4, dist4, vstr, pointlength, pointcenter, samplepoint, isinsidepointXY, isinsidelineXY, linePointXYDist, arccenter, isinsidearcXY, _arcArcIntersectXY, arcArcIntersectXY, circleCircleTangentsXY, pointCircleTangentsXY, poly, ispolygon, polycenter, ispolygonXY, segmentpoly, unsamplepoly, polycenter, iscontinuousgeomlist, isclosedgeomlist, __geomlistlength, unsamplegeomlist, segmentgeomlist, isinsidegeomlistXY, isgeomlistXYPlanar, intersectGeomListXY, istriangle, _spline_length, center, _spline_bbox, unsample, _unsample_curve, segment, isinsideXY, transform, _intersectSimpleXY, intersectSimpleXY, issimple, intersectXY |
| geom3d.py | signedPlaneDistance, tri2p0n, signedFaceDistance, linePlaneIntersect, triTriIntersect, surface, surfacebbox, issurface, rotatesurface, translatesurface, mirrorsurface, reversesurface, scalesurface, issolid, solidbbox, translatesolid, rotatesolid, mirrorsolid, scalesolid, _point_to_key, _canonical_edge_key, issolidclosed, volumeof, normfunc, addTri2Surface, surfacearea, surf2lines | solid_boolean, _dispatch_boolean_engine, solid, poly2surface, poly2surfaceXY, center, bbox, translate, rotate, mirror, scale |
| geom3d_util.py | adaptive_arc_segments, adaptive_angr_from_radius, sphere2cartesian, makeIcoPoints, addVertex, subdivide, sphereSurface, rectangularPlane, prism, circleSurface, conic, makeRevolutionSurface | sphere, oblate_spheroid, dodecahedron, _make_revolution_brep, makeRevolutionThetaSamplingSurface, makeRevolutionSolid, _normalize_theta_profile, contour, extrude, _extrude_brep_shape, _make_conic_brep, _loft_surface, _loft_brep, makeLoftSolid, _circle_loop, tube, conic_tube, spherical_shell, stack_solids, _normalize_vector, _cross_product, _dot_product, _vector_subtract, _vector_add, _vector_scale, _lerp_point, _angle_between_vectors, _compute_line_tangent, _compute_arc_tangent, _sample_line_segment, _sample_arc_segment, _sample_path3d, _adaptive_sample_path3d, _slerp, _interpolate_up_samples, _compute_minimal_twist_frame, _compute_frenet_frame, sweep_adaptive, extrude_region2d, sweep_profile_along_path, make_occ_helix, helical_extrude, radial_pattern_solid, linear_pattern_solid, radial_pattern_surface, linear_pattern_surface, loft, sweep_along_path |
| geom_util.py | _poly_signed_area, _stitch_geomlist, _finalize_poly_points, _convert_geom_sequence, _orient_loop, _assemble_components, _polygon_centroid_xy, _point_in_polygon_xy, randomPoints, randomCenterInBox, randomArc, randomPoly, makeLineSpiral, makeArcSpiral, polarSampleArc, triarea, radial_pattern, linear_pattern | _reverse_element, _points_to_segments, _spline_segments_from_curve, _collect_candidate_polygons, geomlist2poly_components, geomlist2poly_with_holes, geomlist2poly, combineglist |
| geometry.py | Geometry.__init__, Geometry.length, Geometry._setLength, Geometry.center, Geometry._setCenter, Geometry.bbox, Geometry._setBbox, Geometry.isinsideXY, Geometry.translate, Geometry.scale, Geometry.rotate, Geometry.mirror, Geometry.transform, Geometry._updateInternals, Geometry.update, Geometry._setUpdate, Geometry.update, Geometry.elem, Geometry._setElem, Geometry.elem, Geometry._clearSurfaceCache, Geometry._applyBrepTransform, Geometry._brepMirrorAxis, Geometry.geom, Geometry.sample, Geometry.unsample, Geometry.segment, Geometry.intersectXY, Geometry.surface | _as_xyz, _matrix_to_trsf, Geometry.__repr__, Geometry.sampleable, Geometry._setSampleable, Geometry.issampleable, Geometry.intersectable, Geometry.isintersectable, Geometry.continuous, Geometry.iscontinuous, Geometry.closed, Geometry._setClosed, Geometry.isclosed, Geometry.derived, Geometry._setDerived, Geometry.isderived, Point, Line, Arc, Figure, _retessellate_brep_solid |
| geometry_checks.py | is_closed_polygon, faces_oriented, surface_watertight, _edge_key, CheckResult.__bool__ | – |
| geometry_utils.py | to_vec3, triangle_normal, triangle_area, triangle_is_degenerate, orient_triangle, triangle_centroid | to_point, to_vector, triangles_from_mesh |
| io/geometry_json.py | _serialize_surface, _serialize_solid, _polyline_points, _sample_geometry_element, _serialize_sketch, geometry_to_json, _rehydrate_surface, geometry_from_json | _float_vec, _int_vec, _bbox_or_none, _point_components, _point_from_components |
| io/meta_yaml.py | dump_metadata_yaml, sidecar_path_for | load_metadata_yaml, _extract_metadata, _build_provenance, _sha256_file |
| io/step.py | _EntityWriter.add, write_step, _normalize, _distance, _perpendicular, _edge_key | write_step_analytic, _get_occ_shape_from_obj, _EntityWriter.__init__, _EntityWriter.write, _write_header, _shell_record, _format_id_list, write_step_with_meta |
| io/stl.py | _write_binary, _write_ascii, _is_binary_stl, _parse_binary_stl, _parse_ascii_stl, _vertex_key, _triangles_to_surface, read_stl | write_stl, import_stl, write_stl_with_meta |
| kinematics/chain.py | KinematicChain.__init__, KinematicChain._create_global_datum, KinematicChain.add_part, KinematicChain.set_joint_value, KinematicChain.get_world_transform, KinematicChain.get_relative_transform, KinematicChain.get_chain_to_root, KinematicChain.get_children, KinematicChain.get_all_descendants, KinematicChain.validate, KinematicChain._invalidate_subtree, KinematicChain.to_dict, KinematicChain.from_dict, KinematicChain._topological_sort | KinematicChain.get_joint_value, KinematicChain.get_all_world_transforms, KinematicChain.export_json, KinematicChain.from_json, KinematicChain.print_tree |
| kinematics/frame.py | CoordinateFrame.get_transform, CoordinateFrame._lookup_datum_transform, CoordinateFrame.to_dict, CoordinateFrame.from_dict | CoordinateFrame.invalidate_cache |
| kinematics/joint.py | Joint.get_transform, Joint.clamp_value, Joint.set_value, Joint.to_dict, Joint.from_dict | – |
| kinematics/part.py | KinematicPart.__post_init__, KinematicPart.add_frame, KinematicPart.get_frame, KinematicPart.invalidate_cache, KinematicPart.set_cached_world_transform, KinematicPart.get_cached_world_transform, KinematicPart.is_cache_valid, KinematicPart.to_dict, KinematicPart.from_dict | – |
| kinematics/transform.py | Transform.__post_init__, Transform.identity, Transform.from_translation, Transform.from_rotation_x, Transform.from_rotation_y, Transform.from_rotation_z, Transform.from_euler_xyz, Transform.from_axis_angle, Transform.from_position_rpy, Transform.__matmul__, Transform.inverse, Transform.transform_point, Transform.transform_vector, Transform.to_euler_xyz, Transform.to_dict, Transform.from_dict | Transform.from_matrix, Transform.translation, Transform.rotation_matrix, Transform.__repr__ |
| manufacturing/connectors.py | offset_rectangular_profile, compute_inner_profile_dimensions, compute_connector_profile_dimensions, compute_connector_length, create_interior_connector, compute_connector_spec, create_terminal_connector, _get_spine_endpoint_and_tangent | create_connector_region2d, add_terminal_connectors_to_segment |
| manufacturing/data.py | CutPoint.__post_init__, SegmentationResult.segment_count, SegmentationResult.get_segment, SegmentationResult.get_segments_for_element | – |
| manufacturing/path_utils.py | _normalize_vector, _vector_subtract, _vector_add, _vector_scale, _cross_product, _lerp_point, _evaluate_line_segment, _evaluate_arc_segment, evaluate_path3d_at_t, compute_cut_plane, extract_sub_path, path_length, length_to_parameter, parameter_to_length | – |
| manufacturing/rings.py | create_ring_spine, _rotate_path3d, _translate_path3d, create_ring_profile, create_female_hole_solid, compute_arc_attachment_point, _rotate_point_and_direction, compute_ring_cuts_avoiding_holes | create_ring_solid, add_female_holes_to_ring, trim_segment_against_ring |
| manufacturing/segmentation.py | segment_closed_ring, split_solid_at_plane, _union_connector_with_segment, segment_swept_element, _extract_profile_dimensions, compute_optimal_cuts | _fix_shape, extract_segment_between_planes, _generate_assembly_instructions, _fit_type_description, build_connector_solids |
| mesh.py | mesh_view, _mesh_view_brep | – |
| metadata.py | _validate_enum, _ensure_root, _ensure_namespace, _append_tag, _ensure_metadata, get_surface_metadata, ensure_surface_id, set_surface_units, set_solid_metadata, ensure_solid_id, set_layer, add_tags, set_material, add_compliance, add_analysis_record, get_assembly_metadata, set_assembly, _build_fastener, add_bolt_pattern, add_datum, add_surface, add_keepout, get_operation_metadata, set_operation | _initial_root, set_surface_metadata, set_surface_origin, get_solid_metadata, set_solid_context, set_manufacturing, add_design_history_entry, set_mass_constraint, set_envelope_constraint |
| native_brep.py | brep_vertex, brep_edge, arc_edge, circle_edge, bspline_edge, _normalize_vector, brep_trim, brep_loop, brep_face, brep_shell, brep_solid, TopologyGraph.__init__, TopologyGraph.add_vertex, TopologyGraph.add_edge, TopologyGraph.add_trim, TopologyGraph.add_loop, TopologyGraph.add_face, TopologyGraph.add_shell, TopologyGraph.add_solid, TopologyGraph.vertex_edges, TopologyGraph.edge_faces, TopologyGraph.face_edges, TopologyGraph.shell_edge_usage, TopologyGraph.shell_vertices, TopologyGraph.compute_shell_closure, TopologyGraph.validate_shell_closure, TopologyGraph.validate_solid, _serialize_vertex, _serialize_edge, _deserialize_edge, _serialize_trim, _serialize_loop, _serialize_surface, _serialize_surface_metadata, _deserialize_surface, _serialize_face, _deserialize_face, _serialize_shell, _serialize_solid, serialize_topology_graph, deserialize_topology_graph, _transform_vector, transform_topology_graph, _transform_surface_inplace, translate_native_brep, rotate_native_brep, mirror_native_brep, scale_native_brep | _generate_id, _normalize_point, _point_distance, _midpoint, is_brep_vertex, vertex_location, vertex_id, set_vertex_location, vertices_coincident, is_brep_edge, edge_curve_type, edge_curve_params, edge_id, edge_vertices, evaluate_edge_curve, line_edge, transform_edge_params, is_brep_trim, trim_id, trim_edge_id, is_brep_loop, loop_id, loop_trims, loop_type, is_brep_face, face_surface, face_id, face_loops, ShellClosureError.__init__, SolidValidationError.__init__, is_brep_shell, shell_id, shell_faces, shell_closed, set_shell_closed, is_brep_solid_native, solid_id, solid_shells, TopologyGraph.get_vertex, TopologyGraph.get_edge, TopologyGraph.get_trim, TopologyGraph.get_loop, TopologyGraph.get_face, TopologyGraph.get_shell, TopologyGraph.get_solid, TopologyGraph.evaluate_edge, TopologyGraph.transform, TopologyGraph.summary, TopologyGraph.shell_bbox, TopologyGraph.tessellate_shell, TopologyGraph.shell_octree, TopologyGraph.invalidate_shell_octree, TopologyGraph.shells_bboxes_overlap, TopologyGraph._iter_shell_triangles, TopologyGraph.shells_intersect, TopologyGraph.shell_contains_point, TopologyGraph._ray_triangle_intersect, _serialize_point, _deserialize_point, _deserialize_vertex, _deserialize_trim, _deserialize_loop, _deserialize_shell, _deserialize_solid, attach_native_brep_to_solid, native_brep_from_solid, has_native_brep, clear_native_brep, _transform_point |
| octtree.py | boxoverlap2, bbox2oct, bbox2quad, box2boxes, NTree.__init__, NTree.addElement, NTree.updateCenter, NTree.updateTree, NTree.depth, NTree.maxdepth, NTree.maxdepth, NTree.mindim, NTree.getElements | boxoverlap, bboxdim, untag, NTree.__repr__ |
| package/analysis/calculix.py | CalculixAdapter._evaluate_acceptance | _now, CalculixAdapter.run, CalculixAdapter._mesh_config, CalculixAdapter._write_input_file, CalculixAdapter._generate_mesh, CalculixAdapter._parse_max_displacement |
| package/analysis/cli.py | analyze_package | _timestamp, _ensure_plan_entry, main |
| package/analysis/fenics.py | FenicsxAdapter._evaluate_acceptance | fenics_available, require_fenics, _now, MaterialProperties.lame_lambda, MaterialProperties.lame_mu, FenicsxAdapter.run, FenicsxAdapter._load_geometry, FenicsxAdapter._get_mesh_hints, FenicsxAdapter._get_physical_groups, FenicsxAdapter._generate_mesh, FenicsxAdapter._get_all_volumes, FenicsxAdapter._convert_mesh_to_xdmf, FenicsxAdapter._run_fea, FenicsxAdapter._get_material, FenicsxAdapter._build_load_vector, FenicsxAdapter._get_surface_load_form, FenicsxAdapter._apply_boundary_conditions, FenicsxAdapter._compute_von_mises_field |
| package/analysis/schema.py | validate_acceptance_criterion, validate_acceptance_criteria, validate_load, validate_boundary_condition, validate_geometry_section, validate_check_section, validate_plan, validate_result | SchemaError.__str__, ValidationReport.__str__, _check_required_fields, _check_field_type, _check_enum_value, validate_plan_file, validate_result_file |
| package/analysis/yapcad_native.py | YapCADNativeAdapter._evaluate_acceptance, YapCADNativeAdapter._get_failed_criteria, YapCADNativeAdapter._build_acceptance_results | _now, YapCADNativeAdapter.run, YapCADNativeAdapter._load_geometry, YapCADNativeAdapter._normalize_geometry, YapCADNativeAdapter._check_volume, YapCADNativeAdapter._check_area, YapCADNativeAdapter._compute_solid_area, YapCADNativeAdapter._mesh_surface_area, YapCADNativeAdapter._check_bbox, YapCADNativeAdapter._check_mass, YapCADNativeAdapter._check_centroid, YapCADNativeAdapter._compute_solid_centroid, YapCADNativeAdapter._mesh_centroid, YapCADNativeAdapter._check_clearance |
| package/core.py | _compute_hash, PackageManifest.save, PackageManifest.recompute_hashes, PackageManifest.geometry_primary_path, create_package_from_entities, add_geometry_file | _now_iso, _collect_tags, _collect_material_refs, _ensure_subdirs, _serialize_geometry, PackageManifest.manifest_path, PackageManifest.load, PackageManifest.get_materials, PackageManifest.get_material, load_geometry |
| package/signing.py | VerificationResult.is_valid, VerificationResult.trusted_signers, VerificationResult.untrusted_signers, VerificationResult.overall_status, _compute_canonical_manifest_hash, _create_signable_content, _verify_gpg_signature, _verify_ssh_signature, sign_package, verify_package | _sign_with_gpg, _sign_with_ssh, list_signatures |
| package/validator.py | _check_file, _validate_material, _validate_materials, validate_package | – |
| poly.py | Polygon.__init__, Polygon._makeoutline, Polygon.sample, cullZeroLength, Rect | Polygon.__repr__, Polygon._calcCenter, Polygon._updateInternals, Polygon.addPoint, Polygon.setPoint, Polygon.addLine, Polygon.addArc, Polygon.remove, Polygon.geom, Polygon.grow, Polygon.shrink, Circle, RoundRect |
| spline.py | _binomial, _bernstein, bezier_point, bezier_tangent, bezier_curve, _uniform_knot_vector, _bspline_basis, bspline_point, bspline_curve, evaluate_catmullrom, evaluate_nurbs, sample_catmullrom, _catmullrom_point, _catmull_blend, sample_nurbs, _nurbs_point, _nip | is_bezier, evaluate_bezier, sample_bezier, is_bspline, evaluate_bspline, sample_bspline, bspline_tangent, is_catmullrom, is_nurbs |
| threadgen.py | ThreadProfile.lead, metric_profile, unified_profile, sample_thread_profile, _collect_breakpoints, _pitch_breakpoints, _radius_at | – |
| triangulator.py | triangulate_polygon, _prepare_loop, _near, _signed_area | – |
| viewer/config.py | ViewerConfig.__post_init__, ViewerConfig.screenshot_path, ViewerConfig.get_color, ViewerConfig.to_dict, ViewerConfig.from_dict | ViewerConfig.stl_path, ViewerConfig.positions_path, ViewerConfig.command_path |
| xform.py | Matrix.__init__, Matrix.__repr__, Matrix.get, Matrix.set, Matrix.getrow, Matrix.getcol, Matrix.setrow, Matrix.setcol, Matrix.mul, Rotation, Translation, Scale | – |

Not modelled at all (number of functions): __init__.py (2), assembly/mate_examples.py (6), boolean/__init__.py (1), boolean/occ_engine.py (3), boolean/trimesh_engine.py (5), drawable.py (43), dsl/__main__.py (6), dsl/ast.py (11), dsl/introspection.py (12), dsl/packaging.py (5), ezdxf_drawable.py (11), ezdxf_exporter.py (3), fasteners/__init__.py (4), io/step_importer.py (2), occ_native_convert.py (31), package/__init__.py (1), package/analysis/base.py (9), package/analysis/face_naming.py (31), package/analysis/gmsh_mesher.py (18), package/analysis/mechatron_fea_setup.py (22), package/viewer.py (30), pyglet_drawable.py (46), text3d.py (18), viewer/__init__.py (3), viewer/api_server.py (7), viewer/events.py (11), viewer/vtk_viewer.py (35).

The reasons: rendering, viewers and DXF output (pyglet, ezdxf, windows); code that only drives OpenCascade, trimesh or gmsh; command lines and services; data tables (fastener catalogues, fonts); the rest is simply not done.

## 5. Axioms

As reported by Lean (`collectAxioms`) for the theorems named in the manifest.

* **Classical.choice, Quot.sound, propext** (1051 theorems): all theorems of the manifest not listed under the other items.
* **Quot.sound, propext** (73 theorems): `Accept.C295_result`, `Assembly.C59_evaluate`, `Assembly.C59_velocity_never_unsatisfies`, `Assembly.C61_coupled_motion_partial`, `Assembly.C61_screw_ignores_reverse_and_offset`, `Bool3.C270_answers_partial`, `Brep.C247_again`, `Brep.C247_order`, `Brep.C247_seam`, `Builtin.C323_max`, `Builtin.C323_min`, `Builtin.C325_typed`, `Builtin.C326_extremes`, `Builtin.C326_sum`, `Builtin.C332_difference`, `Builtin.C332_errors`, `Builtin.C332_intersection`, `Builtin.C332_lists`, `Catalog.C318_directories`, `Collision.C12_summary_adds_up`, `Collision.C13_registry_shared_partial`, `Collision.C49_compatible_symm_partial`, `Collision.C49_thread_symm_partial`, `Export.C348_geoms_partial`, `Export.C348_mixed`, `GeoJson.C103_rejects`, `Interp.C135_binds_by_position`, `Interp.C135_default`, `Interp.C27_refused`, `Interp.C81_outermost`, `Interp.C81_partial`, `Kin.C05_add_part_rejects`, `Kin.C08_chain_in_limits`, `Kin.C08_fixed_no_motion`, `Lexer.C22_one_eof`, `Lexer.C72_single_operators`, `Lexer.C74_binary`, `Lexer.C74_decimal`, `Lexer.C74_hex`, `Loops.C277_above_below`, `Metadata.C20_set_layer`, `Metadata.C21_add_appends`, `Metadata.C21_enum_rejected_partial`, `Obj.C256_combination`, `Obj.C256_fresh_partial`, `Obj.C256_half`, `Obj.C256_moved`, `OctTree.C03_depth_bounded`, `Parser.C142_name_declares`, `Parser.C147_hint_partial`, `Parser.C149_last_key_wins`, `Parser.C149_last_meta_wins`, `Parser.C151_any_text`, `Parser.C151_path_partial`, `Pkg.C91_valid_checked_partial`, `Record.C234_datum`, `Resolver.C14_each_once`, `Resolver.C15_consumed_cutter_in_output`, `Resolver.C52_repeated_stage_applies_twice`, `Ring.C206_none`, `Ring.C206_zero`, `Step.C303_flat_solid`, `Stl.C34_size`, `Stl.C35_plain`, `Thread.C310_metric`, `Thread.C310_units`, `Types.C25_optional`, `Valid.C230_apart`, `Valid.C230_failed`, `Xform.C37_ofFlat`, `Xform.C37_scale_ignores_second_factor`, `Xform.C37_set_get`, `Xform.C53_copy_shares_rows`.
* **propext** (45 theorems): `Bool3.C272_parts`, `Bool3.C272_symmetric_partial`, `Brep.C246_refused`, `Brep.C248_add`, `Builtin.C324_elements`, `Builtin.C324_flatten_mixed`, `Builtin.C325_concat_mixed`, `Builtin.C325_concat_partial`, `Builtin.C326_bool`, `Catalog.C322_hardware`, `Interp.C135_wrong_count`, `Interp.C28_return_stops`, `Interp.C29_value_partial`, `Interp.C80_call_as_condition`, `Interp.C85_exact`, `Interp.C85_pow_zero`, `Kin.C04_stale_after_frame_redefinition`, `Kin.C04_unknown_part`, `Kin.C08_clamp`, `Kin.C08_value_within_limits`, `Kin.C48_datum_frames_lost`, `Lexer.C24_unclosed`, `Lexer.C72_pair_operators`, `Loops.C274_close_corners`, `Metadata.C21_rejected_datum_leaves_namespace`, `Metadata.C21_rejected_material_writes_name`, `Metadata.C21_rejected_operation_overwrites_kind`, `Metadata.C71_read_initialised_partial`, `Metadata.C71_read_mutates`, `Obj.C256_first`, `Parser.C143_arms_partial`, `Pipe.C162_strings_run`, `Pipe.C164_elements_partial`, `Pkg.C30_colour_range`, `Pkg.C30_metallic_range`, `Types.C25_common_type`, `Types.C25_common_type_complete_partial`, `Types.C25_common_type_misses_lists`, `Types.C25_empty_list_rejected`, `Types.C25_lists_covariant`, `Types.C25_not_transitive`, `Types.C25_optional_inner`, `Types.C25_optional_rejects_none`, `Types.C25_reflexive`, `Types.C76_optional_element_wrong`.
* **no axioms** (7 theorems): `GeoJson.C100_solid_ids_clash`, `GeoJson.C101_material_lost`, `GeoJson.C98_others_dropped`, `GeoJson.C98_same_id_dropped`, `GeoJson.C99_shared_surface_id`, `Pkg.C91_ssh_unchecked`, `Resolver.C14_run_unique`.

## 6. What the proofs found wrong in the code

Every claim with status *partial* in section 3 has theorems that exhibit the difference between the documented or obvious
behaviour and the code. The most consequential ones:

* mate solver cache keyed by mate name and axis only (C18); numpy transforms silently treated as the identity (C54, C55);
  `MateType.FLUSH`/`ALIGNED` do not exist, so most mates raise (C57, C65); mate axes remapped with the wrong sign (C62);
* `from_euler` and `to_euler` use different conventions (C47);
* scaling about a centre scales about the opposite point (C38, C172);
* GPG signatures overwrite each other (C90), any content is VALID_UNTRUSTED without allowed signers (C91),
  `verify_package` reads no artefact (C93), imports can leave the package (C88);
* truncated binary STL files are read silently (C96), thin facets are dropped (C97);
* geometry JSON drops sketches and free surfaces next to a solid (C98), solid ids may clash (C100);
* the DSL does not short-circuit (C29), `x = e` never assigns from a nested block (C142, C163), if expressions with an else
  branch always fail (C160), failed requirements of called commands are lost (C83), `return` without a value crashes the
  checker (C159), named default values defeat the recursion limit (C77);
* closed B-splines of degree two or more always raise (C125), NURBS with interior knots end at the wrong point (C126);
* small cones are silently left open (C179).
* `length_to_parameter` divides by the total length although the parameter gives every segment an equal share: on a path with lines of length 1 and 3 the middle is parameter 1/2, which is a quarter of the way (C186); `parameter_to_length(path, 0)` raises `ValueError`.
* `extract_sub_path` documents `ValueError` for parameters out of range but clamps them; a segment of unknown type is dropped (C187). An arc with equal ends has length 0 (C184).
* `faces_oriented` compares all face normals with the first one: every closed, consistently oriented surface is reported inconsistent (C189, for all meshes whose first face has more than 5e-6 of the area); it never reads the stored normals. `surface_watertight` ignores directions: two equal triangles are watertight (C188).
* `segment_swept_element` copies a segment's mates into the assembly graph before the next segment is linked: no entry ever lists the following segment (C195). A middle segment that receives a tab can be typed "none" and one that receives nothing "female" (C196). `CutPoint.connector_length` has no effect (C202).
* `create_interior_connector` mixes arc length and parameter (C186): on a spine of lines of lengths 1 and 3 the connector for the cut at the corner does not touch the cut (C200). `compute_optimal_cuts` leaves a piece of length 3 for the limit 2.5 on it (C203). Two connectors get the same id if their cuts are closer than 0.01 (C201).
* `compute_ring_cuts_avoiding_holes` can return cuts through holes although valid cuts exist (C207) and pieces longer than the limit (C208). `create_ring_profile` makes a solid profile of a wall that is too thick and a hole larger than the outline of a negative one (C211).
* `validate_assembly` keeps results by name: a failed constraint's result is replaced by that of a later one of the same name (C214); an invalid `axis_b` raises `TypeError` and ends the whole report (C215); a misspelt face is silently the part's origin (C217); a zero reference axis is parallel to everything, because `min(1.0, nan)` is 1.0 (C218); CONCENTRIC depends on which part is named first (C221); BOLT_PATTERN never looks at the holes (C223); MIN_DISTANCE takes the least of the positive gaps (C224); Z_STACK_CLEARANCE takes the absolute value of the direction of z, so a part upside down passes (C225); NO_OVERLAP without boxes and meshes is satisfied (C226).
* `_points_inside_mesh_simple` counts a hit on the diagonal of a side twice: the centre of every box is outside (C229); of meshes with more than 1000 triangles a random 1000 are looked at. `_check_collision_sampling` tries no other points once a corner is in the other's box: a bar through a wedge is not found (C230).
* `LoadCase` accepts the zero vector as a direction (C232); `BoltPattern` accepts a fraction of bolts and truncates it when written (C233); a kinematic frame that follows a datum does not any more after `to_dict`/`from_dict` (C234); `create_provenance` gives the empty source a signature that `verify_source_signature` does not accept (C237); `get_color` never finds a palette color with a capital letter, and `ViewerConfig.from_dict` changes its argument (C238); `sidecar_path_for` gives `bolt.v1.step` and `bolt.v2.step` the same sidecar (C239).
* `cone_surface_normal` points to the axis, not outward (C242). `evaluate_bspline_surface` at the last parameter of a clamped surface returns the first control point, so the last row and column of its mesh collapse into the first corner (C244).
* `compute_shell_closure` ignores senses and calls a shell without known faces closed (C245). A shell or solid that `add_shell`/`add_solid` refuses stays in the graph (C246, C248); the mark `closed` goes stale when faces are added later (C246). An edge added before its vertices is never listed at them; one added again is listed twice (C247). Reading a graph loses incidence and the senses and tolerances of edges; `brep_edge('arc')` without bulge makes it unreadable (C249).
* `_transform_surface_inplace` does not transform `ref_direction`: a patch of a cylinder rotated about its axis stays where it was, and a cylinder turned by 90° is flat until it is read back (C252). `scale_native_brep` leaves the patches of planes, the v ranges of cylinders and cones and the radii of circles unscaled, and a negative factor makes the graph unreadable (C253).
* `Geometry` keeps the surface of a figure through transformations: `surface()` after `translate()` is the surface of the unmoved figure (C255). `Boolean` inherits `_updateInternals`: `bbox`, `length`, `center`, `sample` or `surface` before `geom` raises `ValueError`, clears the flag, and from then on `geom` is empty, or, after a transformation, the old outline (C256). `Geometry.mirror` raises for points, arcs and circles, so `Boolean.mirror` stops in the middle, and flips the sign of the area at the xy plane (C256, C257). `Polygon.addLine` breaks the outline, which goes on from the line's start; `Polygon` of lines is empty (C258, C259).
* `solid_contains_point` calls a point in the middle of an arm of an L-shaped prism outside, because a ray passes through the inner edge, and a point near the axis of a convex prism outside, because a ray hits both faces at an edge (C267). A hit on a triangle smaller than epsilon raises `ValueError` (C270). Triangles inside a non-convex solid are cut along the extensions of its faces and part of them is called outside (C266). No nonempty result of `solid_boolean` passes `surface_watertight` (C271); its fallback branches for overlapping triangles are dead (C272).
* `_stitch_geomlist` leaves loops open when two corners are less than two tolerances apart (C274). `_assemble_components` decides nesting by the centroid of the corners: a bracket around a square becomes its hole (C276). `_point_in_polygon_xy` raises `ZeroDivisionError` for a side falling by 1e-16 (C277). `geomlist2poly` of a circle not wider than `minlen` is a single point (C280).
* `radial_pattern` with `angle=-360` puts the last copy on the first (C282). `randomCenterInBox` leaves the plane of a flat box (C283). `randomPoly` gives polygons that cross themselves when one of the angles drawn is more than half of the sum, and raises `ZeroDivisionError` if all are 0 (C284).
* The tables of joint kinds of the metadata transform and of `set_assembly` are disjoint, those of feature kinds share only "pocket": what the transform accepts raises at run time, including the example in the documentation of `apply_meta_hint`, and what runs is reported as an error (C288). Applying a hint twice doubles its tags (C289). A target filter of numbers is stored as numbers or as strings depending on whether the transform ran (C290).
* A native check with a missing or NaN metric passes, although the acceptance results beside it say it did not for NaN (C292); violated equalities fail the check without being listed, and `bbox_x` is found as `bbox.x` by the evaluation only (C293). The solvers' adapters ignore `==` and `~=`; FEniCS' verdict depends on the order of the criteria (C294). `validate_plan` raises `TypeError` for a kind that is a list (C296) and accepts plans `load_plan` raises on, such as an empty `backendOptions:` (C297). Metrics of an earlier run stay in the manifest beside a new status (C298). Outside the model: `FaceNamer` always raises `ImportError`, because it imports names `geom3d` does not have.
* `write_step` does not look at the direction of sides: a triangle listed twice is written as a CLOSED_SHELL in a MANIFOLD_SOLID_BREP (C303). Outside the model: the name is written into the file without escaping apostrophes; vertices closer than 5e-7 get the same printed coordinates although they are different vertices; the complex entities of the units are written with `AND` between the parts.
* `sample_thread_profile` shifts left-handed threads the other way without adding points beyond the end: at every angle but 0 the last sample is short of the end (C305). The lead-in of an outer thread deeper than its shaft has negative radii (C307). `unified_profile` multiplies by the pitch twice, so UNC and UNF threads get the depth 0.64952 pitch² (C310).
* `select_edges_crossing_z` also returns the edges that lie at the height (C312). An edge is taken for straight if the middle of the curve is the middle of the chord, which S-shaped curves have (C316). `union_edges`, `intersect_edges`, `subtract_edges` take two edges with the same hash code for one (C317).
* Catalog dictionaries are shared with the cache: a caller that changes one changes it for all (C320). Sizes with small and capital letters (`M8x1`) are found in that spelling only (C321). `get_bolt_data` and `get_nut_data` without a class fail for unified threads (C322). Outside the model: two of the four documented series, `metric_fine` and `unified_fine`, have no data file, and the error for them lists them as available.
* DSL built-ins: `exp` is constant beyond ±700 (C323); `concat` of lists of different types claims the type of the first (C325); `area` ignores arcs, and is 0 for regions with holes (C327); `centroid` is the mean of the mesh vertices (C329); `scale` by different factors leaves the shape as it was, `mirror` in oblique planes uses a coordinate plane (C331); `apply` turns shapes by 0.001° about z besides, does not transform native representations, and multiplies normals by the matrix (C333). Outside the model: `difference2d` adds a hole in the notch of an L-shaped region as a hole of the region, as it looks at bounding boxes and crossings only.
* Sketch JSON: lines lose their height, reversed arcs come back forward (`arc()` overwrites the mark), polylines become lines, points vanish; arcs in tilted planes and nested geometry lists make the export fail (C104).
* Gears: the flanks always begin at the base circle, so gears with more than 2.5 / (1 - cos α) teeth (42 at 20°) reach inside the dedendum circle (C337), and those with more than π / (2 inv α) teeth (106 at 20°) have outlines that cross themselves (C338); spline roots are deeper than the dedendum reported; gears with one or two teeth and gears with pointed teeth are made without an error.
* `mechatron_export.py`: a part definition used twice is exported twice under the definition's name, and interfaces refer to the part names, which are not in the graph (C340); a second motion mate is dropped and unknown joints are frozen (C341); radians are exported as degrees, parallel planes as parallel to z, concentric beside rigid as for a moving joint (C342); a bolt pattern against the mate's direction is lost (C344); metres are scaled as if they were millimetres (C348).
* `load_case.py`: a fractional number of bolts is accepted and written as a smaller one, below one as zero, which cannot be read (C347).
* `triTriIntersect` never uses the bounds of the first triangle and extends the edges of the second: triangles far apart are reported to intersect and the segment sticks out of both; opposite normals of parallel planes raise (C354). `linePlaneIntersect` refuses the documented planar basis, applies the triangle's bounds without `inside` and misses shallow crossings (C352, C353). `signedFaceDistance` answers zero or less for every point of the plane outside a sliver (C355).
* `assembly/intent.py`: surface points and normals of reference cylinders ignore the axis (C357); `Clearance.validate` says every clearance is satisfied (C362), and `solve` looks at no clearance. A geometry filed under another name than its own is found by a contact, but unknown to `validate` and to the derived radius (C361).
* `fasteners/builders.py`: only `es` and `EI` of the tolerances are used, so 6g, 8g and 4g6g bolts have the same thread (C364); a thread length below epsilon is raised to epsilon, which is then refused (C366).
* `assembly/mate_surrogates.py`: `get_hole_positions` ignores the circle's direction, so the DDSM115's bolt holes are out of its stator face (C367); the DDSM115's frame is left-handed, which `validate_surrogates` does not look at (C369).
