{"id": "C01", "title": "Octree box overlap test is exact", "statement": "For two well-formed axis-aligned boxes, boxoverlap2(b1,b2,dim3=True) is True exactly when the closed intervals of the two boxes intersect on every one of the three axes (and on x,y only when dim2 is used with boxes at z=0); it is symmetric in its arguments.", "quantifier": "all pairs of boxes with min<=max per axis, over every ordered field of coordinates", "why_tests_cant": "the routine is a patchwork of corner-in-box, box-in-box and edge/edge projection tests; a missed configuration (e.g. a cross-shaped overlap with no corner inside either box) is one of infinitely many relative placements", "anchors": ["src/yapcad/octtree.py: boxoverlap2, boxoverlap"]}
{"id": "C02", "title": "Spatial tree query is complete and sound", "statement": "After any sequence of addElement calls, NTree.getElements(q) returns exactly the stored elements whose bounding box overlaps the query box q: nothing that overlaps is missed by the subdivision, nothing that does not overlap is returned, and no element is returned twice.", "quantifier": "all element sequences, all box sizes, all tree parameters (n, mindim, maxdepth) and all queries", "why_tests_cant": "completeness must hold for every placement of a box relative to every subdivision plane at every depth, and for every query interleaved with insertions", "anchors": ["src/yapcad/octtree.py: NTree.addElement, NTree.updateTree, NTree.getElements, box2boxes, bbox2quad, bbox2oct"]}
{"id": "C03", "title": "Tree subdivision terminates with bounded depth", "statement": "Building the tree always terminates and no node is ever deeper than the configured maximum depth plus one; a node that is not split either holds at most n elements or has reached the depth or size limit.", "quantifier": "all element lists and parameters", "why_tests_cant": "termination for every multiset of boxes, including many coincident boxes that no subdivision can separate", "anchors": ["src/yapcad/octtree.py: NTree.updateTree"]}
{"id": "C04", "title": "World transform cache is coherent", "statement": "After any history of add_part, set_joint_value and get_world_transform calls on a KinematicChain, get_world_transform(part) equals the composition, from the root down, of the parent frame, joint and child frame transforms with the current joint values; no stale cached pose is ever observable.", "quantifier": "every history of chain operations, every chain depth and branching", "why_tests_cant": "cache invalidation bugs show only for particular interleavings of reads and joint writes at particular tree positions", "anchors": ["src/yapcad/kinematics/chain.py: KinematicChain.add_part, set_joint_value, get_world_transform, _invalidate_subtree"]}
{"id": "C05", "title": "Kinematic chain is always a forest", "statement": "After any history of operations every part's parent chain ends at a root in finitely many steps, part names are unique, every parent named by a part exists, children lists and parent pointers agree, and a rejected operation leaves the chain unchanged.", "quantifier": "every history of chain operations including rejected ones", "why_tests_cant": "structural invariant over unbounded histories", "anchors": ["src/yapcad/kinematics/chain.py: KinematicChain.add_part, get_chain_to_root, get_descendants, topological_sort"]}
{"id": "C06", "title": "Topological order puts parents first", "statement": "When a chain is loaded from a dictionary the parts are ordered so that every part appears exactly once and, if the parent relation is acyclic, each part comes after its parent, whatever the iteration order of sets.", "quantifier": "every parts dictionary (parents possibly missing or cyclic), every set iteration order", "why_tests_cant": "quantifies over all tree shapes and set orders", "anchors": ["src/yapcad/kinematics/chain.py: _topological_sort, from_dict"]}
{"id": "C07", "title": "Rigid transform algebra", "statement": "For rigid transforms, compose is associative, identity is neutral, inverse is a two-sided inverse, composing then applying to a point equals applying in turn, rigid transforms are closed under compose/inverse and preserve distances.", "quantifier": "all rotations/translations over the reals", "why_tests_cant": "algebraic identities over a continuum", "anchors": ["src/yapcad/kinematics/transform.py: Transform.compose, Transform.inverse, Transform.apply_to_point"]}
{"id": "C08", "title": "Joint values are always inside their limits", "statement": "After any sequence of set_value calls the value used by a joint lies within its [min_limit,max_limit] when those limits are consistent, clamping is idempotent and leaves in-range values unchanged; a fixed joint always contributes the identity motion.", "quantifier": "all limits and all sequences of requested values", "why_tests_cant": "ranges over all numbers and histories", "anchors": ["src/yapcad/kinematics/joint.py: Joint.clamp_value, Joint.set_value, Joint.get_transform"]}
{"id": "C09", "title": "Relative transforms compose", "statement": "For any three parts of a chain relative(a,c) = relative(a,b) composed with relative(b,c), and relative(a,a) is the identity.", "quantifier": "all reachable chains and all triples of parts", "why_tests_cant": "needs the rigid algebra for all poses", "anchors": ["src/yapcad/kinematics/chain.py: get_relative_transform"]}
{"id": "C10", "title": "Interface registry indexes agree with its contents", "statement": "After any sequence of register, unregister and clear calls the lookups by id, by part, and by type answer exactly as a plain map from id to interface would.", "quantifier": "all operation histories", "why_tests_cant": "secondary indexes can drift only after particular histories (re-registering an id under another part, removing the last entry)", "anchors": ["src/yapcad/collision/registry.py: InterfaceRegistry.register, unregister, get, get_interfaces_for_part"]}
{"id": "C11", "title": "Overlap is excused only by a compatible interface", "statement": "check_overlap_compatibility reports an overlap region as acceptable exactly when some pair of interfaces of the two parts overlapping the region is mutually compatible and none overlapping is incompatible.", "quantifier": "all registries, part pairs and regions", "why_tests_cant": "decision logic over arbitrary interface sets", "anchors": ["src/yapcad/collision/registry.py: InterfaceRegistry.check_overlap_compatibility"]}
{"id": "C12", "title": "Collision check covers every pair exactly once", "statement": "check_assembly checks every unordered pair of distinct parts exactly once, except the pairs listed in skip_pairs in either order, and the summary counts add up to the number of results.", "quantifier": "all part lists and skip sets", "why_tests_cant": "pair coverage for every number of parts and every skip set", "anchors": ["src/yapcad/collision/detector.py: CollisionDetector.check_assembly, get_collision_summary"]}
{"id": "C13", "title": "Caller's interface registry is the one consulted", "statement": "A collision detector constructed with an explicit interface registry consults that registry, including interfaces registered after construction.", "quantifier": "all registries (including empty ones) and all later registrations", "why_tests_cant": "fails only for a registry that is empty at construction time", "anchors": ["src/yapcad/collision/detector.py: CollisionDetector.__init__", "src/yapcad/collision/registry.py: __len__"]}
{"id": "C14", "title": "Operator cuts are applied in priority order, stably", "statement": "When an assembly is resolved, the cutters aimed at a part are applied in nondecreasing priority (default 50), with equal priorities in the order in which the parts were supplied, each exactly once.", "quantifier": "all lists of parts and priorities", "why_tests_cant": "ranges over all assemblies", "anchors": ["src/yapcad/assembly/resolver.py: BasicResolver.resolve"]}
{"id": "C15", "title": "Failure policy of the resolver", "statement": "A failing boolean operation leaves the target geometry as it was before that operation; under 'strict' it makes the result unsuccessful, under 'warn' and 'ignore' it does not; consumed cutters never appear in the output and every non-consumed part appears exactly once in input order.", "quantifier": "all assemblies, all boolean kernels (arbitrary partial function), all policies", "why_tests_cant": "depends on arbitrary kernel failures", "anchors": ["src/yapcad/assembly/resolver.py: BasicResolver.resolve"]}
{"id": "C16", "title": "Invalid assemblies pass through unchanged", "statement": "If validation finds any error then resolve returns success False and the input parts untouched; no boolean is executed.", "quantifier": "all assemblies", "why_tests_cant": "decision logic over arbitrary inputs", "anchors": ["src/yapcad/assembly/resolver.py: BasicResolver.validate, BasicResolver.resolve"]}
{"id": "C17", "title": "Assembly referential integrity", "statement": "After any history of add_part/add_mate/add_constraint/add_load_case/add_bolt_pattern calls every mate, constraint, load case and bolt pattern refers to parts (and datums) present in the assembly, names are unique, and a rejected call changes nothing.", "quantifier": "every history of assembly operations including rejected ones", "why_tests_cant": "history invariant", "anchors": ["src/yapcad/assembly/assembly.py: Assembly.add_part, add_mate, add_constraint, add_load_case, add_bolt_pattern"]}
{"id": "C18", "title": "Mate solver answers depend on the mate's inputs", "statement": "solve_mate returns the transform determined by the mate, datums and parent pose passed in the call, whatever was solved before on the same solver; in particular after invalidate_cache.", "quantifier": "all call histories", "why_tests_cant": "a stale cache answer appears only in particular call histories", "anchors": ["src/yapcad/assembly/solver.py: MateConstraintSolver.solve_mate, invalidate_cache"]}
{"id": "C19", "title": "Coincident mate places datums together", "statement": "For a coincident (rigid, flush, concentric) mate between datums with non-zero normals the computed child pose is a proper rigid motion, maps the child's datum origin exactly onto the parent's datum origin (plus the offset along the parent normal) and the child's normal onto the opposite (or same, when not flipped) of the parent's normal, up to 1.5e-10 and exactly unless the normals are non-parallel by less than 1e-10, for every parent pose and every rotation about the normal.", "quantifier": "all datum frames, offsets, rotations and all rigid parent poses", "why_tests_cant": "continuum of poses; degenerate antiparallel cases", "anchors": ["src/yapcad/assembly/face_mate.py: compute_flush_transform, compute_concentric_transform, _rotation_between_vectors, _apply_rotation_about_axis", "src/yapcad/assembly/solver.py: solve_mate, _solve_constraint"]}
{"id": "C20", "title": "Metadata initialisation never overwrites", "statement": "Ensuring metadata on any dictionary keeps every value already present, fills the required keys, and doing it twice equals doing it once; adding tags keeps the tag list duplicate-free and in first-seen order.", "quantifier": "all metadata dictionaries and tag sequences", "why_tests_cant": "idempotence over every input", "anchors": ["src/yapcad/metadata.py: _ensure_root, add_tags, set_layer"]}
{"id": "C21", "title": "Rejected metadata updates leave metadata unchanged", "statement": "A metadata setter that raises for an invalid argument leaves the metadata dictionary as it was.", "quantifier": "all dictionaries and all invalid arguments", "why_tests_cant": "the failing path must be harmless for every input", "anchors": ["src/yapcad/metadata.py: set_operation, add_datum, add_bolt_pattern, _validate_enum"]}
{"id": "C22", "title": "DSL lexer always terminates with a balanced token stream", "statement": "For every source text tokenize either raises a lexer error or returns a finite list ending in exactly one EOF; INDENT and DEDENT never go negative, and when every dedent returns to an earlier level they balance.", "quantifier": "all source texts", "why_tests_cant": "all strings, all nesting depths", "anchors": ["src/yapcad/dsl/lexer.py: Lexer.tokenize, _handle_line_start"]}
{"id": "C23", "title": "String literals denote what was escaped", "statement": "For every string s, lexing the literal obtained by quoting and escaping s yields a STRING token whose value is s.", "quantifier": "all strings", "why_tests_cant": "all character sequences, including quotes, backslashes, newlines and NUL", "anchors": ["src/yapcad/dsl/lexer.py: _scan_string, _scan_escape"]}
{"id": "C24", "title": "Nested comments are skipped exactly", "statement": "A block comment is closed by the matching closer at its own depth: text after a well-nested comment is lexed as if the comment were absent, and an unclosed comment is an error.", "quantifier": "all comment bodies and nesting depths", "why_tests_cant": "unbounded nesting", "anchors": ["src/yapcad/dsl/lexer.py: _skip_block_comment"]}
{"id": "C25", "title": "Type assignability laws", "statement": "Assignability is reflexive on all types, lists are covariant, optional accepts its inner type, and the common type computed for two types accepts values of both.", "quantifier": "all types of the DSL (recursively built list/dict/optional types)", "why_tests_cant": "infinitely many types", "anchors": ["src/yapcad/dsl/types.py: Type.is_assignable_from, common_type"]}
{"id": "C26", "title": "Lexical scoping of the interpreter", "statement": "A variable bound inside a block is not visible after the block, an inner binding shadows without changing the outer one, an assignment changes exactly the innermost visible binding, and the scope stack after any statement (normal, return or error) is what it was before.", "quantifier": "all programs and environments", "why_tests_cant": "all nestings and all exit paths", "anchors": ["src/yapcad/dsl/runtime/context.py: Scope, ExecutionContext.new_scope", "src/yapcad/dsl/runtime/interpreter.py"]}
{"id": "C27", "title": "Recursion guard", "statement": "No DSL execution ever nests command calls deeper than the configured limit; when the limit is hit an error results; the depth counter is restored on every exit path.", "quantifier": "all programs, all limits", "why_tests_cant": "all call graphs", "anchors": ["src/yapcad/dsl/runtime/interpreter.py: _call_command"]}
{"id": "C28", "title": "Result of a command run", "statement": "execute reports success exactly when a value was emitted and no requirement of the command failed; the emitted value is that of the last emit executed; statements after a return are not executed.", "quantifier": "all programs", "why_tests_cant": "all control flows", "anchors": ["src/yapcad/dsl/runtime/interpreter.py: execute, _execute_emit, _execute_require"]}
{"id": "C29", "title": "Boolean operators short-circuit", "statement": "In 'a and b' / 'a or b' the right operand is evaluated only when the left one does not decide the result.", "quantifier": "all expressions and environments", "why_tests_cant": "effects or errors in the right operand are input dependent", "anchors": ["src/yapcad/dsl/runtime/interpreter.py: _eval_binary"]}
{"id": "C30", "title": "Package validation verdict", "statement": "Whenever validate_package returns, it reports success exactly when the manifest schema is supported, the primary geometry exists and loads, every listed file exists and, when a hash is recorded, hashes to it, and every material definition is well formed; the verdict is negative exactly when an ERROR is among the messages.", "quantifier": "all manifests, digests and directory contents", "why_tests_cant": "all combinations of missing, altered and unlisted files and malformed entries", "anchors": ["src/yapcad/package/validator.py: validate_package, _check_file, _validate_material"]}
{"id": "C31", "title": "One manifest entry per geometry path", "statement": "After any sequence of add_geometry_file calls the manifest holds at most one entry per (category, path), and each entry's hash is that of the content its file then has.", "quantifier": "all call histories", "why_tests_cant": "history invariant", "anchors": ["src/yapcad/package/core.py: add_geometry_file"]}
{"id": "C32", "title": "Signing does not disturb what is signed", "statement": "The canonical hash of a manifest is unchanged by adding, replacing or removing signatures and by key order, and differs whenever any signed field differs (up to hash collisions).", "quantifier": "all manifests", "why_tests_cant": "all manifests and signature histories", "anchors": ["src/yapcad/package/signing.py: _compute_canonical_manifest_hash, sign_package"]}
{"id": "C33", "title": "Verification verdict of signatures", "statement": "is_valid and the overall status VALID both say that some signature listed in the manifest was accepted by its tool for the manifest as it now is, and they agree with each other.", "quantifier": "all manifests, signature files and tool outcomes", "why_tests_cant": "all combinations of signature entries and tool outcomes", "anchors": ["src/yapcad/package/signing.py: verify_package, VerificationResult"]}
{"id": "C34", "title": "Binary STL round trip", "statement": "Writing triangles as binary STL and reading the file back yields the same triangles in the same order, each coordinate rounded to single precision, and the file has 84+50n bytes.", "quantifier": "all triangle lists (any number) and names whose first 80 bytes do not start with 'solid'", "why_tests_cant": "all files", "anchors": ["src/yapcad/io/stl.py: _write_binary, _is_binary_stl, _parse_binary_stl"]}
{"id": "C35", "title": "STL import shares vertices faithfully", "statement": "Converting triangles to a surface keeps one face per triangle, indices are in range, each face's vertices have the rounding keys of the original corners, and no two vertices share a key.", "quantifier": "all triangle lists", "why_tests_cant": "all inputs", "anchors": ["src/yapcad/io/stl.py: _triangles_to_surface"]}
{"id": "C36", "title": "Geometry JSON round trip", "statement": "Serialising entities to geometry JSON and loading the document back gives the solids in the same order, each with the same surfaces (vertices, normals, faces) and voids in the same order; every surface is listed under an id of its own and every id referenced by a solid is listed.", "quantifier": "all lists of entities containing a solid, including solids sharing surface objects or repeating surface ids, and any uuids drawn", "why_tests_cant": "id clashes arise only for particular inputs", "anchors": ["src/yapcad/io/geometry_json.py: geometry_to_json, geometry_from_json"]}
{"id": "C37", "title": "4x4 matrix multiplication respects the transpose flag", "statement": "For every combination of transpose flags (A.mul(B)).mul(v)=A.mul(B.mul(v)), Matrix multiplication is associative with the identity neutral, set then get returns the value, and Translation/Scale/Rotation with inverse=True are inverses of the plain ones.", "quantifier": "all matrices, flags and vectors", "why_tests_cant": "all real entries", "anchors": ["src/yapcad/xform.py: Matrix.mul, Matrix.get, Matrix.set, Rotation, Translation, Scale"]}
{"id": "C38", "title": "Scaling and rotating about a centre fix the centre", "statement": "scale(x,s,cent=c) maps c to itself and multiplies displacements from c by s; rotate(x,a,cent=c) maps c to itself and preserves distances.", "quantifier": "all centres, factors and angles", "why_tests_cant": "continuum", "anchors": ["src/yapcad/geom.py: scale, rotate"]}
{"id": "C39", "title": "Line parametrisation round trip", "statement": "unsample(line, sample(line,u)) = u for every non-degenerate line and every u, and a line segment sampled at t equals the original line sampled at u1+t(u2-u1).", "quantifier": "all lines and parameters over the reals", "why_tests_cant": "continuum", "anchors": ["src/yapcad/geom.py: sampleline, unsampleline, segmentline"]}
{"id": "C40", "title": "Bounding boxes are tight", "statement": "bbox of a point list with at least two points contains every point and is contained in every box that contains them; line and geometry list boxes contain every sampled point of straight members.", "quantifier": "all point lists", "why_tests_cant": "all inputs", "anchors": ["src/yapcad/geom.py: polybbox, linebbox, geomlistbbox, isinsidebbox"]}
{"id": "C41", "title": "Line intersections lie on both lines", "statement": "When lineLineIntersectXY returns a point it lies on both lines (inside both segments when inside=True), the returned parameters sample to the same point on both lines, and for lines that cross well enough a common point is always found.", "quantifier": "all line pairs over the reals", "why_tests_cant": "continuum", "anchors": ["src/yapcad/geom.py: lineLineIntersectXY"]}
{"id": "C42", "title": "Barycentric coordinates reproduce the point", "statement": "barycentricXY returns coefficients that sum to one and combine the triangle's vertices to the given point; a point is reported inside a triangle exactly when it is a convex combination of the vertices.", "quantifier": "all triangles and points", "why_tests_cant": "continuum", "anchors": ["src/yapcad/geom.py: barycentricXY, isInsideTriangleXY"]}
{"id": "C43", "title": "Reversing a geometry list reverses its sampling", "statement": "reverseGeomList returns the figures in reverse order each traversed backwards, and reversing twice gives back the original list.", "quantifier": "all geometry lists (points, lines, arcs, polylines, nested lists)", "why_tests_cant": "all nestings", "anchors": ["src/yapcad/geom.py: reverseGeomList"]}
{"id": "C44", "title": "Polyline intersection considers every segment", "statement": "intersecting a line with a polyline reports every crossing of the line with each of the polyline's segments.", "quantifier": "all polylines", "why_tests_cant": "all lengths", "anchors": ["src/yapcad/geom.py: intersectSimplePolyXY"]}
{"id": "C45", "title": "Sampling a polyline stays on it", "statement": "For u in [0,1] samplepoly returns a point of one of the polyline's segments, sample(0) is the first vertex and sample(1) the last, and the arc length from the start equals u times the total length.", "quantifier": "all polylines without zero-length segments and all u", "why_tests_cant": "all inputs", "anchors": ["src/yapcad/geom.py: samplepoly, __lineslength"]}
{"id": "C46", "title": "Uniform knot vectors are valid", "statement": "The default knot vector has length count+degree+1, is nondecreasing, lies in [0,1] and is clamped at both ends.", "quantifier": "all counts and degrees with count >= degree+1", "why_tests_cant": "all sizes", "anchors": ["src/yapcad/geom.py: _open_uniform_knot_vector, nurbs"]}
{"id": "C47", "title": "Transform serialisation round trip", "statement": "Transform.from_dict(t.to_dict()) is t for every transform, and building a transform from Euler angles, extracting the angles and building again gives the same transform.", "quantifier": "all transforms / all angle triples", "why_tests_cant": "continuum of angles; fails only when two rotations are non-zero", "anchors": ["src/yapcad/kinematics/transform.py: to_dict, from_dict, from_euler, to_euler"]}
{"id": "C48", "title": "Kinematic chain JSON round trip", "statement": "Exporting a chain with to_dict and loading it with from_dict succeeds for every reachable chain, whatever the iteration order of sets, and gives the same parts with the same world poses.", "quantifier": "all reachable chains, all set iteration orders", "why_tests_cant": "all tree shapes and orders; parts attached to frames of the datum are the exceptional case", "anchors": ["src/yapcad/kinematics/chain.py: to_dict, from_dict, _topological_sort", "src/yapcad/kinematics/part.py: to_dict, from_dict"]}
{"id": "C49", "title": "Interface compatibility does not depend on the order of the parts", "statement": "Checking interface a against b and b against a give the same verdict, for gears, threads and for the registry's overlap verdict of two parts.", "quantifier": "all gear/thread parameters", "why_tests_cant": "asymmetry shows only in a narrow band of nearly equal parameters", "anchors": ["src/yapcad/collision/gear_interface.py: check_compatibility", "src/yapcad/collision/thread_interface.py: check_compatibility", "src/yapcad/collision/registry.py: check_overlap_compatibility"]}
{"id": "C50", "title": "Bounding box pre-filter is exact", "statement": "The AABB test of the collision detector accepts two well-formed boxes exactly when they share a point, symmetrically.", "quantifier": "all boxes over an ordered field", "why_tests_cant": "continuum of boxes, touching faces", "anchors": ["src/yapcad/collision/detector.py: _aabb_intersects"]}
{"id": "C51", "title": "Gear positioning check", "statement": "check_gear_mesh_collision never raises and accepts exactly gears with matching module and pressure angle whose centre distance is within tolerance of half the sum of the pitch diameters.", "quantifier": "all gear parameters, distances and tolerances", "why_tests_cant": "continuum", "anchors": ["src/yapcad/collision/gear_interface.py: check_gear_mesh_collision, get_center_distance"]}
{"id": "C52", "title": "Staged resolution runs stages in order", "statement": "StagedResolver(stages).resolve gives every remaining part the geometry obtained by applying, stage by stage in the declared order, that stage's operations in priority order (operations without a known stage in the last stage), each once; a single stage is the same as the basic resolver.", "quantifier": "all part dictionaries, metadata, boolean engines (including failing ones) and lists of distinct stage names", "why_tests_cant": "assemblies, stage lists and failure patterns are unbounded", "anchors": ["src/yapcad/assembly/resolver.py:StagedResolver.resolve"]}
{"id": "C53", "title": "Copying a Matrix gives an independent matrix", "statement": "After B = Matrix(A), later set/setrow/setcol calls on either matrix never change the other.", "quantifier": "all matrices, transposed or not, and all later updates", "why_tests_cant": "aliasing is invisible until one of the two is mutated", "anchors": ["src/yapcad/xform.py: Matrix.__init__, getrow, setrow, set"]}
{"id": "C54", "title": "Datums move with their part", "statement": "Transforming a datum by a rigid motion moves its origin as a point and every direction as a direction by exactly that motion, keeps directions unit length, and two motions in a row equal their product - whether the motion is given as a Matrix, as rows or as a numpy array.", "quantifier": "all datums with unit directions, all rigid motions", "why_tests_cant": "continuum of motions; composition law", "anchors": ["src/yapcad/assembly/datum.py: Datum.__post_init__, Datum.transform", "src/yapcad/xform.py: Matrix.__init__"]}
{"id": "C55", "title": "Assembly validation verdict", "statement": "validate() reports an assembly valid exactly when every constraint of severity error is satisfied by the datum at the part's current position; failed and warning lists name the failing constraints in order; every constraint has its own result.", "quantifier": "all assemblies, part positions and constraint sets", "why_tests_cant": "continuum of positions; arbitrary constraint lists", "anchors": ["src/yapcad/assembly/assembly.py: Assembly.validate, get_transformed_datum", "src/yapcad/assembly/datum.py: Datum.transform"]}
{"id": "C56", "title": "Strict validation raises AssemblyError", "statement": "validate_and_raise raises AssemblyError exactly when validate reports the assembly invalid and otherwise returns.", "quantifier": "all assemblies", "why_tests_cant": "every combination of constraint outcomes", "anchors": ["src/yapcad/assembly/assembly.py: Assembly.validate_and_raise"]}
{"id": "C57", "title": "Remaining degrees of freedom", "statement": "get_degrees_of_freedom returns for every part a number between 0 and 6: six minus what the mates in which it is the second part remove, never below zero.", "quantifier": "all assemblies and mate lists", "why_tests_cant": "unbounded number of mates per part", "anchors": ["src/yapcad/assembly/assembly.py: Assembly.get_degrees_of_freedom"]}
{"id": "C58", "title": "Constraint checks measure the named geometric quantity", "statement": "Each constraint type passes exactly when the geometric angle (facing, parallel, perpendicular, radial, tangent) or distance (at radius) it is named after is within the tolerance, and the reported error is that quantity.", "quantifier": "all datums, reference vectors, centres and tolerances over the reals", "why_tests_cant": "continuum of directions, boundary of the tolerance", "anchors": ["src/yapcad/assembly/constraint.py: Constraint.evaluate and the _check_ methods"]}
{"id": "C59", "title": "Mate limit evaluation", "statement": "Mate.evaluate reports satisfied exactly when the position is within its limits, the error is the distance to the allowed interval, and the violation list is empty exactly when position, velocity and effort all respect their limits.", "quantifier": "all limits (each optional) and all positions, velocities, efforts", "why_tests_cant": "combinations of optional bounds with a continuum of values", "anchors": ["src/yapcad/assembly/mate.py: Mate.evaluate"]}
{"id": "C60", "title": "Mate serialisation round trip", "statement": "Mate.from_dict(mate.to_dict()) equals the mate.", "quantifier": "all mates", "why_tests_cant": "arbitrary optional fields and metadata", "anchors": ["src/yapcad/assembly/mate.py: Mate.to_dict, Mate.from_dict"]}
{"id": "C61", "title": "Coupled motion", "statement": "compute_coupled_motion returns ratio*x+offset, negated for reversed couplings, for every coupled mate, the pitch per turn for screws, and refuses uncoupled mates; degrees_of_freedom is between 0 and 6.", "quantifier": "all coupled mates and driver positions", "why_tests_cant": "continuum of positions and parameters", "anchors": ["src/yapcad/assembly/mate.py: Mate.compute_coupled_motion, is_coupled, degrees_of_freedom"]}
{"id": "C62", "title": "Mate axis remapping points z along the named axis", "statement": "apply_mate_axis_rotation(T, axis) turns the pose so that the local z axis points along the named axis of T, keeps the position and stays a proper rigid motion; unknown names leave the pose alone.", "quantifier": "all poses, all axis names", "why_tests_cant": "continuum of poses", "anchors": ["src/yapcad/assembly/solver.py: MATE_AXIS_ROTATIONS, apply_mate_axis_rotation"]}
{"id": "C63", "title": "Directional mates align directions", "statement": "Solving a PARALLEL, REVOLUTE or PERPENDICULAR mate yields a proper rigid pose that makes the child direction parallel (perpendicular) to the parent direction; a REVOLUTE mate also puts the datum origins together.", "quantifier": "all datum pairs", "why_tests_cant": "continuum of directions, degenerate near-parallel cases", "anchors": ["src/yapcad/assembly/solver.py: _solve_parallel, _solve_perpendicular, _solve_concentric, _solve_revolute, _rotation_between_vectors, _rodrigues_rotation"]}
{"id": "C64", "title": "Distance mate keeps the child datum at the offset", "statement": "Solving a DISTANCE mate places the child so that its datum lies at the given offset from the parent datum along the parent normal.", "quantifier": "all datum pairs and offsets", "why_tests_cant": "continuum", "anchors": ["src/yapcad/assembly/solver.py: _solve_distance"]}
{"id": "C65", "title": "FaceToFaceMate.compute_transform computes", "statement": "compute_transform returns the flush, concentric or parallel transform for its constraint type when both datums exist, KeyError when one is missing and ValueError for an unsupported type.", "quantifier": "all mates, registries, parent poses", "why_tests_cant": "all mate definitions", "anchors": ["src/yapcad/assembly/face_mate.py: FaceToFaceMate.compute_transform"]}
{"id": "C66", "title": "Mate chains accumulate poses", "statement": "solve_mate_chain on mates with distinct names places the part of the i-th mate at base*L1*...*Li where Lj is the pose of mate j alone; it stops at the first unsolvable mate and keeps what it had.", "quantifier": "chains of any length", "why_tests_cant": "unbounded chain length", "anchors": ["src/yapcad/assembly/solver.py: solve_mate_chain"]}
{"id": "C67", "title": "validate_transform accepts exactly rigid transforms", "statement": "validate_transform accepts every proper rigid motion and whatever it accepts has an orthonormal rotation block and positive determinant within its tolerances and bottom row 0 0 0 1.", "quantifier": "all 4x4 matrices", "why_tests_cant": "continuum", "anchors": ["src/yapcad/assembly/solver.py: validate_transform"]}
{"id": "C68", "title": "The datum registry returns what was registered", "statement": "After any history, a datum or source registered under a name is what lookups of that name return, other sources are unaffected, and a datum in a source file is found as soon as the file can be found.", "quantifier": "all histories of registrations, lookups, search-path changes and clears, over all file systems", "why_tests_cant": "history dependent state", "anchors": ["src/yapcad/assembly/datum_registry.py: DatumRegistry"]}
{"id": "C69", "title": "Datum frames are rigid frames at the datum", "statement": "datum_to_transform_matrix of a valid datum is a proper rigid motion whose origin is the datum origin and whose z axis is the datum normal or direction.", "quantifier": "all valid datums", "why_tests_cant": "continuum", "anchors": ["src/yapcad/assembly/datum_registry.py: datum_to_transform_matrix"]}
{"id": "C70", "title": "Surface and solid ids are stable", "statement": "Once ensure_surface_id / ensure_solid_id returned an id for an object, every later request on it returns the same id, whatever metadata getters and setters run in between.", "quantifier": "all histories of metadata operations", "why_tests_cant": "history dependent", "anchors": ["src/yapcad/metadata.py: ensure_surface_id, ensure_solid_id, get_surface_metadata, set_surface_units"]}
{"id": "C71", "title": "Reading metadata does not modify", "statement": "get_surface_metadata / get_solid_metadata without create=True leave the surface or solid as it was.", "quantifier": "all surfaces and solids, with or without metadata", "why_tests_cant": "all metadata states", "anchors": ["src/yapcad/metadata.py: get_surface_metadata, get_solid_metadata"]}
{"id": "C72", "title": "Tokens cover the source", "statement": "For every source that tokenizes, concatenating the tokens' source texts with only blanks, newlines and comments in between gives back the source: no character is lost, duplicated or reordered.", "quantifier": "all source texts", "why_tests_cant": "unbounded texts; adjacency of all token kinds", "anchors": ["src/yapcad/dsl/lexer.py: Lexer.tokenize"]}
{"id": "C73", "title": "Brackets suspend line structure", "statement": "Between an opening bracket and its closing bracket no NEWLINE or INDENT token is produced, however the text is laid out.", "quantifier": "all source texts", "why_tests_cant": "unbounded layouts", "anchors": ["src/yapcad/dsl/lexer.py: _scan_token, _handle_line_start"]}
{"id": "C74", "title": "Integer literals denote their value", "statement": "A decimal or hexadecimal integer literal of any length lexes to one INT token whose value is its positional value.", "quantifier": "all digit sequences of any length", "why_tests_cant": "unbounded literals", "anchors": ["src/yapcad/dsl/lexer.py: _scan_number, _scan_hex_number"]}
{"id": "C75", "title": "Indentation tokens only at line starts", "statement": "INDENT and DEDENT tokens occur only at the beginning of a logical line (after a NEWLINE, another DEDENT, or at the end of the file).", "quantifier": "all source texts", "why_tests_cant": "depends on combinations of multi-line constructs", "anchors": ["src/yapcad/dsl/lexer.py: _handle_line_start, _advance"]}
{"id": "C76", "title": "List literal types accept their elements", "statement": "A list literal that the checker accepts without a diagnostic is given an element type to which every element of the literal is assignable.", "quantifier": "all lists of element types, of any length and nesting", "why_tests_cant": "The literal may have any number of elements of any of infinitely many types, and the inferred type is widened at each one; a test fixes one literal.", "anchors": ["src/yapcad/dsl/checker.py:_check_list_literal", "src/yapcad/dsl/types.py:common_type"]}
{"id": "C77", "title": "Every DSL run ends", "statement": "Executing any command of any module with any arguments ends, with a result or an error, whatever the recursion limit: commands can recurse only as deep as the limit allows and there are no unbounded loops.", "quantifier": "all programs, arguments and recursion limits", "why_tests_cant": "A test observes single runs; that no program whatever runs forever needs an argument over all programs and call structures.", "anchors": ["src/yapcad/dsl/runtime/interpreter.py: execute, _call_command, _eval_function_call"]}
{"id": "C78", "title": "Only the selected branch runs", "statement": "A conditional expression evaluates its condition and then only the selected alternative; an if statement evaluates its conditions in order up to the first true one and runs only that branch (or the else part when none is true).", "quantifier": "all conditions, branches, numbers of elif parts and states", "why_tests_cant": "The number of elif parts and the contents of the branches are unbounded.", "anchors": ["src/yapcad/dsl/runtime/interpreter.py: _eval_conditional, _execute_if"]}
{"id": "C79", "title": "Comprehension limits", "statement": "The value of a list comprehension never has more than 100000 elements and a comprehension with more than four for clauses is refused before anything is evaluated.", "quantifier": "all comprehensions, iterables and nesting depths", "why_tests_cant": "The product of the iterables' lengths and the filter conditions range over infinitely many programs.", "anchors": ["src/yapcad/dsl/runtime/interpreter.py: _eval_list_comprehension, _process_comprehension_clauses"]}
{"id": "C80", "title": "Command results can be used like any value", "statement": "The value of a call of another command can be used wherever a value of its type can: as an operand, as a condition and in require.", "quantifier": "all commands, arguments and uses", "why_tests_cant": "Every use site has to treat emitted values like plain ones.", "anchors": ["src/yapcad/dsl/runtime/interpreter.py: _call_command", "src/yapcad/dsl/runtime/values.py: EmitResult"]}
{"id": "C81", "title": "Embedded Python sees the innermost bindings", "statement": "A python block sees each visible DSL variable under its name with the value of its innermost binding.", "quantifier": "all scope stacks and python blocks", "why_tests_cant": "Depends on the order in which arbitrarily many nested scopes are copied.", "anchors": ["src/yapcad/dsl/runtime/interpreter.py: _execute_python_block / _execute_native"]}
{"id": "C82", "title": "Assigning an undefined variable is an error", "statement": "An assignment to a variable that is not in scope is reported as an error by execute.", "quantifier": "all programs and environments", "why_tests_cant": "Needs that the recorded error can never be lost on the way to the result.", "anchors": ["src/yapcad/dsl/runtime/interpreter.py: _execute_assignment", "src/yapcad/dsl/runtime/context.py: set_variable"]}
{"id": "C83", "title": "Failed requirements are reported", "statement": "Every require statement that is executed and fails, in the command run or in a command it calls, makes execute report a failure with its message.", "quantifier": "all programs and call structures", "why_tests_cant": "Requirements may fail at any call depth and any point of the run.", "anchors": ["src/yapcad/dsl/runtime/interpreter.py: execute, _execute_require, _call_command"]}
{"id": "C84", "title": "Run-time type tags agree with the data", "statement": "The data of a value tagged int, float, bool or string is a Python value of that kind, so that arithmetic chooses the right result type.", "quantifier": "all expressions and environments", "why_tests_cant": "Each operator and constructor makes a new tag; the invariant must hold for every composition of them.", "anchors": ["src/yapcad/dsl/runtime/interpreter.py: _eval_binary_op, _eval_list_literal, _eval_index", "src/yapcad/dsl/runtime/values.py"]}
{"id": "C85", "title": "Integer arithmetic is exact", "statement": "+, - and * of DSL ints give the exact integer, // and % satisfy a = b*(a//b) + a%b with the remainder between zero and b, ** with a non-negative exponent gives the exact power, and dividing by zero raises.", "quantifier": "all pairs of integers, of any size", "why_tests_cant": "There are infinitely many integers and several of the operators convert through float for other types.", "anchors": ["src/yapcad/dsl/runtime/interpreter.py: _eval_binary_op"]}
{"id": "C86", "title": "Validation always gives a verdict", "statement": "validate_package returns a verdict and messages for every manifest and directory; it never raises.", "quantifier": "all manifests and directory contents", "why_tests_cant": "the manifest is arbitrary YAML", "anchors": ["src/yapcad/package/validator.py: validate_package"]}
{"id": "C87", "title": "A failed import leaves the package unchanged", "statement": "When add_geometry_file raises, neither the manifest nor any file has changed.", "quantifier": "all packages and calls that raise", "why_tests_cant": "every reason for raising has to be considered in every state", "anchors": ["src/yapcad/package/core.py: add_geometry_file"]}
{"id": "C88", "title": "Imports stay inside the package", "statement": "add_geometry_file only writes files below the package directory.", "quantifier": "all packages and destination paths", "why_tests_cant": "all path strings", "anchors": ["src/yapcad/package/core.py: add_geometry_file"]}
{"id": "C89", "title": "A new package validates", "statement": "A package just written by create_package_from_entities validates, whatever hash algorithm it was created with.", "quantifier": "all geometry documents, names, versions, materials and algorithms", "why_tests_cant": "all inputs", "anchors": ["src/yapcad/package/core.py: create_package_from_entities", "src/yapcad/package/validator.py: validate_package"]}
{"id": "C90", "title": "Adding a signature keeps the earlier ones", "statement": "Signing an already signed package (without replacing) keeps every earlier signature verifiable with the same outcome.", "quantifier": "all packages, methods and keys", "why_tests_cant": "histories of signing", "anchors": ["src/yapcad/package/signing.py: sign_package"]}
{"id": "C91", "title": "VALID_UNTRUSTED means checked", "statement": "A signature is reported VALID or VALID_UNTRUSTED only if its tool found it to be a good signature of the manifest.", "quantifier": "all signature contents and tool outcomes", "why_tests_cant": "all signature contents", "anchors": ["src/yapcad/package/signing.py: _verify_gpg_signature, _verify_ssh_signature"]}
{"id": "C92", "title": "Tampering with a signed manifest is detected", "statement": "After a signed manifest has been changed in any signed field, verification does not report a valid signature (assuming that the tools accept a signature only for the text it was made for, and up to hash collisions).", "quantifier": "all manifests and changes", "why_tests_cant": "all modifications of arbitrary documents", "anchors": ["src/yapcad/package/signing.py: verify_package"]}
{"id": "C93", "title": "Verification covers the package's files", "statement": "Verification of a signed package detects a change of the files the manifest lists.", "quantifier": "all packages and file changes", "why_tests_cant": "all modifications", "anchors": ["src/yapcad/package/signing.py: verify_package", "src/yapcad/package/validator.py: validate_package"]}
{"id": "C94", "title": "Recomputed hashes are current", "statement": "After recompute_hashes every listed file that exists has the recorded digest, entries differ from the entries before only in their hash, and nothing else in the manifest or in the file system changes.", "quantifier": "all manifests, algorithms and directory contents", "why_tests_cant": "all manifests", "anchors": ["src/yapcad/package/core.py: PackageManifest.recompute_hashes"]}
{"id": "C95", "title": "ASCII STL round trip", "statement": "Writing triangles as ASCII STL and reading the text back yields the same triangles in the same order with the coordinates as printed.", "quantifier": "all triangle lists and names", "why_tests_cant": "all texts", "anchors": ["src/yapcad/io/stl.py: _write_ascii, _parse_ascii_stl"]}
{"id": "C96", "title": "A damaged binary STL file is reported", "statement": "Reading a binary STL file that holds fewer facets than its header announces raises an error rather than returning fewer triangles.", "quantifier": "all byte strings", "why_tests_cant": "all truncation points", "anchors": ["src/yapcad/io/stl.py: _parse_binary_stl"]}
{"id": "C97", "title": "Exported triangles carry unit normals and none is lost", "statement": "For every surface the exported triangle stream holds every non-degenerate face once, in order, with a unit normal perpendicular to the face and oriented by its winding.", "quantifier": "all surfaces", "why_tests_cant": "continuum of shapes and sizes", "anchors": ["src/yapcad/mesh.py: mesh_view", "src/yapcad/io/stl.py: write_stl"]}
{"id": "C98", "title": "Everything exported is loaded", "statement": "Loading an exported document gives back every solid, surface and sketch that was exported.", "quantifier": "all mixes of entities", "why_tests_cant": "all mixes of entity kinds and ids", "anchors": ["src/yapcad/io/geometry_json.py: geometry_to_json, geometry_from_json"]}
{"id": "C99", "title": "Reloaded surfaces carry the id they are listed under", "statement": "Each surface entry's metadata holds the id of the entry.", "quantifier": "all entities, including shared surface objects", "why_tests_cant": "sharing patterns", "anchors": ["src/yapcad/io/geometry_json.py: _serialize_solid"]}
{"id": "C100", "title": "Entity ids in a document are unique", "statement": "No two entities of an exported document have the same id.", "quantifier": "all lists of entities", "why_tests_cant": "id clashes arise only for particular inputs", "anchors": ["src/yapcad/io/geometry_json.py: geometry_to_json"]}
{"id": "C101", "title": "A solid's remaining fields survive", "statement": "The material and construction fields of a solid survive export and import.", "quantifier": "all solids", "why_tests_cant": "all inputs", "anchors": ["src/yapcad/io/geometry_json.py: _serialize_solid, geometry_from_json", "src/yapcad/geom3d.py: solid"]}
{"id": "C102", "title": "Layers are inherited on export", "statement": "On export a surface without a layer of its own takes its solid's layer; any other surface keeps its layer unless the export names one.", "quantifier": "all solids, layers and overrides without shared surface objects", "why_tests_cant": "all combinations", "anchors": ["src/yapcad/io/geometry_json.py: _serialize_solid"]}
{"id": "C103", "title": "Dangling references are rejected", "statement": "Loading a document succeeds exactly when no entry lacks an id and every id a solid refers to is an id of the document; otherwise an error names a missing id.", "quantifier": "all documents", "why_tests_cant": "all documents", "anchors": ["src/yapcad/io/geometry_json.py: geometry_from_json"]}
{"id": "C105", "title": "Unsampling a line accepts only points on it", "statement": "unsample(line,p) returns a parameter only if p lies within epsilon of the line, whatever the length of the line.", "quantifier": "all lines and points", "why_tests_cant": "continuum", "anchors": ["src/yapcad/geom.py: unsampleline"]}
{"id": "C106", "title": "Crossing segments are found at every scale", "statement": "two segments that cross at an interior point are reported as intersecting, whatever their lengths.", "quantifier": "all line pairs", "why_tests_cant": "continuum of scales", "anchors": ["src/yapcad/geom.py: lineLineIntersectXY"]}
{"id": "C107", "title": "Point in convex polygon", "statement": "isInsideConvexPolyXY(p,poly) is true exactly when p is in the convex hull of the vertices of a convex polygon.", "quantifier": "all convex polygons and points", "why_tests_cant": "continuum, any number of vertices", "anchors": ["src/yapcad/geom.py: isInsideConvexPolyXY"]}
{"id": "C108", "title": "Point in polygon", "statement": "isinsidepolyXY(poly,p) is true exactly when p lies in the region bounded by the closed polygon; in particular true only inside the bounding box.", "quantifier": "all closed polygons and points", "why_tests_cant": "continuum", "anchors": ["src/yapcad/geom.py: isinsidepolyXY"]}
{"id": "C109", "title": "Arc samples lie on the circle", "statement": "sample(arc,u) is at distance r from the centre for every u; u=0 and u=1 give the points at the start and end angle (swapped for a reversed arc); a reversed arc sampled at u is the plain arc sampled at 1-u.", "quantifier": "all arcs and parameters", "why_tests_cant": "continuum", "anchors": ["src/yapcad/geom.py: samplearc"]}
{"id": "C110", "title": "Arc length agrees with sampling", "statement": "the angle swept between sample(arc,0) and sample(arc,u), times the radius, is u times the reported length.", "quantifier": "all arcs", "why_tests_cant": "continuum", "anchors": ["src/yapcad/geom.py: samplearc, arclength"]}
{"id": "C111", "title": "Arc parametrisation round trip", "statement": "unsample(arc, sample(arc,u)) = u for all u in [0,1] and all arcs of positive radius and extent.", "quantifier": "all arcs and parameters", "why_tests_cant": "continuum", "anchors": ["src/yapcad/geom.py: samplearc, unsamplearc"]}
{"id": "C112", "title": "The bounding box of an arc contains the arc", "statement": "every sampled point of an arc lies in bbox(arc).", "quantifier": "all arcs and parameters", "why_tests_cant": "continuum", "anchors": ["src/yapcad/geom.py: arcbbox"]}
{"id": "C113", "title": "Point to line distance", "statement": "linePointXY(l,p,distance=True) is the distance from p to the segment (inside=True) or to the infinite line (inside=False).", "quantifier": "all lines and points in a plane", "why_tests_cant": "continuum", "anchors": ["src/yapcad/geom.py: linePointXY"]}
{"id": "C114", "title": "Closest point on a line", "statement": "linePointXY(l,p) returns the point of the line closest to p, and with params=True the parameter of that point.", "quantifier": "all lines and points in a plane", "why_tests_cant": "continuum", "anchors": ["src/yapcad/geom.py: linePointXY"]}
{"id": "C117", "title": "Translation moves every sampled point", "statement": "translate(x,d) keeps the length of any figure and sample(translate(x,d),u) is sample(x,u) moved by d; two translations make one.", "quantifier": "all figures, nested lists, offsets and parameters", "why_tests_cant": "all nestings and a continuum", "anchors": ["src/yapcad/geom.py: translate, sample, length, samplegeomlist"]}
{"id": "C118", "title": "Rotation turns every sampled point", "statement": "sample(rotate(x,a,cent=c),u) is sample(x,u) turned by a degrees about c, and the length is kept, for every figure that is not a full circle.", "quantifier": "all figures, angles, centres, parameters", "why_tests_cant": "all nestings and a continuum", "anchors": ["src/yapcad/geom.py: rotate, sample"]}
{"id": "C119", "title": "Mirroring", "statement": "the samples of mirror(x,plane) are the mirror images of the samples of x in the same order; a continuous contour stays continuous; mirroring twice gives back the figure.", "quantifier": "all figures, planes", "why_tests_cant": "all nestings and a continuum", "anchors": ["src/yapcad/geom.py: mirror"]}
{"id": "C120", "title": "Scale factors are honoured", "statement": "scale(x,sx,sy,sz) multiplies each coordinate by its own factor, and the result is again a figure.", "quantifier": "all figures and factors", "why_tests_cant": "continuum", "anchors": ["src/yapcad/geom.py: scale", "src/yapcad/xform.py: Scale"]}
{"id": "C115", "title": "Line-circle intersections lie on both figures and none is missed", "statement": "For a line in the plane and a full circle, every point returned by the XY line/arc intersection lies on the infinite line and on the circle (up to the tangency tolerance), and every common point is returned; with the inside flag only points within the segment are returned.", "quantifier": "every line, every circle with a centre in the XY plane, both values of the inside flag", "why_tests_cant": "the coordinates range over a continuum and the failing inputs (segment end exactly on the circle, a crossing beyond the segment) form thin sets random tests miss", "anchors": ["src/yapcad/geom.py:lineArcIntersectXY"]}
{"id": "C116", "title": "Circle-circle outer tangents are tangent to both circles", "statement": "For two circles in a common plane neither of which contains the other, the outer-tangent constructor returns two different lines, each touching each circle at its end point at a right angle to the radius and on the same side; when one circle contains the other it reports that there is no tangent.", "quantifier": "every pair of circles with equal z", "why_tests_cant": "continuum of radii and distances, including touching, crossing and equal circles", "anchors": ["src/yapcad/geom.py:circleCircleTangentsXY"]}
{"id": "C121", "title": "Bezier curves are Bernstein combinations", "statement": "For any non-empty list of control points and any parameter, the point returned for a Bezier curve is the Bernstein combination of the control points at the parameter clamped to [0,1]; it is the first control point at 0 and the last at 1; sampling with n segments gives n+1 points on the curve from first to last control point; no control points or fewer than one segment raises.", "quantifier": "all control point lists, parameters and segment counts", "why_tests_cant": "Bernstein form and end points must hold for every degree and parameter", "anchors": ["src/yapcad/spline.py:bezier_point", "src/yapcad/spline.py:bezier_curve", "src/yapcad/spline.py:_bernstein"]}
{"id": "C122", "title": "Bezier curves stay in the hull and follow affine maps", "statement": "Every point of a Bezier curve lies in the convex hull of its control points; applying an affine map to the control points applies it to the curve; reversing the control points reverses the curve.", "quantifier": "all control point lists, parameters and affine maps", "why_tests_cant": "ranges over all affine maps and control polygons", "anchors": ["src/yapcad/spline.py:bezier_point"]}
{"id": "C123", "title": "Bezier tangents are derivatives", "statement": "For every parameter in [0,1] the tangent returned for a Bezier curve is the derivative of the curve with respect to the parameter; at the ends it points along the first and last leg of the control polygon.", "quantifier": "all control point lists and parameters", "why_tests_cant": "a derivative is a limit, which no finite set of test evaluations determines", "anchors": ["src/yapcad/spline.py:bezier_tangent"]}
{"id": "C124", "title": "Open B-splines are local convex combinations", "statement": "For at least degree+1 control points (and fewer than 1e12 of them), each point of an open B-spline is a convex combination of its control points with weights independent of the control points; only control points whose knot interval contains the parameter contribute; the curve starts at the first and ends at the last control point, follows affine maps, and sampling with n segments gives n+1 points on it. Too few control points raise.", "quantifier": "all control point lists, degrees, parameters, affine maps", "why_tests_cant": "partition of unity and locality must hold for every degree and knot span", "anchors": ["src/yapcad/spline.py:bspline_point", "src/yapcad/spline.py:_bspline_basis", "src/yapcad/spline.py:bspline_curve"]}
{"id": "C125", "title": "Closed B-splines can be evaluated and close up", "statement": "A closed B-spline with enough control points can be evaluated at every parameter and ends where it starts.", "quantifier": "all control point lists, degrees and parameters", "why_tests_cant": "ranges over all degrees and sizes", "anchors": ["src/yapcad/spline.py:bspline_point", "src/yapcad/spline.py:bspline_curve"]}
{"id": "C126", "title": "NURBS curves are weighted convex combinations and interpolate their ends", "statement": "For positive weights and an ascending knot vector of the right length, every point of a NURBS curve is a convex combination of the control points (weights proportional to the given weights), only control points whose knot interval contains the parameter contribute, and with clamped knots the curve starts at the first and ends at the last control point.", "quantifier": "all control points, positive weights, ascending knots, degrees, parameters in [0,1]", "why_tests_cant": "rational basis identities over all knot vectors", "anchors": ["src/yapcad/spline.py:evaluate_nurbs", "src/yapcad/spline.py:_nip", "src/yapcad/geom.py:nurbs"]}
{"id": "C127", "title": "Catmull-Rom splines pass through their control points", "statement": "A Catmull-Rom spline through at least two points passes through all its control points in order at equal parameter steps, a closed one returning to the first; sampling gives segments_per_span points per span plus the first, all on the curve, and includes every control point.", "quantifier": "all control points, alpha, closedness, parameters, segment counts", "why_tests_cant": "the interpolation property must hold for every arrangement of points, including coincident ones", "anchors": ["src/yapcad/spline.py:evaluate_catmullrom", "src/yapcad/spline.py:sample_catmullrom", "src/yapcad/geom.py:catmullrom"]}
{"id": "C128", "title": "Catmull-Rom splines follow rigid motions", "statement": "Moving the control points by a distance-preserving affine map moves the Catmull-Rom spline by the same map; for alpha = 0 the same holds for every affine map.", "quantifier": "all control points, alpha, parameters and rigid motions", "why_tests_cant": "quantifies over all rigid motions", "anchors": ["src/yapcad/spline.py:evaluate_catmullrom"]}
{"id": "C129", "title": "Catmull-Rom splines are C1", "statement": "A Catmull-Rom spline has a continuous first derivative (as the documentation of catmullrom promises): at every inner control point, and where a closed curve meets itself, the derivatives from both sides agree.", "quantifier": "all control points with distinct neighbours, alpha >= 0", "why_tests_cant": "one-sided derivatives are limits", "anchors": ["src/yapcad/spline.py:evaluate_catmullrom", "src/yapcad/geom.py:catmullrom"]}
{"id": "C130", "title": "Ellipse samples lie on the ellipse in its plane", "statement": "ellipse accepts exactly positive semi-axes with a normal that is absent or not nearly zero; every sample lies in the plane through the centre with the given normal and satisfies (X/a)^2+(Y/b)^2=1 along the axes at angles rotation and rotation+90, whichever of the semi-axes is the larger.", "quantifier": "all centres, semi-axes, rotations, angles, normals, parameters", "why_tests_cant": "every parameter and every normal direction, including the special cases near the z axis", "anchors": ["src/yapcad/geom.py:ellipse", "src/yapcad/geom.py:ellipse_sample"]}
{"id": "C131", "title": "Ellipse arcs run from the start to the end angle", "statement": "The sample at parameter u of an elliptic arc is at the angle start + u*(end-start) (counter-clockwise, past 360 degrees if end < start) measured from the axis at rotation; its distances from the foci add up to the major axis; a full ellipse is closed and reaches every point of the ellipse.", "quantifier": "all centres, semi-axes, rotations, angles, normals, parameters", "why_tests_cant": "onto-ness and the arc parametrisation quantify over a continuum", "anchors": ["src/yapcad/geom.py:ellipse", "src/yapcad/geom.py:ellipse_sample"]}
{"id": "C132", "title": "Parabola and hyperbola samples satisfy the focal definitions", "statement": "parabola and hyperbola accept exactly positive sizes, a branch of 1 or -1 and a normal that is absent or not nearly zero; parabola samples are as far from the focus as from the directrix, hyperbola samples lie on the chosen branch with distances from the foci differing by twice the semi-major axis, all in the plane with the given normal; the parameter goes linearly from start to end.", "quantifier": "all parameters, sizes, rotations and normals", "why_tests_cant": "focal identities over a continuum of parameters and orientations", "anchors": ["src/yapcad/geom.py:parabola_sample", "src/yapcad/geom.py:hyperbola_sample"]}
{"id": "C133", "title": "Conic tangents are unit derivatives", "statement": "The tangent of an ellipse, parabola or hyperbola is a unit vector in the direction in which the sample point moves as the parameter grows.", "quantifier": "all conics and parameters", "why_tests_cant": "a derivative is a limit", "anchors": ["src/yapcad/geom.py:ellipse_tangent", "src/yapcad/geom.py:parabola_tangent", "src/yapcad/geom.py:hyperbola_tangent"]}
{"id": "C134", "title": "Conic bounding boxes contain the curve and lengths are inscribed", "statement": "The bounding box of a conic contains the whole curve and touches it on every side; the reported length is that of an inscribed polyline: at least the distance of the ends, not decreasing when the number of segments is doubled.", "quantifier": "all conics, segment counts", "why_tests_cant": "containment quantifies over a continuum of points", "anchors": ["src/yapcad/geom.py:ellipse_bbox", "src/yapcad/geom.py:parabola_bbox", "src/yapcad/geom.py:hyperbola_bbox", "src/yapcad/geom.py:ellipse_length"]}
{"id": "C135", "title": "A called command sees its arguments", "statement": "A DSL command called with one argument per parameter runs in a scope of its own in which the i-th parameter has the value of the i-th argument and nothing else is visible, a missing argument is replaced by the parameter's default, a call with a wrong number of arguments is an error without effect, and the caller's variables are unchanged.", "quantifier": "all commands, argument lists and states", "why_tests_cant": "There are arbitrarily many parameters and arguments, and the callee's body may be anything.", "anchors": ["src/yapcad/dsl/runtime/interpreter.py: _call_command"]}
{"id": "C136", "title": "A match runs the first matching arm", "statement": "A match expression evaluates its subject once and then exactly the expression of the first arm whose pattern matches (wildcard, equal literal, or a name, which is bound); if no arm matches it is an error.", "quantifier": "all subjects, arms and states", "why_tests_cant": "The number and the contents of the arms are unbounded.", "anchors": ["src/yapcad/dsl/runtime/interpreter.py: _eval_match, _pattern_matches"]}
{"id": "C137", "title": "The DSL parser ends on every input", "statement": "Parsing any list of tokens as an expression, type, statement or block ends, with a syntax tree or a ParserError, and the recursion depth it needs is linear in the number of tokens.", "quantifier": "all finite token lists and all entry points of the parser", "why_tests_cant": "tests parse a handful of programs; an unlucky token sequence could loop or recurse without reading a token", "anchors": ["src/yapcad/dsl/parser.py:Parser._parse_expression", "src/yapcad/dsl/parser.py:Parser._parse_statement", "src/yapcad/dsl/parser.py:Parser._parse_block"]}
{"id": "C138", "title": "The DSL parser accepts exactly the language's grammar", "statement": "A token sequence is accepted as an expression, type, statement or block exactly if the grammar (operators by precedence level, postfix, lambdas, conditionals, comprehensions, blocks) derives it, and the syntax tree is the one the grammar gives it.", "quantifier": "all token lists, all continuations after the phrase", "why_tests_cant": "an infinite language cannot be enumerated; missed or wrongly accepted constructions hide in combinations", "anchors": ["src/yapcad/dsl/parser.py:Parser"]}
{"id": "C139", "title": "DSL programs have one reading", "statement": "No token sequence has two different syntax trees as an expression, type, statement or block.", "quantifier": "all token lists", "why_tests_cant": "ambiguity is a statement about all pairs of derivations", "anchors": ["src/yapcad/dsl/parser.py:Parser"]}
{"id": "C140", "title": "Operator precedence and associativity", "statement": "In `x o y p z` the operator that binds tighter takes the middle operand; operators of one level group to the left, ** groups to the right, in chains of any length; unary operators bind tighter than all binary ones, and conditional expressions weakest.", "quantifier": "all operands, all pairs of operators, chains of any length", "why_tests_cant": "tests cover a few pairs; the claim is for every pair and every chain length", "anchors": ["src/yapcad/dsl/parser.py:Parser.PRECEDENCE", "src/yapcad/dsl/parser.py:Parser._parse_binary_expr"]}
{"id": "C141", "title": "Parentheses override precedence", "statement": "Putting parentheses around an expression leaves its meaning unchanged, and parenthesised expressions can be combined with any operator whatever they contain.", "quantifier": "all expressions, all operators", "why_tests_cant": "structural claim over all expressions", "anchors": ["src/yapcad/dsl/parser.py:Parser._parse_grouped_or_lambda"]}
{"id": "C142", "title": "Assignment updates a variable", "statement": "A statement `target = value` for a variable that exists already is an assignment that changes it, not a new declaration.", "quantifier": "all targets and values", "why_tests_cant": "the parser decides without a symbol table, so the claim is about every program", "anchors": ["src/yapcad/dsl/parser.py:Parser._parse_simple_var_decl", "src/yapcad/dsl/parser.py:Parser._parse_statement"]}
{"id": "C143", "title": "Match arms with names, literals and wildcards", "statement": "The arms of a match may have a literal, a name or the wildcard as pattern, each followed by a colon and an expression.", "quantifier": "all match expressions", "why_tests_cant": "the set of match expressions is infinite", "anchors": ["src/yapcad/dsl/parser.py:Parser._parse_match_arm", "src/yapcad/dsl/parser.py:Parser._parse_pattern"]}
{"id": "C144", "title": "Values with indented blocks", "statement": "An if or match expression with indented branches can be the value of a variable anywhere in a block.", "quantifier": "all values that end with an indented block, all following statements", "why_tests_cant": "interaction between the lexer's layout tokens and statement ends, for every program", "anchors": ["src/yapcad/dsl/parser.py:Parser._expect_newline_or_eof", "src/yapcad/dsl/parser.py:Parser._parse_simple_var_decl"]}
{"id": "C145", "title": "Brackets and indentation match in accepted programs", "statement": "In every accepted phrase each bracket, brace and indentation is closed by its own kind, properly nested.", "quantifier": "all accepted token lists", "why_tests_cant": "a statement about every accepted text", "anchors": ["src/yapcad/dsl/parser.py:Parser._parse_emit_statement", "src/yapcad/dsl/parser.py:Parser._parse_python_block"]}
{"id": "C146", "title": "Module parsing ends", "statement": "parse_module ends on every token list; none of its loops over parameters, decorators, use statements or declarations can run without reading a token.", "quantifier": "all token lists", "why_tests_cant": "non-termination needs an input nobody thought of", "anchors": ["src/yapcad/dsl/parser.py:Parser.parse_module"]}
{"id": "C147", "title": "Malformed modules are reported as parser errors", "statement": "parse_module fails only with a ParserError.", "quantifier": "all token lists", "why_tests_cant": "an unforeseen exception type shows only on unforeseen input", "anchors": ["src/yapcad/dsl/parser.py:Parser._ui_hint_value", "src/yapcad/dsl/parser.py:Parser._parse_meta_decorator"]}
{"id": "C148", "title": "Decorators stay with their declaration", "statement": "Every decorator in a module text is recorded with the declaration that follows it, and a decorator without a declaration is an error.", "quantifier": "all modules, all decorators", "why_tests_cant": "tests use well-formed modules only", "anchors": ["src/yapcad/dsl/parser.py:Parser.parse_module", "src/yapcad/dsl/parser.py:Parser._parse_command"]}
{"id": "C149", "title": "Later @meta values win", "statement": "The metadata of a declaration maps each key to the last value given for it in its @meta decorators, within one decorator and across several.", "quantifier": "all sequences of decorators and keys", "why_tests_cant": "every sequence and key", "anchors": ["src/yapcad/dsl/parser.py:Parser._parse_meta_decorator", "src/yapcad/dsl/parser.py:Parser.parse_module"]}
{"id": "C150", "title": "Native functions are read in full", "statement": "The code of a @native function is the whole indented body, including nested blocks.", "quantifier": "all bodies", "why_tests_cant": "bodies with nesting are unbounded", "anchors": ["src/yapcad/dsl/parser.py:Parser._parse_native_function"]}
{"id": "C151", "title": "Module paths consist of names", "statement": "A use statement accepts exactly dotted paths of names and records them as written.", "quantifier": "all use statements", "why_tests_cant": "every token may appear where a name is expected", "anchors": ["src/yapcad/dsl/parser.py:Parser._parse_module_path_component", "src/yapcad/dsl/parser.py:Parser._parse_use_statement"]}
{"id": "C152", "title": "A source is accepted exactly if it is well typed", "statement": "compile_and_run passes a source text on to the interpreter exactly when it lexes, parses and is well typed by the typing rules of the language: every expression has a type by one rule per construct, every declared type exists, arguments, defaults, emitted values and assignments fit, and global names are distinct.", "quantifier": "all source texts, all orders in which Python lists sets", "why_tests_cant": "typing rules range over all programs; the checker's error recovery and error limit must never hide an error", "anchors": ["src/yapcad/dsl/checker.py: TypeChecker.check", "src/yapcad/dsl/runtime/interpreter.py: compile_and_run"]}
{"id": "C153", "title": "The order of declarations does not matter", "statement": "Reordering the commands, native functions and native blocks of a module never changes whether the checker accepts it, nor does the order in which Python iterates over sets.", "quantifier": "all modules, all permutations, all set orders", "why_tests_cant": "permutations and set iteration orders cannot be enumerated", "anchors": ["src/yapcad/dsl/checker.py: _check_module, _register_command"]}
{"id": "C154", "title": "Names are declared before use", "statement": "In an accepted module every name that occurs in an expression is visible there: a parameter, a variable declared before in the same or an enclosing block, a loop or lambda variable, a command, native function, type or built-in.", "quantifier": "all modules", "why_tests_cant": "every nesting of blocks and expressions must be covered", "anchors": ["src/yapcad/dsl/checker.py: _check_identifier, _check_function_call, _check_if_expr", "src/yapcad/dsl/symbols.py: SymbolTable"]}
{"id": "C156", "title": "The checker knows when there is Python code", "statement": "For an accepted module the result says that it contains Python code exactly if its text contains a native block, a native function or a Python block.", "quantifier": "all modules", "why_tests_cant": "a Python block may be nested anywhere", "anchors": ["src/yapcad/dsl/checker.py: requires_python, _check_python_block"]}
{"id": "C157", "title": "Recursion is reported", "statement": "For an accepted module there is a recursion warning exactly if its commands call each other in a circle, and every warning names the commands of such a circle in calling order.", "quantifier": "all modules, all call graphs, all set orders", "why_tests_cant": "call graphs of any size and shape", "anchors": ["src/yapcad/dsl/checker.py: _check_recursion, _find_cycles"]}
{"id": "C158", "title": "The limit on errors does not change the verdict", "statement": "The argument max_errors bounds the number of errors reported and has no influence on whether a module is accepted.", "quantifier": "all modules, all limits", "why_tests_cant": "all limits and modules", "anchors": ["src/yapcad/dsl/checker.py: TypeChecker.__init__, _check_statement, _check_expression"]}
{"id": "C159", "title": "The checker never raises", "statement": "Checking any parsed module returns a result; no exception escapes.", "quantifier": "all modules that parse, all limits", "why_tests_cant": "all statement forms in all nestings", "anchors": ["src/yapcad/dsl/checker.py: _check_statement, _check_return_statement, _check_let_statement"]}
{"id": "C161", "title": "Calls have the right arguments", "statement": "A module is accepted only if every call of a built-in function or command gives each parameter without default exactly one argument and gives no others.", "quantifier": "all modules and calls", "why_tests_cant": "every call with every argument shape", "anchors": ["src/yapcad/dsl/checker.py: _check_builtin_call, _check_function_call"]}
{"id": "C155", "title": "Accepted DSL programs do not go wrong", "statement": "If compile_and_run accepts a source (no type errors), then running any of its commands on arguments of the declared types never ends with an undefined name, a missing argument, a wrong operand type or another error the checker promises to exclude; and a successful run emits data of the declared result type.", "quantifier": "all sources, commands, arguments of the declared types, recursion limits and environments whose built-in functions keep their signatures", "why_tests_cant": "type soundness is a statement about every program and every run; each test is one program and one run", "anchors": ["src/yapcad/dsl/checker.py:TypeChecker", "src/yapcad/dsl/runtime/interpreter.py:Interpreter.execute", "src/yapcad/dsl/runtime/interpreter.py:compile_and_run"]}
{"id": "C160", "title": "Conditional expressions and if expressions have the value of the chosen branch", "statement": "Evaluating 'a if c else b', or an if expression with an else branch, gives the value (and the effects) of the branch the condition selects, and does not evaluate the other.", "quantifier": "all conditions, branches, programs and states", "why_tests_cant": "the branches are arbitrary expressions with effects and errors", "anchors": ["src/yapcad/dsl/runtime/interpreter.py:_eval_conditional_expr", "src/yapcad/dsl/runtime/interpreter.py:_eval_if_expr"]}
{"id": "C162", "title": "What the interpreter can run is not rejected", "statement": "Arithmetic on parameters without annotation and concatenation of strings, which the interpreter performs, are accepted by the checker.", "quantifier": "all sources", "why_tests_cant": "completeness of the checker relative to the interpreter quantifies over all programs", "anchors": ["src/yapcad/dsl/checker.py:_check_binary_op"]}
{"id": "C163", "title": "Assignment updates the variable", "statement": "After 't = e' in a nested block, t of the enclosing block has the value of e.", "quantifier": "all programs with an assignment to a variable of an enclosing block", "why_tests_cant": "depends on how the assignment is nested in scopes", "anchors": ["src/yapcad/dsl/parser.py:_parse_statement", "src/yapcad/dsl/runtime/interpreter.py:_execute_let"]}
{"id": "C164", "title": "Elements of a list keep their value in arithmetic", "statement": "Reading an element of a list by index or by a loop and using it in arithmetic uses the number that was put in.", "quantifier": "all lists of numbers and all ways to build them", "why_tests_cant": "lists are arbitrary, and the tag of the whole list decides", "anchors": ["src/yapcad/dsl/runtime/values.py", "src/yapcad/dsl/runtime/interpreter.py:_eval_binary_op"]}
{"id": "C165", "title": "Length of a polyline", "statement": "length(poly) is the sum of the distances between neighbouring vertices, and never less than the distance of its ends.", "quantifier": "all polylines with any number of vertices", "why_tests_cant": "any number of vertices, continuum of coordinates", "anchors": ["src/yapcad/geom.py: polylength"]}
{"id": "C166", "title": "Segments of arcs begin and end where asked", "statement": "segmentarc(arc, u1, u2) is an arc on the same circle in the same direction whose start is the sample of the original at u1 and whose end the sample at u2.", "quantifier": "all arcs, reversed or not, all parameters", "why_tests_cant": "continuum of arcs and parameters, wrap-around at 360 degrees", "anchors": ["src/yapcad/geom.py: segmentarc", "src/yapcad/geom.py: samplearc"]}
{"id": "C167", "title": "Unsampling an arc accepts only points on it", "statement": "unsamplearc(arc, p) returns a parameter only for points of the arc, up to epsilon.", "quantifier": "all arcs and points", "why_tests_cant": "continuum", "anchors": ["src/yapcad/geom.py: unsamplearc"]}
{"id": "C168", "title": "Volume survives moving a solid", "statement": "volumeof of a closed solid is unchanged by translatesolid, rotatesolid and mirrorsolid, and scalesolid multiplies it by the product of the factors.", "quantifier": "all closed solids, any number of surfaces and faces, all translations, rotations, mirrors and scale factors", "why_tests_cant": "continuum of solids and motions, any number of triangles", "anchors": ["src/yapcad/geom3d.py: volumeof", "src/yapcad/geom3d.py: translatesolid", "src/yapcad/geom3d.py: rotatesolid", "src/yapcad/geom3d.py: mirrorsolid", "src/yapcad/geom3d.py: scalesolid"]}
{"id": "C169", "title": "Closed means every edge is shared by two triangles", "statement": "issolidclosed(x) is True exactly when every triangle edge, compared by rounded end coordinates and regardless of direction, is used by exactly two triangle sides over all surfaces together; the order of surfaces and faces and the direction in which faces are walked do not matter.", "quantifier": "all solids with any number of surfaces and faces", "why_tests_cant": "any number of triangles, all orders", "anchors": ["src/yapcad/geom3d.py: issolidclosed"]}
{"id": "C170", "title": "An accepted surface can be used", "statement": "issurface(s, fast=False) returns True only for surfaces whose parts fit together, so that area, outline and closedness test succeed on it.", "quantifier": "all surfaces", "why_tests_cant": "all lists of vertices, normals and faces", "anchors": ["src/yapcad/geom3d.py: issurface"]}
{"id": "C171", "title": "The surface constructor stores what it is given", "statement": "surface(vertices, normals, faces, boundary, holes, metadata) returns a surface with exactly these parts, or rejects them.", "quantifier": "all well-formed parts, all combinations of optional arguments", "why_tests_cant": "all lists and all combinations of optional arguments", "anchors": ["src/yapcad/geom3d.py: surface"]}
{"id": "C172", "title": "Moving surfaces", "statement": "translatesurface, rotatesurface, mirrorsurface, reversesurface and scalesurface move every vertex by the named transformation, keep the face list (mirror and reverse walk each face the other way), and mirror and reverse are involutions; scaling leaves the given centre fixed.", "quantifier": "all surfaces and all transformations", "why_tests_cant": "continuum of coordinates and angles, any number of vertices", "anchors": ["src/yapcad/geom3d.py: translatesurface", "src/yapcad/geom3d.py: rotatesurface", "src/yapcad/geom3d.py: mirrorsurface", "src/yapcad/geom3d.py: reversesurface", "src/yapcad/geom3d.py: scalesurface"]}
{"id": "C173", "title": "Bounding box of a solid is tight", "statement": "solidbbox contains every vertex of every surface and is contained in every box that does.", "quantifier": "all solids with any number of surfaces", "why_tests_cant": "any number of surfaces and vertices", "anchors": ["src/yapcad/geom3d.py: solidbbox", "src/yapcad/geom3d.py: surfacebbox"]}
{"id": "C174", "title": "Building a surface triangle by triangle", "statement": "Adding triangles one by one with addTri2Surface gives one face per triangle in order, referring to vertices within epsilon of its corners; vertices are shared, never duplicated, and each has a normal.", "quantifier": "all sequences of triangles of any length", "why_tests_cant": "all histories of calls", "anchors": ["src/yapcad/geom3d.py: addTri2Surface"]}
{"id": "C175", "title": "Surface area", "statement": "surfacearea(s) is the sum of the areas of the triangles of s (Heron), never negative, and unchanged by translation and rotation.", "quantifier": "all surfaces whose indices are valid, all motions", "why_tests_cant": "any number of triangles, continuum of coordinates", "anchors": ["src/yapcad/geom3d.py: surfacearea"]}
{"id": "C176", "title": "Outline of a surface", "statement": "surf2lines(s) contains every side of every face exactly once, whatever number of faces share it and in whatever direction they walk it.", "quantifier": "all surfaces with triangular faces", "why_tests_cant": "any number of faces, all sharing patterns", "anchors": ["src/yapcad/geom3d.py: surf2lines"]}
{"id": "C177", "title": "Scaling keeps normals outward", "statement": "After scalesurface a vertex normal that pointed out of a face (right-hand rule of the face's vertex order) still points out of it.", "quantifier": "all surfaces and non-zero scale factors", "why_tests_cant": "continuum of factors and normals", "anchors": ["src/yapcad/geom3d.py: scalesurface"]}
{"id": "C178", "title": "prism builds the solid box of the requested size", "statement": "prism(l, w, h, center) returns a closed solid of six faces whose vertices are exactly at half the given sizes from the centre, whose signed-volume computation gives |l*w*h|, in which every directed triangle side is matched by its reverse, and, for positive sizes, every face winds counter-clockwise seen from outside with its normals pointing outward.", "quantifier": "all sizes of at least 2 epsilon in magnitude and all centres", "why_tests_cant": "continuum of sizes and centres", "anchors": ["src/yapcad/geom3d_util.py: prism, rectangularPlane", "src/yapcad/geom3d.py: issolidclosed, volumeof"]}
{"id": "C179", "title": "conic builds a closed cone or frustum", "statement": "conic(r, r2, h, center, angr) returns a closed, consistently oriented solid with every vertex on the base circle, on the top circle or at the apex, and with the volume of the inscribed n-gonal frustum, where n = round(360/angr); that volume is below the round frustum's by a fraction of at most (2 pi/n)^2/6.", "quantifier": "all radii, heights, centres and angular resolutions accepted by conic", "why_tests_cant": "continuum of radii, heights and resolutions; any number of segments", "anchors": ["src/yapcad/geom3d_util.py: conic, circleSurface, tri2p0n", "src/yapcad/geom3d.py: issolidclosed, volumeof"]}
{"id": "C180", "title": "Adaptive resolution honours its limits", "statement": "The automatically chosen number of segments of a circle lies between 16 and 360, and unless the upper limit of 360 is reached the chord length (or the sagitta, if a chord error is requested) stays within the requested limit.", "quantifier": "all positive radii, chord-length limits and chord errors", "why_tests_cant": "continuum of radii and limits", "anchors": ["src/yapcad/geom3d_util.py: adaptive_arc_segments, adaptive_angr_from_radius"]}
{"id": "C181", "title": "Sphere surfaces are round, valid and consistently oriented at every depth", "statement": "sphereSurface(diameter, center, depth) with a diameter above 16 epsilon returns a surface that issurface() accepts, with exactly 20*4^depth triangles and between 12 and 10*4^depth+2 vertices; every vertex is at distance diameter/2 from the centre (the origin, if the given centre is within epsilon of it), its normal is the unit vector pointing straight away from the centre, and every directed triangle side is matched by the same side in the opposite direction. If no vertices were merged (the full count 10*4^depth+2) every triangle faces outwards, and if the vertices are also 2 epsilon apart issolidclosed() accepts it; without subdivision that is always so. Diameter 0 raises ZeroDivisionError.", "quantifier": "every diameter, centre, depth and every previous content of the global vertex table", "why_tests_cant": "tests build a few spheres; the claim is about every depth and every leftover state of a global hash table shared between calls", "anchors": ["src/yapcad/geom3d_util.py:sphereSurface", "src/yapcad/geom3d_util.py:subdivide", "src/yapcad/geom3d_util.py:addVertex", "src/yapcad/geom3d_util.py:makeIcoPoints"]}
{"id": "C182", "title": "The shared vertex table never hands out a wrong vertex", "statement": "addVertex(p, n, verts, norms) in any state of the global table returns an index of the resulting list whose vertex is within epsilon of p, and either leaves both lists unchanged or appends exactly p and n; in a sequence of calls on a list the table was not last used with (or an empty one), repeated requests for the same point return the same index.", "quantifier": "every point, every list, every previous content of the global table (including stale indices from another list that had the same identity), every sequence of requests", "why_tests_cant": "the table is module state keyed by id(); no test enumerates its histories", "anchors": ["src/yapcad/geom3d_util.py:addVertex"]}
{"id": "C183", "title": "Surfaces of revolution are closed and enclose the stack of frusta", "statement": "makeRevolutionSurface(contour, zStart, zEnd, steps, arcSamples=n) returns, for every contour and every state of the global vertex table, a valid surface that issolidclosed accepts, consistently oriented, whose vertices lie on the contour's circles at the sampled heights or on the axis at the ends, and whose volumeof is that of the stack of frusta over regular n-gons.", "quantifier": "all contours, heights, numbers of steps and samples, and all earlier uses of the vertex table", "why_tests_cant": "the mesh mixes fans, strips and discs joined only through the vertex table; that every edge is used twice for all n, steps and contours needs induction over the whole construction", "anchors": ["src/yapcad/geom3d_util.py:makeRevolutionSurface", "src/yapcad/geom3d_util.py:addVertex", "src/yapcad/geom3d.py:issolidclosed", "src/yapcad/geom3d.py:volumeof"]}
{"id": "C184", "title": "evaluate_path3d_at_t follows the path", "statement": "For every path of line and arc segments evaluate_path3d_at_t returns a point and a unit tangent at every parameter; each segment takes an equal share of the parameter in order; a line is followed with constant velocity; an arc is followed with constant angular speed about its normal, less than a full turn, at constant distance from its centre and in its plane, from its start to its end, with the tangent in the direction of motion and length radius times angle; on a joined path the point depends continuously on the parameter, from the first segment's start to the last one's end. An empty path raises ValueError. (An arc whose ends coincide is a single point.)", "quantifier": "all paths, segments and parameters", "why_tests_cant": "the claims are about every parameter of every path", "anchors": ["src/yapcad/manufacturing/path_utils.py:evaluate_path3d_at_t", "src/yapcad/manufacturing/path_utils.py:path_length"]}
{"id": "C185", "title": "extract_sub_path returns exactly the part of the path between two parameters", "statement": "For every joined path of lines and arcs and 0 <= t_start < t_end <= 1, the extracted path is a joined path of proper segments that starts at the path's point at t_start, ends at its point at t_end, and passes through exactly the points the path passes through between; lengths of adjacent parts add up, and the whole range gives the same path back.", "quantifier": "all paths and all pairs of parameters", "why_tests_cant": "quantifies over all paths, parameters and points", "anchors": ["src/yapcad/manufacturing/path_utils.py:extract_sub_path"]}
{"id": "C186", "title": "length_to_parameter and parameter_to_length are inverse", "statement": "The parameter for an arc length lies in 0..1, the arc length of a parameter grows with it from 0 to the path's length, and the two conversions undo each other.", "quantifier": "all paths, lengths and parameters", "why_tests_cant": "relates two functions on all paths", "anchors": ["src/yapcad/manufacturing/path_utils.py:length_to_parameter", "src/yapcad/manufacturing/path_utils.py:parameter_to_length"]}
{"id": "C187", "title": "Path functions raise the documented ValueErrors", "statement": "extract_sub_path raises ValueError exactly when t_start >= t_end or a parameter is out of range, evaluate_path3d_at_t when the path is empty, a segment unknown or t out of range.", "quantifier": "all paths and parameters", "why_tests_cant": "quantifies over all arguments", "anchors": ["src/yapcad/manufacturing/path_utils.py:extract_sub_path", "src/yapcad/manufacturing/path_utils.py:evaluate_path3d_at_t"]}
{"id": "C188", "title": "surface_watertight recognises closed meshes", "statement": "surface_watertight passes a surface exactly when it is the boundary of something: every edge belongs to two triangles that run through it in opposite directions. In particular every consistently oriented closed mesh, such as every sphere, passes, every mesh with a boundary edge or an edge with more than two triangles fails, with warnings exactly when it fails.", "quantifier": "all surfaces", "why_tests_cant": "quantifies over all meshes", "anchors": ["src/yapcad/geometry_checks.py:surface_watertight"]}
{"id": "C189", "title": "faces_oriented recognises consistently oriented meshes", "statement": "faces_oriented passes a mesh of triangles exactly when the triangles are consistently oriented, matching the stored normals.", "quantifier": "all meshes of triangles", "why_tests_cant": "quantifies over all meshes", "anchors": ["src/yapcad/geometry_checks.py:faces_oriented"]}
{"id": "C190", "title": "triangulate_polygon prepares loops correctly", "statement": "Whatever the direction and the repetitions of the given points, the loops handed to the ear clipping library are counterclockwise for the outline and clockwise for the holes, consist of given points in given or reversed order, have at least three points, no two neighbours within the tolerance, and lose no point by more than twice the tolerance; degenerate loops are ignored, and every corner of every triangle is a given point.", "quantifier": "all outlines and holes, any answer of the library", "why_tests_cant": "quantifies over all polygons and over the behaviour of the library", "anchors": ["src/yapcad/triangulator.py:triangulate_polygon"]}
{"id": "C191", "title": "Triangle helpers", "statement": "triangle_normal is the unit normal by the right hand rule and None exactly for (nearly) collinear corners; triangle_area does not depend on the order of the corners and is half base times height; orient_triangle keeps the corners, makes the normal point to the preferred side and is idempotent; triangle_centroid is the common point of the medians.", "quantifier": "all triples of points", "why_tests_cant": "quantifies over all triangles", "anchors": ["src/yapcad/geometry_utils.py:triangle_normal", "src/yapcad/geometry_utils.py:triangle_area", "src/yapcad/geometry_utils.py:orient_triangle", "src/yapcad/geometry_utils.py:triangle_centroid"]}
{"id": "C192", "title": "is_closed_polygon", "statement": "is_closed_polygon is true exactly when the list is not empty and its first and last points are at most the tolerance apart.", "quantifier": "all lists of points and tolerances", "why_tests_cant": "quantifies over all lists", "anchors": ["src/yapcad/geometry_checks.py:is_closed_polygon"]}
{"id": "C193", "title": "Segmentation covers the whole element without gaps or overlap", "statement": "segment_swept_element returns segments whose parameter ranges follow one another from 0 to 1, with the parameters of the cuts that did not fail (no failure warning), in order, as the boundaries; each range runs forwards and is not empty when the cuts are at different places; n cuts that succeed give n+1 segments; ids differ, get_segment finds every segment by its id; without connectors the solids are the successive results of cutting the solid at the planes through the cuts' points, perpendicular to the spine.", "quantifier": "every element, every list of cuts in any order, every behaviour of the solid kernel (each split may fail or not)", "why_tests_cant": "unit tests run one or two cuts with a kernel that works (or is not installed at all)", "anchors": ["src/yapcad/manufacturing/segmentation.py:segment_swept_element", "src/yapcad/manufacturing/data.py:Segment", "src/yapcad/manufacturing/data.py:SegmentationResult.get_segment"]}
{"id": "C194", "title": "Segments are mated to their neighbours and only to them", "statement": "After a segmentation, a segment's mates_with lists the segment before it and the segment after it (those that exist) and nothing else, so the relation is symmetric.", "quantifier": "every successful call, whatever cuts failed", "why_tests_cant": "the relation is built while segments are appended and cuts are skipped; a test fixes one sequence of successes and failures", "anchors": ["src/yapcad/manufacturing/segmentation.py:segment_swept_element", "src/yapcad/manufacturing/data.py:Segment.mates_with"]}
{"id": "C195", "title": "The assembly graph is the mating relation", "statement": "SegmentationResult.assembly_graph maps every segment id to the ids of the segments it mates with.", "quantifier": "every successful call", "why_tests_cant": "holds for the keys and backward links of all results but the missing forward link is in every result, which only a universal statement shows", "anchors": ["src/yapcad/manufacturing/segmentation.py:segment_swept_element", "src/yapcad/manufacturing/data.py:SegmentationResult.assembly_graph"]}
{"id": "C196", "title": "Connector types say who has the tab and who receives it", "statement": "A segment has has_connector_tab exactly if its connector_type is male; a segment is male exactly if one of its two cuts gave it the connector, female if it is not male and receives a neighbour's tab, none if no tab is at its boundaries.", "quantifier": "every sequence of cuts and of sides a, b, none; every result of the unions", "why_tests_cant": "three sides per cut and any number of cuts; the type of a segment depends on two cuts and is changed after it was made", "anchors": ["src/yapcad/manufacturing/segmentation.py:segment_swept_element", "src/yapcad/manufacturing/data.py:Segment.connector_type"]}
{"id": "C197", "title": "Invalid segmentation requests are refused", "statement": "CutPoint accepts exactly parameters strictly between 0 and 1 and the sides a, b, none, and raises ValueError otherwise; segment_swept_element raises ValueError for no cuts, a cut of another element, or a missing solid, before the solid kernel is called.", "quantifier": "every cut point and every call", "why_tests_cant": "every combination of arguments", "anchors": ["src/yapcad/manufacturing/data.py:CutPoint.__post_init__", "src/yapcad/manufacturing/segmentation.py:segment_swept_element"]}
{"id": "C198", "title": "Connectors kept apart are listed once each", "statement": "When no operation fails, the connectors of the result are exactly those of the cuts with union_connector_with none, in order, each with its cut's parameter and clearance.", "quantifier": "every list of cuts, every solid kernel that does not fail", "why_tests_cant": "any number of cuts and mixtures of sides", "anchors": ["src/yapcad/manufacturing/segmentation.py:segment_swept_element", "src/yapcad/manufacturing/data.py:SegmentationResult.connectors"]}
{"id": "C199", "title": "A connector fits into the profile", "statement": "compute_connector_profile_dimensions returns the void inside the walls less the clearance on every side, both positive; it raises ValueError exactly if the void or the result would not be positive.", "quantifier": "all real widths, heights, wall thicknesses and clearances", "why_tests_cant": "a continuum of inputs with a boundary on four planes", "anchors": ["src/yapcad/manufacturing/connectors.py:compute_connector_profile_dimensions", "src/yapcad/manufacturing/connectors.py:compute_inner_profile_dimensions", "src/yapcad/manufacturing/connectors.py:offset_rectangular_profile"]}
{"id": "C200", "title": "An interior connector is centred on its cut", "statement": "The connector for a cut is swept along the part of the spine that extends half the connector's length on each side of the cut, measured along the spine, shortened only at the ends of the spine.", "quantifier": "every spine, cut parameter and connector length", "why_tests_cant": "depends on arc length along arbitrary paths; tests use single-segment spines, where it holds", "anchors": ["src/yapcad/manufacturing/connectors.py:create_interior_connector"]}
{"id": "C201", "title": "Connector ids identify connectors", "statement": "Different cuts of an element have connectors with different ids.", "quantifier": "all pairs of cuts of an element", "why_tests_cant": "only pairs closer than 1/100 collide", "anchors": ["src/yapcad/manufacturing/connectors.py:compute_connector_spec"]}
{"id": "C202", "title": "The connector length given with a cut is used", "statement": "CutPoint.connector_length overrides the computed connector length.", "quantifier": "every segmentation", "why_tests_cant": "a field that is stored but has no effect: the claim is about all results", "anchors": ["src/yapcad/manufacturing/data.py:CutPoint.connector_length", "src/yapcad/manufacturing/segmentation.py:segment_swept_element"]}
{"id": "C203", "title": "Proposed cuts keep segments under the maximum length", "statement": "compute_optimal_cuts returns no cuts if the spine is not longer than the limit, otherwise cuts of this element that CutPoint accepts, strictly increasing and evenly spaced, such that every piece between neighbouring cuts or ends is not longer than the limit along the spine.", "quantifier": "every spine and every positive limit", "why_tests_cant": "arc lengths of arbitrary paths", "anchors": ["src/yapcad/manufacturing/segmentation.py:compute_optimal_cuts"]}
{"id": "C204", "title": "Ring pieces lie between the planes of their ends", "statement": "segment_closed_ring raises ValueError for no cuts or a cut outside (0, 1); otherwise the pieces go from 0 to 1 with the sorted cuts as boundaries, and each is bounded by the planes through the spine's points at its two ends, facing against the spine's direction at the first and along it at the second.", "quantifier": "every spine and every list of cut parameters", "why_tests_cant": "any number and order of cuts", "anchors": ["src/yapcad/manufacturing/segmentation.py:segment_closed_ring"]}
{"id": "C205", "title": "A terminal tab points out of the spine", "statement": "create_terminal_connector sweeps the connector profile along a line that starts at the chosen end of the spine and runs outwards along the spine's direction there for exactly the given length, or by default half the interior connector's length; any other end name, or a profile that leaves no room, raises ValueError.", "quantifier": "every spine, both ends, every length", "why_tests_cant": "all directions of the spine at its ends, including arcs", "anchors": ["src/yapcad/manufacturing/connectors.py:create_terminal_connector", "src/yapcad/manufacturing/connectors.py:_get_spine_endpoint_and_tangent"]}
{"id": "C206", "title": "Ring cuts are the right number, in order, inside the ring", "statement": "compute_ring_cuts_avoiding_holes returns one cut less than pieces (target_segments, or the circumference divided by the maximal length, rounded up); the cuts are strictly increasing and strictly between 0 and 1; fewer than two pieces give no cuts; a maximal length of 0 (without target_segments) or a circumference of 0 raises ZeroDivisionError.", "quantifier": "every circumference, limit, list of hole angles, distance and number of pieces", "why_tests_cant": "four different branches (even, adjusted, exhaustive search, last resort) choose the cuts", "anchors": ["src/yapcad/manufacturing/rings.py:compute_ring_cuts_avoiding_holes"]}
{"id": "C207", "title": "Ring cuts keep their distance from holes", "statement": "Every cut is at least min_distance_from_hole away from every hole measured around the ring, whenever such cuts exist.", "quantifier": "every list of hole angles (of any value) and every distance", "why_tests_cant": "the zones wrap around the seam of the ring; the search is on a grid of 1000 positions", "anchors": ["src/yapcad/manufacturing/rings.py:compute_ring_cuts_avoiding_holes"]}
{"id": "C208", "title": "Ring pieces are not longer than the maximal length", "statement": "Without target_segments no piece between two neighbouring cuts (or a cut and the seam) is longer than max_segment_length; if the even cuts keep their distance from the holes they are returned.", "quantifier": "every circumference, limit and list of holes", "why_tests_cant": "cuts are moved away from holes by amounts that depend on all the holes", "anchors": ["src/yapcad/manufacturing/rings.py:compute_ring_cuts_avoiding_holes"]}
{"id": "C209", "title": "A ring's spine is a closed regular polygon in the tilted plane", "statement": "create_ring_spine returns num_segments lines, each starting where the one before ends and the last ending at the first's start; all corners are at distance |radius| from the center and in the plane through it perpendicular to the tilted z axis; all lines have length 2|radius|sin(pi/n), so that the total is at most the circumference and the results on evenly divided spines (C200, C203) apply; num_segments = 0 raises ZeroDivisionError.", "quantifier": "every radius, center, tilt angle, axis name and number of segments", "why_tests_cant": "trigonometric identities for every n and tilt", "anchors": ["src/yapcad/manufacturing/rings.py:create_ring_spine", "src/yapcad/manufacturing/rings.py:_rotate_path3d", "src/yapcad/manufacturing/rings.py:_translate_path3d"]}
{"id": "C210", "title": "Attachment points lie on the ring and point to its center", "statement": "compute_arc_attachment_point returns a point at distance |radius| from the center in the ring's plane and a unit vector such that point + radius * vector is the center; at 360 i/n degrees the point is the start of segment i of create_ring_spine with n segments and the same tilt and center.", "quantifier": "every radius, angle, center, tilt and axis", "why_tests_cant": "two separately written rotations have to agree for all angles and axes", "anchors": ["src/yapcad/manufacturing/rings.py:compute_arc_attachment_point", "src/yapcad/manufacturing/rings.py:_rotate_point_and_direction", "src/yapcad/manufacturing/rings.py:create_ring_spine"]}
{"id": "C211", "title": "A ring profile is a rectangle with a smaller rectangular hole", "statement": "create_ring_profile returns the outer rectangle, counterclockwise, and inside it the rectangle smaller by the wall thickness on all sides, clockwise; a wall that leaves no inside or is negative is refused.", "quantifier": "every width, height and wall thickness", "why_tests_cant": "quantifies over all real dimensions including those that leave no hole", "anchors": ["src/yapcad/manufacturing/rings.py:create_ring_profile"]}
{"id": "C212", "title": "The hole for a connector fits it", "statement": "create_female_hole_solid sweeps a rectangle larger than the connector of the same beam by fit_clearance in both dimensions (and smaller than the beam's inside by the same amount) from the position for exactly hole_depth along the direction, whatever the direction's length; beams too small for the connector raise ValueError; a zero direction gives a hole without depth.", "quantifier": "every position, direction, dimensions, depth and clearance", "why_tests_cant": "relates two functions for all dimensions", "anchors": ["src/yapcad/manufacturing/rings.py:create_female_hole_solid", "src/yapcad/manufacturing/connectors.py:compute_connector_profile_dimensions"]}
{"id": "C213", "title": "The validation verdict is that of the error constraints", "statement": "validate_assembly reports is_valid exactly if no constraint of severity 'error' fails; every constraint counts once (total; passed = those satisfied; failed and warned = those not satisfied of severity 'error' and 'warning', listed by name in order); validate_and_raise raises ValueError exactly if the report is not valid; a report is made exactly if no single evaluation raises.", "quantifier": "every list of constraints of any kinds, names and severities", "why_tests_cant": "ranges over all lists and severities (an unknown severity counts as information)", "anchors": ["src/yapcad/assembly/kinematic_integration.py:AssemblyValidator.validate", "src/yapcad/assembly/kinematic_integration.py:AssemblyValidator.validate_and_raise", "src/yapcad/assembly/kinematic_integration.py:validate_assembly"]}
{"id": "C214", "title": "The report has the result of every constraint", "statement": "For every constraint of the list the report's results contain its result.", "quantifier": "every list of constraints", "why_tests_cant": "the results are keyed by name, and names need not differ", "anchors": ["src/yapcad/assembly/kinematic_integration.py:AssemblyValidator.validate"]}
{"id": "C215", "title": "Evaluating a constraint gives a result, never an exception", "statement": "Whatever frames, faces, axes, boxes, files and references are missing or wrong, evaluate returns a result (unsatisfied if it cannot be evaluated), so that one bad constraint does not stop the report on the others; a frame that is not among the transforms gives an unsatisfied result.", "quantifier": "every constraint and every assembly", "why_tests_cant": "dozens of optional fields in all combinations", "anchors": ["src/yapcad/assembly/kinematic_integration.py:KinematicConstraint.evaluate", "src/yapcad/assembly/kinematic_integration.py:AssemblyValidator.validate"]}
{"id": "C216", "title": "COINCIDENT and AT_DISTANCE measure the distance of the places", "statement": "COINCIDENT is satisfied exactly if the two places (origins, named faces or frames; or the reference point without a second part) are at most tolerance_mm apart and its error is their distance; AT_DISTANCE the same for the difference between the distance and reference_radius.", "quantifier": "all transforms, boxes, faces and tolerances", "why_tests_cant": "real-valued inputs", "anchors": ["src/yapcad/assembly/kinematic_integration.py:KinematicConstraint._evaluate_coincident", "src/yapcad/assembly/kinematic_integration.py:KinematicConstraint._evaluate_at_distance"]}
{"id": "C217", "title": "Named faces are where they should be", "statement": "A face name TOP, BOTTOM, FRONT, BACK, LEFT or RIGHT of a part with bounds is the middle of that side of its box, moved with the part; any other name is the origin of the frame of that name of the part (or of the assembly); a name that is neither makes the constraint fail.", "quantifier": "all parts, boxes, transforms and names", "why_tests_cant": "a chain of fallbacks over all names and frames", "anchors": ["src/yapcad/assembly/kinematic_integration.py:KinematicConstraint._get_face_position", "src/yapcad/assembly/kinematic_integration.py:KinematicConstraint._get_standard_face_offset"]}
{"id": "C218", "title": "PARALLEL measures the angle between two lines", "statement": "For rigidly placed parts the error is the angle between the lines of the two axes (or of the axis and a reference axis), from 0 to 90 degrees whichever way they point, and the constraint is satisfied exactly if it is at most tolerance_deg; a reference axis of zero is refused.", "quantifier": "all rigid transforms, axes by name or vector, tolerances", "why_tests_cant": "real-valued; relies on acos of a clamped product", "anchors": ["src/yapcad/assembly/kinematic_integration.py:KinematicConstraint._evaluate_parallel", "src/yapcad/assembly/kinematic_integration.py:KinematicConstraint._get_local_axis"]}
{"id": "C219", "title": "PERPENDICULAR measures the deviation from 90 degrees", "statement": "For rigidly placed parts the error is the absolute difference between 90 degrees and the angle between the two axes (or to the reference axis), and the constraint is satisfied exactly if it is at most tolerance_deg; a reference axis of zero is 90 degrees off.", "quantifier": "all rigid transforms, axes and tolerances", "why_tests_cant": "real-valued", "anchors": ["src/yapcad/assembly/kinematic_integration.py:KinematicConstraint._evaluate_perpendicular"]}
{"id": "C220", "title": "Constraints between two parts do not depend on where the assembly stands", "statement": "Moving the whole assembly (all frames) by one rigid motion changes neither verdict nor error of COINCIDENT, AT_DISTANCE, CONCENTRIC, PARALLEL, PERPENDICULAR, BOLT_PATTERN, and MIN_DISTANCE without boxes.", "quantifier": "all rigid motions and all assemblies", "why_tests_cant": "quantifies over all motions", "anchors": ["src/yapcad/assembly/kinematic_integration.py:KinematicConstraint.evaluate"]}
{"id": "C221", "title": "CONCENTRIC means that two axes lie on one line", "statement": "CONCENTRIC is satisfied exactly if the angle between the axes is at most tolerance_deg and the axes are at most tolerance_mm apart, whichever part is named first.", "quantifier": "all rigid transforms, axes and tolerances", "why_tests_cant": "real-valued; symmetric in the two parts", "anchors": ["src/yapcad/assembly/kinematic_integration.py:KinematicConstraint._evaluate_concentric"]}
{"id": "C222", "title": "TANGENT measures the angle to the radius in the horizontal plane", "statement": "With a reference center, the error is the deviation from 90 degrees of the angle between the horizontal parts of the part's axis and of the direction from the center to the part, and is 0 exactly if these are perpendicular; a part above the center fails; a vertical axis passes; the radius does not matter.", "quantifier": "all rigid transforms, axes, centers and tolerances", "why_tests_cant": "real-valued, with degenerate cases", "anchors": ["src/yapcad/assembly/kinematic_integration.py:KinematicConstraint._evaluate_tangent"]}
{"id": "C223", "title": "BOLT_PATTERN means that the bolt holes line up", "statement": "BOLT_PATTERN is satisfied only if every hole of the pattern on the one part is within tolerance of a hole of the pattern on the other.", "quantifier": "all transforms, hole counts, radii, offsets and tolerances", "why_tests_cant": "quantifies over all rotations about the pattern's axis", "anchors": ["src/yapcad/assembly/kinematic_integration.py:KinematicConstraint._evaluate_bolt_pattern"]}
{"id": "C224", "title": "MIN_DISTANCE means that the parts are that far apart", "statement": "With boxes, MIN_DISTANCE is satisfied exactly if all points of the one placed box are at least reference_radius from all points of the other; without boxes (and faces) exactly if the origins are.", "quantifier": "all transforms, boxes and distances", "why_tests_cant": "quantifies over all pairs of points of two boxes in all positions", "anchors": ["src/yapcad/assembly/kinematic_integration.py:KinematicConstraint._evaluate_min_distance", "src/yapcad/assembly/kinematic_integration.py:KinematicConstraint._calculate_bbox_separation"]}
{"id": "C225", "title": "Z_STACK_CLEARANCE means that one part is above the other", "statement": "Z_STACK_CLEARANCE is satisfied exactly if every point of one of the placed boxes is at least the clearance above every point of the other.", "quantifier": "all rigid transforms, boxes and clearances", "why_tests_cant": "quantifies over all orientations", "anchors": ["src/yapcad/assembly/kinematic_integration.py:KinematicConstraint._evaluate_z_stack_clearance"]}
{"id": "C226", "title": "NO_OVERLAP with boxes means that the parts do not meet", "statement": "If satisfied, the two placed boxes have no common point; it is satisfied exactly if they are separated along an axis of the world, which for parts that are not turned is the same; if not, the error is the least length of a move along an axis after which they are; a constraint that has nothing to check is not satisfied.", "quantifier": "all transforms and boxes", "why_tests_cant": "quantifies over all points and all moves", "anchors": ["src/yapcad/assembly/kinematic_integration.py:KinematicConstraint._evaluate_no_overlap"]}
{"id": "C227", "title": "The transformed box is the least box around the part", "statement": "The box used for a part in the world contains every transformed point of its local box, and each of its six sides touches one of them.", "quantifier": "all (also non-rigid) transforms and boxes", "why_tests_cant": "quantifies over all points of the box", "anchors": ["src/yapcad/assembly/kinematic_integration.py:KinematicConstraint._transform_aabb"]}
{"id": "C228", "title": "The ray test is right", "statement": "The ray-triangle test is positive exactly if the ray meets the triangle (sides included) beyond 1e-10 and is not nearly parallel to it.", "quantifier": "all rays and triangles", "why_tests_cant": "real-valued, with degenerate triangles", "anchors": ["src/yapcad/assembly/kinematic_integration.py:_ray_triangle_intersect"]}
{"id": "C229", "title": "A point in a closed mesh counts as inside", "statement": "For a closed mesh a point counts as inside exactly if it is enclosed by it.", "quantifier": "all closed meshes and points", "why_tests_cant": "a ray may pass through edges shared by two triangles; large meshes are sampled at random", "anchors": ["src/yapcad/assembly/kinematic_integration.py:_points_inside_mesh_simple"]}
{"id": "C230", "title": "The mesh check finds collisions", "statement": "check_mesh_collision says no collision for meshes separated along an axis; never says 'no collision' because a file did not load; gives the same verdict for the parts exchanged; a collision reported without the collision library has a point inside both or a corner of one in the other; meshes with a common inner point are reported.", "quantifier": "all meshes, transforms and answers of the collision library", "why_tests_cant": "quantifies over all shapes", "anchors": ["src/yapcad/assembly/kinematic_integration.py:check_mesh_collision", "src/yapcad/assembly/kinematic_integration.py:_check_collision_sampling", "src/yapcad/assembly/kinematic_integration.py:_aabb_intersects"]}
{"id": "C231", "title": "Load cases survive serialisation", "statement": "LoadCase.from_dict(lc.to_dict()) is equal to lc for every load case that could be constructed.", "quantifier": "every load case with any combination of optional fields", "why_tests_cant": "all combinations of optional fields", "anchors": ["src/yapcad/assembly/load_case.py:LoadCase.to_dict", "src/yapcad/assembly/load_case.py:LoadCase.from_dict", "src/yapcad/assembly/load_case.py:LoadAttach.to_dict"]}
{"id": "C232", "title": "A load case that is read is well formed", "statement": "Whatever dictionary from_dict is given, if it returns a load case then its group, frame and status are known ones, it has a magnitude (N or g), its direction has three components and is a direction (not zero), and its identity, name, group and part are those of the dictionary.", "quantifier": "every dictionary", "why_tests_cant": "ranges over arbitrary input dictionaries", "anchors": ["src/yapcad/assembly/load_case.py:LoadCase.from_dict", "src/yapcad/assembly/load_case.py:LoadCase.__post_init__"]}
{"id": "C233", "title": "Bolt patterns survive serialisation", "statement": "A bolt pattern that could be constructed is the same after to_dict and from_dict; one that is read has a positive circle diameter, at least one bolt and an access direction of three components.", "quantifier": "every bolt pattern and every dictionary", "why_tests_cant": "ranges over all numbers", "anchors": ["src/yapcad/assembly/load_case.py:BoltPattern.to_dict", "src/yapcad/assembly/load_case.py:BoltPattern.from_dict", "src/yapcad/assembly/load_case.py:BoltPattern.__post_init__"]}
{"id": "C234", "title": "Kinematic frames survive serialisation", "statement": "A frame that is written and read again is the same frame: name, datum, description and transform, and it goes on following its datum.", "quantifier": "every frame and every state of the datum library before and after", "why_tests_cant": "the datum can change at any time after reading", "anchors": ["src/yapcad/kinematics/frame.py:CoordinateFrame.to_dict", "src/yapcad/kinematics/frame.py:CoordinateFrame.from_dict", "src/yapcad/kinematics/frame.py:CoordinateFrame.get_transform"]}
{"id": "C235", "title": "Kinematic parts survive serialisation", "statement": "A kinematic part that is written and read again is the same part: parent, joint with axis, value, limits and base transform, frames in order, geometry file, material and color.", "quantifier": "every part with any number of frames", "why_tests_cant": "any number of frames of either kind", "anchors": ["src/yapcad/kinematics/part.py:KinematicPart.to_dict", "src/yapcad/kinematics/part.py:KinematicPart.from_dict", "src/yapcad/kinematics/joint.py:Joint.to_dict", "src/yapcad/kinematics/joint.py:Joint.from_dict"]}
{"id": "C236", "title": "Collision results survive serialisation", "statement": "A collision result is the same after to_dict and from_dict; a method that is not known is read as UNKNOWN.", "quantifier": "every result with any contacts, interfaces and metadata", "why_tests_cant": "any lists", "anchors": ["src/yapcad/collision/result.py:CollisionResult.to_dict", "src/yapcad/collision/result.py:CollisionResult.from_dict"]}
{"id": "C237", "title": "Provenance records and source signatures", "statement": "A provenance record is the same after to_dict and from_dict. Two sources have the same signature exactly if they are equal up to line ends and white space at both ends (the hash having no collisions), and verify_source_signature accepts the record created from a source with exactly the sources that have its signature.", "quantifier": "every record, every pair of source texts", "why_tests_cant": "ranges over all texts", "anchors": ["src/yapcad/dsl/runtime/provenance.py:Provenance.to_dict", "src/yapcad/dsl/runtime/provenance.py:Provenance.from_dict", "src/yapcad/dsl/runtime/provenance.py:compute_source_signature", "src/yapcad/dsl/runtime/provenance.py:create_provenance", "src/yapcad/dsl/runtime/provenance.py:verify_source_signature"]}
{"id": "C238", "title": "The viewer's configuration survives serialisation and finds its colors", "statement": "ViewerConfig.from_dict(c.to_dict()) uses the same files, directories, palette and default color and is written as the same dictionary; get_color finds every color of the palette whatever the case of the name.", "quantifier": "every configuration and every name", "why_tests_cant": "ranges over all palettes and names", "anchors": ["src/yapcad/viewer/config.py:ViewerConfig.to_dict", "src/yapcad/viewer/config.py:ViewerConfig.from_dict", "src/yapcad/viewer/config.py:ViewerConfig.get_color", "src/yapcad/viewer/config.py:ViewerConfig.screenshot_path"]}
{"id": "C239", "title": "Different geometry files have different metadata sidecars", "statement": "sidecar_path_for gives two files of one directory the same sidecar only if they differ in nothing but the extension.", "quantifier": "every pair of file names", "why_tests_cant": "ranges over all names", "anchors": ["src/yapcad/io/meta_yaml.py:sidecar_path_for"]}
{"id": "C240", "title": "The metadata sidecar is complete", "statement": "The dictionary that dump_metadata_yaml writes has every entry of the part's metadata with its value and the provenance under _provenance, and nothing else, whatever keys the metadata has.", "quantifier": "every metadata dictionary and every key", "why_tests_cant": "ranges over all dictionaries, including those with the keys that are put first", "anchors": ["src/yapcad/io/meta_yaml.py:dump_metadata_yaml"]}
{"id": "C241", "title": "Analytic surfaces are the sets their names say", "statement": "The points of a plane, sphere, cylinder, cone or torus surface over all parameters are exactly the points of the plane through the origin perpendicular to the normal, the points at the radius from the centre, from the axis, at the half angle from the apex (double cone), or at the minor radius from the circle of the major radius.", "quantifier": "every accepted origin, direction (of any length), radius and angle, and every parameter pair", "why_tests_cant": "an equality of infinite sets of points, for all real arguments", "anchors": ["src/yapcad/analytic_surfaces.py:plane_surface", "src/yapcad/analytic_surfaces.py:sphere_surface", "src/yapcad/analytic_surfaces.py:cylinder_surface", "src/yapcad/analytic_surfaces.py:cone_surface", "src/yapcad/analytic_surfaces.py:torus_surface", "src/yapcad/analytic_surfaces.py:evaluate_surface"]}
{"id": "C242", "title": "Normals of analytic surfaces", "statement": "The normal of an analytic surface at any parameters has length 1, is perpendicular to the surface there (to both derivatives), and points outward.", "quantifier": "every surface and every parameter pair", "why_tests_cant": "a statement on derivatives at every point", "anchors": ["src/yapcad/analytic_surfaces.py:surface_normal", "src/yapcad/analytic_surfaces.py:plane_surface_normal", "src/yapcad/analytic_surfaces.py:sphere_surface_normal", "src/yapcad/analytic_surfaces.py:cylinder_surface_normal", "src/yapcad/analytic_surfaces.py:cone_surface_normal", "src/yapcad/analytic_surfaces.py:torus_surface_normal"]}
{"id": "C243", "title": "Meshes of analytic surfaces", "statement": "tessellate_surface with m and n divisions returns (m+1)(n+1) vertices that are the points of the surface on the even grid of parameters from end to end (with their normals), triangles that only use these vertices and traverse every inner edge once in each direction, and a boundary that is a closed walk over exactly the edges that only one triangle uses.", "quantifier": "every surface and all numbers of divisions", "why_tests_cant": "grids of every size", "anchors": ["src/yapcad/analytic_surfaces.py:tessellate_surface"]}
{"id": "C244", "title": "B-spline surfaces stay within their control points", "statement": "The point of a B-spline surface at any parameters of its range lies in the convex hull of the control points, and at the corners of a clamped surface it is the corner control point.", "quantifier": "every grid of control points, knots, weights and degrees, and every parameter pair of the range", "why_tests_cant": "all sizes of grids and degrees, all reals", "anchors": ["src/yapcad/analytic_surfaces.py:bspline_surface", "src/yapcad/analytic_surfaces.py:evaluate_bspline_surface", "src/yapcad/analytic_surfaces.py:_bspline_basis"]}
{"id": "C245", "title": "Closure of a shell", "statement": "compute_shell_closure reports as boundary edges exactly the edges the faces of the shell run over once and as non-manifold edges exactly those run over more than twice, reports the shell closed exactly if it encloses a volume (every edge run over twice, in opposite directions, and there is at least one face), and gives V - E + F.", "quantifier": "every topology graph and every shell in it", "why_tests_cant": "graphs of every size and shape", "anchors": ["src/yapcad/native_brep.py:compute_shell_closure", "src/yapcad/native_brep.py:TopologyGraph"]}
{"id": "C246", "title": "Adding shells", "statement": "add_shell with validation accepts a shell that says it is closed exactly if it is, marks one that does not say as what it is, changes nothing else in the graph but the shell of its faces, and leaves the graph unchanged when it refuses.", "quantifier": "every graph and every shell, added at any time in a history", "why_tests_cant": "every history of additions", "anchors": ["src/yapcad/native_brep.py:TopologyGraph.add_shell", "src/yapcad/native_brep.py:validate_shell_closure"]}
{"id": "C247", "title": "Incidence in topology graphs", "statement": "After any history of additions, vertex_edges returns exactly the edges of the graph that end at the vertex, edge_faces exactly the faces whose boundary runs over the edge, and face_edges exactly the edges of the boundary, each once.", "quantifier": "every history of additions of vertices, edges, trims, loops, faces, shells and solids", "why_tests_cant": "every history", "anchors": ["src/yapcad/native_brep.py:TopologyGraph.add_edge", "src/yapcad/native_brep.py:TopologyGraph.add_face", "src/yapcad/native_brep.py:TopologyGraph.vertex_edges", "src/yapcad/native_brep.py:TopologyGraph.edge_faces", "src/yapcad/native_brep.py:TopologyGraph.face_edges"]}
{"id": "C248", "title": "Validation of solids", "statement": "add_solid with validation and validate_solid accept a solid exactly if it has an outer shell, all its shells are in the graph, not marked open, and closed, no two of them intersect, and the voids lie within the outer shell but not within each other.", "quantifier": "every graph, every solid, every answer of the geometric tests", "why_tests_cant": "every number of shells; every graph", "anchors": ["src/yapcad/native_brep.py:TopologyGraph.validate_solid", "src/yapcad/native_brep.py:TopologyGraph.add_solid"]}
{"id": "C249", "title": "Writing and reading topology graphs", "statement": "deserialize_topology_graph(serialize_topology_graph(g)) is the graph g: the same vertices, edges, trims, loops, faces, shells, solids, and the same incidence.", "quantifier": "every graph whose curves and surfaces come from the constructors", "why_tests_cant": "graphs of every size, all curves and surfaces", "anchors": ["src/yapcad/native_brep.py:serialize_topology_graph", "src/yapcad/native_brep.py:deserialize_topology_graph", "src/yapcad/native_brep.py:_serialize_surface", "src/yapcad/native_brep.py:_deserialize_surface"]}
{"id": "C250", "title": "Transformation keeps the topology", "statement": "transform_topology_graph changes locations, curves and surfaces only: closure of shells, incidence, trims, loops, shells and solids stay as they are, whatever the function of points.", "quantifier": "every graph and every function of points", "why_tests_cant": "every graph and function", "anchors": ["src/yapcad/native_brep.py:transform_topology_graph"]}
{"id": "C251", "title": "Translated surfaces", "statement": "translate_native_brep moves plane, sphere, cylinder, cone and torus surfaces: for all parameters the point of the new surface is the translated point of the old one.", "quantifier": "every surface from the constructors, every displacement, all parameters", "why_tests_cant": "all reals", "anchors": ["src/yapcad/native_brep.py:translate_native_brep", "src/yapcad/native_brep.py:_transform_surface_inplace", "src/yapcad/native_brep.py:_transform_vector"]}
{"id": "C252", "title": "Rotated and mirrored surfaces", "statement": "rotate_native_brep and mirror_native_brep move surfaces: the face of the new solid, as it is read back, is the image of the old one's.", "quantifier": "every surface from the constructors and every isometry", "why_tests_cant": "all reals", "anchors": ["src/yapcad/native_brep.py:rotate_native_brep", "src/yapcad/native_brep.py:mirror_native_brep", "src/yapcad/native_brep.py:_transform_surface_inplace"]}
{"id": "C253", "title": "Scaled surfaces and curves", "statement": "scale_native_brep scales every surface and curve about the centre.", "quantifier": "every surface from the constructors, every factor and centre", "why_tests_cant": "all reals", "anchors": ["src/yapcad/native_brep.py:scale_native_brep"]}
{"id": "C254", "title": "Cached values of Geometry objects", "statement": "Whatever is asked of a Geometry object, in any order and between any transformations, its length, center, bbox and geom are those of its figure at the time.", "quantifier": "every figure, every history of transformations (also such that raise) and queries", "why_tests_cant": "every history; caches go wrong only in particular orders of calls", "anchors": ["src/yapcad/geometry.py:Geometry._updateInternals", "src/yapcad/geometry.py:Geometry.bbox", "src/yapcad/geometry.py:Geometry.elem", "src/yapcad/geometry.py:Geometry.translate"]}
{"id": "C255", "title": "Surfaces of Geometry objects", "statement": "surface(minang, minlen) of a closed Geometry object is the surface of its figure at the time, at the resolution asked for.", "quantifier": "every figure, every history of calls, every resolution", "why_tests_cant": "every history", "anchors": ["src/yapcad/geometry.py:Geometry.surface", "src/yapcad/geometry.py:Geometry._clearSurfaceCache"]}
{"id": "C256", "title": "Cached values of Boolean objects", "statement": "Whatever is asked of a Boolean object, in any order and between any transformations, its geom, length, center and bbox are those of the combination of its operands at the time, and a transformation applies to all operands or none.", "quantifier": "every list of operands, every history of transformations and queries", "why_tests_cant": "every history", "anchors": ["src/yapcad/combine.py:Boolean.geom", "src/yapcad/combine.py:Boolean.translate", "src/yapcad/geometry.py:Geometry._updateInternals"]}
{"id": "C257", "title": "Mirrored Geometry objects keep the sign of their area", "statement": "mirror(plane) with keepSign (the default) mirrors any figure and keeps the sign of its area.", "quantifier": "every figure and plane", "why_tests_cant": "polygons with any number of points", "anchors": ["src/yapcad/geometry.py:Geometry.mirror", "src/yapcad/geom.py:reverseGeomList"]}
{"id": "C258", "title": "Outlines of polygons", "statement": "geom of a Polygon is the closed chain of its elements joined by lines, and its length is the length of the chain.", "quantifier": "every list of elements", "why_tests_cant": "any number of elements at any places", "anchors": ["src/yapcad/poly.py:Polygon._makeoutline", "src/yapcad/poly.py:Polygon.addPoint", "src/yapcad/poly.py:Polygon.addLine", "src/yapcad/poly.py:cullZeroLength"]}
{"id": "C259", "title": "Polygons from figures", "statement": "The Polygon made from a closed figure of points, lines and polylines has this figure as its geom.", "quantifier": "every closed figure", "why_tests_cant": "figures of every size", "anchors": ["src/yapcad/poly.py:Polygon.__init__"]}
{"id": "C260", "title": "Samples of polygons", "statement": "sample(u) of a Polygon is the point reached along its outline from its start at the fractional part of u times its length.", "quantifier": "every polygon and every u", "why_tests_cant": "all reals, any number of points", "anchors": ["src/yapcad/poly.py:Polygon.sample"]}
{"id": "C261", "title": "Rectangles", "statement": "Rect(width, height, center) is the closed counterclockwise outline of the rectangle with these sides about the centre.", "quantifier": "all positive sides and all centres", "why_tests_cant": "all reals", "anchors": ["src/yapcad/poly.py:Rect"]}
{"id": "C262", "title": "Pieces of a polygon cut by planes", "statement": "Cutting a polygon by planes gives at most one inside piece; it is part of the polygon and on the inner side of every plane up to one and a half tolerances; every outside piece is part of the polygon and beyond one of the planes. Clipping against one plane keeps only points of the polygon's sides on the inner side, and loses no corner on the inner side.", "quantifier": "every polygon, list of planes and tolerance", "why_tests_cant": "all reals, any number of corners and planes", "anchors": ["src/yapcad/boolean/native.py:_split_polygon_by_planes", "src/yapcad/boolean/native.py:_split_polygon_by_plane", "src/yapcad/boolean/native.py:_clip_polygon_against_plane", "src/yapcad/boolean/native.py:_segment_plane_intersection"]}
{"id": "C263", "title": "Cutting conserves area", "statement": "The areas of the pieces of a convex planar polygon cut by any planes add up to its area, and the inside pieces are convex.", "quantifier": "every convex planar polygon and list of planes", "why_tests_cant": "all polygons and planes", "anchors": ["src/yapcad/boolean/native.py:_split_polygon_by_planes"]}
{"id": "C264", "title": "Fan triangulation of pieces", "statement": "The triangulation of a polygon has two triangles less than corners, made of corners in order, all facing the reference normal.", "quantifier": "every polygon and normal", "why_tests_cant": "any number of corners", "anchors": ["src/yapcad/boolean/native.py:_triangulate_polygon"]}
{"id": "C265", "title": "Merging close points", "statement": "_unique_points and _dedupe_polygon keep some of the points in their order, far enough apart, and each given point has a kept one close to it.", "quantifier": "every list of points and tolerance", "why_tests_cant": "any number of points", "anchors": ["src/yapcad/boolean/native.py:_unique_points", "src/yapcad/boolean/native.py:_dedupe_polygon"]}
{"id": "C266", "title": "Cutting a triangle by the faces of a solid", "statement": "A triangle within a solid is cut by the planes of the solid's faces into nothing but itself: no part of it counts as outside.", "quantifier": "every solid and every triangle in it", "why_tests_cant": "all solids", "anchors": ["src/yapcad/boolean/native.py:_split_polygon_by_planes", "src/yapcad/boolean/native.py:_clip_triangle_against_solid"]}
{"id": "C267", "title": "Points in solids", "statement": "solid_contains_point is True for the points of the solid and False for points farther than the tolerance outside.", "quantifier": "every solid and every point", "why_tests_cant": "all points; the failures are on thin sets", "anchors": ["src/yapcad/boolean/native.py:solid_contains_point", "src/yapcad/boolean/native.py:_ray_triangle_intersection"]}
{"id": "C268", "title": "Points beyond the bounding box", "statement": "A point farther than the tolerance outside of the bounding box of a solid is never reported as contained.", "quantifier": "every solid, point and tolerance", "why_tests_cant": "all points", "anchors": ["src/yapcad/boolean/native.py:solid_contains_point"]}
{"id": "C269", "title": "Order of surfaces does not matter to containment", "statement": "The answer of solid_contains_point depends neither on the order of the surfaces nor on the order in which the octrees return triangles.", "quantifier": "every solid without degenerate triangles, every point, every order", "why_tests_cant": "all permutations", "anchors": ["src/yapcad/boolean/native.py:solid_contains_point", "src/yapcad/boolean/native.py:_group_hits"]}
{"id": "C270", "title": "Containment always has an answer", "statement": "solid_contains_point returns a truth value for every solid and point.", "quantifier": "every solid and point", "why_tests_cant": "all solids", "anchors": ["src/yapcad/boolean/native.py:solid_contains_point", "src/yapcad/boolean/native.py:_group_hits"]}
{"id": "C271", "title": "Surfaces from triangles", "statement": "The surface a boolean operation makes of its triangles has exactly those not smaller than epsilon, in order, with their unit normals, and passes surface_watertight if the triangles close.", "quantifier": "every list of triangles", "why_tests_cant": "any number of triangles", "anchors": ["src/yapcad/boolean/native.py:_surface_from_triangles", "src/yapcad/geometry_checks.py:surface_watertight"]}
{"id": "C272", "title": "Which triangles a boolean operation keeps", "statement": "An intersection consists of the inside parts of both operands and a difference of the outside parts of the first and the reversed inside parts of the second; intersection and union do not depend on the order of the operands except for the order of the triangles.", "quantifier": "every pair of operands, every clipping function", "why_tests_cant": "all operands", "anchors": ["src/yapcad/boolean/native.py:solid_boolean", "src/yapcad/boolean/native.py:_boolean_fragments"]}
{"id": "C273", "title": "Stitching lines and arcs into loops", "statement": "Stitching a geometry list ends for every list; every line and arc is in exactly one of the sequences, exactly once, as given or reversed, no sequence is empty, and in every sequence each piece begins where the one before ends (up to the tolerance).", "quantifier": "every list of lines and arcs, in any order and direction", "why_tests_cant": "all lists and orders", "anchors": ["src/yapcad/geom_util.py:_stitch_geomlist"]}
{"id": "C274", "title": "Closed outlines become closed loops", "statement": "If at every point an even number of lines and arcs ends, every stitched sequence ends where it begins.", "quantifier": "every list of lines and arcs with even ends", "why_tests_cant": "all graphs", "anchors": ["src/yapcad/geom_util.py:_stitch_geomlist"]}
{"id": "C275", "title": "Components contain every loop once", "statement": "geomlist2poly_components puts every loop with three points and an area above epsilon into exactly one component exactly once, outer loops counterclockwise, holes clockwise.", "quantifier": "every list of loops and every containment test", "why_tests_cant": "all lists of loops", "anchors": ["src/yapcad/geom_util.py:_assemble_components", "src/yapcad/geom_util.py:_orient_loop", "src/yapcad/geom_util.py:geomlist2poly_components"]}
{"id": "C276", "title": "Components follow the even-odd rule", "statement": "A point is in one of the components (in its outer loop, in none of its holes) exactly if it is in an odd number of loops, and in at most one component.", "quantifier": "every list of nested or disjoint loops and every point", "why_tests_cant": "all nestings of any depth", "anchors": ["src/yapcad/geom_util.py:_assemble_components", "src/yapcad/geom_util.py:geomlist2poly_with_holes"]}
{"id": "C277", "title": "Points in polygons by crossings", "statement": "_point_in_polygon_xy tells whether a ray from the point to the right crosses the sides of the polygon an odd number of times; points above and below the polygon are outside.", "quantifier": "every polygon and point", "why_tests_cant": "all reals", "anchors": ["src/yapcad/geom_util.py:_point_in_polygon_xy"]}
{"id": "C278", "title": "Polygons from geometry are closed", "statement": "The polygon made from a sequence of figures ends with its first point, consists of sampled points, no two following ones within epsilon, and every sampled point is near one of them.", "quantifier": "every list of points and figures and every tolerance", "why_tests_cant": "any number of points", "anchors": ["src/yapcad/geom_util.py:_finalize_poly_points", "src/yapcad/geom_util.py:_convert_geom_sequence"]}
{"id": "C279", "title": "Loops of lines survive", "statement": "The polygon made from a closed loop of lines longer than the tolerance has exactly the corners of the loop.", "quantifier": "every loop of lines", "why_tests_cant": "any number of lines", "anchors": ["src/yapcad/geom_util.py:_convert_geom_sequence", "src/yapcad/geom_util.py:_finalize_poly_points"]}
{"id": "C280", "title": "Arcs and circles become polygons on them", "statement": "polarSampleArc at an angle within the arc agrees with sample; a circle becomes the regular polygon with the angular step asked for, with its corners on the circle.", "quantifier": "every arc, angle, radius, step and tolerance", "why_tests_cant": "all reals", "anchors": ["src/yapcad/geom_util.py:polarSampleArc", "src/yapcad/geom_util.py:_convert_geom_sequence", "src/yapcad/geom_util.py:geomlist2poly"]}
{"id": "C281", "title": "Linear patterns", "statement": "linear_pattern gives count copies; copy number i has the length of the figure and its points moved by i times the spacing; each copy is the one before moved by the spacing.", "quantifier": "every figure, count and spacing", "why_tests_cant": "any number of copies, all reals", "anchors": ["src/yapcad/geom_util.py:linear_pattern"]}
{"id": "C282", "title": "Radial patterns", "statement": "radial_pattern gives count copies of equal length, spread evenly: over a full circle number i is turned by i/count of it and a turn by one step takes each copy to the next and the last to the first; over a part of it the first is in place and the last turned by the whole angle. No copy lies on another.", "quantifier": "every figure, count, centre and angle", "why_tests_cant": "any number of copies, all reals", "anchors": ["src/yapcad/geom_util.py:radial_pattern"]}
{"id": "C283", "title": "Random points and arcs are in the box", "statement": "randomPoints, randomCenterInBox and randomArc stay in the bounding box given, whatever the random numbers are, with radii in the range.", "quantifier": "every box, radius range and sequence of random numbers", "why_tests_cant": "all sequences of random numbers", "anchors": ["src/yapcad/geom_util.py:randomPoints", "src/yapcad/geom_util.py:randomCenterInBox", "src/yapcad/geom_util.py:randomArc"]}
{"id": "C284", "title": "Random polygons are simple", "statement": "randomPoly gives a closed simple polygon inside the box with corners at distances from a centre in the range, going around it counterclockwise.", "quantifier": "every box, number of corners, radius range and sequence of random numbers", "why_tests_cant": "all sequences of random numbers", "anchors": ["src/yapcad/geom_util.py:randomPoly"]}
{"id": "C285", "title": "Spirals", "statement": "makeLineSpiral keeps samples of the spiral (distance from the centre proportional to the angle) farther apart than minlen, leaving none farther than that from a kept one; makeArcSpiral joins exactly these points by arcs, each beginning where the one before ends.", "quantifier": "every centre, radius, step and number of turns", "why_tests_cant": "any number of samples, all reals", "anchors": ["src/yapcad/geom_util.py:makeLineSpiral", "src/yapcad/geom_util.py:makeArcSpiral"]}
{"id": "C286", "title": "The metadata transform only normalises values, once", "statement": "MetadataTransform.transform keeps the functions of a module and the keys of every @meta hint, in their order; running it again changes no value and reports the same diagnostics.", "quantifier": "every module and every hint dictionary", "why_tests_cant": "the hints and their values are arbitrary; idempotence is a statement about all of them", "anchors": ["src/yapcad/dsl/transforms/metadata.py:MetadataTransform.transform", "src/yapcad/dsl/transforms/metadata.py:_validate_operation_field", "src/yapcad/dsl/transforms/metadata.py:_cross_check"]}
{"id": "C287", "title": "The metadata transform reports an error exactly when a hint breaks the schema", "statement": "get_transform_diagnostics contains an error iff some function's hint has an entry outside the schema (wrong enumeration value, no boolean, no number, no list of dictionaries, no string or list) or has some operation.* entry without operation.kind; the error names that function.", "quantifier": "every module and every hint dictionary", "why_tests_cant": "an equivalence over all hints; tests try some good and some bad ones", "anchors": ["src/yapcad/dsl/transforms/metadata.py:MetadataTransform.transform", "src/yapcad/dsl/transforms/metadata.py:_validate_operation_field", "src/yapcad/dsl/transforms/metadata.py:_cross_check"]}
{"id": "C288", "title": "Hints accepted by the transform can be applied", "statement": "If the transform reports no error for a hint, apply_meta_hint applies the normalised hint without an exception.", "quantifier": "every hint dictionary and every initial metadata", "why_tests_cant": "two tables and two sets of rules in different files must agree on every value", "anchors": ["src/yapcad/dsl/transforms/metadata.py:MetadataTransform.transform", "src/yapcad/dsl/transforms/metadata.py:_validate_operation_field", "src/yapcad/dsl/transforms/metadata.py:_cross_check", "src/yapcad/dsl/meta_apply.py:apply_meta_hint", "src/yapcad/dsl/meta_apply.py:apply_meta_hint_to_raw", "src/yapcad/dsl/meta_apply.py:_apply_operation"]}
{"id": "C289", "title": "Applying a hint is idempotent and additive", "statement": "Applying a hint puts its entries into the metadata, leaves fields it does not mention as they were, and applying it a second time changes nothing.", "quantifier": "every hint and every initial metadata", "why_tests_cant": "a statement about all hints and all previous contents of the metadata", "anchors": ["src/yapcad/dsl/meta_apply.py:apply_meta_hint", "src/yapcad/dsl/meta_apply.py:apply_meta_hint_to_raw", "src/yapcad/dsl/meta_apply.py:_apply_operation"]}
{"id": "C290", "title": "Normalising a hint does not change what is applied", "statement": "apply_meta_hint has the same outcome, exception or final metadata, for a hint as written and for the hint after the metadata transform.", "quantifier": "every hint and every initial metadata", "why_tests_cant": "needs the coercions of both files to agree on every value", "anchors": ["src/yapcad/dsl/transforms/metadata.py:MetadataTransform.transform", "src/yapcad/dsl/transforms/metadata.py:_validate_operation_field", "src/yapcad/dsl/transforms/metadata.py:_cross_check", "src/yapcad/dsl/meta_apply.py:apply_meta_hint", "src/yapcad/dsl/meta_apply.py:apply_meta_hint_to_raw", "src/yapcad/dsl/meta_apply.py:_apply_operation"]}
{"id": "C291", "title": "A native check fails exactly if a criterion is violated", "statement": "The native adapter's status is \"failed\" iff the metric of some acceptance criterion was computed and is not what the criterion demands (comparison, limit, tolerance); otherwise \"passed\" or, without criteria and metrics, \"pending\"; the order of the criteria does not matter.", "quantifier": "all metrics and all acceptance sections with numeric limits", "why_tests_cant": "an equivalence over all criteria, metrics and orders", "anchors": ["src/yapcad/package/analysis/yapcad_native.py:YapCADNativeAdapter._evaluate_acceptance"]}
{"id": "C292", "title": "A native check that passed meets every criterion", "statement": "If the status is \"passed\", every criterion with a limit is met by its metric.", "quantifier": "all metrics and acceptance sections", "why_tests_cant": "quantifies over metrics that are missing or not numbers", "anchors": ["src/yapcad/package/analysis/yapcad_native.py:YapCADNativeAdapter._evaluate_acceptance"]}
{"id": "C293", "title": "The reported failed criteria and results agree with the status", "statement": "failed_criteria lists exactly the violated criteria, and the acceptance results say passed=False exactly for them.", "quantifier": "all metrics and acceptance sections", "why_tests_cant": "three separate evaluations of the same criteria must agree on every input", "anchors": ["src/yapcad/package/analysis/yapcad_native.py:YapCADNativeAdapter._evaluate_acceptance", "src/yapcad/package/analysis/yapcad_native.py:YapCADNativeAdapter._get_failed_criteria"]}
{"id": "C294", "title": "The solvers' adapters evaluate the criteria alike", "statement": "The CalculiX and FEniCS adapters report \"failed\" iff a criterion is violated and \"pending\" if a metric is missing and none is violated, whatever the order of the criteria.", "quantifier": "all metrics and acceptance sections", "why_tests_cant": "an equivalence over all criteria, metrics and orders, for two implementations", "anchors": ["src/yapcad/package/analysis/calculix.py:CalculixAdapter._evaluate_acceptance", "src/yapcad/package/analysis/fenics.py:FenicsxAdapter._evaluate_acceptance"]}
{"id": "C295", "title": "Schema validation accepts exactly the plans and results of the schema", "statement": "validate_plan (validate_result) returns a report without errors iff the dictionary has the required fields, a known kind (status), and sections of the prescribed shape; a field of a result that is not in the schema is reported as a warning.", "quantifier": "all dictionaries", "why_tests_cant": "an equivalence over all nested dictionaries", "anchors": ["src/yapcad/package/analysis/schema.py:validate_plan", "src/yapcad/package/analysis/schema.py:validate_result"]}
{"id": "C296", "title": "Schema validation never raises", "statement": "validate_plan and validate_result return a report for every dictionary.", "quantifier": "all dictionaries", "why_tests_cant": "arbitrary values may stand in every place", "anchors": ["src/yapcad/package/analysis/schema.py:validate_plan", "src/yapcad/package/analysis/schema.py:validate_result"]}
{"id": "C297", "title": "A valid plan can be loaded", "statement": "If validate_plan reports no error, load_plan on the same data succeeds and keeps the sections.", "quantifier": "all dictionaries", "why_tests_cant": "two descriptions of the same format in different files must agree on every dictionary", "anchors": ["src/yapcad/package/analysis/schema.py:validate_plan", "src/yapcad/package/analysis/schema.py:validate_result", "src/yapcad/package/analysis/base.py:load_plan"]}
{"id": "C298", "title": "Recording a run replaces the plan's result and nothing else", "statement": "analyze_package leaves one result entry for the plan with the fields of this run, and the other plans' entries as they were.", "quantifier": "all histories of runs and all results", "why_tests_cant": "a statement about every sequence of runs and every manifest", "anchors": ["src/yapcad/package/analysis/cli.py:analyze_package", "src/yapcad/package/analysis/base.py:AnalysisResult.to_manifest_entry"]}
{"id": "C299", "title": "STEP export: references are sound", "statement": "`write_step` writes a file for every object whose mesh has at least one triangle (and raises ValueError otherwise). In the file every reference `#n` is to an entity that was written earlier and is of the kind the referring entity needs (an EDGE_CURVE refers to two VERTEX_POINTs and a LINE, a shell to ADVANCED_FACEs, \u2026).", "quantifier": "all meshes (any number of triangles, any sharing of corners), all names", "why_tests_cant": "the numbers depend on how many entities each earlier triangle needed, that is on the whole sharing pattern of corners and sides", "anchors": ["src/yapcad/io/step.py:write_step", "src/yapcad/io/step.py:_EntityWriter"]}
{"id": "C300", "title": "STEP export: points and edges are shared", "statement": "The CARTESIAN_POINTs that carry vertices are exactly the corners of the triangles, each once; no two EDGE_CURVEs join the same two vertices, every EDGE_CURVE is a side of a triangle and every side of a triangle is one; the LINE of an edge starts at its start vertex and has the direction and length computed from its ends.", "quantifier": "all meshes", "why_tests_cant": "sharing is decided by two dictionaries filled in mesh order", "anchors": ["src/yapcad/io/step.py:write_step"]}
{"id": "C301", "title": "STEP export: one part for each connected piece", "statement": "A reader that follows the references from the file's SHAPE_DEFINITION_REPRESENTATION finds the product name given and one part for each set of triangles connected through common sides, named `name` if there is one and `name_1`, `name_2`, \u2026 if there are more.", "quantifier": "all meshes, all names", "why_tests_cant": "the pieces are found by a flood fill whose order depends on sets; connectedness is transitive closure over arbitrary meshes", "anchors": ["src/yapcad/io/step.py:write_step"]}
{"id": "C302", "title": "STEP export: the faces are the triangles", "statement": "The faces read back from the parts are exactly the triangles of the mesh, none lost or added, each with its three sides in the direction of the triangle, its plane through the first corner with the triangle's normal.", "quantifier": "all meshes", "why_tests_cant": "an oriented edge is chosen by comparing with whichever triangle created the edge first", "anchors": ["src/yapcad/io/step.py:write_step"]}
{"id": "C303", "title": "STEP export: solids are closed", "statement": "A part is written as a MANIFOLD_SOLID_BREP with a CLOSED_SHELL exactly if its triangles bound a solid: each side is used by exactly two triangles, once in each direction; otherwise as an OPEN_SHELL in a surface model.", "quantifier": "all meshes", "why_tests_cant": "needs all triangles of a piece at once", "anchors": ["src/yapcad/io/step.py:write_step"]}
{"id": "C304", "title": "STEP export: lines and planes are what the corners say", "statement": "Over the reals: the direction of an edge's line is a unit vector and the length leads from the start vertex to the end vertex; the reference direction of a face's plane is a unit vector perpendicular to the plane's normal whatever the normal; and if the normals of the mesh are perpendicular to the triangles, all corners of a face are in its plane.", "quantifier": "all meshes with real coordinates", "why_tests_cant": "case distinctions on the normal and on zero lengths", "anchors": ["src/yapcad/io/step.py:_normalize", "src/yapcad/io/step.py:_perpendicular", "src/yapcad/io/step.py:_distance"]}
{"id": "C305", "title": "Thread profile: samples run from end to end", "statement": "`sample_thread_profile` returns samples exactly if `x_end > x_start` and the pitch is positive; the samples are in order along the axis, all in [x_start, x_end], the first at x_start and the last at x_end, for every angle from 0 to 360 and either handedness.", "quantifier": "all profiles, ranges, angles and numbers of samples, over the reals", "why_tests_cant": "continuous parameters; the sampled set depends on floor and ceiling of quotients", "anchors": ["src/yapcad/threadgen.py:sample_thread_profile"]}
{"id": "C306", "title": "Thread profile: profiles at different angles match", "statement": "At all angles of a thread the number of samples and the wrap are the same, and samples with the same index are the same point of the profile moved along the axis by the lead times the part of a turn (so that joining them gives a helix): away from the ends of a thread without taper they have the same radius.", "quantifier": "all profiles, ranges and pairs of angles", "why_tests_cant": "pairs of continuous angles", "anchors": ["src/yapcad/threadgen.py:sample_thread_profile"]}
{"id": "C307", "title": "Thread profile: radius within the thread", "statement": "All radii are between root and crest: for an outer thread without taper between the nominal radius less the depth and the nominal radius, for an inner one within the depth of the nominal radius, the blended ends included; no radius is negative.", "quantifier": "all profiles, ranges and angles", "why_tests_cant": "continuous parameters, with case distinctions on crest, flank, root and the ends", "anchors": ["src/yapcad/threadgen.py:sample_thread_profile", "src/yapcad/threadgen.py:_radius_at"]}
{"id": "C308", "title": "Thread profile: the shape is a periodic trapezoid", "statement": "The radius depends only on the distance from the middle of the nearest crest: the nominal radius within half the crest's flat, the root's radius within half the root's flat of the middle between crests, a straight line between; so it repeats with every pitch, is symmetric, and comes back after a whole turn for any number of starts.", "quantifier": "all profiles with flanks of at least epsilon, all positions (negative ones too), all whole numbers of pitches", "why_tests_cant": "needs all real positions", "anchors": ["src/yapcad/threadgen.py:_radius_at", "src/yapcad/threadgen.py:ThreadProfile.lead"]}
{"id": "C309", "title": "Thread profile: samples lose no detail", "statement": "Between two neighbouring sampling positions the radius is exactly on the straight line between them, however few samples per pitch are asked for; and the density asked for is reached: no place of the range is more than pitch/samples past a sampling position.", "quantifier": "all profiles with flanks of at least epsilon, all ranges, all neighbouring positions", "why_tests_cant": "real intervals; where the breakpoints fall depends on the range", "anchors": ["src/yapcad/threadgen.py:_collect_breakpoints", "src/yapcad/threadgen.py:_pitch_breakpoints"]}
{"id": "C310", "title": "Thread profile: depths of the standards", "statement": "`metric_profile(d, pitch)` gives a thread of nominal diameter d whose depth is 0.57 pitch; `unified_profile(d, tpi)` converts inches to millimetres and gives the depth of the standard, 0.64952 pitch.", "quantifier": "all diameters and pitches", "why_tests_cant": "continuous parameters", "anchors": ["src/yapcad/threadgen.py:metric_profile", "src/yapcad/threadgen.py:unified_profile"]}
{"id": "C311", "title": "Edges selected by height", "statement": "`select_edges_in_z_range` returns exactly the edges of the solid whose two ends have heights in the range, up to the tolerance, and `select_edges_at_z(z)` is the range from z to z; `select_top_edges` and `select_bottom_edges` are the edges at the greatest and least height of an end of an edge.", "quantifier": "all sets of edges, ranges, heights and tolerances", "why_tests_cant": "continuous heights and arbitrary sets of edges", "anchors": ["src/yapcad/brep_edge_select.py:select_edges_at_z", "src/yapcad/brep_edge_select.py:select_edges_in_z_range", "src/yapcad/brep_edge_select.py:select_top_edges", "src/yapcad/brep_edge_select.py:select_bottom_edges"]}
{"id": "C312", "title": "Edges that cross a height", "statement": "`select_edges_crossing_z` returns exactly the edges with ends on both sides of the height, up to the tolerance, and not edges that lie at the height.", "quantifier": "all edges, heights and tolerances", "why_tests_cant": "continuous heights", "anchors": ["src/yapcad/brep_edge_select.py:select_edges_crossing_z"]}
{"id": "C313", "title": "Edges selected by place", "statement": "`select_edges_near_point` returns exactly the edges whose middle is within the distance of the point, and `select_edges_in_cylinder` those whose middle is within the radius of some point of the axis, whatever the length of the axis vector.", "quantifier": "all edges, points, axes and radii", "why_tests_cant": "continuous positions; the distance from a line is a minimum over infinitely many points", "anchors": ["src/yapcad/brep_edge_select.py:select_edges_near_point", "src/yapcad/brep_edge_select.py:select_edges_in_cylinder"]}
{"id": "C314", "title": "Edges selected by length", "statement": "`select_edges_by_length` returns exactly the edges not shorter than the least length, if given, and not longer than the greatest, if given.", "quantifier": "all edges and bounds", "why_tests_cant": "continuous lengths", "anchors": ["src/yapcad/brep_edge_select.py:select_edges_by_length"]}
{"id": "C315", "title": "Edges selected by direction", "statement": "`select_edges_by_direction` returns exactly the straight edges that make an angle of at most the tolerance with the direction or its opposite; `select_horizontal_edges` those whose angle with the Z axis differs from a right angle by at most the tolerance.", "quantifier": "all edges, directions and tolerances", "why_tests_cant": "continuous angles, compared by cosines and sines", "anchors": ["src/yapcad/brep_edge_select.py:select_edges_by_direction", "src/yapcad/brep_edge_select.py:select_horizontal_edges"]}
{"id": "C316", "title": "Straight edges are told from curved ones", "statement": "An edge is in `filter_linear_edges` or in `filter_curved_edges`, not both, and in the former exactly if it is straight; `edge_info` agrees with the selections of vertical and horizontal edges.", "quantifier": "all curves", "why_tests_cant": "all parametrized curves", "anchors": ["src/yapcad/brep_edge_select.py:_get_edge_direction", "src/yapcad/brep_edge_select.py:filter_curved_edges", "src/yapcad/brep_edge_select.py:filter_linear_edges", "src/yapcad/brep_edge_select.py:edge_info"]}
{"id": "C317", "title": "Selections combine as sets", "statement": "`union_edges`, `intersect_edges` and `subtract_edges` have exactly the edges in some list, in every list, and in the first but not the second, without repetition; removing B from A and adding what A has in common with B gives A.", "quantifier": "all lists of edges", "why_tests_cant": "edges are identified by hash codes, which need not be different", "anchors": ["src/yapcad/brep_edge_select.py:union_edges", "src/yapcad/brep_edge_select.py:intersect_edges", "src/yapcad/brep_edge_select.py:subtract_edges"]}
{"id": "C318", "title": "Fastener catalogs: search order", "statement": "After the caches are cleared, `load_catalog(series)` reads the file of the series in the first directory that has one, among those of YAPCAD_FASTENER_DATA in order, then the user's, then the package's, ignoring entries that are not directories; an explicit path overrides the search; a file that is not a dictionary with sizes and a schema version 1.x is an error and is not passed over; an unknown series is an error.", "quantifier": "all environments, file systems and file contents", "why_tests_cant": "any set of directories and files", "anchors": ["src/yapcad/fasteners/catalog.py:_get_data_dirs", "src/yapcad/fasteners/catalog.py:_load_catalog_impl", "src/yapcad/fasteners/catalog.py:_load_yaml", "src/yapcad/fasteners/catalog.py:load_catalog"]}
{"id": "C319", "title": "Fastener catalogs: caching", "statement": "After `clear_cache` a call depends on the files and the environment of the moment only; until the next `clear_cache`, calls with the same arguments return the same dictionary whatever happens to the files, if the calls between have at most 31 different other arguments; failed calls are not remembered.", "quantifier": "all histories of calls, file changes and cache clearing", "why_tests_cant": "all histories", "anchors": ["src/yapcad/fasteners/catalog.py:clear_cache", "src/yapcad/fasteners/catalog.py:load_catalog", "src/yapcad/fasteners/catalog.py:_load_catalog_cached"]}
{"id": "C320", "title": "Fastener catalogs: callers do not affect each other", "statement": "What a caller does with a catalog he was given does not change what later callers get.", "quantifier": "all histories of calls and changes of returned dictionaries", "why_tests_cant": "all histories; the dictionary is shared through the cache", "anchors": ["src/yapcad/fasteners/catalog.py:load_catalog", "src/yapcad/fasteners/catalog.py:get_thread_data"]}
{"id": "C321", "title": "Fastener sizes: lookup", "statement": "`get_thread_data` returns the data of the size under its name in the catalog, whether written in capitals or small letters, and raises KeyError if the size, or a tolerance class asked for, is not in the catalog.", "quantifier": "all catalogs, sizes and classes", "why_tests_cant": "all dictionaries and spellings", "anchors": ["src/yapcad/fasteners/catalog.py:get_thread_data"]}
{"id": "C322", "title": "Bolt and nut data", "statement": "`get_bolt_data` and `get_nut_data` return the diameter and pitch of the size, the tolerances of the class asked for, and the head or body, exactly if the catalog has them; this includes calls without a class.", "quantifier": "all catalogs, sizes and classes", "why_tests_cant": "all dictionaries", "anchors": ["src/yapcad/fasteners/catalog.py:get_bolt_data", "src/yapcad/fasteners/catalog.py:get_nut_data"]}
{"id": "C323", "title": "DSL numbers: min, max, abs, rounding, angles, exp", "statement": "`min` and `max` return one of their arguments that none is below or above, an int exactly if all arguments are ints; `abs` keeps the type; `floor`, `ceil`, `round` are the ints their names say, `round` taking the even one of two nearest; `radians` and `degrees` are inverse; `exp` is the exponential function.", "quantifier": "all lists of ints and floats", "why_tests_cant": "all numbers and list lengths", "anchors": ["src/yapcad/dsl/runtime/builtins.py:_register_math_functions"]}
{"id": "C324", "title": "DSL lists: range, len, concat, reverse, flatten", "statement": "`range` counts from the first to before the last number in the given steps, up or down; `concat` has the elements of both lists in order, `reverse` those of one from the end, `flatten` those of all inner lists; `len` counts them.", "quantifier": "all lists and all ints", "why_tests_cant": "all list lengths", "anchors": ["src/yapcad/dsl/runtime/builtins.py:_register_utility_functions"]}
{"id": "C325", "title": "DSL lists: values fit their types", "statement": "`len`, `range`, `reverse`, `flatten`, `concat` of lists whose elements fit their element type return values that fit the type they claim.", "quantifier": "all lists of all element types", "why_tests_cant": "all types, nested to any depth", "anchors": ["src/yapcad/dsl/runtime/builtins.py:_register_utility_functions"]}
{"id": "C326", "title": "DSL lists: aggregation", "statement": "`sum`, `product` are sum and product, whatever the order, 0 and 1 for empty lists; `any_true`, `all_true` say whether some or all elements are true; `min_of`, `max_of` are the least and greatest element and an error for an empty list.", "quantifier": "all lists", "why_tests_cant": "all list lengths and orders", "anchors": ["src/yapcad/dsl/runtime/builtins.py:_register_utility_functions"]}
{"id": "C327", "title": "DSL: area of regions", "statement": "`area` of a region is its area: additive for triangles of a convex polygon, independent of the starting corner and the sense, unchanged by rigid motions, multiplied by the determinant by affine maps; width times height for rectangles, n/2 r\u00b2 sin(2\u03c0/n) for regular polygons; arcs and holes are accounted for.", "quantifier": "all polygons, rectangles, regular polygons, regions with arcs and holes", "why_tests_cant": "any number of corners, all sizes", "anchors": ["src/yapcad/dsl/runtime/builtins.py:_area"]}
{"id": "C328", "title": "DSL: perimeter of regions", "statement": "`perimeter` of a region is the sum of the lengths of its lines and arcs, holes included; 2(w+h) for rectangles, 2nr sin(\u03c0/n) for regular polygons, 2\u03c0r for circles.", "quantifier": "all regions in a horizontal plane", "why_tests_cant": "any number of pieces", "anchors": ["src/yapcad/dsl/runtime/builtins.py:_perimeter"]}
{"id": "C329", "title": "DSL: centroid of solids", "statement": "`centroid` returns the centroid of the body: the centre of a symmetric body, within its bounding box, and not dependent on how the surface is split into triangles.", "quantifier": "all solids", "why_tests_cant": "all meshes", "anchors": ["src/yapcad/dsl/runtime/builtins.py:_centroid"]}
{"id": "C330", "title": "DSL: mirror_2d", "statement": "`mirror_2d(axis)` is the reflection of the plane in the line through the origin along the axis: points of the line stay, perpendicular ones turn to their opposite, distances are kept, twice is the identity; a zero axis is an error.", "quantifier": "all axes and points", "why_tests_cant": "all real coordinates", "anchors": ["src/yapcad/dsl/runtime/builtins.py:_mirror_2d"]}
{"id": "C331", "title": "DSL: translate, rotate, scale, mirror of solids", "statement": "All representations of a solid (mesh, OpenCascade shape, native boundary representation) move alike: by the vector; by rotations about x, then y, then z; by the factors about the origin; by the reflection in the plane with the given normal. The triangles join the same vertices, turned round by mirroring.", "quantifier": "all solids, vectors, angles, factors, normals", "why_tests_cant": "all meshes and all reals", "anchors": ["src/yapcad/dsl/runtime/builtins.py:_translate", "src/yapcad/dsl/runtime/builtins.py:_rotate", "src/yapcad/dsl/runtime/builtins.py:_scale", "src/yapcad/dsl/runtime/builtins.py:_mirror_solid", "src/yapcad/geom3d.py:translatesolid", "src/yapcad/geom3d.py:rotatesolid", "src/yapcad/geom3d.py:scalesolid", "src/yapcad/geom3d.py:mirrorsolid"]}
{"id": "C332", "title": "DSL: union, intersection, difference of many solids", "statement": "The result has exactly the points of any, of all, of the first but none of the others, provided the operation on two solids is right; a list argument stands for its elements; no solids are an error; errors occur exactly if an operation on two solids on the way fails.", "quantifier": "all lists of solids, all operations on two solids that are right where they succeed", "why_tests_cant": "any number of operands", "anchors": ["src/yapcad/dsl/runtime/builtins.py:_register_boolean_functions"]}
{"id": "C333", "title": "DSL: apply a transform to a solid", "statement": "`apply(transform, solid)` moves all representations of the solid by the transform, and leaves normals perpendicular to their triangles.", "quantifier": "all transforms and solids, any number of applications", "why_tests_cant": "all matrices and meshes, any number of repetitions", "anchors": ["src/yapcad/dsl/runtime/builtins.py:_apply", "src/yapcad/geom3d.py:rotatesolid", "src/yapcad/brep.py:apply_matrix_to_brep_solid"]}
{"id": "C104", "title": "Sketches survive export and import", "statement": "A sketch written to a geometry document and loaded again has the same elements in the same order; a document of sketches gives back every sketch.", "quantifier": "all geometry lists of points, lines, arcs, ellipses, splines, polylines and nested lists", "why_tests_cant": "all lists of elements with all parameters", "anchors": ["src/yapcad/io/geometry_json.py: _serialize_sketch, geometry_from_json", "src/yapcad/geom.py: arc, ellipse, catmullrom, nurbs"]}
{"id": "C334", "title": "Gears: closed and regular outlines", "statement": "The outline of a gear is closed, is mapped to itself by a turn of one tooth, and each tooth is its own mirror image; arguments that are not positive are refused.", "quantifier": "all gears", "why_tests_cant": "all numbers of teeth, modules, pressure angles and steps", "anchors": ["src/yapcad/contrib/figgear.py: make_gear_figure"]}
{"id": "C335", "title": "Gears: flanks are involutes", "statement": "All points of the flanks of a gear are on involutes of the base circle, from that circle to the addendum circle.", "quantifier": "all gears with pressure angles between 0 and 90 degrees", "why_tests_cant": "every point of every gear", "anchors": ["src/yapcad/contrib/figgear.py: make_gear_figure"]}
{"id": "C336", "title": "Gears: thickness and pitch", "statement": "At the pitch circle teeth and gaps are equally wide, and the involutes of successive teeth are apart by a distance that depends on module and pressure angle only, so that gears mesh.", "quantifier": "all gears with pressure angles between 0 and 90 degrees", "why_tests_cant": "all gears", "anchors": ["src/yapcad/contrib/figgear.py: make_gear_figure"]}
{"id": "C337", "title": "Gears: the root is at the dedendum circle", "statement": "The points between teeth are at the dedendum radius, and no point of the outline is nearer to the centre.", "quantifier": "all gears", "why_tests_cant": "all numbers of teeth", "anchors": ["src/yapcad/contrib/figgear.py: make_gear_figure"]}
{"id": "C338", "title": "Gears: teeth do not overlap", "statement": "The flanks of a gear come one after the other around the centre, at every distance from it.", "quantifier": "all gears", "why_tests_cant": "all numbers of teeth and pressure angles", "anchors": ["src/yapcad/contrib/figgear.py: make_gear_figure"]}
{"id": "C339", "title": "Graph export: one interface per joined pair", "statement": "The exported assembly graph has exactly one interface for every pair of parts that is joined by at least one mate (in the direction of the mate), in the order in which the pairs were first joined, with ids counting up from zero; the constraints of an interface come from the mates of its pair only.", "quantifier": "all assemblies, any number of parts and mates", "why_tests_cant": "any interleaving of mates of any number of pairs", "anchors": ["src/yapcad/assembly/mechatron_export.py:to_mechatron_snapshot", "src/yapcad/assembly/mechatron_export.py:_interface_for_mate_group"]}
{"id": "C340", "title": "Graph export: nothing refers to a part that is missing", "statement": "After any history of calls, the exported graph is self-consistent: no two parts have the same id, both ends of every interface are exported parts, every datum a mate names is exported with its part, every load case acts on an exported part or the whole assembly. (Violated when a part is added under another name than its definition's: parts are exported under the definition's name, interfaces under the part's.)", "quantifier": "all histories of calls on an assembly, refused calls included", "why_tests_cant": "histories are unbounded", "anchors": ["src/yapcad/assembly/mechatron_export.py:to_mechatron_snapshot", "src/yapcad/assembly/assembly.py:Assembly.add_part"]}
{"id": "C341", "title": "Graph export: the joint is the mate's joint", "statement": "The joint of an interface is of the kind of its pair's motion mate, turns or slides along the direction of that mate's parent datum, and leaves as many degrees of freedom as the mate; without a motion mate it is fixed. (Violated for a second motion mate of a pair, which is dropped, and for cylindrical, planar, pin-slot, universal and screw mates, which freeze the parts.)", "quantifier": "all assemblies, all interfaces", "why_tests_cant": "all combinations of mates between two parts", "anchors": ["src/yapcad/assembly/mechatron_export.py:_joint_for_mate", "src/yapcad/assembly/mechatron_export.py:_interface_for_mate_group", "src/yapcad/assembly/mechatron_export.py:_resolve_mate_axis"]}
{"id": "C342", "title": "Graph export: constraints say what the mates say", "statement": "The constraints of an interface are, in order, those of its pair's concentric, coincident, tangent, angle and parallel mates, each with the mate's datums, angle (in degrees) and direction, concentric ones in the form that fits a fixed or moving joint. (Violated: angles are exported in radians as if they were degrees, parallel planes as parallel to z, and concentric beside rigid as for a moving joint.)", "quantifier": "all assemblies, all interfaces", "why_tests_cant": "all combinations of mates between two parts, real angles", "anchors": ["src/yapcad/assembly/mechatron_export.py:_mate_constraint_for_mate"]}
{"id": "C343", "title": "Graph export: insertion is against the parent's face", "statement": "The insertion direction of an interface is the opposite of the outward normal of the first plane or circle of the parent that a mate of the pair is on, and is given exactly when there is one.", "quantifier": "all assemblies, all interfaces", "why_tests_cant": "all lists of mates, real normals", "anchors": ["src/yapcad/assembly/mechatron_export.py:_resolve_insertion_vector"]}
{"id": "C344", "title": "Graph export: load cases and bolt patterns are not lost", "statement": "Every registered load case is exported, once, in order; every bolt pattern is exported with the interface of its pair and no other. (Violated for a bolt pattern registered against the direction of the mate: it is in no interface.)", "quantifier": "all assemblies", "why_tests_cant": "all sets of load cases, patterns and mates", "anchors": ["src/yapcad/assembly/mechatron_export.py:to_mechatron_snapshot", "src/yapcad/assembly/assembly.py:Assembly.add_load_case", "src/yapcad/assembly/assembly.py:Assembly.add_bolt_pattern"]}
{"id": "C345", "title": "Graph export: parts keep their datums and material", "statement": "Parts are exported in the order they were added, each with every datum of its definition at the same place and with the same direction, normal and radius; the material is looked up whatever its case and is PETG when it is unknown.", "quantifier": "all assemblies, all material names", "why_tests_cant": "real coordinates, unbounded numbers of datums", "anchors": ["src/yapcad/assembly/mechatron_export.py:_datum_to_mechatron", "src/yapcad/assembly/mechatron_export.py:_material_to_mechatron"]}
{"id": "C346", "title": "Load cases: checked, and survive being written and read", "statement": "A load case exists only with a known group, frame and status, a force or an acceleration, and a direction of three components; one read from a dictionary has been checked the same way; writing a load case to a dictionary and reading it back gives the same load case.", "quantifier": "all load cases, all dictionaries", "why_tests_cant": "all field values", "anchors": ["src/yapcad/assembly/load_case.py:LoadCase.__post_init__", "src/yapcad/assembly/load_case.py:LoadCase.to_dict", "src/yapcad/assembly/load_case.py:LoadCase.from_dict", "src/yapcad/assembly/load_case.py:LoadAttach.to_dict"]}
{"id": "C347", "title": "Bolt patterns: checked, and survive being written and read", "statement": "A bolt pattern exists only with a positive pitch circle, a positive number of bolts and a direction of three components, and survives being written and read. (Violated for fractional numbers of bolts, which are accepted and cut off when written.)", "quantifier": "all bolt patterns", "why_tests_cant": "all numbers", "anchors": ["src/yapcad/assembly/load_case.py:BoltPattern"]}
{"id": "C348", "title": "Graph export: visual primitives in metres", "statement": "Every length of a visual primitive given in millimetres is exported as a thousandth of the number, in metres, and none is lost. (Violated when metres are used: beside any millimetre key a position in metres is scaled too, a box's size in metres always is, and a capsule's radius and length in metres are dropped.)", "quantifier": "all primitives of the five kinds", "why_tests_cant": "all numbers and combinations of keys", "anchors": ["src/yapcad/assembly/mechatron_export.py:_geom_to_mechatron"]}
{"id": "C349", "title": "Plane of a triangle", "statement": "The centre and normal of a triangle are its centroid and the unit vector orthogonal to its edges against which the corners run counter-clockwise; the call is refused exactly when twice the area is below epsilon.", "quantifier": "all triangles", "why_tests_cant": "real coordinates", "anchors": ["src/yapcad/geom3d.py:tri2p0n"]}
{"id": "C350", "title": "Planar basis of a triangle", "statement": "The two matrices of a triangle's planar basis undo each other on every vector; the forward one keeps all distances, sends the centre to the origin, the plane of the triangle to z = 0 (every point to its signed distance as height), the first edge to the x direction and the third corner above it.", "quantifier": "all triangles with a basis, all points", "why_tests_cant": "real coordinates", "anchors": ["src/yapcad/geom3d.py:tri2p0n", "src/yapcad/xform.py:Matrix.mul"]}
{"id": "C351", "title": "Signed distance from a plane", "statement": "For a unit normal the signed distance of a point from a plane is, in absolute value, the distance to the nearest point of the plane, positive on the side of the normal, zero exactly on the plane, and changes sign with the normal.", "quantifier": "all points, all planes with unit normal", "why_tests_cant": "real coordinates", "anchors": ["src/yapcad/geom3d.py:signedPlaneDistance"]}
{"id": "C352", "title": "Line and coordinate plane", "statement": "The intersection of a line with a coordinate plane is a point of both, between the ends when `inside` is set; every common point is found. (Violated for lines that cross the plane with a rise below epsilon, which are said to miss it.)", "quantifier": "all lines, the three coordinate planes", "why_tests_cant": "real coordinates", "anchors": ["src/yapcad/geom3d.py:linePlaneIntersect"]}
{"id": "C353", "title": "Line and triangle", "statement": "The intersection of a line with a triangle is a point of both, between the ends of the line when `inside` is set; every common point is found, when the rise over the plane is at least epsilon. (Violated: the documented planar basis is refused, and without `inside` the triangle still bounds the answer.)", "quantifier": "all lines, all triangles", "why_tests_cant": "real coordinates", "anchors": ["src/yapcad/geom3d.py:linePlaneIntersect", "src/yapcad/geom.py:isInsideTriangleXY"]}
{"id": "C354", "title": "Intersection of two triangles", "statement": "The intersection of two triangles is the segment common to both, or False when they have no common point. (Violated: the bounds of the first triangle are never used and edges are extended, so triangles far apart are reported to intersect and the segment sticks out of both; opposite normals of parallel planes are not recognised.)", "quantifier": "all pairs of triangles, both settings of `inside` and `inPlane`", "why_tests_cant": "real coordinates", "anchors": ["src/yapcad/geom3d.py:triTriIntersect", "src/yapcad/native_brep.py:triTriIntersect", "src/yapcad/boolean/native.py:triTriIntersect"]}
{"id": "C355", "title": "Signed distance from a triangle", "statement": "The signed distance of a point from a triangle is, to within 1.5 epsilon, the distance to the nearest point of the triangle, and negative exactly when the point is at least epsilon below the plane. (Violated for slivers with an edge shorter than epsilon: every point of the plane outside gets at most zero.)", "quantifier": "all triangles, all points", "why_tests_cant": "real coordinates", "anchors": ["src/yapcad/geom3d.py:signedFaceDistance", "src/yapcad/geom.py:linePointXY"]}
{"id": "C356", "title": "Spheres and planes of the reference geometry", "statement": "Every surface point of a reference sphere lies on it, and the normal there has length 1 and points away from the centre (for inner surfaces towards it); the normal of a plane has length 1 and the direction given, everywhere. A sphere or cylinder without centre or radius is refused, as is a plane whose normal has length 0.", "quantifier": "all reference geometries, all angles, all points", "why_tests_cant": "real coordinates and angles", "anchors": ["src/yapcad/assembly/intent.py:ReferenceGeometry.get_surface_point", "src/yapcad/assembly/intent.py:ReferenceGeometry.get_normal_at"]}
{"id": "C357", "title": "Cylinders of the reference geometry", "statement": "Every surface point of a reference cylinder lies on the cylinder around its axis, and the normal there has length 1, is at right angles to the axis and points away from it (for inner walls towards it). (Violated: the axis is never used; points and normals are those of a cylinder along z.)", "quantifier": "all cylinders with any axis, all angles and heights", "why_tests_cant": "real coordinates and angles", "anchors": ["src/yapcad/assembly/intent.py:ReferenceGeometry.get_surface_point", "src/yapcad/assembly/intent.py:ReferenceGeometry.get_normal_at"]}
{"id": "C358", "title": "Connections become mates", "statement": "A connection of `a.p` with `b.q` becomes a mate of datum p of part a with datum q of part b; an end that names a part only stands for its `origin`. The mate has the joint's type, the joint's axis, and its limits: degrees in radians for a revolute joint, unchanged for a prismatic one, none for others.", "quantifier": "all connections", "why_tests_cant": "all names, all limits", "anchors": ["src/yapcad/assembly/intent.py:Connection.to_mate_spec", "src/yapcad/assembly/intent.py:Connection.get_parent_part", "src/yapcad/assembly/intent.py:Connection.get_child_datum"]}
{"id": "C359", "title": "Constraints of an intent", "statement": "The constraints collected from an intent are those of each functional requirement, in order, followed by one mate for each connection, in order; collecting is refused exactly when an axis of a parallel requirement has more than one dot.", "quantifier": "all intents: lists of requirements and connections of any length", "why_tests_cant": "lists of any length", "anchors": ["src/yapcad/assembly/intent.py:AssemblyIntent.collect_constraints", "src/yapcad/assembly/intent.py:ParallelAxesRequirement.get_implied_constraints"]}
{"id": "C360", "title": "Solving an intent", "statement": "Solving succeeds exactly when every contact requirement's target is a known reference geometry, with one error for each that is not; the contact radius derived for a part is the radius of the cylinder of its last contact with a cylinder, and there is none otherwise.", "quantifier": "all intents", "why_tests_cant": "lists of any length, any names", "anchors": ["src/yapcad/assembly/intent.py:AssemblyIntent.solve", "src/yapcad/assembly/intent.py:ContactRequirement.get_implied_constraints"]}
{"id": "C361", "title": "Validating an intent", "statement": "`validate` reports every contact whose target is not filed in the reference geometry and, once, every part that has a requirement but is at no end of a connection, and nothing else; if geometries are filed under their own names, which adding them keeps, it reports no unknown geometry exactly when solving succeeds.", "quantifier": "all intents", "why_tests_cant": "lists of any length, any names", "anchors": ["src/yapcad/assembly/intent.py:AssemblyIntent.validate", "src/yapcad/assembly/intent.py:AssemblyIntent.add_reference_geometry", "src/yapcad/assembly/intent.py:AssemblyIntent.solve"]}
{"id": "C362", "title": "Clearances", "statement": "A clearance is satisfied only if the two parts are at least the required distance apart. (Violated: the transforms and bounds are never looked at; every clearance is satisfied.)", "quantifier": "all clearances, transforms and bounds", "why_tests_cant": "real coordinates", "anchors": ["src/yapcad/assembly/intent.py:Clearance.validate"]}
{"id": "C363", "title": "What requirements imply", "statement": "A contact with a cylinder puts the surface at its radius around its centre, with a plane in that plane; rolling in a direction makes the axis perpendicular to it and, along z, tangent to the first reference cylinder; tangent, radial and axial axes are related to the named reference, or to the origin and the z axis if there is none; parallel axes `a.x` and `y` name axis x of part a and axis y of the requirement's own part.", "quantifier": "all requirements, all reference geometries", "why_tests_cant": "any names, real vectors", "anchors": ["src/yapcad/assembly/intent.py:ContactRequirement.get_implied_constraints", "src/yapcad/assembly/intent.py:RollRequirement.get_implied_constraints", "src/yapcad/assembly/intent.py:AxisOrientationRequirement.get_implied_constraints", "src/yapcad/assembly/intent.py:ParallelAxesRequirement.get_implied_constraints"]}
{"id": "C364", "title": "Catalog bolts fit catalog nuts", "statement": "The threads of a bolt and a nut of the same size, in the same position, leave everywhere between them at least half the difference of the deviations EI and es of their classes, and exactly that at the crests; with EI = 0 and es < 0, as in the catalogs, they never touch.", "quantifier": "all sizes, classes, starts, handedness, positions and turns", "why_tests_cant": "real positions along and around the axis", "anchors": ["src/yapcad/fasteners/builders.py:_make_profile_from_catalog", "src/yapcad/threadgen.py:_radius_at"]}
{"id": "C365", "title": "Thread length of catalog bolts", "statement": "The thread of a bolt is between epsilon and the bolt's length; a length given in that range is used, otherwise it is twice the diameter and 6, 12 or 25 mm more for bolts up to 125 mm, up to 200 mm, and longer ones, but not more than the bolt's length.", "quantifier": "all sizes, lengths and thread lengths", "why_tests_cant": "real lengths", "anchors": ["src/yapcad/fasteners/builders.py:_default_thread_length", "src/yapcad/fasteners/builders.py:build_hex_bolt_from_catalog"]}
{"id": "C366", "title": "Catalog bolts that are accepted", "statement": "A catalog bolt is refused exactly if its diameter, length, head height or given thread length is not above epsilon, its head is not wider than the bolt, or there are fewer than 12 samples around or one per pitch; thread and unthreaded part make up its length to within epsilon.", "quantifier": "all sizes, heads, lengths and samples", "why_tests_cant": "real lengths", "anchors": ["src/yapcad/fasteners/builders.py:build_hex_bolt_from_catalog", "src/yapcad/fasteners_legacy.py:_validate_spec", "src/yapcad/fasteners_legacy.py:build_hex_cap_screw"]}
{"id": "C367", "title": "Bolt circles", "statement": "The hole positions of a bolt circle are as many as it says, all at its radius from its centre, in its plane, evenly spaced from the offset angle, and no two are the same; a feature that is not a complete circle has none.", "quantifier": "all centres, directions, radii, numbers of holes and offset angles", "why_tests_cant": "tests look at the four-hole circles that face up; even spacing and distinct holes are claims about every number", "anchors": ["src/yapcad/assembly/mate_surrogates.py:Feature.get_hole_positions", "src/yapcad/assembly/mate_surrogates.py:create_ddsm115_surrogate"]}
{"id": "C368", "title": "A sun gear fits its servo", "statement": "A sun gear made for a servo with the diameter of its horn's bolt circle can be put on the horn: faces against each other, the hub's holes on the horn's, and the counterbore clear of the protrusion; all gears of the library are so made.", "quantifier": "all gear axes, face widths and hub heights, all servos of the library", "why_tests_cant": "the gear is parametric, so the fit must hold for every width and height", "anchors": ["src/yapcad/assembly/mate_surrogates.py:create_sun_gear_surrogate", "src/yapcad/assembly/mate_surrogates.py:create_xh540_surrogate", "src/yapcad/assembly/mate_surrogates.py:create_xh430_surrogate", "src/yapcad/assembly/mate_surrogates.py:create_xl330_surrogate", "src/yapcad/assembly/mate_surrogates.py:get_all_surrogates"]}
{"id": "C369", "title": "Features and frames of parts", "statement": "A feature added to a part is found under its name and changes no other; a part of which the check reports nothing has a right-handed orthonormal frame, to within a thousandth, and complete circles.", "quantifier": "all parts and sequences of added features", "why_tests_cant": "the check must find every defective part, not the ones tried", "anchors": ["src/yapcad/assembly/mate_surrogates.py:MateSurrogate.add_feature", "src/yapcad/assembly/mate_surrogates.py:MateSurrogate.get_feature", "src/yapcad/assembly/mate_surrogates.py:validate_surrogates"]}
