import Verif.Types.Model

/-!
# The tables of `src/yapcad/dsl/symbols.py` and `src/yapcad/dsl/types.py`

Generated from the source text: each entry of `builtins` is one `_register_builtin` call (of two calls with the same name
the later one, which overwrites the earlier: `text_solid`), in order; each entry of the method tables one
`FunctionSignature`. A parameter is (name, type, has a default).
-/

namespace Verif.Checker

open Verif.Types

/-- `FunctionSignature`, symbols.py:46-53, without `is_method` and `is_variadic`, which the checker never reads -/
structure Sig where
  params : List (String × Ty × Bool)
  ret : Ty

/-- `_init_builtins`, symbols.py:101-768 -/
def builtins : List (String × Sig) := [
  ("point", ⟨[("x", .prim .float, false), ("y", .prim .float, false), ("z", .prim .float, true)], .geo .point⟩),
  ("point2d", ⟨[("x", .prim .float, false), ("y", .prim .float, false)], .geo .point2d⟩),
  ("vector", ⟨[("dx", .prim .float, false), ("dy", .prim .float, false), ("dz", .prim .float, false)], .geo .vector⟩),
  ("vector2d", ⟨[("dx", .prim .float, false), ("dy", .prim .float, false)], .geo .vector2d⟩),
  ("translate", ⟨[("s", .solid, false), ("x", .prim .float, false), ("y", .prim .float, false), ("z", .prim .float, false)], .solid⟩),
  ("rotate", ⟨[("s", .solid, false), ("x", .prim .float, false), ("y", .prim .float, false), ("z", .prim .float, false)], .solid⟩),
  ("scale", ⟨[("s", .solid, false), ("x", .prim .float, false), ("y", .prim .float, false), ("z", .prim .float, false)], .solid⟩),
  ("translate_xform", ⟨[("v", .geo .vector, false)], .geo .transform⟩),
  ("rotate_xform", ⟨[("axis", .geo .vector3d, false), ("angle", .prim .float, false)], .geo .transform⟩),
  ("rotate_2d", ⟨[("angle", .prim .float, false)], .geo .transform⟩),
  ("scale_xform", ⟨[("factors", .geo .vector, false)], .geo .transform⟩),
  ("scale_uniform", ⟨[("factor", .prim .float, false)], .geo .transform⟩),
  ("mirror", ⟨[("s", .solid, false), ("plane_normal", .geo .vector3d, false)], .solid⟩),
  ("mirror_2d", ⟨[("axis", .geo .vector2d, false)], .geo .transform⟩),
  ("mirror_y", ⟨[], .geo .transform⟩),
  ("identity_transform", ⟨[], .geo .transform⟩),
  ("line", ⟨[("start", .geo .point, false), ("end", .geo .point, false)], .curve .lineSegment⟩),
  ("arc", ⟨[("center", .geo .point, false), ("radius", .prim .float, false), ("start_angle", .prim .float, false), ("end_angle", .prim .float, false)], .curve .arc⟩),
  ("circle", ⟨[("center", .geo .point, false), ("radius", .prim .float, false)], .curve .circle⟩),
  ("ellipse", ⟨[("center", .geo .point, false), ("semi_major", .prim .float, false), ("semi_minor", .prim .float, false), ("rotation", .prim .float, true), ("start", .prim .float, true), ("end", .prim .float, true)], .curve .ellipse⟩),
  ("bezier", ⟨[("control_points", .list (.geo .point), false)], .curve .bezier⟩),
  ("catmullrom", ⟨[("points", .list (.geo .point), false), ("closed", .prim .bool, true), ("alpha", .prim .float, true)], .curve .catmullrom⟩),
  ("nurbs", ⟨[("points", .list (.geo .point), false), ("weights", .list (.prim .float), true), ("degree", .prim .int, true)], .curve .nurbs⟩),
  ("sample_curve", ⟨[("curve", .unknown, false), ("t", .prim .float, false)], .geo .point⟩),
  ("sample_curve_n", ⟨[("curve", .unknown, false), ("n", .prim .int, false)], .list (.geo .point)⟩),
  ("curve_length", ⟨[("curve", .unknown, false)], .prim .float⟩),
  ("path", ⟨[("segments", .list (.unknown), false)], .compound .path2d⟩),
  ("join", ⟨[("p1", .compound .path2d, false), ("p2", .compound .path2d, false)], .compound .path2d⟩),
  ("make_path3d", ⟨[("segment", .compound .path3d, false)], .compound .path3d⟩),
  ("path3d_line", ⟨[("start", .geo .point3d, false), ("end", .geo .point3d, false)], .compound .path3d⟩),
  ("path3d_arc", ⟨[("center", .geo .point3d, false), ("start", .geo .point3d, false), ("end", .geo .point3d, false), ("normal", .geo .vector3d, false)], .compound .path3d⟩),
  ("path3d_arc_auto", ⟨[("center", .geo .point3d, false), ("start", .geo .point3d, false), ("end", .geo .point3d, false), ("flip", .prim .bool, false)], .compound .path3d⟩),
  ("close", ⟨[("p", .compound .profile2d, false)], .compound .region2d⟩),
  ("closeC0", ⟨[("p", .compound .profile2d, false)], .compound .region2d⟩),
  ("closeC1", ⟨[("p", .compound .profile2d, false)], .compound .region2d⟩),
  ("rectangle", ⟨[("width", .prim .float, false), ("height", .prim .float, false), ("center", .geo .point2d, true)], .compound .region2d⟩),
  ("regular_polygon", ⟨[("n", .prim .int, false), ("radius", .prim .float, false), ("center", .geo .point2d, true)], .compound .region2d⟩),
  ("polygon", ⟨[("points", .list (.geo .point), false)], .compound .region2d⟩),
  ("disk", ⟨[("center", .geo .point, false), ("radius", .prim .float, false), ("segments", .prim .int, true)], .compound .region2d⟩),
  ("union2d", ⟨[("a", .compound .region2d, false), ("b", .compound .region2d, false)], .compound .region2d⟩),
  ("difference2d", ⟨[("a", .compound .region2d, false), ("b", .compound .region2d, false)], .compound .region2d⟩),
  ("intersection2d", ⟨[("a", .compound .region2d, false), ("b", .compound .region2d, false)], .compound .region2d⟩),
  ("union2d_all", ⟨[("regions", .list (.compound .region2d), false)], .compound .region2d⟩),
  ("difference2d_all", ⟨[("base", .compound .region2d, false), ("tools", .list (.compound .region2d), false)], .compound .region2d⟩),
  ("intersection2d_all", ⟨[("regions", .list (.compound .region2d), false)], .compound .region2d⟩),
  ("make_path2d", ⟨[("curves", .list (.unknown), false)], .compound .path2d⟩),
  ("close_path", ⟨[("path", .compound .path2d, false)], .compound .region2d⟩),
  ("region_from_spline", ⟨[("spline", .unknown, false), ("segments", .prim .int, true)], .compound .region2d⟩),
  ("planar_surface", ⟨[("boundary", .compound .loop3d, false)], .surface⟩),
  ("cylindrical_surface", ⟨[("axis", .geo .vector3d, false), ("radius", .prim .float, false), ("height", .prim .float, false)], .surface⟩),
  ("loft_surface", ⟨[("profiles", .list (.compound .path3d), false)], .surface⟩),
  ("shell", ⟨[("surfaces", .list (.surface), false)], .shell⟩),
  ("extrude", ⟨[("profile", .compound .region2d, false), ("height", .prim .float, false), ("direction", .geo .vector3d, true)], .solid⟩),
  ("revolve", ⟨[("profile", .compound .region2d, false), ("axis", .geo .vector3d, false), ("angle", .prim .float, false)], .solid⟩),
  ("sweep", ⟨[("profile", .compound .region2d, false), ("spine", .compound .path3d, false)], .solid⟩),
  ("sweep_hollow", ⟨[("outer_profile", .compound .region2d, false), ("inner_profile", .compound .region2d, false), ("spine", .compound .path3d, false)], .solid⟩),
  ("sweep_adaptive", ⟨[("profile", .compound .region2d, false), ("spine", .compound .path3d, false), ("threshold", .prim .float, false)], .solid⟩),
  ("sweep_adaptive_hollow", ⟨[("outer_profile", .compound .region2d, false), ("inner_profiles", .compound .region2d, false), ("spine", .compound .path3d, false), ("threshold", .prim .float, false)], .solid⟩),
  ("sweep_adaptive_frenet", ⟨[("profile", .compound .region2d, false), ("spine", .compound .path3d, false), ("threshold", .prim .float, false)], .solid⟩),
  ("sweep_adaptive_hollow_frenet", ⟨[("outer_profile", .compound .region2d, false), ("inner_profiles", .compound .region2d, false), ("spine", .compound .path3d, false), ("threshold", .prim .float, false)], .solid⟩),
  ("loft", ⟨[("profiles", .list (.compound .region2d), false)], .solid⟩),
  ("box", ⟨[("width", .prim .float, false), ("depth", .prim .float, false), ("height", .prim .float, false)], .solid⟩),
  ("cylinder", ⟨[("radius", .prim .float, false), ("height", .prim .float, false)], .solid⟩),
  ("sphere", ⟨[("radius", .prim .float, false)], .solid⟩),
  ("oblate_spheroid", ⟨[("equatorial_diameter", .prim .float, false), ("oblateness", .prim .float, false)], .solid⟩),
  ("cone", ⟨[("radius1", .prim .float, false), ("radius2", .prim .float, false), ("height", .prim .float, false)], .solid⟩),
  ("involute_gear", ⟨[("teeth", .prim .int, false), ("module_mm", .prim .float, false), ("pressure_angle", .prim .float, false), ("face_width", .prim .float, false)], .solid⟩),
  ("herringbone_gear", ⟨[("teeth", .prim .int, false), ("module_mm", .prim .float, false), ("face_width", .prim .float, false), ("helix_angle", .prim .float, false)], .solid⟩),
  ("sun_gear_with_hub", ⟨[("teeth", .prim .int, false), ("module_mm", .prim .float, false), ("face_width", .prim .float, false), ("helix_angle", .prim .float, false), ("hub_diameter", .prim .float, false), ("hub_height", .prim .float, false), ("bolt_circle", .prim .float, false), ("num_bolts", .prim .int, false), ("bolt_hole_diameter", .prim .float, false)], .solid⟩),
  ("dodecahedron", ⟨[("diameter", .prim .float, false)], .solid⟩),
  ("tube", ⟨[("outer_diameter", .prim .float, false), ("wall_thickness", .prim .float, false), ("length", .prim .float, false)], .solid⟩),
  ("conic_tube", ⟨[("bottom_od", .prim .float, false), ("top_od", .prim .float, false), ("wall_thickness", .prim .float, false), ("length", .prim .float, false)], .solid⟩),
  ("spherical_shell", ⟨[("outer_diameter", .prim .float, false), ("wall_thickness", .prim .float, false)], .solid⟩),
  ("helical_extrude", ⟨[("profile", .compound .region2d, false), ("height", .prim .float, false), ("twist_angle", .prim .float, false)], .solid⟩),
  ("text_solid", ⟨[("text", .prim .string, false), ("height", .prim .float, false), ("depth", .prim .float, false)], .solid⟩),
  ("engrave_text", ⟨[("target", .solid, false), ("text", .prim .string, false), ("position", .geo .vector3d, false), ("normal", .geo .vector3d, false), ("height", .prim .float, false), ("depth", .prim .float, false), ("spacing", .prim .float, false)], .solid⟩),
  ("text_width", ⟨[("text", .prim .string, false), ("height", .prim .float, false), ("spacing", .prim .float, false)], .prim .float⟩),
  ("path3d_eval", ⟨[("path", .compound .path3d, false), ("t", .prim .float, false)], .geo .point3d⟩),
  ("path3d_length", ⟨[("path", .compound .path3d, false)], .prim .float⟩),
  ("split_solid", ⟨[("s", .solid, false), ("plane_point", .geo .point3d, false), ("plane_normal", .geo .vector3d, false)], .solid⟩),
  ("planet_gear_with_hub", ⟨[("teeth", .prim .int, false), ("module_mm", .prim .float, false), ("face_width", .prim .float, false), ("helix_angle", .prim .float, false), ("bore_diameter", .prim .float, false)], .solid⟩),
  ("metric_hex_bolt", ⟨[("size", .prim .string, false), ("length", .prim .float, false)], .solid⟩),
  ("metric_hex_nut", ⟨[("size", .prim .string, false)], .solid⟩),
  ("unified_hex_bolt", ⟨[("size", .prim .string, false), ("length", .prim .float, false)], .solid⟩),
  ("unified_hex_nut", ⟨[("size", .prim .string, false)], .solid⟩),
  ("text_solid_fitted", ⟨[("text", .prim .string, false), ("max_width", .prim .float, false), ("depth", .prim .float, false)], .solid⟩),
  ("text_on_surface", ⟨[("text", .prim .string, false), ("surface_center", .geo .point3d, false), ("surface_normal", .geo .point3d, false), ("up_direction", .geo .point3d, false), ("max_width", .prim .float, false), ("depth", .prim .float, false)], .solid⟩),
  ("union", ⟨[("a", .solid, false), ("b", .solid, false)], .solid⟩),
  ("difference", ⟨[("a", .solid, false), ("b", .solid, false)], .solid⟩),
  ("intersection", ⟨[("a", .solid, false), ("b", .solid, false)], .solid⟩),
  ("compound", ⟨[("a", .solid, false), ("b", .solid, false)], .solid⟩),
  ("union_all", ⟨[("solids", .list (.solid), false)], .solid⟩),
  ("difference_all", ⟨[("base", .solid, false), ("tools", .list (.solid), false)], .solid⟩),
  ("intersection_all", ⟨[("solids", .list (.solid), false)], .solid⟩),
  ("fillet", ⟨[("s", .solid, false), ("radius", .prim .float, false)], .solid⟩),
  ("chamfer", ⟨[("s", .solid, false), ("distance", .prim .float, false)], .solid⟩),
  ("radial_pattern", ⟨[("shape", .unknown, false), ("count", .prim .int, false), ("axis", .geo .vector3d, false), ("center", .geo .point, false)], .unknown⟩),
  ("linear_pattern", ⟨[("shape", .unknown, false), ("count", .prim .int, false), ("spacing", .geo .vector, false)], .unknown⟩),
  ("volume", ⟨[("s", .solid, false)], .prim .float⟩),
  ("surface_area", ⟨[("s", .solid, false)], .prim .float⟩),
  ("area", ⟨[("r", .compound .region2d, false)], .prim .float⟩),
  ("perimeter", ⟨[("r", .compound .region2d, false)], .prim .float⟩),
  ("centroid", ⟨[("s", .solid, false)], .geo .point3d⟩),
  ("distance", ⟨[("a", .geo .point, false), ("b", .geo .point, false), ("tolerance", .prim .float, false)], .prim .float⟩),
  ("apply", ⟨[("t", .geo .transform, false), ("shape", .solid, false)], .solid⟩),
  ("apply_surface", ⟨[("t", .geo .transform, false), ("shape", .surface, false)], .surface⟩),
  ("apply_point", ⟨[("t", .geo .transform, false), ("p", .geo .point, false)], .geo .point⟩),
  ("apply_vector", ⟨[("t", .geo .transform, false), ("v", .geo .vector3d, false)], .geo .vector3d⟩),
  ("sin", ⟨[("x", .prim .float, false)], .prim .float⟩),
  ("cos", ⟨[("x", .prim .float, false)], .prim .float⟩),
  ("tan", ⟨[("x", .prim .float, false)], .prim .float⟩),
  ("asin", ⟨[("x", .prim .float, false)], .prim .float⟩),
  ("acos", ⟨[("x", .prim .float, false)], .prim .float⟩),
  ("atan", ⟨[("x", .prim .float, false)], .prim .float⟩),
  ("atan2", ⟨[("y", .prim .float, false), ("x", .prim .float, false)], .prim .float⟩),
  ("sqrt", ⟨[("x", .prim .float, false)], .prim .float⟩),
  ("abs", ⟨[("x", .prim .float, false)], .prim .float⟩),
  ("min", ⟨[("a", .prim .float, false), ("b", .prim .float, false)], .prim .float⟩),
  ("max", ⟨[("a", .prim .float, false), ("b", .prim .float, false)], .prim .float⟩),
  ("radians", ⟨[("degrees", .prim .float, false)], .prim .float⟩),
  ("degrees", ⟨[("radians", .prim .float, false)], .prim .float⟩),
  ("floor", ⟨[("x", .prim .float, false)], .prim .int⟩),
  ("ceil", ⟨[("x", .prim .float, false)], .prim .int⟩),
  ("round", ⟨[("x", .prim .float, false)], .prim .int⟩),
  ("pow", ⟨[("base", .prim .float, false), ("exp", .prim .float, false)], .prim .float⟩),
  ("exp", ⟨[("x", .prim .float, false)], .prim .float⟩),
  ("log", ⟨[("x", .prim .float, false)], .prim .float⟩),
  ("log10", ⟨[("x", .prim .float, false)], .prim .float⟩),
  ("pi", ⟨[], .prim .float⟩),
  ("tau", ⟨[], .prim .float⟩),
  ("len", ⟨[("list", .list (.unknown), false)], .prim .int⟩),
  ("range", ⟨[("end", .prim .int, false)], .list (.prim .int)⟩),
  ("concat", ⟨[("list1", .list (.unknown), false), ("list2", .list (.unknown), false)], .list (.unknown)⟩),
  ("reverse", ⟨[("list", .list (.unknown), false)], .list (.unknown)⟩),
  ("flatten", ⟨[("list", .list (.list (.unknown)), false)], .list (.unknown)⟩),
  ("print", ⟨[("value", .unknown, false)], .prim .bool⟩),
  ("sum", ⟨[("values", .list (.prim .float), false)], .prim .float⟩),
  ("product", ⟨[("values", .list (.prim .float), false)], .prim .float⟩),
  ("any_true", ⟨[("values", .list (.prim .bool), false)], .prim .bool⟩),
  ("all_true", ⟨[("values", .list (.prim .bool), false)], .prim .bool⟩),
  ("min_of", ⟨[("values", .list (.prim .float), false)], .prim .float⟩),
  ("max_of", ⟨[("values", .list (.prim .float), false)], .prim .float⟩),
  ("is_empty", ⟨[("s", .solid, false)], .prim .bool⟩),
  ("empty_solid", ⟨[], .solid⟩),
  ("empty_region", ⟨[], .compound .region2d⟩),
  ("assembly", ⟨[("name", .prim .string, false)], .geo .assembly⟩),
  ("add_part", ⟨[("asm", .geo .assembly, false), ("solid", .solid, false), ("name", .prim .string, false)], .geo .assembly⟩),
  ("add_mate", ⟨[("asm", .geo .assembly, false), ("kind", .prim .string, false), ("part_a", .prim .string, false), ("datum_a", .prim .string, false), ("part_b", .prim .string, false), ("datum_b", .prim .string, false)], .geo .assembly⟩),
  ("validate_assembly", ⟨[("asm", .geo .assembly, false)], .prim .bool⟩),
  ("assembly_report", ⟨[("asm", .geo .assembly, false)], .prim .string⟩),
  ("emit_assembly", ⟨[("asm", .geo .assembly, false)], .prim .string⟩)]

/-- `CURVE_METHODS`, symbols.py:832-863 -/
def curveMethods : List (String × Sig) := [
  ("at", ⟨[("t", .prim .float, false)], .geo .point⟩),
  ("tangent_at", ⟨[("t", .prim .float, false)], .geo .vector⟩),
  ("normal_at", ⟨[("t", .prim .float, false)], .geo .vector⟩),
  ("curvature_at", ⟨[("t", .prim .float, false)], .prim .float⟩),
  ("length", ⟨[], .prim .float⟩)]

/-- `SOLID_METHODS`, symbols.py:866-909 -/
def solidMethods : List (String × Sig) := [
  ("union", ⟨[("other", .solid, false)], .solid⟩),
  ("difference", ⟨[("other", .solid, false)], .solid⟩),
  ("intersection", ⟨[("other", .solid, false)], .solid⟩),
  ("translate", ⟨[("v", .geo .vector, false)], .solid⟩),
  ("rotate", ⟨[("axis", .geo .vector3d, false), ("angle", .prim .float, false)], .solid⟩),
  ("scale", ⟨[("factors", .geo .vector, false)], .solid⟩),
  ("apply", ⟨[("t", .geo .transform, false)], .solid⟩)]

/-- `REGION2D_METHODS`, symbols.py:912-931 -/
def region2dMethods : List (String × Sig) := [
  ("union", ⟨[("other", .compound .region2d, false)], .compound .region2d⟩),
  ("difference", ⟨[("other", .compound .region2d, false)], .compound .region2d⟩),
  ("intersection", ⟨[("other", .compound .region2d, false)], .compound .region2d⟩)]

/-- `TRANSFORM_METHODS`, symbols.py:934-959 -/
def transformMethods : List (String × Sig) := [
  ("compose", ⟨[("other", .geo .transform, false)], .geo .transform⟩),
  ("inverse", ⟨[], .geo .transform⟩),
  ("translation", ⟨[], .geo .vector3d⟩),
  ("is_rigid", ⟨[], .prim .bool⟩)]

/-- `BUILTIN_TYPES`, types.py:376-428 -/
def typeNames : List (String × Ty) := [
  ("int", .prim .int),
  ("float", .prim .float),
  ("bool", .prim .bool),
  ("string", .prim .string),
  ("point", .geo .point),
  ("point2d", .geo .point2d),
  ("point3d", .geo .point3d),
  ("vector", .geo .vector),
  ("vector2d", .geo .vector2d),
  ("vector3d", .geo .vector3d),
  ("transform", .geo .transform),
  ("line_segment", .curve .lineSegment),
  ("arc", .curve .arc),
  ("circle", .curve .circle),
  ("ellipse", .curve .ellipse),
  ("parabola", .curve .parabola),
  ("hyperbola", .curve .hyperbola),
  ("catmullrom", .curve .catmullrom),
  ("nurbs", .curve .nurbs),
  ("bezier", .curve .bezier),
  ("path2d", .compound .path2d),
  ("path3d", .compound .path3d),
  ("profile2d", .compound .profile2d),
  ("region2d", .compound .region2d),
  ("loop3d", .compound .loop3d),
  ("surface", .surface),
  ("shell", .shell),
  ("solid", .solid),
  ("edge", .geo .edge),
  ("assembly", .geo .assembly),
  ("dict", .dict)]

end Verif.Checker
