import Mathlib.Data.List.Dedup
import Mathlib.Data.List.Basic

/-!
# Model of the faceted STEP export: `src/yapcad/io/step.py`

`P` is the type of coordinates (equality is that of tuples of floats; no NaN), `D` of the unit vectors and `L` of the lengths computed from them. An entity is a value of `Ent`; the
numbers `#n` in it are kept, the texts of numbers (six decimals) are left out. The input is the list of triangles of `mesh_view`.
-/

namespace Verif.Step

/-- `Triangle`, geometry_utils.py:13-20, with the normal after `_normalize` -/
structure Tri (P D : Type) where
  normal : D
  v0 : P
  v1 : P
  v2 : P

/-- the functions of coordinates: `_normalize(end - start)`, `_distance(start, end)`, `_perpendicular(normal)`, step.py:453-468 -/
structure Geo (P D L : Type) where
  dir : P → P → D
  len : P → P → L
  perp : D → D

/-- the entities -/
inductive Ent (P D L : Type)
  /-- CARTESIAN_POINT -/
  | point (p : P)
  /-- VERTEX_POINT -/
  | vertex (pt : Nat)
  /-- DIRECTION -/
  | direction (d : D)
  /-- VECTOR -/
  | vector (dir : Nat) (len : L)
  /-- LINE -/
  | line (pt vec : Nat)
  /-- EDGE_CURVE -/
  | edge (start stop line : Nat)
  /-- ORIENTED_EDGE -/
  | oriented (edge : Nat) (forward : Bool)
  /-- EDGE_LOOP -/
  | loop (edges : List Nat)
  /-- FACE_OUTER_BOUND -/
  | bound (loop : Nat)
  /-- AXIS2_PLACEMENT_3D -/
  | axis (pt normal ref : Nat)
  /-- PLANE -/
  | plane (axis : Nat)
  /-- ADVANCED_FACE -/
  | face (bound plane : Nat)
  /-- CLOSED_SHELL or OPEN_SHELL -/
  | shell (closed : Bool) (faces : List Nat)
  /-- MANIFOLD_SOLID_BREP -/
  | solid (name : String) (shell : Nat)
  /-- SHELL_BASED_SURFACE_MODEL -/
  | model (name : String) (shell : Nat)
  /-- APPLICATION_CONTEXT -/
  | appContext
  /-- PRODUCT_CONTEXT -/
  | prodContext (app : Nat)
  /-- PRODUCT -/
  | product (name : String) (ctx : Nat)
  /-- PRODUCT_DEFINITION_FORMATION -/
  | formation (product : Nat)
  /-- PRODUCT_DEFINITION_CONTEXT -/
  | pdContext (app : Nat)
  /-- PRODUCT_DEFINITION -/
  | productDef (formation ctx : Nat)
  /-- PRODUCT_DEFINITION_SHAPE -/
  | pdShape (pd : Nat)
  /-- the three units -/
  | lengthUnit
  | angleUnit
  | solidAngleUnit
  /-- MEASURE_WITH_UNIT -/
  | measure (unit : Nat)
  /-- UNCERTAINTY_MEASURE_WITH_UNIT -/
  | uncertainty (measure : Nat)
  /-- the geometric context -/
  | context (unc length angle solidAngle : Nat)
  /-- ADVANCED_BREP_SHAPE_REPRESENTATION -/
  | shape (items : List Nat) (ctx : Nat)
  /-- SHAPE_DEFINITION_REPRESENTATION -/
  | root (shape rep : Nat)
deriving DecidableEq

/-- exceptions -/
inductive Err
  | valueError
deriving DecidableEq

variable {P D L : Type} [DecidableEq P]

/-- `_Vertex`, step.py:183-187 -/
structure Vtx (P : Type) where
  coords : P
  pt : Nat
  id : Nat

/-- `vertex_map.get(coords)` -/
def find (vm : List (Vtx P)) (p : P) : Option (Vtx P) := vm.find? fun v => decide (v.coords = p)

/-- one corner, step.py:237-244: the entities and the vertices so far. `_EntityWriter.add`, step.py:213-216, numbers the entities from 1 on. -/
def addVertex (st : List (Ent P D L) × List (Vtx P)) (p : P) : List (Ent P D L) × List (Vtx P) :=
  match find st.2 p with
  | some _ => st
  | none => (st.1 ++ [.point p, .vertex (st.1.length + 1)], st.2 ++ [⟨p, st.1.length + 1, st.1.length + 2⟩])

/-- the corners of a triangle -/
def corners (t : Tri P D) : List P := [t.v0, t.v1, t.v2]

/-- all the corners, step.py:235-244 -/
def addVertices (tris : List (Tri P D)) : List (Ent P D L) × List (Vtx P) := (tris.flatMap corners).foldl addVertex ([], [])

/-- `vertex_map[coords]`, step.py:262-264; all corners are there -/
def look (vm : List (Vtx P)) (p : P) : Vtx P := (find vm p).getD ⟨p, 0, 0⟩

/-- the sides of a triangle as pairs of vertices, step.py:267, 317 -/
def sides (vm : List (Vtx P)) (t : Tri P D) : List (Vtx P × Vtx P) :=
  [(look vm t.v0, look vm t.v1), (look vm t.v1, look vm t.v2), (look vm t.v2, look vm t.v0)]

/-- `_edge_key`, step.py:471-472 -/
def edgeKey (a b : Nat) : Nat × Nat := if a ≤ b then (a, b) else (b, a)

/-- the uses of edges: keys and numbers of triangles, in order, step.py:261-269 -/
def uses (vm : List (Vtx P)) (tris : List (Tri P D)) : List ((Nat × Nat) × Nat) :=
  tris.zipIdx.flatMap fun ti => (sides vm ti.1).map fun s => (edgeKey s.1.id s.2.id, ti.2)

/-- `edge_to_faces[key]` -/
def facesOf (us : List ((Nat × Nat) × Nat)) (k : Nat × Nat) : List Nat := (us.filter fun u => decide (u.1 = k)).map (·.2)

/-- all pairs of a list, the earlier element first, step.py:273-275 -/
def pairs {X : Type} : List X → List (X × X)
  | [] => []
  | x :: xs => xs.map (x, ·) ++ pairs xs

/-- the pairs of neighbours, step.py:272-275, for every key of the dictionary -/
def adjacent (us : List ((Nat × Nat) × Nat)) : List (Nat × Nat) := ((us.map (·.1)).dedup).flatMap fun k => pairs (facesOf us k)

/-- `neighbors[i]`, step.py:271-277. A set has no order; here the order is that of `dedup`. -/
def neighbors (us : List ((Nat × Nat) × Nat)) (i : Nat) : List Nat :=
  ((adjacent us).flatMap fun ab => (if ab.1 = i then [ab.2] else []) ++ (if ab.2 = i then [ab.1] else [])).dedup

/-- the `while stack` loop, step.py:290-296: `m` is `tri_component` (`none` is -1). The rounds are bounded by the first argument. -/
def flood (nb : Nat → List Nat) (c : Nat) : Nat → List Nat → (Nat → Option Nat) → Nat → Option Nat
  | 0, _, m => m
  | _ + 1, [], m => m
  | f + 1, i :: st, m =>
    let new := (nb i).filter fun j => (m j).isNone
    flood nb c f (new.reverse ++ st) fun j => if j ∈ new then some c else m j

/-- the loop over the triangles, step.py:282-298: `tri_component` and the number of components. `n` is the number of triangles. -/
def label (nb : Nat → List Nat) (n : Nat) : List Nat → (Nat → Option Nat) × Nat → (Nat → Option Nat) × Nat
  | [], st => st
  | i :: is, st =>
    if (st.1 i).isSome then label nb n is st
    else label nb n is (flood nb st.2 n [i] (fun j => if j = i then some st.2 else st.1 j), st.2 + 1)

/-- the components, step.py:279-298 -/
def components (us : List ((Nat × Nat) × Nat)) (n : Nat) : (Nat → Option Nat) × Nat := label (neighbors us) n (List.range n) (fun _ => none, 0)

/-- `component_closed[c]`, step.py:300-308 -/
def isClosed (us : List ((Nat × Nat) × Nat)) (comp : Nat → Option Nat) (c : Nat) : Bool :=
  (us.map (·.1)).all fun k => decide ((facesOf us k).countP (fun f => decide (comp f = some c)) ∈ [0, 2])

/-- `_EdgeData`, step.py:190-196 -/
structure EdgeData where
  curve : Nat
  forward : Nat
  reverse : Nat
  start : Nat
  stop : Nat

/-- `edge_store.get(key)` -/
def stored (es : List ((Nat × Nat) × EdgeData)) (k : Nat × Nat) : Option EdgeData := (es.find? fun e => decide (e.1 = k)).map (·.2)

/-- a new edge, `_line_for_edge`, step.py:246-256, and step.py:321-333 -/
def newEdge (geo : Geo P D L) (w : List (Ent P D L)) (a b : Vtx P) : List (Ent P D L) × EdgeData :=
  let n := w.length
  (w ++ [.direction (geo.dir a.coords b.coords), .vector (n + 1) (geo.len a.coords b.coords), .line a.pt (n + 2), .edge a.id b.id (n + 3), .oriented (n + 4) true, .oriented (n + 4) false],
    ⟨n + 4, n + 5, n + 6, a.id, b.id⟩)

/-- the writer and the edges stored -/
abbrev St (P D L : Type) := List (Ent P D L) × List ((Nat × Nat) × EdgeData)

/-- one side of a triangle, step.py:317-338: the state and the oriented edge -/
def addSide (geo : Geo P D L) (st : St P D L) (s : Vtx P × Vtx P) : St P D L × Nat :=
  let pick (d : EdgeData) : Nat := if d.start = s.1.id ∧ d.stop = s.2.id then d.forward else d.reverse
  match stored st.2 (edgeKey s.1.id s.2.id) with
  | some d => (st, pick d)
  | none =>
    let r := newEdge geo st.1 s.1 s.2
    ((r.1, st.2 ++ [(edgeKey s.1.id s.2.id, r.2)]), pick r.2)

/-- the sides of a triangle one after the other -/
def addSides (geo : Geo P D L) (st : St P D L) : List (Vtx P × Vtx P) → St P D L × List Nat
  | [] => (st, [])
  | s :: ss =>
    let r := addSide geo st s
    let q := addSides geo r.1 ss
    (q.1, r.2 :: q.2)

/-- a triangle, step.py:313-355: the state and the face -/
def addTri (geo : Geo P D L) (vm : List (Vtx P)) (st : St P D L) (t : Tri P D) : St P D L × Nat :=
  let r := addSides geo st (sides vm t)
  let n := r.1.1.length
  ((r.1.1 ++ [.loop r.2, .bound (n + 1), .direction t.normal, .direction (geo.perp t.normal), .axis (look vm t.v0).pt (n + 3) (n + 4), .plane (n + 5), .face (n + 2) (n + 6)], r.1.2), n + 7)

/-- all the triangles -/
def addTris (geo : Geo P D L) (vm : List (Vtx P)) (st : St P D L) : List (Tri P D) → St P D L × List Nat
  | [] => (st, [])
  | t :: ts =>
    let r := addTri geo vm st t
    let q := addTris geo vm r.1 ts
    (q.1, r.2 :: q.2)

/-- `face_ids_by_component[c]`, step.py:311, 355 -/
def groupIds (comp : Nat → Option Nat) (ids : List Nat) (c : Nat) : List Nat := (ids.zipIdx.filter fun fi => decide (comp fi.2 = some c)).map (·.1)

/-- the name of a shell, step.py:361 -/
def shellName (name : String) (count c : Nat) : String := if count = 1 then name else name ++ "_" ++ toString (c + 1)

/-- the shells, step.py:357-371: the writer and the representation items -/
def addShells (name : String) (count : Nat) (closed : Nat → Bool) (group : Nat → List Nat) (w : List (Ent P D L)) : List Nat → List (Ent P D L) × List Nat
  | [] => (w, [])
  | c :: cs =>
    if group c = [] then addShells name count closed group w cs
    else
      let n := w.length
      let item : Ent P D L := if closed c then .solid (shellName name count c) (n + 1) else .model (shellName name count c) (n + 1)
      let r := addShells name count closed group (w ++ [.shell (closed c) (group c), item]) cs
      (r.1, (n + 2) :: r.2)

/-- the end of the file, step.py:376-421 -/
def footer (name : String) (n : Nat) (items : List Nat) : List (Ent P D L) :=
  [.appContext, .prodContext (n + 1), .product name (n + 2), .formation (n + 3), .pdContext (n + 1), .productDef (n + 4) (n + 5), .pdShape (n + 6), .lengthUnit, .angleUnit, .solidAngleUnit,
    .measure (n + 8), .uncertainty (n + 11), .context (n + 12) (n + 8) (n + 9) (n + 10), .shape items (n + 13), .root (n + 7) (n + 14)]

/-- `write_step`, step.py:223-437: the entities of the file -/
def write (geo : Geo P D L) (name : String) (tris : List (Tri P D)) : Except Err (List (Ent P D L)) :=
  if tris = [] then .error .valueError
  else
    let (w, vm) := addVertices tris
    let us := uses vm tris
    let (comp, count) := components us tris.length
    let (st, ids) := addTris geo vm (w, []) tris
    let (w, items) := addShells name count (isClosed us comp) (groupIds comp ids) st.1 (List.range count)
    if items = [] then .error .valueError else .ok (w ++ footer name w.length items)

end Verif.Step
