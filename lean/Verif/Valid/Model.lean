import Mathlib.Analysis.SpecialFunctions.Trigonometric.Inverse
import Mathlib.Data.Real.Sqrt
import Mathlib.Algebra.Order.Field.Basic

/-!
# Model of `src/yapcad/assembly/kinematic_integration.py`

Vectors, boxes, rays and triangles over any ordered field (so that they can be run on rational numbers), lengths and angles over the
real numbers. Messages, details and warnings of the results are not modelled, and numpy is taken as installed.
-/

namespace Verif.Valid

/-- a vector of three numbers -/
@[ext] structure V (K : Type) where
  x : K
  y : K
  z : K
  deriving DecidableEq

/-- a transform: the first three rows of the 4x4 matrix, each as three numbers and one of the translation. The last row is never read. -/
@[ext] structure Tf (K : Type) where
  r1 : V K
  r2 : V K
  r3 : V K
  o : V K

/-- a box: least and greatest corner -/
abbrev Box (K : Type) := V K × V K

section field
variable {K : Type} [Field K] [LinearOrder K]

def vsub (a b : V K) : V K := ⟨a.x - b.x, a.y - b.y, a.z - b.z⟩
def vadd (a b : V K) : V K := ⟨a.x + b.x, a.y + b.y, a.z + b.z⟩
def smul (c : K) (a : V K) : V K := ⟨c * a.x, c * a.y, c * a.z⟩
def dot (a b : V K) : K := a.x * b.x + a.y * b.y + a.z * b.z
def cross (a b : V K) : V K := ⟨a.y * b.z - a.z * b.y, a.z * b.x - a.x * b.z, a.x * b.y - a.y * b.x⟩

/-- `_transform_vector`, kinematic_integration.py:744-748 -/
def turn (t : Tf K) (v : V K) : V K := ⟨dot t.r1 v, dot t.r2 v, dot t.r3 v⟩

/-- the transform of a point, `transform @ [x, y, z, 1]` -/
def place (t : Tf K) (v : V K) : V K := vadd (turn t v) t.o

/-- `_get_standard_face_offset`, kinematic_integration.py:754-801; `name` is the name in capitals -/
def faceOffset (name : String) (bounds : Option (Box K)) : Option (V K) :=
  match bounds with
  | none => none
  | some (lo, hi) =>
    let cx := (lo.x + hi.x) / 2
    let cy := (lo.y + hi.y) / 2
    let cz := (lo.z + hi.z) / 2
    if name = "TOP" then some ⟨cx, cy, hi.z⟩
    else if name = "BOTTOM" then some ⟨cx, cy, lo.z⟩
    else if name = "FRONT" then some ⟨cx, hi.y, cz⟩
    else if name = "BACK" then some ⟨cx, lo.y, cz⟩
    else if name = "RIGHT" then some ⟨hi.x, cy, cz⟩
    else if name = "LEFT" then some ⟨lo.x, cy, cz⟩
    else none

/-- `_get_face_position`, kinematic_integration.py:803-870, for a face name that is given: the position, and whether there is an error
message. Names of faces are taken to be in capitals (the code also accepts other cases for the six standard names). -/
def facePosition (part : String) (t : Tf K) (face : String) (bounds : Option (Box K)) (world : String → Option (Tf K)) : V K × Bool :=
  match faceOffset face bounds with
  | some v => (place t v, false)
  | none =>
    match world (part ++ "." ++ face) with
    | some u => (u.o, false)
    | none =>
      match world face with
      | some u => (u.o, false)
      | none => (t.o, true)

/-- the eight corners, kinematic_integration.py:1687-1695 -/
def corners (b : Box K) : List (V K) :=
  [⟨b.1.x, b.1.y, b.1.z⟩, ⟨b.1.x, b.1.y, b.2.z⟩, ⟨b.1.x, b.2.y, b.1.z⟩, ⟨b.1.x, b.2.y, b.2.z⟩,
   ⟨b.2.x, b.1.y, b.1.z⟩, ⟨b.2.x, b.1.y, b.2.z⟩, ⟨b.2.x, b.2.y, b.1.z⟩, ⟨b.2.x, b.2.y, b.2.z⟩]

/-- componentwise least and greatest of a point and a list of points -/
def hull (p : V K) (l : List (V K)) : Box K :=
  l.foldl (fun b q => (⟨min b.1.x q.x, min b.1.y q.y, min b.1.z q.z⟩, ⟨max b.2.x q.x, max b.2.y q.y, max b.2.z q.z⟩)) (p, p)

/-- `_transform_aabb`, kinematic_integration.py:1676-1702 -/
def transformBox (t : Tf K) (b : Box K) : Box K :=
  hull (place t ⟨b.1.x, b.1.y, b.1.z⟩) ((corners b).map (place t))

/-- the least of the gaps above zero, or the greatest if there is none, kinematic_integration.py:1667-1674 -/
def leastGap (dx dy dz : K) : K :=
  match [dx, dy, dz].filter (0 < ·) with
  | d :: l => l.foldl min d
  | [] => max (max dx dy) dz

/-- the gap of two boxes along the axes -/
def gapX (a b : Box K) : K := max (a.1.x - b.2.x) (b.1.x - a.2.x)
def gapY (a b : Box K) : K := max (a.1.y - b.2.y) (b.1.y - a.2.y)
def gapZ (a b : Box K) : K := max (a.1.z - b.2.z) (b.1.z - a.2.z)

/-- `_calculate_bbox_separation`, kinematic_integration.py:1655-1674 -/
def separation (ta : Tf K) (ba : Box K) (tb : Tf K) (bb : Box K) : K :=
  let a := transformBox ta ba
  let b := transformBox tb bb
  leastGap (gapX a b) (gapY a b) (gapZ a b)

/-- `_aabb_intersects`, kinematic_integration.py:312-326 -/
def boxesMeet (a b : Box K) : Bool :=
  !(decide (a.2.x < b.1.x) || decide (b.2.x < a.1.x)) && !(decide (a.2.y < b.1.y) || decide (b.2.y < a.1.y)) &&
    !(decide (a.2.z < b.1.z) || decide (b.2.z < a.1.z))

/-- a triangle: three corners -/
abbrev Tri (K : Type) := V K × V K × V K

/-- `_ray_triangle_intersect`, kinematic_integration.py:468-508 -/
def rayHits (o d : V K) (t : Tri K) : Bool :=
  let e1 := vsub t.2.1 t.1
  let e2 := vsub t.2.2 t.1
  let p := cross d e2
  let det := dot e1 p
  if |det| < 1 / 10 ^ 10 then false
  else
    let inv := 1 / det
    let s := vsub o t.1
    let u := dot s p * inv
    if u < 0 ∨ u > 1 then false
    else
      let q := cross s e1
      let v := dot d q * inv
      if v < 0 ∨ u + v > 1 then false
      else decide (dot e2 q * inv > 1 / 10 ^ 10)

/-- a mesh: vertices and triangles -/
structure Mesh (K : Type) where
  vertices : List (V K)
  triangles : List (Tri K)

/-- one point of `_points_inside_mesh_simple`, kinematic_integration.py:424-465. `pick` is the random choice of 1000 triangles of a mesh that
has more. -/
def inside (pick : List (Tri K) → List (Tri K)) (m : Mesh K) (p : V K) : Bool :=
  let ts := if m.triangles.length > 1000 then pick m.triangles else m.triangles
  (ts.countP (rayHits p ⟨1, 0, 0⟩)) % 2 == 1

/-- the bounds of a mesh, which trimesh computes; nothing for a mesh without vertices -/
def bounds (m : Mesh K) : Option (Box K) :=
  match m.vertices with
  | [] => none
  | p :: l => some (hull p l)

/-- a point in a box, kinematic_integration.py:355-358 -/
def inBox (b : Box K) (p : V K) : Bool :=
  decide (b.1.x ≤ p.x) && decide (b.1.y ≤ p.y) && decide (b.1.z ≤ p.z) && decide (p.x ≤ b.2.x) && decide (p.y ≤ b.2.y) && decide (p.z ≤ b.2.z)

/-- five equally spaced numbers, `np.linspace` -/
def spaced (a b : K) : List K := (List.range 5).map fun i : ℕ => a + (b - a) * (i : K) / 4

/-- the points of the grid in the overlap of two boxes, kinematic_integration.py:376-386 -/
def grid (a b : Box K) : List (V K) :=
  (spaced (max a.1.x b.1.x) (min a.2.x b.2.x)).flatMap fun x =>
    (spaced (max a.1.y b.1.y) (min a.2.y b.2.y)).flatMap fun y =>
      (spaced (max a.1.z b.1.z) (min a.2.z b.2.z)).map fun z => ⟨x, y, z⟩

/-- `_check_collision_sampling`, kinematic_integration.py:329-421: the contact points; there is a collision if there is one. The estimate of the
depth is left out. `pa` and `pb` are the random choices of triangles (each call makes a new choice; for meshes of at most 1000
triangles they do not matter). -/
def sampling (pa pb : List (Tri K) → List (Tri K)) (a b : Mesh K) (ba bb : Box K) : List (V K) :=
  let ca := a.vertices.filter (inBox bb)
  let cb := b.vertices.filter (inBox ba)
  if ca = [] ∧ cb = [] then ((grid ba bb).filter fun p => inside pa a p && inside pb b p).take 10
  else (((ca.filter (inside pb b)).take 10) ++ ((cb.filter (inside pa a)).take 10)).take 20

/-- a mesh moved by a transform -/
def move (t : Tf K) (m : Mesh K) : Mesh K :=
  ⟨m.vertices.map (place t), m.triangles.map fun s => (place t s.1, place t s.2.1, place t s.2.2)⟩

/-- results of `check_mesh_collision`: an error message, no collision, or a collision -/
inductive Hit where
  | failed
  | no
  | yes
  deriving DecidableEq

/-- what `check_mesh_collision` gets from outside: files that load as meshes, the collision library (`none` if it is not installed or
fails), and the random choices -/
structure Lab (K : Type) where
  load : String → Option (Mesh K)
  library : Mesh K → Mesh K → Option Bool
  pa : List (Tri K) → List (Tri K)
  pb : List (Tri K) → List (Tri K)

/-- `check_mesh_collision`, kinematic_integration.py:103-279, with 4x4 matrices as transforms and trimesh installed; `none` is an exception
(a mesh without vertices). -/
def checkMesh (lab : Lab K) (fa : String) (ta : Tf K) (fb : String) (tb : Tf K) : Option Hit :=
  match lab.load fa with
  | none => some .failed
  | some ma =>
    match lab.load fb with
    | none => some .failed
    | some mb =>
      match bounds (move ta ma) with
      | none => none
      | some ba =>
        match bounds (move tb mb) with
        | none => none
        | some bb =>
          if boxesMeet ba bb then
            match lab.library (move ta ma) (move tb mb) with
            | some true => some .yes
            | some false => some .no
            | none => if sampling lab.pa lab.pb (move ta ma) (move tb mb) ba bb ≠ [] then some .yes else some .no
          else some .no

end field

/-! ## constraints -/

open Real

/-- `np.linalg.norm` -/
noncomputable def norm (v : V ℝ) : ℝ := √(v.x ^ 2 + v.y ^ 2 + v.z ^ 2)

/-- how an axis is given: a name (in lower case) or a vector -/
inductive Axis where
  | name (s : String)
  | vector (v : V ℝ)

/-- `_get_local_axis`, kinematic_integration.py:717-742 -/
noncomputable def localAxis : Axis → Option (V ℝ)
  | .name s =>
    if s = "x" then some ⟨1, 0, 0⟩
    else if s = "y" then some ⟨0, 1, 0⟩
    else if s = "z" then some ⟨0, 0, 1⟩
    else if s = "-x" then some ⟨-1, 0, 0⟩
    else if s = "-y" then some ⟨0, -1, 0⟩
    else if s = "-z" then some ⟨0, 0, -1⟩
    else none
  | .vector v => if norm v < 1e-10 then none else some (smul (1 / norm v) v)

/-- a reference axis divided by its norm (kinematic_integration.py:1048-1049, 1099-1100, 1139-1140, 1328-1329): nothing stands for the vector of
NaNs that numpy gives for a zero axis -/
noncomputable def unit (v : V ℝ) : Option (V ℝ) := if norm v = 0 then none else some (smul (1 / norm v) v)

/-- `min(1.0, abs(float(np.dot(a, b))))`: with NaN this is 1.0, because `min` keeps its first argument unless the second is smaller -/
noncomputable def absDot (a : V ℝ) (b : Option (V ℝ)) : ℝ :=
  match b with
  | some b => min 1 |dot a b|
  | none => 1

/-- `math.degrees` -/
noncomputable def degrees (x : ℝ) : ℝ := x * 180 / π

/-- `ConstraintEvaluationResult`, kinematic_integration.py:569-591, without messages and details -/
structure Res where
  satisfied : Bool
  error : ℝ := 0

/-- the kinds of `KinematicConstraintType`, kinematic_integration.py:540-566 -/
inductive Kind where
  | coincident
  | concentric
  | atDistance
  | parallel
  | perpendicular
  | tangent
  | boltPattern
  | minDistance
  | zStack
  | noOverlap
  | custom
  deriving DecidableEq

/-- the transforms of the parts by name -/
abbrev World := String → Option (Tf ℝ)

/-- `KinematicConstraint`, kinematic_integration.py:593-715; a validator that raises is one without a result -/
structure Con where
  name : String
  kind : Kind
  frameA : String
  frameB : Option String := none
  faceA : Option String := none
  faceB : Option String := none
  axisA : Axis := .name "z"
  axisB : Axis := .name "z"
  center : Option (V ℝ) := none
  radius : Option ℝ := none
  axis : Option (V ℝ) := none
  normal : Option (V ℝ) := none
  count : ℤ := 0
  patternRadius : ℝ := 0
  offset : ℝ := 0
  tolMm : ℝ := 0.1
  tolDeg : ℝ := 1
  boundsA : Option (Box ℝ) := none
  boundsB : Option (Box ℝ) := none
  stlA : Option String := none
  stlB : Option String := none
  severity : String := "error"
  validator : Option (World → Option Res) := none

/-- a result that says that the constraint could not be evaluated -/
def cannot : Res := { satisfied := false }

/-- a yes-or-no test as a result -/
noncomputable def test (p : Prop) (error : ℝ) : Res := { satisfied := @decide p (Classical.propDecidable p), error := error }

/-- where the second thing of a positional constraint is, kinematic_integration.py:993-1003, 1255-1265, 1376-1388 -/
def second (c : Con) (faceB : Option (V ℝ)) (tb : Option (Tf ℝ)) : Option (V ℝ) :=
  match faceB with
  | some p => some p
  | none =>
    match tb with
    | some t => some t.o
    | none => c.center

/-- the origin and the axis of the second part, or of the reference; the outer `none` is the exception of a product with `None` (an invalid
`axis_b`), the inner one a missing reference. kinematic_integration.py:1043-1054, 1096-1105, 1136-1145, 1322-1334. -/
noncomputable def secondAxis (c : Con) (tb : Option (Tf ℝ)) (ref : Option (V ℝ)) : Option (Option (Option (V ℝ))) :=
  match tb with
  | some t =>
    match localAxis c.axisB with
    | some b => some (some (some (turn t b)))
    | none => none
  | none =>
    match ref with
    | some v => some (some (unit v))
    | none => some none

/-- `_evaluate_coincident`, kinematic_integration.py:980-1028 -/
noncomputable def coincident (c : Con) (a : V ℝ) (b : Option (V ℝ)) : Res :=
  match b with
  | none => cannot
  | some b => test (norm (vsub b a) ≤ c.tolMm) (norm (vsub b a))

/-- `_evaluate_at_distance`, kinematic_integration.py:1242-1297 -/
noncomputable def atDistance (c : Con) (a : V ℝ) (b : Option (V ℝ)) : Res :=
  match b with
  | none => cannot
  | some b =>
    match c.radius with
    | none => cannot
    | some r => test (|norm (vsub b a) - r| ≤ c.tolMm) |norm (vsub b a) - r|

/-- the angle of `acos(min(1, |a·b|))` in degrees -/
noncomputable def angleTo (a : V ℝ) (b : Option (V ℝ)) : ℝ := degrees (arccos (absDot a b))

/-- `_evaluate_parallel`, kinematic_integration.py:1084-1122 -/
noncomputable def parallel (c : Con) (ta : Tf ℝ) (tb : Option (Tf ℝ)) : Option Res :=
  match localAxis c.axisA with
  | none => some cannot
  | some la =>
    match secondAxis c tb c.axis with
    | none => none
    | some none => some cannot
    | some (some b) => some (test (angleTo (turn ta la) b ≤ c.tolDeg) (angleTo (turn ta la) b))

/-- `_evaluate_perpendicular`, kinematic_integration.py:1124-1163 -/
noncomputable def perpendicular (c : Con) (ta : Tf ℝ) (tb : Option (Tf ℝ)) : Option Res :=
  match localAxis c.axisA with
  | none => some cannot
  | some la =>
    match secondAxis c tb c.axis with
    | none => none
    | some none => some cannot
    | some (some b) =>
      let e := degrees (arcsin (absDot (turn ta la) b))
      some (test (e ≤ c.tolDeg) e)

/-- the distance of a point from the line through an origin along a unit axis, kinematic_integration.py:1060-1064 -/
noncomputable def offLine (o axis p : V ℝ) : ℝ :=
  let v := vsub p o
  norm (vsub v (smul (dot v axis) axis))

/-- `_evaluate_concentric`, kinematic_integration.py:1030-1082 -/
noncomputable def concentric (c : Con) (ta : Tf ℝ) (tb : Option (Tf ℝ)) : Option Res :=
  match localAxis c.axisA with
  | none => some cannot
  | some la =>
    match secondAxis c tb (if c.center.isSome then c.axis else none) with
    | none => none
    | some none => some cannot
    | some (some b) =>
      match second c none tb with
      | none => some cannot
      | some ob =>
        let a := turn ta la
        some (test (angleTo a b ≤ c.tolDeg ∧ offLine ta.o a ob ≤ c.tolMm) (max (angleTo a b) (offLine ta.o a ob)))

/-- `_evaluate_tangent`, kinematic_integration.py:1165-1240 -/
noncomputable def tangent (c : Con) (ta : Tf ℝ) : Res :=
  match c.center with
  | none => cannot
  | some m =>
    match localAxis c.axisA with
    | none => cannot
    | some la =>
      let r : V ℝ := ⟨ta.o.x - m.x, ta.o.y - m.y, 0⟩
      if norm r < 1e-10 then cannot
      else
        let a := turn ta la
        let h : V ℝ := ⟨a.x, a.y, 0⟩
        if norm h < 1e-10 then { satisfied := true }
        else
          let e := degrees (arcsin (min 1 |dot (smul (1 / norm r) r) (smul (1 / norm h) h)|))
          test (e ≤ c.tolDeg) e

/-- `_evaluate_bolt_pattern`, kinematic_integration.py:1299-1365 -/
noncomputable def boltPattern (c : Con) (ta : Tf ℝ) (tb : Option (Tf ℝ)) : Option Res :=
  if c.count < 2 then some cannot
  else if c.patternRadius ≤ 0 then some cannot
  else
    match localAxis c.axisA with
    | none => some cannot
    | some la =>
      match secondAxis c tb (if c.center.isSome then c.normal else none) with
      | none => none
      | some none => some cannot
      | some (some b) =>
        match second c none tb with
        | none => some cannot
        | some ob =>
          let d := norm (vsub ob ta.o)
          let e := angleTo (turn ta la) b
          some (test (d ≤ c.tolMm ∧ e ≤ c.tolDeg) (max d e))

/-- `_evaluate_min_distance`, kinematic_integration.py:1367-1436 -/
noncomputable def minDistance (c : Con) (a : V ℝ) (b : Option (V ℝ)) (ta : Tf ℝ) (tb : Option (Tf ℝ)) : Option Res :=
  match b with
  | none => some cannot
  | some b =>
    match c.radius with
    | none => some cannot
    | some r =>
      match c.boundsA, c.boundsB with
      | some ba, some bb =>
        match tb with
        | none => none
        | some tb => some (test (r ≤ separation ta ba tb bb) (max 0 (r - separation ta ba tb bb)))
      | _, _ => some (test (r ≤ norm (vsub b a)) (max 0 (r - norm (vsub b a))))

/-- `_evaluate_z_stack_clearance`, kinematic_integration.py:1438-1535 -/
noncomputable def zStack (c : Con) (ta : Tf ℝ) (tb : Option (Tf ℝ)) : Res :=
  match tb with
  | none => cannot
  | some tb =>
    match c.boundsA, c.boundsB with
    | some ba, some bb =>
      let m := c.radius.getD 0
      let za := |(turn ta ⟨0, 0, 1⟩).z|
      let zb := |(turn tb ⟨0, 0, 1⟩).z|
      let topA := ta.o.z + ba.2.z * za
      let botA := ta.o.z + ba.1.z * za
      let topB := tb.o.z + bb.2.z * zb
      let botB := tb.o.z + bb.1.z * zb
      let v := min topA topB - max botA botB
      if v > 0 then { satisfied := false, error := v + m }
      else if -v ≥ m then { satisfied := true }
      else { satisfied := false, error := m - -v }
    | _, _ => cannot

/-- the overlap test of two boxes and the depth, kinematic_integration.py:1567-1583 -/
noncomputable def overlap (a b : Box ℝ) : Res :=
  if (a.1.x ≤ b.2.x ∧ b.1.x ≤ a.2.x) ∧ (a.1.y ≤ b.2.y ∧ b.1.y ≤ a.2.y) ∧ (a.1.z ≤ b.2.z ∧ b.1.z ≤ a.2.z) then
    { satisfied := false,
      error := min (min (min (a.2.x - b.1.x) (b.2.x - a.1.x)) (min (a.2.y - b.1.y) (b.2.y - a.1.y))) (min (a.2.z - b.1.z) (b.2.z - a.1.z)) }
  else { satisfied := true }

/-- `_evaluate_mesh_collision`, kinematic_integration.py:1603-1653, without the depth -/
noncomputable def meshCollision (lab : Lab ℝ) (fa : String) (ta : Tf ℝ) (fb : String) (tb : Tf ℝ) : Option Res :=
  match checkMesh lab fa ta fb tb with
  | none => none
  | some .failed => some cannot
  | some .no => some { satisfied := true }
  | some .yes => some { satisfied := false }

/-- `_evaluate_no_overlap`, kinematic_integration.py:1537-1601 -/
noncomputable def noOverlap (lab : Lab ℝ) (c : Con) (ta : Tf ℝ) (tb : Option (Tf ℝ)) : Option Res :=
  match tb with
  | none => some cannot
  | some tb =>
    match c.stlA, c.stlB with
    | some fa, some fb => meshCollision lab fa ta fb tb
    | _, _ =>
      match c.boundsA, c.boundsB with
      | some ba, some bb => some (overlap (transformBox ta ba) (transformBox tb bb))
      | _, _ => some { satisfied := true }

/-- the second frame, kinematic_integration.py:902-912: the outer `none` is a frame that is not found, the inner one no frame -/
def lookB (world : World) (c : Con) : Option (Option (String × Tf ℝ)) :=
  match c.frameB with
  | none => some none
  | some f =>
    match world f with
    | none => none
    | some t => some (some (f, t))

/-- the place on the first part, kinematic_integration.py:920-925 and 987-991 -/
noncomputable def pointA (c : Con) (ta : Tf ℝ) (world : World) : V ℝ :=
  match c.faceA with
  | some f => (facePosition c.frameA ta f c.boundsA world).1
  | none => ta.o

/-- the face on the second part, kinematic_integration.py:927-932 -/
noncomputable def pointB (c : Con) (fb : Option (String × Tf ℝ)) (world : World) : Option (V ℝ) :=
  match c.faceB, fb with
  | some f, some (n, t) => some (facePosition n t f c.boundsB world).1
  | _, _ => none

/-- `KinematicConstraint.evaluate`, kinematic_integration.py:872-978; `none` is an exception -/
noncomputable def evaluate (lab : Lab ℝ) (c : Con) (world : World) : Option Res :=
  match world c.frameA with
  | none => some cannot
  | some ta =>
    match lookB world c with
    | none => some cannot
    | some fb =>
      let tb := fb.map (·.2)
      let a := pointA c ta world
      let faceB := pointB c fb world
      let b := second c faceB tb
      match c.kind with
      | .coincident => some (coincident c a b)
      | .concentric => concentric c ta tb
      | .parallel => parallel c ta tb
      | .perpendicular => perpendicular c ta tb
      | .tangent => some (tangent c ta)
      | .atDistance => some (atDistance c a b)
      | .boltPattern => boltPattern c ta tb
      | .minDistance => minDistance c a b ta tb
      | .zStack => some (zStack c ta tb)
      | .noOverlap => noOverlap lab c ta tb
      | .custom =>
        match c.validator with
        | none => some cannot
        | some f =>
          match f world with
          | some r => some r
          | none => some cannot

/-! ## reports -/

/-- `ValidationReport`, kinematic_integration.py:1704-1727; the results are kept by name with a later one replacing an earlier one -/
structure Report where
  isValid : Bool
  total : ℕ
  passed : ℕ
  failed : ℕ
  warned : ℕ
  results : String → Option Res
  failedNames : List String
  warnings : List String
  infos : List String

/-- the counters of the loop -/
structure Acc where
  results : String → Option Res := fun _ => none
  passed : ℕ := 0
  failed : List String := []
  warnings : List String := []
  infos : List String := []

/-- one constraint of the loop, kinematic_integration.py:1851-1867; `warnings` and `infos` keep the names (the code keeps name and message);
`failed_count` and `warning_count` are the lengths of the lists. -/
def record (s : Acc) (c : Con) (r : Res) : Acc :=
  let s := { s with results := fun n => if n = c.name then some r else s.results n }
  if r.satisfied then { s with passed := s.passed + 1 }
  else if c.severity = "error" then { s with failed := s.failed ++ [c.name] }
  else if c.severity = "warning" then { s with warnings := s.warnings ++ [c.name] }
  else { s with infos := s.infos ++ [c.name] }

/-- the loop over the constraints; `none` is an exception of one of them -/
def loop (eval : Con → Option Res) : List Con → Acc → Option Acc
  | [], s => some s
  | c :: l, s =>
    match eval c with
    | none => none
    | some r => loop eval l (record s c r)

/-- `AssemblyValidator.validate`, kinematic_integration.py:1833-1879, and `validate_assembly`, kinematic_integration.py:1899-1914 -/
def validate (eval : Con → Option Res) (cs : List Con) : Option Report :=
  match loop eval cs {} with
  | none => none
  | some s => some { isValid := s.failed.length == 0, total := cs.length, passed := s.passed, failed := s.failed.length,
                     warned := s.warnings.length, results := s.results, failedNames := s.failed, warnings := s.warnings, infos := s.infos }

/-- `validate_and_raise`, kinematic_integration.py:1881-1892: `some true` is ValueError -/
def validateAndRaise (eval : Con → Option Res) (cs : List Con) : Option Bool :=
  match validate eval cs with
  | none => none
  | some r => some (!r.isValid)

end Verif.Valid
