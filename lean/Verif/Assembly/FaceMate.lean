import Verif.Assembly.Constraint
import Verif.Assembly.Mate
import Verif.Kin.TransformSpec

/-!
# Model of the transform computations of `src/yapcad/assembly/face_mate.py`

numpy is present (`HAS_NUMPY`). Real arithmetic. A vector or matrix whose entries are NaN (numpy's
result for `0/0`, i.e. normalising a zero vector) is `none`.
-/

namespace Verif.Assembly
open Verif.Kin.Transform (identity compose transformPoint transformVector)

/-- 3x3 numpy arrays -/
abbrev M3 := Matrix (Fin 3) (Fin 3) ℝ
/-- 4x4 numpy arrays -/
abbrev M4 := Verif.Kin.Transform ℝ

/-- `np.cross` -/
def cross3 (a b : V3) : V3 :=
  ![a 1 * b 2 - a 2 * b 1, a 2 * b 0 - a 0 * b 2, a 0 * b 1 - a 1 * b 0]

/-- the cross-product matrix `[v]×`, face_mate.py:529-533, 558-562 and solver.py:640-644 -/
def skew3 (a : V3) : M3 := !![0, -a 2, a 1; a 2, 0, -a 0; -a 1, a 0, 0]

/-- `np.outer` -/
def outer3 (a b : V3) : M3 := fun i j => a i * b j

/-- `T = np.eye(4); T[:3,:3] = R; T[:3,3] = t` -/
def mk4 (R : M3) (t : V3) : M4 :=
  !![R 0 0, R 0 1, R 0 2, t 0; R 1 0, R 1 1, R 1 2, t 1; R 2 0, R 2 1, R 2 2, t 2; 0, 0, 0, 1]

/-- `I + s[a]× + (1-c)[a]×²`, face_mate.py:534 and solver.py:645 -/
def rodM (a : V3) (c s : ℝ) : M3 := 1 + s • skew3 a + (1 - c) • (skew3 a * skew3 a)

/-- `np.cross(v1, [1,0,0])` or `np.cross(v1, [0,1,0])`, face_mate.py:519-522, solver.py:610-613 -/
noncomputable def perpTo (a : V3) : V3 := cross3 a (if |a 0| < 9 / 10 then ![1, 0, 0] else ![0, 1, 0])

/-- `_rotation_between_vectors`, face_mate.py:492-536 -/
noncomputable def rotBetween (v1 v2 : V3) : Option M3 :=
  match unit3 v1, unit3 v2 with
  | some a, some b =>
    let v := cross3 a b
    let s := norm3 v
    let c := dot3 a b
    if s < 1e-10 then
      if c > 0 then some 1
      else (unit3 (perpTo a)).map (fun p => (2 : ℝ) • outer3 p p - 1)
    else some (rodM (fun i => v i / s) c s)
  | _, _ => none

/-- how `compute_flush_transform` picks a datum's normal, face_mate.py:340-352; an error is the
`TypeError` of `None[:3]` -/
noncomputable def flushNormal (d : Datum) : Except String V3 :=
  if d.dtype = .axis then
    match d.direction with
    | some v => .ok (first3 v)
    | none => .error "TypeError"
  else match d.normal with
    | some v => .ok (first3 v)
    | none => .ok ![0, 0, 1]

/-- `_apply_rotation_about_axis`, face_mate.py:539-575 (`axis` is the unit normal or NaN) -/
noncomputable def rotAboutAxis (T : M4) (axis point : V3) (angleDeg : ℝ) : Option M4 :=
  (unit3 axis).map fun n =>
    let c := Real.cos (radians angleDeg)
    let s := Real.sin (radians angleDeg)
    let R : M3 := c • (1 : M3) + s • skew3 n + (1 - c) • outer3 n n
    compose (compose (compose (mk4 1 point) (mk4 R 0)) (mk4 1 (-point))) T

open Classical in
/-- `compute_flush_transform` on raw vectors, face_mate.py:354-382 -/
noncomputable def flushVec (P0 C0 Pn Cn : V3) (offset rotationDeg : ℝ) (flip : Bool) : Option M4 :=
  match unit3 Pn, unit3 Cn with
  | some p, some c =>
    match rotBetween c (if flip then -p else p) with
    | none => none
    | some R =>
      let t : V3 := P0 - R.mulVec C0
      let t : V3 := if offset = 0 then t else t + offset • p
      let T := mk4 R t
      if rotationDeg = 0 then some T else rotAboutAxis T p P0 rotationDeg
  | _, _ => none

/-- `compute_flush_transform`, face_mate.py:307-382 -/
noncomputable def flush (P C : Datum) (offset rotationDeg : ℝ) (flip : Bool) : Except String (Option M4) := do
  let pn ← flushNormal P
  let cn ← flushNormal C
  pure (flushVec (first3 P.origin) (first3 C.origin) pn cn offset rotationDeg flip)

/-- direction, else normal, else z: `compute_concentric_transform`, face_mate.py:404-416 -/
noncomputable def axisOf (d : Datum) : V3 := (dirOrNormal d).getD ![0, 0, 1]

/-- `compute_concentric_transform`, face_mate.py:385-442 (the unused projection 430-434 left out) -/
noncomputable def concentric (P C : Datum) (offset : ℝ) : Option M4 :=
  match unit3 (axisOf P), unit3 (axisOf C) with
  | some p, some c =>
    (rotBetween c p).map fun R =>
      mk4 R (first3 P.origin - R.mulVec (first3 C.origin) + offset • p)
  | _, _ => none

/-- normal, else z, face_mate.py:467-468 -/
noncomputable def normalOr (d : Datum) : V3 := (d.normal.map first3).getD ![0, 0, 1]

/-- `compute_parallel_transform`, face_mate.py:445-485 -/
noncomputable def parallelT (P C : Datum) (offset : ℝ) : Option M4 :=
  match unit3 (normalOr P), unit3 (normalOr C) with
  | some p, some c =>
    (rotBetween c p).map fun R =>
      mk4 R (first3 C.origin - R.mulVec (first3 C.origin) + offset • p)
  | _, _ => none

/-- `FaceToFaceMate`, face_mate.py:90-143, with its cached fields -/
structure FaceMate where
  parentDatum : String
  childDatum : String
  parentSource : String
  childSource : String
  constraint : MateType := .coincident
  offset : ℝ := 0
  rotation : ℝ := 0
  cached : Option (Option M4) := none

/-- the registry lookup the module performs: `none` = `KeyError` -/
abbrev Reg := String → String → Option Datum

/-- attribute lookup `MateType.<NAME>` (Python `enum`): the member with that name, or
`AttributeError`. Names from mate.py:118-145. -/
def MateType.attr (s : String) : Except String MateType :=
  match [("COINCIDENT", MateType.coincident), ("CONCENTRIC", .concentric), ("PARALLEL", .parallel),
    ("PERPENDICULAR", .perpendicular), ("TANGENT", .tangent), ("DISTANCE", .distance), ("ANGLE", .angle),
    ("RIGID", .rigid), ("REVOLUTE", .revolute), ("PRISMATIC", .prismatic), ("CYLINDRICAL", .cylindrical),
    ("SPHERICAL", .spherical), ("PLANAR", .planar), ("PIN_SLOT", .pinSlot), ("UNIVERSAL", .universal),
    ("SCREW", .screw), ("GEAR", .gear), ("RACK_PINION", .rackPinion), ("CAM", .cam),
    ("SLOT", .slot)].lookup s with
  | some t => .ok t
  | none => .error "AttributeError"

/-- `FaceToFaceMate.compute_transform`, face_mate.py:145-210 -/
noncomputable def FaceMate.computeTransform (m : FaceMate) (reg : Reg) (parent : Option M4) :
    Except String (Option M4) :=
  match m.cached with
  | some T => .ok T
  | none => do
    let P ← (reg m.parentSource m.parentDatum).elim (.error "KeyError") .ok
    let C ← (reg m.childSource m.childDatum).elim (.error "KeyError") .ok
    -- `(MateType.COINCIDENT, MateType.ALIGNED)`: the tuple is built before `in` is evaluated
    let t1 ← MateType.attr "COINCIDENT"
    let t2 ← MateType.attr "ALIGNED"
    let tf ← if m.constraint = t1 ∨ m.constraint = t2 then
        flush P C m.offset m.rotation (decide (m.constraint = t1))
      else if m.constraint = .concentric then .ok (concentric P C m.offset)
      else if m.constraint = .parallel then .ok (parallelT P C m.offset)
      else .error "ValueError"
    pure (match parent with
      | none => tf
      | some W => tf.map (compose W))

end Verif.Assembly
