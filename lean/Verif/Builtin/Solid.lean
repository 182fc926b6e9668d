import Verif.Surf.Props

/-!
# Model of the solid built-ins of the DSL: `src/yapcad/dsl/runtime/builtins.py:325-565, 2512-2680, 2830-2870`

A solid carries its mesh (`Verif.Surf`) and, in its metadata, possibly an OpenCascade shape (brep.py) and a native boundary representation (native_brep.py). Here both are the list of
their points; transforming a shape transforms its points. The boundary representations are unaffected when the kernel is missing: `none`.
-/

namespace Verif.Builtin
open Verif.Geom Verif.Surf

/-- a solid: mesh, points of the OpenCascade shape and of the native representation if it has them -/
structure Body where
  mesh : Solid
  brep : Option (List V4) := none
  native : Option (List V4) := none

/-- `_apply_trsf_to_brep`, brep.py:231-247, for the transformation of points -/
def mapBrep (f : V4 → V4) (b : Option (List V4)) : Option (List V4) := b.map (List.map f)

/-- `translatesolid`, geom3d.py:844-862, with `translate_brep_solid`, brep.py:180-189, and `translate_native_brep`, native_brep.py:2548-2570 -/
noncomputable def translateBody (b : Body) (δ : V4) : Body :=
  ⟨translatesolid b.mesh δ, mapBrep (fun p => ⟨p.x + δ.x, p.y + δ.y, p.z + δ.z, p.w⟩) b.brep, mapBrep (fun p => pt (p.x + δ.x) (p.y + δ.y) (p.z + δ.z)) b.native⟩

/-- `translate`, builtins.py:348-353 -/
noncomputable def translateB (b : Body) (x y z : ℝ) : Body := translateBody b (pt x y z)

/-- `rotate_brep_solid` about an axis through the origin, brep.py:192-202: the kernel turns points by the angle -/
noncomputable def brepTurn (axis : V4) (ang : ℝ) (p : V4) : V4 := rotMap (pt 0 0 0) axis (deg ang) p

open Classical in
/-- `rotatesolid` about an axis through the origin without a matrix, geom3d.py:864-882; `rotate_native_brep`, native_brep.py:2573-2597, uses `geom.rotate` of points, geom.py:4206-4222 -/
noncomputable def rotateBody (b : Body) (ang : ℝ) (axis : V4) : Except Err Body :=
  match rotatesolid b.mesh ang (pt 0 0 0) axis with
  | .error e => .error e
  | .ok m => .ok ⟨m, mapBrep (brepTurn axis ang) b.brep,
      if close ang 0 then b.native else
        match rotateMat ang (pt 0 0 0) axis with
        | .ok M => mapBrep (mulP M) b.native
        | .error _ => b.native⟩

open Classical in
/-- one of the three steps of `rotate`, builtins.py:361-370 -/
noncomputable def rotateStep (ang : ℝ) (axis : V4) (b : Body) : Except Err Body :=
  if 1e-10 < |ang| then rotateBody b ang axis else .ok b

/-- `rotate`, builtins.py:355-371 -/
noncomputable def rotateB (b : Body) (x y z : ℝ) : Except Err Body :=
  match rotateStep x (pt 1 0 0) b with
  | .error e => .error e
  | .ok b => match rotateStep y (pt 0 1 0) b with
    | .error e => .error e
    | .ok b => rotateStep z (pt 0 0 1) b

/-- `scale_brep_solid`, brep.py:221-228, and `scale_native_brep`, native_brep.py:2623-2655, about the origin -/
def scalePt (f : ℝ) (p : V4) : V4 := ⟨p.x * f, p.y * f, p.z * f, p.w⟩

open Classical in
/-- `scale`, builtins.py:373-376, calling `scalesolid`, geom3d.py:906-957: for different factors the boundary representations are left as they are -/
noncomputable def scaleB (b : Body) (x y z : ℝ) : Except Err Body :=
  match scalesolid b.mesh x (some y) (some z) (pt 0 0 0) with
  | .error e => .error e
  | .ok m =>
    if vclose (pt x y z) (pt 1 1 1) then .ok b
    else if close x y ∧ close y z then .ok ⟨m, mapBrep (scalePt x) b.brep, mapBrep (scalePt x) b.native⟩
    else .ok ⟨m, b.brep, b.native⟩

open Classical in
/-- the plane chosen by `mirror`, builtins.py:434-441 -/
noncomputable def planeOf (n : V4) : Plane :=
  if |n.x| > |n.y| ∧ |n.x| > |n.z| then .yz else if |n.y| > |n.x| ∧ |n.y| > |n.z| then .xz else .xy

/-- `mirror`, builtins.py:431-442, calling `mirrorsolid`, geom3d.py:884-904, with `mirror_brep_solid`, brep.py:205-218, and `mirror_native_brep`, native_brep.py:2600-2620 -/
noncomputable def mirrorB (b : Body) (n : V4) : Except Err Body :=
  match mirrorsolid b.mesh (planeOf n) with
  | .error e => .error e
  | .ok m => .ok ⟨m, mapBrep (fun p => mul4 p (flip (planeOf n))) b.brep, mapBrep (fun p => mul4 p (flip (planeOf n))) b.native⟩

/-- length of a column of the upper left part of the stored matrix, brep.py:304-306 -/
noncomputable def colLen (M : Xform.Mat ℝ) (j : Fin 4) : ℝ := √(M.m 0 j ^ 2 + M.m 1 j ^ 2 + M.m 2 j ^ 2)

/-- the transformation given to the kernel, brep.py:328-332: the stored entries of the first three rows -/
def brepMat (M : Xform.Mat ℝ) (p : V4) : V4 :=
  ⟨M.m 0 0 * p.x + M.m 0 1 * p.y + M.m 0 2 * p.z + M.m 0 3, M.m 1 0 * p.x + M.m 1 1 * p.y + M.m 1 2 * p.z + M.m 1 3,
    M.m 2 0 * p.x + M.m 2 1 * p.y + M.m 2 2 * p.z + M.m 2 3, p.w⟩

open Classical in
/-- `apply_matrix_to_brep_solid`, brep.py:277-338: a shape is dropped if the lengths of the columns differ. (Simplified: matrices the kernel rejects leave the shape as it is.) -/
noncomputable def applyMatrix (M : Xform.Mat ℝ) (b : Option (List V4)) : Option (List V4) :=
  if 1e-6 < |colLen M 0 - colLen M 1| ∨ 1e-6 < |colLen M 1 - colLen M 2| ∨ 1e-6 < |colLen M 0 - colLen M 2| then none
  else mapBrep (brepMat M) b

/-- `apply` to a solid, builtins.py:502-516: `rotatesolid` with an angle of 0.001 degrees about the z axis and the matrix, which the mesh is moved by (geom3d.py:626-641), while the boundary
representations are turned by the angle; then the matrix is applied to the shape. -/
noncomputable def applyB (M : Xform.Mat ℝ) (b : Body) : Body :=
  ⟨⟨b.mesh.surfs.map fun s => { s with verts := s.verts.map (mulP M), norms := s.norms.map (mulP M) }⟩,
    applyMatrix M (mapBrep (brepTurn (pt 0 0 1) 0.001) b.brep),
    mapBrep (brepTurn (pt 0 0 1) 0.001) b.native⟩

/-- `centroid`, builtins.py:2830-2865: average of the coordinates of all vertices of all surfaces -/
noncomputable def centroidB (x : Solid) : V4 :=
  let vs := x.surfs.flatMap Surface.verts
  if vs = [] then pt 0 0 0
  else pt ((vs.map V4.x).sum / vs.length) ((vs.map V4.y).sum / vs.length) ((vs.map V4.z).sum / vs.length)

open Classical in
/-- `mirror_2d` applied to a point, builtins.py:409-424; `none` = it raises -/
noncomputable def mirror2dB (ax ay : ℝ) : Option (V4 → V4) :=
  let mag := √(ax * ax + ay * ay)
  if mag < 1e-10 then none
  else
    let ux := ax / mag
    let uy := ay / mag
    some fun p => ⟨(ux * ux - uy * uy) * p.x + 2 * ux * uy * p.y, 2 * ux * uy * p.x + (uy * uy - ux * ux) * p.y, p.z, p.w⟩

/-! ## boolean operations -/

/-- the outcome of the boolean operations -/
abbrev BRes (S : Type) := Except String S

/-- the loops of builtins.py:2526-2527, 2539-2540, 2554-2555 -/
def foldOps {S : Type} (op : S → S → BRes S) (r : S) : List S → BRes S
  | [] => .ok r
  | t :: ts => match op r t with
    | .error e => .error e
    | .ok r => foldOps op r ts

/-- arguments of a variadic function: solids or lists of solids -/
inductive Arg (S : Type)
  | one (s : S)
  | list (l : List S)

/-- the operands: the list if there is one argument and it is one, else the data of each argument, builtins.py:2518-2521, 2533-2536, 2546-2549; `none`: a list among several arguments, on
which the operation raises -/
def operands {S : Type} : List (Arg S) → Option (List S)
  | [.list l] => some l
  | as => as.mapM fun
    | .one s => some s
    | .list _ => none

/-- `union`, builtins.py:2515-2528, and `intersection`, builtins.py:2543-2556 -/
def nary {S : Type} (op : S → S → BRes S) (as : List (Arg S)) : BRes S :=
  match operands as with
  | none => .error "other"
  | some [] => .error "ValueError"
  | some (s :: ss) => foldOps op s ss

/-- `difference`, builtins.py:2530-2541 -/
def differenceB {S : Type} (op : S → S → BRes S) (a : S) (rest : List (Arg S)) : BRes S :=
  match operands rest with
  | none => .error "other"
  | some ts => foldOps op a ts

end Verif.Builtin
