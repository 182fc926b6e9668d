import Verif.Xform.Props
import Verif.Base.Dict

/-!
# Model of `src/yapcad/assembly/datum.py`

Coordinates are reals. `tags`/`description` are metadata copied unchanged and are left out.
The vectors given to a datum may be Python lists of any length: `List ℝ`.
-/

namespace Verif.Assembly
open Verif.Xform

/-- `DatumType`, datum.py:94-110 -/
inductive DatumType
  | point | axis | plane | frame | circle
deriving DecidableEq, Repr

/-- `Datum`, datum.py:113-184 -/
structure Datum where
  name : String
  dtype : DatumType
  origin : Vec4 ℝ
  direction : Option (Vec4 ℝ) := none
  normal : Option (Vec4 ℝ) := none
  xAxis : Option (Vec4 ℝ) := none
  yAxis : Option (Vec4 ℝ) := none
  radius : Option ℝ := none

/-- `geom.point(x,y,z)` of the first three components, datum.py:199-203 -/
noncomputable def asPoint (v : Vec4 ℝ) : Vec4 ℝ := ![v 0, v 1, v 2, 1]

/-- `geom.vect(x,y,z,0.0)` of the first three components, datum.py:212-217 etc. (the inputs of the
model always have four components, so the defaults for shorter lists do not arise) -/
noncomputable def asDir (v : Vec4 ℝ) : Vec4 ℝ := ![v 0, v 1, v 2, 0]

open Classical in
/-- `Datum.__post_init__`, datum.py:186-291; `none` = ValueError -/
noncomputable def Datum.mk' (d : Datum) : Option Datum :=
  let d := { d with origin := asPoint d.origin }
  match d.dtype with
  | .axis =>
    match d.direction with
    | none => none
    | some v => if mag (asDir v) < epsilon then none else some { d with direction := some (asDir v) }
  | .plane =>
    match d.normal with
    | none => none
    | some v => if mag (asDir v) < epsilon then none else some { d with normal := some (asDir v) }
  | .circle =>
    match d.normal, d.radius with
    | some v, some r =>
      if mag (asDir v) < epsilon then none
      else if r ≤ 0 then none
      else some { d with normal := some (asDir v) }
    | _, _ => none
  | .frame =>
    match d.xAxis, d.yAxis with
    | some x, some y =>
      if mag (asDir x) < epsilon then none
      else if mag (asDir y) < epsilon then none
      else some { d with xAxis := some (asDir x), yAxis := some (asDir y) }
    | _, _ => none
  | .point => some d

/-- the argument of `Datum.transform` as Python sees it -/
inductive TArg
  /-- a yapCAD `Matrix` object -/
  | matrix (A : Mat ℝ)
  /-- a list of four rows of four numbers -/
  | rows (a : Fin 4 → Fin 4 → ℝ)
  /-- a 4x4 `numpy.ndarray` -/
  | ndarray (a : Fin 4 → Fin 4 → ℝ)

/-- `if not isinstance(matrix, Matrix): matrix = Matrix(matrix)`, datum.py:321-323, with
`Matrix.__init__`, xform.py:51-92. An `ndarray` is neither a `Matrix` nor a `tuple`/`list`, so the
constructor falls through every branch and leaves the identity. -/
noncomputable def TArg.toMat : TArg → Mat ℝ
  | .matrix A => A
  | .rows a => Mat.ofRows a
  | .ndarray _ => Mat.ident

open Classical in
/-- `transform_vector`, datum.py:331-339 (`scale3` sets the fourth component to 1) -/
noncomputable def transformVec (M : Mat ℝ) (v : Vec4 ℝ) : Vec4 ℝ :=
  let r := M.mulVec v
  if mag r > epsilon then scale3 r (1 / mag r) else r

/-- `Datum.transform`, datum.py:293-355; `none` = ValueError from the constructor -/
noncomputable def Datum.transform (d : Datum) (t : TArg) : Option Datum :=
  let M := t.toMat
  Datum.mk' { d with
    origin := M.mulVec d.origin
    direction := d.direction.map (transformVec M)
    normal := d.normal.map (transformVec M)
    xAxis := d.xAxis.map (transformVec M)
    yAxis := d.yAxis.map (transformVec M) }

end Verif.Assembly
