import Verif.Assembly.Datum
import Mathlib.Analysis.SpecialFunctions.Trigonometric.Inverse

/-!
# Model of `src/yapcad/assembly/constraint.py`

Real arithmetic; messages and `details` are left out (the result is `passed` and `error_value`).
NaN, which numpy produces when a zero vector is normalised (0/0), is modelled: a unit vector or a dot
product is an `Option`, `none` being NaN, and Python's `min`/`max` with a NaN second argument keep
their first argument.
-/

namespace Verif.Assembly
open Verif.Xform

/-- `ConstraintType`, constraint.py:52-87 -/
inductive CType
  | facing | tangentToCircle | radialFromCenter | parallelTo | perpendicularTo
  | atRadius | onCircle | inPlane | minDistance | noInterference | custom
deriving DecidableEq, Repr

/-- 3-vectors (numpy arrays of length 3) -/
abbrev V3 := Fin 3 → ℝ

/-- `Constraint`, constraint.py:115,189-218; the fields no check reads (`reference_datum`,
`plane_normal`, `min_value`, `max_value`) and `description` are left out. The custom validator returns
`none` when it raises. -/
structure Constraint where
  name : String
  ctype : CType
  part : String
  datum : String
  center : Option V3 := none
  radius : Option ℝ := none
  direction : Option String := none
  axis : Option V3 := none
  validator : Option (Datum → Option Bool) := none
  toleranceDeg : ℝ := 1
  toleranceMm : ℝ := 1 / 10
  severity : String := "error"

/-- `ConstraintResult`, constraint.py:90-111 -/
structure CResult where
  passed : Bool
  errorValue : ℝ := 0

/-- `np.array(v[:3])` -/
def first3 (v : Vec4 ℝ) : V3 := ![v 0, v 1, v 2]

/-- `np.dot` of 3-vectors -/
def dot3 (a b : V3) : ℝ := a 0 * b 0 + a 1 * b 1 + a 2 * b 2

/-- `np.linalg.norm` -/
noncomputable def norm3 (a : V3) : ℝ := Real.sqrt (dot3 a a)

open Classical in
/-- `v / np.linalg.norm(v)`; `none` = all components NaN -/
noncomputable def unit3 (a : V3) : Option V3 :=
  if norm3 a = 0 then none else some ![a 0 / norm3 a, a 1 / norm3 a, a 2 / norm3 a]

/-- `np.dot` with NaN -/
def dotN (a b : Option V3) : Option ℝ :=
  match a, b with
  | some a, some b => some (dot3 a b)
  | _, _ => none

/-- `abs` with NaN -/
def absN (a : Option ℝ) : Option ℝ := a.map (|·|)

/-- Python `min(1.0, x)`: the second argument is chosen only if it is smaller (false for NaN) -/
noncomputable def min1 : Option ℝ → ℝ
  | none => 1
  | some x => min 1 x

/-- Python `max(-1.0, x)` -/
noncomputable def maxm1 : Option ℝ → ℝ
  | none => -1
  | some x => max (-1) x

/-- `math.degrees` -/
noncomputable def degrees (x : ℝ) : ℝ := x * 180 / Real.pi

/-- `math.radians` -/
noncomputable def radians (x : ℝ) : ℝ := x * Real.pi / 180

/-- `radial[2] = 0.0` -/
def flat (a : V3) : V3 := ![a 0, a 1, 0]

/-- `_parse_direction`, constraint.py:626-646 (`direction.lower()`: upper-case axis letters accepted) -/
def parseDirection : Option String → Option V3
  | none => none
  | some s =>
    if s = "+x" ∨ s = "+X" then some ![1, 0, 0]
    else if s = "-x" ∨ s = "-X" then some ![-1, 0, 0]
    else if s = "+y" ∨ s = "+Y" then some ![0, 1, 0]
    else if s = "-y" ∨ s = "-Y" then some ![0, -1, 0]
    else if s = "+z" ∨ s = "+Z" then some ![0, 0, 1]
    else if s = "-z" ∨ s = "-Z" then some ![0, 0, -1]
    else none

/-- direction if present, else normal (constraint.py:310-319, 549-557, 597-605) -/
def dirOrNormal (d : Datum) : Option V3 :=
  match d.direction with
  | some v => some (first3 v)
  | none => d.normal.map first3

/-- normal if present, else direction (constraint.py:396-405) -/
def normalOrDir (d : Datum) : Option V3 :=
  match d.normal with
  | some v => some (first3 v)
  | none => d.direction.map first3

open Classical in
/-- `_check_tangent_to_circle`, constraint.py:275-353 -/
noncomputable def Constraint.checkTangent (c : Constraint) (d : Datum) : CResult :=
  match c.center, c.radius with
  | some ctr, some _ =>
    let radial := flat (first3 d.origin - ctr)
    if norm3 radial < 1e-10 then ⟨false, 0⟩
    else
      match dirOrNormal d with
      | none => ⟨false, 0⟩
      | some v =>
        if norm3 (flat v) < 1e-10 then ⟨true, 0⟩
        else
          let dot := absN (dotN (unit3 radial) (unit3 (flat v)))
          let angle := degrees (Real.arcsin (min1 dot))
          ⟨decide (angle ≤ c.toleranceDeg), angle⟩
  | _, _ => ⟨false, 0⟩

open Classical in
/-- `_check_radial`, constraint.py:355-441 -/
noncomputable def Constraint.checkRadial (c : Constraint) (d : Datum) : CResult :=
  match c.center with
  | none => ⟨false, 0⟩
  | some ctr =>
    if ¬ (c.direction = some "inward" ∨ c.direction = some "outward") then ⟨false, 0⟩
    else
      let radial := flat (first3 d.origin - ctr)
      if norm3 radial < 1e-10 then ⟨false, 0⟩
      else
        match normalOrDir d with
        | none => ⟨false, 0⟩
        | some v =>
          let dot := dotN (unit3 radial) (unit3 v)
          let cosTol := Real.cos (radians c.toleranceDeg)
          let satisfied : Bool :=
            match dot with
            | none => false
            | some x => if c.direction = some "outward" then decide (x > cosTol) else decide (x < -cosTol)
          let err := degrees (Real.arccos (min1 (absN dot)))
          let err :=
            if satisfied then err
            else
              match dot with
              | none => err
              | some x =>
                if c.direction = some "outward" ∧ x < 0 then 180 - err
                else if c.direction = some "inward" ∧ x > 0 then 180 - err
                else err
          ⟨satisfied, if satisfied then 0 else err⟩

open Classical in
/-- `_check_facing`, constraint.py:443-487 -/
noncomputable def Constraint.checkFacing (c : Constraint) (d : Datum) : CResult :=
  match d.normal with
  | none => ⟨false, 0⟩
  | some n =>
    match parseDirection c.direction with
    | none => ⟨false, 0⟩
    | some t =>
      let dot := dotN (unit3 (first3 n)) (some t)
      let angle := degrees (Real.arccos (min 1 (maxm1 dot)))
      ⟨decide (angle ≤ c.toleranceDeg), angle⟩

open Classical in
/-- `_check_at_radius`, constraint.py:489-528 -/
noncomputable def Constraint.checkAtRadius (c : Constraint) (d : Datum) : CResult :=
  match c.center, c.radius with
  | some ctr, some r =>
    let err := |norm3 (flat (first3 d.origin - ctr)) - r|
    ⟨decide (err ≤ c.toleranceMm), err⟩
  | _, _ => ⟨false, 0⟩

open Classical in
/-- `_check_parallel`, constraint.py:530-576 -/
noncomputable def Constraint.checkParallel (c : Constraint) (d : Datum) : CResult :=
  match c.axis with
  | none => ⟨false, 0⟩
  | some a =>
    match dirOrNormal d with
    | none => ⟨false, 0⟩
    | some v =>
      let dot := absN (dotN (unit3 a) (unit3 v))
      let angle := degrees (Real.arccos (min1 dot))
      ⟨decide (angle ≤ c.toleranceDeg), angle⟩

open Classical in
/-- `_check_perpendicular`, constraint.py:578-624 -/
noncomputable def Constraint.checkPerpendicular (c : Constraint) (d : Datum) : CResult :=
  match c.axis with
  | none => ⟨false, 0⟩
  | some a =>
    match dirOrNormal d with
    | none => ⟨false, 0⟩
    | some v =>
      let dot := absN (dotN (unit3 a) (unit3 v))
      let angle := degrees (Real.arcsin (min1 dot))
      ⟨decide (angle ≤ c.toleranceDeg), angle⟩

/-- `Constraint.evaluate`, constraint.py:220-273 (numpy is available) -/
noncomputable def Constraint.evaluate (c : Constraint) (d : Datum) : CResult :=
  match c.ctype with
  | .tangentToCircle => c.checkTangent d
  | .radialFromCenter => c.checkRadial d
  | .facing => c.checkFacing d
  | .atRadius => c.checkAtRadius d
  | .parallelTo => c.checkParallel d
  | .perpendicularTo => c.checkPerpendicular d
  | .custom =>
    match c.validator with
    | some f =>
      match f d with
      | some b => ⟨b, 0⟩
      | none => ⟨false, 0⟩
    | none => ⟨false, 0⟩
  | _ => ⟨false, 0⟩

end Verif.Assembly
