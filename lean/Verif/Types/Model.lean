/-!
# Model of `src/yapcad/dsl/types.py` and of list-literal inference in `dsl/checker.py`

Every built-in type is modelled. `FunctionType((p₁, …, pₙ), r)` is written `arrow p₁ (… (arrow pₙ (result r)))`.
-/

namespace Verif.Types

/-- `PrimitiveType`, types.py:59-78, 314-317 -/
inductive Prim
  | int | float | bool | string
  deriving DecidableEq

/-- `GeometricPrimitiveType`, types.py:81-123, 320-326, 359-362 -/
inductive Geo
  | point | point2d | point3d | vector | vector2d | vector3d | transform | assembly | edge
  deriving DecidableEq

/-- `CurveType`, types.py:126-137, 329-337 -/
inductive Curve
  | lineSegment | arc | circle | ellipse | parabola | hyperbola | catmullrom | nurbs | bezier
  deriving DecidableEq

/-- `CompoundCurveType`, types.py:140-164, 340-344 -/
inductive Compound
  | path2d | path3d | profile2d | region2d | loop3d
  deriving DecidableEq

/-- the types of the DSL, types.py:34-306 -/
inductive Ty
  | prim (p : Prim)
  | geo (g : Geo)
  | curve (c : Curve)
  | compound (c : Compound)
  | surface
  | shell
  | solid
  | list (t : Ty)
  | dict
  | opt (t : Ty)
  | none
  | arrow (p rest : Ty)
  | result (r : Ty)
  | unknown
  | error
  deriving DecidableEq

/-- `GeometricPrimitiveType.is_assignable_from`, types.py:99-123 (between geometric types) -/
def geoAccepts : Geo → Geo → Bool
  | .point, .point2d => true
  | .point, .point3d => true
  | .vector, .vector2d => true
  | .vector, .vector3d => true
  | .point2d, .point => true
  | .point3d, .point => true
  | .vector2d, .vector => true
  | .vector3d, .vector => true
  | a, b => decide (a = b)

/-- `is_assignable_from`, types.py:50-52, 71-78, 99-123, 152-164, 207-210, 239-243, 287-289, 304-306.
`accepts t u`: a place of type `t` takes a value of type `u`. -/
def accepts : Ty → Ty → Bool
  | .unknown, _ => true
  | .error, _ => true
  | .list t, .list u => accepts t u
  | .list _, _ => false
  | .opt t, .opt u => accepts t u
  | .opt t, u => accepts t u
  | .prim p, .prim q => decide (p = q) || (decide (p = .float) && decide (q = .int))
  | .geo a, .geo b => geoAccepts a b
  | .compound a, .compound b => decide (a = b) || (decide (a = .region2d) && decide (b = .profile2d))
  | t, u => decide (t = u)

/-- `is_numeric`, types.py:450-452 -/
def isNumeric : Ty → Bool
  | .prim .int => true
  | .prim .float => true
  | _ => false

/-- `t.name.startswith("point")` for geometric types -/
def isPoint : Ty → Bool
  | .geo .point => true
  | .geo .point2d => true
  | .geo .point3d => true
  | _ => false

/-- `t.name.startswith("vector")` for geometric types -/
def isVector : Ty → Bool
  | .geo .vector => true
  | .geo .vector2d => true
  | .geo .vector3d => true
  | _ => false

/-- `common_type`, types.py:486-508 -/
def commonType (t u : Ty) : Option Ty :=
  if accepts t u then some t
  else if accepts u t then some u
  else if isNumeric t && isNumeric u then some (.prim .float)
  else if isPoint t && isPoint u then some (.geo .point)
  else if isVector t && isVector u then some (.geo .vector)
  else .none

/-- one element in `_check_list_literal`, checker.py:1015-1027: the element type so far, and whether every element
was accepted -/
def inferStep (acc : Ty × Bool) (t : Ty) : Ty × Bool :=
  if accepts acc.1 t then acc
  else match commonType acc.1 t with
    | some c => (c, acc.2)
    | .none => (acc.1, false)

/-- `_check_list_literal`, checker.py:1007-1029: inferred element type, and whether it is free of errors -/
def inferList (ts : List Ty) : Ty × Bool :=
  match ts with
  | [] => (.unknown, true)
  | t :: ts => ts.foldl inferStep (t, true)

end Verif.Types
