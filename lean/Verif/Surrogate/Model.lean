import Mathlib.Analysis.SpecialFunctions.Trigonometric.Basic
import Mathlib.Data.Real.Sqrt
import Verif.Base.Dict

/-!
# Model of the reference frames of bought parts: `src/yapcad/assembly/mate_surrogates.py`

Numbers are real. Names are lists of characters. Descriptions, notes and file names are left out, and so are the corners of polygons and the printing.
-/

namespace Verif.Surrogate

open Verif.Dict

noncomputable section

abbrev Name := List Char

/-- a tuple of three numbers -/
structure P3 where
  x : ℝ
  y : ℝ
  z : ℝ

/-- `FeatureType`, mate_surrogates.py:105-111 -/
inductive Kind
  | axis | plane | circle | polygon | cylinder
deriving DecidableEq

/-- `Feature`, mate_surrogates.py:119-143 -/
structure Feature where
  name : Name
  kind : Kind
  point : P3 := ⟨0, 0, 0⟩
  direction : P3 := ⟨0, 0, 1⟩
  radius : Option ℝ := none
  count : Option Int := none
  offset : ℝ := 0
  height : Option ℝ := none

/-- `math.radians` -/
def radians (d : ℝ) : ℝ := d * Real.pi / 180

/-- `Feature.get_hole_positions`, mate_surrogates.py:145-157 -/
def Feature.holes (f : Feature) : List P3 :=
  match f.kind, f.radius, f.count with
  | .circle, some r, some n =>
    (List.range n.toNat).map fun i : ℕ =>
      let a := radians (f.offset + (i : ℝ) * (360 / n))
      ⟨f.point.x + r * Real.cos a, f.point.y + r * Real.sin a, f.point.z⟩
  | _, _, _ => []

/-- `MateSurrogate`, mate_surrogates.py:161-196 -/
structure Part where
  name : Name
  x : P3 := ⟨1, 0, 0⟩
  y : P3 := ⟨0, 1, 0⟩
  z : P3 := ⟨0, 0, 1⟩
  features : List (Name × Feature) := []

/-- `MateSurrogate.add_feature`, mate_surrogates.py:198-200 -/
def Part.add (p : Part) (f : Feature) : Part := { p with features := dset p.features f.name f }

/-- `MateSurrogate.get_feature`, mate_surrogates.py:202-206; none: KeyError -/
def Part.get (p : Part) (n : Name) : Option Feature := dget p.features n

/-- `create_ddsm115_surrogate`, mate_surrogates.py:229-364 -/
def ddsm115 : Part :=
  let p : Part := { name := "DDSM115".toList, x := ⟨1, 0, 0⟩, y := ⟨0, 0, 1⟩, z := ⟨0, 1, 0⟩ }
  ((((((p.add { name := "rotor_axis".toList, kind := .axis, point := ⟨0, 0, 0⟩, direction := ⟨0, 1, 0⟩ }).add
    { name := "stator_face".toList, kind := .plane, point := ⟨0, 10, 0⟩, direction := ⟨0, 1, 0⟩ }).add
    { name := "bolt_circle".toList, kind := .circle, point := ⟨0, 10, 0⟩, direction := ⟨0, 1, 0⟩, radius := some (152 / 10 / 2), count := some 3, offset := 0 }).add
    { name := "triangular_boss".toList, kind := .polygon, point := ⟨0, 0, 0⟩, direction := ⟨0, -1, 0⟩, height := some 10 }).add
    { name := "tire".toList, kind := .cylinder, point := ⟨0, -265 / 10, 0⟩, direction := ⟨0, 1, 0⟩, radius := some (1007 / 10 / 2), height := some 50 }).add
    { name := "motor_body".toList, kind := .cylinder, point := ⟨0, 5, 0⟩, direction := ⟨0, 1, 0⟩, radius := some (67 / 2), height := some (155 / 10) }).add
    { name := "pilot_boss".toList, kind := .cylinder, point := ⟨0, 10, 0⟩, direction := ⟨0, 1, 0⟩, radius := some (8 / 2), height := some 2 }

/-- the features that the three servos share, mate_surrogates.py:411-449, 490-525, 556-591 -/
def servo (name : Name) (shaft horn circle protrusion height : ℝ) : Part :=
  (((({ name := name } : Part).add { name := "output_axis".toList, kind := .axis, point := ⟨0, 0, shaft⟩, direction := ⟨0, 0, 1⟩ }).add
    { name := "horn_face".toList, kind := .plane, point := ⟨0, 0, horn⟩, direction := ⟨0, 0, 1⟩ }).add
    { name := "horn_bolt_circle".toList, kind := .circle, point := ⟨0, 0, horn⟩, direction := ⟨0, 0, 1⟩, radius := some (circle / 2), count := some 4, offset := 45 }).add
    { name := "horn_protrusion".toList, kind := .cylinder, point := ⟨0, 0, horn⟩, direction := ⟨0, 0, 1⟩, radius := some (protrusion / 2), height := some height }

/-- `create_xh540_surrogate`, mate_surrogates.py:371-462 -/
def xh540 : Part :=
  (servo "XH540".toList 22 24 18 6 (25 / 10)).add
    { name := "body_envelope".toList, kind := .cylinder, point := ⟨0, 0, 0⟩, direction := ⟨0, 0, 1⟩, radius := some (335 / 10 / 2), height := some 44 }

/-- `create_xh430_surrogate`, mate_surrogates.py:465-527 -/
def xh430 : Part := servo "XH430".toList 17 19 16 6 (25 / 10)

/-- `create_xl330_surrogate`, mate_surrogates.py:530-593 -/
def xl330 : Part := servo "XL330".toList 13 (145 / 10) 8 4 2

/-- `create_sun_gear_surrogate`, mate_surrogates.py:600-699; the teeth and the module only go into the texts -/
def sunGear (axisName : Name) (faceWidth hubHeight boltCircle : ℝ) (servoType : Name) : Part :=
  let dia : ℝ := if servoType ≠ "XL330".toList then 8 else 6
  let depth : ℝ := if servoType ≠ "XL330".toList then 3 else 25 / 10
  ((((({ name := axisName ++ "_SUN_GEAR".toList } : Part).add { name := "gear_axis".toList, kind := .axis, point := ⟨0, 0, 0⟩, direction := ⟨0, 0, 1⟩ }).add
    { name := "gear_top".toList, kind := .plane, point := ⟨0, 0, faceWidth⟩, direction := ⟨0, 0, 1⟩ }).add
    { name := "hub_face".toList, kind := .plane, point := ⟨0, 0, -hubHeight⟩, direction := ⟨0, 0, -1⟩ }).add
    { name := "hub_bolt_circle".toList, kind := .circle, point := ⟨0, 0, -hubHeight⟩, direction := ⟨0, 0, -1⟩, radius := some (boltCircle / 2), count := some 4, offset := 45 }).add
    { name := "center_counterbore".toList, kind := .cylinder, point := ⟨0, 0, -hubHeight⟩, direction := ⟨0, 0, 1⟩, radius := some (dia / 2), height := some depth }

/-- `get_all_surrogates`, mate_surrogates.py:706-759 -/
def all : List (Name × Part) :=
  [("DDSM115".toList, ddsm115), ("XH540".toList, xh540), ("XH430".toList, xh430), ("XL330".toList, xl330),
   ("AXIS1_SUN_GEAR".toList, sunGear "AXIS1".toList 10 6 18 "XH540".toList),
   ("AXIS2_SUN_GEAR".toList, sunGear "AXIS2".toList 8 6 16 "XH430".toList),
   ("AXIS3_SUN_GEAR".toList, sunGear "AXIS3".toList 6 6 16 "XH430".toList),
   ("AXIS4_SUN_GEAR".toList, sunGear "AXIS4".toList 6 5 8 "XL330".toList)]

/-- what `validate_surrogates` reports -/
inductive Issue
  | length (axis : Char) | angle (a b : Char) | radius (feature : Name) | count (feature : Name)

def dot (a b : P3) : ℝ := a.x * b.x + a.y * b.y + a.z * b.z

/-- `np.linalg.norm` -/
def norm (a : P3) : ℝ := Real.sqrt (dot a a)

open Classical in
/-- the checks of one part in `validate_surrogates`, mate_surrogates.py:792-822 -/
def issues (p : Part) : List Issue :=
  (([('x', p.x), ('y', p.y), ('z', p.z)].filter fun e => |norm e.2 - 1| > 1 / 1000).map fun e => .length e.1) ++
  (if |dot p.x p.y| > 1 / 1000 then [.angle 'x' 'y'] else []) ++
  (if |dot p.x p.z| > 1 / 1000 then [.angle 'x' 'z'] else []) ++
  (if |dot p.y p.z| > 1 / 1000 then [.angle 'y' 'z'] else []) ++
  p.features.flatMap fun e =>
    if e.2.kind = .circle then
      (if e.2.radius.isNone then [.radius e.1] else []) ++ (if e.2.count.isNone then [.count e.1] else [])
    else []

end

end Verif.Surrogate
