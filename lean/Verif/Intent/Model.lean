import Mathlib.Analysis.SpecialFunctions.Trigonometric.Basic
import Mathlib.Analysis.SpecialFunctions.Pow.Real

/-!
# Model of assembly intents: `src/yapcad/assembly/intent.py`

Numbers are real. Names are lists of characters. The `name`, `description` and `message` texts of constraints are left out, except for errors and mates. The lists
of derived parameters (intent.py:992-1003), `report` and `to_assembly` are not modelled.
-/

namespace Verif.Intent

noncomputable section

abbrev Name := List Char

/-- a tuple of three numbers -/
structure P3 where
  x : ℝ
  y : ℝ
  z : ℝ

/-- `geometry_type`, intent.py:111-119, 150; `other` is any other word -/
inductive Kind
  | point | line | plane | cylinder | sphere | cone | other
deriving DecidableEq

/-- exceptions -/
inductive Err
  | valueError | zeroDivision
deriving DecidableEq

/-- `ReferenceGeometry`, intent.py:121-157 -/
structure RefGeom where
  name : Name
  kind : Kind
  center : Option P3 := none
  axis : Option P3 := none
  radius : Option ℝ := none
  normal : Option P3 := none
  inner : Bool := false

/-- `(0, 0, 0)` -/
def origin : P3 := ⟨0, 0, 0⟩

/-- `ReferenceGeometry.get_surface_point`, intent.py:159-197 -/
def surfacePoint (g : RefGeom) (theta z : ℝ) : Except Err P3 :=
  match g.kind with
  | .cylinder =>
    match g.center, g.radius with
    | some c, some r => .ok ⟨c.x + r * Real.cos theta, c.y + r * Real.sin theta, c.z + z⟩
    | _, _ => .error .valueError
  | .sphere =>
    match g.center, g.radius with
    | some c, some r => .ok ⟨c.x + r * Real.cos theta * Real.cos z, c.y + r * Real.sin theta * Real.cos z, c.z + r * Real.sin z⟩
    | _, _ => .error .valueError
  | _ => .ok (g.center.getD origin)

open Classical in
/-- `ReferenceGeometry.get_normal_at`, intent.py:199-249 -/
def normalAt (g : RefGeom) (p : P3) : Except Err P3 :=
  match g.kind with
  | .cylinder =>
    match g.center with
    | none => .error .valueError
    | some c =>
      let dx := p.x - c.x
      let dy := p.y - c.y
      let mag := √(dx * dx + dy * dy)
      if mag < 1e-10 then .ok ⟨1, 0, 0⟩
      else if g.inner then .ok ⟨-dx / mag, -dy / mag, 0⟩ else .ok ⟨dx / mag, dy / mag, 0⟩
  | .plane =>
    match g.normal with
    | none => .ok ⟨0, 0, 1⟩
    | some n =>
      let mag := √(n.x * n.x + n.y * n.y + n.z * n.z)
      if mag = 0 then .error .zeroDivision else .ok ⟨n.x / mag, n.y / mag, n.z / mag⟩
  | .sphere =>
    match g.center with
    | none => .error .valueError
    | some c =>
      let dx := p.x - c.x
      let dy := p.y - c.y
      let dz := p.z - c.z
      let mag := √(dx * dx + dy * dy + dz * dz)
      if mag < 1e-10 then .ok ⟨0, 0, 1⟩
      else if g.inner then .ok ⟨-dx / mag, -dy / mag, -dz / mag⟩ else .ok ⟨dx / mag, dy / mag, dz / mag⟩
  | _ => .ok ⟨0, 0, 1⟩

/-! ## connections -/

/-- `s.split(".")` -/
def split : Name → List Name
  | [] => [[]]
  | c :: cs =>
    match split cs with
    | [] => [[c]]
    | w :: ws => if c = '.' then [] :: w :: ws else (c :: w) :: ws

/-- `get_parent_part`, intent.py:706-708, and `get_child_part`, intent.py:714-716 -/
def partOf (s : Name) : Name := if '.' ∈ s then (split s).getD 0 [] else s

/-- `get_parent_datum`, intent.py:710-712, and `get_child_datum`, intent.py:718-720 -/
def datumOf (s : Name) : Name := if '.' ∈ s then (split s).getD 1 [] else "origin".toList

/-- `joint_type`, intent.py:671-676; `other` is any other word -/
inductive Joint
  | rigid | revolute | prismatic | cylindrical | spherical | other
deriving DecidableEq

/-- `axis`, intent.py:677-679 -/
inductive Axis
  | word (s : Name)
  | dir (v : P3)

/-- `Connection`, intent.py:662-704 without the interface -/
structure Connection where
  parent : Name
  child : Name
  joint : Joint := .rigid
  axis : Option Axis := none
  limits : Option (ℝ × ℝ) := none

/-- `mate_type`, intent.py:732-752 -/
inductive MateType
  | coincident | revolute | prismatic | cylindrical | spherical
deriving DecidableEq

/-- the dict of `to_mate_spec`, intent.py:722-754; `mateType = none`: no such key -/
structure Mate where
  name : Name
  partA : Name
  datumA : Name
  partB : Name
  datumB : Name
  mateType : Option MateType
  axis : Option Axis
  limits : Option (ℝ × ℝ)

/-- `math.radians` -/
def radians (d : ℝ) : ℝ := d * Real.pi / 180

/-- `Connection.to_mate_spec`, intent.py:722-754 -/
def Connection.mate (c : Connection) : Mate :=
  let base : Mate := ⟨partOf c.parent ++ "_to_".toList ++ partOf c.child, partOf c.parent, datumOf c.parent, partOf c.child, datumOf c.child, none, none, none⟩
  match c.joint with
  | .rigid => { base with mateType := some .coincident }
  | .revolute => { base with mateType := some .revolute, axis := c.axis, limits := c.limits.map fun l => (radians l.1, radians l.2) }
  | .prismatic => { base with mateType := some .prismatic, axis := c.axis, limits := c.limits }
  | .cylindrical => { base with mateType := some .cylindrical }
  | .spherical => { base with mateType := some .spherical }
  | .other => base

/-! ## requirements -/

/-- `roll_direction`, intent.py:410-413 -/
inductive RollDir
  | word (s : Name)
  | vec (v : P3)

/-- the global directions, intent.py:537-552 -/
inductive Global
  | px | mx | py | my | pz | mz
deriving DecidableEq

/-- `orientation`, intent.py:489; `other` is any other word (or a tuple, which no branch handles) -/
inductive Orient
  | tangent | radial | axial
  | facing (d : Global)
  | other
deriving DecidableEq

/-- the requirements, intent.py:301-657 -/
inductive Req
  | contact (name part surface target : Name)
  | roll (part axisDatum : Name) (dir : RollDir)
  | orient (part axisDatum : Name) (o : Orient) (reference : Name) (away : Bool)
  | parallel (part axisA axisB : Name)
  | reach (part : Name) (lo hi : ℝ)

/-- `req.part`, intent.py:273 -/
def Req.part : Req → Name
  | .contact _ p _ _ => p
  | .roll p _ _ => p
  | .orient p _ _ _ _ => p
  | .parallel p _ _ => p
  | .reach p _ _ => p

/-- the dicts of `get_implied_constraints` and of mates; `missing` is the error of intent.py:348-352 -/
inductive Spec
  | missing (req target : Name)
  | atRadius (part datum : Name) (center : Option P3) (radius : Option ℝ)
  | inPlane (part datum : Name) (center normal : Option P3)
  | tangentTo (part datum : Name) (center : Option P3) (radius : Option ℝ)
  | perpendicular (part datum : Name) (axis : P3)
  | radialFrom (part datum : Name) (center : Option P3) (outward : Bool)
  | parallelAxis (part datum : Name) (axis : P3)
  | facing (part datum : Name) (d : Global)
  | parallelTo (partA datumA partB datumB : Name)
  | reach (lo hi : ℝ)
  | mate (m : Mate)

/-- `reference_geometry`, a dict -/
abbrev Refs := List (Name × RefGeom)

/-- `d.get(k)` -/
def dget {V : Type} (d : List (Name × V)) (k : Name) : Option V := (d.find? fun e => e.1 = k).map (·.2)

/-- `d[k] = v` -/
def dset {V : Type} (d : List (Name × V)) (k : Name) (v : V) : List (Name × V) :=
  match d with
  | [] => [(k, v)]
  | e :: d => if e.1 = k then (k, v) :: d else e :: dset d k v

/-- the target of a contact, intent.py:340-345 -/
def findTarget (refs : Refs) (t : Name) : Option RefGeom := (refs.find? fun e => e.1 = t ∨ e.2.name = t).map (·.2)

/-- `ContactRequirement.get_implied_constraints`, intent.py:332-378 -/
def contactSpecs (refs : Refs) (name part surface target : Name) : List Spec :=
  match findTarget refs target with
  | none => [.missing name target]
  | some g =>
    match g.kind with
    | .cylinder => [.atRadius part surface g.center g.radius]
    | .plane => [.inPlane part surface g.center g.normal]
    | _ => []

/-- `roll_dir`, intent.py:423-431 -/
def rollVec : RollDir → P3
  | .word s => if s = "-z".toList then ⟨0, 0, -1⟩ else ⟨0, 0, 1⟩
  | .vec v => v

open Classical in
/-- `RollRequirement.get_implied_constraints`, intent.py:416-459 -/
def rollSpecs (refs : Refs) (part axisDatum : Name) (dir : RollDir) : List Spec :=
  let v := rollVec dir
  let tangent :=
    if v = ⟨0, 0, 1⟩ ∨ v = ⟨0, 0, -1⟩ then
      match refs.find? fun e => e.2.kind = .cylinder with
      | some e => [Spec.tangentTo part axisDatum e.2.center e.2.radius]
      | none => []
    else []
  tangent ++ [.perpendicular part axisDatum v]

/-- `AxisOrientationRequirement.get_implied_constraints`, intent.py:494-560; the centre of a reference that is `None` stays `None` -/
def orientSpecs (refs : Refs) (part axisDatum : Name) (o : Orient) (reference : Name) (away : Bool) : List Spec :=
  match o with
  | .tangent =>
    match dget refs reference with
    | some g => if g.kind = .cylinder then [.tangentTo part axisDatum g.center g.radius] else [.tangentTo part axisDatum (some origin) none]
    | none => [.tangentTo part axisDatum (some origin) none]
  | .radial =>
    match dget refs reference with
    | some g => [.radialFrom part axisDatum g.center away]
    | none => [.radialFrom part axisDatum (some origin) away]
  | .axial =>
    match dget refs reference with
    | some g => [.parallelAxis part axisDatum (g.axis.getD ⟨0, 0, 1⟩)]
    | none => [.parallelAxis part axisDatum ⟨0, 0, 1⟩]
  | .facing d => [.facing part axisDatum d]
  | .other => []

/-- `axis.split(".") if "." in axis else (self.part, axis)` unpacked to two, intent.py:594-595 -/
def axisOf (part axis : Name) : Except Err (Name × Name) :=
  if '.' ∈ axis then
    match split axis with
    | [a, b] => .ok (a, b)
    | _ => .error .valueError
  else .ok (part, axis)

/-- `ParallelAxesRequirement.get_implied_constraints`, intent.py:588-605 -/
def parallelSpecs (part axisA axisB : Name) : Except Err (List Spec) :=
  match axisOf part axisA with
  | .error e => .error e
  | .ok (a, b) =>
    match axisOf part axisB with
    | .error e => .error e
    | .ok (c, d) => .ok [.parallelTo a b c d]

/-- `get_implied_constraints`, intent.py:332-378, 416-459, 494-560, 588-605, 636-649 -/
def implied (refs : Refs) : Req → Except Err (List Spec)
  | .contact n p s t => .ok (contactSpecs refs n p s t)
  | .roll p a d => .ok (rollSpecs refs p a d)
  | .orient p a o r w => .ok (orientSpecs refs p a o r w)
  | .parallel p a b => parallelSpecs p a b
  | .reach _ lo hi => .ok [.reach lo hi]

/-! ## intents -/

/-- `AssemblyIntent`, intent.py:896-947, without what is not used in `solve` and `validate` -/
structure Intent where
  reqs : List Req
  conns : List Connection
  refs : Refs

/-- `add_reference_geometry`, intent.py:964-967 -/
def Intent.addRef (i : Intent) (g : RefGeom) : Intent := { i with refs := dset i.refs g.name g }

/-- the constraints of the requirements, intent.py:980-983 -/
def impliedAll (refs : Refs) : List Req → Except Err (List Spec)
  | [] => .ok []
  | q :: qs =>
    match implied refs q with
    | .error e => .error e
    | .ok l =>
      match impliedAll refs qs with
      | .error e => .error e
      | .ok ls => .ok (l ++ ls)

/-- `collect_constraints`, intent.py:969-990 -/
def Intent.collect (i : Intent) : Except Err (List Spec) :=
  match impliedAll i.refs i.reqs with
  | .error e => .error e
  | .ok ls => .ok (ls ++ i.conns.map fun c => .mate c.mate)

/-- `SolveResult`, intent.py:830-851: what `solve` sets; `errors` has the targets that are missing -/
structure Result where
  success : Bool
  derived : List (Name × Option ℝ)
  constraints : List Spec
  errors : List Name

/-- `f"{req.part}.contact_radius"`, intent.py:1030 -/
def radiusKey (part : Name) : Name := part ++ ".contact_radius".toList

/-- the derived value of a requirement, intent.py:1022-1030 -/
def derive1 (refs : Refs) (d : List (Name × Option ℝ)) (q : Req) : List (Name × Option ℝ) :=
  match q with
  | .contact _ p _ t =>
    match dget refs t with
    | some g => if g.kind = .cylinder then dset d (radiusKey p) g.radius else d
    | none => d
  | _ => d

/-- the messages of the constraints of type "error", intent.py:1036-1040 -/
def errorOf : Spec → Option Name
  | .missing _ t => some t
  | _ => none

/-- `solve`, intent.py:1005-1041 -/
def Intent.solve (i : Intent) : Except Err Result :=
  match i.collect with
  | .error e => .error e
  | .ok cs =>
    let errors := cs.filterMap errorOf
    .ok ⟨errors.isEmpty, i.reqs.foldl (derive1 i.refs) [], cs, errors⟩

/-- the messages of `validate`, intent.py:1073-1101 -/
inductive Issue
  | unknownGeometry (req target : Name)
  | unconnected (part : Name)
deriving DecidableEq

/-- the parts of the connections, intent.py:1091-1094 -/
def Intent.connected (i : Intent) : List Name := i.conns.flatMap fun c => [partOf c.parent, partOf c.child]

/-- a contact with an unknown geometry, intent.py:1075-1081 -/
def unknownOf (refs : Refs) : Req → Option Issue
  | .contact n _ _ t => if (dget refs t).isNone then some (.unknownGeometry n t) else none
  | _ => none

/-- `validate`, intent.py:1060-1103; the order of the parts, those of a set, is not Python's -/
def Intent.validate (i : Intent) : List Issue :=
  i.reqs.filterMap (unknownOf i.refs) ++
    (((i.reqs.map Req.part ++ i.connected).dedup.filter fun p => p ∉ i.connected).map .unconnected)

/-! ## clearances -/

/-- `Clearance`, intent.py:762-790 -/
structure Clearance where
  partA : Name
  partB : Name
  minDistance : ℝ

/-- `ClearanceResult`, intent.py:816-823 -/
structure ClearanceResult where
  satisfied : Bool
  actual : ℝ
  required : ℝ

/-- an axis-aligned box -/
structure Box where
  lo : P3
  hi : P3

/-- `Clearance.validate`, intent.py:792-813; the transforms are translations here -/
def Clearance.validate (c : Clearance) (_transforms : Name → P3) (_bounds : Name → Box) : ClearanceResult :=
  ⟨true, c.minDistance + 1, c.minDistance⟩

end
end Verif.Intent
