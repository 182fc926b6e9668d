import Verif.Assembly.Model

/-!
# Model of the assembly-graph export: `src/yapcad/assembly/mechatron_export.py`

The exporter reads an `Assembly` object: here the state of `Verif.Assembly`, which is what the calls of the assembly API produce. The material, the process and the visual primitives of a part definition
are attributes that state does not have and are given beside it. JSON text and the conversion of numbers to floats are not modelled; load cases and bolt patterns are copied as they are
(their dictionaries are modelled in `Verif.Export.LoadCase`).
-/

namespace Verif.Export
open Verif.Dict Verif.Xform Verif.Assembly

/-- three coordinates -/
abbrev V3 := Fin 3 → ℝ

/-- `_homogeneous_to_point3d`, `_homogeneous_to_vec3d`, mechatron_export.py:174-189: the fourth coordinate is dropped -/
def drop4 (v : Vec4 ℝ) : V3 := ![v 0, v 1, v 2]

/-- `_DATUM_TYPE_MAP`, mechatron_export.py:91-97 -/
def datumKind : DatumType → String
  | .point => "Point" | .axis => "Axis" | .plane => "Plane" | .frame => "Frame" | .circle => "Circle"

/-- an entry of `"datums"` -/
structure OutDatum where
  name : String
  kind : String
  origin : V3
  direction : Option V3
  normal : Option V3
  radius : Option ℝ

/-- `_datum_to_mechatron`, mechatron_export.py:192-210 -/
def outDatum (d : Datum) : OutDatum :=
  ⟨d.name, datumKind d.dtype, drop4 d.origin, d.direction.map drop4, d.normal.map drop4, d.radius⟩

/-- `_MATERIAL_MAP`, mechatron_export.py:102-119 -/
def materialMap : List (String × String) :=
  [("pla", "PLA"), ("petg", "PETG"), ("petg-cf", "PetgCf"), ("petg_cf", "PetgCf"), ("tpu", "TPU"), ("abs", "ABS"), ("asa", "ASA"), ("pc", "PC"), ("pa-cf", "PaCf"), ("pa_cf", "PaCf"), ("nylon", "Nylon"),
   ("aluminum", "Aluminum"), ("steel", "Steel"), ("stainless", "Stainless"), ("brass", "Brass"), ("titanium", "Titanium")]

/-- `_material_to_mechatron`, mechatron_export.py:213-222 -/
def outMaterial (m : Option String) : String :=
  match m with
  | none => "PETG"
  | some s => if s = "" then "PETG" else (dget materialMap s.toLower).getD "PETG"

/-- a `Joint` -/
inductive Joint
  | fixed | revolute (axis : V3) | prismatic (axis : V3) | ball

/-- a `MateConstraint`; `bilateral` for the variants that have nothing but two datums -/
inductive OutConstraint
  | bilateral (variant parentDatum childDatum : String)
  | angle (parentDatum childDatum : String) (deg : ℝ)
  | axisAlign (childDatum : String) (target : V3)

/-- `_resolve_mate_axis`, mechatron_export.py:225-246 -/
def mateAxis (s : State) (m : Mate ℝ) : Option V3 :=
  match s.datum m.partA m.datumA with
  | none => none
  | some d => d.direction.map drop4

/-- `[0.0, 0.0, 1.0]` -/
def up : V3 := ![0, 0, 1]

/-- `_is_motion_mate`, mechatron_export.py:336-346: the keys of `_MOTION_MATE_TO_JOINT`, 124-129 -/
def isMotion : MateType → Bool
  | .rigid | .revolute | .prismatic | .spherical => true
  | _ => false

/-- `_joint_for_mate`, mechatron_export.py:249-269 -/
def jointFor (s : State) (m : Mate ℝ) : Joint :=
  match m.mtype with
  | .revolute => .revolute ((mateAxis s m).getD up)
  | .prismatic => .prismatic ((mateAxis s m).getD up)
  | .spherical => .ball
  | _ => .fixed

/-- `_mate_constraint_for_mate`, mechatron_export.py:272-333, with `_MATE_TO_CONSTRAINT_VARIANT`, 142-161 -/
def constraintFor (s : State) (jointIsMotion : Bool) (m : Mate ℝ) : Option OutConstraint :=
  match m.mtype with
  | .concentric => some (.bilateral (if jointIsMotion then "Concentric" else "AxisCoincident") m.datumA m.datumB)
  | .coincident => some (.bilateral "Coincident" m.datumA m.datumB)
  | .tangent => some (.bilateral "Tangent" m.datumA m.datumB)
  | .angle => some (.angle m.datumA m.datumB m.angle)
  | .parallel => some (.axisAlign m.datumB ((mateAxis s m).getD up))
  | _ => none

/-- the normal of a face or a circle a mate is on: the test in the loop of `_resolve_insertion_vector`, mechatron_export.py:382-400 -/
def mateNormal (s : State) (m : Mate ℝ) : Option V3 :=
  match s.datum m.partA m.datumA with
  | none => none
  | some d => if d.dtype = .plane ∨ d.dtype = .circle then d.normal.map drop4 else none

/-- `_resolve_insertion_vector`, mechatron_export.py:349-400 -/
def insertion (s : State) (ms : List (Mate ℝ)) : Option V3 := (ms.findSome? (mateNormal s)).map fun n => -n

/-- an `Interface`; the id is `iface_<index>` -/
structure Iface where
  index : Nat
  parent : String
  child : String
  joint : Joint
  constraints : List OutConstraint
  insertion : Option V3
  bolts : Option String

/-- `_interface_for_mate_group`, mechatron_export.py:411-472 -/
def ifaceFor (s : State) (idx : Nat) (g : (String × String) × List (Mate ℝ)) : Iface :=
  let motion := g.2.find? fun m => isMotion m.mtype
  ⟨idx, g.1.1, g.1.2, match motion with | none => .fixed | some m => jointFor s m,
    (g.2.filter fun m => !isMotion m.mtype).filterMap (constraintFor s motion.isSome), insertion s g.2, dget s.boltPatterns g.1⟩

/-- the grouping of the mates, mechatron_export.py:525-536; the list of groups and the dictionary of their places are one insertion-ordered dictionary here -/
def groups (ms : List (Mate ℝ)) : List ((String × String) × List (Mate ℝ)) :=
  ms.foldl (fun gs m => dset gs (m.partA, m.partB) ((dget gs (m.partA, m.partB)).getD [] ++ [m])) []

/-- what a part definition has besides its name and datums: `material`, `process`, and the converted `geoms` of type `G` -/
structure Attrs (G : Type) where
  material : Option String
  process : Option String
  geoms : List G

/-- an entry of `"parts"` -/
structure OutPart (G : Type) where
  id : String
  name : String
  material : String
  process : String
  datums : List OutDatum
  geoms : Option (List G)

/-- the body of the loop over the parts, mechatron_export.py:500-523; `conv` is `_geom_to_mechatron` -/
def outPart {G H : Type} (conv : G → Option H) (p : PartDef) (a : Attrs G) : OutPart H :=
  ⟨p.name, p.name, outMaterial a.material, match a.process with | none => "FDM" | some x => if x = "" then "FDM" else x, p.datums.map fun e => outDatum e.2,
    if (a.geoms.filterMap conv).isEmpty then none else some (a.geoms.filterMap conv)⟩

/-- the graph -/
structure Snapshot (G : Type) where
  parts : List (OutPart G)
  interfaces : List Iface
  loadCases : List LoadCase

/-- `to_mechatron_snapshot`, mechatron_export.py:479-569; the lists that are always empty and `last_script` are left out, a missing `load_cases` is the empty list -/
def snapshot {G H : Type} (conv : G → Option H) (attrs : Nat → Attrs G) (s : State) : Snapshot H :=
  ⟨s.parts.map fun e => outPart conv (s.defs e.2) (attrs e.2), (groups s.mates).zipIdx.map fun e => ifaceFor s e.2 e.1, s.loadCases.map (·.2)⟩

end Verif.Export
