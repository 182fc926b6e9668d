import Verif.Assembly.Datum
import Verif.Base.PyVal

/-!
# Model of `src/yapcad/assembly/mate.py` (enum, limits, dynamics, `Mate`)

Numbers are elements of a linearly ordered field `K`. The text of messages is not modelled; a list of
messages is a list of tags naming which message was appended.
-/

namespace Verif.Assembly
open Verif.Dict

/-- `MateType`, mate.py:71-145 -/
inductive MateType
  | coincident | concentric | parallel | perpendicular | tangent | distance | angle
  | rigid | revolute | prismatic | cylindrical | spherical | planar
  | pinSlot | universal | screw
  | gear | rackPinion | cam | slot
deriving DecidableEq, Repr

/-- `MateType.X.value`, mate.py:118-145 -/
def MateType.value : MateType → String
  | .coincident => "coincident" | .concentric => "concentric" | .parallel => "parallel"
  | .perpendicular => "perpendicular" | .tangent => "tangent" | .distance => "distance"
  | .angle => "angle" | .rigid => "rigid" | .revolute => "revolute" | .prismatic => "prismatic"
  | .cylindrical => "cylindrical" | .spherical => "spherical" | .planar => "planar"
  | .pinSlot => "pin_slot" | .universal => "universal" | .screw => "screw" | .gear => "gear"
  | .rackPinion => "rack_pinion" | .cam => "cam" | .slot => "slot"

def MateType.all : List MateType :=
  [.coincident, .concentric, .parallel, .perpendicular, .tangent, .distance, .angle, .rigid, .revolute,
   .prismatic, .cylindrical, .spherical, .planar, .pinSlot, .universal, .screw, .gear, .rackPinion,
   .cam, .slot]

/-- `MateType(value)`; `none` = ValueError -/
def MateType.ofValue (s : String) : Option MateType := MateType.all.find? (fun t => t.value = s)

/-- `MateLimits`, mate.py:147-210 -/
structure MateLimits (K : Type) where
  minValue : Option K
  maxValue : Option K
  minVelocity : Option K
  maxVelocity : Option K
  minEffort : Option K
  maxEffort : Option K
  minSecondary : Option K
  maxSecondary : Option K
  limitStiffness : K
  limitDamping : K
  restitution : K

/-- `MateDynamics`, mate.py:213-261 -/
structure MateDynamics (K : Type) where
  frictionStatic : K
  frictionKinetic : K
  frictionViscous : K
  damping : K
  stiffness : K
  restPosition : K

/-- `Mate`, mate.py:264-354 -/
structure Mate (K : Type) where
  name : String
  mtype : MateType
  partA : String
  datumA : String
  partB : String
  datumB : String
  offset : K
  angle : K
  axis : List K
  secondaryAxis : List K
  limits : Option (MateLimits K)
  dynamics : Option (MateDynamics K)
  couplingRatio : K
  couplingOffset : K
  couplingReverse : Bool
  couplingPitch : Option K
  metadata : List (String × Val K)

/-- `Mate.validate`, mate.py:377-459; one tag per message ("a"/"b" for which datum, "ab" for the
TANGENT message) -/
def mateValidate (t : MateType) (a b : DatumType) : List String :=
  match t with
  | .coincident =>
    (if a ∈ [DatumType.point, .plane, .circle, .axis, .frame] then [] else ["a"]) ++
    (if b ∈ [DatumType.point, .plane, .circle, .axis, .frame] then [] else ["b"])
  | .concentric =>
    (if a ∈ [DatumType.axis, .circle] then [] else ["a"]) ++
    (if b ∈ [DatumType.axis, .circle] then [] else ["b"])
  | .parallel | .perpendicular =>
    (if a ∈ [DatumType.axis, .plane] then [] else ["a"]) ++
    (if b ∈ [DatumType.axis, .plane] then [] else ["b"])
  | .tangent =>
    if a ∉ [DatumType.plane, .circle] ∧ b ∉ [DatumType.plane, .circle] then ["ab"] else []
  | _ => []

/-- `Mate.degrees_of_freedom`, mate.py:461-516 -/
def MateType.dof : MateType → Int
  | .rigid => 0 | .revolute => 1 | .prismatic => 1 | .cylindrical => 2 | .spherical => 3 | .planar => 3
  | .pinSlot => 2 | .universal => 2 | .screw => 1
  | .coincident => 3 | .concentric => 2 | .parallel => 4 | .perpendicular => 5 | .tangent => 5
  | .distance => 5 | .angle => 5
  | .gear => -1 | .rackPinion => -1 | .cam => -1 | .slot => 4

section
variable {K : Type} [Field K] [LinearOrder K] [IsStrictOrderedRing K]

/-- the dictionary returned by `Mate.evaluate` -/
structure MateEval (K : Type) where
  dofRemaining : Int
  error : K
  satisfied : Bool
  violations : List String
  dynamicsActive : Bool

/-- one limit test: append a tag to the violations -/
def limCheck (r : MateEval K) (bad : Bool) (tag : String) : MateEval K :=
  if bad then { r with violations := r.violations ++ [tag] } else r

/-- `lo is not None and x < lo` -/
def below (lo : Option K) (x : K) : Bool :=
  match lo with | none => false | some l => decide (x < l)

/-- `hi is not None and x > hi` -/
def above (hi : Option K) (x : K) : Bool :=
  match hi with | none => false | some h => decide (h < x)

/-- the position limits part of `Mate.evaluate`, mate.py:556-573 -/
def posCheck (L : MateLimits K) (r : MateEval K) (pos : Option K) : MateEval K :=
  match pos with
  | none => r
  | some p =>
    let r :=
      match L.minValue with
      | some lo =>
        if p < lo then
          { r with error := r.error + |lo - p|, satisfied := false,
                   violations := r.violations ++ ["min_value"] }
        else r
      | none => r
    match L.maxValue with
    | some hi =>
      if p > hi then
        { r with error := r.error + |p - hi|, satisfied := false,
                 violations := r.violations ++ ["max_value"] }
      else r
    | none => r

/-- `Mate.evaluate`, mate.py:518-597 -/
def Mate.evaluate (m : Mate K) (pos vel eff : Option K) : MateEval K :=
  let r : MateEval K := ⟨m.mtype.dof, 0, true, [], m.dynamics.isSome⟩
  match m.limits with
  | none => r
  | some L =>
    let r := posCheck L r pos
    let r :=
      match vel with
      | none => r
      | some v => limCheck (limCheck r (below L.minVelocity v) "min_velocity") (above L.maxVelocity |v|) "max_velocity"
    match eff with
    | none => r
    | some e => limCheck (limCheck r (below L.minEffort e) "min_effort") (above L.maxEffort |e|) "max_effort"

/-- `Mate.is_coupled`, mate.py:599-618 -/
def MateType.isCoupled (t : MateType) : Bool := decide (t ∈ [MateType.gear, .rackPinion, .cam, .screw])

/-- `Mate.compute_coupled_motion`, mate.py:620-662 (`pi` is passed in); `none` = ValueError -/
def Mate.coupledMotion (pi : K) (m : Mate K) (x : K) : Option K :=
  if ¬ m.mtype.isCoupled then none
  else
    let driven := x * m.couplingRatio + m.couplingOffset
    let driven := if m.couplingReverse then -driven else driven
    if m.mtype = .screw then
      match m.couplingPitch with
      | some p => some (x / (2 * pi) * p)
      | none => some driven
    else some driven
end

/-! ## to_dict / from_dict -/
section
variable {K : Type} [DecidableEq K] [Field K]

/-- `None` or a number -/
def optVal : Option K → Val K
  | none => .none
  | some x => .num x

def limitsDict (L : MateLimits K) : List (String × Val K) :=
  [("min_value", optVal L.minValue), ("max_value", optVal L.maxValue),
   ("min_velocity", optVal L.minVelocity), ("max_velocity", optVal L.maxVelocity),
   ("min_effort", optVal L.minEffort), ("max_effort", optVal L.maxEffort),
   ("min_secondary", optVal L.minSecondary), ("max_secondary", optVal L.maxSecondary),
   ("limit_stiffness", .num L.limitStiffness), ("limit_damping", .num L.limitDamping),
   ("restitution", .num L.restitution)]

def dynamicsDict (D : MateDynamics K) : List (String × Val K) :=
  [("friction_static", .num D.frictionStatic), ("friction_kinetic", .num D.frictionKinetic),
   ("friction_viscous", .num D.frictionViscous), ("damping", .num D.damping),
   ("stiffness", .num D.stiffness), ("rest_position", .num D.restPosition)]

/-- `Mate.to_dict`, mate.py:664-714 -/
def Mate.toDict (m : Mate K) : List (String × Val K) :=
  [("name", .str m.name), ("mate_type", .str m.mtype.value),
   ("part_a", .str m.partA), ("datum_a", .str m.datumA),
   ("part_b", .str m.partB), ("datum_b", .str m.datumB),
   ("offset", .num m.offset), ("angle", .num m.angle),
   ("axis", .list (m.axis.map .num)), ("secondary_axis", .list (m.secondaryAxis.map .num)),
   ("limits", match m.limits with | some L => .dict (limitsDict L) | none => .none),
   ("dynamics", match m.dynamics with | some D => .dict (dynamicsDict D) | none => .none),
   ("coupling_ratio", .num m.couplingRatio), ("coupling_offset", .num m.couplingOffset),
   ("coupling_reverse", .bool m.couplingReverse), ("coupling_pitch", optVal m.couplingPitch),
   ("metadata", .dict m.metadata)]

def asStr : Option (Val K) → Option String
  | some (.str s) => some s
  | _ => none

/-- a number with a default for a missing key; `none` = a value of another kind, which the untyped
Python code would accept and the model does not follow -/
def asNumD (dflt : K) : Option (Val K) → Option K
  | none => some dflt
  | some (.num x) => some x
  | _ => none

/-- an optional number, `None` for a missing key -/
def asOptNum : Option (Val K) → Option (Option K)
  | none => some none
  | some .none => some none
  | some (.num x) => some (some x)
  | _ => none

def asNums : List (Val K) → Option (List K)
  | [] => some []
  | .num x :: l => (asNums l).map (x :: ·)
  | _ => none

def asNumsD (dflt : List K) : Option (Val K) → Option (List K)
  | none => some dflt
  | some (.list l) => asNums l
  | _ => none

def asBoolD (dflt : Bool) : Option (Val K) → Option Bool
  | none => some dflt
  | some (.bool b) => some b
  | _ => none

def asDictD : Option (Val K) → Option (List (String × Val K))
  | none => some []
  | some (.dict d) => some d
  | _ => none

/-- `MateLimits(**d)`: `none` when a keyword is unknown (TypeError); defaults for missing keywords -/
def limitsOfDict (d : List (String × Val K)) : Option (MateLimits K) :=
  if keys d ⊆ ["min_value", "max_value", "min_velocity", "max_velocity", "min_effort", "max_effort",
      "min_secondary", "max_secondary", "limit_stiffness", "limit_damping", "restitution"] then do
    some { minValue := ← asOptNum (dget d "min_value")
           maxValue := ← asOptNum (dget d "max_value")
           minVelocity := ← asOptNum (dget d "min_velocity")
           maxVelocity := ← asOptNum (dget d "max_velocity")
           minEffort := ← asOptNum (dget d "min_effort")
           maxEffort := ← asOptNum (dget d "max_effort")
           minSecondary := ← asOptNum (dget d "min_secondary")
           maxSecondary := ← asOptNum (dget d "max_secondary")
           limitStiffness := ← asNumD 1000000 (dget d "limit_stiffness")
           limitDamping := ← asNumD 1000 (dget d "limit_damping")
           restitution := ← asNumD 0 (dget d "restitution") }
  else none

/-- `MateDynamics(**d)` -/
def dynamicsOfDict (d : List (String × Val K)) : Option (MateDynamics K) :=
  if keys d ⊆ ["friction_static", "friction_kinetic", "friction_viscous", "damping", "stiffness",
      "rest_position"] then do
    some { frictionStatic := ← asNumD 0 (dget d "friction_static")
           frictionKinetic := ← asNumD 0 (dget d "friction_kinetic")
           frictionViscous := ← asNumD 0 (dget d "friction_viscous")
           damping := ← asNumD 0 (dget d "damping")
           stiffness := ← asNumD 0 (dget d "stiffness")
           restPosition := ← asNumD 0 (dget d "rest_position") }
  else none

/-- `Mate.from_dict`, mate.py:716-762; `none` = some exception -/
def Mate.fromDict (d : List (String × Val K)) : Option (Mate K) := do
  let mtype ← MateType.ofValue (← asStr (dget d "mate_type"))
  let limits ← (match dget d "limits" with
    | some (.dict l) => if l.isEmpty then some none else (limitsOfDict l).map some
    | some v => if v.truthy then none else some none
    | none => some none)
  let dynamics ← (match dget d "dynamics" with
    | some (.dict l) => if l.isEmpty then some none else (dynamicsOfDict l).map some
    | some v => if v.truthy then none else some none
    | none => some none)
  some { name := ← asStr (dget d "name")
         mtype := mtype
         partA := ← asStr (dget d "part_a")
         datumA := ← asStr (dget d "datum_a")
         partB := ← asStr (dget d "part_b")
         datumB := ← asStr (dget d "datum_b")
         offset := ← asNumD 0 (dget d "offset")
         angle := ← asNumD 0 (dget d "angle")
         axis := ← asNumsD [0, 0, 1, 0] (dget d "axis")
         secondaryAxis := ← asNumsD [1, 0, 0, 0] (dget d "secondary_axis")
         limits := limits
         dynamics := dynamics
         couplingRatio := ← asNumD 1 (dget d "coupling_ratio")
         couplingOffset := ← asNumD 0 (dget d "coupling_offset")
         couplingReverse := ← asBoolD false (dget d "coupling_reverse")
         couplingPitch := ← asOptNum (dget d "coupling_pitch")
         metadata := ← asDictD (dget d "metadata") }
end

end Verif.Assembly
