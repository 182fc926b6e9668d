import Verif.Base.Dict
import Mathlib.Algebra.Order.Field.Basic
import Mathlib.Data.Rat.Defs
import Mathlib.Algebra.Order.Ring.Rat

/-!
# Model of `src/yapcad/collision/{registry,detector,result,gear_interface,thread_interface}.py`
-/

namespace Verif.Collision
open Verif.Dict

/-- `InterfaceType` (interface.py:28-52). -/
inductive IType | gearMesh | thread | pressFit | bearing | spline | key | snapFit | custom
deriving Repr, DecidableEq

/-- `InterfaceVolume` (interface.py:95-137): identity fields plus a payload `α` on which
`overlaps_with` and `check_compatibility` depend. Objects are taken as immutable after
registration. -/
structure Iface (α : Type) where
  name : String
  part : String
  kind : IType
  data : α

variable {α : Type}

/-- `InterfaceRegistry.__init__` state (registry.py:64-68). -/
structure Registry (α : Type) where
  ifaces : List (String × Iface α)
  byPart : List (String × List String)
  byType : List (IType × List String)

/-- empty registry -/
def Registry.empty : Registry α := ⟨[], [], []⟩

/-- `d[k].append(x)` with `d[k] = []` created when missing (registry.py:82-89). -/
def idxAdd {κ : Type} [DecidableEq κ] (d : List (κ × List String)) (k : κ) (x : String) :
    List (κ × List String) :=
  dset d k ((dget d k).getD [] ++ [x])

/-- `register` (registry.py:70-92): `none` is the `ValueError`. -/
def Registry.register (r : Registry α) (i : Iface α) : Option (Registry α) :=
  if (dget r.ifaces i.name).isSome then none
  else some { ifaces := dset r.ifaces i.name i
              byPart := idxAdd r.byPart i.part i.name
              byType := idxAdd r.byType i.kind i.name }

/-- `d[k].remove(x)`, dropping the key when its list becomes empty (registry.py:117-126);
`none` is the `ValueError` of `list.remove`. -/
def idxRemove {κ : Type} [DecidableEq κ] (d : List (κ × List String)) (k : κ) (x : String) :
    Option (List (κ × List String)) :=
  match dget d k with
  | none => some d
  | some l =>
    if x ∈ l then
      if l.erase x = [] then some (ddel d k) else some (dset d k (l.erase x))
    else none

/-- `unregister` (registry.py:103-129). Outer `none`: an exception escaped; inner: returned value. -/
def Registry.unregister (r : Registry α) (n : String) : Option (Option (Iface α) × Registry α) :=
  match dget r.ifaces n with
  | none => some (none, r)
  | some i =>
    match idxRemove r.byPart i.part n, idxRemove r.byType i.kind n with
    | some bp, some bt => some (some i, ⟨ddel r.ifaces n, bp, bt⟩)
    | _, _ => none

/-- `clear` (registry.py:325-329). -/
def Registry.clear (_ : Registry α) : Registry α := .empty

/-- `get` (registry.py:130-139). -/
def Registry.get (r : Registry α) (n : String) : Option (Iface α) := dget r.ifaces n

/-- `[self._interfaces[n] for n in names]`: `none` is a `KeyError`. -/
def Registry.lookupAll (r : Registry α) (names : List String) : Option (List (Iface α)) :=
  names.mapM fun n => dget r.ifaces n

/-- `get_interfaces_for_part` (registry.py:141-151). -/
def Registry.forPart (r : Registry α) (p : String) : Option (List (Iface α)) :=
  r.lookupAll ((dget r.byPart p).getD [])

/-- `get_interfaces_by_type` (registry.py:153-163). -/
def Registry.byKind (r : Registry α) (k : IType) : Option (List (Iface α)) :=
  r.lookupAll ((dget r.byType k).getD [])

/-- `has_interfaces` (registry.py:165-174). -/
def Registry.hasInterfaces (r : Registry α) (p : String) : Bool :=
  match dget r.byPart p with | none => false | some l => 0 < l.length

/-- `get_all_interfaces` (registry.py:309-315). -/
def Registry.all (r : Registry α) : List (Iface α) := r.ifaces.map (·.2)

/-- `get_all_parts` (registry.py:317-323). -/
def Registry.allParts (r : Registry α) : List String := keys r.byPart

/-- `__len__` (registry.py:341-343). -/
def Registry.len (r : Registry α) : Nat := r.ifaces.length

/-- `find_compatible_interfaces` with the default candidates (registry.py:176-204). -/
def Registry.findCompatible (r : Registry α) (compat : Iface α → Iface α → Bool) (i : Iface α) :
    List (Iface α) :=
  (r.all.filter fun o => o.name ≠ i.name).filter fun o => compat i o

/-- The double loop of `check_overlap_compatibility` (registry.py:249-266): results (here the pair
and its verdict), `found_compatible`, `found_incompatible`. -/
def overlapLoop (overlaps compat : Iface α → Iface α → Bool) :
    List (Iface α × Iface α) → List (Iface α × Iface α × Bool) × Bool × Bool
  | [] => ([], false, false)
  | (a, b) :: rest =>
    let r := overlapLoop overlaps compat rest
    if overlaps a b then
      ((a, b, compat a b) :: r.1, compat a b || r.2.1, !compat a b || r.2.2)
    else r

/-- `check_overlap_compatibility` (registry.py:205-270). `overlaps`/`compat` stand for the
interfaces' `overlaps_with` and `check_compatibility(...).is_compatible`. -/
def Registry.checkOverlap (r : Registry α) (overlaps compat : Iface α → Iface α → Bool)
    (pa pb : String) : Option (Bool × List (Iface α × Iface α × Bool)) :=
  match r.forPart pa, r.forPart pb with
  | some la, some lb =>
    if la = [] ∨ lb = [] then some (false, [])
    else
      let res := overlapLoop overlaps compat (la.flatMap fun a => lb.map fun b => (a, b))
      some (res.2.1 && !res.2.2, res.1)
  | _, _ => none

/-- `get_compatible_interface_names` (registry.py:277-300), as the list of names added to the set. -/
def Registry.compatibleNames (r : Registry α) (overlaps compat : Iface α → Iface α → Bool)
    (pa pb : String) : Option (List String) :=
  match r.checkOverlap overlaps compat pa pb, r.forPart pa, r.forPart pb with
  | some (true, _), some la, some lb =>
    some ((la.flatMap fun a => lb.map fun b => (a, b)).flatMap fun ab =>
      if overlaps ab.1 ab.2 && compat ab.1 ab.2 then [ab.1.name, ab.2.name] else [])
  | some (false, _), _, _ => some []
  | _, _, _ => none

/-- Operations of a registry. -/
inductive RegOp (α : Type)
  | register (i : Iface α)
  | unregister (n : String)
  | clear

/-- One operation; a rejected `register` raises before any change. -/
def Registry.step (r : Registry α) : RegOp α → Option (Registry α)
  | .register i => some ((r.register i).getD r)
  | .unregister n => (r.unregister n).map (·.2)
  | .clear => some r.clear

/-! ### Detector -/

/-- `CollisionResult` (result.py:34-90), the fields used by the summary. -/
structure Result where
  partA : String
  partB : String
  collides : Bool
  compatibleInterface : Bool
  interfaceNames : List String
  failed : Bool     -- `error_message` non-empty
deriving DecidableEq, Repr

/-- `is_error` (result.py:125-128). -/
def Result.isError (r : Result) : Bool := r.collides && !r.compatibleInterface
/-- `is_interface_overlap` (result.py:130-133). -/
def Result.isInterface (r : Result) : Bool := r.collides && r.compatibleInterface

/-- External world of a detector: geometry provider, transform conversion, and the geometric
kernel (BREP / mesh / AABB) which answers `error` or whether the shapes collide. -/
structure World (α G F : Type) where
  provider : String → Option G
  toMatrix : F → Option F
  kernel : G → F → G → F → Option Bool
  overlaps : Iface α → Iface α → Bool
  compat : Iface α → Iface α → Bool

variable {G F : Type}

/-- `_get_geometry` (detector.py:356-365): answer and new cache. -/
def getGeometry (w : World α G F) (cache : List (String × G)) (p : String) :
    Option G × List (String × G) :=
  match dget cache p with
  | some g => (some g, cache)
  | none => match w.provider p with
    | none => (none, cache)
    | some g => (some g, dset cache p g)

/-- `CollisionResult.error` (result.py:209-226). -/
def Result.error (a b : String) : Result := ⟨a, b, false, false, [], true⟩

/-- `check_collision` (detector.py:200-277). `none`: an exception escapes from the registry. -/
def checkCollision (w : World α G F) (reg : Registry α) (cache : List (String × G))
    (a : String) (ta : F) (b : String) (tb : F) : Option (Result × List (String × G)) :=
  let ga := getGeometry w cache a
  let gb := getGeometry w ga.2 b
  match ga.1, gb.1 with
  | some x, some y =>
    match w.toMatrix ta, w.toMatrix tb with
    | some fa, some fb =>
      match w.kernel x fa y fb with
      | none => some (.error a b, gb.2)
      | some false => some (⟨a, b, false, false, [], false⟩, gb.2)
      | some true =>
        match reg.checkOverlap w.overlaps w.compat a b with
        | none => none
        | some (false, _) => some (⟨a, b, true, false, [], false⟩, gb.2)
        | some (true, _) =>
          match reg.compatibleNames w.overlaps w.compat a b with
          | none => none
          | some ns => some (⟨a, b, true, true, ns, false⟩, gb.2)
    | _, _ => some (.error a b, gb.2)
  | _, _ => some (.error a b, gb.2)

/-- `for i, part_a in enumerate(names): for part_b in names[i+1:]` (detector.py:303-304). -/
def pairs : List (String × F) → List ((String × F) × (String × F))
  | [] => []
  | x :: xs => xs.map (fun y => (x, y)) ++ pairs xs

/-- The check loop over the pairs, threading the geometry cache (detector.py:303-320). -/
def checkPairs (w : World α G F) (reg : Registry α) (skip : List (String × String)) :
    List (String × G) → List ((String × F) × (String × F)) →
      Option (List Result × List (String × G))
  | c, [] => some ([], c)
  | c, (x, y) :: rest =>
    if (x.1, y.1) ∈ skip then checkPairs w reg skip c rest
    else match checkCollision w reg c x.1 x.2 y.1 y.2 with
      | none => none
      | some (r, c') => match checkPairs w reg skip c' rest with
        | none => none
        | some (rs, c'') => some (r :: rs, c'')

/-- `check_assembly` (detector.py:281-321). `transforms` is the dictionary. -/
def checkAssembly (w : World α G F) (reg : Registry α) (cache : List (String × G))
    (transforms : List (String × F)) (skipPairs : List (String × String)) :
    Option (List Result × List (String × G)) :=
  checkPairs w reg (skipPairs.flatMap fun ab => [(ab.1, ab.2), (ab.2, ab.1)]) cache (pairs transforms)

/-- `get_collision_summary` (detector.py:324-349). -/
structure Summary where
  total : Nat
  collisions : Nat
  errors : Nat
  interfaces : Nat
  failures : Nat
  errorPairs : List (String × String)

/-- see above -/
def summary (rs : List Result) : Summary :=
  let cs := rs.filter (·.collides)
  { total := rs.length, collisions := cs.length, errors := (cs.filter (·.isError)).length,
    interfaces := (cs.filter (·.isInterface)).length, failures := (rs.filter (·.failed)).length,
    errorPairs := (cs.filter (·.isError)).map fun r => (r.partA, r.partB) }

/-! ### Registry identity (which registry object a detector consults) -/

/-- Heap of registry objects. -/
structure Heap (α : Type) where
  next : Nat
  at_ : Nat → Registry α

/-- `self.interface_registry = interface_registry or InterfaceRegistry()` (detector.py:167): an
empty registry is falsy because `__len__` is 0. Returns the reference held by the detector. -/
def newDetector (h : Heap α) (arg : Option Nat) : Nat × Heap α :=
  match arg with
  | some r => if (h.at_ r).len = 0 then
      (h.next, ⟨h.next + 1, fun i => if i = h.next then .empty else h.at_ i⟩) else (r, h)
  | none => (h.next, ⟨h.next + 1, fun i => if i = h.next then .empty else h.at_ i⟩)

/-- `set_interface_registry` (detector.py:181-187). -/
def setRegistry (_ : Nat) (r : Nat) : Nat := r

/-- Mutating a registry object on the heap. -/
def Heap.update (h : Heap α) (r : Nat) (f : Registry α → Registry α) : Heap α :=
  { h with at_ := fun i => if i = r then f (h.at_ r) else h.at_ i }

/-! ### Concrete interface kinds -/

section
variable {K : Type} [Field K] [LinearOrder K] [IsStrictOrderedRing K]

/-- Gear parameters (gear_interface.py:61-67). -/
structure Gear (K : Type) where
  module : K
  teeth : K
  pressureAngle : K
  faceWidth : K

/-- `pitch_diameter` (gear_interface.py:76-78) -/
def Gear.pitchDiameter (g : Gear K) : K := g.module * g.teeth
/-- `outside_diameter` (gear_interface.py:91-93) -/
def Gear.outsideDiameter (g : Gear K) : K := g.pitchDiameter + 2 * g.module
/-- `root_diameter` (gear_interface.py:96-98) -/
def Gear.rootDiameter (g : Gear K) : K := g.pitchDiameter - 2 * (5 / 4 * g.module)

/-- `GearMeshInterface.check_compatibility(...).is_compatible` for two gears
(gear_interface.py:203-216; helix and face width only warn). -/
def Gear.compatible (a b : Gear K) : Bool :=
  if |a.module - b.module| > a.module * (1 / 1000) then false
  else if |a.pressureAngle - b.pressureAngle| > 1 / 2 then false
  else true

/-- `get_center_distance` (gear_interface.py:136-156) -/
def Gear.centerDistance (a b : Gear K) : Option K :=
  if |a.module - b.module| > a.module * (1 / 1000) then none
  else some ((a.pitchDiameter + b.pitchDiameter) / 2)

/-- `check_gear_mesh_collision(...).is_compatible` (gear_interface.py:267-326); `none` would be an escaping `ValueError`. -/
def gearMeshOk (a b : Gear K) (dist tol : K) : Option Bool :=
  if !a.compatible b then some false
  else match a.centerDistance b with
    | none => none
    | some cd => if |dist - cd| > tol then some false else some true

/-- Thread parameters (thread_interface.py:98-104). -/
structure Thread (K : Type) where
  pitch : K
  major : K
  internal : Bool

/-- `ThreadInterface.check_compatibility(...).is_compatible` for two threads
(thread_interface.py:169-203). -/
def Thread.compatible (a b : Thread K) : Bool :=
  if a.internal = b.internal then false
  else if |a.major - b.major| > a.major * (1 / 1000) then false
  else if |a.pitch - b.pitch| > a.pitch * (1 / 1000) then false
  else true

/-- `_aabb_intersects` (detector.py:662-671), bounds as two functions of the axis. -/
def aabbIntersects (amin amax bmin bmax : Fin 3 → K) : Bool :=
  [0, 1, 2].all fun i => !(decide (amax i < bmin i) || decide (bmax i < amin i))

end

end Verif.Collision
