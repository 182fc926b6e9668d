import Mathlib.Algebra.Group.Defs
import Mathlib.Algebra.Group.Basic
import Mathlib.Order.Lattice
import Mathlib.Order.Defs.LinearOrder
import Mathlib.Data.List.Basic

/-!
# Model of `src/yapcad/kinematics/{joint,part,frame,chain}.py`

Transforms are elements of an arbitrary monoid `T` (`@` is `*`, identity is `1`); see
`Verif.Kin.Transform` for the concrete matrices. Joint values come from a linear order `V`.
-/

namespace Verif.Kin

/-- `JointType` (joint.py:17-33). -/
inductive JointType | fixed | revolute | prismatic | cylindrical | spherical
deriving Repr, DecidableEq

/-- `Joint` (joint.py:36-77). `motion v` stands for the axis rotation/translation computed from
`axis` and `v` (joint.py:93-117): the axis is constant, so it is folded into the function. -/
structure Joint (V T : Type) where
  kind : JointType
  base : T
  motion : V → T
  value : V
  minLimit : V
  maxLimit : V

variable {V T : Type} [LinearOrder V]

/-- `Joint.get_transform` (joint.py:79-120). -/
def Joint.getTransform [Mul T] (j : Joint V T) : T :=
  match j.kind with
  | .fixed => j.base
  | .revolute => j.base * j.motion j.value
  | .prismatic => j.base * j.motion j.value
  | .cylindrical => j.base * j.motion j.value
  | .spherical => j.base

/-- `Joint.clamp_value` (joint.py:122-128). -/
def Joint.clampValue (j : Joint V T) (v : V) : V := max j.minLimit (min j.maxLimit v)

/-- `Joint.set_value` (joint.py:130-139). -/
def Joint.setValue (j : Joint V T) (v : V) (clamp : Bool := true) : Joint V T :=
  if clamp then { j with value := j.clampValue v } else { j with value := v }

/-- `KinematicPart` (part.py:18-82), kinematic fields only. `frames` maps a frame name to the
transform its `get_transform` returns (frame.py:62-88; explicit transforms). `cache` is
`_world_transform` with `_transform_dirty`: `none` = dirty (part.py:112-130). -/
structure Part (V T : Type) where
  name : String
  parent : Option String
  parentFrame : String
  joint : Joint V T
  frames : List (String × T)
  cache : Option T

/-- `self.frames.get(name)` (part.py:104-110). -/
def Part.getFrame (p : Part V T) (f : String) : Option T := p.frames.lookup f

/-- `KinematicPart.__post_init__` (part.py:74-81): ensure the ORIGIN frame. -/
def Part.postInit [One T] (p : Part V T) : Part V T :=
  if (p.frames.lookup "ORIGIN").isSome then p else { p with frames := p.frames ++ [("ORIGIN", 1)] }

/-- `KinematicPart.add_frame` (part.py:83-102): dict assignment. -/
def Part.addFrame (p : Part V T) (f : String) (t : T) : Part V T :=
  { p with frames := (f, t) :: p.frames.filter (fun e => e.1 ≠ f) }

/-- `DATUM_NAME` (chain.py:59). -/
def datumName : String := "GLOBAL_DATUM"

/-- `KinematicChain` (chain.py:61-83). `parts` is the dict, *newest first*; `children n` is
`self._children.get(n, [])` (chain.py:245). -/
structure Chain (V T : Type) where
  parts : List (Part V T)
  children : String → List String

/-- `self.parts[name]` -/
def Chain.find (s : Chain V T) (n : String) : Option (Part V T) := s.parts.find? (fun p => p.name = n)

/-- The `__init__` state with the virtual root (chain.py:73-83). -/
def Chain.init [One T] (v0 vmin vmax : V) : Chain V T :=
  { parts := [{ name := datumName, parent := none, parentFrame := "ORIGIN",
                joint := ⟨.fixed, 1, fun _ => 1, v0, vmin, vmax⟩,
                frames := [("ORIGIN", 1)], cache := some 1 }],
    children := fun _ => [] }

/-- Errors raised (all `ValueError`). -/
inductive Err | duplicate | noParent | notFound
deriving Repr, DecidableEq

/-- `add_part` (chain.py:85-128). -/
def Chain.addPart (s : Chain V T) (p : Part V T) : Except Err (Chain V T) :=
  if (s.find p.name).isSome then .error .duplicate
  else
    let par := p.parent.getD datumName           -- 99-100: orphans go to the datum
    match s.find par with
    | none => .error .noParent                     -- 103-106
    | some q =>
      let fr := if (q.getFrame p.parentFrame).isSome then p.parentFrame else "ORIGIN"  -- 110-115
      let p' := { p with parent := some par, parentFrame := fr, cache := none }  -- 126: invalidate
      .ok { parts := p' :: s.parts,
            children := fun n => if n = par then s.children n ++ [p.name] else s.children n }

/-- Replace the part named `n` in place (mutation of the stored object). -/
def Chain.modify (s : Chain V T) (n : String) (f : Part V T → Part V T) : Chain V T :=
  { s with parts := s.parts.map fun p => if p.name = n then f p else p }

/-- `for child in ...: self._invalidate_subtree(child)` (chain.py:312-313), `f` is the recursive call. -/
def Chain.invalidateList (f : Chain V T → String → Option (Chain V T)) :
    Chain V T → List String → Option (Chain V T)
  | s, [] => some s
  | s, c :: cs =>
    match f s c with
    | none => none
    | some s' => Chain.invalidateList f s' cs

/-- `_invalidate_subtree` (chain.py:308-313); the fuel bounds the recursion depth, running out
would be Python's RecursionError (proved unreachable). -/
def Chain.invalidate : Nat → Chain V T → String → Option (Chain V T)
  | 0, _, _ => none
  | fuel + 1, s, n =>
    if (s.find n).isSome then
      Chain.invalidateList (Chain.invalidate fuel) (s.modify n fun p => { p with cache := none })
        (s.children n)
    else some s

/-- `set_joint_value` (chain.py:130-144). -/
def Chain.setJointValue (s : Chain V T) (n : String) (v : V) (clamp : Bool := true) :
    Except Err (Option (Chain V T)) :=
  if (s.find n).isSome then
    let s1 := s.modify n fun p => { p with joint := p.joint.setValue v clamp }
    .ok (Chain.invalidate (s1.parts.length + 1) s1 n)
  else .error .notFound

/-- `get_world_transform` (chain.py:156-203). Outer `Option`: recursion depth (fuel); inner
`Option`: `none` is the `ValueError` for an unknown part. Returns the state with caches filled. -/
def Chain.getWorld [Mul T] [One T] : Nat → Chain V T → String → String → Option (Option (T × Chain V T))
  | 0, _, _, _ => none
  | fuel + 1, s, n, frame =>
    match s.find n with
    | none => some none
    | some p =>
      -- compute part world transform if not cached (176-190)
      let r : Option (Option (T × Chain V T)) :=
        match p.cache with
        | some w => some (some (w, s))
        | none =>
          if p.parent = none ∨ p.name = datumName then
            some (some (1, s.modify n fun p => { p with cache := some 1 }))
          else
            match Chain.getWorld fuel s (p.parent.getD "") p.parentFrame with
            | none => none
            | some none => some none
            | some (some (pw, s1)) =>
              let w := pw * p.joint.getTransform
              some (some (w, s1.modify n fun p => { p with cache := some w }))
      match r with
      | none => none
      | some none => some none
      | some (some (w, s1)) =>
        if frame = "ORIGIN" then some (some (w, s1))
        else
          match p.getFrame frame with
          | none => some (some (w, s1))      -- 199-201: warn and use the part pose
          | some f => some (some (w * f, s1))

/-- `get_relative_transform` (chain.py:205-222). -/
def Chain.getRelative [Mul T] [One T] [Inv T] (s : Chain V T) (a fa b fb : String) :
    Option (Option (T × Chain V T)) :=
  match Chain.getWorld (s.parts.length + 1) s a fa with
  | some (some (wa, s1)) =>
    match Chain.getWorld (s1.parts.length + 1) s1 b fb with
    | some (some (wb, s2)) => some (some (wa⁻¹ * wb, s2))
    | r => r
  | r => r

/-- `get_chain_to_root` (chain.py:224-237): `while current and current in self.parts`; an empty
name is falsy. The fuel bounds the number of iterations. -/
def Chain.toRoot : Nat → Chain V T → Option String → Option (List String)
  | 0, _, _ => none
  | fuel + 1, s, cur =>
    match cur with
    | none => some []
    | some n =>
      if n = "" then some []
      else match s.find n with
        | none => some []
        | some p => (Chain.toRoot fuel s p.parent).map (n :: ·)

/-- loop over the children (chain.py:254-256), `f` is the recursive call -/
def Chain.descendantsList (f : String → Option (List String)) : List String → Option (List String)
  | [] => some []
  | c :: cs =>
    match f c, Chain.descendantsList f cs with
    | some d, some ds => some (c :: d ++ ds)
    | _, _ => none

/-- `get_all_descendants` (chain.py:247-257). -/
def Chain.descendants : Nat → Chain V T → String → Option (List String)
  | 0, _, _ => none
  | fuel + 1, s, n => Chain.descendantsList (Chain.descendants fuel s) (s.children n)

/-- `validate` (chain.py:270-306), the number of issues per kind: dangling parents, missing parent
frames, and over-long parent chains (fuel as in `toRoot`). A falsy parent (`None` or `""`) is
skipped. Only emptiness of the list is observable in the model, so issues are the part names. -/
def Chain.validate (s : Chain V T) : List String :=
  let rest := s.parts.filter (fun p => p.name ≠ datumName)
  let dangling := rest.filter fun p => match p.parent with
    | none => false
    | some q => q ≠ "" && (s.find q).isNone
  let frames := rest.filter fun p => match p.parent with
    | none => false
    | some q => match s.find q with
      | none => false
      | some pq => q ≠ "" && (pq.getFrame p.parentFrame).isNone
  let cycles := s.parts.filter fun p =>
    match Chain.toRoot (s.parts.length + 2) s (some p.name) with
    | none => true
    | some c => s.parts.length < c.length
  (dangling ++ frames ++ cycles).map (·.name)

/-! ### Serialisation -/

/-- `dependencies[name]` in `_topological_sort` (chain.py:394-401); an empty parent name is falsy. -/
def topoDep (data : List (String × Option String)) (n : String) : Option String :=
  match (data.lookup n).getD none with
  | none => none
  | some q => if q ≠ "" ∧ q ∈ data.map (·.1) then some q else none

/-- The `while remaining` loop (chain.py:407-417). `remaining` is a Python set: `ord` is the
(arbitrary) iteration order of a set. The result is `sorted_names`. -/
def topoLoop (ord : List String → List String) (dep : String → Option String) :
    Nat → List String → Option (List String)
  | _, [] => some []
  | 0, _ :: _ => none
  | fuel + 1, rem =>
    let ready := (ord rem).filter fun n => match dep n with
      | none => true
      | some q => q ∉ rem
    if ready = [] then some (ord rem)
    else (topoLoop ord dep fuel (rem.filter (· ∉ ready))).map (ready ++ ·)

/-- `_topological_sort` (chain.py:390-419) on (name, parent) pairs. -/
def topoSort (ord : List String → List String) (data : List (String × Option String)) :
    Option (List String) :=
  topoLoop ord (topoDep data) data.length (data.map (·.1))

/-- `to_dict` (chain.py:333-356): parts in insertion order, the datum skipped. A part's dictionary
is represented by the part without its cache; the transforms inside survive `to_dict/from_dict`
exactly (theorem `C47_dict_roundtrip`). -/
def Chain.toDict (s : Chain V T) : List (String × Part V T) :=
  (s.parts.reverse.filter (fun p => p.name ≠ datumName)).map fun p => (p.name, { p with cache := none })

/-- The `add_part` loop of `from_dict` (chain.py:384-387). -/
def Chain.addAll [One T] : Chain V T → List (Part V T) → Except Err (Chain V T)
  | s, [] => .ok s
  | s, p :: ps => match s.addPart p.postInit with
    | .error e => .error e
    | .ok s' => s'.addAll ps

/-- `from_dict` (chain.py:370-388). -/
def Chain.fromDict [One T] (v0 vmin vmax : V) (ord : List String → List String)
    (data : List (String × Part V T)) : Option (Except Err (Chain V T)) :=
  match topoSort ord (data.map fun d => (d.1, d.2.parent)) with
  | none => none
  | some names => some ((Chain.init v0 vmin vmax).addAll (names.filterMap fun n => data.lookup n))

/-- Public operations of a chain. `addFrame` is `chain.parts[n].add_frame(f,t)`. -/
inductive Op (V T : Type)
  | addPart (p : Part V T)
  | setJoint (n : String) (v : V) (clamp : Bool)
  | getWorld (n frame : String)
  | addFrame (n f : String) (t : T)

/-- One operation; a `ValueError` leaves the (returned) state as it is at the raise. A recursion
overflow is `none`. -/
def Chain.step [Mul T] [One T] (s : Chain V T) : Op V T → Option (Chain V T)
  | .addPart p => match s.addPart p.postInit with | .ok s' => some s' | .error _ => some s
  | .setJoint n v c => match s.setJointValue n v c with | .ok r => r | .error _ => some s
  | .getWorld n f => match Chain.getWorld (s.parts.length + 1) s n f with
      | none => none | some none => some s | some (some (_, s')) => some s'
  | .addFrame n f t => some (s.modify n fun p => p.addFrame f t)

end Verif.Kin
