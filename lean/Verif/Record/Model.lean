import Mathlib.Data.Rat.Defs
import Mathlib.Algebra.Order.Ring.Rat
import Mathlib.Algebra.Order.Field.Rat
import Mathlib.Data.Rat.Floor

/-!
# Model of the records that are written as dictionaries

`assembly/load_case.py`, `kinematics/frame.py`, `joint.py` and `part.py`, `collision/result.py`, `dsl/runtime/provenance.py`, `viewer/config.py`,
`io/meta_yaml.py`. Dictionaries are lists of pairs; numbers are rational. The code does not check the types of values in a dictionary; here a value of a wrong type is the
error `.type`, and nothing is claimed about it.
-/

namespace Verif.Record

/-- JSON values -/
inductive J where
  | null
  | bool (b : Bool)
  | num (q : ℚ)
  | str (s : String)
  | arr (l : List J)
  | obj (l : List (String × J))

inductive Err where
  | key
  | value
  | type
  deriving DecidableEq

/-- `data[k]`, or `data.get(k)` -/
def J.get : J → String → Option J
  | .obj l, k => l.lookup k
  | _, _ => none

def asStr : J → Except Err String
  | .str s => .ok s
  | _ => .error .type

def asNum : J → Except Err ℚ
  | .num q => .ok q
  | _ => .error .type

def asInt : J → Except Err ℤ
  | .num q => if q.den = 1 then .ok q.num else .error .type
  | _ => .error .type

def asBool : J → Except Err Bool
  | .bool b => .ok b
  | _ => .error .type

def nums : List J → Except Err (List ℚ)
  | [] => .ok []
  | j :: l => match asNum j with
    | .error e => .error e
    | .ok q => match nums l with
      | .error e => .error e
      | .ok r => .ok (q :: r)

def asNums : J → Except Err (List ℚ)
  | .arr l => nums l
  | _ => .error .type

def strs : List J → Except Err (List String)
  | [] => .ok []
  | j :: l => match asStr j with
    | .error e => .error e
    | .ok q => match strs l with
      | .error e => .error e
      | .ok r => .ok (q :: r)

def asStrs : J → Except Err (List String)
  | .arr l => strs l
  | _ => .error .type

def numss : List J → Except Err (List (List ℚ))
  | [] => .ok []
  | j :: l => match asNums j with
    | .error e => .error e
    | .ok q => match numss l with
      | .error e => .error e
      | .ok r => .ok (q :: r)

def asNumss : J → Except Err (List (List ℚ))
  | .arr l => numss l
  | _ => .error .type

variable {α : Type}

/-- `data[k]` -/
def need (f : J → Except Err α) (d : J) (k : String) : Except Err α :=
  match d.get k with
  | none => .error .key
  | some v => f v

/-- `data.get(k)` -/
def opt (f : J → Except Err α) (d : J) (k : String) : Except Err (Option α) :=
  match d.get k with
  | none => .ok none
  | some .null => .ok none
  | some v => match f v with
    | .error e => .error e
    | .ok x => .ok (some x)

/-- `data.get(k, x)` -/
def dflt (f : J → Except Err α) (x : α) (d : J) (k : String) : Except Err α :=
  match d.get k with
  | none => .ok x
  | some v => f v

def ofOpt (f : α → J) : Option α → J
  | none => .null
  | some x => f x

def ofNums (l : List ℚ) : J := .arr (l.map .num)

/-! ## load cases -/

/-- `LoadAttach`, load_case.py:50-80 -/
structure Attach where
  part : String
  position : List ℚ := [0, 0, 0]
  interface : Option String := none
  clock : Option ℚ := none
  bolt : Option ℤ := none
  deriving DecidableEq

/-- `LoadAttach.to_dict`, load_case.py:73-80 -/
def Attach.toDict (a : Attach) : J :=
  .obj [("part", .str a.part), ("position", ofNums a.position), ("interface", ofOpt .str a.interface), ("clock_deg", ofOpt .num a.clock),
    ("bolt_index", ofOpt (fun n : ℤ => .num n) a.bolt)]

/-- the fields of `LoadCase`, load_case.py:83-101 -/
structure Case where
  id : String
  name : String
  group : String
  direction : List ℚ
  attach : Attach
  magnitudeN : Option ℚ := none
  magnitudeG : Option ℚ := none
  frame : String := "vehicle"
  description : String := ""
  source : String := ""
  status : String := "estimated"
  warn : Bool := false
  deriving DecidableEq

def validFrames : List String := ["vehicle", "mesh"]
def validStatuses : List String := ["confirmed", "estimated", "tribal", "placeholder"]
def validGroups : List String := ["inertial", "recovery", "pressure", "handling", "custom"]

/-- `LoadCase.__post_init__`, load_case.py:103-123 -/
def Case.init (c : Case) : Except Err Case :=
  if c.group ∉ validGroups then .error .value
  else if c.frame ∉ validFrames then .error .value
  else if c.status ∉ validStatuses then .error .value
  else if c.magnitudeN = none ∧ c.magnitudeG = none then .error .value
  else if c.direction.length ≠ 3 then .error .value
  else .ok c

/-- `LoadCase.to_dict`, load_case.py:125-143 -/
def Case.toDict (c : Case) : J :=
  .obj ([("id", .str c.id), ("name", .str c.name), ("group", .str c.group), ("direction", ofNums c.direction), ("attach", c.attach.toDict),
    ("coordinate_frame", .str c.frame), ("description", .str c.description), ("source", .str c.source), ("status", .str c.status)]
    ++ (match c.magnitudeN with | some m => [("magnitude_n", J.num m)] | none => [])
    ++ (match c.magnitudeG with | some m => [("magnitude_g", J.num m)] | none => [])
    ++ (if c.warn then [("warn", J.bool true)] else []))

/-- the attachment in `LoadCase.from_dict`, load_case.py:148-155; `data.get("attach", {})` -/
def Attach.fromDict (d : J) : Except Err Attach := do
  let part ← need asStr d "part"
  let position ← dflt asNums [0, 0, 0] d "position"
  let interface ← opt asStr d "interface"
  let clock ← opt asNum d "clock_deg"
  let bolt ← opt asInt d "bolt_index"
  return { part, position, interface, clock, bolt }

/-- `LoadCase.from_dict`, load_case.py:145-169 -/
def Case.fromDict (d : J) : Except Err Case := do
  let attach ← Attach.fromDict ((d.get "attach").getD (.obj []))
  let id ← need asStr d "id"
  let name ← need asStr d "name"
  let group ← need asStr d "group"
  let direction ← need asNums d "direction"
  let magnitudeN ← opt asNum d "magnitude_n"
  let magnitudeG ← opt asNum d "magnitude_g"
  let frame ← dflt asStr "vehicle" d "coordinate_frame"
  let description ← dflt asStr "" d "description"
  let source ← dflt asStr "" d "source"
  let status ← dflt asStr "estimated" d "status"
  let warn ← dflt asBool false d "warn"
  Case.init { id, name, group, direction, attach, magnitudeN, magnitudeG, frame, description, source, status, warn }

/-- the fields of `BoltPattern`, load_case.py:172-186. `n_bolts` need not be whole: the code does not check it. -/
structure Bolts where
  pcd : ℚ
  n : ℚ
  spec : String
  access : List ℚ
  deriving DecidableEq

/-- `BoltPattern.__post_init__`, load_case.py:188-196 -/
def Bolts.init (b : Bolts) : Except Err Bolts :=
  if b.pcd ≤ 0 then .error .value
  else if b.n ≤ 0 then .error .value
  else if b.access.length ≠ 3 then .error .value
  else .ok b

/-- `int(x)`: towards zero -/
def trunc (q : ℚ) : ℤ := if 0 ≤ q then ⌊q⌋ else ⌈q⌉

/-- `BoltPattern.to_dict`, load_case.py:198-204 -/
def Bolts.toDict (b : Bolts) : J :=
  .obj [("pcd_mm", .num b.pcd), ("n_bolts", .num (trunc b.n)), ("bolt_spec", .str b.spec), ("access_direction", ofNums b.access)]

/-- `BoltPattern.from_dict`, load_case.py:206-213 -/
def Bolts.fromDict (d : J) : Except Err Bolts := do
  let pcd ← need asNum d "pcd_mm"
  let n ← need asNum d "n_bolts"
  let spec ← need asStr d "bolt_spec"
  let access ← dflt asNums [0, 0, 1] d "access_direction"
  Bolts.init { pcd, n, spec, access }

/-! ## frames, joints and parts of kinematic chains -/

/-- a transform: its 16 numbers; `Transform.to_dict` also writes position and angles, which `from_dict` does not read if the matrix is there
(`Verif.Kin.Transform`), and which are left out here. -/
abbrev Tr := List (List ℚ)

def identity : Tr := [[1, 0, 0, 0], [0, 1, 0, 0], [0, 0, 1, 0], [0, 0, 0, 1]]

def Tr.toDict (t : Tr) : J := .obj [("matrix", .arr (t.map ofNums))]

def Tr.fromDict (d : J) : Except Err Tr := need asNumss d "matrix"

/-- `CoordinateFrame`, frame.py:50-61, without the cache (an empty cache) -/
structure Frame where
  name : String
  transform : Option Tr := none
  source : Option String := none
  datum : Option String := none
  description : String := ""
  deriving DecidableEq

/-- `CoordinateFrame.get_transform`, frame.py:62-88 and 90-107; `lookup` is what the registry of datums has at the time (and failures are nothing) -/
def Frame.get (lookup : String → String → Option Tr) (f : Frame) : Tr :=
  match f.transform with
  | some t => t
  | none =>
    match f.source, f.datum with
    | some s, some d =>
      if s ≠ "" ∧ d ≠ "" then (lookup s d).getD identity else identity
    | _, _ => identity

/-- `CoordinateFrame.to_dict`, frame.py:115-124 -/
def Frame.toDict (lookup : String → String → Option Tr) (f : Frame) : J :=
  .obj [("name", .str f.name), ("transform", Tr.toDict (f.get lookup)), ("datum_source", ofOpt .str f.source), ("datum_name", ofOpt .str f.datum),
    ("description", .str f.description)]

/-- `CoordinateFrame.from_dict`, frame.py:126-139 -/
def Frame.fromDict (d : J) : Except Err Frame := do
  let transform ← (match d.get "transform" with
    | none => .ok none
    | some t => match Tr.fromDict t with
      | .error e => .error e
      | .ok t => .ok (some t))
  let name ← need asStr d "name"
  let source ← opt asStr d "datum_source"
  let datum ← opt asStr d "datum_name"
  let description ← dflt asStr "" d "description"
  return { name, transform, source, datum, description }

/-- `JointType`, joint.py:25-32 -/
inductive JType where
  | fixed
  | revolute
  | prismatic
  | cylindrical
  | spherical
  deriving DecidableEq

def JType.value : JType → String
  | .fixed => "fixed"
  | .revolute => "revolute"
  | .prismatic => "prismatic"
  | .cylindrical => "cylindrical"
  | .spherical => "spherical"

/-- `JointType(value)`; an unknown value is a ValueError -/
def JType.of (s : String) : Except Err JType :=
  if s = "fixed" then .ok .fixed
  else if s = "revolute" then .ok .revolute
  else if s = "prismatic" then .ok .prismatic
  else if s = "cylindrical" then .ok .cylindrical
  else if s = "spherical" then .ok .spherical
  else .error .value

/-- `Joint`, joint.py:69-75 -/
structure Joint where
  name : String
  type : JType := .fixed
  base : Tr := identity
  axis : List ℚ := [0, 0, 1]
  value : ℚ := 0
  lo : ℚ := -180
  hi : ℚ := 180
  deriving DecidableEq

/-- `Joint.to_dict`, joint.py:141-150 -/
def Joint.toDict (j : Joint) : J :=
  .obj [("name", .str j.name), ("type", .str j.type.value), ("axis", ofNums j.axis), ("value", .num j.value), ("limits", ofNums [j.lo, j.hi]),
    ("base_transform", Tr.toDict j.base)]

/-- `limits[0]` and `limits[1]`; a shorter list raises (IndexError, here `.key`) -/
def ends : List ℚ → Except Err (ℚ × ℚ)
  | a :: b :: _ => .ok (a, b)
  | _ => .error .key

/-- `Joint.from_dict`, joint.py:152-164 -/
def Joint.fromDict (d : J) : Except Err Joint := do
  let name ← need asStr d "name"
  let t ← dflt asStr "fixed" d "type"
  let type ← JType.of t
  let axis ← dflt asNums [0, 0, 1] d "axis"
  let value ← dflt asNum 0 d "value"
  let limits ← dflt asNums [-180, 180] d "limits"
  let e ← ends limits
  let base ← dflt Tr.fromDict identity d "base_transform"
  return { name, type, axis, value, lo := e.1, hi := e.2, base }

/-- `KinematicPart`, part.py:55-73, without the cache. Frames are in the order of their insertion. -/
structure Part where
  name : String
  parent : Option String := none
  parentFrame : String := "ORIGIN"
  joint : Joint := { name := "default" }
  frames : List (String × Frame) := []
  stl : Option String := none
  printable : Bool := true
  material : String := "PETG"
  color : List ℚ := [1 / 2, 1 / 2, 1 / 2]
  description : String := ""
  deriving DecidableEq

/-- `KinematicPart.__post_init__`, part.py:75-82 -/
def Part.init (p : Part) : Part :=
  if "ORIGIN" ∈ p.frames.map (·.1) then p
  else { p with frames := p.frames ++ [("ORIGIN", { name := "ORIGIN", transform := some identity, description := "Part origin" })] }

/-- `KinematicPart.to_dict`, part.py:132-148 -/
def Part.toDict (lookup : String → String → Option Tr) (p : Part) : J :=
  .obj [("name", .str p.name), ("parent", ofOpt .str p.parent), ("parent_frame", .str p.parentFrame), ("joint", p.joint.toDict),
    ("frames", .obj (p.frames.map fun f => (f.1, f.2.toDict lookup))), ("stl_path", ofOpt .str p.stl), ("is_printable", .bool p.printable),
    ("material", .str p.material), ("color", ofNums p.color), ("description", .str p.description)]

/-- the frames of `KinematicPart.from_dict`, part.py:153-155 -/
def frames : List (String × J) → Except Err (List (String × Frame))
  | [] => .ok []
  | (n, j) :: l => match Frame.fromDict j with
    | .error e => .error e
    | .ok f => match frames l with
      | .error e => .error e
      | .ok r => .ok ((n, f) :: r)

def asFrames : J → Except Err (List (String × Frame))
  | .obj l => frames l
  | _ => .error .type

/-- `KinematicPart.from_dict`, part.py:150-168 -/
def Part.fromDict (d : J) : Except Err Part := do
  let fs ← dflt asFrames [] d "frames"
  let name ← need asStr d "name"
  let parent ← opt asStr d "parent"
  let parentFrame ← dflt asStr "ORIGIN" d "parent_frame"
  let joint ← dflt Joint.fromDict { name := "default" } d "joint"
  let stl ← opt asStr d "stl_path"
  let printable ← dflt asBool true d "is_printable"
  let material ← dflt asStr "PETG" d "material"
  let color ← dflt asNums [1 / 2, 1 / 2, 1 / 2] d "color"
  let description ← dflt asStr "" d "description"
  return Part.init { name, parent, parentFrame, joint, frames := fs, stl, printable, material, color, description }

/-! ## collision results -/

/-- `CollisionMethod`, result.py:17-31, by name -/
def methods : List String := ["BREP", "MESH", "AABB", "FCL", "UNKNOWN"]

/-- `CollisionResult`, result.py:40-91; `metadata` is any value -/
structure Result where
  a : String
  b : String
  collides : Bool
  method : String := "UNKNOWN"
  volume : Option ℚ := none
  depth : ℚ := 0
  contacts : List (List ℚ) := []
  compatible : Bool := false
  interfaces : List String := []
  message : String := ""
  metadata : J := .obj []

/-- `CollisionResult.to_dict`, result.py:139-157 -/
def Result.toDict (r : Result) : J :=
  .obj [("part_a", .str r.a), ("part_b", .str r.b), ("collides", .bool r.collides), ("method", .str r.method), ("intersection_volume", ofOpt .num r.volume),
    ("penetration_depth", .num r.depth), ("contact_points", .arr (r.contacts.map ofNums)), ("compatible_interface", .bool r.compatible),
    ("interface_names", .arr (r.interfaces.map .str)), ("error_message", .str r.message), ("metadata", r.metadata)]

/-- `CollisionResult.from_dict`, result.py:159-189 -/
def Result.fromDict (d : J) : Except Err Result := do
  let m ← dflt asStr "UNKNOWN" d "method"
  let method := if m ∈ methods then m else "UNKNOWN"
  let a ← need asStr d "part_a"
  let b ← need asStr d "part_b"
  let collides ← need asBool d "collides"
  let volume ← opt asNum d "intersection_volume"
  let depth ← dflt asNum 0 d "penetration_depth"
  let contacts ← dflt asNumss [] d "contact_points"
  let compatible ← dflt asBool false d "compatible_interface"
  let interfaces ← dflt asStrs [] d "interface_names"
  let message ← dflt asStr "" d "error_message"
  return { a, b, collides, method, volume, depth, contacts, compatible, interfaces, message, metadata := (d.get "metadata").getD (.obj []) }

/-! ## provenance -/

/-- `Provenance`, provenance.py:14-39 -/
structure Prov where
  module : String
  command : String
  version : String := "0.0.0"
  parameters : List (String × J) := []
  signature : String := ""
  timestamp : String
  extra : List (String × J) := []

/-- `Provenance.to_dict`, provenance.py:41-53 -/
def Prov.toDict (p : Prov) : J :=
  .obj [("invocation", .obj [("module", .str p.module), ("command", .str p.command), ("version", .str p.version), ("parameters", .obj p.parameters),
    ("sourceSignature", .str p.signature), ("timestamp", .str p.timestamp)]), ("extra", .obj p.extra)]

def asObj : J → Except Err (List (String × J))
  | .obj l => .ok l
  | _ => .error .type

/-- `Provenance.from_dict`, provenance.py:59-71 -/
def Prov.fromDict (d : J) : Except Err Prov := do
  let inv := (d.get "invocation").getD (.obj [])
  let module ← dflt asStr "" inv "module"
  let command ← dflt asStr "" inv "command"
  let version ← dflt asStr "0.0.0" inv "version"
  let parameters ← dflt asObj [] inv "parameters"
  let signature ← dflt asStr "" inv "sourceSignature"
  let timestamp ← dflt asStr "" inv "timestamp"
  let extra ← dflt asObj [] d "extra"
  return { module, command, version, parameters, signature, timestamp, extra }

/-- white space that `str.strip` removes, as far as ASCII -/
def isSpace (c : Char) : Bool := c ∈ [' ', '\t', '\n', '\r', '\x0b', '\x0c', '\x1c', '\x1d', '\x1e', '\x1f']

/-- `str.strip` -/
def strip (s : List Char) : List Char := ((s.dropWhile isSpace).reverse.dropWhile isSpace).reverse

/-- `.replace('\r\n', '\n').replace('\r', '\n')` -/
def newlines : List Char → List Char
  | [] => []
  | '\r' :: '\n' :: l => '\n' :: newlines l
  | '\r' :: l => '\n' :: newlines l
  | c :: l => c :: newlines l

/-- the text that is hashed, provenance.py:80-81 -/
def normal (s : String) : String := String.ofList (newlines (strip s.toList))

/-- `compute_source_signature`, provenance.py:74-82; `sha` is the hash in hexadecimal digits -/
def signature (sha : String → String) (source : String) : String := "sha256:" ++ sha (normal source)

/-- `create_provenance`, provenance.py:85-122: the signature -/
def created (sha : String → String) (source : String) : String := if source = "" then "" else signature sha source

/-- `verify_source_signature`, provenance.py:127-139 -/
def verify (sha : String → String) (source sig : String) : Bool := signature sha source == sig

/-! ## the viewer's configuration -/

/-- `ViewerConfig`, config.py:116-151. Opacities, size, title and polling are left out. -/
structure Config where
  stlDir : String
  positions : Option String := none
  command : Option String := none
  screenshots : Option String := none
  defaultColor : List ℚ := [2 / 5, 2 / 5, 2 / 5]
  palette : List (String × List ℚ)
  deriving DecidableEq

/-- a path that counts: an empty one does not, config.py:155-162 -/
def path (s : Option String) : Option String := if s = some "" then none else s

/-- `screenshot_path`, config.py:180-183; `join` is `Path / "renders"` as a string -/
def Config.screenshotPath (join : String → String) (c : Config) : String := (path c.screenshots).getD (join c.stlDir)

/-- `ViewerConfig.to_dict`, config.py:209-232 -/
def Config.toDict (join : String → String) (c : Config) : J :=
  .obj [("stl_dir", .str c.stlDir), ("positions_file", ofOpt .str (path c.positions)), ("command_file", ofOpt .str (path c.command)),
    ("screenshot_dir", .str (c.screenshotPath join)), ("default_color", ofNums c.defaultColor), ("color_palette", .obj (c.palette.map fun k => (k.1, ofNums k.2)))]

def colors : List (String × J) → Except Err (List (String × List ℚ))
  | [] => .ok []
  | (n, j) :: l => match asNums j with
    | .error e => .error e
    | .ok f => match colors l with
      | .error e => .error e
      | .ok r => .ok ((n, f) :: r)

def asColors : J → Except Err (List (String × List ℚ))
  | .obj l => colors l
  | _ => .error .type

/-- `ViewerConfig.from_dict`, config.py:234-260, for a dictionary with a palette and without other keys -/
def Config.fromDict (d : J) : Except Err Config := do
  let defaultColor ← dflt asNums [2 / 5, 2 / 5, 2 / 5] d "default_color"
  let palette ← need asColors d "color_palette"
  let stlDir ← need asStr d "stl_dir"
  let positions ← opt asStr d "positions_file"
  let command ← opt asStr d "command_file"
  let screenshots ← opt asStr d "screenshot_dir"
  return { stlDir, positions, command, screenshots, defaultColor, palette }

/-- `get_color`, config.py:186-207; `lower` is `str.lower` -/
def Config.color (lower : String → String) (c : Config) (name : String) : List ℚ := (c.palette.lookup (lower name)).getD c.defaultColor

/-! ## sidecars -/

/-- the name without its suffixes, `Path.suffixes` and meta_yaml.py:97-99, 170-172: all from the first dot that is not at the start of the name, unless the name ends with a dot -/
def stem (name : List Char) : List Char :=
  if name.getLast? = some '.' then name
  else (name.takeWhile (· = '.')) ++ (name.dropWhile (· = '.')).takeWhile (· ≠ '.')

/-- `sidecar_path_for`, meta_yaml.py:156-175: the name of the file, which is in the same directory -/
def sidecar (name : String) : String := String.ofList (stem name.toList) ++ ".meta.yaml"

/-- removal of a key -/
def without (d : List (String × J)) (k : String) : List (String × J) := d.filter (·.1 ≠ k)

/-- a value set: in its place, or at the end -/
def put (d : List (String × J)) (k : String) (v : J) : List (String × J) :=
  if k ∈ d.map (·.1) then d.map fun x => if x.1 = k then (k, v) else x else d ++ [(k, v)]

/-- `dict.update` -/
def update (d e : List (String × J)) : List (String × J) := e.foldl (fun d x => put d x.1 x.2) d

/-- the content that `dump_metadata_yaml` writes, meta_yaml.py:105-117 -/
def content (meta_ : List (String × J)) (provenance : J) : List (String × J) :=
  let out := put meta_ "_provenance" provenance
  let (ordered, out) := ["schema", "entityId", "timestamp", "tags", "layer"].foldl (fun (s : List (String × J) × List (String × J)) k =>
    match s.2.lookup k with
    | some v => (put s.1 k v, without s.2 k)
    | none => s) ([], out)
  let ordered := put ordered "_provenance" ((out.lookup "_provenance").getD .null)
  update ordered (without out "_provenance")

end Verif.Record
