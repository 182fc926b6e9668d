import Verif.Assembly.FaceMate
import Verif.Base.Dict

/-!
# Model of `src/yapcad/assembly/datum_registry.py`

Sources are shared, mutable objects (`DatumSource`): `sources` maps a name to an object number and the
heap holds the objects, so that aliasing is visible. What a search of the file system finds is a function
of the search paths and the source name (`Fs`), which may change between calls.
-/

namespace Verif.Assembly.Registry
open Verif.Assembly Verif.Dict

/-- what is at the path found by `_find_source_file`, datum_registry.py:303-326 -/
inductive SrcFile
  /-- a `.json` file, or a `.dsl` file with a sidecar: `none` = unreadable or not JSON; else the
  `part_name` entry and the datums that parse -/
  | json (c : Option (Option String × List (String × Datum)))
  /-- a `.dsl` file without sidecar -/
  | dslNoSidecar
  /-- any other file -/
  | other

/-- the file system, as seen through `_find_source_file` -/
abbrev Fs := List String → String → Option SrcFile

/-- `DatumSource`, datum_registry.py:45-63: the datums and the part names -/
structure Source where
  datums : List (String × Datum)
  partNames : List String

/-- the singleton's state, datum_registry.py:96-111 -/
structure State where
  heap : List Source := []
  sources : List (String × Nat) := []
  loaded : List String := []
  paths : List String := []

/-- allocate a new source object and bind it to a name -/
def State.bindNew (s : State) (id : String) (o : Source) : State :=
  { s with heap := s.heap ++ [o], sources := dset s.sources id s.heap.length }

def State.obj (s : State) (id : String) : Option Source := (dget s.sources id).bind (s.heap[·]?)

/-- `register_source`, datum_registry.py:166-190 -/
def State.registerSource (s : State) (id : String) (datums : List (String × Datum)) : State :=
  let s' := s.bindNew id { datums := datums, partNames := [id] }
  { s' with loaded := id :: s'.loaded }

/-- `register_datum`, datum_registry.py:190-211 -/
def State.registerDatum (s : State) (id : String) (d : Datum) : State :=
  let s := match dget s.sources id with
    | some _ => s
    | none => { s.bindNew id { datums := [], partNames := [id] } with loaded := id :: s.loaded }
  match dget s.sources id with
  | some n => { s with heap := s.heap.modify n (fun o => { o with datums := dset o.datums d.name d }) }
  | none => s

/-- `_load_surrogate_json`, datum_registry.py:328-392 -/
def State.loadJson (s : State) (id : String) :
    Option (Option String × List (String × Datum)) → State
  | none => s.bindNew id { datums := [], partNames := [] }
  | some (pn, ds) =>
    let s' := s.bindNew id { datums := ds, partNames := id :: pn.toList }
    match pn with
    | some p => if p = id then s' else { s' with sources := dset s'.sources p s.heap.length }
    | none => s'

/-- `_try_part_name_lookup`, datum_registry.py:416-429 -/
def State.partLookup (s : State) (id : String) : State :=
  match s.sources.find? (fun e => match s.heap[e.2]? with
      | some o => decide (id ∈ o.partNames)
      | none => false) with
  | some e => { s with sources := dset s.sources id e.2 }
  | none => s.bindNew id { datums := [], partNames := [] }

/-- `_load_source`, datum_registry.py:279-301 -/
def State.load (s : State) (fs : Fs) (id : String) : State :=
  let s' := match fs s.paths id with
    | some (.json c) => s.loadJson id c
    | some .dslNoSidecar => s.bindNew id { datums := [], partNames := [] }
    | some .other => s
    | none => s.partLookup id
  { s' with loaded := id :: s'.loaded }

def State.ensure (s : State) (fs : Fs) (id : String) : State :=
  if id ∈ s.loaded then s else s.load fs id

/-- `get_datum`, datum_registry.py:112-143; `none` = KeyError -/
def State.getDatum (s : State) (fs : Fs) (id name : String) : Option Datum × State :=
  let s := s.ensure fs id
  ((s.obj id).bind (fun o => dget o.datums name), s)

/-- `list_datums`, datum_registry.py:236-254 -/
def State.listDatums (s : State) (fs : Fs) (id : String) : List String × State :=
  let s := s.ensure fs id
  (match s.obj id with
    | some o => keys o.datums
    | none => [], s)

/-- `add_search_path`, datum_registry.py:256-266 -/
def State.addPath (s : State) (p : String) : State :=
  if p ∈ s.paths then s else { s with paths := s.paths ++ [p] }

/-- `clear`, datum_registry.py:268-273 -/
def State.clear (s : State) : State := { s with sources := [], loaded := [] }

/-- operations of the public API -/
inductive Op
  | registerSource (id : String) (ds : List (String × Datum))
  | registerDatum (id : String) (d : Datum)
  | get (fs : Fs) (id name : String)
  | addPath (p : String)
  | clear

def State.step (s : State) : Op → State
  | .registerSource id ds => s.registerSource id ds
  | .registerDatum id d => s.registerDatum id d
  | .get fs id name => (s.getDatum fs id name).2
  | .addPath p => s.addPath p
  | .clear => s.clear

def State.steps (s : State) (ops : List Op) : State := ops.foldl State.step s

end Verif.Assembly.Registry

namespace Verif.Assembly
open Verif.Kin.Transform (identity compose transformPoint transformVector)

/-- x, y, z columns and the origin: `T[:3,0] = x` …, datum_registry.py:578-583 -/
def frame4 (x y z o : V3) : M4 := mk4 !![x 0, y 0, z 0; x 1, y 1, z 1; x 2, y 2, z 2] o

/-- the frame built around a z axis, datum_registry.py:533-545, 549-561, 565-573; `none` = NaN -/
noncomputable def zFrame (n o : V3) : Option M4 :=
  (unit3 n).bind fun z =>
    (unit3 (perpTo z)).map fun x => frame4 x (cross3 z x) z o

/-- `datum_to_transform_matrix`, datum_registry.py:486-570; `error` = TypeError of `None[:3]`,
inner `none` = NaN -/
noncomputable def datumToTransform (d : Datum) : Except String (Option M4) :=
  let o := first3 d.origin
  match d.dtype with
  | .frame =>
    let x := (d.xAxis.map first3).getD ![1, 0, 0]
    let y := (d.yAxis.map first3).getD ![0, 1, 0]
    .ok ((unit3 (cross3 x y)).map fun z => frame4 x y z o)
  | .plane | .circle =>
    match d.normal with
    | some n => .ok (zFrame (first3 n) o)
    | none => .error "TypeError"
  | .axis =>
    match d.direction with
    | some n => .ok (zFrame (first3 n) o)
    | none => .error "TypeError"
  | .point => .ok (some (frame4 ![1, 0, 0] ![0, 1, 0] ![0, 0, 1] o))

end Verif.Assembly
