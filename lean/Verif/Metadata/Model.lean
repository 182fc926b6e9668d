import Verif.Base.PyVal

/-!
# Model of `src/yapcad/metadata.py`

A metadata dictionary is an insertion-ordered list of entries. The functions mutate their argument; the
model returns the argument's final state together with `ok` or the exception, so that what a raising call
leaves behind is visible. Numbers are of a type `K`.
-/

namespace Verif.Metadata
open Verif.Dict

variable {K : Type} [DecidableEq K] [Zero K] [One K]

abbrev Meta (K : Type) := List (String × Val K)

/-- outcome of a call: the exception, if any, and the state the caller's dictionary is left in -/
abbrev Res (K : Type) := Except String Unit × Meta K

/-- `_validate_enum`, metadata.py:43-49, for the values actually passed (`None` is `Val.none`);
`true` = accepted -/
def validEnum (v : Val K) (allowed : List String) : Bool :=
  match v with
  | .none => true
  | .str s => decide (s ∈ allowed)
  | _ => false

/-- `float(v)`: numbers and booleans; anything else raises. Simplification: strings that spell a number,
which Python's `float` accepts, are treated as raising. -/
def toFloat : Val K → Option K
  | .num x => some x
  | .bool b => some (if b then 1 else 0)
  | _ => none

/-- `if key not in meta: meta[key] = value` -/
def setIfAbsent (m : Meta K) (k : String) (v : Val K) : Meta K :=
  match dget m k with
  | some _ => m
  | none => dset m k v

/-- metadata.py:71-72 (`entity_id` falsy = `None` or `""`) -/
def setEid (m : Meta K) (eid : Option String) : Meta K :=
  match eid with
  | some e => if e = "" then m else setIfAbsent m "entityId" (.str e)
  | none => m

/-- metadata.py:75-76 -/
def fixLayer (m : Meta K) : Meta K :=
  match dget m "layer" with
  | none => dset m "layer" (.str "default")
  | some v => if v.truthy then m else dset m "layer" (.str "default")

/-- `_ensure_root` on a dictionary, metadata.py:63-77 -/
def ensureRoot (m : Meta K) (eid : Option String) : Meta K :=
  fixLayer (setIfAbsent (setEid (setIfAbsent m "schema" (.str "metadata-namespace-v1.1")) eid)
    "tags" (.list []))

/-- `_ensure_namespace`, metadata.py:80-83: the dictionary and the section -/
def ensureNamespace (m : Meta K) (ns : String) : Meta K × Meta K :=
  match dget m ns with
  | some (.dict s) => (m, s)
  | _ => (dset m ns (.dict []), [])

/-- a value equal to the string `s` -/
def isStr (s : String) : Val K → Bool
  | .str t => decide (t = s)
  | _ => false

/-- `_append_tag`, metadata.py:86-91 -/
def appendTag (m : Meta K) (tag : String) : Meta K :=
  if tag = "" then m
  else match dget m "tags" with
    | none => dset m "tags" (.list [.str tag])
    | some (.list l) => if l.any (isStr tag) then m else dset m "tags" (.list (l ++ [.str tag]))
    | some _ => m

/-- `add_tags`, metadata.py:220-224 -/
def addTags (m : Meta K) (tags : List String) : Meta K := tags.foldl appendTag (ensureRoot m none)

/-- `set_layer`, metadata.py:209-214 -/
def setLayer (m : Meta K) (layer : String) : Meta K :=
  dset (ensureRoot m none) "layer" (.str (if layer = "" then "default" else layer))

/-- `if value is not None: section[key] = value` -/
def optSet (s : Meta K) (k : String) (v : Option (Val K)) : Meta K :=
  match v with
  | none => s
  | some v => dset s k v

/-- `set_material`, metadata.py:227-243: fields in order; `density` is converted with `float` after the
earlier fields were written -/
def setMaterial (m : Meta K) (name standard grade density source : Option (Val K)) : Res K :=
  let (r, s) := ensureNamespace (ensureRoot m none) "material"
  let s := optSet (optSet (optSet s "name" name) "standard" standard) "grade" grade
  match density with
  | some d => match toFloat d with
    | none => (.error "ValueError", dset r "material" (.dict s))
    | some x => (.ok (), dset r "material" (.dict (optSet (dset s "density_kg_m3" (.num x)) "source" source)))
  | none => (.ok (), dset r "material" (.dict (optSet s "source" source)))

/-- the loop of `add_compliance`, metadata.py:331-333 -/
def complianceLoop (l : List (Val K)) : List String → List (Val K)
  | [] => l
  | i :: is => complianceLoop (if i ≠ "" ∧ !l.any (isStr i) then l ++ [.str i] else l) is

/-- `add_compliance`, metadata.py:327-334 -/
def addCompliance (m : Meta K) (standards : List String) : Res K :=
  let (r, s) := ensureNamespace (ensureRoot m none) "constraints"
  match dget s "compliance" with
  | none => (.ok (), dset r "constraints" (.dict (dset s "compliance" (.list (complianceLoop [] standards)))))
  | some (.list l) =>
    (.ok (), dset r "constraints" (.dict (dset s "compliance" (.list (complianceLoop l standards)))))
  | some _ => (.error "AttributeError", r)

/-- `add_analysis_record`, metadata.py:337-342 -/
def addAnalysisRecord (m : Meta K) (record : Meta K) : Res K :=
  let (r, s) := ensureNamespace (ensureRoot m none) "analysis"
  match dget s "simulations" with
  | none => (.ok (), dset r "analysis" (.dict (dset s "simulations" (.list [.dict record]))))
  | some (.list l) => (.ok (), dset r "analysis" (.dict (dset s "simulations" (.list (l ++ [.dict record])))))
  | some _ => (.error "AttributeError", r)

/-- `get_assembly_metadata(create=True)` / `get_operation_metadata(create=True)`,
metadata.py:348-363, 550-559 -/
def getSection (m : Meta K) (ns : String) : Meta K × Meta K :=
  match dget m ns with
  | some (.dict s) => (m, s)
  | _ => ensureNamespace (ensureRoot m none) ns

/-- `section.setdefault(key, []).append(entry)` on the section `ns` of `m` -/
def appendEntry (m s : Meta K) (ns key : String) (entry : Val K) : Res K :=
  match dget s key with
  | none => (.ok (), dset m ns (.dict (dset s key (.list [entry]))))
  | some (.list l) => (.ok (), dset m ns (.dict (dset s key (.list (l ++ [entry])))))
  | some _ => (.error "AttributeError", m)

/-- `set_assembly`, metadata.py:366-377 -/
def setAssembly (m : Meta K) (jointKind : Val K) (noCut : Option Bool) : Res K :=
  if validEnum jointKind ["axial", "radial", "mixed", "none"] then
    let (r, s) := ensureNamespace (ensureRoot m none) "assembly"
    let s := match jointKind with
      | .none => s
      | v => dset s "joint_kind" v
    let s := optSet s "no_cut" (noCut.map .bool)
    (.ok (), dset r "assembly" (.dict s))
  else (.error "ValueError", m)

/-- `_build_fastener`, metadata.py:380-397 (the designation is kept as it is instead of its `str()`) -/
def buildFastener (spec : Val K) : Except String (Option (Val K)) :=
  match spec with
  | .none => .ok none
  | .dict d =>
    let thread := (dget d "thread").getD .none
    let head := (dget d "head").getD .none
    if validEnum thread ["tap", "clearance", "heat-set", "through"] then
      if validEnum head ["SHCS", "FHCS", "BHCS", "hex", "stud", "none"] then
        let designation := match dget d "designation" with
          | some .none => none
          | v => v
        let opt (v : Val K) : Option (Val K) := match v with
          | .none => none
          | v => some v
        .ok (some (.dict (optSet (optSet (optSet [] "designation" designation) "thread" (opt thread)) "head"
          (opt head))))
      else .error "ValueError"
    else .error "ValueError"
  | _ => .error "ValueError"

/-- one optional `float` field of an entry -/
def optFloat (e : Meta K) (k : String) (v : Option (Val K)) : Except String (Meta K) :=
  match v with
  | none => .ok e
  | some v => match toFloat v with
    | some x => .ok (dset e k (.num x))
    | none => .error "ValueError"

/-- a 3-vector field: length check, then `float` of each component, metadata.py:478-487 -/
def optVec3 (e : Meta K) (k : String) (v : Option (List (Val K))) : Except String (Meta K) :=
  match v with
  | none => .ok e
  | some l =>
    if l.length ≠ 3 then .error "ValueError"
    else match l.mapM toFloat with
      | some xs => .ok (dset e k (.list (xs.map .num)))
      | none => .error "ValueError"

/-- the entry built by `add_bolt_pattern`, metadata.py:412-427. Simplification:
`count` is converted like a float. -/
def boltEntry (id ring : String) (R z count : Val K) (theta0 tol : Option (Val K)) (fastener : Val K) :
    Except String (Meta K) := do
  let e ← optFloat [("id", .str id), ("ring", .str ring)] "R_mm" (some R)
  let e ← optFloat e "z_mm" (some z)
  let e ← optFloat e "count" (some count)
  let e ← optFloat e "theta0_deg" theta0
  let f ← buildFastener fastener
  let e := optSet e "fastener" f
  optFloat e "tolerance_mm" tol

/-- validate, create the section, build the entry, append it: the common shape of the `add_*` functions -/
def addVia (m : Meta K) (valid : Bool) (key : String) (entry : Except String (Meta K)) : Res K :=
  if valid then
    let (r, s) := getSection m "assembly"
    match entry with
    | .error e => (.error e, r)
    | .ok e => appendEntry r s "assembly" key (.dict e)
  else (.error "ValueError", m)

/-- `add_bolt_pattern`, metadata.py:398-427 -/
def addBoltPattern (m : Meta K) (id ring : String) (R z count : Val K) (theta0 tol : Option (Val K))
    (fastener : Val K) : Res K :=
  addVia m (decide (id ≠ "") && decide (ring ∈ ["axial", "radial"])) "bolt_patterns"
    (boltEntry id ring R z count theta0 tol fastener)

/-- the entry built by `add_datum`, metadata.py:458-475 -/
def datumEntry (id kind : String) (ring : Option String) (R z : Option (Val K))
    (origin direction : Option (List (Val K))) : Except String (Meta K) := do
  let e : Meta K := optSet [("id", .str id), ("kind", .str kind)] "ring" (ring.map .str)
  let e ← optFloat e "R_mm" R
  let e ← optFloat e "z_mm" z
  let e ← optVec3 e "origin_mm" origin
  optVec3 e "direction" direction

/-- `add_datum`, metadata.py:430-476 -/
def addDatum (m : Meta K) (id kind : String) (ring : Option String) (R z : Option (Val K))
    (origin direction : Option (List (Val K))) : Res K :=
  addVia m (decide (id ≠ "") && decide (kind ∈ ["bolt_circle", "axis", "plane", "point", "edge"]) &&
      (match ring with
        | none => true
        | some r => decide (r ∈ ["axial", "radial"]))) "datums"
    (datumEntry id kind ring R z origin direction)

/-- `add_surface`, metadata.py:479-498 -/
def addSurface (m : Meta K) (id kind : String) (mateTo finish : Option String) (tol : Option (Val K)) :
    Res K :=
  addVia m (decide (id ≠ "") && decide (kind ∈ ["mating", "bearing", "sealing", "datum", "wear"]))
    "surfaces"
    (optFloat (optSet (optSet [("id", .str id), ("kind", .str kind)] "mate_to" (mateTo.map .str)) "finish"
      (finish.map .str)) "tolerance_mm" tol)

/-- `add_keepout`, metadata.py:501-519 -/
def addKeepout (m : Meta K) (id kind : String) (shape : Val K) (reason : Option String) : Res K :=
  addVia m (decide (id ≠ "") && decide (kind ∈ ["volume", "axis", "ring"])) "keepouts"
    (match shape with
      | .none => .ok (optSet [("id", .str id), ("kind", .str kind)] "reason" (reason.map .str))
      | .dict d => .ok (optSet (dset [("id", .str id), ("kind", .str kind)] "shape" (.dict d)) "reason"
          (reason.map .str))
      | _ => .error "ValueError")

/-- `set_operation`, metadata.py:537-569 (`target_filter` a list of strings; fields written in order,
`priority` converted with `float` after `kind` and `target_filter` were written) -/
def setOperation (m : Meta K) (kind : String) (targets : Option (List String)) (priority : Option (Val K))
    (through consume : Option Bool) (policy featureKind : Val K) (featureId stage : Option String) : Res K :=
  if decide (kind ∈ ["subtract", "intersect", "union"]) &&
     validEnum policy ["strict", "warn", "ignore"] &&
     validEnum featureKind ["access_panel", "vent", "parachute_door", "fastener_through", "wire_pass",
       "channel", "pocket", "other"] then
    let (r, s) := getSection m "operation"
    let s := optSet (dset s "kind" (.str kind)) "target_filter" (targets.map fun l => .list (l.map .str))
    match optFloat s "priority" priority with
    | .error e => (.error e, dset r "operation" (.dict s))
    | .ok s =>
      let s := optSet (optSet s "through" (through.map .bool)) "consume" (consume.map .bool)
      let s := match policy with
        | .none => s
        | v => dset s "policy" v
      let s := optSet s "feature_id" (featureId.map .str)
      let s := match featureKind with
        | .none => s
        | v => dset s "feature_kind" v
      let s := optSet s "stage" (stage.map .str)
      (.ok (), dset r "operation" (.dict s))
  else (.error "ValueError", m)

/-- A surface as seen here: 6 leading entries (opaque) and the optional 7th, `issurface` geom3d.py:590 -/
structure Surf (K : Type) where
  body : Nat
  entry : Option (Val K)

/-- `_ensure_metadata(surface, 6, True)`, metadata.py:94-107: the metadata dictionary -/
def metaOf (e : Option (Val K)) : Meta K :=
  match e with
  | some (.dict d) => d
  | _ => []

/-- `ensure_surface_id`, metadata.py:135-146 (solids: 184-195). `fresh` is `str(uuid.uuid4())`.
Returns the id and the surface. -/
def ensureId (s : Surf K) (fresh : String) : Val K × Surf K :=
  let m := setIfAbsent (ensureRoot (metaOf s.entry) none) "entityId" (.str fresh)
  let m := setIfAbsent m "id" ((dget m "entityId").getD .none)
  ((dget m "id").getD .none, { s with entry := some (.dict m) })

/-- an entity id used as such only if it is a string -/
def asEid : Option (Val K) → Option String
  | some (.str e) => some e
  | _ => none

/-- `get_surface_metadata(create=True)`, metadata.py:110-121 -/
def getMetaCreate (s : Surf K) (fresh : String) : Meta K × Surf K :=
  let (i, s') := ensureId s fresh
  let root := ensureRoot (metaOf s'.entry) (asEid (some i))
  (root, { s' with entry := some (.dict root) })

/-- `get_surface_metadata(create=False)`: the root computed from a detached dictionary is still stored
in the surface (lines 117-120) -/
def getMetaRead (s : Surf K) : Meta K × Surf K :=
  let m := metaOf s.entry
  let root := ensureRoot m (asEid (dget m "entityId"))
  (root, { s with entry := some (.dict root) })

/-- `set_surface_units`, metadata.py:149-152 -/
def setUnits (s : Surf K) (fresh units : String) : Surf K :=
  let (m, s') := getMetaCreate s fresh
  { s' with entry := some (.dict (dset m "units" (.str units))) }

end Verif.Metadata
