import Verif.Base.PyVal
import Verif.Metadata.Model
import Mathlib.Algebra.Order.Field.Basic

/-!
# Model of validation plans: `src/yapcad/package/analysis/{schema,yapcad_native,calculix,fenics,base,cli}.py`

Messages of errors and warnings are left out, their paths are kept. A dictionary is an insertion-ordered list with string keys (YAML also allows other keys).
-/

namespace Verif.Accept
open Verif.Dict Verif.Metadata

/-! ## Evaluation of acceptance criteria -/

/-- a float: a number or not a number. Simplification: no infinities. -/
inductive Fl (K : Type)
  | nan
  | num (x : K)
deriving DecidableEq

section Eval
variable {K : Type} [Field K] [LinearOrder K] [IsStrictOrderedRing K]

/-- `a < b` on floats -/
def Fl.lt : Fl K → K → Bool
  | .num x, l => decide (x < l)
  | .nan, _ => false
/-- `a <= b` -/
def Fl.le : Fl K → K → Bool
  | .num x, l => decide (x ≤ l)
  | .nan, _ => false
/-- `a > b` -/
def Fl.gt : Fl K → K → Bool
  | .num x, l => decide (l < x)
  | .nan, _ => false
/-- `a >= b` -/
def Fl.ge : Fl K → K → Bool
  | .num x, l => decide (l ≤ x)
  | .nan, _ => false
/-- `abs(a - b) > t` -/
def Fl.far : Fl K → K → K → Bool
  | .num x, l, t => decide (t < |x - l|)
  | .nan, _, _ => false
/-- `abs(a - b) <= t` -/
def Fl.near : Fl K → K → K → Bool
  | .num x, l, t => decide (|x - l| ≤ t)
  | .nan, _, _ => false

/-- an acceptance criterion; a field that is not there or `None` is `none`. Simplification: limits and tolerances are numbers. -/
structure Rule (K : Type) where
  limit : Option K
  limitMm : Option K := none
  comparison : Option String
  tolerance : Option K

/-- the computed metrics -/
abbrev Metrics (K : Type) := List (String × Fl K)
/-- the acceptance section of a plan -/
abbrev Acceptance (K : Type) := List (String × Rule K)

/-- `s.replace(a, b)` for characters -/
def replaceChar (a b : Char) (s : String) : String := String.ofList (s.toList.map fun c => if c = a then b else c)

/-- the metric of a criterion, yapcad_native.py:575-586 -/
def findNative (ms : Metrics K) (key : String) : Option (Fl K) :=
  ((dget ms key).or (dget ms (replaceChar '.' '_' key))).or (dget ms (replaceChar '_' '.' key))

/-- the metric of a criterion in the reports, yapcad_native.py:627-629, 667-669 -/
def findReport (ms : Metrics K) (key : String) : Option (Fl K) := (dget ms key).or (dget ms (replaceChar '.' '_' key))

/-- the metric of a criterion, calculix.py:288-290 -/
def findCalculix (ms : Metrics K) (key : String) : Option (Fl K) := (dget ms key).or (dget ms (key ++ "_mm"))

/-- the metric of a criterion, fenics.py:743-749 -/
def findFenics (ms : Metrics K) (key : String) : Option (Fl K) :=
  ((dget ms key).or (dget ms (key ++ "_mm"))).or (dget ms (replaceChar '.' '_' key))

/-- does the metric make the native evaluation return "failed", yapcad_native.py:598-616 -/
def failsNative (v : Fl K) (l : K) (r : Rule K) : Bool :=
  let c := r.comparison.getD "<="
  if c = "<=" then v.gt l
  else if c = "<" then v.ge l
  else if c = ">=" then v.lt l
  else if c = ">" then v.le l
  else if c = "==" then v.far l (r.tolerance.getD 0)
  else if c = "~=" then v.far l (r.tolerance.getD 0)
  else false

/-- the loop of `_evaluate_acceptance`, yapcad_native.py:574-618 -/
def loopNative (ms : Metrics K) : Acceptance K → String
  | [] => "passed"
  | (key, r) :: acc =>
    match findNative ms key, r.limit with
    | some v, some l => if failsNative v l r then "failed" else loopNative ms acc
    | _, _ => loopNative ms acc

/-- `YapCADNativeAdapter._evaluate_acceptance`, yapcad_native.py:567-618 -/
def evalNative (ms : Metrics K) (acc : Acceptance K) : String :=
  if acc = [] then (if ms = [] then "pending" else "passed") else loopNative ms acc

/-- is the criterion violated according to the list of failed criteria, yapcad_native.py:641-648 -/
def failsListed (v : Fl K) (l : K) (r : Rule K) : Bool :=
  let c := r.comparison.getD "<="
  if c = "<=" then v.gt l
  else if c = "<" then v.ge l
  else if c = ">=" then v.lt l
  else if c = ">" then v.le l
  else false

/-- `YapCADNativeAdapter._get_failed_criteria`, yapcad_native.py:620-658: the keys -/
def failedCriteria (ms : Metrics K) (acc : Acceptance K) : List String :=
  acc.filterMap fun kr =>
    match findReport ms kr.1, kr.2.limit with
    | some v, some l => if failsListed v l kr.2 then some kr.1 else none
    | _, _ => none

/-- the field `passed`, yapcad_native.py:681-697 -/
def passedOf (v : Fl K) (l : K) (r : Rule K) : Option Bool :=
  let c := r.comparison.getD "<="
  if c = "<=" then some (v.le l)
  else if c = "<" then some (v.lt l)
  else if c = ">=" then some (v.ge l)
  else if c = ">" then some (v.gt l)
  else if c = "==" then some (v.near l (r.tolerance.getD 0))
  else if c = "~=" then some (v.near l (r.tolerance.getD 0))
  else none

/-- `YapCADNativeAdapter._build_acceptance_results`, yapcad_native.py:660-701: the field `passed` by key -/
def acceptanceResults (ms : Metrics K) (acc : Acceptance K) : List (String × Option Bool) :=
  acc.map fun kr => (kr.1,
    match findReport ms kr.1, kr.2.limit with
    | some v, some l => passedOf v l kr.2
    | _, _ => none)

/-- does the metric make CalculiX's evaluation return "failed", calculix.py:301-308 -/
def failsCalculix (v : Fl K) (l : K) (r : Rule K) : Bool :=
  let c := r.comparison.getD "<="
  if c = "<=" then !v.le l
  else if c = "<" then !v.lt l
  else if c = ">=" then !v.ge l
  else if c = ">" then !v.gt l
  else false

/-- the loop of `_evaluate_acceptance`, calculix.py:286-309 -/
def loopCalculix (ms : Metrics K) (status : String) : Acceptance K → String
  | [] => status
  | (key, r) :: acc =>
    match findCalculix ms key with
    | none => loopCalculix ms "pending" acc
    | some v =>
      match r.limit.or r.limitMm with
      | none => loopCalculix ms status acc
      | some l => if failsCalculix v l r then "failed" else loopCalculix ms status acc

/-- `CalculixAdapter._evaluate_acceptance`, calculix.py:282-309 -/
def evalCalculix (ms : Metrics K) (acc : Acceptance K) : String :=
  if acc = [] then (if ms = [] then "pending" else "passed") else loopCalculix ms "passed" acc

/-- the loop of `_evaluate_acceptance`, fenics.py:742-777 -/
def loopFenics (ms : Metrics K) : Acceptance K → String
  | [] => "passed"
  | (key, r) :: acc =>
    match findFenics ms key with
    | none => "pending"
    | some v =>
      match r.limit.or r.limitMm with
      | none => loopFenics ms acc
      | some l => if failsListed v l r then "failed" else loopFenics ms acc

/-- `FenicsxAdapter._evaluate_acceptance`, fenics.py:737-777 -/
def evalFenics (ms : Metrics K) (acc : Acceptance K) : String :=
  if acc = [] then (if ms = [] then "pending" else "passed") else loopFenics ms acc

end Eval

/-! ## Schema -/

section Schema
variable {K : Type}

/-- paths of errors and of warnings; `error` = an exception -/
abbrev Out := Except String (List String × List String)

/-- results one after the other -/
def combine : List Out → Out
  | [] => .ok ([], [])
  | x :: xs =>
    match x, combine xs with
    | .ok a, .ok b => .ok (a.1 ++ b.1, a.2 ++ b.2)
    | .error e, _ => .error e
    | .ok _, .error e => .error e

/-- `value in set_of_strings`; lists and dictionaries are not hashable -/
def inSet (v : Val K) (s : List String) : Except String Bool :=
  match v with
  | .list _ => .error "TypeError"
  | .dict _ => .error "TypeError"
  | .str t => .ok (decide (t ∈ s))
  | _ => .ok false

/-- an error at the path unless the value is in the set -/
def enumOut (v : Val K) (s : List String) (path : String) : Out :=
  match inSet v s with
  | .error e => .error e
  | .ok true => .ok ([], [])
  | .ok false => .ok ([path], [])

/-- is the key there -/
def hasKey (d : Meta K) (k : String) : Bool := (dget d k).isSome

/-- an error -/
def err (p : String) : Out := .ok ([p], [])
/-- a warning if the test holds -/
def warnIf (b : Bool) (p : String) : Out := .ok ([], if b then [p] else [])
/-- nothing to report -/
def fine : Out := .ok ([], [])

/-- `ValidationKind`, schema.py:17-26 -/
def kinds : List String := ["geometric", "measurement", "structural", "thermal", "cfd", "multiphysics", "assembly"]
/-- `ResultStatus`, schema.py:29-36 -/
def statuses : List String := ["passed", "failed", "error", "skipped", "pending"]
/-- `ComparisonOp`, schema.py:39-47 -/
def comparisons : List String := ["<=", ">=", "<", ">", "==", "~="]
/-- `VALID_LOAD_TYPES`, schema.py:116 -/
def loadTypes : List String := ["pressure", "force", "moment", "gravity", "thermal", "displacement"]
/-- `VALID_BC_TYPES`, schema.py:119 -/
def bcTypes : List String := ["fixed", "pinned", "roller", "spring", "symmetry", "thermal"]
/-- kinds with a check section, schema.py:491 -/
def checkKinds : List String := ["geometric", "measurement", "assembly"]
/-- `VALID_CHECK_PROPERTIES`, schema.py:109-113 -/
def checkProps (kind : String) : List String :=
  if kind = "geometric" then ["volume", "area", "bbox", "centroid", "distance", "clearance"]
  else if kind = "measurement" then ["dimension", "mass", "centroid", "moment"]
  else if kind = "assembly" then ["interference", "fit", "alignment", "clearance"]
  else []
/-- `KIND_SPECIFIC_FIELDS`, schema.py:98-106 -/
def kindFields (kind : String) : List String :=
  if kind ∈ checkKinds then ["check"]
  else if kind = "cfd" then ["materials", "boundaryConditions", "boundary_conditions", "backendOptions", "faceNaming"]
  else ["materials", "loads", "boundaryConditions", "boundary_conditions", "backendOptions", "faceNaming"]

/-- is it the string "~=" -/
def isApprox : Val K → Bool
  | .str s => decide (s = "~=")
  | _ => false

/-- `validate_acceptance_criterion`, schema.py:202-238 -/
def valCriterion (c : Meta K) (path : String) : Out :=
  combine
    [if hasKey c "limit" then fine else err path,
      match dget c "comparison" with
      | none => fine
      | some v => combine [enumOut v comparisons (path ++ ".comparison"), warnIf (isApprox v && !hasKey c "tolerance") path]]

/-- an entry of the acceptance section, schema.py:256-267 -/
def valCriterionOf (path : String) (kv : String × Val K) : Out :=
  match kv.2 with
  | .dict c => valCriterion c (path ++ "." ++ kv.1)
  | _ => err (path ++ "." ++ kv.1)

/-- `validate_acceptance_criteria`, schema.py:241-268 -/
def valAcceptance (a : Val K) (path : String) : Out :=
  match a with
  | .dict d => combine (d.map (valCriterionOf path))
  | _ => err path

/-- `validate_load`, schema.py:271-314, and `validate_boundary_condition`, schema.py:317-360: they differ in the types only -/
def valTyped (types : List String) (d : Meta K) (path : String) : Out :=
  combine
    [match dget d "type" with
      | none => err path
      | some v => enumOut v types (path ++ ".type"),
      warnIf (!hasKey d "id") path,
      warnIf (!hasKey d "surfaces" && !hasKey d "strategy") path]

/-- an entry of the loads or boundary conditions, schema.py:519-527, 543-551 -/
def valTypedOf (types : List String) (key : String) (iv : Val K × Nat) : Out :=
  match iv.1 with
  | .dict d => valTyped types d (key ++ "[" ++ toString iv.2 ++ "]")
  | _ => err (key ++ "[" ++ toString iv.2 ++ "]")

/-- a list of loads or boundary conditions, schema.py:510-527, 534-551 -/
def valTypedList (types : List String) (key : String) (v : Val K) : Out :=
  match v with
  | .list l => combine (l.zipIdx.map (valTypedOf types key))
  | _ => err key

/-- is it a list -/
def isList : Val K → Bool
  | .list _ => true
  | _ => false

/-- `validate_geometry_section`, schema.py:363-397 -/
def valGeometry (g : Val K) : Out :=
  match g with
  | .dict d =>
    combine [warnIf (!hasKey d "source") "geometry",
      match dget d "entities" with
      | none => fine
      | some e => if isList e then fine else err "geometry.entities"]
  | _ => err "geometry"

/-- `validate_check_section`, schema.py:400-434 -/
def valCheck (c : Val K) (kind : String) : Out :=
  match c with
  | .dict d =>
    match dget d "property" with
    | none => err "check"
    | some v => enumOut v (checkProps kind) "check.property"
  | _ => err "check"

/-- a non-empty string; `blank s` is `not s.strip()` -/
def nonEmptyStr (blank : String → Bool) (v : Option (Val K)) (path : String) : Out :=
  match v with
  | some (.str s) => if blank s then err path else fine
  | _ => err path

/-- a section is validated if it is there -/
def section? (v : Option (Val K)) (f : Val K → Out) : Out :=
  match v with
  | none => fine
  | some w => f w

/-- is it a dictionary -/
def isDict : Val K → Bool
  | .dict _ => true
  | _ => false

/-- the key used for boundary conditions, schema.py:530-532 -/
def bcKey (d : Meta K) : String := if hasKey d "boundaryConditions" then "boundaryConditions" else "boundary_conditions"

/-- the part that depends on the kind, schema.py:490-557 -/
def valKind (d : Meta K) (kind : String) : Out :=
  if kind ∈ checkKinds then
    match dget d "check" with
    | none => err ""
    | some c => valCheck c kind
  else
    combine [section? (dget d "materials") (fun m => if isDict m then fine else err "materials"),
      section? (dget d "loads") (valTypedList loadTypes "loads"),
      section? (dget d (bcKey d)) (valTypedList bcTypes (bcKey d)),
      warnIf ((kind = "structural" ∨ kind = "thermal") && !hasKey d "materials") ""]

/-- `PLAN_REQUIRED_FIELDS` and `PLAN_COMMON_FIELDS`, schema.py:85-95, and attachments, schema.py:563 -/
def commonFields : List String :=
  ["id", "kind", "backend", "name", "description", "geometry", "acceptance", "execution", "metadata", "attachments"]

/-- warnings about unknown fields, schema.py:559-572 (not sorted) -/
def unknown (known : List String) (d : Meta K) : Out := .ok ([], (d.map Prod.fst).filter fun k => decide (k ∉ known))

/-- the report about a plan once the kind is known to be valid, schema.py:463-578 -/
def valPlanBody (blank : String → Bool) (d : Meta K) (kind : String) : Out :=
  combine [nonEmptyStr blank (dget d "id") "id", nonEmptyStr blank (dget d "backend") "backend",
    section? (dget d "geometry") valGeometry, section? (dget d "acceptance") (fun a => valAcceptance a "acceptance"),
    valKind d kind, unknown (commonFields ++ kindFields kind) d]

/-- the string, or the empty one -/
def strOr : Val K → String
  | .str s => s
  | _ => ""

/-- `validate_plan`, schema.py:437-578 -/
def validatePlan (blank : String → Bool) (d : Meta K) : Out :=
  match dget d "id", dget d "kind", dget d "backend" with
  | some _, some k, some _ =>
    match inSet k kinds with
    | .error e => .error e
    | .ok false => err "kind"
    | .ok true => valPlanBody blank d (strOr k)
  | _, _, _ => err ""

/-- an entry of the acceptance results, schema.py:635-656 -/
def valResultOf (kv : String × Val K) : Out :=
  match kv.2 with
  | .dict r => combine [warnIf (!hasKey r "value") ("acceptance_results." ++ kv.1), warnIf (!hasKey r "passed") ("acceptance_results." ++ kv.1)]
  | _ => err ("acceptance_results." ++ kv.1)

/-- the acceptance results, schema.py:626-656 -/
def valResults (v : Val K) : Out :=
  match v with
  | .dict d => combine (d.map valResultOf)
  | _ => err "acceptance_results"

/-- an artifact, schema.py:667-678 -/
def valArtifactOf (iv : Val K × Nat) : Out :=
  match iv.1 with
  | .dict a => warnIf (!hasKey a "path") ("artifacts[" ++ toString iv.2 ++ "]")
  | _ => err ("artifacts[" ++ toString iv.2 ++ "]")

/-- the artifacts, schema.py:659-678 -/
def valArtifacts (v : Val K) : Out :=
  match v with
  | .list l => combine (l.zipIdx.map valArtifactOf)
  | _ => err "artifacts"

/-- `RESULT_REQUIRED_FIELDS` and `RESULT_OPTIONAL_FIELDS`, schema.py:122-136 -/
def resultFields : List String :=
  ["plan_id", "status", "timestamp", "backend", "backend_version", "execution_time_s", "metrics", "acceptance_results", "artifacts", "errors", "warnings", "notes"]

/-- `validate_result`, schema.py:581-692 -/
def validateResult (blank : String → Bool) (d : Meta K) : Out :=
  match dget d "plan_id", dget d "status" with
  | some i, some s =>
    combine [enumOut s statuses "status", nonEmptyStr blank (some i) "plan_id",
      section? (dget d "metrics") (fun m => if isDict m then fine else err "metrics"),
      section? (dget d "acceptance_results") valResults, section? (dget d "artifacts") valArtifacts, unknown resultFields d]
  | _, _ => err ""

end Schema

/-! ## Loading plans and recording results -/

section Load
variable {K : Type}

/-- `dict(data.get(key, {}))`: nothing there, or a dictionary, or a list of pairs (an empty one here); anything else raises -/
def asDict (d : Meta K) (key : String) : Except String (Meta K) :=
  match dget d key with
  | none => .ok []
  | some (.dict m) => .ok m
  | some (.list []) => .ok []
  | some (.str s) => if s = "" then .ok [] else .error "ValueError"
  | some _ => .error "TypeError"

/-- `list(v)`; iterating over a dictionary or a string gives its keys or characters -/
def asList (v : Val K) : Except String (List (Val K)) :=
  match v with
  | .list l => .ok l
  | .dict m => .ok (m.map fun kv => .str kv.1)
  | .str s => .ok (s.toList.map fun c => .str (String.ofList [c]))
  | _ => .error "TypeError"

/-- truth value -/
def truthy (isZero : K → Bool) : Val K → Bool
  | .none => false
  | .bool b => b
  | .num x => !isZero x
  | .str s => decide (s ≠ "")
  | .list l => !l.isEmpty
  | .dict d => !d.isEmpty

/-- `data.get(key, []) or []` -/
def orEmpty (isZero : K → Bool) (d : Meta K) (key : String) : Val K :=
  match dget d key with
  | none => .list []
  | some v => if truthy isZero v then v else .list []

/-- the boundary conditions, base.py:160-162, 193 -/
def loadBcs (isZero : K → Bool) (d : Meta K) : Val K :=
  match dget d "boundaryConditions" with
  | some .none => orEmpty isZero d "boundary_conditions"
  | none => orEmpty isZero d "boundary_conditions"
  | some v => if truthy isZero v then v else .list []

/-- a loaded plan: the parts the evaluation uses -/
structure Plan (K : Type) where
  geometry : Meta K
  materials : Meta K
  loads : List (Val K)
  bcs : List (Val K)
  acceptance : Meta K
  options : Meta K
  attachments : List (Val K)

/-- `_parse_execution_config(data.get("execution", {}) or {})`, base.py:121-132, 155-156: it raises unless the section is falsy or a dictionary with dictionaries in env, options and license -/
def loadExecution (isZero : K → Bool) (d : Meta K) : Except String Unit :=
  match dget d "execution" with
  | none => .ok ()
  | some v =>
    if truthy isZero v then
      match v with
      | .dict e => do
        let _ ← asDict e "env"
        let _ ← asDict e "options"
        let _ ← asDict e "license"
        .ok ()
      | _ => .error "AttributeError"
    else .ok ()

/-- `load_plan` on the data read, base.py:135-198 -/
def loadPlan (isZero : K → Bool) (d : Meta K) : Except String (Plan K) :=
  if hasKey d "id" && hasKey d "kind" && hasKey d "backend" then do
    loadExecution isZero d
    let geometry ← asDict d "geometry"
    let materials ← asDict d "materials"
    let loads ← asList (orEmpty isZero d "loads")
    let bcs ← asList (loadBcs isZero d)
    let acceptance ← asDict d "acceptance"
    let options ← asDict d "backendOptions"
    let attachments ← asList (orEmpty isZero d "attachments")
    .ok ⟨geometry, materials, loads, bcs, acceptance, options, attachments⟩
  else .error "ValueError"

/-- `AnalysisResult`, base.py:55-67: what goes into the manifest; `none` = falsy -/
structure Result (K : Type) where
  status : Val K
  backend : Option (Val K)
  timestamp : Option (Val K)
  path : Val K
  metrics : Option (Val K)
  artifacts : Option (Val K)
  notes : Option (Val K)
  summary : Option (Val K)

/-- a field that is there -/
def opt (k : String) (v : Option (Val K)) : Meta K :=
  match v with
  | none => []
  | some w => [(k, w)]

/-- `to_manifest_entry`, base.py:69-92, for a result whose summary path is set (cli.py:127) -/
def manifestEntry (plan : String) (r : Result K) : Meta K :=
  [("plan", .str plan), ("status", r.status)] ++ opt "backend" r.backend ++ opt "timestamp" r.timestamp ++ [("path", r.path)] ++
    opt "metrics" r.metrics ++ opt "artifacts" r.artifacts ++ opt "notes" r.notes ++ opt "summary" r.summary

/-- `d.update(e)` -/
def update (d e : Meta K) : Meta K := e.foldl (fun d kv => dset d kv.1 kv.2) d

/-- is it an entry of the plan -/
def ofPlan (plan : String) (e : Meta K) : Bool :=
  match dget e "plan" with
  | some (.str s) => decide (s = plan)
  | _ => false

/-- the manifest's results after a run, cli.py:130-138 -/
def record (results : List (Meta K)) (plan : String) (r : Result K) : List (Meta K) :=
  match results with
  | [] => [manifestEntry plan r]
  | e :: es => if ofPlan plan e then update e (manifestEntry plan r) :: es else e :: record es plan r

end Load

end Verif.Accept
