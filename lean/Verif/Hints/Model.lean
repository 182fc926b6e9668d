import Verif.Metadata.Model

/-!
# Model of `@meta` hints: `src/yapcad/dsl/meta_apply.py` and `src/yapcad/dsl/transforms/metadata.py`

A hint is a dictionary with string keys. Messages, spans and logging of diagnostics are left out. What Python's `str`, `float`, `str.lower` and splitting at commas do is arbitrary up to the
laws in `Py`; so are the functions `add_bolt_pattern`, `add_datum`, `add_surface`, `add_keepout` here (they are modelled in `Verif.Metadata`).
-/

namespace Verif.Hints
open Verif.Dict Verif.Metadata

/-- functions of Python and of `yapcad.metadata` used on values -/
structure Py (K : Type) where
  /-- `str(v)` -/
  strOf : Val K → String
  strOf_str : ∀ s, strOf (.str s) = s
  /-- `float(v)`; `none` = it raises -/
  floatOf : Val K → Option K
  floatOf_num : ∀ x, floatOf (.num x) = some x
  /-- `s.lower()` -/
  lower : String → String
  /-- `[v.strip() for v in s.split(",") if v.strip()]` -/
  split : String → List String
  /-- `helper(meta, **entry)` for the four list fields, meta_apply.py:90-95 -/
  helper : String → Meta K → Meta K → Res K

variable {K : Type} [DecidableEq K] [Zero K] [One K]

/-- `key.partition(".")` if there is a dot -/
def cut : List Char → Option (List Char × List Char)
  | [] => none
  | c :: cs => if c = '.' then some ([], cs) else (cut cs).map fun r => (c :: r.1, r.2)

/-- namespace and field of a key, meta_apply.py:276-277, transforms/metadata.py:397-398; `none` for a key without a dot. (`k.startswith("operation.")` in transforms/metadata.py:318 is
"the namespace is operation".) -/
def parseKey (k : String) : Option (String × String) := (cut k.toList).map fun r => (String.ofList r.1, String.ofList r.2)

/-- the words for true, meta_apply.py:142, 198, transforms/metadata.py:157 -/
def trueWords : List String := ["true", "1", "yes"]
/-- the words for false, transforms/metadata.py:159 -/
def falseWords : List String := ["false", "0", "no"]

/-! ## `meta_apply.py` -/

/-- `assembly.bolt_patterns` and so on, meta_apply.py:90-95 -/
def listFields : List String := ["bolt_patterns", "datums", "surfaces", "keepouts"]

/-- the loop of `_apply_assembly_list_field`, meta_apply.py:117-134 -/
def applyEntries (P : Py K) (field : String) (m : Meta K) : List (Val K) → Res K
  | [] => (.ok (), m)
  | .dict d :: es =>
    match P.helper field m d with
    | (.error e, m') => (.error e, m')
    | (.ok (), m') => applyEntries P field m' es
  | _ :: _ => (.error "TypeError", m)

/-- `bool(v)` after a string was compared with the words, meta_apply.py:141-142, 197-200 -/
def boolOf (P : Py K) : Val K → Bool
  | .str s => decide (P.lower s ∈ trueWords)
  | v => v.truthy

/-- `_apply_assembly`, meta_apply.py:137-150 -/
def applyAssembly (P : Py K) (m : Meta K) (field : String) (v : Val K) : Res K :=
  if field = "joint_kind" then setAssembly m v none
  else if field = "no_cut" then
    match v with
    | .none => setAssembly m .none none
    | v => setAssembly m .none (some (boolOf P v))
  else if field ∈ listFields then
    match v with
    | .list l => applyEntries P field m l
    | _ => (.error "TypeError", m)
  else
    let (r, s) := getSection m "assembly"
    (.ok (), dset r "assembly" (.dict (dset s field v)))

/-- `section = get_operation_metadata(meta, create=True); section[field] = value` -/
def setOp (m : Meta K) (field : String) (v : Val K) : Res K :=
  let (r, s) := getSection m "operation"
  (.ok (), dset r "operation" (.dict (dset s field v)))

/-- kinds of operations, metadata.py:30 -/
def opKinds : List String := ["subtract", "intersect", "union"]
/-- policies, metadata.py:31 -/
def opPolicies : List String := ["strict", "warn", "ignore"]
/-- kinds of features according to metadata.py:32-36 -/
def rtFeatures : List String :=
  ["access_panel", "vent", "parachute_door", "fastener_through", "wire_pass", "channel", "pocket", "other"]
/-- kinds of joints according to metadata.py:23 (as in `Metadata.setAssembly`) -/
def rtJoints : List String := ["axial", "radial", "mixed", "none"]

/-- `section["priority"] = float(value)`, meta_apply.py:201-203: the section is created before `float` raises -/
def setPriority (P : Py K) (m : Meta K) (v : Val K) : Res K :=
  match P.floatOf v with
  | none => (.error "ValueError", dset (getSection m "operation").1 "operation" (.dict (getSection m "operation").2))
  | some x => setOp m "priority" (.num x)

/-- the value stored for `target_filter`, meta_apply.py:176-180 -/
def targetOf (P : Py K) : Val K → Val K
  | .str s => .list ((P.split s).map .str)
  | .list l => .list l
  | v => .list [.str (P.strOf v)]

/-- an enumeration is checked, then the field is stored, meta_apply.py:183-195. A list or dictionary raises `TypeError` (not hashable) instead of `ValueError`; not distinguished. -/
def setEnum (m : Meta K) (field : String) (allowed : List String) (v : Val K) : Res K :=
  if validEnum v allowed then setOp m field v else (.error "ValueError", m)

/-- `_apply_operation`, meta_apply.py:164-210 -/
def applyOperation (P : Py K) (m : Meta K) (field : String) (v : Val K) : Res K :=
  if field = "target_filter" then setOp m field (targetOf P v)
  else if field = "kind" then setEnum m field opKinds v
  else if field = "policy" then setEnum m field opPolicies v
  else if field = "feature_kind" then setEnum m field rtFeatures v
  else if field = "through" ∨ field = "consume" then setOp m field (.bool (boolOf P v))
  else if field = "priority" then setPriority P m v
  else if field = "feature_id" ∨ field = "stage" then setOp m field (.str (P.strOf v))
  else setOp m field v

/-- the tags added, meta_apply.py:226-229 -/
def newTags (P : Py K) : Val K → List (Val K)
  | .list l => l.map fun t => .str (P.strOf t)
  | v => [.str (P.strOf v)]

/-- `_apply_root`, meta_apply.py:217-232 -/
def applyRoot (P : Py K) (m : Meta K) (field : String) (v : Val K) : Res K :=
  let r := ensureRoot m none
  if field = "layer" then (.ok (), dset r "layer" (.str (P.strOf v)))
  else if field = "tags" then
    match dget r "tags" with
    | some (.list l) => (.ok (), dset r "tags" (.list (l ++ newTags P v)))
    | _ => (.error "AttributeError", r)
  else (.ok (), dset r field v)

/-- `root.setdefault(namespace, {})[field] = value`, meta_apply.py:284-285 -/
def applyOther (m : Meta K) (ns field : String) (v : Val K) : Res K :=
  let r := ensureRoot m none
  match dget r ns with
  | none => (.ok (), dset r ns (.dict [(field, v)]))
  | some (.dict s) => (.ok (), dset r ns (.dict (dset s field v)))
  | some _ => (.error "TypeError", r)

/-- one key, meta_apply.py:272-286 -/
def applyKey (P : Py K) (m : Meta K) (kv : String × Val K) : Res K :=
  if kv.1 = "" then (.ok (), m)
  else match parseKey kv.1 with
    | some (ns, f) =>
      if ns = "assembly" then applyAssembly P m f kv.2
      else if ns = "operation" then applyOperation P m f kv.2
      else applyOther m ns f kv.2
    | none => applyRoot P m kv.1 kv.2

/-- `apply_meta_hint_to_raw`, meta_apply.py:289-319, and the loop of `apply_meta_hint`, meta_apply.py:272-286 -/
def applyHint (P : Py K) (m : Meta K) : Meta K → Res K
  | [] => (.ok (), m)
  | kv :: h =>
    match applyKey P m kv with
    | (.error e, m') => (.error e, m')
    | (.ok (), m') => applyHint P m' h

/-! ## `transforms/metadata.py` -/

/-- `MetaDiagnostic`, transforms/metadata.py:120-127: level and field -/
structure Diag where
  level : String
  command : String
  field : String
deriving DecidableEq

/-- kinds of features according to transforms/metadata.py:83-87 -/
def trFeatures : List String :=
  ["pocket", "slot", "boss", "hole", "through_hole", "counterbore", "countersink", "fillet", "chamfer", "rib", "draft"]
/-- kinds of joints according to transforms/metadata.py:88-91 -/
def trJoints : List String := ["revolute", "prismatic", "spherical", "fixed", "planar", "cylindrical", "universal"]

/-- `_check_enum`, transforms/metadata.py:144-149: `true` = accepted -/
def checkEnum (v : Val K) (valid : List String) : Bool :=
  match v with
  | .str s => decide (s ∈ valid)
  | _ => false

/-- `_coerce_bool`, transforms/metadata.py:152-161 -/
def coerceBool (P : Py K) : Val K → Option Bool
  | .bool b => some b
  | .str s => if P.lower s ∈ trueWords then some true else if P.lower s ∈ falseWords then some false else none
  | _ => none

/-- `_coerce_string_list`, transforms/metadata.py:172-179 -/
def coerceList (P : Py K) : Val K → Option (Val K)
  | .str s => some (.list ((P.split s).map .str))
  | .list l => some (.list (l.map fun v => .str (P.strOf v)))
  | _ => none

/-- is it a dictionary -/
def isDict : Val K → Bool
  | .dict _ => true
  | _ => false

/-- is it a list of dictionaries, transforms/metadata.py:214-231 -/
def isDictList : Val K → Bool
  | .list l => l.all isDict
  | _ => false

/-- an error unless the test is passed -/
def errorUnless (ok : Bool) (cmd fqn : String) : List Diag := if ok then [] else [⟨"error", cmd, fqn⟩]

/-- the coerced value, or the value as it is and an error -/
def coerced (o : Option (Val K)) (v : Val K) (cmd fqn : String) : Val K × List Diag :=
  match o with
  | some w => (w, [])
  | none => (v, [⟨"error", cmd, fqn⟩])

/-- `_validate_assembly_field`, transforms/metadata.py:186-239 -/
def normAssembly (P : Py K) (cmd key field : String) (v : Val K) : Val K × List Diag :=
  if field = "joint_kind" then (v, errorUnless (checkEnum v trJoints) cmd key)
  else if field = "no_cut" then coerced ((coerceBool P v).map .bool) v cmd key
  else if field ∈ listFields then (v, errorUnless (isDictList v) cmd key)
  else (v, [⟨"warning", cmd, key⟩])

/-- `_validate_operation_field`, transforms/metadata.py:242-302 -/
def normOperation (P : Py K) (cmd key field : String) (v : Val K) : Val K × List Diag :=
  if field = "kind" then (v, errorUnless (checkEnum v opKinds) cmd key)
  else if field = "policy" then (v, errorUnless (checkEnum v opPolicies) cmd key)
  else if field = "feature_kind" then (v, errorUnless (checkEnum v trFeatures) cmd key)
  else if field = "through" ∨ field = "consume" then coerced ((coerceBool P v).map .bool) v cmd key
  else if field = "priority" then coerced ((P.floatOf v).map .num) v cmd key
  else if field = "target_filter" then coerced (coerceList P v) v cmd key
  else if field = "feature_id" ∨ field = "stage" then (.str (P.strOf v), [])
  else (v, [⟨"warning", cmd, key⟩])

/-- one key, transforms/metadata.py:394-430 -/
def normKey (P : Py K) (cmd : String) (kv : String × Val K) : Val K × List Diag :=
  match parseKey kv.1 with
  | some (ns, f) =>
    if ns = "assembly" then normAssembly P cmd kv.1 f kv.2
    else if ns = "operation" then normOperation P cmd kv.1 f kv.2
    else (kv.2, [⟨"warning", cmd, kv.1⟩])
  | none => if kv.1 = "layer" ∨ kv.1 = "tags" then (kv.2, []) else (kv.2, [⟨"warning", cmd, kv.1⟩])

/-- is it a key of the namespace operation -/
def isOp (kv : String × Val K) : Bool :=
  match parseKey kv.1 with
  | some (ns, _) => decide (ns = "operation")
  | none => false

/-- is it the value `True` -/
def isTrue : Option (Val K) → Bool
  | some (.bool b) => b
  | _ => false

/-- is it the string -/
def isString (s : String) : Option (Val K) → Bool
  | some (.str t) => decide (t = s)
  | _ => false

/-- `_cross_check`, transforms/metadata.py:309-350 -/
def crossCheck (cmd : String) (h : Meta K) : List Diag :=
  (if h.any isOp ∧ dget h "operation.kind" = none then [⟨"error", cmd, "operation.kind"⟩] else []) ++
  (if isTrue (dget h "assembly.no_cut") ∧ isString "subtract" (dget h "operation.kind") then [⟨"warning", cmd, "assembly.no_cut"⟩] else []) ++
  (if h.any isOp ∧ dget h "operation.target_filter" = none then [⟨"info", cmd, "operation.target_filter"⟩] else [])

/-- a hint, transforms/metadata.py:386-436. The keys of a dictionary are distinct, so collecting the normalised values in a new dictionary and updating the old one with it replaces each value
in place; keys that are empty strings are left alone. -/
def normHint (P : Py K) (cmd : String) (h : Meta K) : Meta K × List Diag :=
  if h = [] then ([], [])
  else
    (h.map fun kv => (kv.1, if kv.1 = "" then kv.2 else (normKey P cmd kv).1),
      ((h.filter fun kv => kv.1 ≠ "").flatMap fun kv => (normKey P cmd kv).2) ++
        crossCheck cmd ((h.filter fun kv => kv.1 ≠ "").map fun kv => (kv.1, (normKey P cmd kv).1)))

/-- `MetadataTransform.transform`, transforms/metadata.py:373-454: the functions of the module (name and hint) and the diagnostics -/
def transform (P : Py K) (fs : List (String × Meta K)) : List (String × Meta K) × List Diag :=
  (fs.map fun f => (f.1, (normHint P f.1 f.2).1), fs.flatMap fun f => (normHint P f.1 f.2).2)

end Verif.Hints
