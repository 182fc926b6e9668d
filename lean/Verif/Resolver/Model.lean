import Verif.Base.Dict
import Mathlib.Data.Rat.Defs
import Mathlib.Algebra.Order.Ring.Rat

/-!
# Model of `src/yapcad/assembly/resolver.py`

Part ids are strings, geometry is an abstract type `G` (any Python object other than `None`).
The boolean engine (`AssemblyResolver._apply_boolean`, resolver.py:155-203) is a parameter
`bool : G → G → String → Option G`; `none` is any exception it raises. It is assumed to be a
function of its arguments (no hidden state) and not to mutate them.
Messages are structured values instead of formatted strings; the text of the caught exception is
dropped. Python `dict`s are association lists in insertion order (`Verif.Dict`).
-/

namespace Verif.Resolver
open Verif.Dict

/-- The `operation` metadata namespace, metadata.py:525-590; `none` = key absent.
`target_filter` absent and `[]` behave alike for the resolver (`not op.get("target_filter")`). -/
structure Operation where
  kind : Option String := none
  targetFilter : List String := []
  priority : Option Rat := none
  policy : Option String := none
  consume : Option Bool := none
  stage : Option String := none
deriving DecidableEq, Repr

/-- a part's metadata dict, reduced to `get_operation_metadata(meta)` (metadata.py:525-534, with
`create=False`): the `operation` entry, `none` if absent (then `{}` is returned). -/
structure Meta where
  operation : Option Operation := none
deriving DecidableEq, Repr

/-- `get_operation_metadata(meta)`, metadata.py:525-534 -/
def Meta.op (m : Meta) : Operation := m.operation.getD {}

/-- `op.get("kind")` is truthy -/
def Operation.isCutter (o : Operation) : Bool :=
  match o.kind with
  | none => false
  | some k => decide (k ≠ "")

/-- `op.get("priority", 50)` -/
def Operation.prio (o : Operation) : Rat := o.priority.getD 50
/-- `op.get("policy", "strict")` -/
def Operation.pol (o : Operation) : String := o.policy.getD "strict"
/-- `op.get("consume", True)` -/
def Operation.consumes (o : Operation) : Bool := o.consume.getD true
/-- `op.get("kind", "subtract")` -/
def Operation.kindD (o : Operation) : String := o.kind.getD "subtract"

/-- messages produced by the resolver (resolver.py:149-152, 292, 306) -/
inductive Msg
  | noTarget (cutter : String)
  | missingCutter (cutter target : String)
  | booleanFailed (kind cutter target : String)
deriving DecidableEq, Repr

/-- execution log lines (resolver.py:298-300; staged lines 398-401, 414, 417) -/
inductive LogLine
  | error (m : Msg)
  | apply (kind cutter target : String) (priority : Rat)
  | unknownStage (cutter stage : String)
  | skip (stage : String)
  | stage (stage : String) (n : Nat)
deriving DecidableEq, Repr

/-- `ResolvedPart`, resolver.py:71-80 -/
structure ResolvedPart (G : Type) where
  partId : String
  geometry : G
  applied : List String := []
  retained : List String := []
  warnings : List Msg := []
  errors : List Msg := []
deriving DecidableEq, Repr

/-- `ResolveResult`, resolver.py:83-90 -/
structure ResolveResult (G : Type) where
  parts : List (String × ResolvedPart G)
  log : List LogLine
  success : Bool
  errors : List Msg
deriving DecidableEq, Repr

/-- `_collect_cutters`, resolver.py:131-141 -/
def collectCutters (metaMap : List (String × Meta)) : List (String × Operation) :=
  (metaMap.map fun e => (e.1, e.2.op)).filter fun e => e.2.isCutter

/-- `_validate_cutters`, resolver.py:143-153 -/
def validateCutters (cutters : List (String × Operation)) : List Msg :=
  (cutters.filter fun e => e.2.targetFilter.isEmpty).map fun e => Msg.noTarget e.1

/-- `_handle_policy`, resolver.py:205-219: returns the messages added to errors and warnings -/
def handlePolicy (policy : String) (m : Msg) (errors warnings : List Msg) : List Msg × List Msg :=
  if policy = "strict" then (errors ++ [m], warnings)
  else if policy = "warn" then (errors, warnings ++ [m])
  else (errors, warnings)

/-- an entry of `target_ops[target]`: `(priority, cutter_id, op)` -/
abbrev Entry := String × Operation

/-- `target_ops.setdefault(target_id, []).append(...)`, resolver.py:257-259 -/
def addTarget (t : List (String × List Entry)) (target : String) (e : Entry) :
    List (String × List Entry) :=
  dset t target ((dget t target).getD [] ++ [e])

/-- the index loop, resolver.py:254-259 -/
def buildIndex (cutters : List Entry) : List (String × List Entry) :=
  cutters.foldl (fun t e => e.2.targetFilter.foldl (fun t target => addTarget t target e) t) []

/-- insertion of one element into a list sorted by priority, before equal keys that were to its
right in the input -/
def insertP (e : Entry) : List Entry → List Entry
  | [] => [e]
  | x :: xs => if e.2.prio ≤ x.2.prio then e :: x :: xs else x :: insertP e xs

/-- `list.sort(key=lambda t: t[0])`, resolver.py:262-263. Python's sort is a stable sort; the model
uses stable insertion sort. -/
def sortP : List Entry → List Entry
  | [] => []
  | e :: es => insertP e (sortP es)

/-- the sorted index, resolver.py:254-263 -/
def targetOps (cutters : List Entry) : List (String × List Entry) :=
  (buildIndex cutters).map fun t => (t.1, sortP t.2)

/-- the local variables of the per-target loop (resolver.py:283-287) and `log_lines` -/
structure Acc (G : Type) where
  geom : G
  applied : List String := []
  retained : List String := []
  warnings : List Msg := []
  errors : List Msg := []
  log : List LogLine := []

variable {G : Type}

/-- body of `for priority, cutter_id, op in target_ops[part_id]`, resolver.py:289-313 -/
def applyEntry (bool : G → G → String → Option G) (parts : List (String × G)) (partId : String)
    (a : Acc G) (e : Entry) : Acc G :=
  match dget parts e.1 with
  | none =>
    let (er, wa) := handlePolicy e.2.pol (.missingCutter e.1 partId) a.errors a.warnings
    { a with errors := er, warnings := wa }
  | some cg =>
    let a := { a with log := a.log ++ [LogLine.apply e.2.kindD e.1 partId e.2.prio] }
    let a := match bool a.geom cg e.2.kindD with
      | some g => { a with geom := g, applied := a.applied ++ [e.1] }
      | none =>
        let (er, wa) := handlePolicy e.2.pol (.booleanFailed e.2.kindD e.1 partId) a.errors a.warnings
        { a with errors := er, warnings := wa }
    if e.2.consumes then a else { a with retained := a.retained ++ [e.1] }

/-- state of the loop over parts: resolved_parts, retained_all, log_lines, global_errors -/
structure St (G : Type) where
  resolved : List (String × ResolvedPart G) := []
  retainedAll : List String := []
  log : List LogLine := []
  errors : List Msg := []

/-- body of `for part_id, geom in parts.items()`, resolver.py:275-320 -/
def resolvePart (bool : G → G → String → Option G) (parts : List (String × G))
    (tops : List (String × List Entry)) (consumed : List String)
    (s : St G) (p : String × G) : St G :=
  match dget tops p.1 with
  | none =>
    if p.1 ∈ consumed then s
    else { s with resolved := dset s.resolved p.1 { partId := p.1, geometry := p.2 } }
  | some es =>
    let a := es.foldl (applyEntry bool parts p.1) { geom := p.2 }
    { resolved := dset s.resolved p.1
        { partId := p.1, geometry := a.geom, applied := a.applied, retained := a.retained,
          warnings := a.warnings, errors := a.errors }
      retainedAll := s.retainedAll ++ a.retained
      log := s.log ++ a.log
      errors := s.errors ++ a.errors }

/-- the trailing loop over cutters, resolver.py:326-330; `parts[cutter_id]` is a `KeyError` (`none`)
when absent -/
def addRetained (parts : List (String × G)) (retainedAll : List String)
    (r : Option (List (String × ResolvedPart G))) (c : String × Operation) :
    Option (List (String × ResolvedPart G)) :=
  match r with
  | none => none
  | some r =>
    if (dget r c.1).isSome then some r
    else if c.1 ∈ retainedAll then
      match dget parts c.1 with
      | none => none
      | some g => some (dset r c.1 { partId := c.1, geometry := g })
    else some r

/-- the result returned when validation fails, resolver.py:245-251 and 382-388 -/
def invalidResult (parts : List (String × G)) (errs : List Msg) : ResolveResult G :=
  { parts := parts.map fun p => (p.1, { partId := p.1, geometry := p.2 })
    log := errs.map .error, success := false, errors := errs }

/-- `BasicResolver.resolve`, resolver.py:233-337. `none` = an exception escapes. -/
def basicResolve (bool : G → G → String → Option G) (parts : List (String × G))
    (metaMap : List (String × Meta)) : Option (ResolveResult G) :=
  let cutters := collectCutters metaMap
  let errs := validateCutters cutters
  if errs ≠ [] then some (invalidResult parts errs)
  else
    let tops := targetOps cutters
    let consumed := (cutters.filter fun c => c.2.consumes).map (·.1)
    let s := parts.foldl (resolvePart bool parts tops consumed) {}
    match cutters.foldl (addRetained parts s.retainedAll) (some s.resolved) with
    | none => none
    | some r => some { parts := r, log := s.log, success := decide (s.errors = []), errors := s.errors }

/-! ## StagedResolver, resolver.py:345-457 -/

/-- bucket assignment of one cutter, resolver.py:394-404 -/
def stageOf (stages : List String) (fallback : String) (o : Operation) : String :=
  match o.stage with
  | none => fallback
  | some s => if s ∈ stages then s else fallback

/-- the warning line of an unknown stage, resolver.py:397-401 -/
def stageWarn (stages : List String) (c : String × Operation) : List LogLine :=
  match c.2.stage with
  | none => []
  | some s => if s ∈ stages then [] else [LogLine.unknownStage c.1 s]

/-- `stage_meta`, resolver.py:421-429: the bucket's cutters with their metadata, then every other
part with `operation` removed -/
def stageMeta (metaMap : List (String × Meta)) (bucket : List (String × Operation)) :
    List (String × Meta) :=
  let m0 := bucket.foldl (fun m c => dset m c.1 ((dget metaMap c.1).getD {})) []
  metaMap.foldl (fun m e => if (dget m e.1).isSome then m else dset m e.1 {}) m0

/-- loop state of the staged resolver -/
structure StagedSt (G : Type) where
  parts : List (String × G)
  ops : List (String × List String) := []
  log : List LogLine := []
  errors : List Msg := []

/-- `accumulated_ops` update, resolver.py:442-444 -/
def accumulate (ops : List (String × List String)) (p : String × ResolvedPart G) :
    List (String × List String) :=
  dset ops p.1 ((dget ops p.1).getD [] ++ p.2.applied)

/-- one stage, resolver.py:411-445 -/
def runStage (bool : G → G → String → Option G) (metaMap : List (String × Meta))
    (bucketOf : String → List (String × Operation)) (s : Option (StagedSt G)) (stage : String) :
    Option (StagedSt G) :=
  match s with
  | none => none
  | some s =>
    let bucket := bucketOf stage
    if bucket = [] then some { s with log := s.log ++ [LogLine.skip stage] }
    else
      match basicResolve bool s.parts (stageMeta metaMap bucket) with
      | none => none
      | some r => some
        { parts := r.parts.map fun p => (p.1, p.2.geometry)
          ops := r.parts.foldl accumulate s.ops
          log := s.log ++ [LogLine.stage stage bucket.length] ++ r.log
          errors := s.errors ++ r.errors }

/-- `StagedResolver(stages).resolve`, resolver.py:370-457; `none` = an exception (including the
`ValueError` of the constructor for an empty stage list, resolver.py:365-366) -/
def stagedResolve (bool : G → G → String → Option G) (stages : List String)
    (parts : List (String × G)) (metaMap : List (String × Meta)) : Option (ResolveResult G) :=
  match stages.getLast? with
  | none => none
  | some fallback =>
    let cutters := collectCutters metaMap
    let errs := validateCutters cutters
    if errs ≠ [] then some (invalidResult parts errs)
    else
      let bucketOf := fun st => cutters.filter fun c => decide (stageOf stages fallback c.2 = st)
      match stages.foldl (runStage bool metaMap bucketOf)
          (some { parts := parts, log := cutters.flatMap (stageWarn stages) }) with
      | none => none
      | some s => some
        { parts := s.parts.map fun p =>
            (p.1, { partId := p.1, geometry := p.2, applied := (dget s.ops p.1).getD [] })
          log := s.log, success := decide (s.errors = []), errors := s.errors }

end Verif.Resolver
