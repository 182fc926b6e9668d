import Verif.Resolver.Model

/-! # Specification vocabulary for the assembly resolver (C14–C16, C52) -/

namespace Verif.Resolver
open Verif.Dict
variable {G : Type}

/-- The cut requests aimed at part `p`, in the order in which the parts' metadata was supplied.
A cutter that lists `p` k times in its `target_filter` makes k requests. -/
def requests (metaMap : List (String × Meta)) (p : String) : List (String × Operation) :=
  metaMap.flatMap fun e =>
    if e.2.op.isCutter then List.replicate (e.2.op.targetFilter.count p) (e.1, e.2.op) else []

/-- `order` lists exactly `reqs`, in nondecreasing priority, requests of equal priority keeping the
order of `reqs`. -/
structure InPriorityOrder (reqs order : List (String × Operation)) : Prop where
  perm : order.Perm reqs
  sorted : order.Pairwise fun a b => a.2.prio ≤ b.2.prio
  stable : ∀ k, (order.filter fun e => e.2.prio = k) = reqs.filter fun e => e.2.prio = k

/-- why a request was not carried out -/
inductive Failure
  | missing (e : String × Operation)
  | boolean (e : String × Operation)

def Failure.policy : Failure → String
  | .missing e => e.2.pol
  | .boolean e => e.2.pol

def Failure.msg (p : String) : Failure → Msg
  | .missing e => .missingCutter e.1 p
  | .boolean e => .booleanFailed e.2.kindD e.1 p

/-- `CutRun bool parts g reqs g' applied failed`: starting with geometry `g` and carrying out the
requests one after the other with the cutters' geometry of `parts`, the final geometry is `g'`,
`applied` are the cutters that succeeded and `failed` the requests that failed (each leaving the
geometry as it was). -/
inductive CutRun (bool : G → G → String → Option G) (parts : List (String × G)) :
    G → List (String × Operation) → G → List String → List Failure → Prop
  | nil (g) : CutRun bool parts g [] g [] []
  | ok {g cg g1 g' e es app fl} : dget parts e.1 = some cg → bool g cg e.2.kindD = some g1 →
      CutRun bool parts g1 es g' app fl → CutRun bool parts g (e :: es) g' (e.1 :: app) fl
  | fail {g cg g' e es app fl} : dget parts e.1 = some cg → bool g cg e.2.kindD = none →
      CutRun bool parts g es g' app fl → CutRun bool parts g (e :: es) g' app (.boolean e :: fl)
  | missing {g g' e es app fl} : dget parts e.1 = none →
      CutRun bool parts g es g' app fl → CutRun bool parts g (e :: es) g' app (.missing e :: fl)

/-- part `p` is a target of some cutter -/
def IsTarget (metaMap : List (String × Meta)) (p : String) : Prop :=
  ∃ e ∈ metaMap, e.2.op.isCutter ∧ p ∈ e.2.op.targetFilter

/-- part `p` is a cutter that is consumed -/
def IsConsumed (metaMap : List (String × Meta)) (p : String) : Prop :=
  ∃ e ∈ metaMap, e.1 = p ∧ e.2.op.isCutter ∧ e.2.op.consumes

/-- every cutter names at least one target -/
def Valid (metaMap : List (String × Meta)) : Prop :=
  ∀ e ∈ metaMap, e.2.op.isCutter → e.2.op.targetFilter ≠ []

instance (m : List (String × Meta)) (p : String) : Decidable (IsTarget m p) := by
  unfold IsTarget; infer_instance
instance (m : List (String × Meta)) (p : String) : Decidable (IsConsumed m p) := by
  unfold IsConsumed; infer_instance
instance (m : List (String × Meta)) : Decidable (Valid m) := by
  unfold Valid; infer_instance

/-- the metadata seen by one stage: only the operations of the cutters assigned to stage `st` -/
def onlyStage (stages : List String) (fallback st : String) (metaMap : List (String × Meta)) :
    List (String × Meta) :=
  metaMap.map fun e => if stageOf stages fallback e.2.op = st then e else (e.1, {})

end Verif.Resolver
