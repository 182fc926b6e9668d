import Verif.Checker.Props2

/-!
# C159: the checker does not raise, except at `return` and at declarations without a value

A module is plain if its text has neither.
-/

namespace Verif.Checker

open Verif.Types (Ty)
open Verif.Parser (Name Expr Clause Stmt Block Pat Mod Fn Param NBlock NFn NDecl)

mutual
/-- neither `return` nor a declaration without a value in the blocks of an expression -/
def plainE : Expr → Prop
  | .lit _ _ => True
  | .ident _ => True
  | .bin _ l r => plainE l ∧ plainE r
  | .un _ e => plainE e
  | .call f args named => plainE f ∧ plainEs args ∧ plainN named
  | .method o _ args named => plainE o ∧ plainEs args ∧ plainN named
  | .member o _ => plainE o
  | .index o i => plainE o ∧ plainE i
  | .list es => plainEs es
  | .comp e cs => plainE e ∧ plainC cs
  | .range a b => plainE a ∧ plainE b
  | .dict es => plainN es
  | .lam _ b => plainE b
  | .cond c t e => plainE c ∧ plainE t ∧ plainE e
  | .ifE c t elifs els => plainE c ∧ plainB t ∧ plainL elifs ∧ (match els with | some b => plainB b | none => True)
  | .matchE s arms => plainE s ∧ plainA arms
/-- in a list of expressions -/
def plainEs : List Expr → Prop
  | [] => True
  | e :: es => plainE e ∧ plainEs es
/-- in named expressions -/
def plainN : List (Name × Expr) → Prop
  | [] => True
  | (_, e) :: es => plainE e ∧ plainN es
/-- in comprehension clauses -/
def plainC : List Clause → Prop
  | [] => True
  | .mk _ it conds :: cs => plainE it ∧ plainEs conds ∧ plainC cs
/-- in match arms -/
def plainA : List (Pat × Expr) → Prop
  | [] => True
  | (_, e) :: as => plainE e ∧ plainA as
/-- in elif branches -/
def plainL : List (Expr × Block) → Prop
  | [] => True
  | (c, b) :: bs => plainE c ∧ plainB b ∧ plainL bs
/-- in a block -/
def plainB : Block → Prop
  | .mk ss final => plainSs ss ∧ (match final with | some e => plainE e | none => True)
/-- in statements -/
def plainSs : List Stmt → Prop
  | [] => True
  | s :: ss => plainS s ∧ plainSs ss
/-- in a statement -/
def plainS : Stmt → Prop
  | .letS _ _ e => plainE e
  | .varDecl _ _ e => (match e with | some e => plainE e | none => False)
  | .require c msg => plainE c ∧ (match msg with | some e => plainE e | none => True)
  | .assertS c msg => plainE c ∧ (match msg with | some e => plainE e | none => True)
  | .emit v md => plainE v ∧ plainN md
  | .forS _ it body => plainE it ∧ plainB body
  | .ifS c t elifs els => plainE c ∧ plainB t ∧ plainL elifs ∧ (match els with | some b => plainB b | none => True)
  | .pass => True
  | .ret _ => False
  | .py _ => True
  | .assign t v => plainE t ∧ plainE v
  | .exprS e => plainE e
end

/-- in a command: its body and the defaults of its parameters -/
def plainFn (c : Fn) : Prop := plainB c.body ∧ ∀ p ∈ c.params, ∀ e, p.dflt = some e → plainE e

/-- in a module -/
def plainMod (m : Mod) : Prop := ∀ c ∈ m.functions, plainFn c


/-- the step does not raise -/
def Total {α : Type} (m : M α) : Prop := ∀ s, ∃ x, m s = .ok x

namespace Total

variable {α β : Type}

theorem pure (a : α) : Total (Pure.pure a : M α) := fun s => ⟨(a, s), rfl⟩

theorem bind {m : M α} {k : α → M β} (hm : Total m) (hk : ∀ a, Total (k a)) : Total (m >>= k) := by
  intro s
  obtain ⟨⟨a, s1⟩, h⟩ := hm s
  obtain ⟨x, h'⟩ := hk a s1
  exact ⟨x, by simp only [Bind.bind, Checker.bind, h, h']⟩

theorem err (c : String) (l : List Name) : Total (Checker.err c l) := fun _ => ⟨_, rfl⟩

theorem warn (c : String) (l : List Name) : Total (Checker.warn c l) := fun _ => ⟨_, rfl⟩

theorem errIf (b : Bool) (c : String) (l : List Name) : Total (Checker.errIf b c l) := by
  unfold Checker.errIf
  split
  · exact err _ _
  · exact pure _

theorem setPy : Total Checker.setPy := fun _ => ⟨_, rfl⟩

theorem push : Total Checker.push := fun _ => ⟨_, rfl⟩

theorem pop : Total Checker.pop := fun _ => ⟨_, rfl⟩

theorem define (n : Name) (k : Kind) (t : Ty) : Total (Checker.define n k t) := by
  intro s
  unfold Checker.define
  split
  · exact ⟨_, rfl⟩
  · split <;> exact ⟨_, rfl⟩

theorem defineOr (n : Name) (k : Kind) (t : Ty) (c : String) : Total (Checker.defineOr n k t c) :=
  bind (define _ _ _) fun _ => errIf _ _ _

theorem calleeSym (n : Name) : Total (Checker.calleeSym n) := fun _ => ⟨_, rfl⟩

theorem noteCall (K : Cfg) (n : Name) : Total (Checker.noteCall K n) := fun _ => ⟨_, rfl⟩

theorem identTy (n : Name) : Total (Checker.identTy n) := by
  intro s
  unfold Checker.identTy
  split
  · exact ⟨_, rfl⟩
  · split
    · exact ⟨_, rfl⟩
    · exact bind (err _ _) (fun _ => pure _) _

theorem ite {c : Prop} [Decidable c] {m k : M α} (hm : Total m) (hk : Total k) : Total (if c then m else k) := by
  split
  · exact hm
  · exact hk

theorem guardE {K : Cfg} {m : M Ty} (hm : Total m) : Total (Checker.guardE K m) := by
  intro s
  unfold Checker.guardE
  split
  · exact ⟨_, rfl⟩
  · exact hm s

theorem guardS {K : Cfg} {m : M Unit} (hm : Total m) : Total (Checker.guardS K m) := by
  intro s
  unfold Checker.guardS
  split
  · exact ⟨_, rfl⟩
  · exact hm s

end Total

/-- one step of a totality proof -/
macro "total_step" : tactic => `(tactic| first
  | with_reducible apply Total.pure | with_reducible apply Total.err
  | with_reducible apply Total.warn | with_reducible apply Total.errIf | with_reducible apply Total.setPy
  | with_reducible apply Total.push | with_reducible apply Total.pop | with_reducible apply Total.define
  | with_reducible apply Total.defineOr | with_reducible apply Total.calleeSym | with_reducible apply Total.noteCall
  | with_reducible apply Total.identTy | with_reducible apply Total.guardE | with_reducible apply Total.guardS
  | assumption | (with_reducible refine Total.bind ?_ fun _ => ?_) | with_reducible apply Total.ite | split)

/-- a totality proof -/
macro "total" : tactic => `(tactic| repeat' total_step)

theorem Total.defineAll : ∀ ps, Total (Checker.defineAll ps)
  | [] => Total.pure _
  | _ :: ps => Total.bind (Total.define _ _ _) fun _ => Total.defineAll ps

mutual
theorem Total.resolve : ∀ t, Total (Checker.resolve t)
  | .simple n => by unfold Checker.resolve; total
  | .generic n args => by
    have := Total.resolveArg args
    unfold Checker.resolve; total
  | .opt t => by
    have := Total.resolve t
    unfold Checker.resolve; total
theorem Total.resolveArg : ∀ t, Total (Checker.resolveArg t)
  | [] => by unfold Checker.resolveArg; total
  | [t] => by
    have := Total.resolve t
    unfold Checker.resolveArg; total
  | _ :: _ :: _ => by unfold Checker.resolveArg; total
end

theorem Total.resolveOpt (t : Option Parser.Ty) : Total (Checker.resolveOpt t) := by
  cases t with
  | none => exact Total.pure _
  | some t => exact Total.resolve t

theorem Total.binTy (op : String) (a b : Ty) : Total (Checker.binTy op a b) := by
  unfold Checker.binTy wantBool; total

theorem Total.unTy (op : String) (a : Ty) : Total (Checker.unTy op a) := by
  unfold Checker.unTy wantBool; total

theorem Total.elemStep (a b : Ty) : Total (Checker.elemStep a b) := by
  unfold Checker.elemStep; total

theorem Total.condTy (a b : Ty) : Total (Checker.condTy a b) := by
  unfold Checker.condTy; total

theorem Total.ifTy (a b : Option Ty) : Total (Checker.ifTy a b) := by
  unfold Checker.ifTy; total

theorem Total.patTy (p : Pat) (b : Ty) : Total (Checker.patTy p b) := by
  unfold Checker.patTy; total

theorem Total.declare (n : Name) (ty : Option Parser.Ty) (t : Ty) : Total (Checker.declare n ty t) := by
  unfold Checker.declare
  cases ty with
  | none => exact Total.defineOr _ _ _ _
  | some a => exact Total.bind (Total.resolve a) fun _ => Total.bind (Total.errIf _ _ _) fun _ => Total.defineOr _ _ _ _

/-- one step, with the operators -/
macro "total_step'" : tactic => `(tactic| first
  | with_reducible apply Total.binTy | with_reducible apply Total.unTy | with_reducible apply Total.elemStep
  | with_reducible apply Total.condTy | with_reducible apply Total.ifTy | with_reducible apply Total.patTy
  | with_reducible apply Total.declare | with_reducible apply Total.resolve | with_reducible apply Total.defineAll
  | total_step)

mutual
theorem Total.checkE (K : Cfg) : ∀ e, plainE e → Total (Checker.checkE K e)
  | .lit k _, h => by
    unfold plainE at h
    unfold Checker.checkE; total
  | .ident n, h => by
    unfold plainE at h
    unfold Checker.checkE; total
  | .bin op l r, h => by
    unfold plainE at h
    have := Total.checkE K l (by first | exact h | exact h.1 | exact h.2 | exact h.2.1 | exact h.2.2 | exact h.2.2.1 | exact h.2.2.2)
    have := Total.checkE K r (by first | exact h | exact h.1 | exact h.2 | exact h.2.1 | exact h.2.2 | exact h.2.2.1 | exact h.2.2.2)
    unfold Checker.checkE; repeat' total_step'
  | .un op e, h => by
    unfold plainE at h
    have := Total.checkE K e (by first | exact h | exact h.1 | exact h.2 | exact h.2.1 | exact h.2.2 | exact h.2.2.1 | exact h.2.2.2)
    unfold Checker.checkE; repeat' total_step'
  | .call f args named, h => by
    unfold plainE at h
    have h1 := Total.checkE K f (by first | exact h | exact h.1 | exact h.2 | exact h.2.1 | exact h.2.2 | exact h.2.2.1 | exact h.2.2.2)
    have h2 := fun c ps => Total.checkArgs K c ps args (by first | exact h | exact h.1 | exact h.2 | exact h.2.1 | exact h.2.2 | exact h.2.2.1 | exact h.2.2.2)
    have h3 := fun al => Total.checkNamed K al named (by first | exact h | exact h.1 | exact h.2 | exact h.2.1 | exact h.2.2 | exact h.2.2.1 | exact h.2.2.2)
    unfold Checker.checkE
    refine Total.guardE ?_
    split
    · repeat' (first | exact h2 _ _ | exact h3 _ | total_step')
    · exact Total.bind h1 fun _ => Total.pure _
  | .method o m args _, h => by
    unfold plainE at h
    have h1 := Total.checkE K o (by first | exact h | exact h.1 | exact h.2 | exact h.2.1 | exact h.2.2 | exact h.2.2.1 | exact h.2.2.2)
    have h2 := fun c ps => Total.checkArgs K c ps args (by first | exact h | exact h.1 | exact h.2 | exact h.2.1 | exact h.2.2 | exact h.2.2.1 | exact h.2.2.2)
    unfold Checker.checkE
    repeat' (first | exact h2 _ _ | total_step')
  | .member o m, h => by
    unfold plainE at h
    have := Total.checkE K o (by first | exact h | exact h.1 | exact h.2 | exact h.2.1 | exact h.2.2 | exact h.2.2.1 | exact h.2.2.2)
    unfold Checker.checkE; repeat' total_step'
  | .index o i, h => by
    unfold plainE at h
    have := Total.checkE K o (by first | exact h | exact h.1 | exact h.2 | exact h.2.1 | exact h.2.2 | exact h.2.2.1 | exact h.2.2.2)
    have := Total.checkE K i (by first | exact h | exact h.1 | exact h.2 | exact h.2.1 | exact h.2.2 | exact h.2.2.1 | exact h.2.2.2)
    unfold Checker.checkE wantInt; repeat' total_step'
  | .list es, h => by
    unfold plainE at h
    cases es with
    | nil => unfold Checker.checkE; repeat' total_step'
    | cons e es =>
      have := Total.checkE K e (by first | exact h | exact h.1 | exact h.2 | exact h.2.1 | exact h.2.2 | exact h.2.2.1 | exact h.2.2.2)
      have h2 := fun t => Total.checkElems K t es (by first | exact h | exact h.1 | exact h.2 | exact h.2.1 | exact h.2.2 | exact h.2.2.1 | exact h.2.2.2)
      unfold Checker.checkE
      repeat' (first | exact h2 _ | total_step')
  | .comp e cs, h => by
    unfold plainE at h
    have := Total.checkE K e (by first | exact h | exact h.1 | exact h.2 | exact h.2.1 | exact h.2.2 | exact h.2.2.1 | exact h.2.2.2)
    have := Total.checkClauses K cs (by first | exact h | exact h.1 | exact h.2 | exact h.2.1 | exact h.2.2 | exact h.2.2.1 | exact h.2.2.2)
    unfold Checker.checkE; repeat' total_step'
  | .range a b, h => by
    unfold plainE at h
    have := Total.checkE K a (by first | exact h | exact h.1 | exact h.2 | exact h.2.1 | exact h.2.2 | exact h.2.2.1 | exact h.2.2.2)
    have := Total.checkE K b (by first | exact h | exact h.1 | exact h.2 | exact h.2.1 | exact h.2.2 | exact h.2.2.1 | exact h.2.2.2)
    unfold Checker.checkE wantInt; repeat' total_step'
  | .dict es, h => by
    unfold plainE at h
    have := Total.checkNamed K none es (by first | exact h | exact h.1 | exact h.2 | exact h.2.1 | exact h.2.2 | exact h.2.2.1 | exact h.2.2.2)
    unfold Checker.checkE; repeat' total_step'
  | .lam ps b, h => by
    unfold plainE at h
    have := Total.checkE K b (by first | exact h | exact h.1 | exact h.2 | exact h.2.1 | exact h.2.2 | exact h.2.2.1 | exact h.2.2.2)
    unfold Checker.checkE; repeat' total_step'
  | .cond c t e, h => by
    unfold plainE at h
    have := Total.checkE K c (by first | exact h | exact h.1 | exact h.2 | exact h.2.1 | exact h.2.2 | exact h.2.2.1 | exact h.2.2.2)
    have := Total.checkE K t (by first | exact h | exact h.1 | exact h.2 | exact h.2.1 | exact h.2.2 | exact h.2.2.1 | exact h.2.2.2)
    have := Total.checkE K e (by first | exact h | exact h.1 | exact h.2 | exact h.2.1 | exact h.2.2 | exact h.2.2.1 | exact h.2.2.2)
    unfold Checker.checkE wantBool; repeat' total_step'
  | .ifE c t elifs els, h => by
    unfold plainE at h
    have := Total.checkE K c (by first | exact h | exact h.1 | exact h.2 | exact h.2.1 | exact h.2.2 | exact h.2.2.1 | exact h.2.2.2)
    have := Total.checkB K t (by first | exact h | exact h.1 | exact h.2 | exact h.2.1 | exact h.2.2 | exact h.2.2.1 | exact h.2.2.2)
    cases els with
    | none => unfold Checker.checkE wantBool; repeat' total_step'
    | some b =>
      have := Total.checkB K b (by first | exact h | exact h.1 | exact h.2 | exact h.2.1 | exact h.2.2 | exact h.2.2.1 | exact h.2.2.2)
      unfold Checker.checkE wantBool; repeat' total_step'
  | .matchE s arms, h => by
    unfold plainE at h
    have := Total.checkE K s (by first | exact h | exact h.1 | exact h.2 | exact h.2.1 | exact h.2.2 | exact h.2.2.1 | exact h.2.2.2)
    have h2 := fun t r => Total.checkArms K t r arms (by first | exact h | exact h.1 | exact h.2 | exact h.2.1 | exact h.2.2 | exact h.2.2.1 | exact h.2.2.2)
    unfold Checker.checkE
    repeat' (first | exact h2 _ _ | total_step')
theorem Total.checkArgs (K : Cfg) (c : String) : ∀ ps es, plainEs es → Total (Checker.checkArgs K c ps es)
  | ps, [], h => by
    unfold plainEs at h
    unfold Checker.checkArgs; total
  | [], e :: es, h => by
    unfold plainEs at h
    have := Total.checkE K e (by first | exact h | exact h.1 | exact h.2 | exact h.2.1 | exact h.2.2 | exact h.2.2.1 | exact h.2.2.2)
    have h2 := Total.checkArgs K c [] es (by first | exact h | exact h.1 | exact h.2 | exact h.2.1 | exact h.2.2 | exact h.2.2.1 | exact h.2.2.2)
    unfold Checker.checkArgs; repeat' total_step'
  | p :: ps, e :: es, h => by
    unfold plainEs at h
    have := Total.checkE K e (by first | exact h | exact h.1 | exact h.2 | exact h.2.1 | exact h.2.2 | exact h.2.2.1 | exact h.2.2.2)
    have h2 := Total.checkArgs K c ps es (by first | exact h | exact h.1 | exact h.2 | exact h.2.1 | exact h.2.2 | exact h.2.2.1 | exact h.2.2.2)
    unfold Checker.checkArgs argOk; repeat' total_step'
theorem Total.checkNamed (K : Cfg) (al : Option (List Name)) : ∀ es, plainN es → Total (Checker.checkNamed K al es)
  | [], h => by
    unfold plainN at h
    unfold Checker.checkNamed; total
  | (k, e) :: es, h => by
    unfold plainN at h
    have := Total.checkE K e (by first | exact h | exact h.1 | exact h.2 | exact h.2.1 | exact h.2.2 | exact h.2.2.1 | exact h.2.2.2)
    have h2 := Total.checkNamed K al es (by first | exact h | exact h.1 | exact h.2 | exact h.2.1 | exact h.2.2 | exact h.2.2.1 | exact h.2.2.2)
    unfold Checker.checkNamed; repeat' total_step'
theorem Total.checkElems (K : Cfg) : ∀ t es, plainEs es → Total (Checker.checkElems K t es)
  | t, [], h => by
    unfold plainEs at h
    unfold Checker.checkElems; total
  | t, e :: es, h => by
    unfold plainEs at h
    have := Total.checkE K e (by first | exact h | exact h.1 | exact h.2 | exact h.2.1 | exact h.2.2 | exact h.2.2.1 | exact h.2.2.2)
    have h2 := fun t => Total.checkElems K t es (by first | exact h | exact h.1 | exact h.2 | exact h.2.1 | exact h.2.2 | exact h.2.2.1 | exact h.2.2.2)
    unfold Checker.checkElems
    repeat' (first | exact h2 _ | total_step')
theorem Total.checkClauses (K : Cfg) : ∀ cs, plainC cs → Total (Checker.checkClauses K cs)
  | [], h => by
    unfold plainC at h
    unfold Checker.checkClauses; total
  | .mk v it conds :: cs, h => by
    unfold plainC at h
    have := Total.checkE K it (by first | exact h | exact h.1 | exact h.2 | exact h.2.1 | exact h.2.2 | exact h.2.2.1 | exact h.2.2.2)
    have := Total.checkConds K conds (by first | exact h | exact h.1 | exact h.2 | exact h.2.1 | exact h.2.2 | exact h.2.2.1 | exact h.2.2.2)
    have := Total.checkClauses K cs (by first | exact h | exact h.1 | exact h.2 | exact h.2.1 | exact h.2.2 | exact h.2.2.1 | exact h.2.2.2)
    unfold Checker.checkClauses; repeat' total_step'
theorem Total.checkConds (K : Cfg) : ∀ es, plainEs es → Total (Checker.checkConds K es)
  | [], h => by
    unfold plainEs at h
    unfold Checker.checkConds; total
  | e :: es, h => by
    unfold plainEs at h
    have := Total.checkE K e (by first | exact h | exact h.1 | exact h.2 | exact h.2.1 | exact h.2.2 | exact h.2.2.1 | exact h.2.2.2)
    have := Total.checkConds K es (by first | exact h | exact h.1 | exact h.2 | exact h.2.1 | exact h.2.2 | exact h.2.2.1 | exact h.2.2.2)
    unfold Checker.checkConds wantBool; repeat' total_step'
theorem Total.checkArms (K : Cfg) (t : Ty) : ∀ r as, plainA as → Total (Checker.checkArms K t r as)
  | r, [], h => by
    unfold plainA at h
    unfold Checker.checkArms; total
  | r, (p, e) :: as, h => by
    unfold plainA at h
    have := Total.checkE K e (by first | exact h | exact h.1 | exact h.2 | exact h.2.1 | exact h.2.2 | exact h.2.2.1 | exact h.2.2.2)
    have h2 := fun r => Total.checkArms K t r as (by first | exact h | exact h.1 | exact h.2 | exact h.2.1 | exact h.2.2 | exact h.2.2.1 | exact h.2.2.2)
    unfold Checker.checkArms
    repeat' (first | exact h2 _ | total_step')
theorem Total.checkS (K : Cfg) : ∀ s, plainS s → Total (Checker.checkS K s)
  | .letS n ty e, h => by
    unfold plainS at h
    have := Total.checkE K e (by first | exact h | exact h.1 | exact h.2 | exact h.2.1 | exact h.2.2 | exact h.2.2.1 | exact h.2.2.2)
    unfold Checker.checkS; repeat' total_step'
  | .varDecl n ty e, h => by
    unfold plainS at h
    cases e with
    | none => exact h.elim
    | some e =>
      have := Total.checkE K e (by first | exact h | exact h.1 | exact h.2 | exact h.2.1 | exact h.2.2 | exact h.2.2.1 | exact h.2.2.2)
      unfold Checker.checkS; repeat' total_step'
  | .assign t v, h => by
    unfold plainS at h
    have := Total.checkE K t (by first | exact h | exact h.1 | exact h.2 | exact h.2.1 | exact h.2.2 | exact h.2.2.1 | exact h.2.2.2)
    have := Total.checkE K v (by first | exact h | exact h.1 | exact h.2 | exact h.2.1 | exact h.2.2 | exact h.2.2.1 | exact h.2.2.2)
    unfold Checker.checkS; repeat' total_step'
  | .require c msg, h => by
    unfold plainS at h
    have := Total.checkE K c (by first | exact h | exact h.1 | exact h.2 | exact h.2.1 | exact h.2.2 | exact h.2.2.1 | exact h.2.2.2)
    cases msg with
    | none => unfold Checker.checkS wantBool; repeat' total_step'
    | some e =>
      have := Total.checkE K e (by first | exact h | exact h.1 | exact h.2 | exact h.2.1 | exact h.2.2 | exact h.2.2.1 | exact h.2.2.2)
      unfold Checker.checkS wantBool; repeat' total_step'
  | .assertS c msg, h => by
    unfold plainS at h
    have := Total.checkE K c (by first | exact h | exact h.1 | exact h.2 | exact h.2.1 | exact h.2.2 | exact h.2.2.1 | exact h.2.2.2)
    cases msg with
    | none => unfold Checker.checkS wantBool; repeat' total_step'
    | some e =>
      have := Total.checkE K e (by first | exact h | exact h.1 | exact h.2 | exact h.2.1 | exact h.2.2 | exact h.2.2.1 | exact h.2.2.2)
      unfold Checker.checkS wantBool; repeat' total_step'
  | .emit v md, h => by
    unfold plainS at h
    have := Total.checkE K v (by first | exact h | exact h.1 | exact h.2 | exact h.2.1 | exact h.2.2 | exact h.2.2.1 | exact h.2.2.2)
    have := Total.checkNamed K none md (by first | exact h | exact h.1 | exact h.2 | exact h.2.1 | exact h.2.2 | exact h.2.2.1 | exact h.2.2.2)
    unfold Checker.checkS; repeat' total_step'
  | .forS v it body, h => by
    unfold plainS at h
    have := Total.checkE K it (by first | exact h | exact h.1 | exact h.2 | exact h.2.1 | exact h.2.2 | exact h.2.2.1 | exact h.2.2.2)
    have := Total.checkB K body (by first | exact h | exact h.1 | exact h.2 | exact h.2.1 | exact h.2.2 | exact h.2.2.1 | exact h.2.2.2)
    unfold Checker.checkS; repeat' total_step'
  | .ifS c t elifs els, h => by
    unfold plainS at h
    have := Total.checkE K c (by first | exact h | exact h.1 | exact h.2 | exact h.2.1 | exact h.2.2 | exact h.2.2.1 | exact h.2.2.2)
    have := Total.checkB K t (by first | exact h | exact h.1 | exact h.2 | exact h.2.1 | exact h.2.2 | exact h.2.2.1 | exact h.2.2.2)
    have := Total.checkElifs K elifs (by first | exact h | exact h.1 | exact h.2 | exact h.2.1 | exact h.2.2 | exact h.2.2.1 | exact h.2.2.2)
    cases els with
    | none => unfold Checker.checkS wantBool; repeat' total_step'
    | some b =>
      have := Total.checkB K b (by first | exact h | exact h.1 | exact h.2 | exact h.2.1 | exact h.2.2 | exact h.2.2.1 | exact h.2.2.2)
      unfold Checker.checkS wantBool; repeat' total_step'
  | .pass, h => by
    unfold plainS at h
    unfold Checker.checkS; repeat' total_step'
  | .exprS e, h => by
    unfold plainS at h
    have := Total.checkE K e (by first | exact h | exact h.1 | exact h.2 | exact h.2.1 | exact h.2.2 | exact h.2.2.1 | exact h.2.2.2)
    unfold Checker.checkS; repeat' total_step'
  | .ret e, h => by
    unfold plainS at h
    exact h.elim
  | .py _, h => by
    unfold plainS at h
    unfold Checker.checkS; repeat' total_step'
theorem Total.checkElifs (K : Cfg) : ∀ bs, plainL bs → Total (Checker.checkElifs K bs)
  | [], h => by
    unfold plainL at h
    unfold Checker.checkElifs; total
  | (c, b) :: bs, h => by
    unfold plainL at h
    have := Total.checkE K c (by first | exact h | exact h.1 | exact h.2 | exact h.2.1 | exact h.2.2 | exact h.2.2.1 | exact h.2.2.2)
    have := Total.checkB K b (by first | exact h | exact h.1 | exact h.2 | exact h.2.1 | exact h.2.2 | exact h.2.2.1 | exact h.2.2.2)
    have := Total.checkElifs K bs (by first | exact h | exact h.1 | exact h.2 | exact h.2.1 | exact h.2.2 | exact h.2.2.1 | exact h.2.2.2)
    unfold Checker.checkElifs wantBool; repeat' total_step'
theorem Total.checkB (K : Cfg) : ∀ b, plainB b → Total (Checker.checkB K b)
  | .mk ss final, h => by
    unfold plainB at h
    have := Total.checkSs K ss (by first | exact h | exact h.1 | exact h.2 | exact h.2.1 | exact h.2.2 | exact h.2.2.1 | exact h.2.2.2)
    cases final with
    | none => unfold Checker.checkB; repeat' total_step'
    | some e =>
      have := Total.checkE K e (by first | exact h | exact h.1 | exact h.2 | exact h.2.1 | exact h.2.2 | exact h.2.2.1 | exact h.2.2.2)
      unfold Checker.checkB; repeat' total_step'
theorem Total.checkSs (K : Cfg) : ∀ ss, plainSs ss → Total (Checker.checkSs K ss)
  | [], h => by
    unfold plainSs at h
    unfold Checker.checkSs; total
  | s :: ss, h => by
    unfold plainSs at h
    have := Total.checkS K s (by first | exact h | exact h.1 | exact h.2 | exact h.2.1 | exact h.2.2 | exact h.2.2.1 | exact h.2.2.2)
    have := Total.checkSs K ss (by first | exact h | exact h.1 | exact h.2 | exact h.2.1 | exact h.2.2 | exact h.2.2.1 | exact h.2.2.2)
    unfold Checker.checkSs; repeat' total_step'
end

theorem Total.resolveParams : ∀ ps, Total (Checker.resolveParams ps)
  | [] => Total.pure _
  | _ :: ps => Total.bind (Total.resolveOpt _) fun _ => Total.bind (Total.resolveParams ps) fun _ => Total.pure _

theorem Total.each {α : Type} {g : α → M Unit} (l : List α) (hg : ∀ a ∈ l, Total (g a)) :
    Total (Checker.each g l) := by
  induction l with
  | nil => exact Total.pure _
  | cons a l ih => exact Total.bind (hg a (.head _)) fun _ => ih fun b hb => hg b (.tail _ hb)

theorem Total.regDecl (d : NDecl) : Total (Checker.regDecl d) :=
  Total.bind (Total.resolve _) fun _ => Total.bind (Total.resolveParams _) fun _ => Total.defineOr _ _ _ _

theorem Total.regDecls : ∀ ds, Total (Checker.regDecls ds)
  | [] => Total.pure _
  | d :: ds => Total.bind (Total.regDecl d) fun _ => Total.regDecls ds

theorem Total.regBlock (b : NBlock) : Total (Checker.regBlock b) :=
  Total.bind Total.setPy fun _ => Total.bind (Total.regDecls _) fun _ => Total.warn _ _

theorem Total.regNative (f : NFn) : Total (Checker.regNative f) :=
  Total.bind Total.setPy fun _ => Total.bind (Total.resolve _) fun _ => Total.bind (Total.resolveParams _) fun _ =>
    Total.bind (Total.defineOr _ _ _ _) fun _ => Total.warn _ _

theorem Total.regCommand (c : Fn) : Total (Checker.regCommand c) :=
  Total.bind (Total.resolveOpt _) fun _ => Total.bind (Total.resolveParams _) fun _ => Total.defineOr _ _ _ _

theorem Total.checkParam (K : Cfg) (p : Param) (h : ∀ e, p.dflt = some e → plainE e) : Total (Checker.checkParam K p) := by
  unfold Checker.checkParam
  refine Total.bind (Total.resolveOpt _) fun _ => Total.bind (Total.defineOr _ _ _ _) fun _ => ?_
  split
  · rename_i e he
    exact Total.bind (Total.checkE _ _ (h e he)) fun _ => Total.errIf _ _ _
  · exact Total.pure _

theorem Total.checkMetaKey (k : List Name) : Total (Checker.checkMetaKey k) := by
  unfold Checker.checkMetaKey; total

theorem Total.checkCommand (max : Nat) (m : Mod) (c : Fn) (h : plainFn c) : Total (Checker.checkCommand max m c) :=
  Total.bind Total.push fun _ => Total.bind (Total.each _ fun p hp => Total.checkParam _ p (h.2 p hp)) fun _ =>
    Total.bind (Total.checkB _ _ h.1) fun _ => Total.bind (Total.each _ fun k _ => Total.checkMetaKey k) fun _ => Total.pop

theorem Total.cycleWarning (c : List Name) : Total (Checker.cycleWarning c) := by
  unfold Checker.cycleWarning; total

theorem Total.checkRecursion (o : SetOrder) (m : Mod) : Total (Checker.checkRecursion o m) :=
  fun s => Total.each _ (fun c _ => Total.cycleWarning c) s

theorem Total.checkModule (o : SetOrder) (max : Nat) (m : Mod) (h : plainMod m) : Total (Checker.checkModule o max m) :=
  Total.bind (Total.each _ fun b _ => Total.regBlock b) fun _ => Total.bind (Total.each _ fun f _ => Total.regNative f) fun _ =>
    Total.bind (Total.each _ fun c _ => Total.regCommand c) fun _ =>
      Total.bind (Total.each _ fun c hc => Total.checkCommand _ _ c (h c hc)) fun _ => Total.checkRecursion _ _

/-! ### C159 -/

/-- **C159** (partial): the checker gives a result for every module without `return` and without declarations that have
no value, for any limit on errors. Missing: those two statements, for which it raises (below). -/
theorem C159_total_partial (o : SetOrder) (max : Nat) (m : Mod) (h : plainMod m) : ∃ r, check o max m = .ok r := by
  obtain ⟨⟨u, s⟩, hs⟩ := Total.checkModule o max m h st0
  exact ⟨_, by unfold check; rw [hs]⟩

set_option maxRecDepth 100000 in
/-- **C159** as stated is violated: a `return` and a declaration without a value make the checker raise an
`AttributeError`, which `compile_and_run` does not catch -/
theorem C159_violated :
    crashes "module m\ncommand F(a: int) -> int:\n    return a\n" = true ∧
    crashes "module m\ncommand F(a: int) -> int:\n    return\n" = true ∧
    crashes "module m\ncommand F(a: int) -> int:\n    x: int\n    emit a\n" = true := by decide +kernel

set_option maxRecDepth 100000 in
/-- a plain module, with an error in it, and one without -/
example : crashes "module m\ncommand F(a: int) -> int:\n    x: int = nope\n    emit a\n" = false ∧
    crashes "module m\ncommand F(a: int) -> int:\n    x: int = 1\n    emit a\n" = false := by decide +kernel

end Verif.Checker
