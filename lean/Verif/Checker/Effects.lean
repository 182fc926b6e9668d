import Verif.Checker.ModSound

/-!
# What the checker records: calls between commands and embedded Python

`evM full m` lists, for every command of a module, the calls and Python blocks in its text. With `full` everything in the
text counts; without, only the places the checker looks at: it skips named arguments of calls of user-defined functions
and of methods, all arguments of calls whose callee is not a name, and the `elif` branches of if expressions.
-/

namespace Verif.Checker

open Verif.Types (Ty)
open Verif.Parser (Name Expr Clause Stmt Block Pat Mod Fn Param NBlock NFn NDecl)

/-- something in the text of a command -/
inductive Ev
  /-- a call of a user-defined function or command by name -/
  | call (n : Name)
  /-- a Python block -/
  | py
  deriving DecidableEq

/-- a list, or nothing -/
def onlyIf {α : Type} (b : Bool) (l : List α) : List α := if b then l else []

/-- does a name stand for a user-defined function when it is called -/
def userName (n : Name) : Bool := (lookupBuiltin n).isNone && (resolveName n).isNone

mutual
/-- the calls and Python blocks in an expression -/
def evE (full : Bool) : Expr → List Ev
  | .lit _ _ => []
  | .ident _ => []
  | .bin _ l r => evE full l ++ evE full r
  | .un _ e => evE full e
  | .call f args named => match f with
    | .ident n => if userName n then .call n :: (evEs full args ++ onlyIf full (evN full named))
      else evEs full args ++ evN full named
    | f => evE full f ++ onlyIf full (evEs full args ++ evN full named)
  | .method o _ args named => evE full o ++ (evEs full args ++ onlyIf full (evN full named))
  | .member o _ => evE full o
  | .index o i => evE full o ++ evE full i
  | .list es => evEs full es
  | .comp e cs => evC full cs ++ evE full e
  | .range a b => evE full a ++ evE full b
  | .dict es => evN full es
  | .lam _ b => evE full b
  | .cond c t e => evE full c ++ (evE full t ++ evE full e)
  | .ifE c t elifs els => evE full c ++ (evB full t ++ ((onlyIf full (evL full elifs)) ++
      match els with | some b => evB full b | none => []))
  | .matchE s arms => evE full s ++ evA full arms
/-- in a list of expressions -/
def evEs (full : Bool) : List Expr → List Ev
  | [] => []
  | e :: es => evE full e ++ evEs full es
/-- in named expressions -/
def evN (full : Bool) : List (Name × Expr) → List Ev
  | [] => []
  | (_, e) :: es => evE full e ++ evN full es
/-- in comprehension clauses -/
def evC (full : Bool) : List Clause → List Ev
  | [] => []
  | .mk _ it conds :: cs => evE full it ++ (evEs full conds ++ evC full cs)
/-- in match arms -/
def evA (full : Bool) : List (Pat × Expr) → List Ev
  | [] => []
  | (_, e) :: as => evE full e ++ evA full as
/-- in elif branches -/
def evL (full : Bool) : List (Expr × Block) → List Ev
  | [] => []
  | (c, b) :: bs => evE full c ++ (evB full b ++ evL full bs)
/-- in a block -/
def evB (full : Bool) : Block → List Ev
  | .mk ss final => evSs full ss ++ match final with | some e => evE full e | none => []
/-- in statements -/
def evSs (full : Bool) : List Stmt → List Ev
  | [] => []
  | s :: ss => evS full s ++ evSs full ss
/-- in a statement -/
def evS (full : Bool) : Stmt → List Ev
  | .letS _ _ e => evE full e
  | .varDecl _ _ e => match e with | some e => evE full e | none => []
  | .require c msg => evE full c ++ match msg with | some e => evE full e | none => []
  | .assertS c msg => evE full c ++ match msg with | some e => evE full e | none => []
  | .emit v md => evE full v ++ evN full md
  | .forS _ it body => evE full it ++ evB full body
  | .ifS c t elifs els => evE full c ++ (evB full t ++ (evL full elifs ++ match els with | some b => evB full b | none => []))
  | .pass => []
  | .ret e => match e with | some e => evE full e | none => []
  | .py _ => [.py]
  | .assign t v => evE full t ++ evE full v
  | .exprS e => evE full e
end

/-- in the defaults of parameters -/
def evPs (full : Bool) : List Param → List Ev
  | [] => []
  | p :: ps => (match p.dflt with | some e => evE full e | none => []) ++ evPs full ps

/-- in a command -/
def evFn (full : Bool) (c : Fn) : List Ev := evPs full c.params ++ evB full c.body

/-- the calls from one command to another in a module: caller and callee -/
def callEdges (full : Bool) (m : Mod) : List (Name × Name) :=
  m.functions.flatMap fun c => (evFn full c).filterMap fun
    | .call n => if n ∈ m.functions.map (·.name) then some (c.name, n) else none
    | .py => none

/-- is there Python code in a module: native blocks, native functions, Python blocks in commands -/
def hasPython (full : Bool) (m : Mod) : Bool :=
  !m.blocks.isEmpty || !m.natives.isEmpty || m.functions.any fun c => (evFn full c).contains .py

/-! ### the effect of a step -/

/-- the call edges among events -/
def edgesOf (K : Cfg) (c : List Ev) : List (Name × Name) := c.filterMap fun
  | .call n => if n ∈ K.cmds then some (K.cur, n) else none
  | .py => none

/-- is a diagnostic a recursion warning -/
def isRec (d : Diag) : Bool := !d.err && (d.code == "W301" || d.code == "W302")

/-- the recursion warnings so far -/
def recs (s : St) : List Diag := s.diags.filter isRec

/-- a step that, under the condition `p` and in proper scopes, if it ends without errors, records exactly these events,
gives no recursion warning and a value with the property `Q` -/
def Eff {α : Type} (K : Cfg) (p : Prop) (m : M α) (c : List Ev) (Q : α → Prop) : Prop := Mono m ∧ ∀ s a s',
  m s = .ok (a, s') → errCount s' = 0 → p → Good s.scopes →
    s'.calls = s.calls ++ edgesOf K c ∧ s'.py = (s.py || c.contains .py) ∧ Good s'.scopes ∧ Q a ∧ recs s' = recs s

/-- nothing is recorded -/
def Quiet {α : Type} (m : M α) : Prop := Mono m ∧ ∀ s a s', m s = .ok (a, s') → s'.calls = s.calls ∧ s'.py = s.py ∧
  recs s' = recs s

namespace Quiet

variable {α β : Type}

theorem pure (a : α) : Quiet (Pure.pure a : M α) := by
  refine ⟨Mono.pure _, fun s b s' h => ?_⟩
  simp only [Pure.pure, Except.ok.injEq, Prod.mk.injEq] at h
  obtain ⟨-, rfl⟩ := h
  exact ⟨rfl, rfl, rfl⟩

theorem bind {m : M α} {k : α → M β} (hm : Quiet m) (hk : ∀ a, Quiet (k a)) : Quiet (m >>= k) := by
  refine ⟨Mono.bind hm.1 fun a => (hk a).1, fun s b s' h => ?_⟩
  simp only [Bind.bind, Checker.bind] at h
  cases hh : m s with
  | error e => simp [hh] at h
  | ok x =>
    obtain ⟨a, s1⟩ := x
    simp only [hh] at h
    obtain ⟨h1, h2, h3⟩ := hm.2 _ _ _ hh
    obtain ⟨g1, g2, g3⟩ := (hk a).2 _ _ _ h
    exact ⟨g1.trans h1, g2.trans h2, g3.trans h3⟩

theorem err (c : String) (l : List Name) : Quiet (Checker.err c l) := by
  refine ⟨Mono.err _ _, fun s b s' h => ?_⟩
  simp only [Checker.err, Except.ok.injEq, Prod.mk.injEq] at h
  obtain ⟨-, rfl⟩ := h
  exact ⟨rfl, rfl, by simp [recs, isRec]⟩

theorem warn (c : String) (l : List Name) (hc : c ≠ "W301" ∧ c ≠ "W302") : Quiet (Checker.warn c l) := by
  refine ⟨Mono.warn _ _, fun s b s' h => ?_⟩
  simp only [Checker.warn, Except.ok.injEq, Prod.mk.injEq] at h
  obtain ⟨-, rfl⟩ := h
  exact ⟨rfl, rfl, by simp [recs, isRec, hc.1, hc.2]⟩

theorem ite {c : Prop} [Decidable c] {m k : M α} (hm : Quiet m) (hk : Quiet k) : Quiet (if c then m else k) := by
  split
  · exact hm
  · exact hk

theorem errIf (b : Bool) (c : String) (l : List Name) : Quiet (Checker.errIf b c l) := ite (err _ _) (pure _)

theorem define (n : Name) (k : Kind) (t : Ty) : Quiet (Checker.define n k t) := by
  refine ⟨Mono.define _ _ _, fun s b s' h => ?_⟩
  unfold Checker.define at h
  split at h
  · simp only [Except.ok.injEq, Prod.mk.injEq] at h
    obtain ⟨-, rfl⟩ := h
    exact ⟨rfl, rfl, rfl⟩
  · split at h
    · simp only [Except.ok.injEq, Prod.mk.injEq] at h
      obtain ⟨-, rfl⟩ := h
      exact ⟨rfl, rfl, rfl⟩
    · simp only [Except.ok.injEq, Prod.mk.injEq] at h
      obtain ⟨-, rfl⟩ := h
      exact ⟨rfl, rfl, rfl⟩

theorem defineOr (n : Name) (k : Kind) (t : Ty) (c : String) : Quiet (Checker.defineOr n k t c) :=
  bind (define _ _ _) fun _ => errIf _ _ _

theorem identTy (n : Name) : Quiet (Checker.identTy n) := by
  refine ⟨Mono.identTy n, fun s a s' h => ?_⟩
  unfold Checker.identTy at h
  split at h
  · simp only [Except.ok.injEq, Prod.mk.injEq] at h
    obtain ⟨-, rfl⟩ := h
    exact ⟨rfl, rfl, rfl⟩
  · split at h
    · simp only [Except.ok.injEq, Prod.mk.injEq] at h
      obtain ⟨-, rfl⟩ := h
      exact ⟨rfl, rfl, rfl⟩
    · exact (bind (err _ _) fun _ => pure _).2 s a s' h

end Quiet

/-- one step of a proof that nothing is recorded -/
macro "quiet_step" : tactic => `(tactic| first
  | with_reducible apply Quiet.pure | with_reducible apply Quiet.err
  | (with_reducible apply Quiet.warn; decide) | with_reducible apply Quiet.errIf
  | with_reducible apply Quiet.define | with_reducible apply Quiet.defineOr | with_reducible apply Quiet.identTy
  | assumption | (with_reducible refine Quiet.bind ?_ fun _ => ?_) | with_reducible apply Quiet.ite | split)

theorem Quiet.wantBool (t : Ty) (c : String) : Quiet (Checker.wantBool t c) := Quiet.errIf _ _ _
theorem Quiet.wantInt (t : Ty) (c : String) : Quiet (Checker.wantInt t c) := Quiet.errIf _ _ _
theorem Quiet.binTy (op : String) (a b : Ty) : Quiet (Checker.binTy op a b) := by
  unfold Checker.binTy Checker.wantBool; repeat' quiet_step
theorem Quiet.unTy (op : String) (a : Ty) : Quiet (Checker.unTy op a) := by
  unfold Checker.unTy Checker.wantBool; repeat' quiet_step
theorem Quiet.elemStep (a b : Ty) : Quiet (Checker.elemStep a b) := by
  unfold Checker.elemStep; repeat' quiet_step
theorem Quiet.condTy (a b : Ty) : Quiet (Checker.condTy a b) := by
  unfold Checker.condTy; repeat' quiet_step
theorem Quiet.ifTy (a b : Option Ty) : Quiet (Checker.ifTy a b) := by
  unfold Checker.ifTy; repeat' quiet_step
theorem Quiet.patTy (p : Pat) (b : Ty) : Quiet (Checker.patTy p b) := by
  unfold Checker.patTy; repeat' quiet_step
theorem Quiet.defineAll : ∀ ps, Quiet (Checker.defineAll ps)
  | [] => Quiet.pure _
  | _ :: ps => Quiet.bind (Quiet.define _ _ _) fun _ => Quiet.defineAll ps

mutual
theorem Quiet.resolve : ∀ t, Quiet (Checker.resolve t)
  | .simple n => by unfold Checker.resolve; repeat' quiet_step
  | .generic n args => by
    have := Quiet.resolveArg args
    unfold Checker.resolve; repeat' quiet_step
  | .opt t => by
    have := Quiet.resolve t
    unfold Checker.resolve; repeat' quiet_step
theorem Quiet.resolveArg : ∀ t, Quiet (Checker.resolveArg t)
  | [] => by unfold Checker.resolveArg; repeat' quiet_step
  | [t] => by
    have := Quiet.resolve t
    unfold Checker.resolveArg; repeat' quiet_step
  | _ :: _ :: _ => by unfold Checker.resolveArg; repeat' quiet_step
end

theorem Quiet.resolveOpt (t : Option Parser.Ty) : Quiet (Checker.resolveOpt t) := by
  cases t with
  | none => exact Quiet.pure _
  | some t => exact Quiet.resolve t

theorem Quiet.declare (n : Name) (ty : Option Parser.Ty) (t : Ty) : Quiet (Checker.declare n ty t) := by
  unfold Checker.declare
  cases ty with
  | none => exact Quiet.bind (Quiet.pure t) fun _ => Quiet.defineOr _ _ _ _
  | some a => exact Quiet.bind (Quiet.resolve a) fun d => Quiet.bind (Quiet.errIf _ _ _) fun _ =>
      Quiet.bind (Quiet.pure d) fun _ => Quiet.defineOr _ _ _ _

namespace Eff

variable {α β : Type} {K : Cfg} {p : Prop}

theorem eq {m : M α} {c c' : List Ev} {Q : α → Prop} (h : Eff K p m c Q) (e : c = c') : Eff K p m c' Q := e ▸ h

theorem pre {q : Prop} {m : M α} {c : List Ev} {Q : α → Prop} (h : Eff K q m c Q) (hq : p → q) : Eff K p m c Q :=
  ⟨h.1, fun s a s' hs h0 hp hg => h.2 s a s' hs h0 (hq hp) hg⟩

theorem imp {m : M α} {c : List Ev} {Q R : α → Prop} (h : Eff K p m c Q) (hq : ∀ a, Q a → R a) : Eff K p m c R :=
  ⟨h.1, fun s a s' hs h0 hp hg => by
    obtain ⟨h1, h2, h3, h4, h5⟩ := h.2 s a s' hs h0 hp hg
    exact ⟨h1, h2, h3, hq a h4, h5⟩⟩

theorem any {m : M α} {c : List Ev} {Q : α → Prop} (h : Eff K True m c Q) : Eff K p m c Q := h.pre fun _ => trivial

theorem bind {m : M α} {k : α → M β} {c d : List Ev} {Q : α → Prop} {R : β → Prop} (hm : Eff K p m c Q)
    (hk : ∀ a, Eff K (p ∧ Q a) (k a) d R) : Eff K p (m >>= k) (c ++ d) R := by
  refine ⟨Mono.bind hm.1 fun a => (hk a).1, ?_⟩
  intro s b s' h h0 hp hf
  simp only [Bind.bind, Checker.bind] at h
  cases hh : m s with
  | error e => simp [hh] at h
  | ok x =>
    obtain ⟨a, s1⟩ := x
    simp only [hh] at h
    have h1 : errCount s1 = 0 := by
      have := (hk a).1.errCount h
      omega
    obtain ⟨g1, g2, g3, g4, g5⟩ := hm.2 _ _ _ hh h1 hp hf
    obtain ⟨k1, k2, k3, k4, k5⟩ := (hk a).2 _ _ _ h h0 ⟨hp, g4⟩ g3
    refine ⟨?_, ?_, k3, k4, k5.trans g5⟩
    · rw [k1, g1, List.append_assoc]; simp [edgesOf]
    · rw [k2, g2, Bool.or_assoc]; simp [List.contains_eq_mem, List.mem_append]

theorem bind0 {m : M α} {k : α → M β} {d : List Ev} {Q : α → Prop} {R : β → Prop} (hm : Eff K p m [] Q)
    (hk : ∀ a, Eff K (p ∧ Q a) (k a) d R) : Eff K p (m >>= k) d R := bind hm hk

theorem bindR {m : M α} {k : α → M β} {c : List Ev} {Q : α → Prop} {R : β → Prop} (hm : Eff K p m c Q)
    (hk : ∀ a, Eff K (p ∧ Q a) (k a) [] R) : Eff K p (m >>= k) c R :=
  (bind hm hk).eq (List.append_nil c)

/-- a quiet step whose value is known -/
theorem ofTr {m : M α} {Q : α → Prop} (hq : Quiet m) {P : List Frame → α → List Frame → Prop}
    (ht : p → ∀ Γ, Good Γ → Tr Γ m (P Γ)) (h : p → ∀ Γ a Γ', Good Γ → P Γ a Γ' → Q a ∧ Good Γ') : Eff K p m [] Q := by
  refine ⟨hq.1, fun s a s' hs h0 hp hg => ?_⟩
  obtain ⟨h1, h2, h3⟩ := hq.2 s a s' hs
  have hs0 : errCount s = 0 := by have := hq.1.errCount hs; omega
  have := (ht hp s.scopes hg s hs0 rfl a s'.scopes).1 ⟨s', hs, h0, rfl⟩
  obtain ⟨g1, g2⟩ := h hp _ _ _ hg this
  exact ⟨by simp [h1, edgesOf], by simp [h2], g2, g1, h3⟩

/-- a quiet step that leaves the scopes alone -/
theorem leaf {m : M α} {Q P : α → Prop} (hq : Quiet m) (ht : p → ∀ Γ, Tr Γ m (fun a Γ' => P a ∧ Γ' = Γ))
    (h : p → ∀ a, P a → Q a) : Eff K p m [] Q :=
  ofTr hq (fun hp Γ _ => ht hp Γ) fun hp Γ a Γ' hg ⟨h1, h2⟩ => ⟨h hp a h1, h2 ▸ hg⟩

theorem pure {Q : α → Prop} (a : α) (h : p → Q a) : Eff K p (Pure.pure a : M α) [] Q :=
  leaf (Quiet.pure _) (fun _ _ => Tr.pure a) fun hp _ hb => hb ▸ h hp

theorem crash (c : List Ev) (Q : α → Prop) : Eff K p (Checker.crash : M α) c Q :=
  ⟨Mono.crash, fun s a s' h => by simp [Checker.crash] at h⟩

theorem warn (c : String) (l : List Name) (hc : c ≠ "W301" ∧ c ≠ "W302") : Eff K p (Checker.warn c l) [] fun _ => True :=
  ofTr (Quiet.warn _ _ hc) (fun _ _ _ => Tr.warn c l) fun _ _ _ _ hg h => ⟨trivial, h ▸ hg⟩

/-- after an error -/
theorem err_then {c : String} {l : List Name} {k : Unit → M β} (hk : ∀ a, Mono (k a)) (d : List Ev) (Q : β → Prop) :
    Eff K p (Checker.err c l >>= k) d Q := by
  refine ⟨Mono.bind (Mono.err _ _) hk, fun s a s' h h0 => ?_⟩
  simp only [Bind.bind, Checker.bind, Checker.err] at h
  have h1 := (hk ()).errCount h
  have h2 : 1 ≤ errCount { s with diags := s.diags ++ [⟨true, c, l⟩] } := by simp [errCount]
  omega

theorem contra {m : M α} {c : List Ev} {Q : α → Prop} (hm : Mono m) (h : p → Eff K True m c Q) : Eff K p m c Q :=
  ⟨hm, fun s a s' hs h0 hp hg => (h hp).2 s a s' hs h0 trivial hg⟩

theorem errIf (b : Bool) (c : String) (l : List Name) : Eff K p (Checker.errIf b c l) [] fun _ => b = false :=
  ofTr (Quiet.errIf _ _ _) (fun _ _ _ => Tr.errIf b c l) fun _ _ _ _ hg h => ⟨h.1, h.2 ▸ hg⟩

theorem setPy : Eff K p Checker.setPy [.py] fun _ => True := by
  refine ⟨Mono.setPy, fun s a s' h _ _ hf => ?_⟩
  simp only [Checker.setPy, Except.ok.injEq, Prod.mk.injEq] at h
  obtain ⟨-, rfl⟩ := h
  exact ⟨by simp [edgesOf], by simp, hf, trivial, rfl⟩

theorem push : Eff K p Checker.push [] fun _ => True := by
  refine ⟨Mono.push, fun s b s' h _ _ hf => ?_⟩
  simp only [Checker.push, Except.ok.injEq, Prod.mk.injEq] at h
  obtain ⟨-, rfl⟩ := h
  exact ⟨by simp [edgesOf], by simp, hf.push, trivial, rfl⟩

theorem pop : Eff K p Checker.pop [] fun _ => True := by
  refine ⟨Mono.pop, fun s b s' h _ _ hf => ?_⟩
  simp only [Checker.pop, Except.ok.injEq, Prod.mk.injEq] at h
  obtain ⟨-, rfl⟩ := h
  refine ⟨by simp [edgesOf], by simp, ?_, trivial, rfl⟩
  dsimp
  split
  · rename_i heq
    rw [heq] at hf
    exact ⟨by simp, fun f hm => hf.2 f (List.mem_cons_of_mem _ hm)⟩
  · exact hf

theorem define (n : Name) {k : Kind} (hk : k = .var ∨ k = .param) (t : Ty) (ht : p → clean t = true) :
    Eff K p (Checker.define n k t) [] fun _ => True :=
  ofTr (Quiet.define _ _ _) (fun _ _ hg => Tr.define hg.1 n k t) fun hp Γ a Γ' hg h => by
    refine ⟨trivial, ?_⟩
    have hs : SymOk ⟨k, t⟩ := by rcases hk with rfl | rfl
                                 · exact symOk_var (ht hp)
                                 · exact symOk_param (ht hp)
    have := hg.bindFree n hs
    simp_all

theorem guardE (hK : 1 ≤ K.max) {m : M Ty} {c : List Ev} {Q : Ty → Prop} (h : Eff K p m c Q) :
    Eff K p (Checker.guardE K m) c Q := by
  refine ⟨Mono.guardE h.1, fun s a s' hs h0 => ?_⟩
  unfold Checker.guardE at hs
  split at hs
  · simp only [Except.ok.injEq, Prod.mk.injEq] at hs
    obtain ⟨-, rfl⟩ := hs
    omega
  · exact h.2 s a s' hs h0

theorem guardS (hK : 1 ≤ K.max) {m : M Unit} {c : List Ev} {Q : Unit → Prop} (h : Eff K p m c Q) :
    Eff K p (Checker.guardS K m) c Q := by
  refine ⟨Mono.guardS h.1, fun s a s' hs h0 => ?_⟩
  unfold Checker.guardS at hs
  split at hs
  · simp only [Except.ok.injEq, Prod.mk.injEq] at hs
    obtain ⟨-, rfl⟩ := hs
    omega
  · exact h.2 s a s' hs h0

theorem noteCall (n : Name) : Eff K p (Checker.noteCall K n) [.call n] fun _ => True := by
  refine ⟨Mono.noteCall _ _, fun s a s' h _ _ hf => ?_⟩
  simp only [Checker.noteCall, Except.ok.injEq, Prod.mk.injEq] at h
  obtain ⟨-, rfl⟩ := h
  by_cases hn : n ∈ K.cmds
  · simp only [hn, if_true, edgesOf, List.filterMap_cons, List.filterMap_nil]
    exact ⟨trivial, by simp, hf, trivial, rfl⟩
  · simp only [hn, if_false, edgesOf, List.filterMap_cons, List.filterMap_nil]
    exact ⟨by simp, by simp, hf, trivial, by trivial⟩

/-- the callee's symbol has a function type -/
theorem callee {n : Name} {k : Option Symb → M β} {c : List Ev} {Q : β → Prop} (hm : ∀ y, Mono (k y))
    (hn : Eff K p (k none) c Q)
    (hs : ∀ y ps r, y.ty = fnTy ps r → clean r = true → Eff K p (k (some y)) c Q) :
    Eff K p (Checker.calleeSym n >>= k) c Q := by
  refine ⟨Mono.bind (Mono.calleeSym n) hm, fun s a s' h h0 hp hf => ?_⟩
  simp only [Bind.bind, Checker.bind, Checker.calleeSym] at h
  cases hl : lookup s.scopes n with
  | none =>
    rw [hl] at h
    exact hn.2 s a s' h h0 hp hf
  | some y =>
    rw [hl] at h
    by_cases hk : y.kind = .cmd ∨ y.kind = .func
    · rw [show Option.filter (fun y => decide (y.kind = .cmd ∨ y.kind = .func)) (some y) = some y by simp [hk]] at h
      have hy := lookup_ok hf.2 hl
      obtain ⟨ps, r, hpr⟩ := hy.2 hk
      have hc := hy.1
      rw [hpr, clean_fnTy] at hc
      exact (hs y ps r hpr hc.2).2 s a s' h h0 hp hf
    · rw [show Option.filter (fun y => decide (y.kind = .cmd ∨ y.kind = .func)) (some y) = none by
        simp only [Option.filter, hk, decide_false]; rfl] at h
      exact hn.2 s a s' h h0 hp hf

theorem wantBool (t : Ty) (c : String) : Eff K p (Checker.wantBool t c) [] fun _ => True :=
  (errIf _ _ _).imp fun _ _ => trivial

theorem wantInt (t : Ty) (c : String) : Eff K p (Checker.wantInt t c) [] fun _ => True :=
  (errIf _ _ _).imp fun _ _ => trivial

theorem binTy {op : String} {a b : Ty} (ho : op ∈ binOps) (ha : p → clean a = true) (hb : p → clean b = true) :
    Eff K p (Checker.binTy op a b) [] fun t => clean t = true :=
  leaf (Quiet.binTy _ _ _) (fun hp _ => tr_binTy ho (ha hp) (hb hp)) fun hp _ h => clean_bin h (ha hp) (hb hp)

theorem unTy {op : String} {a : Ty} (ho : op = "NOT" ∨ op = "MINUS") (ha : p → clean a = true) :
    Eff K p (Checker.unTy op a) [] fun t => clean t = true :=
  leaf (Quiet.unTy _ _) (fun hp _ => tr_unTy ho (ha hp)) fun _ _ h => clean_un h

theorem elemStep {a b : Ty} (ha : p → clean a = true) (hb : p → clean b = true) :
    Eff K p (Checker.elemStep a b) [] fun t => clean t = true :=
  leaf (Quiet.elemStep _ _) (fun _ _ => tr_elemStep a b) fun hp _ h => clean_elem h (ha hp) (hb hp)

theorem condTy {a b : Ty} (ha : p → clean a = true) (hb : p → clean b = true) :
    Eff K p (Checker.condTy a b) [] fun t => clean t = true :=
  leaf (Quiet.condTy _ _) (fun hp _ => tr_condTy (ha hp) (hb hp)) fun hp _ h => clean_cond h (ha hp) (hb hp)

theorem ifTy {a b : Option Ty} (ha : p → ∀ x, a = some x → clean x = true) (hb : p → ∀ x, b = some x → clean x = true) :
    Eff K p (Checker.ifTy a b) [] fun t => clean t = true :=
  leaf (Quiet.ifTy _ _) (fun _ _ => tr_ifTy a b) fun hp _ h => clean_if h (ha hp) (hb hp)

theorem patTy (q : Pat) (t : Ty) : Eff K p (Checker.patTy q t) [] fun _ => True :=
  ofTr (Quiet.patTy _ _) (fun _ _ _ => tr_patTy q t) fun _ _ _ _ hg h => ⟨trivial, h ▸ hg⟩

theorem resolve (t : Parser.Ty) : Eff K p (Checker.resolve t) [] fun u => clean u = true :=
  leaf (Quiet.resolve _) (fun _ Γ => tr_resolve Γ t) fun _ _ h => clean_denotes h

theorem resolveOpt (t : Option Parser.Ty) : Eff K p (Checker.resolveOpt t) [] fun u => clean u = true :=
  leaf (Quiet.resolveOpt _) (fun _ Γ => tr_resolveOpt Γ t) fun _ _ h => clean_denotesOpt h

theorem declare (n : Name) (ty : Option Parser.Ty) {t : Ty} (ht : p → clean t = true) :
    Eff K p (Checker.declare n ty t) [] fun _ => True :=
  ofTr (Quiet.declare _ _ _) (fun _ _ hg => tr_declare hg.1 n ty t) fun hp Γ a Γ' hg h => by
    obtain ⟨u, h1, h2, rfl⟩ := h
    exact ⟨trivial, hg.setTop n (symOk_var (clean_decl h1 (ht hp)))⟩

theorem defineAll (ps : List Name) : Eff K p (Checker.defineAll ps) [] fun _ => True :=
  ofTr (Quiet.defineAll _) (fun _ _ hg => tr_defineAll ps hg) fun _ _ _ _ hg h => ⟨trivial, h ▸ hg.params ps⟩

theorem identTy (n : Name) : Eff K p (Checker.identTy n) [] fun t => clean t = true :=
  ofTr (Quiet.identTy _) (fun _ _ _ => tr_identTy none n) fun _ _ _ _ hg h => by
    have := pres _ h hg
    exact ⟨this.1, this.2.1⟩

end Eff

/-- the values of arguments -/
def allClean (ts : List Ty) : Prop := ∀ t ∈ ts, clean t = true
/-- an optional value -/
def optClean (o : Option Ty) : Prop := ∀ t, o = some t → clean t = true

theorem optClean_getD {o : Option Ty} (h : optClean o) : clean (o.getD .unknown) = true := by
  cases o with
  | none => rfl
  | some t => exact h t rfl

mutual
theorem effE {K : Cfg} (hK : 1 ≤ K.max) : ∀ e, wfE e → ∀ {p : Prop}, Eff K p (checkE K e) (evE false e) (clean · = true)
  | .lit k _, w, p => by
    unfold checkE evE
    refine Eff.guardE hK (Eff.pure _ fun _ => ?_)
    unfold wfE litTy at *
    split_ifs at w ⊢ <;> first | rfl | exact absurd rfl w
  | .ident n, w, p => by unfold checkE evE; exact Eff.guardE hK (Eff.identTy _)
  | .bin op l r, w, p => by
    unfold wfE at w
    unfold checkE evE
    exact Eff.guardE hK (Eff.bind (effE hK l w.2.1) fun _ => Eff.bindR (effE hK r w.2.2) fun _ =>
      Eff.binTy w.1 (fun h => h.1.2) fun h => h.2)
  | .un op e, w, p => by
    unfold wfE at w
    unfold checkE evE
    exact Eff.guardE hK (Eff.bindR (effE hK e w.2) fun _ => Eff.unTy w.1 fun h => h.2)
  | .call f args named, w, p => by
    unfold wfE at w
    have h2 := fun {p : Prop} c ps => effArgs hK c ps args w.2.1 (p := p)
    have h3 := fun {p : Prop} al => effNamed hK al named w.2.2 (p := p)
    unfold checkE evE
    refine Eff.guardE hK ?_
    split
    · rename_i n
      cases hb : lookupBuiltin n with
      | some sig =>
        simp only [userName, hb]
        exact Eff.bind0 (Eff.errIf _ _ _) fun _ => Eff.bind (h2 _ _) fun _ => Eff.bindR (h3 _) fun _ => Eff.pure _ fun h =>
          clean_builtinRet (clean_builtin hb) h.1.2
      | none =>
        cases hr : resolveName n with
        | some t =>
          simp only [userName, hb, hr]
          exact Eff.bind (h2 _ _) fun _ => Eff.bindR (h3 _) fun _ => Eff.pure _ fun _ => clean_name hr
        | none =>
          simp only [userName, hb, hr, Option.isNone_none, Bool.and_self, if_true, onlyIf, Bool.false_eq_true, if_false,
            List.append_nil]
          refine Eff.callee ?_ ?_ ?_
          · intro y
            cases y with
            | none => exact Mono.bind (Mono.err _ _) fun _ => Mono.pure _
            | some y =>
              refine Mono.bind (Mono.noteCall _ _) fun _ => ?_
              split
              · exact Mono.bind (Mono.checkArgs _ _ _ _) fun _ => Mono.pure _
              · exact Mono.pure _
          · exact Eff.err_then (fun _ => Mono.pure _) _ _
          · intro y ps r hpr hc
            simp only [hpr, fnParts_fnTy]
            exact Eff.bind (Eff.noteCall n) fun _ => Eff.bindR (h2 _ _) fun _ => Eff.pure _ fun _ => hc
    · rename_i f' hf
      have h1 := fun {p : Prop} => effE hK f w.1 (p := p)
      simp only [onlyIf, Bool.false_eq_true, if_false, List.append_nil]
      exact Eff.bindR h1 fun _ => Eff.pure _ fun _ => rfl
  | .method o m args named, w, p => by
    unfold wfE at w
    have h1 := fun {p : Prop} => effE hK o w.1 (p := p)
    have h2 := fun {p : Prop} c ps => effArgs hK c ps args w.2.1 (p := p)
    unfold checkE evE
    simp only [onlyIf, Bool.false_eq_true, if_false, List.append_nil]
    refine Eff.guardE hK (Eff.bind h1 fun t => ?_)
    split
    · refine Eff.contra ?_ fun h => ?_
      · exact Mono.bind (Mono.errIf _ _ _) fun _ => Mono.pure _
      · rw [show (decide (t ≠ .error)) = true by simp [clean_ne h.2]]
        exact Eff.err_then (p := True) (fun _ => Mono.pure _) _ _
    · rename_i sig hsig
      exact Eff.bindR (h2 _ _) fun _ => Eff.pure _ fun _ => cleanSig_ret (clean_method hsig)
  | .member o m, w, p => by
    unfold wfE at w
    unfold checkE evE
    refine Eff.guardE hK (Eff.bindR (effE hK o w) fun t => ?_)
    split
    · rename_i u hu
      exact Eff.pure _ fun _ => clean_member hu
    · exact Eff.bind0 (Eff.errIf _ _ _) fun _ => Eff.pure _ fun h => by
        have := clean_ne h.1.2
        simp [this] at h
  | .index o i, w, p => by
    unfold wfE at w
    unfold checkE evE
    refine Eff.guardE hK (Eff.bind (effE hK o w.1) fun t => Eff.bindR (effE hK i w.2) fun _ => Eff.bind0 (Eff.wantInt _ _) fun _ => ?_)
    split
    · rename_i u hu
      refine Eff.pure _ fun h => ?_
      cases t <;> simp [listElem] at hu
      subst hu
      simpa [clean] using h.1.1.2
    · exact Eff.bind0 (Eff.errIf _ _ _) fun _ => Eff.pure _ fun h => by
        have := clean_ne h.1.1.1.2
        simp [this] at h
  | .list es, w, p => by
    unfold wfE at w
    cases es with
    | nil => unfold checkE evE evEs; exact Eff.guardE hK (Eff.pure _ fun _ => rfl)
    | cons e es =>
      unfold wfEs at w
      unfold checkE evE evEs
      exact Eff.guardE hK (Eff.bind (effE hK e w.1) fun t => Eff.bindR (effElems hK es w.2 fun h => h.2) fun _ =>
        Eff.pure _ fun h => by simpa [clean] using h.2)
  | .comp e cs, w, p => by
    unfold wfE at w
    unfold checkE evE
    exact Eff.guardE hK (Eff.bind0 Eff.push fun _ => Eff.bind (effClauses hK cs w.2) fun _ => Eff.bindR (effE hK e w.1) fun _ =>
      Eff.bind0 Eff.pop fun _ => Eff.pure _ fun h => by simpa [clean] using h.1.2)
  | .range a b, w, p => by
    unfold wfE at w
    unfold checkE evE
    exact Eff.guardE hK (Eff.bind (effE hK a w.1) fun _ => Eff.bindR (effE hK b w.2) fun _ => Eff.bind0 (Eff.wantInt _ _) fun _ =>
      Eff.bind0 (Eff.wantInt _ _) fun _ => Eff.pure _ fun _ => rfl)
  | .dict es, w, p => by
    unfold wfE at w
    unfold checkE evE
    exact Eff.guardE hK (Eff.bindR (effNamed hK _ es w) fun _ => Eff.pure _ fun _ => rfl)
  | .lam ps b, w, p => by
    unfold wfE at w
    unfold checkE evE
    exact Eff.guardE hK (Eff.bind0 Eff.push fun _ => Eff.bind0 (Eff.defineAll _) fun _ => Eff.bindR (effE hK b w) fun _ =>
      Eff.bind0 Eff.pop fun _ => Eff.pure _ fun h => by
        rw [clean_fnTy]
        exact ⟨fun q hq => by obtain ⟨_, -, rfl⟩ := List.mem_map.1 hq; rfl, h.1.2⟩)
  | .cond c t e, w, p => by
    unfold wfE at w
    unfold checkE evE
    exact Eff.guardE hK (Eff.bind (effE hK c w.1) fun _ => Eff.bind0 (Eff.wantBool _ _) fun _ => Eff.bind (effE hK t w.2.1) fun _ =>
      Eff.bindR (effE hK e w.2.2) fun _ => Eff.condTy (fun h => h.1.2) fun h => h.2)
  | .ifE c t elifs els, w, p => by
    cases els with
    | none =>
      unfold wfE at w
      unfold checkE evE
      simp only [onlyIf, Bool.false_eq_true, if_false, List.append_nil]
      exact Eff.guardE hK (Eff.bind (effE hK c w.1) fun _ => Eff.bind0 (Eff.wantBool _ _) fun _ => Eff.bindR (effB hK t w.2.1) fun _ =>
        Eff.pure _ fun h => optClean_getD h.2)
    | some b =>
      unfold wfE at w
      unfold checkE evE
      simp only [onlyIf, Bool.false_eq_true, if_false, List.nil_append]
      exact Eff.guardE hK (Eff.bind (effE hK c w.1) fun _ => Eff.bind0 (Eff.wantBool _ _) fun _ => Eff.bind (effB hK t w.2.1) fun _ =>
        Eff.bindR (effB hK b w.2.2.2) fun _ => Eff.ifTy (fun h => h.1.2) fun h => h.2)
  | .matchE s arms, w, p => by
    unfold wfE at w
    unfold checkE evE
    exact Eff.guardE hK (Eff.bind (effE hK s w.1) fun _ => Eff.bindR (effArms hK _ arms w.2 fun _ _ h => by simp at h) fun _ =>
      Eff.pure _ fun h => optClean_getD h.2)
theorem effArgs {K : Cfg} (hK : 1 ≤ K.max) (c : String) : ∀ ps es, wfEs es → ∀ {p : Prop},
    Eff K p (checkArgs K c ps es) (evEs false es) allClean
  | ps, [], w, p => by unfold checkArgs evEs; exact Eff.pure _ fun _ t ht => by simp at ht
  | [], e :: es, w, p => by
    unfold wfEs at w
    unfold checkArgs evEs
    exact Eff.bind (effE hK e w.1) fun _ => Eff.bindR (effArgs hK c [] es w.2) fun _ => Eff.pure _ fun h t ht => by
      rcases List.mem_cons.1 ht with rfl | ht
      · exact h.1.2
      · exact h.2 t ht
  | q :: ps, e :: es, w, p => by
    unfold wfEs at w
    unfold checkArgs evEs
    exact Eff.bind (effE hK e w.1) fun _ => Eff.bind0 (Eff.errIf _ _ _) fun _ => Eff.bindR (effArgs hK c ps es w.2) fun _ =>
      Eff.pure _ fun h t ht => by
        rcases List.mem_cons.1 ht with rfl | ht
        · exact h.1.1.2
        · exact h.2 t ht
theorem effNamed {K : Cfg} (hK : 1 ≤ K.max) (al : Option (List Name)) : ∀ es, wfN es → ∀ {p : Prop},
    Eff K p (checkNamed K al es) (evN false es) fun _ => True
  | [], w, p => by unfold checkNamed evN; exact Eff.pure _ fun _ => trivial
  | (k, e) :: es, w, p => by
    unfold wfN at w
    unfold checkNamed evN
    exact Eff.bind (effE hK e w.1) fun _ => Eff.bind0 (Eff.errIf _ _ _) fun _ => effNamed hK al es w.2
theorem effElems {K : Cfg} (hK : 1 ≤ K.max) : ∀ {t} es, wfEs es → ∀ {p : Prop}, (p → clean t = true) →
    Eff K p (checkElems K t es) (evEs false es) (clean · = true)
  | t, [], w, p, h => by unfold checkElems evEs; exact Eff.pure _ h
  | t, e :: es, w, p, h => by
    unfold wfEs at w
    unfold checkElems evEs
    exact Eff.bind (effE hK e w.1) fun _ => Eff.bind0 (Eff.elemStep (fun q => h q.1) fun q => q.2) fun _ =>
      effElems hK es w.2 fun q => q.2
theorem effClauses {K : Cfg} (hK : 1 ≤ K.max) : ∀ cs, wfC cs → ∀ {p : Prop},
    Eff K p (checkClauses K cs) (evC false cs) fun _ => True
  | [], w, p => by unfold checkClauses evC; exact Eff.pure _ fun _ => trivial
  | .mk v it conds :: cs, w, p => by
    unfold wfC at w
    unfold checkClauses evC
    exact Eff.bind (effE hK it w.1) fun _ => Eff.bind0 (Eff.define _ (.inl rfl) _ fun h => clean_elemTy h.2) fun _ =>
      Eff.bind (effConds hK conds w.2.1) fun _ => effClauses hK cs w.2.2
theorem effConds {K : Cfg} (hK : 1 ≤ K.max) : ∀ es, wfEs es → ∀ {p : Prop},
    Eff K p (checkConds K es) (evEs false es) fun _ => True
  | [], w, p => by unfold checkConds evEs; exact Eff.pure _ fun _ => trivial
  | e :: es, w, p => by
    unfold wfEs at w
    unfold checkConds evEs
    exact Eff.bind (effE hK e w.1) fun _ => Eff.bind0 (Eff.wantBool _ _) fun _ => effConds hK es w.2
theorem effArms {K : Cfg} (hK : 1 ≤ K.max) (t : Ty) : ∀ {r} as, wfA as → ∀ {p : Prop}, (p → optClean r) →
    Eff K p (checkArms K t r as) (evA false as) optClean
  | r, [], w, p, h => by unfold checkArms evA; exact Eff.pure _ h
  | r, (q, e) :: as, w, p, h => by
    unfold wfA at w
    unfold checkArms evA
    exact Eff.bind0 (Eff.patTy _ _) fun _ => Eff.bind (effE hK e w.1) fun a => effArms hK t as w.2 fun g u hu => by
      injection hu with hu
      subst hu
      exact clean_arm (h g.1.1) g.2
theorem effS {K : Cfg} (hK : 1 ≤ K.max) : ∀ s, wfS s → ∀ {p : Prop}, Eff K p (checkS K s) (evS false s) fun _ => True
  | .letS n ty e, w, p => by
    unfold wfS at w
    unfold checkS evS
    exact Eff.guardS hK (Eff.bindR (effE hK e w) fun _ => Eff.declare _ _ fun h => h.2)
  | .varDecl n ty e, w, p => by
    cases e with
    | none => unfold checkS evS; exact Eff.guardS hK (Eff.crash _ _)
    | some e =>
      unfold wfS at w
      unfold checkS evS
      exact Eff.guardS hK (Eff.bindR (effE hK e w) fun _ => Eff.declare _ _ fun h => h.2)
  | .assign t v, w, p => by
    unfold wfS at w
    unfold checkS evS
    exact Eff.guardS hK (Eff.bind (effE hK t w.1) fun _ => Eff.bindR (effE hK v w.2) fun _ => (Eff.errIf _ _ _).imp fun _ _ => trivial)
  | .require c msg, w, p => by
    cases msg with
    | none =>
      unfold wfS at w
      unfold checkS evS
      exact Eff.guardS hK (Eff.bind (effE hK c w.1) fun _ => Eff.bind0 (Eff.wantBool _ _) fun _ => Eff.pure _ fun _ => trivial)
    | some e =>
      unfold wfS at w
      unfold checkS evS
      exact Eff.guardS hK (Eff.bind (effE hK c w.1) fun _ => Eff.bind0 (Eff.wantBool _ _) fun _ => Eff.bindR (effE hK e w.2) fun _ =>
        (Eff.errIf _ _ _).imp fun _ _ => trivial)
  | .assertS c msg, w, p => by
    cases msg with
    | none =>
      unfold wfS at w
      unfold checkS evS
      exact Eff.guardS hK (Eff.bind (effE hK c w.1) fun _ => Eff.bind0 (Eff.wantBool _ _) fun _ => Eff.pure _ fun _ => trivial)
    | some e =>
      unfold wfS at w
      unfold checkS evS
      exact Eff.guardS hK (Eff.bind (effE hK c w.1) fun _ => Eff.bind0 (Eff.wantBool _ _) fun _ => Eff.bindR (effE hK e w.2) fun _ =>
        (Eff.errIf _ _ _).imp fun _ _ => trivial)
  | .emit v md, w, p => by
    unfold wfS at w
    unfold checkS evS
    refine Eff.guardS hK (Eff.bind (effE hK v w.1) fun _ => ?_)
    split
    · exact Eff.bind0 (Eff.resolve _) fun _ => Eff.bind0 (Eff.errIf _ _ _) fun _ => effNamed hK _ md w.2
    · exact effNamed hK _ md w.2
  | .forS v it body, w, p => by
    unfold wfS at w
    unfold checkS evS
    exact Eff.guardS hK (Eff.bind (effE hK it w.1) fun _ => Eff.bind0 Eff.push fun _ =>
      Eff.bind0 (Eff.define _ (.inl rfl) _ fun h => clean_elemTy h.1.2) fun _ => Eff.bindR (effB hK body w.2) fun _ => Eff.pop)
  | .ifS c t elifs els, w, p => by
    unfold wfS at w
    unfold checkS evS
    refine Eff.guardS hK (Eff.bind (effE hK c w.1) fun _ => Eff.bind0 (Eff.wantBool _ _) fun _ => Eff.bind0 Eff.push fun _ =>
      Eff.bind (effB hK t w.2.1) fun _ => Eff.bind0 Eff.pop fun _ => Eff.bind (effElifs hK elifs w.2.2.1) fun _ => ?_)
    cases els with
    | none => exact Eff.pure _ fun _ => trivial
    | some b => exact Eff.bind0 Eff.push fun _ => Eff.bindR (effB hK b w.2.2.2) fun _ => Eff.pop
  | .pass, w, p => by unfold checkS evS; exact Eff.guardS hK (Eff.pure _ fun _ => trivial)
  | .exprS e, w, p => by
    unfold wfS at w
    unfold checkS evS
    exact Eff.guardS hK (Eff.bindR (effE hK e w) fun _ => Eff.pure _ fun _ => trivial)
  | .ret e, w, p => by
    cases e with
    | none => unfold checkS evS; exact Eff.guardS hK (Eff.crash _ _)
    | some e =>
      unfold wfS at w
      unfold checkS evS
      exact Eff.guardS hK (Eff.bindR (effE hK e w) fun _ => Eff.crash _ _)
  | .py _, w, p => by
    unfold checkS evS
    exact Eff.guardS hK (Eff.bindR Eff.setPy fun _ => Eff.warn _ _ (by decide))
theorem effElifs {K : Cfg} (hK : 1 ≤ K.max) : ∀ bs, wfL bs → ∀ {p : Prop},
    Eff K p (checkElifs K bs) (evL false bs) fun _ => True
  | [], w, p => by unfold checkElifs evL; exact Eff.pure _ fun _ => trivial
  | (c, b) :: bs, w, p => by
    unfold wfL at w
    unfold checkElifs evL
    exact Eff.bind (effE hK c w.1) fun _ => Eff.bind0 (Eff.wantBool _ _) fun _ => Eff.bind0 Eff.push fun _ =>
      Eff.bind (effB hK b w.2.1) fun _ => Eff.bind0 Eff.pop fun _ => effElifs hK bs w.2.2
theorem effB {K : Cfg} (hK : 1 ≤ K.max) : ∀ b, wfB b → ∀ {p : Prop}, Eff K p (checkB K b) (evB false b) optClean
  | .mk ss final, w, p => by
    unfold wfB at w
    unfold checkB evB
    refine Eff.bind (effSs hK ss w.1) fun _ => ?_
    cases final with
    | none => exact Eff.pure _ fun _ _ ht => by simp at ht
    | some e =>
      refine Eff.bindR (effE hK e w.2) fun _ => Eff.pure _ fun h t ht => ?_
      injection ht with ht
      subst ht
      exact h.2
theorem effSs {K : Cfg} (hK : 1 ≤ K.max) : ∀ ss, wfSs ss → ∀ {p : Prop}, Eff K p (checkSs K ss) (evSs false ss) fun _ => True
  | [], w, p => by unfold checkSs evSs; exact Eff.pure _ fun _ => trivial
  | s :: ss, w, p => by
    unfold wfSs at w
    unfold checkSs evSs
    exact Eff.bind (effS hK s w.1) fun _ => effSs hK ss w.2
end

/-! ### commands and modules -/

theorem Eff.defineOr {K : Cfg} {p : Prop} (n : Name) {k : Kind} {t : Ty} (c : String) (h : p → SymOk ⟨k, t⟩) :
    Eff K p (Checker.defineOr n k t c) [] fun _ => True :=
  Eff.ofTr (Quiet.defineOr _ _ _ _) (fun _ _ hg => Tr.defineOr hg.1 n k t c) fun hp Γ a Γ' hg ⟨_, h2⟩ =>
    ⟨trivial, h2 ▸ hg.setTop n (h hp)⟩

theorem effParams {K : Cfg} (hK : 1 ≤ K.max) : ∀ ps : List Param, (∀ q ∈ ps, ∀ e, q.dflt = some e → wfE e) → ∀ {p : Prop},
    Eff K p (each (checkParam K) ps) (evPs false ps) fun _ => True
  | [], w, p => Eff.pure _ fun _ => trivial
  | q :: ps, w, p => by
    unfold each evPs
    refine Eff.bind (Q := fun _ => True) ?_ fun _ => effParams hK ps fun r hr => w r (by simp [hr])
    unfold checkParam
    refine Eff.bind0 (Eff.resolveOpt _) fun t => Eff.bind0 (Eff.defineOr _ _ fun h => symOk_param h.2) fun _ => ?_
    cases hq : q.dflt with
    | none => exact Eff.pure _ fun _ => trivial
    | some e => exact Eff.bindR (effE hK e (w q (by simp) e hq)) fun _ => (Eff.errIf _ _ _).imp fun _ _ => trivial

theorem Eff.each0 {α : Type} {K : Cfg} {g : α → M Unit} (hg : ∀ {p : Prop} a, Eff K p (g a) [] fun _ => True) :
    ∀ (l : List α) {p : Prop}, Eff K p (Checker.each g l) [] fun _ => True
  | [], p => Eff.pure _ fun _ => trivial
  | a :: l, p => Eff.bind0 (hg a) fun _ => Eff.each0 hg l

theorem Eff.checkMetaKey {K : Cfg} {p : Prop} (k : List Name) : Eff K p (Checker.checkMetaKey k) [] fun _ => True := by
  unfold Checker.checkMetaKey
  split
  · exact Eff.pure _ fun _ => trivial
  · split_ifs
    · exact Eff.pure _ fun _ => trivial
    · exact Eff.warn _ _ (by decide)
  · split_ifs <;> first
      | exact Eff.pure _ fun _ => trivial
      | exact Eff.warn _ _ (by decide)

theorem effCommand {max : Nat} (hm : 1 ≤ max) (m : Mod) {c : Fn} (w : wfFn c) {p : Prop} :
    Eff (cfgOf max m c) p (checkCommand max m c) (evFn false c) fun _ => True := by
  unfold checkCommand evFn
  exact Eff.bind0 Eff.push fun _ => Eff.bind (effParams hm _ w.2) fun _ => Eff.bindR (effB hm _ w.1) fun _ =>
    Eff.bind0 (Eff.each0 Eff.checkMetaKey _) fun _ => Eff.pop

theorem Eff.resolveParams {K : Cfg} {p : Prop} (ps : List Param) : Eff K p (Checker.resolveParams ps) [] allClean := by
  induction ps generalizing p with
  | nil => exact Eff.pure _ fun _ t ht => by simp at ht
  | cons q ps ih =>
    unfold Checker.resolveParams
    refine Eff.bind0 (Eff.resolveOpt _) fun _ => Eff.bind0 ih fun _ => Eff.pure _ fun h t ht => ?_
    rcases List.mem_cons.1 ht with rfl | ht
    · exact h.1.2
    · exact h.2 t ht

theorem symOk_fn {k : Kind} {ps : List Ty} {r : Ty} (hp : allClean ps) (hr : clean r = true) : SymOk ⟨k, fnTy ps r⟩ :=
  ⟨(clean_fnTy _ _).2 ⟨hp, hr⟩, fun _ => ⟨_, _, rfl⟩⟩

theorem effDecls {K : Cfg} : ∀ (ds : List NDecl) {p : Prop}, Eff K p (regDecls ds) [] fun _ => True
  | [], p => Eff.pure _ fun _ => trivial
  | d :: ds, p => Eff.bind0 (Q := fun _ => True) (Eff.bind0 (Eff.resolve _) fun _ => Eff.bind0 (Eff.resolveParams _) fun _ =>
      Eff.defineOr _ _ fun h => symOk_fn h.2 h.1.2) fun _ => effDecls ds

theorem effBlocks {K : Cfg} : ∀ (bs : List NBlock) {p : Prop}, Eff K p (each regBlock bs) (bs.map fun _ => .py) fun _ => True
  | [], p => Eff.pure _ fun _ => trivial
  | b :: bs, p => Eff.bind (c := [.py]) (Q := fun _ => True) (Eff.bindR Eff.setPy fun _ => Eff.bind0 (effDecls _) fun _ =>
      Eff.warn _ _ (by decide)) fun _ => effBlocks bs

theorem effNatives {K : Cfg} : ∀ (fs : List NFn) {p : Prop}, Eff K p (each regNative fs) (fs.map fun _ => .py) fun _ => True
  | [], p => Eff.pure _ fun _ => trivial
  | f :: fs, p => Eff.bind (c := [.py]) (Q := fun _ => True) (Eff.bindR Eff.setPy fun _ => Eff.bind0 (Eff.resolve _) fun _ =>
      Eff.bind0 (Eff.resolveParams _) fun _ => Eff.bind0 (Eff.defineOr _ _ fun h => symOk_fn h.2 h.1.2) fun _ =>
      Eff.warn _ _ (by decide)) fun _ => effNatives fs

theorem effRegs {K : Cfg} : ∀ (cs : List Fn) {p : Prop}, Eff K p (each regCommand cs) [] fun _ => True
  | cs, p => Eff.each0 (fun c => Eff.bind0 (Eff.resolveOpt _) fun _ => Eff.bind0 (Eff.resolveParams _) fun _ =>
      Eff.defineOr _ _ fun h => symOk_fn h.2 h.1.2) cs

/-- the commands one after the other -/
theorem commands_record {max : Nat} (hm : 1 ≤ max) (m : Mod) : ∀ (cs : List Fn), (∀ c ∈ cs, wfFn c) → ∀ (s s' : St) (u : Unit),
    each (checkCommand max m) cs s = .ok (u, s') → errCount s' = 0 → Good s.scopes →
    s'.calls = s.calls ++ cs.flatMap (fun c => edgesOf (cfgOf max m c) (evFn false c)) ∧
    s'.py = (s.py || cs.any fun c => (evFn false c).contains .py) ∧ recs s' = recs s
  | [], w, s, s', u, h, h0, hg => by
    simp only [each, Pure.pure, Except.ok.injEq, Prod.mk.injEq] at h
    obtain ⟨-, rfl⟩ := h
    simp
  | c :: cs, w, s, s', u, h, h0, hg => by
    simp only [each, Bind.bind, bind] at h
    cases hh : checkCommand max m c s with
    | error e => simp [hh] at h
    | ok x =>
      obtain ⟨a, s1⟩ := x
      simp only [hh] at h
      have h1 : errCount s1 = 0 := by
        have := (Mono.each (Mono.checkCommand max m) cs).errCount h
        omega
      obtain ⟨g1, g2, g3, -, g4⟩ := (effCommand hm m (w c (by simp)) (p := True)).2 _ _ _ hh h1 trivial hg
      obtain ⟨k1, k2, k3⟩ := commands_record hm m cs (fun d hd => w d (by simp [hd])) s1 s' u h h0 g3
      refine ⟨?_, ?_, k3.trans g4⟩
      · rw [k1, g1]; simp
      · rw [k2, g2]; simp [Bool.or_assoc]

/-- what is recorded when a module has been checked and the recursion check remains -/
theorem module_records {max : Nat} (hm : 1 ≤ max) (o : SetOrder) {m : Mod} (w : wfMod m) {s' : St} {u : Unit}
    (h : checkModule o max m st0 = .ok (u, s')) (h0 : errCount s' = 0) :
    ∃ s, s.calls = callEdges false m ∧ s.py = hasPython false m ∧ recs s = [] ∧ checkRecursion o m s = .ok (u, s') := by
  unfold checkModule at h
  have K : Cfg := ⟨1, [], nm "", none⟩
  have hg0 : Good st0.scopes := ⟨by simp [st0], fun f hf => by
    simp only [st0, List.mem_singleton] at hf
    subst hf
    intro n y hy
    simp [emptyFrame] at hy⟩
  simp only [Bind.bind, bind] at h
  cases h1 : each regBlock m.blocks st0 with
  | error e => simp [h1] at h
  | ok x1 =>
  obtain ⟨u1, s1⟩ := x1
  simp only [h1] at h
  cases h2 : each regNative m.natives s1 with
  | error e => simp [h2] at h
  | ok x2 =>
  obtain ⟨u2, s2⟩ := x2
  simp only [h2] at h
  cases h3 : each regCommand m.functions s2 with
  | error e => simp [h3] at h
  | ok x3 =>
  obtain ⟨u3, s3⟩ := x3
  simp only [h3] at h
  cases h4 : each (checkCommand max m) m.functions s3 with
  | error e => simp [h4] at h
  | ok x4 =>
  obtain ⟨u4, s4⟩ := x4
  simp only [h4] at h
  have e4 := (Mono.checkRecursion o m).errCount h
  have e3 := (Mono.each (Mono.checkCommand max m) m.functions).errCount h4
  have e2 := (Mono.each Mono.regCommand m.functions).errCount h3
  have e1 := (Mono.each Mono.regNative m.natives).errCount h2
  obtain ⟨a1, a2, a3, -, a5⟩ := (effBlocks (K := K) m.blocks (p := True)).2 _ _ _ h1 (by omega) trivial hg0
  obtain ⟨b1, b2, b3, -, b5⟩ := (effNatives (K := K) m.natives (p := True)).2 _ _ _ h2 (by omega) trivial a3
  obtain ⟨c1, c2, c3, -, c5⟩ := (effRegs (K := K) m.functions (p := True)).2 _ _ _ h3 (by omega) trivial b3
  obtain ⟨d1, d2, d5⟩ := commands_record hm m m.functions w _ _ _ h4 (by omega) c3
  have hpy : ∀ {α : Type} (l : List α), edgesOf K (l.map fun _ => Ev.py) = [] := by
    intro α l
    induction l with
    | nil => rfl
    | cons a l ih => simpa [edgesOf] using ih
  have hpy' : ∀ {α : Type} (l : List α), (l.map fun _ => Ev.py).contains Ev.py = !l.isEmpty := by
    intro α l
    cases l <;> simp
  refine ⟨s4, ?_, ?_, ?_, h⟩
  · rw [d1, c1, b1, a1, hpy, hpy]
    simp only [edgesOf, List.filterMap_nil, List.append_nil, st0, List.nil_append, callEdges, cfgOf]
    rfl
  · rw [d2, c2, b2, a2, hpy', hpy']
    simp [st0, hasPython]
  · rw [d5, c5, b5, a5]
    rfl

end Verif.Checker
