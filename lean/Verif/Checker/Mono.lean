import Verif.Checker.Wf

/-! # Diagnostics are only added -/

namespace Verif.Checker

open Verif.Types (Ty)
open Verif.Parser (Name Expr Clause Stmt Block Pat Mod Fn Param NBlock NFn NDecl)

/-- every diagnostic and recorded call stays, and so does the flag for Python code -/
def Mono {α : Type} (m : M α) : Prop := ∀ s a s', m s = .ok (a, s') →
  s.diags <+: s'.diags ∧ s.calls <+: s'.calls ∧ (s.py = true → s'.py = true)

namespace Mono

variable {α β : Type}

theorem pure (a : α) : Mono (Pure.pure a : M α) := by
  intro s b s' h
  simp only [Pure.pure, Except.ok.injEq, Prod.mk.injEq] at h
  obtain ⟨-, rfl⟩ := h
  exact ⟨List.prefix_refl _, List.prefix_refl _, id⟩

theorem bind {m : M α} {k : α → M β} (hm : Mono m) (hk : ∀ a, Mono (k a)) : Mono (m >>= k) := by
  intro s b s' h
  simp only [Bind.bind, Checker.bind] at h
  cases hh : m s with
  | error e => simp [hh] at h
  | ok x =>
    obtain ⟨a, s1⟩ := x
    simp only [hh] at h
    obtain ⟨h1, h2, h3⟩ := hm _ _ _ hh
    obtain ⟨g1, g2, g3⟩ := hk _ _ _ _ h
    exact ⟨h1.trans g1, h2.trans g2, fun p => g3 (h3 p)⟩

theorem crash : Mono (Checker.crash : M α) := by intro s a s' h; simp [Checker.crash] at h

theorem err (c : String) (l : List Name) : Mono (Checker.err c l) := by
  intro s b s' h
  simp only [Checker.err, Except.ok.injEq, Prod.mk.injEq] at h
  obtain ⟨-, rfl⟩ := h
  exact ⟨List.prefix_append _ _, List.prefix_refl _, id⟩

theorem warn (c : String) (l : List Name) : Mono (Checker.warn c l) := by
  intro s b s' h
  simp only [Checker.warn, Except.ok.injEq, Prod.mk.injEq] at h
  obtain ⟨-, rfl⟩ := h
  exact ⟨List.prefix_append _ _, List.prefix_refl _, id⟩

theorem errIf (b : Bool) (c : String) (l : List Name) : Mono (Checker.errIf b c l) := by
  unfold Checker.errIf
  split
  · exact err _ _
  · exact pure _

theorem setPy : Mono Checker.setPy := by
  intro s b s' h
  simp only [Checker.setPy, Except.ok.injEq, Prod.mk.injEq] at h
  obtain ⟨-, rfl⟩ := h
  exact ⟨List.prefix_refl _, List.prefix_refl _, fun _ => rfl⟩

theorem push : Mono Checker.push := by
  intro s b s' h
  simp only [Checker.push, Except.ok.injEq, Prod.mk.injEq] at h
  obtain ⟨-, rfl⟩ := h
  exact ⟨List.prefix_refl _, List.prefix_refl _, id⟩

theorem pop : Mono Checker.pop := by
  intro s b s' h
  simp only [Checker.pop, Except.ok.injEq, Prod.mk.injEq] at h
  obtain ⟨-, rfl⟩ := h
  exact ⟨List.prefix_refl _, List.prefix_refl _, id⟩

theorem define (n : Name) (k : Kind) (t : Ty) : Mono (Checker.define n k t) := by
  intro s b s' h
  unfold Checker.define at h
  split at h
  · simp only [Except.ok.injEq, Prod.mk.injEq] at h
    obtain ⟨-, rfl⟩ := h
    exact ⟨List.prefix_refl _, List.prefix_refl _, id⟩
  · split at h <;>
    · simp only [Except.ok.injEq, Prod.mk.injEq] at h
      obtain ⟨-, rfl⟩ := h
      exact ⟨List.prefix_refl _, List.prefix_refl _, id⟩

theorem defineOr (n : Name) (k : Kind) (t : Ty) (c : String) : Mono (Checker.defineOr n k t c) :=
  bind (define _ _ _) fun _ => errIf _ _ _

theorem calleeSym (n : Name) : Mono (Checker.calleeSym n) := by
  intro s b s' h
  simp only [Checker.calleeSym, Except.ok.injEq, Prod.mk.injEq] at h
  obtain ⟨-, rfl⟩ := h
  exact ⟨List.prefix_refl _, List.prefix_refl _, id⟩

theorem noteCall (K : Cfg) (n : Name) : Mono (Checker.noteCall K n) := by
  intro s b s' h
  simp only [Checker.noteCall, Except.ok.injEq, Prod.mk.injEq] at h
  obtain ⟨-, rfl⟩ := h
  split
  · exact ⟨List.prefix_refl _, List.prefix_append _ _, id⟩
  · exact ⟨List.prefix_refl _, List.prefix_refl _, id⟩

theorem identTy (n : Name) : Mono (Checker.identTy n) := by
  intro s b s' h
  unfold Checker.identTy at h
  split at h
  · simp only [Except.ok.injEq, Prod.mk.injEq] at h
    obtain ⟨-, rfl⟩ := h
    exact ⟨List.prefix_refl _, List.prefix_refl _, id⟩
  · split at h
    · simp only [Except.ok.injEq, Prod.mk.injEq] at h
      obtain ⟨-, rfl⟩ := h
      exact ⟨List.prefix_refl _, List.prefix_refl _, id⟩
    · exact bind (err _ _) (fun _ => pure _) _ _ _ h

theorem ite {c : Prop} [Decidable c] {m k : M α} (hm : Mono m) (hk : Mono k) : Mono (if c then m else k) := by
  split
  · exact hm
  · exact hk

theorem guardE {K : Cfg} {m : M Ty} (hm : Mono m) : Mono (Checker.guardE K m) := by
  intro s b s' h
  unfold Checker.guardE at h
  split at h
  · simp only [Except.ok.injEq, Prod.mk.injEq] at h
    obtain ⟨-, rfl⟩ := h
    exact ⟨List.prefix_refl _, List.prefix_refl _, id⟩
  · exact hm _ _ _ h

theorem guardS {K : Cfg} {m : M Unit} (hm : Mono m) : Mono (Checker.guardS K m) := by
  intro s b s' h
  unfold Checker.guardS at h
  split at h
  · simp only [Except.ok.injEq, Prod.mk.injEq] at h
    obtain ⟨-, rfl⟩ := h
    exact ⟨List.prefix_refl _, List.prefix_refl _, id⟩
  · exact hm _ _ _ h

end Mono

/-- one step of a monotonicity proof -/
macro "mono_step" : tactic => `(tactic| first
  | with_reducible apply Mono.pure | with_reducible apply Mono.crash | with_reducible apply Mono.err
  | with_reducible apply Mono.warn | with_reducible apply Mono.errIf | with_reducible apply Mono.setPy
  | with_reducible apply Mono.push | with_reducible apply Mono.pop | with_reducible apply Mono.define
  | with_reducible apply Mono.defineOr | with_reducible apply Mono.calleeSym | with_reducible apply Mono.noteCall
  | with_reducible apply Mono.identTy | with_reducible apply Mono.guardE | with_reducible apply Mono.guardS
  | assumption | (with_reducible refine Mono.bind ?_ fun _ => ?_) | with_reducible apply Mono.ite | split)

/-- a monotonicity proof -/
macro "mono" : tactic => `(tactic| repeat' mono_step)

theorem Mono.defineAll : ∀ ps, Mono (Checker.defineAll ps)
  | [] => Mono.pure _
  | _ :: ps => Mono.bind (Mono.define _ _ _) fun _ => Mono.defineAll ps

mutual
theorem Mono.resolve : ∀ t, Mono (Checker.resolve t)
  | .simple n => by unfold Checker.resolve; mono
  | .generic n args => by
    have := Mono.resolveArg args
    unfold Checker.resolve; mono
  | .opt t => by
    have := Mono.resolve t
    unfold Checker.resolve; mono
theorem Mono.resolveArg : ∀ t, Mono (Checker.resolveArg t)
  | [] => by unfold Checker.resolveArg; mono
  | [t] => by
    have := Mono.resolve t
    unfold Checker.resolveArg; mono
  | _ :: _ :: _ => by unfold Checker.resolveArg; mono
end

theorem Mono.resolveOpt (t : Option Parser.Ty) : Mono (Checker.resolveOpt t) := by
  cases t with
  | none => exact Mono.pure _
  | some t => exact Mono.resolve t

theorem Mono.binTy (op : String) (a b : Ty) : Mono (Checker.binTy op a b) := by
  unfold Checker.binTy wantBool; mono

theorem Mono.unTy (op : String) (a : Ty) : Mono (Checker.unTy op a) := by
  unfold Checker.unTy wantBool; mono

theorem Mono.elemStep (a b : Ty) : Mono (Checker.elemStep a b) := by
  unfold Checker.elemStep; mono

theorem Mono.condTy (a b : Ty) : Mono (Checker.condTy a b) := by
  unfold Checker.condTy; mono

theorem Mono.ifTy (a b : Option Ty) : Mono (Checker.ifTy a b) := by
  unfold Checker.ifTy; mono

theorem Mono.patTy (p : Pat) (b : Ty) : Mono (Checker.patTy p b) := by
  unfold Checker.patTy; mono

theorem Mono.declare (n : Name) (ty : Option Parser.Ty) (t : Ty) : Mono (Checker.declare n ty t) := by
  unfold Checker.declare
  cases ty with
  | none => exact Mono.defineOr _ _ _ _
  | some a => exact Mono.bind (Mono.resolve a) fun _ => Mono.bind (Mono.errIf _ _ _) fun _ => Mono.defineOr _ _ _ _

/-- one step, with the operators -/
macro "mono_step'" : tactic => `(tactic| first
  | with_reducible apply Mono.binTy | with_reducible apply Mono.unTy | with_reducible apply Mono.elemStep
  | with_reducible apply Mono.condTy | with_reducible apply Mono.ifTy | with_reducible apply Mono.patTy
  | with_reducible apply Mono.declare | with_reducible apply Mono.resolve | with_reducible apply Mono.defineAll
  | mono_step)

mutual
theorem Mono.checkE (K : Cfg) : ∀ e, Mono (Checker.checkE K e)
  | .lit k _ => by unfold Checker.checkE; mono
  | .ident n => by unfold Checker.checkE; mono
  | .bin op l r => by
    have := Mono.checkE K l
    have := Mono.checkE K r
    unfold Checker.checkE; repeat' mono_step'
  | .un op e => by
    have := Mono.checkE K e
    unfold Checker.checkE; repeat' mono_step'
  | .call f args named => by
    have h1 := Mono.checkE K f
    have h2 := fun c ps => Mono.checkArgs K c ps args
    have h3 := fun al => Mono.checkNamed K al named
    unfold Checker.checkE
    refine Mono.guardE ?_
    split
    · repeat' (first | exact h2 _ _ | exact h3 _ | mono_step')
    · exact Mono.bind h1 fun _ => Mono.pure _
  | .method o m args _ => by
    have h1 := Mono.checkE K o
    have h2 := fun c ps => Mono.checkArgs K c ps args
    unfold Checker.checkE
    repeat' (first | exact h2 _ _ | mono_step')
  | .member o m => by
    have := Mono.checkE K o
    unfold Checker.checkE; repeat' mono_step'
  | .index o i => by
    have := Mono.checkE K o
    have := Mono.checkE K i
    unfold Checker.checkE wantInt; repeat' mono_step'
  | .list es => by
    cases es with
    | nil => unfold Checker.checkE; repeat' mono_step'
    | cons e es =>
      have := Mono.checkE K e
      have h2 := fun t => Mono.checkElems K t es
      unfold Checker.checkE
      repeat' (first | exact h2 _ | mono_step')
  | .comp e cs => by
    have := Mono.checkE K e
    have := Mono.checkClauses K cs
    unfold Checker.checkE; repeat' mono_step'
  | .range a b => by
    have := Mono.checkE K a
    have := Mono.checkE K b
    unfold Checker.checkE wantInt; repeat' mono_step'
  | .dict es => by
    have := Mono.checkNamed K none es
    unfold Checker.checkE; repeat' mono_step'
  | .lam ps b => by
    have := Mono.checkE K b
    unfold Checker.checkE; repeat' mono_step'
  | .cond c t e => by
    have := Mono.checkE K c
    have := Mono.checkE K t
    have := Mono.checkE K e
    unfold Checker.checkE wantBool; repeat' mono_step'
  | .ifE c t elifs els => by
    have := Mono.checkE K c
    have := Mono.checkB K t
    cases els with
    | none => unfold Checker.checkE wantBool; repeat' mono_step'
    | some b =>
      have := Mono.checkB K b
      unfold Checker.checkE wantBool; repeat' mono_step'
  | .matchE s arms => by
    have := Mono.checkE K s
    have h2 := fun t r => Mono.checkArms K t r arms
    unfold Checker.checkE
    repeat' (first | exact h2 _ _ | mono_step')
theorem Mono.checkArgs (K : Cfg) (c : String) : ∀ ps es, Mono (Checker.checkArgs K c ps es)
  | ps, [] => by unfold Checker.checkArgs; mono
  | [], e :: es => by
    have := Mono.checkE K e
    have h2 := Mono.checkArgs K c [] es
    unfold Checker.checkArgs; repeat' mono_step'
  | p :: ps, e :: es => by
    have := Mono.checkE K e
    have h2 := Mono.checkArgs K c ps es
    unfold Checker.checkArgs argOk; repeat' mono_step'
theorem Mono.checkNamed (K : Cfg) (al : Option (List Name)) : ∀ es, Mono (Checker.checkNamed K al es)
  | [] => by unfold Checker.checkNamed; mono
  | (k, e) :: es => by
    have := Mono.checkE K e
    have h2 := Mono.checkNamed K al es
    unfold Checker.checkNamed; repeat' mono_step'
theorem Mono.checkElems (K : Cfg) : ∀ t es, Mono (Checker.checkElems K t es)
  | t, [] => by unfold Checker.checkElems; mono
  | t, e :: es => by
    have := Mono.checkE K e
    have h2 := fun t => Mono.checkElems K t es
    unfold Checker.checkElems
    repeat' (first | exact h2 _ | mono_step')
theorem Mono.checkClauses (K : Cfg) : ∀ cs, Mono (Checker.checkClauses K cs)
  | [] => by unfold Checker.checkClauses; mono
  | .mk v it conds :: cs => by
    have := Mono.checkE K it
    have := Mono.checkConds K conds
    have := Mono.checkClauses K cs
    unfold Checker.checkClauses; repeat' mono_step'
theorem Mono.checkConds (K : Cfg) : ∀ es, Mono (Checker.checkConds K es)
  | [] => by unfold Checker.checkConds; mono
  | e :: es => by
    have := Mono.checkE K e
    have := Mono.checkConds K es
    unfold Checker.checkConds wantBool; repeat' mono_step'
theorem Mono.checkArms (K : Cfg) (t : Ty) : ∀ r as, Mono (Checker.checkArms K t r as)
  | r, [] => by unfold Checker.checkArms; mono
  | r, (p, e) :: as => by
    have := Mono.checkE K e
    have h2 := fun r => Mono.checkArms K t r as
    unfold Checker.checkArms
    repeat' (first | exact h2 _ | mono_step')
theorem Mono.checkS (K : Cfg) : ∀ s, Mono (Checker.checkS K s)
  | .letS n ty e => by
    have := Mono.checkE K e
    unfold Checker.checkS; repeat' mono_step'
  | .varDecl n ty e => by
    cases e with
    | none => unfold Checker.checkS; repeat' mono_step'
    | some e =>
      have := Mono.checkE K e
      unfold Checker.checkS; repeat' mono_step'
  | .assign t v => by
    have := Mono.checkE K t
    have := Mono.checkE K v
    unfold Checker.checkS; repeat' mono_step'
  | .require c msg => by
    have := Mono.checkE K c
    cases msg with
    | none => unfold Checker.checkS wantBool; repeat' mono_step'
    | some e =>
      have := Mono.checkE K e
      unfold Checker.checkS wantBool; repeat' mono_step'
  | .assertS c msg => by
    have := Mono.checkE K c
    cases msg with
    | none => unfold Checker.checkS wantBool; repeat' mono_step'
    | some e =>
      have := Mono.checkE K e
      unfold Checker.checkS wantBool; repeat' mono_step'
  | .emit v md => by
    have := Mono.checkE K v
    have := Mono.checkNamed K none md
    unfold Checker.checkS; repeat' mono_step'
  | .forS v it body => by
    have := Mono.checkE K it
    have := Mono.checkB K body
    unfold Checker.checkS; repeat' mono_step'
  | .ifS c t elifs els => by
    have := Mono.checkE K c
    have := Mono.checkB K t
    have := Mono.checkElifs K elifs
    cases els with
    | none => unfold Checker.checkS wantBool; repeat' mono_step'
    | some b =>
      have := Mono.checkB K b
      unfold Checker.checkS wantBool; repeat' mono_step'
  | .pass => by unfold Checker.checkS; repeat' mono_step'
  | .exprS e => by
    have := Mono.checkE K e
    unfold Checker.checkS; repeat' mono_step'
  | .ret e => by
    cases e with
    | none => unfold Checker.checkS; repeat' mono_step'
    | some e =>
      have := Mono.checkE K e
      unfold Checker.checkS; repeat' mono_step'
  | .py _ => by unfold Checker.checkS; repeat' mono_step'
theorem Mono.checkElifs (K : Cfg) : ∀ bs, Mono (Checker.checkElifs K bs)
  | [] => by unfold Checker.checkElifs; mono
  | (c, b) :: bs => by
    have := Mono.checkE K c
    have := Mono.checkB K b
    have := Mono.checkElifs K bs
    unfold Checker.checkElifs wantBool; repeat' mono_step'
theorem Mono.checkB (K : Cfg) : ∀ b, Mono (Checker.checkB K b)
  | .mk ss final => by
    have := Mono.checkSs K ss
    cases final with
    | none => unfold Checker.checkB; repeat' mono_step'
    | some e =>
      have := Mono.checkE K e
      unfold Checker.checkB; repeat' mono_step'
theorem Mono.checkSs (K : Cfg) : ∀ ss, Mono (Checker.checkSs K ss)
  | [] => by unfold Checker.checkSs; mono
  | s :: ss => by
    have := Mono.checkS K s
    have := Mono.checkSs K ss
    unfold Checker.checkSs; repeat' mono_step'
end

theorem Mono.resolveParams : ∀ ps, Mono (Checker.resolveParams ps)
  | [] => Mono.pure _
  | _ :: ps => Mono.bind (Mono.resolveOpt _) fun _ => Mono.bind (Mono.resolveParams ps) fun _ => Mono.pure _

theorem Mono.each {α : Type} {g : α → M Unit} (hg : ∀ a, Mono (g a)) : ∀ l, Mono (Checker.each g l)
  | [] => Mono.pure _
  | a :: l => Mono.bind (hg a) fun _ => Mono.each hg l

theorem Mono.regDecl (d : NDecl) : Mono (Checker.regDecl d) :=
  Mono.bind (Mono.resolve _) fun _ => Mono.bind (Mono.resolveParams _) fun _ => Mono.defineOr _ _ _ _

theorem Mono.regDecls : ∀ ds, Mono (Checker.regDecls ds)
  | [] => Mono.pure _
  | d :: ds => Mono.bind (Mono.regDecl d) fun _ => Mono.regDecls ds

theorem Mono.regBlock (b : NBlock) : Mono (Checker.regBlock b) :=
  Mono.bind Mono.setPy fun _ => Mono.bind (Mono.regDecls _) fun _ => Mono.warn _ _

theorem Mono.regNative (f : NFn) : Mono (Checker.regNative f) :=
  Mono.bind Mono.setPy fun _ => Mono.bind (Mono.resolve _) fun _ => Mono.bind (Mono.resolveParams _) fun _ =>
    Mono.bind (Mono.defineOr _ _ _ _) fun _ => Mono.warn _ _

theorem Mono.regCommand (c : Fn) : Mono (Checker.regCommand c) :=
  Mono.bind (Mono.resolveOpt _) fun _ => Mono.bind (Mono.resolveParams _) fun _ => Mono.defineOr _ _ _ _

theorem Mono.checkParam (K : Cfg) (p : Param) : Mono (Checker.checkParam K p) := by
  unfold Checker.checkParam
  refine Mono.bind (Mono.resolveOpt _) fun _ => Mono.bind (Mono.defineOr _ _ _ _) fun _ => ?_
  split
  · exact Mono.bind (Mono.checkE _ _) fun _ => Mono.errIf _ _ _
  · exact Mono.pure _

theorem Mono.checkMetaKey (k : List Name) : Mono (Checker.checkMetaKey k) := by
  unfold Checker.checkMetaKey; mono

theorem Mono.checkCommand (max : Nat) (m : Mod) (c : Fn) : Mono (Checker.checkCommand max m c) :=
  Mono.bind Mono.push fun _ => Mono.bind (Mono.each (Mono.checkParam _) _) fun _ => Mono.bind (Mono.checkB _ _) fun _ =>
    Mono.bind (Mono.each Mono.checkMetaKey _) fun _ => Mono.pop

theorem Mono.cycleWarning (c : List Name) : Mono (Checker.cycleWarning c) := by
  unfold Checker.cycleWarning; mono

theorem Mono.checkRecursion (o : SetOrder) (m : Mod) : Mono (Checker.checkRecursion o m) := by
  intro s a s' h
  exact Mono.each Mono.cycleWarning _ _ _ _ h

theorem Mono.checkModule (o : SetOrder) (max : Nat) (m : Mod) : Mono (Checker.checkModule o max m) :=
  Mono.bind (Mono.each Mono.regBlock _) fun _ => Mono.bind (Mono.each Mono.regNative _) fun _ =>
    Mono.bind (Mono.each Mono.regCommand _) fun _ => Mono.bind (Mono.each (Mono.checkCommand _ _) _) fun _ =>
      Mono.checkRecursion _ _

/-- the number of errors never falls -/
theorem Mono.errCount {α : Type} {m : M α} (hm : Mono m) {s s' : St} {a : α} (h : m s = .ok (a, s')) :
    Checker.errCount s ≤ Checker.errCount s' := by
  obtain ⟨l, hl⟩ := (hm _ _ _ h).1
  unfold Checker.errCount
  rw [← hl, List.filter_append, List.length_append]
  omega

end Verif.Checker
