import Verif.Interp.Model
import Mathlib.Tactic.Common

/-!
# Relations between the states before and after a run

`Pres R m`: every run of `m`, whether it ends normally or with an exception, relates the state before to the state
after by `R`. `Good R` collects what `R` must satisfy for the whole interpreter to preserve it.
-/

namespace Verif.Interp

open Verif.Dict Verif.Types
variable {F : Type}

/-- every run of `m` is related by `R` -/
def Pres {α : Type} (R : St F → St F → Prop) (m : M F α) : Prop := ∀ s, R s (m s).2

theorem pure_def {α : Type} (a : α) : (pure a : M F α) = ret a := rfl
theorem bind_def {α β : Type} (m : M F α) (k : α → M F β) : (m >>= k) = bind m k := rfl

theorem bind_ok {α β : Type} {m : M F α} {k : α → M F β} {s s' : St F} {a : α} (h : m s = (.ok a, s')) :
    (m >>= k) s = k a s' := by
  rw [bind_def]; unfold bind; rw [h]

theorem bind_err {α β : Type} {m : M F α} {k : α → M F β} {s s' : St F} {e : Exn} (h : m s = (.error e, s')) :
    (m >>= k) s = (.error e, s') := by
  rw [bind_def]; unfold bind; rw [h]

/-- what a state relation must satisfy -/
structure Good (P : Prog F) (R : St F → St F → Prop) : Prop where
  refl : ∀ s, R s s
  trans : ∀ s t u, R s t → R t u → R s u
  setVar : ∀ x v, Pres R (setVar x v)
  assign : ∀ s x v fr, update s.ctx.frames x v = some fr → R s { s with ctx := { s.ctx with frames := fr } }
  diag : ∀ s d, R s { s with ctx := { s.ctx with diags := d } }
  ret : ∀ s v, R s { s with ctx := { s.ctx with ret := v } }
  fail : ∀ s m, R s { s with ctx := { s.ctx with fails := s.ctx.fails ++ [m] }, log := s.log ++ [.fail m s.ctx.level] }
  emit : ∀ s v md, R s { s with ctx := { s.ctx with emit := some (v, md) }, log := s.log ++ [.emit v s.ctx.level] }
  builtin : ∀ s n, R s { s with log := s.log ++ [.builtin n s.ctx.level] }
  scope : ∀ (s s' : St F), R { s with ctx := { s.ctx with frames := [] :: s.ctx.frames } } s' →
    R s { s' with ctx := { s'.ctx with frames := s'.ctx.frames.drop (s'.ctx.frames.length - s.ctx.frames.length) } }
  callEarly : ∀ s s1, s.depth + 1 ≤ P.limit → R { s with depth := s.depth + 1 } s1 →
    R s { s1 with depth := s1.depth - 1 }
  call : ∀ s s1 s2 params name, s.depth + 1 ≤ P.limit → R { s with depth := s.depth + 1 } s1 →
    R { s1 with ctx := freshCtx s1.depth params, log := s1.log ++ [.enter name s1.depth] } s2 →
    R s { s2 with ctx := s1.ctx, depth := s2.depth - 1 }

section
variable {P : Prog F} {R : St F → St F → Prop} (G : Good P R)
include G

theorem pres_pure {α : Type} (a : α) : Pres R (pure a : M F α) := fun s => G.refl s
theorem pres_raise {α : Type} (e : Err) : Pres R (raise e : M F α) := fun s => G.refl s
theorem pres_lift {α : Type} (r : Except Err α) : Pres R (lift r : M F α) := fun s => G.refl s

theorem pres_bind {α β : Type} {m : M F α} {k : α → M F β} (hm : Pres R m) (hk : ∀ a, Pres R (k a)) :
    Pres R (m >>= k) := by
  intro s
  have h1 := hm s
  rcases h : m s with ⟨r, s'⟩
  rw [h] at h1
  cases r with
  | ok a => rw [bind_ok h]; exact G.trans _ _ _ h1 (hk a s')
  | error e => rw [bind_err h]; exact h1

theorem pres_scope {α : Type} {m : M F α} (hm : Pres R m) : Pres R (withScope m) := by
  intro s
  have h1 := hm { s with ctx := { s.ctx with frames := [] :: s.ctx.frames } }
  exact G.scope s _ h1

theorem pres_foldM {α β : Type} {g : β → α → M F β} (hg : ∀ b a, Pres R (g b a)) (l : List α) :
    ∀ b, Pres R (foldM g b l) := by
  induction l with
  | nil => intro b; exact pres_pure G b
  | cons a l ih => intro b; exact pres_bind G (hg b a) (fun b' => ih b')

theorem pres_mapM {α β : Type} {g : α → M F β} (hg : ∀ a, Pres R (g a)) (l : List α) : Pres R (mapM g l) := by
  induction l with
  | nil => exact pres_pure G _
  | cons a l ih => exact pres_bind G (hg a) (fun b => pres_bind G ih (fun bs => pres_pure G _))

variable {H : Host F} {f : Fns F} (hev : ∀ e, Pres R (f.ev e)) (hex : ∀ s, Pres R (f.ex s))
include hev

theorem pres_truthy (e : Expr F) : Pres R (evTruthy H f e) :=
  pres_bind G (hev e) (fun _ => pres_lift G _)

theorem pres_allTrue (l : List (Expr F)) : Pres R (allTrue H f l) := by
  induction l with
  | nil => exact pres_pure G _
  | cons c cs ih =>
    refine pres_bind G (pres_truthy G hev c) (fun b => ?_)
    split_ifs
    · exact ih
    · exact pres_pure G _

theorem pres_comp (elem : Expr F) (cs : List (String × Expr F × List (Expr F))) :
    ∀ acc, Pres R (compClauses H f elem cs acc) := by
  induction cs with
  | nil =>
    intro acc
    unfold compClauses
    split_ifs
    · exact pres_raise G _
    · exact pres_bind G (hev elem) (fun _ => pres_pure G _)
  | cons c cs ih =>
    intro acc
    unfold compClauses
    refine pres_bind G (hev _) (fun it => ?_)
    cases iterItems H it.data with
    | none => exact pres_raise G _
    | some items =>
      refine pres_foldM G (fun acc d => ?_) items acc
      split_ifs
      · exact pres_raise G _
      · refine pres_bind G (G.setVar _ _) (fun _ => pres_bind G (pres_allTrue G hev _) (fun ok => ?_))
        split_ifs
        · exact ih acc
        · exact pres_pure G _

theorem pres_resolveNamed (named : List (String × Expr F)) (ps : List (Param F)) :
    Pres R (resolveNamed f named ps) := by
  induction ps with
  | nil => exact pres_pure G _
  | cons p ps ih =>
    unfold resolveNamed
    refine pres_bind G ?_ (fun v => pres_bind G ih (fun vs => pres_pure G _))
    unfold namedArg
    cases dget named p.name with
    | some e => exact hev e
    | none => cases p.default with
      | some e => exact hev e
      | none => exact pres_raise G _

theorem pres_fillDefaults (ps : List (Param F)) : ∀ d, Pres R (fillDefaults f ps d) := by
  induction ps with
  | nil => intro d; exact pres_pure G _
  | cons p ps ih =>
    intro d
    unfold fillDefaults
    cases p.default with
    | none => exact ih d
    | some e => exact pres_bind G (hev e) (fun v => ih _)

theorem pres_runArms (v : Val F) (as : List (Pat F × Expr F)) : Pres R (runArms H f v as) := by
  induction as with
  | nil => exact pres_raise G _
  | cons a as ih =>
    unfold runArms
    refine pres_bind G ?_ (fun b => ?_)
    · unfold patMatches
      cases a.1 with
      | wild => exact pres_pure G _
      | lit d => exact pres_pure G _
      | ident x => exact pres_bind G (G.setVar _ _) (fun _ => pres_pure G _)
      | other => exact pres_pure G _
    · split_ifs
      · exact hev _
      · exact ih

theorem pres_entries (es : List (String × Expr F)) : Pres R (evEntries f es) :=
  pres_foldM G (fun _ _ => pres_bind G (hev _) (fun _ => pres_pure G _)) es []

omit hev in
include hex in
theorem pres_runBody (ss : List (Stmt F)) : Pres R (runBody f ss) := by
  induction ss with
  | nil => exact pres_pure G _
  | cons s ss ih =>
    unfold runBody
    refine pres_bind G (hex s) (fun _ => ?_)
    intro st
    unfold unlessRet
    by_cases hr : st.ctx.ret.isSome
    · simp only [hr, if_true]; exact G.refl _
    · simp only [hr]; exact ih st

omit hev in
include hex in
theorem pres_forItems (x : String) (t : Ty) (body : List (Stmt F)) (ds : List (Data F)) :
    Pres R (forItems f x t body ds) := by
  induction ds with
  | nil => exact pres_pure G _
  | cons d ds ih =>
    unfold forItems
    refine pres_bind G (G.setVar _ _) (fun _ => pres_bind G (pres_runBody G hex body) (fun _ => ?_))
    intro st
    unfold unlessRet
    by_cases hr : st.ctx.ret.isSome
    · simp only [hr, if_true]; exact G.refl _
    · simp only [hr]; exact ih st

include hex in
theorem pres_runElifs (els : Option (List (Stmt F))) (bs : List (Expr F × List (Stmt F))) :
    Pres R (runElifs H f els bs) := by
  induction bs with
  | nil =>
    unfold runElifs
    cases els with
    | none => exact pres_pure G _
    | some ss => exact pres_scope G (pres_runBody G hex ss)
  | cons b bs ih =>
    unfold runElifs
    refine pres_bind G (pres_truthy G hev _) (fun t => ?_)
    split_ifs
    · exact pres_scope G (pres_runBody G hex _)
    · exact ih

omit G hev in
theorem applyHint_state (H : Host F) (cmd : Cmd F) (s : St F) :
    ∃ c, (applyHint H cmd s).2 = { s with ctx := c } ∧ c.frames = s.ctx.frames ∧ c.fails = s.ctx.fails ∧
      c.emit.isSome = s.ctx.emit.isSome := by
  unfold applyHint
  split
  · rename_i h v md hh hm
    split
    · exact ⟨_, rfl, rfl, rfl, by simp [hm]⟩
    · exact ⟨s.ctx, rfl, rfl, rfl, rfl⟩
  · exact ⟨s.ctx, rfl, rfl, rfl, rfl⟩

omit G hev in
/-- the state after a command body in a new context: what the body left, with the caller's context -/
theorem inNewCtx_state (H : Host F) (f : Fns F) (cmd : Cmd F) (params : List (String × Val F)) (s : St F) :
    (inNewCtx H f cmd params s).2 =
      { (runBody f cmd.body { s with ctx := freshCtx s.depth params, log := s.log ++ [.enter cmd.name s.depth] }).2 with
        ctx := s.ctx } := by
  have key : ∀ s0 : St F, ∃ c, (cmdBody H f cmd s0).2 =
      { (runBody f cmd.body { s0 with log := s0.log ++ [.enter cmd.name s0.ctx.level] }).2 with ctx := c } := by
    intro s0
    unfold cmdBody
    rw [bind_ok (m := note (.enter cmd.name)) rfl]
    rcases hb : runBody f cmd.body { s0 with log := s0.log ++ [.enter cmd.name s0.ctx.level] } with ⟨r, s2⟩
    cases r with
    | error e => rw [bind_err hb]; exact ⟨_, rfl⟩
    | ok u =>
      rw [bind_ok hb]
      obtain ⟨c, hc, -⟩ := applyHint_state H cmd s2
      rcases ha : applyHint H cmd s2 with ⟨r3, s3⟩
      rw [ha] at hc
      simp only at hc
      subst hc
      cases r3 with
      | error e => rw [bind_err ha]; exact ⟨_, rfl⟩
      | ok u =>
        rw [bind_ok ha]
        unfold emittedVal
        cases hm : c.emit with
        | none => simp only [hm]; exact ⟨_, rfl⟩
        | some p => simp only [hm]; exact ⟨_, rfl⟩
  obtain ⟨c, hc⟩ := key { s with ctx := freshCtx s.depth params }
  unfold inNewCtx fin
  simp only
  rw [hc]
  rfl

include hex in
theorem pres_callCommand (cmd : Cmd F) (args : List (Val F)) : Pres R (callCommand H P f cmd args) := by
  intro s
  unfold callCommand
  split_ifs with hl
  · exact G.refl s
  · have hl' : s.depth + 1 ≤ P.limit := by omega
    show R s { (callBody H f cmd args { s with depth := s.depth + 1 }).2 with
      depth := (callBody H f cmd args { s with depth := s.depth + 1 }).2.depth - 1 }
    unfold callBody
    split_ifs with ha
    · exact G.callEarly s _ hl' (G.refl _)
    · have h1 := pres_fillDefaults G hev (cmd.params.drop args.length) (bindArgs cmd.params args)
        { s with depth := s.depth + 1 }
      rcases hf : fillDefaults f (cmd.params.drop args.length) (bindArgs cmd.params args) { s with depth := s.depth + 1 }
        with ⟨r, s1⟩
      rw [hf] at h1
      simp only at h1
      cases r with
      | error e => rw [bind_err hf]; exact G.callEarly s s1 hl' h1
      | ok params =>
        rw [bind_ok hf]
        have h2 := pres_runBody G hex cmd.body
          { s1 with ctx := freshCtx s1.depth params, log := s1.log ++ [.enter cmd.name s1.depth] }
        have h3 := G.call s s1 _ params cmd.name hl' h1 h2
        have h4 := inNewCtx_state H f cmd params s1
        rw [h4]
        exact h3

include hex in
theorem pres_callFn (fn : String) (named : List (String × Expr F)) (args : List (Val F)) :
    Pres R (callFn H P f fn named args) := by
  unfold callFn
  cases H.native fn with
  | some g =>
    simp only
    cases g (args.map (·.data)) with
    | ok v => exact pres_pure G _
    | error e => exact pres_raise G _
  | none =>
    cases findCmd P fn with
    | some cmd =>
      simp only
      split_ifs
      · exact pres_bind G (pres_resolveNamed G hev _ _) (fun _ => pres_callCommand G hev hex _ _)
      · exact pres_callCommand G hev hex _ _
    | none =>
      cases H.builtin fn with
      | none => exact pres_raise G _
      | some g => exact pres_bind G (fun s => G.builtin s fn) (fun _ => pres_lift G _)

include hex in
theorem pres_evalStep (e : Expr F) : Pres R (evalStep H P f e) := by
  cases e with
  | lit l => exact pres_pure G _
  | ident x =>
    intro s
    show R s (evIdent x s).2
    unfold evIdent
    cases lookup s.ctx.frames x <;> exact G.refl s
  | bin op a b => exact pres_bind G (hev a) (fun _ => pres_bind G (hev b) (fun _ => pres_lift G _))
  | un op a => exact pres_bind G (hev a) (fun _ => pres_lift G _)
  | call fn args named => exact pres_bind G (pres_mapM G hev args) (fun _ => pres_callFn G hev hex _ _ _)
  | method obj name args =>
    refine pres_bind G (hev obj) (fun r => pres_bind G (pres_mapM G hev args) (fun vs => ?_))
    cases H.method r.ty name with
    | some g => exact pres_lift G _
    | none => exact pres_raise G _
  | member obj name => exact pres_bind G (hev obj) (fun _ => pres_lift G _)
  | index obj i => exact pres_bind G (hev obj) (fun _ => pres_bind G (hev i) (fun _ => pres_lift G _))
  | list es => exact pres_bind G (pres_mapM G hev es) (fun _ => pres_pure G _)
  | comp elem clauses =>
    show Pres R (evComp H f elem clauses)
    unfold evComp
    split_ifs
    · exact pres_raise G _
    · exact pres_bind G (pres_scope G (pres_comp G hev _ _ _)) (fun _ => pres_pure G _)
  | range a b => exact pres_bind G (hev a) (fun _ => pres_bind G (hev b) (fun _ => pres_lift G _))
  | dict es => exact pres_bind G (pres_entries G hev es) (fun _ => pres_pure G _)
  | cond c t e =>
    refine pres_bind G (pres_truthy G hev c) (fun b => ?_)
    split_ifs
    · exact hev t
    · exact hev e
  | ifE c t e =>
    refine pres_bind G (pres_truthy G hev c) (fun b => ?_)
    split_ifs
    · exact hev t
    · cases e with
      | some e => exact hev e
      | none => exact pres_pure G _
  | matchE subj arms => exact pres_bind G (hev subj) (fun _ => pres_runArms G hev _ _)
  | lambda id => exact pres_pure G _
  | py code ty =>
    intro s
    show R s (evPy H code ty s).2
    unfold evPy
    cases H.pyEval code (namespaceOf s.ctx.frames) <;> exact G.refl s

include hex in
theorem pres_execStep (st : Stmt F) : Pres R (execStep H f st) := by
  cases st with
  | letS x e => exact pres_bind G (hev e) (fun _ => G.setVar _ _)
  | assign x e =>
    refine pres_bind G (hev e) (fun v => ?_)
    intro s
    unfold assignVar modCtx
    cases hu : update s.ctx.frames x v with
    | some fr => simp only [hu]; exact G.assign s x v fr hu
    | none => simp only [hu]; exact G.diag s _
  | assignTo e => exact pres_bind G (hev e) (fun _ => pres_raise G _)
  | require c msg =>
    refine pres_bind G (pres_truthy G hev c) (fun b => ?_)
    split_ifs
    · exact pres_pure G _
    · exact fun s => G.fail s _
  | emit v md =>
    refine pres_bind G (hev v) (fun v => pres_bind G (pres_entries G hev md) (fun md => ?_))
    exact fun s => G.emit s _ _
  | forS x it body =>
    exact pres_bind G (hev it) (fun v => pres_bind G (pres_lift G _) (fun items =>
      pres_scope G (pres_forItems G hex _ _ _ _)))
  | ifS c thn elifs els =>
    refine pres_bind G (pres_truthy G hev c) (fun b => ?_)
    split_ifs
    · exact pres_scope G (pres_runBody G hex _)
    · exact pres_runElifs G hev hex _ _
  | pass => exact pres_pure G _
  | expr e => exact pres_bind G (hev e) (fun _ => pres_pure G _)
  | ret e =>
    cases e with
    | none => exact fun s => G.ret s _
    | some e => exact pres_bind G (hev e) (fun v => fun s => G.ret s _)
  | block ss => exact pres_scope G (pres_runBody G hex _)
  | py code result =>
    intro s
    show R s (exPy H code result s).2
    unfold exPy
    cases H.pyExec code (namespaceOf s.ctx.frames) with
    | error e => exact G.refl s
    | ok o => cases o with
      | none => exact G.refl s
      | some p => exact G.setVar _ _ s

end

/-- a good relation is preserved by the whole interpreter -/
theorem pres_interp {P : Prog F} {R : St F → St F → Prop} (G : Good P R) (H : Host F) (n : Nat) :
    (∀ e, Pres R ((interp H P n).ev e)) ∧ (∀ s, Pres R ((interp H P n).ex s)) := by
  induction n with
  | zero => exact ⟨fun _ s => G.refl s, fun _ s => G.refl s⟩
  | succ n ih =>
    exact ⟨fun e => pres_evalStep G ih.1 ih.2 e, fun s => pres_execStep G ih.1 ih.2 s⟩

end Verif.Interp
