import Verif.Interp.Levels

/-! # Every run ends: the fuel of the model is never the reason of a failure -/

namespace Verif.Interp

open Verif.Dict Verif.Types
variable {F : Type}

/-- from call depth `d`, `m` does not run out of fuel and returns to depth `d` -/
def Safe {α : Type} (d : Nat) (m : M F α) : Prop :=
  ∀ s, s.depth = d → (m s).1 ≠ .error .outOfFuel ∧ (m s).2.depth = d

theorem safe_pure {α : Type} (d : Nat) (a : α) : Safe d (pure a : M F α) := fun s h => ⟨by simp [pure_def, ret], h⟩
theorem safe_raise {α : Type} (d : Nat) (e : Err) : Safe d (raise e : M F α) := fun s h => ⟨by simp [raise], h⟩
theorem safe_lift {α : Type} (d : Nat) (r : Except Err α) : Safe d (lift r : M F α) := by
  intro s h
  refine ⟨?_, h⟩
  cases r <;> simp [lift, Except.mapError]
theorem safe_mod (d : Nat) (g : Ctx F → Ctx F) : Safe d (modCtx g) := fun s h => ⟨by simp [modCtx], h⟩
theorem safe_note (d : Nat) (e : Nat → Event F) : Safe d (note e) := fun s h => ⟨by simp [note], h⟩

theorem safe_bind {α β : Type} {d : Nat} {m : M F α} {k : α → M F β} (hm : Safe d m) (hk : ∀ a, Safe d (k a)) :
    Safe d (m >>= k) := by
  intro s hs
  have h1 := hm s hs
  rcases h : m s with ⟨r, s'⟩
  rw [h] at h1
  cases r with
  | ok a => rw [bind_ok h]; exact hk a s' h1.2
  | error e => rw [bind_err h]; exact ⟨fun he => h1.1 (by simpa using he), h1.2⟩

theorem safe_scope {α : Type} {d : Nat} {m : M F α} (hm : Safe d m) : Safe d (withScope m) := by
  intro s hs
  exact hm { s with ctx := { s.ctx with frames := [] :: s.ctx.frames } } hs

theorem safe_foldM {α β : Type} {d : Nat} {g : β → α → M F β} (hg : ∀ b a, Safe d (g b a)) (l : List α) :
    ∀ b, Safe d (foldM g b l) := by
  induction l with
  | nil => intro b; exact safe_pure d b
  | cons a l ih => intro b; exact safe_bind (hg b a) (fun b' => ih b')

theorem safe_mapM {α β : Type} {d : Nat} {g : α → M F β} (l : List α) (hg : ∀ a ∈ l, Safe d (g a)) :
    Safe d (mapM g l) := by
  induction l with
  | nil => exact safe_pure d _
  | cons a l ih =>
    exact safe_bind (hg a (by simp)) (fun b => safe_bind (ih (fun a ha => hg a (List.mem_cons_of_mem _ ha)))
      (fun bs => safe_pure d _))

/-- an expression without named arguments anywhere -/
inductive NoNamed : Expr F → Prop
  | lit (l) : NoNamed (.lit l)
  | ident (x) : NoNamed (.ident x)
  | bin (op a b) : NoNamed a → NoNamed b → NoNamed (.bin op a b)
  | un (op a) : NoNamed a → NoNamed (.un op a)
  | call (fn args) : (∀ a ∈ args, NoNamed a) → NoNamed (.call fn args [])
  | method (o n args) : NoNamed o → (∀ a ∈ args, NoNamed a) → NoNamed (.method o n args)
  | member (o n) : NoNamed o → NoNamed (.member o n)
  | index (o i) : NoNamed o → NoNamed i → NoNamed (.index o i)
  | list (es) : (∀ e ∈ es, NoNamed e) → NoNamed (.list es)
  | comp (e cs) : NoNamed e → (∀ c ∈ cs, NoNamed c.2.1) → (∀ c ∈ cs, ∀ k ∈ c.2.2, NoNamed k) → NoNamed (.comp e cs)
  | range (a b) : NoNamed a → NoNamed b → NoNamed (.range a b)
  | dict (es) : (∀ p ∈ es, NoNamed p.2) → NoNamed (.dict es)
  | cond (c t e) : NoNamed c → NoNamed t → NoNamed e → NoNamed (.cond c t e)
  | ifE (c t e) : NoNamed c → NoNamed t → (∀ e', e = some e' → NoNamed e') → NoNamed (.ifE c t e)
  | matchE (s arms) : NoNamed s → (∀ a ∈ arms, NoNamed a.2) → NoNamed (.matchE s arms)
  | lambda (i) : NoNamed (.lambda i)
  | py (c t) : NoNamed (.py c t)

/-- no default value of a parameter uses named arguments -/
def DefaultsNoNamed (P : Prog F) : Prop :=
  ∀ c ∈ P.cmds, ∀ p ∈ c.params, ∀ e, p.default = some e → NoNamed e

/-- `K` bounds the size of every command body and default value of the program -/
def Bounds (P : Prog F) (K : Nat) : Prop :=
  ∀ c ∈ P.cmds, sizeOf c.body ≤ K ∧ ∀ p ∈ c.params, ∀ e, p.default = some e → sizeOf e ≤ K

section
variable {P : Prog F} {H : Host F} {f : Fns F} {d B : Nat} {Q : Expr F → Prop}
  (hev : ∀ e : Expr F, sizeOf e < B → Q e → Safe d (f.ev e)) (hex : ∀ s : Stmt F, sizeOf s < B → Safe d (f.ex s))
include hev

theorem safe_truthy {e : Expr F} (h : sizeOf e < B) (q : Q e) : Safe d (evTruthy H f e) :=
  safe_bind (hev e h q) (fun _ => safe_lift d _)

theorem safe_allTrue (l : List (Expr F)) (h : sizeOf l < B) (q : ∀ e ∈ l, Q e) : Safe d (allTrue H f l) := by
  induction l with
  | nil => exact safe_pure d _
  | cons c cs ih =>
    simp only [List.cons.sizeOf_spec] at h
    refine safe_bind (safe_truthy hev (by omega) (q c (by simp))) (fun b => ?_)
    split_ifs
    · exact ih (by omega) (fun e he => q e (List.mem_cons_of_mem _ he))
    · exact safe_pure d _

theorem safe_comp (elem : Expr F) (he : sizeOf elem < B) (qe : Q elem) (cs : List (String × Expr F × List (Expr F)))
    (h : sizeOf cs < B) (q1 : ∀ c ∈ cs, Q c.2.1) (q2 : ∀ c ∈ cs, ∀ k ∈ c.2.2, Q k) : ∀ acc, Safe d (compClauses H f elem cs acc) := by
  induction cs with
  | nil =>
    intro acc
    unfold compClauses
    split_ifs
    · exact safe_raise d _
    · exact safe_bind (hev elem he qe) (fun _ => safe_pure d _)
  | cons c cs ih =>
    intro acc
    obtain ⟨x, it, conds⟩ := c
    simp only [List.cons.sizeOf_spec, Prod.mk.sizeOf_spec] at h
    unfold compClauses
    refine safe_bind (hev _ (by show sizeOf it < B; omega) (q1 _ List.mem_cons_self)) (fun it => ?_)
    cases iterItems H it.data with
    | none => exact safe_raise d _
    | some items =>
      refine safe_foldM (fun acc a => ?_) items acc
      split_ifs
      · exact safe_raise d _
      · refine safe_bind (safe_mod d _) (fun _ => safe_bind (safe_allTrue hev _ (by show sizeOf conds < B; omega)
          (q2 _ List.mem_cons_self))
          (fun ok => ?_))
        split_ifs
        · exact ih (by omega) (fun c hc => q1 c (List.mem_cons_of_mem _ hc)) (fun c hc => q2 c (List.mem_cons_of_mem _ hc)) acc
        · exact safe_pure d _

theorem safe_runArms (v : Val F) (as : List (Pat F × Expr F)) (h : sizeOf as < B) (q : ∀ a ∈ as, Q a.2) : Safe d (runArms H f v as) := by
  induction as with
  | nil => exact safe_raise d _
  | cons a as ih =>
    obtain ⟨p, e⟩ := a
    simp only [List.cons.sizeOf_spec, Prod.mk.sizeOf_spec] at h
    unfold runArms
    refine safe_bind ?_ (fun b => ?_)
    · unfold patMatches
      cases p with
      | wild => exact safe_pure d _
      | lit d' => exact safe_pure d _
      | ident x => exact safe_bind (safe_mod d _) (fun _ => safe_pure d _)
      | other => exact safe_pure d _
    · split_ifs
      · exact hev _ (by show sizeOf e < B; omega) (q _ List.mem_cons_self)
      · exact ih (by omega) (fun a ha => q a (List.mem_cons_of_mem _ ha))

theorem safe_entries (es : List (String × Expr F)) (h : sizeOf es < B) (q : ∀ p ∈ es, Q p.2) : Safe d (evEntries f es) := by
  unfold evEntries
  generalize ([] : List (String × Data F)) = acc
  induction es generalizing acc with
  | nil => exact safe_pure d _
  | cons p es ih =>
    obtain ⟨x, e⟩ := p
    simp only [List.cons.sizeOf_spec, Prod.mk.sizeOf_spec] at h
    exact safe_bind (safe_bind (hev _ (by show sizeOf e < B; omega) (q _ List.mem_cons_self)) (fun _ => safe_pure d _))
      (fun b => ih (by omega) (fun p hp => q p (List.mem_cons_of_mem _ hp)) b)

omit hev in
theorem safe_fillDefaults (ps : List (Param F)) (hp : ∀ p ∈ ps, ∀ e, p.default = some e → Safe d (f.ev e)) :
    ∀ m, Safe d (fillDefaults f ps m) := by
  induction ps with
  | nil => exact fun m => safe_pure d _
  | cons p ps ih =>
    intro m
    have ih := ih (fun q hq => hp q (List.mem_cons_of_mem _ hq))
    unfold fillDefaults
    cases hd : p.default with
    | none => exact ih m
    | some e => exact safe_bind (hp p (by simp) e hd) (fun v => ih _)

omit hev in
theorem safe_resolveNamed (named : List (String × Expr F)) (hn : ∀ p ∈ named, Safe d (f.ev p.2)) (ps : List (Param F))
    (hp : ∀ p ∈ ps, ∀ e, p.default = some e → Safe d (f.ev e)) : Safe d (resolveNamed f named ps) := by
  induction ps with
  | nil => exact safe_pure d _
  | cons p ps ih =>
    have ih := ih (fun q hq => hp q (List.mem_cons_of_mem _ hq))
    unfold resolveNamed
    refine safe_bind ?_ (fun v => safe_bind ih (fun vs => safe_pure d _))
    unfold namedArg
    cases hg : dget named p.name with
    | some e => exact hn _ (mem_of_dget hg)
    | none => cases hd : p.default with
      | some e => exact hp p (by simp) e hd
      | none => exact safe_raise d _

omit hev in
include hex in
theorem safe_runBody (ss : List (Stmt F)) (h : sizeOf ss ≤ B) : Safe d (runBody f ss) := by
  induction ss with
  | nil => exact safe_pure d _
  | cons s ss ih =>
    simp only [List.cons.sizeOf_spec] at h
    unfold runBody
    refine safe_bind (hex s (by omega)) (fun _ => ?_)
    intro st hst
    unfold unlessRet
    by_cases hr : st.ctx.ret.isSome
    · simp only [hr, if_true]; exact ⟨by simp, hst⟩
    · simp only [hr]; exact ih (by omega) st hst

omit hev in
include hex in
theorem safe_forItems (x : String) (t : Ty) (body : List (Stmt F)) (h : sizeOf body ≤ B) (ds : List (Data F)) :
    Safe d (forItems f x t body ds) := by
  induction ds with
  | nil => exact safe_pure d _
  | cons a ds ih =>
    unfold forItems
    refine safe_bind (safe_mod d _) (fun _ => safe_bind (safe_runBody hex body h) (fun _ => ?_))
    intro st hst
    unfold unlessRet
    by_cases hr : st.ctx.ret.isSome
    · simp only [hr, if_true]; exact ⟨by simp, hst⟩
    · simp only [hr]; exact ih st hst

include hex in
theorem safe_runElifs (hq : ∀ e, Q e) (els : Option (List (Stmt F))) (h1 : sizeOf els ≤ B) (bs : List (Expr F × List (Stmt F)))
    (h2 : sizeOf bs ≤ B) : Safe d (runElifs H f els bs) := by
  induction bs with
  | nil =>
    unfold runElifs
    cases els with
    | none => exact safe_pure d _
    | some ss =>
      simp only [Option.some.sizeOf_spec] at h1
      exact safe_scope (safe_runBody hex ss (by omega))
  | cons b bs ih =>
    obtain ⟨c, ss⟩ := b
    simp only [List.cons.sizeOf_spec, Prod.mk.sizeOf_spec] at h2
    unfold runElifs
    refine safe_bind (safe_truthy hev (by show sizeOf c < B; omega) (hq _)) (fun t => ?_)
    split_ifs
    · exact safe_scope (safe_runBody hex _ (by show sizeOf ss ≤ B; omega))
    · exact ih (by omega)

end

theorem safe_inNewCtx {H : Host F} {f : Fns F} {d : Nat} (cmd : Cmd F) (params : List (String × Val F))
    (h : Safe d (runBody f cmd.body)) : Safe d (inNewCtx H f cmd params) := by
  have hb : Safe d (cmdBody H f cmd) := by
    refine safe_bind (safe_note d _) (fun _ => safe_bind h (fun _ => safe_bind ?_ (fun _ => ?_)))
    · intro s hs
      obtain ⟨c, hc, -⟩ := applyHint_state H cmd s
      refine ⟨?_, by rw [hc]; exact hs⟩
      unfold applyHint
      split
      · split <;> simp
      · simp
    · intro s hs
      unfold emittedVal
      split
      · exact ⟨by simp, hs⟩
      · exact ⟨by simp, hs⟩
  intro s hs
  exact hb { s with ctx := freshCtx s.depth params } hs

theorem safe_callCommand {P : Prog F} {H : Host F} {f : Fns F} {d K : Nat} (hK : Bounds P K) (cmd : Cmd F)
    (hc : cmd ∈ P.cmds) (args : List (Val F))
    (hev : d + 1 ≤ P.limit → ∀ p ∈ cmd.params, ∀ e, p.default = some e → Safe (d + 1) (f.ev e))
    (hex : d + 1 ≤ P.limit → ∀ s : Stmt F, sizeOf s < K + 1 → Safe (d + 1) (f.ex s)) :
    Safe d (callCommand H P f cmd args) := by
  intro s hs
  unfold callCommand
  split_ifs with hl
  · exact ⟨by simp, hs⟩
  · have hl' : d + 1 ≤ P.limit := by omega
    have hb : Safe (d + 1) (callBody H f cmd args) := by
      unfold callBody
      split_ifs
      · exact safe_raise _ _
      · refine safe_bind (safe_fillDefaults _ (fun p hp => hev hl' p (List.mem_of_mem_drop hp)) _) (fun params => ?_)
        refine safe_inNewCtx cmd params (safe_runBody (B := K + 1) (hex hl') _ ?_)
        have := (hK cmd hc).1
        omega
    have := hb { s with depth := s.depth + 1 } (by simp [hs])
    refine ⟨this.1, ?_⟩
    show (callBody H f cmd args { s with depth := s.depth + 1 }).2.depth - 1 = d
    rw [this.2]; rfl

/-- fuel that suffices for something of size `n` at call depth `d`; `b` says that named arguments may occur in it -/
def need (P : Prog F) (K : Nat) (b : Bool) (d n : Nat) : Nat :=
  n + (if b then K + 2 else 0) + (P.limit - d) * (2 * K + 4)

theorem need_call {P : Prog F} {K d n m : Nat} {b : Bool} (h : need P K b d n < m + 1) (hn : 1 ≤ n)
    (hl : d + 1 ≤ P.limit) (b' : Bool) (k : Nat) (hk : k < K + 1) : need P K b' (d + 1) k < m := by
  unfold need at h ⊢
  have : P.limit - d = (P.limit - (d + 1)) + 1 := by omega
  rw [this, Nat.add_mul] at h
  split_ifs at h ⊢ <;> omega

theorem safe_interp {P : Prog F} {K : Nat} (hK : Bounds P K) (hN : DefaultsNoNamed P) (H : Host F) (m : Nat) :
    (∀ b d (e : Expr F), (b = true ∨ NoNamed e) → need P K b d (sizeOf e) < m → Safe d ((interp H P m).ev e)) ∧
    (∀ d (s : Stmt F), need P K true d (sizeOf s) < m → Safe d ((interp H P m).ex s)) := by
  induction m with
  | zero => exact ⟨fun _ _ _ _ h => absurd h (Nat.not_lt_zero _), fun _ _ h => absurd h (Nat.not_lt_zero _)⟩
  | succ m ih =>
    obtain ⟨ihe, ihs⟩ := ih
    have sube : ∀ b d n, need P K b d n < m + 1 → ∀ e : Expr F, sizeOf e < n → (b = true ∨ NoNamed e) →
        Safe d ((interp H P m).ev e) := by
      intro b d n hn e he hb
      refine ihe b d e hb ?_
      unfold need at hn ⊢
      omega
    have subs : ∀ d n, need P K true d n < m + 1 → ∀ s : Stmt F, sizeOf s < n → Safe d ((interp H P m).ex s) := by
      intro d n hn s hs
      apply ihs
      unfold need at hn ⊢
      omega
    have subd : ∀ d n, need P K true d n < m + 1 → 1 ≤ n → ∀ c ∈ P.cmds, ∀ p ∈ c.params, ∀ e, p.default = some e →
        Safe d ((interp H P m).ev e) := by
      intro d n hn h1 c hc p hp e he
      have := (hK c hc).2 p hp e he
      refine ihe false d e (.inr (hN c hc p hp e he)) ?_
      unfold need at hn ⊢
      simp only [if_true] at hn
      simp only [Bool.false_eq_true, if_false]
      omega
    constructor
    · intro b d e hQ hd
      have he := sube b d _ hd
      show Safe d (evalStep H P (interp H P m) e)
      cases e with
      | lit l => exact safe_pure d _
      | ident x =>
        intro s hs
        show (evIdent x s).1 ≠ _ ∧ (evIdent x s).2.depth = d
        unfold evIdent
        cases lookup s.ctx.frames x <;> exact ⟨by simp, hs⟩
      | bin op a b =>
        simp only [Expr.bin.sizeOf_spec] at he
        exact safe_bind (he a (by omega) (hQ.imp_right fun h => by cases h; assumption))
          (fun _ => safe_bind (he b (by omega) (hQ.imp_right fun h => by cases h; assumption)) (fun _ => safe_lift d _))
      | un op a =>
        simp only [Expr.un.sizeOf_spec] at he
        exact safe_bind (he a (by omega) (hQ.imp_right fun h => by cases h; assumption)) (fun _ => safe_lift d _)
      | call fn args named =>
        have hd1 : 1 ≤ sizeOf (Expr.call fn args named) := by simp only [Expr.call.sizeOf_spec]; omega
        have hcall : ∀ cmd ∈ P.cmds, ∀ vs, Safe d (callCommand H P (interp H P m) cmd vs) := by
          intro cmd hc vs
          refine safe_callCommand hK cmd hc vs
            (fun hl p hp e hpe => ihe true _ e (.inl rfl) (need_call hd hd1 hl true _ ?_))
            (fun hl e hk => ihs _ e (need_call hd hd1 hl true _ hk))
          have := (hK cmd hc).2 p hp e hpe
          omega
        have hdef : !named.isEmpty → ∀ c ∈ P.cmds, ∀ p ∈ c.params, ∀ e, p.default = some e →
            Safe d ((interp H P m).ev e) := by
          intro hne
          rcases hQ with rfl | hQ
          · exact subd d _ hd hd1
          · cases hQ; simp at hne
        simp only [Expr.call.sizeOf_spec] at he
        refine safe_bind (safe_mapM args (fun a ha => he a ?_ (hQ.imp_right fun h => by cases h with | call _ _ h => exact h a ha)))
          (fun vs => ?_)
        · have := List.sizeOf_lt_of_mem ha; omega
        · unfold callFn
          cases H.native fn with
          | some g =>
            simp only
            cases g (vs.map (·.data)) with
            | ok v => exact safe_pure d _
            | error e => exact safe_raise d _
          | none =>
            cases hcm : findCmd P fn with
            | some cmd =>
              have hmem : cmd ∈ P.cmds := List.mem_of_find?_eq_some hcm
              simp only
              split_ifs with hne
              · simp only [Bool.and_eq_true] at hne
                refine safe_bind (safe_resolveNamed named ?_ _
                  (fun p hp e hpe => hdef hne.1 cmd hmem p hp e hpe)) (fun _ => hcall cmd hmem _)
                intro p hp
                have := List.sizeOf_lt_of_mem hp
                obtain ⟨x, e⟩ := p
                simp only [Prod.mk.sizeOf_spec] at this
                refine he e (by omega) (hQ.imp_right fun h => by cases h; simp at hp)
              · exact hcall cmd hmem _
            | none =>
              cases H.builtin fn with
              | none => exact safe_raise d _
              | some g => exact safe_bind (safe_note d _) (fun _ => safe_lift d _)
      | method o n args =>
        simp only [Expr.method.sizeOf_spec] at he
        refine safe_bind (he o (by omega) (hQ.imp_right fun h => by cases h; assumption)) (fun r =>
          safe_bind (safe_mapM args (fun a ha => he a ?_ (hQ.imp_right fun h => by
            cases h with | method _ _ _ _ h => exact h a ha))) (fun vs => ?_))
        · have := List.sizeOf_lt_of_mem ha; omega
        · cases H.method r.ty n with
          | some g => exact safe_lift d _
          | none => exact safe_raise d _
      | member o n =>
        simp only [Expr.member.sizeOf_spec] at he
        exact safe_bind (he o (by omega) (hQ.imp_right fun h => by cases h; assumption)) (fun _ => safe_lift d _)
      | index o i =>
        simp only [Expr.index.sizeOf_spec] at he
        exact safe_bind (he o (by omega) (hQ.imp_right fun h => by cases h; assumption))
          (fun _ => safe_bind (he i (by omega) (hQ.imp_right fun h => by cases h; assumption)) (fun _ => safe_lift d _))
      | list es =>
        simp only [Expr.list.sizeOf_spec] at he
        refine safe_bind (safe_mapM es (fun a ha => he a ?_ (hQ.imp_right fun h => by cases h with | list _ h => exact h a ha)))
          (fun _ => safe_pure d _)
        have := List.sizeOf_lt_of_mem ha; omega
      | comp e cs =>
        simp only [Expr.comp.sizeOf_spec] at he
        show Safe d (evComp H (interp H P m) e cs)
        unfold evComp
        split_ifs
        · exact safe_raise d _
        · refine safe_bind (safe_scope (safe_comp he e (by omega) (hQ.imp_right fun h => by cases h; assumption) cs
            (by omega) ?_ ?_ [])) (fun _ => safe_pure d _)
          · exact fun c hc => hQ.imp_right fun h => by cases h with | comp _ _ _ h _ => exact h c hc
          · exact fun c hc k hk => hQ.imp_right fun h => by cases h with | comp _ _ _ _ h => exact h c hc k hk
      | range a b =>
        simp only [Expr.range.sizeOf_spec] at he
        exact safe_bind (he a (by omega) (hQ.imp_right fun h => by cases h; assumption))
          (fun _ => safe_bind (he b (by omega) (hQ.imp_right fun h => by cases h; assumption)) (fun _ => safe_lift d _))
      | dict es =>
        simp only [Expr.dict.sizeOf_spec] at he
        exact safe_bind (safe_entries he es (by omega) (fun p hp => hQ.imp_right fun h => by
          cases h with | dict _ h => exact h p hp)) (fun _ => safe_pure d _)
      | cond c t e =>
        simp only [Expr.cond.sizeOf_spec] at he
        refine safe_bind (safe_truthy he (by omega) (hQ.imp_right fun h => by cases h; assumption)) (fun b => ?_)
        split_ifs
        · exact he t (by omega) (hQ.imp_right fun h => by cases h; assumption)
        · exact he e (by omega) (hQ.imp_right fun h => by cases h; assumption)
      | ifE c t e =>
        simp only [Expr.ifE.sizeOf_spec] at he
        refine safe_bind (safe_truthy he (by omega) (hQ.imp_right fun h => by cases h; assumption)) (fun b => ?_)
        split_ifs
        · exact he t (by omega) (hQ.imp_right fun h => by cases h; assumption)
        · cases e with
          | some e =>
            simp only [Option.some.sizeOf_spec] at he
            exact he e (by omega) (hQ.imp_right fun h => by cases h with | ifE _ _ _ _ _ h => exact h e rfl)
          | none => exact safe_pure d _
      | matchE sb arms =>
        simp only [Expr.matchE.sizeOf_spec] at he
        exact safe_bind (he sb (by omega) (hQ.imp_right fun h => by cases h; assumption)) (fun v =>
          safe_runArms he v arms (by omega) (fun a ha => hQ.imp_right fun h => by
            cases h with | matchE _ _ _ h => exact h a ha))
      | lambda i => exact safe_pure d _
      | py c t =>
        intro s hs
        show (evPy H c t s).1 ≠ _ ∧ (evPy H c t s).2.depth = d
        unfold evPy
        cases H.pyEval c (namespaceOf s.ctx.frames) <;> exact ⟨by simp, hs⟩
    · intro d st hd
      have he0 := sube true d _ hd
      have he : ∀ e : Expr F, sizeOf e < sizeOf st → True → Safe d ((interp H P m).ev e) :=
        fun e h _ => he0 e h (.inl rfl)
      have hs := subs d _ hd
      show Safe d (execStep H (interp H P m) st)
      cases st with
      | letS x e =>
        simp only [Stmt.letS.sizeOf_spec] at he
        exact safe_bind (he e (by omega) trivial) (fun _ => safe_mod d _)
      | assign x e =>
        simp only [Stmt.assign.sizeOf_spec] at he
        exact safe_bind (he e (by omega) trivial) (fun _ => safe_mod d _)
      | assignTo e =>
        simp only [Stmt.assignTo.sizeOf_spec] at he
        exact safe_bind (he e (by omega) trivial) (fun _ => safe_raise d _)
      | require c msg =>
        simp only [Stmt.require.sizeOf_spec] at he
        refine safe_bind (safe_truthy he (by omega) trivial) (fun b => ?_)
        split_ifs
        · exact safe_pure d _
        · exact safe_bind (safe_mod d _) (fun _ => safe_note d _)
      | emit v md =>
        simp only [Stmt.emit.sizeOf_spec] at he
        exact safe_bind (he v (by omega) trivial) (fun _ => safe_bind (safe_entries he md (by omega) (fun _ _ => trivial))
          (fun _ => safe_bind (safe_mod d _) (fun _ => safe_note d _)))
      | forS x it body =>
        simp only [Stmt.forS.sizeOf_spec] at he hs
        exact safe_bind (he it (by omega) trivial) (fun v => safe_bind (safe_lift d _) (fun items =>
          safe_scope (safe_forItems hs _ _ _ (by omega) _)))
      | ifS c thn elifs els =>
        simp only [Stmt.ifS.sizeOf_spec] at he hs
        refine safe_bind (safe_truthy he (by omega) trivial) (fun b => ?_)
        split_ifs
        · exact safe_scope (safe_runBody hs _ (by omega))
        · exact safe_runElifs he hs (fun _ => trivial) _ (by omega) _ (by omega)
      | pass => exact safe_pure d _
      | expr e =>
        simp only [Stmt.expr.sizeOf_spec] at he
        exact safe_bind (he e (by omega) trivial) (fun _ => safe_pure d _)
      | ret e =>
        cases e with
        | none => exact safe_mod d _
        | some e =>
          simp only [Stmt.ret.sizeOf_spec, Option.some.sizeOf_spec] at he
          exact safe_bind (he e (by omega) trivial) (fun _ => safe_mod d _)
      | block ss =>
        simp only [Stmt.block.sizeOf_spec] at hs
        exact safe_scope (safe_runBody hs _ (by omega))
      | py code result =>
        intro s hs
        show (exPy H code result s).1 ≠ _ ∧ (exPy H code result s).2.depth = d
        unfold exPy
        cases H.pyExec code (namespaceOf s.ctx.frames) with
        | error e => exact ⟨by simp, hs⟩
        | ok o => cases o with
          | none => exact ⟨by simp, hs⟩
          | some p => exact safe_mod d _ s hs

/-- some bound exists for every program -/
theorem bounds_exist (P : Prog F) : ∃ K, Bounds P K := by
  have hp : ∀ ps : List (Param F), ∃ K, ∀ p ∈ ps, ∀ e, p.default = some e → sizeOf e ≤ K := by
    intro ps
    induction ps with
    | nil => exact ⟨0, by simp⟩
    | cons p ps ih =>
      obtain ⟨K, hK⟩ := ih
      refine ⟨max K (sizeOf p.default), ?_⟩
      intro q hq e he
      rcases List.mem_cons.mp hq with rfl | hq
      · rw [he]; simp only [Option.some.sizeOf_spec]; omega
      · have := hK q hq e he; omega
  obtain ⟨cmds, lim⟩ := P
  unfold Bounds
  simp only
  induction cmds with
  | nil => exact ⟨0, by simp⟩
  | cons c cs ih =>
    obtain ⟨K, hK⟩ := ih
    obtain ⟨K', hK'⟩ := hp c.params
    refine ⟨max K (max K' (sizeOf c.body)), ?_⟩
    intro c' hc
    rcases List.mem_cons.mp hc with rfl | hc
    · exact ⟨by omega, fun p hp e he => by have := hK' p hp e he; omega⟩
    · have := hK c' hc
      exact ⟨by omega, fun p hp e he => by have := this.2 p hp e he; omega⟩

end Verif.Interp
