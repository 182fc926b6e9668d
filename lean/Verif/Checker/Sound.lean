import Verif.Checker.Tr

/-! # The checker finds no error exactly in well-typed code -/

namespace Verif.Checker

open Verif.Types (Ty accepts commonType isNumeric isPoint isVector)
open Verif.Parser (Name Expr Clause Stmt Block Pat Mod Fn Param NBlock NFn NDecl)

theorem mono_wantBool (t : Ty) (c : String) : Mono (wantBool t c) := Mono.errIf _ _ _
theorem mono_wantInt (t : Ty) (c : String) : Mono (wantInt t c) := Mono.errIf _ _ _
theorem mono_argOk (p t : Ty) (c : String) : Mono (argOk p t c) := Mono.errIf _ _ _

/-- monotonicity of any step of the checker -/
macro "mono_all" : tactic => `(tactic| repeat' first
  | with_reducible apply Mono.checkE | with_reducible apply Mono.checkArgs | with_reducible apply Mono.checkNamed
  | with_reducible apply Mono.checkElems | with_reducible apply Mono.checkClauses | with_reducible apply Mono.checkConds
  | with_reducible apply Mono.checkArms | with_reducible apply Mono.checkS | with_reducible apply Mono.checkElifs
  | with_reducible apply Mono.checkB | with_reducible apply Mono.checkSs | with_reducible apply Mono.defineAll
  | with_reducible apply Mono.declare
  | with_reducible apply mono_wantBool | with_reducible apply mono_wantInt | with_reducible apply mono_argOk
  | mono_step')

theorem checkE_indirect (K : Cfg) {f : Expr} (h : ∀ n, f ≠ .ident n) (args : List Expr) (named : List (Name × Expr)) :
    checkE K (.call f args named) = guardE K (do let _ ← checkE K f; pure .unknown) := by
  cases f <;> first | rfl | exact absurd rfl (h _)

variable {K : Cfg}

/-- enter a scope, do something, leave the scope -/
theorem tr_scoped {α β : Type} {Γ : List Frame} {m : M α} {f : α → β} {P : α → List Frame → Prop} (g : Good Γ) (mono : Mono m)
    (h : Tr (emptyFrame :: Γ) m P) (hp : ∀ a Γ1, P a Γ1 → Same (emptyFrame :: Γ) Γ1) :
    Tr Γ (do push; let a ← m; pop; pure (f a)) (fun b Γ' => (∃ a Γ1, P a Γ1 ∧ b = f a) ∧ Γ' = Γ) := by
  refine (Tr.bind (Q := fun _ _ b Γ' => (∃ a Γ1, P a Γ1 ∧ b = f a) ∧ Γ' = Γ) Tr.push (fun _ => by mono_all)
    (fun _ Γ1 h1 => ?_)).iff ?_
  · subst h1
    refine (Tr.bind h (fun _ => by mono_all) (fun a Γ1 ha =>
      Tr.bind (Tr.pop (Γ := Γ) (hp a Γ1 ha).1.1 g.1 (hp a Γ1 ha).2) (fun _ => Mono.pure _) (fun _ _ _ => Tr.pure _))).iff ?_
    intro b Γ'
    constructor
    · rintro ⟨a, Γ1, ha, -, _, rfl, rfl, rfl⟩
      exact ⟨⟨a, Γ1, ha, rfl⟩, rfl⟩
    · rintro ⟨⟨a, Γ1, ha, rfl⟩, rfl⟩
      exact ⟨a, Γ1, ha, (), _, rfl, rfl, rfl⟩
  · intro b Γ'
    constructor
    · rintro ⟨-, _, rfl, h⟩; exact h
    · intro h; exact ⟨(), _, rfl, h⟩

/-- enter a scope, do something, leave the scope -/
theorem tr_scopedU {α : Type} {Γ : List Frame} {m : M α} {P : α → List Frame → Prop} (g : Good Γ) (mono : Mono m)
    (h : Tr (emptyFrame :: Γ) m P) (hp : ∀ a Γ1, P a Γ1 → Same (emptyFrame :: Γ) Γ1) :
    Tr Γ (do push; let _ ← m; pop) (fun _ Γ' => (∃ a Γ1, P a Γ1) ∧ Γ' = Γ) := by
  refine (Tr.bind (Q := fun _ _ _ Γ' => (∃ a Γ1, P a Γ1) ∧ Γ' = Γ) Tr.push (fun _ => by mono_all)
    (fun _ Γ1 h1 => ?_)).iff ?_
  · subst h1
    refine (Tr.bind h (fun _ => by mono_all) (fun a Γ1 ha => Tr.pop (Γ := Γ) (hp a Γ1 ha).1.1 g.1 (hp a Γ1 ha).2)).iff ?_
    intro b Γ'
    constructor
    · rintro ⟨a, Γ1, ha, rfl⟩
      exact ⟨⟨a, Γ1, ha⟩, rfl⟩
    · rintro ⟨⟨a, Γ1, ha⟩, rfl⟩
      exact ⟨a, Γ1, ha, rfl⟩
  · intro b Γ'
    constructor
    · rintro ⟨-, _, rfl, h⟩; exact h
    · intro h; exact ⟨(), _, rfl, h⟩

/-- a Boolean condition and then something -/
theorem tr_bool {β : Type} {Γ : List Frame} {t : Ty} (h : clean t = true) {c : String} {k : Unit → M β}
    {Q : β → List Frame → Prop} (mono : ∀ a, Mono (k a)) (hk : Tr Γ (k ()) Q) :
    Tr Γ (wantBool t c >>= k) (fun b Γ' => t = .prim .bool ∧ Q b Γ') :=
  (Tr.val (P := fun _ => t = .prim .bool) (Q := fun _ => Q) (fun Γ => tr_wantBool h c) mono (fun _ _ => hk)).iff fun b Γ' =>
    ⟨fun ⟨_, h, q⟩ => ⟨h, q⟩, fun ⟨h, q⟩ => ⟨(), h, q⟩⟩

/-- an integer and then something -/
theorem tr_int {β : Type} {Γ : List Frame} {t : Ty} (h : clean t = true) {c : String} {k : Unit → M β}
    {Q : β → List Frame → Prop} (mono : ∀ a, Mono (k a)) (hk : Tr Γ (k ()) Q) :
    Tr Γ (wantInt t c >>= k) (fun b Γ' => t = .prim .int ∧ Q b Γ') :=
  (Tr.val (P := fun _ => t = .prim .int) (Q := fun _ => Q) (fun Γ => tr_wantInt h c) mono (fun _ _ => hk)).iff fun b Γ' =>
    ⟨fun ⟨_, h, q⟩ => ⟨h, q⟩, fun ⟨h, q⟩ => ⟨(), h, q⟩⟩

/-- the message of a requirement -/
theorem tr_msg {Γ : List Frame} {t : Ty} (h : clean t = true) (c : String) :
    Tr Γ (errIf (t ≠ .prim .string && t ≠ .error) c) (fun _ Γ' => t = .prim .string ∧ Γ' = Γ) := by
  refine (Tr.errIf _ _ _).iff fun _ _ => ?_
  have := clean_ne h
  simp [this]

mutual
theorem trE (hK : 1 ≤ K.max) : ∀ (e : Expr) {Γ : List Frame}, wfE e → Good Γ →
    Tr Γ (checkE K e) (fun t Γ' => HasTy K.ret Γ e t Γ')
  | .lit k v, Γ, w, g => by
    unfold checkE
    unfold wfE at w
    refine Tr.guardE hK ((Tr.pure _).iff fun t Γ' => ?_)
    constructor
    · rintro ⟨rfl, rfl⟩; exact .lit w
    · intro h; cases h; exact ⟨rfl, rfl⟩
  | .ident n, Γ, w, g => by
    unfold checkE
    exact Tr.guardE hK (tr_identTy K.ret n)
  | .bin op l r, Γ, w, g => by
    unfold wfE at w
    unfold checkE
    refine Tr.guardE hK ((Tr.bind (trE hK l w.2.1 g) (fun _ => by mono_all) (fun a Γ1 h1 =>
      Tr.bind (trE hK r w.2.2 (pres l h1 g).2.1) (fun _ => by mono_all) (fun b Γ2 h2 =>
      tr_binTy w.1 (pres l h1 g).1 (pres r h2 (pres l h1 g).2.1).1))).iff ?_)
    intro t Γ'
    constructor
    · rintro ⟨a, Γ1, h1, b, Γ2, h2, h3, rfl⟩
      exact .bin h1 h2 h3
    · intro h
      cases h with
      | bin h1 h2 h3 => exact ⟨_, _, h1, _, _, h2, h3, rfl⟩
  | .un op e, Γ, w, g => by
    unfold wfE at w
    unfold checkE
    refine Tr.guardE hK ((Tr.bind (trE hK e w.2 g) (fun _ => by mono_all) (fun a Γ1 h1 =>
      tr_unTy w.1 (pres e h1 g).1)).iff ?_)
    intro t Γ'
    constructor
    · rintro ⟨a, Γ1, h1, h3, rfl⟩
      exact .un h1 h3
    · intro h
      cases h with
      | un h1 h3 => exact ⟨_, _, h1, h3, rfl⟩
  | .call f args named, Γ, w, g => by
    unfold wfE at w
    have ihf := trE hK f w.1 g
    by_cases hf : ∀ n, f ≠ .ident n
    · rw [checkE_indirect K hf]
      refine Tr.guardE hK ((Tr.bind ihf (fun _ => Mono.pure _) (fun _ _ _ => Tr.pure _)).iff ?_)
      intro t Γ'
      constructor
      · rintro ⟨a, Γ1, h1, rfl, rfl⟩
        exact .indirect hf h1
      · intro h
        cases h with
        | indirect _ h1 => exact ⟨_, _, h1, rfl, rfl⟩
        | builtin => exact absurd rfl (hf _)
        | constructor => exact absurd rfl (hf _)
        | user => exact absurd rfl (hf _)
    · simp only [ne_eq, not_forall, not_not] at hf
      obtain ⟨n, rfl⟩ := hf
      clear ihf
      unfold checkE
      refine Tr.guardE hK ?_
      dsimp only
      cases hb : lookupBuiltin n with
      | some sig =>
        dsimp only
        refine (Tr.errIf_bind (fun _ => by mono_all) fun _ =>
          Tr.bind (trArgs hK "E272" args (ps := sig.params.map (·.2.1)) w.2.1 g) (fun _ => by mono_all) (fun ts Γ1 h1 =>
          Tr.bind (trNamed hK named w.2.2 (al := some (sig.params.map fun p => nm p.1)) (presArgs args h1 g).2.1)
            (fun _ => Mono.pure _) (fun _ _ _ => Tr.pure _))).iff ?_
        intro t Γ'
        constructor
        · rintro ⟨h0, ts, Γ1, h1, -, _, h2, rfl, rfl⟩
          exact .builtin hb (by simpa using h0) h1 h2
        · intro h
          cases h with
          | builtin hb' h0 h1 h2 =>
            rw [hb] at hb'
            injection hb' with hb'
            subst hb'
            exact ⟨by simpa using h0, _, _, h1, (), _, h2, rfl, rfl⟩
          | constructor hb' => simp [hb] at hb'
          | user hb' => simp [hb] at hb'
          | indirect hn => exact absurd rfl (hn n)
      | none =>
        dsimp only
        cases hr : resolveName n with
        | some u =>
          dsimp only
          refine (Tr.bind (trArgs hK "" args (ps := []) w.2.1 g) (fun _ => by mono_all) (fun ts Γ1 h1 =>
            Tr.bind (trNamed hK named w.2.2 (al := none) (presArgs args h1 g).2.1)
              (fun _ => Mono.pure _) (fun _ _ _ => Tr.pure _))).iff ?_
          intro t Γ'
          constructor
          · rintro ⟨ts, Γ1, h1, -, _, h2, rfl, rfl⟩
            exact .constructor hb hr h1 h2
          · intro h
            cases h with
            | builtin hb' => simp [hb] at hb'
            | constructor _ hr' h1 h2 =>
              rw [hr] at hr'
              injection hr' with hr'
              subst hr'
              exact ⟨_, _, h1, (), _, h2, rfl, rfl⟩
            | user _ hr' => simp [hr] at hr'
            | indirect hn => exact absurd rfl (hn n)
        | none =>
          dsimp only
          cases hy : (lookup Γ n).filter (fun y => y.kind = .cmd ∨ y.kind = .func) with
          | none =>
            refine (Tr.bind (Q := fun _ _ _ _ => False) (Tr.calleeSym n) (fun _ => by mono_all) (fun y Γ1 h1 => ?_)).iff ?_
            · obtain ⟨rfl, rfl⟩ := h1
              rw [hy]
              exact Tr.err_bind fun _ => Mono.pure _
            · intro t Γ'
              constructor
              · rintro ⟨_, _, _, h⟩; exact h.elim
              · intro h
                exfalso
                cases h with
                | builtin hb' => simp [hb] at hb'
                | constructor _ hr' => simp [hr] at hr'
                | user _ _ hl hk _ _ =>
                  rw [hl] at hy
                  simp [Option.filter, hk] at hy
                | indirect hn => exact absurd rfl (hn n)
          | some y =>
            have hl : lookup Γ n = some y ∧ (y.kind = .cmd ∨ y.kind = .func) := by
              rw [Option.filter_eq_some_iff] at hy
              exact ⟨hy.1, by simpa using hy.2⟩
            obtain ⟨ps, r, hty⟩ := (lookup_ok g.2 hl.1).2 hl.2
            have hy' : (lookup Γ n).filter (fun y => y.kind = .cmd ∨ y.kind = .func) = some y := hy
            refine (Tr.bind (Q := fun _ _ t Γ' => ∃ ts, ArgsTy K.ret Γ ps args ts Γ' ∧ t = r)
              (Tr.calleeSym n) (fun _ => by mono_all) (fun y' Γ1 h1 => ?_)).iff ?_
            · obtain ⟨rfl, rfl⟩ := h1
              rw [hy]
              dsimp only
              rw [hty, fnParts_fnTy]
              dsimp only
              refine (Tr.bind (Q := fun _ _ t Γ' => ∃ ts, ArgsTy K.ret Γ1 ps args ts Γ' ∧ t = r) (Tr.noteCall K n)
                (fun _ => by mono_all) (fun _ _ h2 => ?_)).iff ?_
              · subst h2
                refine (Tr.bind (trArgs hK "E274" args (ps := ps) w.2.1 g) (fun _ => Mono.pure _)
                  (fun _ _ _ => Tr.pure _)).iff ?_
                intro t Γ'
                constructor
                · rintro ⟨ts, _, h, rfl, rfl⟩; exact ⟨ts, h, rfl⟩
                · rintro ⟨ts, h, rfl⟩; exact ⟨ts, _, h, rfl, rfl⟩
              · intro t Γ'
                constructor
                · rintro ⟨-, _, rfl, h⟩; exact h
                · intro h; exact ⟨(), _, rfl, h⟩
            · intro t Γ'
              constructor
              · rintro ⟨_, _, -, ts, h, rfl⟩
                exact .user hb hr hl.1 hl.2 hty h
              · intro h
                cases h with
                | builtin hb' => simp [hb] at hb'
                | constructor _ hr' => simp [hr] at hr'
                | user _ _ hl' hk' hty' h1 =>
                  rw [hl.1] at hl'
                  injection hl' with hl'
                  subst hl'
                  obtain ⟨rfl, rfl⟩ := fnTy_inj (hty.symm.trans hty')
                  exact ⟨_, _, ⟨rfl, rfl⟩, _, h1, rfl⟩
                | indirect hn => exact absurd rfl (hn n)
  | .method o m args named, Γ, w, g => by
    unfold wfE at w
    unfold checkE
    refine Tr.guardE hK ((Tr.bind (Q := fun t Γ1 u Γ' => ∃ sig ts, methodSig t m = some sig ∧
      ArgsTy K.ret Γ1 (sig.params.map (·.2.1)) args ts Γ' ∧ u = sig.ret) (trE hK o w.1 g) (fun _ => by mono_all)
      (fun t Γ1 h1 => ?_)).iff ?_)
    · have p1 := pres o h1 g
      have nt := clean_ne p1.1
      cases hm : methodSig t m with
      | none =>
        exact (Tr.errIf_bind (P := fun _ _ => True) (fun _ => Mono.pure _) (fun h => by simp [nt] at h)).iff
          fun t Γ' => by simp [nt]
      | some sig =>
        refine (Tr.bind (trArgs hK "E281" args (ps := sig.params.map (·.2.1)) w.2.1 p1.2.1) (fun _ => Mono.pure _)
                  (fun _ _ _ => Tr.pure _)).iff ?_
        intro u Γ'
        constructor
        · rintro ⟨ts, _, h, rfl, rfl⟩; exact ⟨sig, ts, rfl, h, rfl⟩
        · rintro ⟨sig', ts, hs, h, rfl⟩
          injection hs with hs
          subst hs
          exact ⟨ts, _, h, rfl, rfl⟩
    · intro u Γ'
      constructor
      · rintro ⟨t, Γ1, h1, sig, ts, hm, h2, rfl⟩
        exact .method h1 hm h2
      · intro h
        cases h with
        | method h1 hm h2 => exact ⟨_, _, h1, _, _, hm, h2, rfl⟩
  | .member o m, Γ, w, g => by
    unfold wfE at w
    unfold checkE
    refine Tr.guardE hK ((Tr.bind (trE hK o w g) (fun _ => by mono_all)
      (fun t Γ1 h1 => tr_optErr (o := memberTy t m) (by simp [clean_ne (pres o h1 g).1]))).iff ?_)
    intro u Γ'
    constructor
    · rintro ⟨t, Γ1, h1, hm, rfl⟩
      exact .member h1 hm
    · intro h
      cases h with
      | member h1 hm => exact ⟨_, _, h1, hm, rfl⟩
  | .index o i, Γ, w, g => by
    unfold wfE at w
    unfold checkE
    refine Tr.guardE hK ((Tr.bind (trE hK o w.1 g) (fun _ => by mono_all)
      (fun t Γ1 h1 => Tr.bind (trE hK i w.2 (pres o h1 g).2.1) (fun _ => by mono_all) (fun j Γ2 h2 =>
        tr_int (pres i h2 (pres o h1 g).2.1).1 (fun _ => by mono_all)
          (tr_optErr (o := listElem t) (by simp [clean_ne (pres o h1 g).1]))))).iff ?_)
    intro u Γ'
    constructor
    · rintro ⟨t, Γ1, h1, j, Γ2, h2, rfl, hl, rfl⟩
      have ht : t = .list u := by
        cases t <;> simp_all [listElem]
      subst ht
      exact .index h1 h2
    · intro h
      cases h with
      | index h1 h2 => exact ⟨_, _, h1, _, _, h2, rfl, rfl, rfl⟩
  | .list [], Γ, w, g => by
    unfold checkE
    refine Tr.guardE hK ((Tr.pure _).iff fun t Γ' => ?_)
    constructor
    · rintro ⟨rfl, rfl⟩; exact .empty
    · intro h; cases h; exact ⟨rfl, rfl⟩
  | .list (e :: es), Γ, w, g => by
    unfold wfE wfEs at w
    unfold checkE
    refine Tr.guardE hK ((Tr.bind (trE hK e w.1 g) (fun _ => by mono_all)
      (fun t Γ1 h1 => Tr.bind (trElems hK es w.2 (pres e h1 g).2.1) (fun _ => Mono.pure _)
        (fun _ _ _ => Tr.pure _))).iff ?_)
    intro u Γ'
    constructor
    · rintro ⟨t, Γ1, h1, v, Γ2, h2, rfl, rfl⟩
      exact .list h1 h2
    · intro h
      cases h with
      | list h1 h2 => exact ⟨_, _, h1, _, _, h2, rfl, rfl⟩
  | .comp e cs, Γ, w, g => by
    unfold wfE at w
    unfold checkE
    have hin : Tr (emptyFrame :: Γ) (do checkClauses K cs; checkE K e)
        (fun t Γ2 => ∃ Γ1, ClausesOk K.ret (emptyFrame :: Γ) cs Γ1 ∧ HasTy K.ret Γ1 e t Γ2) := by
      refine (Tr.bind (trClauses hK cs w.2 g.push) (fun _ => by mono_all) (fun _ Γ1 h1 =>
        trE hK e w.1 (presClauses cs h1 g.push).1)).iff ?_
      intro u Γ'
      constructor
      · rintro ⟨-, Γ1, h1, h2⟩; exact ⟨Γ1, h1, h2⟩
      · rintro ⟨Γ1, h1, h2⟩; exact ⟨(), Γ1, h1, h2⟩
    have hs := tr_scoped (f := Ty.list) g (by mono_all) hin (by
      rintro t Γ2 ⟨Γ1, h1, h2⟩
      have s1 := presClauses cs h1 g.push
      exact s1.trans (pres e h2 s1.1).2)
    have heq : (do push; let a ← (do checkClauses K cs; checkE K e); pop; pure (Ty.list a) : M Ty) =
        (do push; checkClauses K cs; let t ← checkE K e; pop; pure (Ty.list t)) := by
      funext s
      simp only [Bind.bind, Checker.bind, push]
      cases checkClauses K cs { s with scopes := emptyFrame :: s.scopes } <;> rfl
    rw [heq] at hs
    refine Tr.guardE hK (hs.iff ?_)
    intro u Γ'
    constructor
    · rintro ⟨⟨t, Γ2, ⟨Γ1, h1, h2⟩, rfl⟩, rfl⟩
      exact .comp h1 h2
    · intro h
      cases h with
      | comp h1 h2 => exact ⟨⟨_, _, ⟨_, h1, h2⟩, rfl⟩, rfl⟩
  | .range a b, Γ, w, g => by
    unfold wfE at w
    unfold checkE
    refine Tr.guardE hK ((Tr.bind (trE hK a w.1 g) (fun _ => by mono_all)
      (fun t Γ1 h1 => Tr.bind (trE hK b w.2 (pres a h1 g).2.1) (fun _ => by mono_all) (fun j Γ2 h2 =>
        tr_int (pres a h1 g).1 (fun _ => by mono_all) (tr_int (pres b h2 (pres a h1 g).2.1).1 (fun _ => Mono.pure _)
          (Tr.pure _))))).iff ?_)
    intro u Γ'
    constructor
    · rintro ⟨t, Γ1, h1, j, Γ2, h2, rfl, rfl, rfl, rfl⟩
      exact .range h1 h2
    · intro h
      cases h with
      | range h1 h2 => exact ⟨_, _, h1, _, _, h2, rfl, rfl, rfl, rfl⟩
  | .dict es, Γ, w, g => by
    unfold wfE at w
    unfold checkE
    refine Tr.guardE hK ((Tr.bind (trNamed hK es w (al := none) g) (fun _ => Mono.pure _) (fun _ _ _ => Tr.pure _)).iff ?_)
    intro u Γ'
    constructor
    · rintro ⟨-, Γ1, h1, rfl, rfl⟩
      exact .dict h1
    · intro h
      cases h with
      | dict h1 => exact ⟨(), _, h1, rfl, rfl⟩
  | .lam ps body, Γ, w, g => by
    unfold wfE at w
    unfold checkE
    have hin : Tr (emptyFrame :: Γ) (do defineAll ps; checkE K body)
        (fun t Γ2 => HasTy K.ret (ps.foldl (fun Γ p => bindFree Γ p .param .unknown) (emptyFrame :: Γ)) body t Γ2) := by
      refine (Tr.bind (Q := fun _ Γ1 t Γ2 => HasTy K.ret Γ1 body t Γ2) (tr_defineAll ps g.push) (fun _ => by mono_all)
        (fun _ Γ1 h1 => ?_)).iff ?_
      · subst h1
        exact trE hK body w (g.push.params ps)
      · intro u Γ'
        constructor
        · rintro ⟨-, Γ1, rfl, h2⟩; exact h2
        · intro h; exact ⟨(), _, rfl, h⟩
    have hs := tr_scoped (f := fun t => fnTy (ps.map fun _ => .unknown) t) g (by mono_all) hin (by
      intro t Γ2 h2
      have s1 := (pres body h2 (g.push.params ps)).2
      exact ⟨s1.1, s1.2.trans (params_tail _ _)⟩)
    have heq : (do push; let a ← (do defineAll ps; checkE K body); pop; pure (fnTy (ps.map fun _ => .unknown) a) : M Ty) =
        (do push; defineAll ps; let t ← checkE K body; pop; pure (fnTy (ps.map fun _ => .unknown) t)) := by
      funext s
      simp only [Bind.bind, Checker.bind, push]
      cases defineAll ps { s with scopes := emptyFrame :: s.scopes } <;> rfl
    rw [heq] at hs
    refine Tr.guardE hK (hs.iff ?_)
    intro u Γ'
    constructor
    · rintro ⟨⟨t, Γ2, h2, rfl⟩, rfl⟩
      exact .lam h2
    · intro h
      cases h with
      | lam h2 => exact ⟨⟨_, _, h2, rfl⟩, rfl⟩
  | .cond c a b, Γ, w, g => by
    unfold wfE at w
    unfold checkE
    refine Tr.guardE hK ((Tr.bind (trE hK c w.1 g) (fun _ => by mono_all)
      (fun t Γ1 h1 => tr_bool (pres c h1 g).1 (fun _ => by mono_all)
        (Tr.bind (trE hK a w.2.1 (pres c h1 g).2.1) (fun _ => by mono_all) (fun x Γ2 h2 =>
          Tr.bind (trE hK b w.2.2 (pres a h2 (pres c h1 g).2.1).2.1) (fun _ => by mono_all) (fun y Γ3 h3 =>
            tr_condTy (pres a h2 (pres c h1 g).2.1).1 (pres b h3 (pres a h2 (pres c h1 g).2.1).2.1).1))))).iff ?_)
    intro u Γ'
    constructor
    · rintro ⟨t, Γ1, h1, rfl, x, Γ2, h2, y, Γ3, h3, h4, rfl⟩
      exact .cond h1 h2 h3 h4
    · intro h
      cases h with
      | cond h1 h2 h3 h4 => exact ⟨_, _, h1, rfl, _, _, h2, _, _, h3, h4, rfl⟩
  | .ifE c b elifs none, Γ, w, g => by
    unfold wfE at w
    unfold checkE
    refine Tr.guardE hK ((Tr.bind (trE hK c w.1 g) (fun _ => by mono_all)
      (fun t Γ1 h1 => tr_bool (pres c h1 g).1 (fun _ => by mono_all)
        (Tr.bind (trB hK b w.2.1 (pres c h1 g).2.1) (fun _ => Mono.pure _) (fun x Γ2 h2 => Tr.pure _)))).iff ?_)
    have key : ∀ (x : Option Ty) (u : Ty), u = x.getD .unknown ↔ IfTy x none u := by
      intro x u
      cases x with
      | none => exact ⟨fun h => h ▸ .noThen, fun h => by cases h; rfl⟩
      | some x => exact ⟨fun h => h ▸ .noElse, fun h => by cases h; rfl⟩
    intro u Γ'
    constructor
    · rintro ⟨t, Γ1, h1, rfl, x, Γ2, h2, hu, rfl⟩
      exact .ifNone h1 h2 ((key _ _).1 hu)
    · intro h
      cases h with
      | ifNone h1 h2 h3 => exact ⟨_, _, h1, rfl, _, _, h2, (key _ _).2 h3, rfl⟩
  | .ifE c b elifs (some d), Γ, w, g => by
    unfold wfE at w
    unfold checkE
    refine Tr.guardE hK ((Tr.bind (trE hK c w.1 g) (fun _ => by mono_all)
      (fun t Γ1 h1 => tr_bool (pres c h1 g).1 (fun _ => by mono_all)
        (Tr.bind (trB hK b w.2.1 (pres c h1 g).2.1) (fun _ => by mono_all) (fun x Γ2 h2 =>
          Tr.bind (trB hK d w.2.2.2 (presB b h2 (pres c h1 g).2.1).2.1) (fun _ => by mono_all) (fun y Γ3 h3 =>
            tr_ifTy x y))))).iff ?_)
    intro u Γ'
    constructor
    · rintro ⟨t, Γ1, h1, rfl, x, Γ2, h2, y, Γ3, h3, h4, rfl⟩
      exact .ifSome h1 h2 h3 h4
    · intro h
      cases h with
      | ifSome h1 h2 h3 h4 => exact ⟨_, _, h1, rfl, _, _, h2, _, _, h3, h4, rfl⟩
  | .matchE s arms, Γ, w, g => by
    unfold wfE at w
    unfold checkE
    refine Tr.guardE hK ((Tr.bind (trE hK s w.1 g) (fun _ => by mono_all)
      (fun t Γ1 h1 => Tr.bind (trArms hK t arms w.2 (pres s h1 g).2.1) (fun _ => Mono.pure _)
        (fun r Γ2 h2 => Tr.pure _))).iff ?_)
    intro u Γ'
    constructor
    · rintro ⟨t, Γ1, h1, r, Γ2, h2, rfl, rfl⟩
      exact .matchE h1 h2
    · intro h
      cases h with
      | matchE h1 h2 => exact ⟨_, _, h1, _, _, h2, rfl, rfl⟩
theorem trArgs (hK : 1 ≤ K.max) (c : String) : ∀ (es : List Expr) {Γ : List Frame} {ps : List Ty}, wfEs es → Good Γ →
    Tr Γ (checkArgs K c ps es) (fun ts Γ' => ArgsTy K.ret Γ ps es ts Γ')
  | [], Γ, ps, w, g => by
    unfold checkArgs
    refine (Tr.pure _).iff fun t Γ' => ?_
    constructor
    · rintro ⟨rfl, rfl⟩; exact .nil
    · intro h; cases h; exact ⟨rfl, rfl⟩
  | e :: es, Γ, [], w, g => by
    unfold wfEs at w
    unfold checkArgs
    refine (Tr.bind (trE hK e w.1 g) (fun _ => by mono_all)
      (fun t Γ1 h1 => Tr.bind (trArgs hK c es (ps := []) w.2 (pres e h1 g).2.1) (fun _ => Mono.pure _)
        (fun r Γ2 h2 => Tr.pure _))).iff ?_
    intro u Γ'
    constructor
    · rintro ⟨t, Γ1, h1, r, Γ2, h2, rfl, rfl⟩
      exact .extra h1 h2
    · intro h
      cases h with
      | extra h1 h2 => exact ⟨_, _, h1, _, _, h2, rfl, rfl⟩
  | e :: es, Γ, p :: ps, w, g => by
    unfold wfEs at w
    unfold checkArgs
    refine (Tr.bind (trE hK e w.1 g) (fun _ => by mono_all)
      (fun t Γ1 h1 => Tr.val (fun Γ => tr_argOk (pres e h1 g).1 c) (fun _ => by mono_all) (fun _ _ =>
        Tr.bind (trArgs hK c es (ps := ps) w.2 (pres e h1 g).2.1) (fun _ => Mono.pure _)
          (fun r Γ2 h2 => Tr.pure _)))).iff ?_
    intro u Γ'
    constructor
    · rintro ⟨t, Γ1, h1, -, ha, r, Γ2, h2, rfl, rfl⟩
      exact .cons h1 ha h2
    · intro h
      cases h with
      | cons h1 ha h2 => exact ⟨_, _, h1, (), ha, _, _, h2, rfl, rfl⟩
theorem trNamed (hK : 1 ≤ K.max) : ∀ (es : List (Name × Expr)) {Γ : List Frame} {al : Option (List Name)}, wfN es → Good Γ →
    Tr Γ (checkNamed K al es) (fun _ Γ' => NamedOk K.ret Γ al es Γ')
  | [], Γ, al, w, g => by
    unfold checkNamed
    refine (Tr.pure _).iff fun t Γ' => ?_
    constructor
    · rintro ⟨-, rfl⟩; exact .nil
    · intro h; cases h; exact ⟨rfl, rfl⟩
  | (k, e) :: es, Γ, al, w, g => by
    unfold wfN at w
    unfold checkNamed
    refine (Tr.bind (trE hK e w.1 g) (fun _ => by mono_all)
      (fun t Γ1 h1 => Tr.errIf_bind (fun _ => by mono_all) (fun _ =>
        trNamed hK es (al := al) w.2 (pres e h1 g).2.1))).iff ?_
    have key : (match al with | some l => decide (k ∉ l) | none => false) = false ↔ ∀ l, al = some l → k ∈ l := by
      cases al with
      | none => simp
      | some l => simp
    intro u Γ'
    constructor
    · rintro ⟨t, Γ1, h1, hk, h2⟩
      exact .cons h1 (key.1 hk) h2
    · intro h
      cases h with
      | cons h1 hk h2 => exact ⟨_, _, h1, key.2 hk, h2⟩
theorem trElems (hK : 1 ≤ K.max) : ∀ (es : List Expr) {Γ : List Frame} {t : Ty}, wfEs es → Good Γ →
    Tr Γ (checkElems K t es) (fun u Γ' => ElemsTy K.ret Γ t es u Γ')
  | [], Γ, t, w, g => by
    unfold checkElems
    refine (Tr.pure _).iff fun t Γ' => ?_
    constructor
    · rintro ⟨rfl, rfl⟩; exact .nil
    · intro h; cases h; exact ⟨rfl, rfl⟩
  | e :: es, Γ, t, w, g => by
    unfold wfEs at w
    unfold checkElems
    refine (Tr.bind (trE hK e w.1 g) (fun _ => by mono_all)
      (fun u Γ1 h1 => Tr.val (fun Γ => tr_elemStep t u) (fun _ => by mono_all) (fun v _ =>
        trElems hK es (t := v) w.2 (pres e h1 g).2.1))).iff ?_
    intro u Γ'
    constructor
    · rintro ⟨t, Γ1, h1, v, hv, h2⟩
      exact .cons h1 hv h2
    · intro h
      cases h with
      | cons h1 hv h2 => exact ⟨_, _, h1, _, hv, h2⟩
theorem trClauses (hK : 1 ≤ K.max) : ∀ (cs : List Clause) {Γ : List Frame}, wfC cs → Good Γ →
    Tr Γ (checkClauses K cs) (fun _ Γ' => ClausesOk K.ret Γ cs Γ')
  | [], Γ, w, g => by
    unfold checkClauses
    refine (Tr.pure _).iff fun t Γ' => ?_
    constructor
    · rintro ⟨-, rfl⟩; exact .nil
    · intro h; cases h; exact ⟨rfl, rfl⟩
  | .mk v it conds :: cs, Γ, w, g => by
    unfold wfC at w
    unfold checkClauses
    refine (Tr.bind (Q := fun t Γ1 _ Γ' => ∃ Γ2, CondsOk K.ret (bindFree Γ1 v .var (elemTy t)) conds Γ2 ∧
      ClausesOk K.ret Γ2 cs Γ') (trE hK it w.1 g) (fun _ => by mono_all) (fun t Γ1 h1 => ?_)).iff ?_
    · have p1 := pres it h1 g
      have g2 := p1.2.1.bindFree v (symOk_var (clean_elemTy p1.1))
      refine (Tr.bind (Q := fun _ Γb _ Γ' => ∃ Γ2, CondsOk K.ret Γb conds Γ2 ∧
        ClausesOk K.ret Γ2 cs Γ') (Tr.define p1.2.1.1 v .var (elemTy t)) (fun _ => by mono_all) (fun b Γb hb => ?_)).iff ?_
      · obtain ⟨-, rfl⟩ := hb
        refine (Tr.bind (trConds hK conds w.2.1 g2) (fun _ => by mono_all) (fun _ Γ2 h2 =>
          trClauses hK cs w.2.2 (presConds conds h2 g2).1)).iff ?_
        intro u Γ'
        constructor
        · rintro ⟨-, Γ2, h2, h3⟩; exact ⟨Γ2, h2, h3⟩
        · rintro ⟨Γ2, h2, h3⟩; exact ⟨(), Γ2, h2, h3⟩
      · intro u Γ'
        constructor
        · rintro ⟨b, _, ⟨-, rfl⟩, h⟩; exact h
        · intro h
          by_cases ht : topFree Γ1 v
          · exact ⟨true, _, ⟨by simp [ht], rfl⟩, h⟩
          · exact ⟨false, _, ⟨by simp [ht], rfl⟩, h⟩
    · intro u Γ'
      constructor
      · rintro ⟨t, Γ1, h1, Γ2, h2, h3⟩
        exact .cons h1 h2 h3
      · intro h
        cases h with
        | cons h1 h2 h3 => exact ⟨_, _, h1, _, h2, h3⟩
theorem trConds (hK : 1 ≤ K.max) : ∀ (es : List Expr) {Γ : List Frame}, wfEs es → Good Γ →
    Tr Γ (checkConds K es) (fun _ Γ' => CondsOk K.ret Γ es Γ')
  | [], Γ, w, g => by
    unfold checkConds
    refine (Tr.pure _).iff fun t Γ' => ?_
    constructor
    · rintro ⟨-, rfl⟩; exact .nil
    · intro h; cases h; exact ⟨rfl, rfl⟩
  | e :: es, Γ, w, g => by
    unfold wfEs at w
    unfold checkConds
    refine (Tr.bind (trE hK e w.1 g) (fun _ => by mono_all)
      (fun t Γ1 h1 => tr_bool (pres e h1 g).1 (fun _ => by mono_all)
        (trConds hK es w.2 (pres e h1 g).2.1))).iff ?_
    intro u Γ'
    constructor
    · rintro ⟨t, Γ1, h1, rfl, h2⟩
      exact .cons h1 h2
    · intro h
      cases h with
      | cons h1 h2 => exact ⟨_, _, h1, rfl, h2⟩
theorem trArms (hK : 1 ≤ K.max) (t : Ty) : ∀ (as : List (Pat × Expr)) {Γ : List Frame} {r : Option Ty}, wfA as → Good Γ →
    Tr Γ (checkArms K t r as) (fun r' Γ' => ArmsTy K.ret Γ r as r' Γ')
  | [], Γ, r, w, g => by
    unfold checkArms
    refine (Tr.pure _).iff fun t Γ' => ?_
    constructor
    · rintro ⟨rfl, rfl⟩; exact .nil
    · intro h; cases h; exact ⟨rfl, rfl⟩
  | (p, e) :: as, Γ, r, w, g => by
    unfold wfA at w
    unfold checkArms
    refine (Tr.val (P := fun _ => True) (fun Γ => (tr_patTy p t).iff fun _ _ => by simp) (fun _ => by mono_all) (fun _ _ =>
      Tr.bind (trE hK e w.1 g) (fun _ => by mono_all)
      (fun a Γ1 h1 => trArms hK t as (r := some (armTy r a)) w.2 (pres e h1 g).2.1))).iff ?_
    intro u Γ'
    constructor
    · rintro ⟨-, -, t, Γ1, h1, h2⟩
      exact .cons h1 h2
    · intro h
      cases h with
      | cons h1 h2 => exact ⟨(), trivial, _, _, h1, h2⟩
theorem trS (hK : 1 ≤ K.max) : ∀ (s : Stmt) {Γ : List Frame}, wfS s → Good Γ →
    Tr Γ (checkS K s) (fun _ Γ' => StmtOk K.ret Γ s Γ')
  | .letS n ty e, Γ, w, g => by
    unfold wfS at w
    unfold checkS
    refine Tr.guardS hK ((Tr.bind (trE hK e w g) (fun _ => by mono_all) (fun t Γ1 h1 =>
      tr_declare (pres e h1 g).2.1.1 n ty t)).iff ?_)
    intro u Γ'
    constructor
    · rintro ⟨t, Γ1, h1, v, hd, hf, rfl⟩
      exact .letS h1 hd hf
    · intro h
      cases h with
      | letS h1 hd hf => exact ⟨_, _, h1, _, hd, hf, rfl⟩
  | .varDecl n ty none, Γ, w, g => by
    unfold checkS
    refine Tr.guardS hK (Tr.crash.iff fun u Γ' => ⟨False.elim, fun h => ?_⟩)
    cases h
  | .varDecl n ty (some e), Γ, w, g => by
    unfold wfS at w
    unfold checkS
    refine Tr.guardS hK ((Tr.bind (trE hK e w g) (fun _ => by mono_all) (fun t Γ1 h1 =>
      tr_declare (pres e h1 g).2.1.1 n ty t)).iff ?_)
    intro u Γ'
    constructor
    · rintro ⟨t, Γ1, h1, v, hd, hf, rfl⟩
      exact .varDecl h1 hd hf
    · intro h
      cases h with
      | varDecl h1 hd hf => exact ⟨_, _, h1, _, hd, hf, rfl⟩
  | .assign l e, Γ, w, g => by
    unfold wfS at w
    unfold checkS
    refine Tr.guardS hK ((Tr.bind (trE hK l w.1 g) (fun _ => by mono_all) (fun t Γ1 h1 =>
      Tr.bind (trE hK e w.2 (pres l h1 g).2.1) (fun _ => by mono_all) (fun u Γ2 h2 => Tr.errIf _ _ _))).iff ?_)
    intro u Γ'
    constructor
    · rintro ⟨t, Γ1, h1, u, Γ2, h2, ha, rfl⟩
      exact .assign h1 h2 (by simpa using ha)
    · intro h
      cases h with
      | assign h1 h2 ha => exact ⟨_, _, h1, _, _, h2, by simpa using ha, rfl⟩
  | .require c none, Γ, w, g => by
    unfold wfS at w
    unfold checkS
    refine Tr.guardS hK ((Tr.bind (trE hK c w.1 g) (fun _ => by mono_all) (fun t Γ1 h1 =>
      tr_bool (pres c h1 g).1 (fun _ => Mono.pure _) (Tr.pure _))).iff ?_)
    intro u Γ'
    constructor
    · rintro ⟨t, Γ1, h1, rfl, -, rfl⟩
      exact .require h1
    · intro h
      cases h with
      | require h1 => exact ⟨_, _, h1, rfl, rfl, rfl⟩
  | .require c (some m), Γ, w, g => by
    unfold wfS at w
    unfold checkS
    refine Tr.guardS hK ((Tr.bind (trE hK c w.1 g) (fun _ => by mono_all) (fun t Γ1 h1 =>
      tr_bool (pres c h1 g).1 (fun _ => by mono_all) (Tr.bind (trE hK m w.2 (pres c h1 g).2.1) (fun _ => by mono_all)
        (fun u Γ2 h2 => tr_msg (pres m h2 (pres c h1 g).2.1).1 _)))).iff ?_)
    intro u Γ'
    constructor
    · rintro ⟨t, Γ1, h1, rfl, u, Γ2, h2, rfl, rfl⟩
      exact .requireMsg h1 h2
    · intro h
      cases h with
      | requireMsg h1 h2 => exact ⟨_, _, h1, rfl, _, _, h2, rfl, rfl⟩
  | .assertS c none, Γ, w, g => by
    unfold wfS at w
    unfold checkS
    refine Tr.guardS hK ((Tr.bind (trE hK c w.1 g) (fun _ => by mono_all) (fun t Γ1 h1 =>
      tr_bool (pres c h1 g).1 (fun _ => Mono.pure _) (Tr.pure _))).iff ?_)
    intro u Γ'
    constructor
    · rintro ⟨t, Γ1, h1, rfl, -, rfl⟩
      exact .assertS h1
    · intro h
      cases h with
      | assertS h1 => exact ⟨_, _, h1, rfl, rfl, rfl⟩
  | .assertS c (some m), Γ, w, g => by
    unfold wfS at w
    unfold checkS
    refine Tr.guardS hK ((Tr.bind (trE hK c w.1 g) (fun _ => by mono_all) (fun t Γ1 h1 =>
      tr_bool (pres c h1 g).1 (fun _ => by mono_all) (Tr.bind (trE hK m w.2 (pres c h1 g).2.1) (fun _ => by mono_all)
        (fun u Γ2 h2 => tr_msg (pres m h2 (pres c h1 g).2.1).1 _)))).iff ?_)
    intro u Γ'
    constructor
    · rintro ⟨t, Γ1, h1, rfl, u, Γ2, h2, rfl, rfl⟩
      exact .assertMsg h1 h2
    · intro h
      cases h with
      | assertMsg h1 h2 => exact ⟨_, _, h1, rfl, _, _, h2, rfl, rfl⟩
  | .emit v md, Γ, w, g => by
    unfold wfS at w
    unfold checkS
    refine Tr.guardS hK ((Tr.bind (Q := fun t Γ1 _ Γ' => (∀ a, K.ret = some a → ∃ r, Denotes a r ∧ accepts r t = true) ∧
      NamedOk K.ret Γ1 none md Γ') (trE hK v w.1 g) (fun _ => ?_) (fun t Γ1 h1 => ?_)).iff ?_)
    · cases K.ret <;> mono_all
    · have p1 := pres v h1 g
      cases hr : K.ret with
      | none =>
        have := trNamed hK md (al := none) w.2 p1.2.1
        rw [hr] at this
        exact this.iff fun u Γ' => by simp
      | some ty =>
        have := trNamed hK md (al := none) w.2 p1.2.1
        rw [hr] at this
        refine (Tr.val (fun Γ => tr_resolve Γ ty) (fun _ => by mono_all) (fun r _ =>
          Tr.errIf_bind (fun _ => by mono_all) (fun _ => this))).iff ?_
        intro u Γ'
        constructor
        · rintro ⟨r, hd, ha, h2⟩
          refine ⟨?_, h2⟩
          intro a ea
          injection ea with ea
          subst ea
          exact ⟨r, hd, by simpa using ha⟩
        · rintro ⟨h, h2⟩
          obtain ⟨r, hd, ha⟩ := h _ rfl
          exact ⟨r, hd, by simpa using ha, h2⟩
    · intro u Γ'
      constructor
      · rintro ⟨t, Γ1, h1, h2, h3⟩
        exact .emit h1 h2 h3
      · intro h
        cases h with
        | emit h1 h2 h3 => exact ⟨_, _, h1, h2, h3⟩
  | .forS v it body, Γ, w, g => by
    unfold wfS at w
    unfold checkS
    refine Tr.guardS hK ((Tr.bind (Q := fun t Γ1 _ Γ' => (∃ x Γ2, BlockTy K.ret (bindFree (emptyFrame :: Γ1) v .var (elemTy t))
      body x Γ2) ∧ Γ' = Γ1) (trE hK it w.1 g) (fun _ => by mono_all) (fun t Γ1 h1 => ?_)).iff ?_)
    · have p1 := pres it h1 g
      have g2 := p1.2.1.push.bindFree v (symOk_var (clean_elemTy p1.1))
      have hin : Tr (emptyFrame :: Γ1) (do let _ ← define v .var (elemTy t); checkB K body)
          (fun x Γ2 => BlockTy K.ret (bindFree (emptyFrame :: Γ1) v .var (elemTy t)) body x Γ2) := by
        refine (Tr.bind (Q := fun _ Γb x Γ2 => BlockTy K.ret Γb body x Γ2)
          (Tr.define p1.2.1.push.1 v .var (elemTy t)) (fun _ => by mono_all) (fun b Γb hb => ?_)).iff ?_
        · obtain ⟨-, rfl⟩ := hb
          exact trB hK body w.2 g2
        · intro u Γ'
          constructor
          · rintro ⟨b, _, ⟨-, rfl⟩, h⟩; exact h
          · intro h
            exact ⟨true, _, ⟨by simp [topFree, emptyFrame], rfl⟩, h⟩
      have hs := tr_scopedU p1.2.1 (by mono_all) hin (by
        intro x Γ2 h2
        have s1 := (presB body h2 g2).2
        exact ⟨s1.1, s1.2.trans (bindFree_tail _ _ _ _)⟩)
      have heq : (do push; let _ ← (do let _ ← define v .var (elemTy t); checkB K body); pop : M Unit) =
          (do push; let _ ← define v .var (elemTy t); let _ ← checkB K body; pop) := by
        funext s
        simp only [Bind.bind, Checker.bind, push]
        cases define v .var (elemTy t) { s with scopes := emptyFrame :: s.scopes } <;> rfl
      rw [heq] at hs
      exact hs
    · intro u Γ'
      constructor
      · rintro ⟨t, Γ1, h1, ⟨x, Γ2, h2⟩, rfl⟩
        exact .forS h1 h2
      · intro h
        cases h with
        | forS h1 h2 => exact ⟨_, _, h1, ⟨_, _, h2⟩, rfl⟩
  | .ifS c b elifs none, Γ, w, g => by
    unfold wfS at w
    unfold checkS
    refine Tr.guardS hK ((Tr.bind (Q := fun t Γ1 _ Γ' => t = .prim .bool ∧ (∃ x Γ2, BlockTy K.ret (emptyFrame :: Γ1) b x Γ2) ∧
      ElifsOk K.ret Γ1 elifs Γ') (trE hK c w.1 g) (fun _ => by mono_all) (fun t Γ1 h1 => ?_)).iff ?_)
    · have p1 := pres c h1 g
      refine tr_bool p1.1 (fun _ => by mono_all) ?_
      have hs := tr_scopedU p1.2.1 (by mono_all) (trB hK b w.2.1 p1.2.1.push)
        (fun x Γ2 h2 => (presB b h2 p1.2.1.push).2)
      have h3 := Tr.bind (k := fun _ => checkElifs K elifs) (Q := fun _ Γ1 _ Γ' => ElifsOk K.ret Γ1 elifs Γ') hs
        (fun _ => by mono_all) (fun _ Γ2 h2 => by
          obtain ⟨-, rfl⟩ := h2
          exact trElifs hK elifs w.2.2.1 p1.2.1)
      have heq : ((do push; let _ ← checkB K b; pop : M Unit) >>= fun _ => checkElifs K elifs) =
          (do push; let _ ← checkB K b; pop; checkElifs K elifs; pure ()) := by
        funext s
        simp only [Bind.bind, Checker.bind, push]
        cases checkB K b { s with scopes := emptyFrame :: s.scopes } with
        | error e => rfl
        | ok x =>
          dsimp only
          cases pop x.2 with
          | error e => rfl
          | ok y =>
            dsimp only
            cases checkElifs K elifs y.2 <;> rfl
      rw [heq] at h3
      refine h3.iff fun u Γ' => ?_
      constructor
      · rintro ⟨-, _, ⟨h, rfl⟩, h'⟩; exact ⟨h, h'⟩
      · rintro ⟨h, h'⟩; exact ⟨(), _, ⟨h, rfl⟩, h'⟩
    · intro u Γ'
      constructor
      · rintro ⟨t, Γ1, h1, rfl, ⟨x, Γ2, h2⟩, h3⟩
        exact .ifNone h1 h2 h3
      · intro h
        cases h with
        | ifNone h1 h2 h3 => exact ⟨_, _, h1, rfl, ⟨_, _, h2⟩, h3⟩
  | .ifS c b elifs (some d), Γ, w, g => by
    unfold wfS at w
    unfold checkS
    refine Tr.guardS hK ((Tr.bind (Q := fun t Γ1 _ Γ' => t = .prim .bool ∧ (∃ x Γ2, BlockTy K.ret (emptyFrame :: Γ1) b x Γ2) ∧
      ElifsOk K.ret Γ1 elifs Γ' ∧ ∃ x Γ2, BlockTy K.ret (emptyFrame :: Γ') d x Γ2) (trE hK c w.1 g) (fun _ => by mono_all)
      (fun t Γ1 h1 => ?_)).iff ?_)
    · have p1 := pres c h1 g
      refine tr_bool p1.1 (fun _ => by mono_all) ?_
      have hs := tr_scopedU p1.2.1 (by mono_all) (trB hK b w.2.1 p1.2.1.push)
        (fun x Γ2 h2 => (presB b h2 p1.2.1.push).2)
      have h3 := Tr.bind (k := fun _ => do checkElifs K elifs; (do push; let _ ← checkB K d; pop))
        (Q := fun _ Γ1 _ Γ' => ElifsOk K.ret Γ1 elifs Γ' ∧ ∃ x Γ2, BlockTy K.ret (emptyFrame :: Γ') d x Γ2) hs
        (fun _ => by mono_all) (fun _ Γ2 h2 => by
          obtain ⟨-, rfl⟩ := h2
          refine (Tr.bind (trElifs hK elifs w.2.2.1 p1.2.1) (fun _ => by mono_all) (fun _ Γ3 h3 =>
            tr_scopedU (presElifs elifs h3 p1.2.1).1 (by mono_all) (trB hK d w.2.2.2 (presElifs elifs h3 p1.2.1).1.push)
              (fun x Γ2 h2 => (presB d h2 (presElifs elifs h3 p1.2.1).1.push).2))).iff ?_
          intro u Γ'
          constructor
          · rintro ⟨-, Γ3, h3, h4, rfl⟩; exact ⟨h3, h4⟩
          · rintro ⟨h3, h4⟩; exact ⟨(), _, h3, h4, rfl⟩)
      have heq : ((do push; let _ ← checkB K b; pop : M Unit) >>= fun _ => do
            checkElifs K elifs; (do push; let _ ← checkB K d; pop)) =
          (do push; let _ ← checkB K b; pop; checkElifs K elifs; (do push; let _ ← checkB K d; pop)) := by
        funext s
        simp only [Bind.bind, Checker.bind, push]
        cases checkB K b { s with scopes := emptyFrame :: s.scopes } with
        | error e => rfl
        | ok x => rfl
      rw [heq] at h3
      refine h3.iff fun u Γ' => ?_
      constructor
      · rintro ⟨-, _, ⟨h, rfl⟩, h'⟩; exact ⟨h, h'⟩
      · rintro ⟨h, h'⟩; exact ⟨(), _, ⟨h, rfl⟩, h'⟩
    · intro u Γ'
      constructor
      · rintro ⟨t, Γ1, h1, rfl, ⟨x, Γ2, h2⟩, h3, y, Γ4, h4⟩
        exact .ifSome h1 h2 h3 h4
      · intro h
        cases h with
        | ifSome h1 h2 h3 h4 => exact ⟨_, _, h1, rfl, ⟨_, _, h2⟩, h3, _, _, h4⟩
  | .pass, Γ, w, g => by
    unfold checkS
    refine Tr.guardS hK ((Tr.pure ()).iff fun u Γ' => ?_)
    constructor
    · rintro ⟨-, rfl⟩; exact .pass
    · intro h; cases h; exact ⟨rfl, rfl⟩
  | .exprS e, Γ, w, g => by
    unfold wfS at w
    unfold checkS
    refine Tr.guardS hK ((Tr.bind (trE hK e w g) (fun _ => Mono.pure _) (fun t Γ1 h1 => Tr.pure ())).iff ?_)
    intro u Γ'
    constructor
    · rintro ⟨t, Γ1, h1, -, rfl⟩
      exact .exprS h1
    · intro h
      cases h with
      | exprS h1 => exact ⟨_, _, h1, rfl, rfl⟩
  | .ret none, Γ, w, g => by
    unfold checkS
    refine Tr.guardS hK (Tr.crash.iff fun u Γ' => ⟨False.elim, fun h => ?_⟩)
    cases h
  | .ret (some e), Γ, w, g => by
    unfold wfS at w
    unfold checkS
    refine Tr.guardS hK ((Tr.bind (trE hK e w g) (fun _ => Mono.crash) (fun t Γ1 h1 => Tr.crash)).iff fun u Γ' => ⟨?_, ?_⟩)
    · rintro ⟨_, _, _, h⟩; exact h.elim
    · intro h; cases h
  | .py code, Γ, w, g => by
    unfold checkS
    refine Tr.guardS hK ((Tr.val (P := fun _ => True) (fun Γ => Tr.setPy.iff fun _ _ => by simp) (fun _ => by mono_all)
      (fun _ _ => Tr.warn _ _)).iff fun u Γ' => ?_)
    constructor
    · rintro ⟨-, -, rfl⟩; exact .py
    · intro h; cases h; exact ⟨(), trivial, rfl⟩
theorem trElifs (hK : 1 ≤ K.max) : ∀ (bs : List (Expr × Block)) {Γ : List Frame}, wfL bs → Good Γ →
    Tr Γ (checkElifs K bs) (fun _ Γ' => ElifsOk K.ret Γ bs Γ')
  | [], Γ, w, g => by
    unfold checkElifs
    refine (Tr.pure _).iff fun t Γ' => ?_
    constructor
    · rintro ⟨-, rfl⟩; exact .nil
    · intro h; cases h; exact ⟨rfl, rfl⟩
  | (c, b) :: bs, Γ, w, g => by
    unfold wfL at w
    unfold checkElifs
    refine (Tr.bind (Q := fun t Γ1 _ Γ' => t = .prim .bool ∧ (∃ x Γ2, BlockTy K.ret (emptyFrame :: Γ1) b x Γ2) ∧
      ElifsOk K.ret Γ1 bs Γ') (trE hK c w.1 g) (fun _ => by mono_all) (fun t Γ1 h1 => ?_)).iff ?_
    · have p1 := pres c h1 g
      refine tr_bool p1.1 (fun _ => by mono_all) ?_
      have hs := tr_scopedU p1.2.1 (by mono_all) (trB hK b w.2.1 p1.2.1.push)
        (fun x Γ2 h2 => (presB b h2 p1.2.1.push).2)
      have h3 := Tr.bind (k := fun _ => checkElifs K bs) (Q := fun _ Γ1 _ Γ' => ElifsOk K.ret Γ1 bs Γ') hs
        (fun _ => by mono_all) (fun _ Γ2 h2 => by
          obtain ⟨-, rfl⟩ := h2
          exact trElifs hK bs w.2.2 p1.2.1)
      have heq : ((do push; let _ ← checkB K b; pop : M Unit) >>= fun _ => checkElifs K bs) =
          (do push; let _ ← checkB K b; pop; checkElifs K bs) := by
        funext s
        simp only [Bind.bind, Checker.bind, push]
        cases checkB K b { s with scopes := emptyFrame :: s.scopes } with
        | error e => rfl
        | ok x => rfl
      rw [heq] at h3
      refine h3.iff fun u Γ' => ?_
      constructor
      · rintro ⟨-, _, ⟨h, rfl⟩, h'⟩; exact ⟨h, h'⟩
      · rintro ⟨h, h'⟩; exact ⟨(), _, ⟨h, rfl⟩, h'⟩
    · intro u Γ'
      constructor
      · rintro ⟨t, Γ1, h1, rfl, ⟨x, Γ2, h2⟩, h3⟩
        exact .cons h1 h2 h3
      · intro h
        cases h with
        | cons h1 h2 h3 => exact ⟨_, _, h1, rfl, ⟨_, _, h2⟩, h3⟩
theorem trB (hK : 1 ≤ K.max) : ∀ (b : Block) {Γ : List Frame}, wfB b → Good Γ →
    Tr Γ (checkB K b) (fun x Γ' => BlockTy K.ret Γ b x Γ')
  | .mk ss none, Γ, w, g => by
    unfold wfB at w
    unfold checkB
    refine (Tr.bind (trSs hK ss w.1 g) (fun _ => Mono.pure _) (fun _ Γ1 h1 => Tr.pure _)).iff ?_
    intro u Γ'
    constructor
    · rintro ⟨-, Γ1, h1, rfl, rfl⟩
      exact .none h1
    · intro h
      cases h with
      | none h1 => exact ⟨(), _, h1, rfl, rfl⟩
  | .mk ss (some e), Γ, w, g => by
    unfold wfB at w
    unfold checkB
    refine (Tr.bind (trSs hK ss w.1 g) (fun _ => by mono_all) (fun _ Γ1 h1 =>
      Tr.bind (trE hK e w.2 (presSs ss h1 g).1) (fun _ => Mono.pure _) (fun _ _ _ => Tr.pure _))).iff ?_
    intro u Γ'
    constructor
    · rintro ⟨-, Γ1, h1, t, Γ2, h2, rfl, rfl⟩
      exact .some h1 h2
    · intro h
      cases h with
      | some h1 h2 => exact ⟨(), _, h1, _, _, h2, rfl, rfl⟩
theorem trSs (hK : 1 ≤ K.max) : ∀ (ss : List Stmt) {Γ : List Frame}, wfSs ss → Good Γ →
    Tr Γ (checkSs K ss) (fun _ Γ' => StmtsOk K.ret Γ ss Γ')
  | [], Γ, w, g => by
    unfold checkSs
    refine (Tr.pure _).iff fun t Γ' => ?_
    constructor
    · rintro ⟨-, rfl⟩; exact .nil
    · intro h; cases h; exact ⟨rfl, rfl⟩
  | s :: ss, Γ, w, g => by
    unfold wfSs at w
    unfold checkSs
    refine (Tr.bind (trS hK s w.1 g) (fun _ => by mono_all) (fun _ Γ1 h1 => trSs hK ss w.2 (presS s h1 g).1)).iff ?_
    intro u Γ'
    constructor
    · rintro ⟨-, Γ1, h1, h2⟩
      exact .cons h1 h2
    · intro h
      cases h with
      | cons h1 h2 => exact ⟨(), _, h1, h2⟩
end

end Verif.Checker
