import Verif.Parser.Module

/-!
# Declarations and modules (C146 - C149)
-/

namespace Verif.Parser

open Verif.Lexer Verif.Dict

/-! ### the bounds on the loops are never reached -/

/-- the run did not hit a bound -/
def NFM {α : Type} (x : Except MErr α) : Prop := x ≠ .error .fuel

theorem NFM.bind {α β : Type} {x : Except MErr α} {f : α → Except MErr β} (h : NFM x)
    (h' : ∀ a, x = .ok a → NFM (f a)) : NFM (x >>= f) := by
  cases x with
  | error e => intro he; apply h; simpa [Bind.bind, Except.bind] using he
  | ok a => exact h' a rfl

theorem NFM.ok {α : Type} (a : α) : NFM (pure a : Except MErr α) := by intro h; cases h
theorem NFM.ok' {α : Type} (a : α) : NFM (.ok a : Except MErr α) := by intro h; cases h
theorem NFM.syn {α : Type} : NFM (.error .syn : Except MErr α) := by intro h; cases h
theorem NFM.type {α : Type} : NFM (.error .typeError : Except MErr α) := by intro h; cases h

theorem NFM.ite {α : Type} {c : Prop} [Decidable c] {x y : Except MErr α} (h : c → NFM x) (h' : ¬ c → NFM y) :
    NFM (if c then x else y) := by
  split
  · exact h ‹_›
  · exact h' ‹_›

theorem NFM.lift {α : Type} {x : Except PErr α} (h : NF x) : NFM (lift x) := by
  intro he
  cases x with
  | ok a => cases he
  | error e => cases e with
    | syn => cases he
    | fuel => exact h rfl

theorem lift_ok {α : Type} {x : Except PErr α} {a : α} (h : lift x = .ok a) : x = .ok a := by
  cases x with
  | ok b => cases h; rfl
  | error e => cases e <;> cases h

theorem mbind_ok {α β : Type} {x : Except MErr α} {f : α → Except MErr β} {r : β} :
    (x >>= f) = .ok r ↔ ∃ a, x = .ok a ∧ f a = .ok r := by
  cases x with
  | error e => simp [bind, Except.bind]
  | ok a => simp [bind, Except.bind]

theorem mpure_ok {α : Type} {a r : α} : (pure a : Except MErr α) = .ok r ↔ a = r := by
  simp [pure, Except.pure]

/-- a run that hits no bound and, if it succeeds, leaves at most `n` tokens -/
def GP {α : Type} (n : Int) (x : Except MErr (α × List Tok)) : Prop :=
  NFM x ∧ ∀ a r, x = .ok (a, r) → (r.length : Int) ≤ n

theorem GP.bind {α β : Type} {m n : Int} {x : Except MErr (α × List Tok)} {f : α × List Tok → Except MErr (β × List Tok)}
    (h : GP m x) (h' : ∀ a r, (r.length : Int) ≤ m → GP n (f (a, r))) : GP n (x >>= f) := by
  refine ⟨NFM.bind h.1 fun a ha => (h' a.1 a.2 (h.2 _ _ ha)).1, fun b r hr => ?_⟩
  obtain ⟨⟨a, s⟩, h1, h2⟩ := mbind_ok.1 hr
  exact (h' a s (h.2 a s h1)).2 b r h2

theorem GP.bindH {β γ : Type} {n : Int} {x : Except MErr γ} {f : γ → Except MErr (β × List Tok)}
    (h : NFM x) (h' : ∀ a, GP n (f a)) : GP n (x >>= f) := by
  refine ⟨NFM.bind h fun a _ => (h' a).1, fun b r hr => ?_⟩
  obtain ⟨a, h1, h2⟩ := mbind_ok.1 hr
  exact (h' a).2 b r h2

theorem GP.ite {α : Type} {n : Int} {c : Prop} [Decidable c] {x y : Except MErr (α × List Tok)} (h : c → GP n x)
    (h' : ¬ c → GP n y) : GP n (if c then x else y) := by
  split
  · exact h ‹_›
  · exact h' ‹_›

theorem GP.pure {α : Type} {n : Int} {a : α} {r : List Tok} (h : (r.length : Int) ≤ n) :
    GP n (Pure.pure (a, r) : Except MErr (α × List Tok)) :=
  ⟨NFM.ok _, fun b r' h' => by cases mpure_ok.1 h'; exact h⟩

theorem GP.syn {α : Type} {n : Int} : GP n (.error .syn : Except MErr (α × List Tok)) := ⟨NFM.syn, fun _ _ h => by cases h⟩

theorem GP.mono {α : Type} {m n : Int} {x : Except MErr (α × List Tok)} (h : GP m x) (hm : m ≤ n) : GP n x :=
  ⟨h.1, fun a r hr => le_trans (h.2 a r hr) hm⟩

theorem GP.eat {k : String} (hk : k ≠ "EOF") (s : List Tok) : GP (s.length - 1) (eat k s) := by
  refine ⟨NFM.lift NF.consume, fun a r h => ?_⟩
  obtain ⟨t, ht, -⟩ := consume_ok (lift_ok h) hk
  rw [ht]
  simp

theorem GP.expr (s : List Tok) : GP (s.length - 1) (mExpr s) := by
  refine ⟨NFM.lift (depth_enough _ _), fun a r h => ?_⟩
  have := len_of (lift_ok h)
  dsimp only [LenRel] at this
  omega

theorem GP.ty (s : List Tok) : GP (s.length - 1) (mType s) := by
  refine ⟨NFM.lift (depth_enough _ _), fun a r h => ?_⟩
  have := len_of (lift_ok h)
  dsimp only [LenRel] at this
  omega

theorem GP.block (s : List Tok) : GP (s.length - 1) (mBlock s) := by
  refine ⟨NFM.lift (depth_enough _ _), fun a r h => ?_⟩
  have := len_of (lift_ok h)
  dsimp only [LenRel] at this
  omega

theorem GP.term {β : Type} {n : Int} {s : List Tok} {f : List Tok → Except MErr (β × List Tok)}
    (h : ∀ r, (r.length : Int) ≤ s.length → GP n (f r)) : GP n (mTerm s >>= f) := by
  refine ⟨NFM.bind (NFM.lift NF.term) fun a ha => (h a ?_).1, fun b r hr => ?_⟩
  · exact_mod_cast term_le (lift_ok ha)
  · obtain ⟨a, h1, h2⟩ := mbind_ok.1 hr
    exact (h a (by exact_mod_cast term_le (lift_ok h1))).2 b r h2

theorem negate_nf (v : TVal) : NFM (negate v) := by
  cases v <;> first | exact NFM.ok' _ | exact NFM.type

mutual
theorem hint_nf : ∀ e : Expr, NFM (hint e)
  | .lit _ v => by rw [hint]; exact NFM.ok' _
  | .un op e => by
    cases e <;> first
      | (rw [hint]; exact NFM.ite (fun _ => negate_nf _) fun _ => NFM.ok' _)
      | (rw [hint] <;> first | exact NFM.ok' _ | (intro _ _ h; cases h))
  | .list es => by rw [hint]; exact NFM.bind (hintList_nf es) fun _ _ => NFM.ok _
  | .dict es => by rw [hint]; exact NFM.bind (hintDict_nf es) fun _ _ => NFM.ok _
  | .ident _ | .bin _ _ _ | .call _ _ _ | .method _ _ _ _ | .member _ _ | .index _ _ | .comp _ _ | .range _ _ | .lam _ _
  | .cond _ _ _ | .ifE _ _ _ _ | .matchE _ _ => by rw [hint] <;> first | exact NFM.ok' _ | (intros; simp_all)
theorem hintList_nf : ∀ es : List Expr, NFM (hintList es)
  | [] => by rw [hintList]; exact NFM.ok' _
  | e :: es => by
    rw [hintList]
    exact NFM.bind (hint_nf e) fun _ _ => NFM.bind (hintList_nf es) fun _ _ => NFM.ok _
theorem hintDict_nf : ∀ es : List (Name × Expr), NFM (hintDict es)
  | [] => by rw [hintDict]; exact NFM.ok' _
  | (_, e) :: es => by
    rw [hintDict]
    exact NFM.bind (hint_nf e) fun _ _ => NFM.bind (hintDict_nf es) fun _ _ => NFM.ok _
end

/-- linear arithmetic after projecting pairs -/
macro "om" : tactic => `(tactic| ((try dsimp only at *) <;> omega))

theorem GP.uiEntry (s : List Tok) : GP (s.length - 1) (uiEntry s) := by
  unfold Parser.uiEntry
  refine GP.bind (GP.eat (by decide) s) fun a r h => GP.bind (GP.eat (by decide) _) fun a' r' h' => ?_
  refine GP.bind (GP.expr _) fun a'' r'' h'' => GP.bindH (hint_nf _) fun _ => GP.pure ?_
  omega

theorem GP.items {α : Type} {p : M α} {close : String} {trail : Bool} (hc : close ≠ "EOF")
    (hp : ∀ s, GP (s.length - 1) (p s)) : ∀ n s, s.length < n → GP (s.length - 1) (items p close trail n s) := by
  intro n
  induction n with
  | zero => intro s h; omega
  | succ n ih =>
    intro s hs
    unfold Parser.items
    refine GP.bind (hp s) fun a r h => ?_
    dsimp only
    refine GP.ite (fun hcm => ?_) fun _ => ?_
    · have h1 := adv_lt hcm (by decide)
      have h2 := adv_le (adv r)
      refine GP.ite (fun _ => GP.pure (by om)) fun _ => ?_
      refine GP.bind (ih (adv r) (by om)) fun _ _ h => GP.pure (by om)
    · refine GP.bind (GP.eat hc _) fun _ _ h => GP.pure (by om)

theorem GP.commaSep {α : Type} {p : M α} {close : String} {trail : Bool} (hc : close ≠ "EOF")
    (hp : ∀ s, GP (s.length - 1) (p s)) (s : List Tok) : GP (s.length - 1) (commaSep p close trail s) := by
  unfold Parser.commaSep
  refine GP.ite (fun h => ?_) fun _ => GP.items hc hp _ s (by om)
  have := adv_lt h hc
  exact GP.pure (by om)

theorem GP.uiHint (s : List Tok) : GP (s.length - 1) (uiHint s) := by
  unfold Parser.uiHint
  have h0 := adv_le s
  refine GP.bind (GP.eat (by decide) _) fun a r h => GP.ite (fun _ => ?_) fun _ => GP.syn
  refine GP.bind (GP.eat (by decide) _) fun a r h => ?_
  refine GP.bind (GP.commaSep (by decide) GP.uiEntry _) fun a r h => GP.pure (by om)

theorem GP.optTy (s : List Tok) : GP s.length (optTy s) := by
  unfold Parser.optTy
  have h0 := adv_le s
  exact GP.ite (fun _ => GP.bind (GP.ty _) fun a r h => GP.pure (by om)) fun _ => GP.pure (by om)

theorem GP.optUi (s : List Tok) : GP s.length (optUi s) := by
  unfold Parser.optUi
  exact GP.ite (fun _ => GP.bind (GP.uiHint _) fun a r h => GP.pure (by om)) fun _ => GP.pure (by om)

theorem GP.optDefault (s : List Tok) : GP s.length (optDefault s) := by
  unfold Parser.optDefault
  have h0 := adv_le s
  exact GP.ite (fun _ => GP.bind (GP.expr _) fun a r h => GP.pure (by om)) fun _ => GP.pure (by om)

theorem GP.param (s : List Tok) : GP (s.length - 1) (param s) := by
  unfold Parser.param
  refine GP.bind (GP.eat (by decide) _) fun a r h => GP.bind (GP.optTy _) fun a r h => GP.bind (GP.optUi _) fun a r h => ?_
  exact GP.bind (GP.optDefault _) fun a r h => GP.pure (by om)

theorem GP.params (s : List Tok) : GP (s.length - 1) (params s) := by
  unfold Parser.params
  exact GP.bind (GP.eat (by decide) _) fun a r h => (GP.commaSep (by decide) GP.param _).mono (by om)

theorem GP.decoArgs (s : List Tok) : GP s.length (decoArgs s) := by
  unfold Parser.decoArgs
  have h0 := adv_le s
  exact GP.ite (fun _ => (GP.commaSep (by decide) GP.expr _).mono (by om)) fun _ => GP.pure (by om)

theorem GP.deco (s : List Tok) : GP (s.length - 1) (deco s) := by
  unfold Parser.deco
  have h0 := adv_le s
  refine GP.bind (GP.eat (by decide) _) fun a r h => GP.bind (GP.decoArgs _) fun a r h => ?_
  exact GP.term fun r h => GP.pure (by om)

theorem GP.keyTail : ∀ s : List Tok, GP s.length (keyTail s)
  | [] => by rw [Parser.keyTail]; exact GP.pure (by simp)
  | [t] => by rw [Parser.keyTail]; exact GP.ite (fun _ => GP.syn) fun _ => GP.pure (by simp)
  | t :: u :: s => by
    rw [Parser.keyTail]
    refine GP.ite (fun _ => GP.ite (fun _ => ?_) fun _ => GP.syn) fun _ => GP.pure (le_refl _)
    exact GP.bind (GP.keyTail s) fun a r h => GP.pure (by simp; omega)

theorem GP.metaKey (s : List Tok) : GP s.length (metaKey s) := by
  unfold Parser.metaKey
  have h0 := adv_le s
  exact GP.ite (fun _ => GP.bind (GP.keyTail _) fun a r h => GP.pure (by om)) fun _ => GP.syn

theorem GP.metaLoop : ∀ n (s : List Tok), s.length < n → GP (s.length - 1) (metaLoop n s) := by
  intro n
  induction n with
  | zero => intro s h; omega
  | succ n ih =>
    intro s hs
    unfold Parser.metaLoop
    refine GP.ite (fun h => ?_) fun _ => ?_
    · have := adv_lt h (by decide)
      exact GP.pure (by om)
    refine GP.bind (GP.metaKey s) fun a r h => GP.bind (GP.eat (by decide) _) fun a r1 h1 => ?_
    have h2 := skip_le r1
    refine GP.bind (GP.expr _) fun a r2 h3 => GP.bindH (hint_nf _) fun _ => ?_
    dsimp only at h1 h3 ⊢
    have h4 := skip_le r2
    have h5 := adv_le (skipNl r2)
    have h6 := skip_le (adv (skipNl r2))
    refine GP.ite (fun _ => ?_) fun _ => GP.bind (GP.eat (by decide) _) fun a r h => GP.pure (by om)
    exact GP.bind (ih _ (by om)) fun a r h => GP.pure (by om)

theorem GP.metaDeco (s : List Tok) : GP (s.length - 1) (metaDeco s) := by
  unfold Parser.metaDeco
  have h0 := adv_le s
  refine GP.bind (GP.eat (by decide) _) fun a r h => GP.ite (fun _ => ?_) fun _ => GP.syn
  refine GP.bind (GP.eat (by decide) _) fun a r1 h1 => ?_
  have h2 := skip_le r1
  exact GP.bind (GP.metaLoop _ _ (by om)) fun a r h => GP.pure (by om)

theorem GP.optRet (s : List Tok) : GP s.length (optRet s) := by
  unfold Parser.optRet
  have h0 := adv_le s
  exact GP.ite (fun _ => GP.bind (GP.ty _) fun a r h => GP.pure (by om)) fun _ => GP.pure (by om)

theorem GP.fnDef (ds : List Deco) (md : List (Entry (List Name))) (s : List Tok) : GP (s.length - 1) (fnDef ds md s) := by
  unfold Parser.fnDef
  have h0 := adv_le s
  refine GP.bind (GP.eat (by decide) _) fun a r h => GP.bind (GP.params _) fun a r h => GP.bind (GP.optRet _) fun a r h => ?_
  exact GP.bind (GP.eat (by decide) _) fun a r h => GP.bind (GP.block _) fun a r h => GP.pure (by om)

theorem GP.commandDef (md : List (Entry (List Name))) (s : List Tok) : GP (s.length - 1) (commandDef md s) := by
  unfold Parser.commandDef
  have h0 := adv_le s
  refine GP.bind (GP.eat (by decide) _) fun a r h => GP.bind (GP.params _) fun a r h => GP.bind (GP.eat (by decide) _) fun a r h => ?_
  refine GP.bind (GP.ty _) fun a r h => ?_
  dsimp only
  have h1 : (if cur r = "COLON" then adv r else r).length ≤ r.length := by
    split
    · exact adv_le r
    · exact le_refl _
  exact GP.bind (GP.block _) fun a r h => GP.pure (by om)

theorem GP.pathTail : ∀ s : List Tok, GP s.length (pathTail s)
  | [] => by rw [Parser.pathTail]; exact GP.pure (by simp)
  | [t] => by rw [Parser.pathTail]; exact GP.ite (fun _ => GP.syn) fun _ => GP.pure (by simp)
  | t :: u :: s => by
    rw [Parser.pathTail]
    refine GP.ite (fun _ => GP.ite (fun _ => ?_) fun _ => GP.syn) fun _ => GP.pure (le_refl _)
    exact GP.bind (GP.pathTail s) fun a r h => GP.pure (by simp; omega)

theorem GP.optAlias (e : Bool) (s : List Tok) : GP s.length (optAlias e s) := by
  unfold Parser.optAlias
  have h0 := adv_le s
  exact GP.ite (fun _ => GP.bind (GP.eat (by decide) _) fun a r h => GP.pure (by om)) fun _ => GP.pure (by om)

theorem GP.useStmt (s : List Tok) : GP (s.length - 1) (useStmt s) := by
  unfold Parser.useStmt
  have h0 : (if decide (cur s = "EXPORT") = true then adv s else s).length ≤ s.length := by
    split
    · exact adv_le s
    · exact le_refl _
  dsimp only
  refine GP.bind (GP.eat (by decide) _) fun a r h => ?_
  have h1 := adv_le r
  refine GP.bind (m := s.length - 1) (GP.ite (fun _ => GP.pure (by om)) fun _ => GP.syn) fun a r h => ?_
  refine GP.bind (GP.pathTail _) fun a r h => GP.bind (GP.optAlias _ _) fun a r h => ?_
  exact GP.term fun r h => GP.pure (by om)

theorem GP.uses : ∀ n (s : List Tok), s.length < n → GP s.length (uses n s) := by
  intro n
  induction n with
  | zero => intro s h; omega
  | succ n ih =>
    intro s hs
    unfold Parser.uses
    refine GP.ite (fun hc => ?_) fun _ => GP.pure (le_refl _)
    have hne : s.length ≠ 0 := by
      intro h0
      rw [List.length_eq_zero_iff] at h0
      subst h0
      exact absurd hc (by decide)
    refine GP.bind (GP.useStmt s) fun a r h => ?_
    have h2 := skip_le r
    exact GP.bind (ih _ (by om)) fun a r h => GP.pure (by om)

theorem GP.nativeDecl (s : List Tok) : GP (s.length - 1) (nativeDecl s) := by
  unfold Parser.nativeDecl
  have h0 := adv_le s
  refine GP.bind (GP.eat (by decide) _) fun a r h => GP.bind (GP.params _) fun a r h => GP.bind (GP.eat (by decide) _) fun a r h => ?_
  exact GP.bind (GP.ty _) fun a r h => GP.bind (GP.eat (by decide) _) fun a r h => GP.pure (by om)

theorem GP.nativeDecls : ∀ n (s : List Tok), s.length < n → GP s.length (nativeDecls n s) := by
  intro n
  induction n with
  | zero => intro s h; omega
  | succ n ih =>
    intro s hs
    unfold Parser.nativeDecls
    refine GP.ite (fun hc => ?_) fun _ => GP.pure (le_refl _)
    have h0 := adv_lt hc (by decide)
    refine GP.bind (GP.nativeDecl s) fun a r h => ?_
    exact GP.bind (ih _ (by om)) fun a r h => GP.pure (by om)

theorem codeTo_le (d : Nat) (s : List Tok) : (codeTo d s).2.length ≤ s.length := by
  induction s generalizing d with
  | nil => cases d <;> simp [codeTo]
  | cons t s ih =>
    cases d with
    | zero => simp [codeTo]
    | succ d =>
      rw [codeTo]
      split
      · simp
      split
      · have := ih (d + 2); simp; omega
      split
      · split
        · simp
        · have := ih d; simp; omega
      · have := ih (d + 1); simp; omega

theorem codeDedent_le (s : List Tok) : (codeDedent s).2.length ≤ s.length := by
  induction s with
  | nil => simp [codeDedent]
  | cons t s ih =>
    rw [codeDedent]
    split
    · simp
    · simp; omega

theorem GP.nativeBlock (s : List Tok) : GP (s.length - 1) (nativeBlock s) := by
  unfold Parser.nativeBlock
  have h0 := adv_le s
  refine GP.bind (GP.eat (by decide) _) fun a r h => GP.bind (GP.eat (by decide) _) fun a r1 h1 => ?_
  have h2 := codeTo_le 1 r1
  refine GP.bind (GP.eat (by decide) _) fun a r h => GP.bind (GP.eat (by decide) _) fun a r h => ?_
  refine GP.bind (GP.nativeDecls _ _ (by om)) fun a r h => ?_
  exact GP.bind (GP.eat (by decide) _) fun a r h => GP.pure (by om)

theorem GP.nativeBody (s : List Tok) : GP s.length (nativeBody s) := by
  unfold Parser.nativeBody
  have h0 : (if cur s = "NEWLINE" then adv s else s).length ≤ s.length := by
    split
    · exact adv_le s
    · exact le_refl _
  have h1 := adv_le (if cur s = "NEWLINE" then adv s else s)
  have h2 := codeDedent_le (adv (if cur s = "NEWLINE" then adv s else s))
  exact GP.ite (fun _ => GP.bind (GP.eat (by decide) _) fun a r h => GP.pure (by om)) fun _ => GP.pure (by om)

theorem GP.nativeFn (s : List Tok) : GP (s.length - 1) (nativeFn s) := by
  unfold Parser.nativeFn
  have h0 := adv_le s
  refine GP.bind (GP.eat (by decide) _) fun a r h => GP.bind (GP.params _) fun a r h => GP.bind (GP.eat (by decide) _) fun a r h => ?_
  refine GP.bind (GP.ty _) fun a r h => GP.bind (GP.eat (by decide) _) fun a r h => ?_
  exact GP.bind (GP.nativeBody _) fun a r h => GP.pure (by om)

theorem GP.decos : ∀ n (s : List Tok), s.length < n → GP s.length (decos n s) := by
  intro n
  induction n with
  | zero => intro s h; omega
  | succ n ih =>
    intro s hs
    unfold Parser.decos
    refine GP.ite (fun hc => GP.ite (fun _ => ?_) fun _ => ?_) fun _ => GP.pure (le_refl _)
    · have h0 := adv_lt hc (by decide)
      refine GP.bind (GP.metaDeco s) fun a r h => ?_
      have h2 := skip_le r
      exact GP.bind (ih _ (by om)) fun a r h => GP.pure (by om)
    · have h0 := adv_lt hc (by decide)
      refine GP.bind (GP.deco s) fun a r h => ?_
      have h2 := skip_le r
      exact GP.bind (ih _ (by om)) fun a r h => GP.pure (by om)

theorem GP.decl (ds : List DecoItem) (s : List Tok) : GP (s.length - 1) (decl ds s) := by
  unfold Parser.decl
  refine GP.ite (fun _ => GP.bind (GP.nativeBlock _) fun a r h => GP.pure h) fun _ => GP.ite (fun _ => GP.ite (fun _ => ?_) fun _ => ?_)
    fun _ => GP.ite (fun _ => GP.bind (GP.commandDef _ _) fun a r h => GP.pure h) fun _ => GP.syn
  · exact GP.bind (GP.nativeFn _) fun a r h => GP.pure h
  · exact GP.bind (GP.fnDef _ _ _) fun a r h => GP.pure h

theorem cur_ne_length {s : List Tok} (h : cur s ≠ "EOF") : s.length ≠ 0 := by
  intro h0
  rw [List.length_eq_zero_iff] at h0
  subst h0
  exact h rfl

theorem decls_nf : ∀ n (s : List Tok), s.length < n → NFM (decls n s) := by
  intro n
  induction n with
  | zero => intro s h; omega
  | succ n ih =>
    intro s hs
    unfold Parser.decls
    refine NFM.ite (fun _ => NFM.ok _) fun h0 => ?_
    have h1 := skip_le s
    have h2 := GP.decos (s.length + 1) (skipNl s) (by om)
    refine NFM.bind h2.1 fun p hp => ?_
    have h3 := h2.2 _ _ hp
    refine NFM.ite (fun _ => NFM.ok _) fun hc => ?_
    have h4 := GP.decl p.1 p.2
    refine NFM.bind h4.1 fun q hq => ?_
    have h5 := h4.2 _ _ hq
    have h6 := cur_ne_length hc
    exact NFM.bind (ih q.2 (by om)) fun _ _ => NFM.ok _

theorem GP.optModule (s : List Tok) : GP s.length (optModule s) := by
  unfold Parser.optModule
  have h0 := adv_le s
  refine GP.ite (fun _ => ?_) fun _ => GP.pure (le_refl _)
  exact GP.bind (GP.eat (by decide) _) fun a r h => GP.term fun r h => GP.pure (by om)

/-- **C146.** `parse_module` ends on every list of tokens, with a module, a `ParserError` or a `TypeError`: none of its
loops runs longer than there are tokens. -/
theorem C146_module_terminates (toks : List Tok) :
    (∃ m, parseModule toks = .ok m) ∨ parseModule toks = .error .syn ∨ parseModule toks = .error .typeError := by
  have h : NFM (parseModule toks) := by
    unfold parseModule
    have h0 := skip_le toks
    have h1 := GP.optModule (skipNl toks)
    refine NFM.bind h1.1 fun p hp => ?_
    have h2 := h1.2 _ _ hp
    have h3 := skip_le p.2
    have h4 := GP.uses (toks.length + 1) (skipNl p.2) (by om)
    refine NFM.bind h4.1 fun q hq => ?_
    have h5 := h4.2 _ _ hq
    exact NFM.bind (decls_nf _ _ (by om)) fun _ _ => NFM.ok _
  cases hp : parseModule toks with
  | ok m => exact .inl ⟨m, rfl⟩
  | error e => cases e with
    | syn => exact .inr (.inl rfl)
    | typeError => exact .inr (.inr rfl)
    | fuel => exact absurd hp h

end Verif.Parser
