import Verif.Checker.Wf

/-! # The parser makes only known literal kinds and operators -/

namespace Verif.Checker

open Verif.Parser

/-- every result of a parse has a property -/
def Out {ε β : Type} (x : Except ε β) (Q : β → Prop) : Prop := ∀ r, x = .ok r → Q r

namespace Out
variable {ε α β : Type}

theorem pure {a : β} {Q : β → Prop} (h : Q a) : Out (Pure.pure a : Except ε β) Q := by
  intro r hr
  injection hr with hr
  exact hr ▸ h

theorem error {e : ε} {Q : β → Prop} : Out (Except.error e : Except ε β) Q := by
  intro r hr
  cases hr

theorem bind {x : Except ε α} {k : α → Except ε β} {P : α → Prop} {Q : β → Prop} (hx : Out x P)
    (hk : ∀ a, P a → Out (k a) Q) : Out (x >>= k) Q := by
  intro r hr
  cases x with
  | error e => cases hr
  | ok a => exact hk a (hx a rfl) r hr

/-- a step about whose result nothing is needed -/
theorem any {x : Except ε α} {k : α → Except ε β} {Q : β → Prop} (hk : ∀ a, Out (k a) Q) : Out (x >>= k) Q :=
  bind (P := fun _ => True) (fun _ _ => trivial) fun a _ => hk a

theorem ite {c : Prop} [Decidable c] {x y : Except ε β} {Q : β → Prop} (hx : c → Out x Q) (hy : ¬ c → Out y Q) :
    Out (if c then x else y) Q := by
  split
  · exact hx ‹_›
  · exact hy ‹_›

end Out

/-- what is known of the result of each method -/
def WfV : (s : Sym) → Val s → Prop
  | .ty, _ => True
  | .tyTail _, _ => True
  | .expr, v => wfE v
  | .bin _, v => wfE v
  | .binLoop _ l, v => wfE l → wfE v
  | .unary, v => wfE v
  | .post, v => wfE v
  | .postLoop e, v => wfE e → wfE v
  | .prim, v => wfE v
  | .item _, v => wfE v.2
  | .seq _, v => ∀ x ∈ v, wfE x.2
  | .seqTail _, v => ∀ x ∈ v, wfE x.2
  | .clauses, v => wfC v
  | .conds, v => wfEs v
  | .elifs, v => wfL v
  | .ifParts, v => wfE v.1 ∧ wfB v.2.1 ∧ wfL v.2.2.1 ∧ (match v.2.2.2 with | some b => wfB b | none => True)
  | .arms, v => wfA v
  | .block, v => wfB v
  | .stmts _, v => wfSs v
  | .stmt, v => wfS v
  | .emitMeta, v => ∀ x ∈ v, wfE x.2

theorem wf_positional : ∀ l : List Parser.Item, (∀ x ∈ l, wfE x.2) → wfEs (positional l)
  | [], _ => by simp [positional, wfEs]
  | x :: l, h => by
    rw [List.forall_mem_cons] at h
    have ih := wf_positional l h.2
    unfold positional at ih ⊢
    rw [List.filterMap_cons]
    cases x.1.isNone with
    | true => exact ⟨h.1, ih⟩
    | false => exact ih

theorem wf_dset {k : Name} {e : Expr} (he : wfE e) : ∀ d : List (Name × Expr), wfN d → wfN (Dict.dset d k e)
  | [], _ => ⟨he, trivial⟩
  | (k', e') :: d, h => by
    unfold Dict.dset
    split
    · exact ⟨he, h.2⟩
    · exact ⟨h.1, wf_dset he d h.2⟩

theorem wf_named (l : List Parser.Item) (h : ∀ x ∈ l, wfE x.2) : wfN (named l) := by
  unfold named
  suffices ∀ d, wfN d → wfN (l.foldl (fun d x => match x.1 with | some k => Dict.dset d k x.2 | none => d) d) from
    this [] trivial
  induction l with
  | nil => intro d hd; exact hd
  | cons x l ih =>
    intro d hd
    rw [List.forall_mem_cons] at h
    refine ih h.2 _ ?_
    obtain ⟨o, e⟩ := x
    cases o with
    | some k => exact wf_dset h.1 d hd
    | none => exact hd

theorem wf_update (d : List (Name × Expr)) (hd : wfN d) : ∀ e : List (Name × Expr), wfN e → wfN (updateDict d e) := by
  intro e
  unfold updateDict
  induction e generalizing d with
  | nil => intro _; exact hd
  | cons p e ih => intro h; exact ih _ (wf_dset h.1 d hd) h.2

theorem wf_dropLast : ∀ ss : List Stmt, wfSs ss → wfSs ss.dropLast
  | [], h => h
  | [_], _ => trivial
  | _ :: s :: ss, h => ⟨h.1, wf_dropLast (s :: ss) h.2⟩

theorem wf_last : ∀ (ss : List Stmt) (s : Stmt), wfSs ss → ss.getLast? = some s → wfS s
  | [], s, _, hs => by simp at hs
  | [a], s, h, hs => by
    simp only [List.getLast?_singleton, Option.some.injEq] at hs
    exact hs ▸ h.1
  | _ :: b :: ss, s, h, hs => wf_last (b :: ss) s h.2 (by rw [List.getLast?_cons_cons] at hs; exact hs)

theorem wf_mkBlock (ss : List Stmt) (h : wfSs ss) : wfB (mkBlock ss) := by
  unfold mkBlock
  split
  · rename_i e he
    exact ⟨wf_dropLast ss h, wf_last ss _ h he⟩
  · exact ⟨h, trivial⟩

theorem prec_mem {k : String} {p : Nat} (h : prec k = some p) : k ∈ binOps := by
  by_contra hn
  have : prec k = none := by
    simp only [binOps, arithOps, List.mem_append, List.mem_cons, List.not_mem_nil, or_false, not_or] at hn
    simp [prec, hn]
  simp [this] at h

theorem isLit_ty {k : String} (h : isLit k = true) : litTy k ≠ .error := by
  simp only [isLit, Bool.or_eq_true, decide_eq_true_eq] at h
  rcases h with ((rfl | rfl) | rfl) | rfl <;> simp [litTy]

section
variable {f : ∀ s, P (Val s)} (hf : ∀ s t, Out (f s t) (fun r => WfV s r.1))
include hf

theorem wf_stepExpr (s : List Verif.Lexer.Tok) : Out (stepExpr f s) (fun r => wfE r.1) := by
  unfold stepExpr
  refine Out.bind (hf (.bin 0) s) fun a ha => Out.ite (fun _ => ?_) fun _ => Out.pure ha
  refine Out.bind (hf (.bin 0) _) fun c hc => Out.ite (fun _ => ?_) fun _ => Out.pure ha
  exact Out.bind (hf .expr _) fun e he => Out.pure ⟨hc, ha, he⟩

theorem wf_stepBin (m : Nat) (s : List Verif.Lexer.Tok) : Out (stepBin f m s) (fun r => wfE r.1) := by
  unfold stepBin
  exact Out.bind (hf .unary s) fun a ha => fun r hr => hf (.binLoop m a.1) _ r hr ha

theorem wf_stepBinLoop (m : Nat) (l : Expr) (s : List Verif.Lexer.Tok) :
    Out (stepBinLoop f m l s) (fun r => wfE l → wfE r.1) := by
  unfold stepBinLoop
  cases hp : prec (cur s) with
  | none => exact Out.pure id
  | some p =>
    refine Out.ite (fun _ => Out.pure id) fun _ => ?_
    exact Out.bind (hf (.bin _) _) fun a ha => fun r hr hl => hf (.binLoop m _) _ r hr ⟨prec_mem hp, hl, ha⟩

theorem wf_stepUnary (s : List Verif.Lexer.Tok) : Out (stepUnary f s) (fun r => wfE r.1) := by
  unfold stepUnary
  refine Out.ite (fun h => ?_) fun _ => hf .post s
  exact Out.bind (hf .unary _) fun a ha => Out.pure ⟨h, ha⟩

theorem wf_stepPost (s : List Verif.Lexer.Tok) : Out (stepPost f s) (fun r => wfE r.1) := by
  unfold stepPost
  exact Out.bind (hf .prim s) fun a ha => fun r hr => hf (.postLoop a.1) _ r hr ha

theorem wf_stepPostLoop (e : Expr) (s : List Verif.Lexer.Tok) :
    Out (stepPostLoop f e s) (fun r => wfE e → wfE r.1) := by
  unfold stepPostLoop
  refine Out.ite (fun _ => ?_) fun _ => Out.ite (fun _ => ?_) fun _ => Out.ite (fun _ => ?_) fun _ => Out.pure id
  · exact Out.bind (hf (.seq .args) _) fun a ha => fun r hr he =>
      hf (.postLoop _) _ r hr ⟨he, wf_positional _ ha, wf_named _ ha⟩
  · refine Out.any fun a => Out.ite (fun _ => ?_) fun _ => fun r hr he => hf (.postLoop _) _ r hr he
    exact Out.bind (hf (.seq .args) _) fun a ha => fun r hr he =>
      hf (.postLoop _) _ r hr ⟨he, wf_positional _ ha, wf_named _ ha⟩
  · exact Out.bind (hf .expr _) fun a ha => Out.any fun b => fun r hr he => hf (.postLoop _) _ r hr ⟨he, ha⟩

theorem wf_stepGroup (s : List Verif.Lexer.Tok) : Out (stepGroup f s) (fun r => wfE r.1) := by
  unfold stepGroup
  refine Out.ite (fun _ => ?_) fun _ => ?_
  · exact Out.ite (fun _ => Out.bind (hf .expr _) fun a ha => Out.pure ha) fun _ => Out.error
  · split
    · exact Out.bind (hf .expr _) fun a ha => Out.pure ha
    · exact Out.bind (hf .expr _) fun a ha => Out.any fun _ => Out.pure ha

theorem wf_stepList (s : List Verif.Lexer.Tok) : Out (stepList f s) (fun r => wfE r.1) := by
  unfold stepList
  refine Out.ite (fun _ => Out.pure trivial) fun _ => ?_
  refine Out.bind (hf .expr _) fun a ha => Out.ite (fun _ => ?_) fun _ => Out.ite (fun _ => ?_) fun _ => ?_
  · exact Out.bind (hf .clauses _) fun c hc => Out.any fun _ => Out.pure ⟨ha, hc⟩
  · exact Out.bind (hf .expr _) fun c hc => Out.any fun _ => Out.pure ⟨ha, hc⟩
  · exact Out.bind (hf (.seqTail .elems) _) fun c hc => Out.pure ⟨ha, wf_positional _ hc⟩

theorem wf_stepMatch (s : List Verif.Lexer.Tok) : Out (stepMatch f s) (fun r => wfE r.1) := by
  unfold stepMatch
  exact Out.bind (hf .expr _) fun a ha => Out.any fun _ => Out.any fun _ => Out.any fun _ =>
    Out.bind (hf .arms _) fun b hb => Out.any fun _ => Out.pure ⟨ha, hb⟩

theorem wf_stepPrim (s : List Verif.Lexer.Tok) : Out (stepPrim f s) (fun r => wfE r.1) := by
  unfold stepPrim
  refine Out.ite (fun h => Out.pure (isLit_ty h)) fun _ => Out.ite (fun _ => Out.pure trivial) fun _ =>
    Out.ite (fun _ => wf_stepGroup hf _) fun _ => Out.ite (fun _ => wf_stepList hf _) fun _ => Out.ite (fun _ => ?_) fun _ =>
    Out.ite (fun _ => ?_) fun _ => Out.ite (fun _ => wf_stepMatch hf _) fun _ => Out.error
  · exact Out.bind (hf (.seq .entries) _) fun a ha => Out.pure (wf_named _ ha)
  · refine Out.bind (hf .ifParts _) fun a ha => Out.pure ?_
    obtain ⟨⟨c, t, el, els⟩, s⟩ := a
    cases els <;> exact ha

theorem wf_stepItem (k : SeqK) (s : List Verif.Lexer.Tok) : Out (stepItem f k s) (fun r => wfE r.1.2) := by
  unfold stepItem
  cases k with
  | args =>
    exact Out.ite (fun _ => Out.bind (hf .expr _) fun a ha => Out.pure ha)
      fun _ => Out.bind (hf .expr _) fun a ha => Out.pure ha
  | elems => exact Out.bind (hf .expr _) fun a ha => Out.pure ha
  | entries => exact Out.ite (fun _ => Out.any fun _ => Out.bind (hf .expr _) fun a ha => Out.pure ha) fun _ => Out.error

theorem wf_stepSeq (k : SeqK) (s : List Verif.Lexer.Tok) : Out (stepSeq f k s) (fun r => ∀ x ∈ r.1, wfE x.2) := by
  unfold stepSeq
  refine Out.ite (fun _ => Out.pure (by simp)) fun _ => Out.bind (hf (.item k) _) fun a ha =>
    Out.bind (hf (.seqTail k) _) fun b hb => Out.pure ?_
  rw [List.forall_mem_cons]
  exact ⟨ha, hb⟩

theorem wf_stepSeqTail (k : SeqK) (s : List Verif.Lexer.Tok) :
    Out (stepSeqTail f k s) (fun r => ∀ x ∈ r.1, wfE x.2) := by
  unfold stepSeqTail
  refine Out.ite (fun _ => Out.ite (fun _ => Out.pure (by simp)) fun _ => Out.bind (hf (.item k) _) fun a ha =>
    Out.bind (hf (.seqTail k) _) fun b hb => Out.pure ?_) fun _ => Out.any fun _ => Out.pure (by simp)
  rw [List.forall_mem_cons]
  exact ⟨ha, hb⟩

theorem wf_stepClauses (s : List Verif.Lexer.Tok) : Out (stepClauses f s) (fun r => wfC r.1) := by
  unfold stepClauses
  exact Out.ite (fun _ => Out.any fun _ => Out.any fun _ => Out.bind (hf .expr _) fun a ha => Out.bind (hf .conds _)
    fun b hb => Out.bind (hf .clauses _) fun c hc => Out.pure ⟨ha, hb, hc⟩) fun _ => Out.pure trivial

theorem wf_stepConds (s : List Verif.Lexer.Tok) : Out (stepConds f s) (fun r => wfEs r.1) := by
  unfold stepConds
  exact Out.ite (fun _ => Out.bind (hf .expr _) fun a ha => Out.bind (hf .conds _)
    fun b hb => Out.pure ⟨ha, hb⟩) fun _ => Out.pure trivial

theorem wf_stepElifs (s : List Verif.Lexer.Tok) : Out (stepElifs f s) (fun r => wfL r.1) := by
  unfold stepElifs
  exact Out.ite (fun _ => Out.bind (hf .expr _) fun a ha => Out.any fun _ => Out.bind (hf .block _)
    fun b hb => Out.bind (hf .elifs _) fun c hc => Out.pure ⟨ha, hb, hc⟩) fun _ => Out.pure trivial

theorem wf_stepIfParts (s : List Verif.Lexer.Tok) : Out (stepIfParts f s) (fun r => WfV .ifParts r.1) := by
  unfold stepIfParts
  refine Out.bind (hf .expr _) fun a ha => Out.any fun _ => Out.bind (hf .block _)
    fun b hb => Out.bind (hf .elifs _) fun c hc => Out.ite (fun _ => ?_) fun _ => Out.pure ⟨ha, hb, hc, trivial⟩
  exact Out.any fun _ => Out.bind (hf .block _) fun d hd => Out.pure ⟨ha, hb, hc, hd⟩

theorem wf_stepArms (s : List Verif.Lexer.Tok) : Out (stepArms f s) (fun r => wfA r.1) := by
  unfold stepArms
  exact Out.ite (fun _ => Out.pure trivial) fun _ => Out.ite (fun _ => Out.pure trivial) fun _ => Out.any fun _ =>
    Out.any fun _ => Out.bind (hf .expr _) fun a ha => Out.bind (hf .arms _) fun b hb => Out.pure ⟨ha, hb⟩

theorem wf_stepBlock (s : List Verif.Lexer.Tok) : Out (stepBlock f s) (fun r => wfB r.1) := by
  unfold stepBlock
  exact Out.ite (fun _ => Out.bind (hf (.stmts true) _) fun a ha => Out.any fun _ => Out.pure (wf_mkBlock _ ha))
    fun _ => Out.any fun _ => Out.bind (hf (.stmts false) _) fun a ha => Out.any fun _ => Out.pure (wf_mkBlock _ ha)

theorem wf_stepStmts (c : Bool) (s : List Verif.Lexer.Tok) : Out (stepStmts f c s) (fun r => wfSs r.1) := by
  unfold stepStmts
  exact Out.ite (fun _ => Out.pure trivial) fun _ => Out.ite (fun _ => Out.pure trivial) fun _ =>
    Out.bind (hf .stmt _) fun a ha => Out.bind (hf (.stmts c) _) fun b hb => Out.pure ⟨ha, hb⟩

theorem wf_optExpr (k : String) (s : List Verif.Lexer.Tok) :
    Out (optExpr f k s) (fun r => match r.1 with | some e => wfE e | none => True) := by
  unfold optExpr
  exact Out.ite (fun _ => Out.bind (hf .expr _) fun a ha => Out.pure ha) fun _ => Out.pure trivial

theorem wf_stmtExpr (s : List Verif.Lexer.Tok) : Out (stmtExpr f s) (fun r => wfS r.1) := by
  unfold stmtExpr
  refine Out.bind (hf .expr _) fun a ha => Out.ite (fun _ => ?_) fun _ => Out.any fun _ => Out.pure ha
  exact Out.bind (hf .expr _) fun b hb => Out.any fun _ => Out.pure ⟨ha, hb⟩

theorem wf_stepEmitMeta (s : List Verif.Lexer.Tok) : Out (stepEmitMeta f s) (fun r => ∀ x ∈ r.1, wfE x.2) := by
  unfold stepEmitMeta
  refine Out.ite (fun _ => Out.ite (fun _ => ?_) fun _ => Out.pure (by simp)) fun _ => Out.pure (by simp)
  refine Out.bind (hf .expr _) fun a ha => Out.bind (hf .emitMeta _) fun b hb => Out.pure ?_
  rw [List.forall_mem_cons]
  exact ⟨ha, hb⟩

theorem wf_optWith (s : List Verif.Lexer.Tok) : Out (optWith f s) (fun r => ∀ x ∈ r.1, wfE x.2) := by
  unfold optWith
  exact Out.ite (fun _ => hf (.seq .entries) _) fun _ => Out.pure (by simp)

theorem wf_retValue (s : List Verif.Lexer.Tok) :
    Out (retValue f s) (fun r => match r.1 with | some e => wfE e | none => True) := by
  unfold retValue
  exact Out.ite (fun _ => Out.pure trivial) fun _ => Out.bind (hf .expr _) fun a ha => Out.pure ha

theorem wf_stepStmt (s : List Verif.Lexer.Tok) : Out (stepStmt f s) (fun r => wfS r.1) := by
  unfold stepStmt
  refine Out.ite (fun _ => ?_) fun _ => Out.ite (fun _ => ?_) fun _ => Out.ite (fun _ => ?_) fun _ =>
    Out.ite (fun _ => ?_) fun _ => Out.ite (fun _ => ?_) fun _ => Out.ite (fun _ => Out.error) fun _ =>
    Out.ite (fun _ => ?_) fun _ => Out.ite (fun _ => Out.any fun _ => Out.pure trivial) fun _ =>
    Out.ite (fun _ => ?_) fun _ => Out.ite (fun _ => Out.any fun _ => Out.pure trivial) fun _ =>
    Out.ite (fun _ => ?_) fun _ => Out.ite (fun _ => ?_) fun _ => wf_stmtExpr hf _
  · exact Out.any fun _ => Out.any fun _ => Out.any fun _ => Out.bind (hf .expr _) fun a ha => Out.any fun _ => Out.pure ha
  · refine Out.bind (hf .expr _) fun a ha => Out.bind (wf_optExpr hf _ _) fun b hb => Out.any fun _ => Out.pure ?_
    obtain ⟨o, s⟩ := b
    cases o <;> exact ⟨ha, hb⟩
  · refine Out.bind (hf .expr _) fun a ha => Out.bind (wf_optExpr hf _ _) fun b hb => Out.any fun _ => Out.pure ?_
    obtain ⟨o, s⟩ := b
    cases o <;> exact ⟨ha, hb⟩
  · exact Out.bind (hf .expr _) fun a ha => Out.bind (hf .emitMeta _) fun b hb => Out.bind (wf_optWith hf _) fun c hc =>
      Out.any fun _ => Out.pure ⟨ha, wf_update _ (wf_named _ hb) _ (wf_named _ hc)⟩
  · exact Out.any fun _ => Out.any fun _ => Out.bind (hf .expr _) fun a ha => Out.any fun _ => Out.bind (hf .block _)
      fun b hb => Out.pure ⟨ha, hb⟩
  · refine Out.bind (hf .ifParts _) fun a ha => Out.pure ?_
    obtain ⟨⟨c, t, el, els⟩, s⟩ := a
    cases els <;> exact ha
  · refine Out.bind (wf_retValue hf _) fun a ha => Out.any fun _ => Out.any fun _ => Out.pure ?_
    obtain ⟨o, s⟩ := a
    cases o <;> exact ha
  · refine Out.any fun _ => Out.bind (wf_optExpr hf _ _) fun b hb => Out.any fun _ => Out.pure ?_
    obtain ⟨o, s⟩ := b
    cases o <;> exact hb
  · exact Out.bind (hf .expr _) fun a ha => Out.any fun _ => Out.pure ha

theorem wf_step (s : Sym) (t : List Verif.Lexer.Tok) : Out (step f s t) (fun r => WfV s r.1) := by
  cases s with
  | ty => exact fun _ _ => trivial
  | tyTail c => exact fun _ _ => trivial
  | expr => exact wf_stepExpr hf t
  | bin m => exact wf_stepBin hf m t
  | binLoop m l => exact wf_stepBinLoop hf m l t
  | unary => exact wf_stepUnary hf t
  | post => exact wf_stepPost hf t
  | postLoop e => exact wf_stepPostLoop hf e t
  | prim => exact wf_stepPrim hf t
  | item k => exact wf_stepItem hf k t
  | seq k => exact wf_stepSeq hf k t
  | seqTail k => exact wf_stepSeqTail hf k t
  | clauses => exact wf_stepClauses hf t
  | conds => exact wf_stepConds hf t
  | elifs => exact wf_stepElifs hf t
  | ifParts => exact wf_stepIfParts hf t
  | arms => exact wf_stepArms hf t
  | block => exact wf_stepBlock hf t
  | stmts c => exact wf_stepStmts hf c t
  | stmt => exact wf_stepStmt hf t
  | emitMeta => exact wf_stepEmitMeta hf t
end

theorem wf_parse (n : Nat) : ∀ (s : Sym) (t : List Verif.Lexer.Tok), Out (parse n s t) (fun r => WfV s r.1) := by
  induction n with
  | zero => exact fun _ _ => Out.error
  | succ n ih => exact fun s t => wf_step ih s t

/-! ### modules -/

theorem Out.lift {α : Type} {x : Except PErr α} {Q : α → Prop} (h : Out x Q) : Out (Parser.lift x) Q := by
  intro r hr
  cases x with
  | error e => cases e <;> cases hr
  | ok a => exact h r (by simpa [Parser.lift] using hr)

theorem wf_mExpr (s : List Verif.Lexer.Tok) : Out (mExpr s) (fun r => wfE r.1) := Out.lift (wf_parse _ .expr s)

theorem wf_mBlock (s : List Verif.Lexer.Tok) : Out (mBlock s) (fun r => wfB r.1) := Out.lift (wf_parse _ .block s)

theorem out_items {α : Type} {p : Parser.M α} {Q : α → Prop} (hp : ∀ s, Out (p s) (fun r => Q r.1)) (close : String)
    (trail : Bool) : ∀ (n : Nat) (s : List Verif.Lexer.Tok), Out (Parser.items p close trail n s) (fun r => ∀ x ∈ r.1, Q x)
  | 0, _ => Out.error
  | n + 1, s => by
    unfold Parser.items
    refine Out.bind (hp s) fun a ha => Out.ite (fun _ => Out.ite (fun _ => Out.pure ?_) fun _ => ?_) fun _ =>
      Out.any fun _ => Out.pure ?_
    · simpa using ha
    · refine Out.bind (out_items hp close trail n _) fun b hb => Out.pure ?_
      rw [List.forall_mem_cons]
      exact ⟨ha, hb⟩
    · simpa using ha

theorem out_commaSep {α : Type} {p : Parser.M α} {Q : α → Prop} (hp : ∀ s, Out (p s) (fun r => Q r.1)) (close : String)
    (trail : Bool) (s : List Verif.Lexer.Tok) : Out (commaSep p close trail s) (fun r => ∀ x ∈ r.1, Q x) :=
  Out.ite (fun _ => Out.pure (by simp)) fun _ => out_items hp close trail _ s

theorem wf_param (s : List Verif.Lexer.Tok) : Out (param s) (fun r => ∀ e, r.1.dflt = some e → wfE e) := by
  unfold param
  refine Out.any fun _ => Out.any fun _ => Out.any fun _ => Out.bind (P := fun r => ∀ e, r.1 = some e → wfE e) ?_
    fun d hd => Out.pure hd
  unfold optDefault
  refine Out.ite (fun _ => Out.bind (wf_mExpr _) fun a ha => Out.pure ?_) fun _ => Out.pure (by simp)
  intro e he
  injection he with he
  exact he ▸ ha

theorem wf_params (s : List Verif.Lexer.Tok) : Out (params s) (fun r => ∀ p ∈ r.1, ∀ e, p.dflt = some e → wfE e) :=
  Out.any fun _ => out_commaSep wf_param _ _ _

theorem wf_decl (ds : List DecoItem) (s : List Verif.Lexer.Tok) :
    Out (decl ds s) (fun r => ∀ c, r.1 = .fn c → wfFn c) := by
  unfold decl
  refine Out.ite (fun _ => Out.any fun _ => Out.pure (by simp)) fun _ => Out.ite (fun _ => Out.ite (fun _ =>
    Out.any fun _ => Out.pure (by simp)) fun _ => ?_) fun _ => Out.ite (fun _ => ?_) fun _ => Out.error
  · refine Out.bind (P := fun r => wfFn r.1) ?_ fun a ha => Out.pure ?_
    · unfold fnDef
      exact Out.any fun _ => Out.bind (wf_params _) fun b hb => Out.any fun _ => Out.any fun _ => Out.bind (wf_mBlock _)
        fun c hc => Out.pure ⟨hc, hb⟩
    · intro c hc
      injection hc with hc
      exact hc ▸ ha
  · refine Out.bind (P := fun r => wfFn r.1) ?_ fun a ha => Out.pure ?_
    · unfold commandDef
      exact Out.any fun _ => Out.bind (wf_params _) fun b hb => Out.any fun _ => Out.any fun _ => Out.bind (wf_mBlock _)
        fun c hc => Out.pure ⟨hc, hb⟩
    · intro c hc
      injection hc with hc
      exact hc ▸ ha

theorem wf_decls : ∀ (n : Nat) (s : List Verif.Lexer.Tok), Out (decls n s) (fun l => ∀ c, Decl.fn c ∈ l → wfFn c)
  | 0, _ => Out.error
  | n + 1, s => by
    unfold decls
    refine Out.ite (fun _ => Out.pure (by simp)) fun _ => Out.any fun _ => Out.ite (fun _ => Out.pure (by simp)) fun _ =>
      Out.bind (wf_decl _ _) fun d hd => Out.bind (wf_decls n _) fun l hl => Out.pure ?_
    intro c hc
    rcases List.mem_cons.1 hc with h | h
    · exact hd c h.symm
    · exact hl c h

/-- whatever the parser makes has known literal kinds and operators only -/
theorem parsed_wf {s : List Verif.Lexer.Tok} {m : Mod} (h : parseModule s = .ok m) : wfMod m := by
  have : Out (parseModule s) wfMod := by
    unfold parseModule
    refine Out.any fun _ => Out.any fun _ => Out.bind (wf_decls _ _) fun l hl => Out.pure ?_
    intro c hc
    obtain ⟨d, hd, hc⟩ := List.mem_filterMap.1 hc
    cases d with
    | fn c' =>
      injection hc with hc
      exact hl c (hc ▸ hd)
    | block _ => simp at hc
    | native _ => simp at hc
  exact this m h

end Verif.Checker
