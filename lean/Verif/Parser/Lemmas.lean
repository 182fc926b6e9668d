import Verif.Parser.Grammar

/-! Monotonicity in the recursion bound, and what phrases begin with. -/

namespace Verif.Parser

open Verif.Lexer

theorem bind_ok {α β : Type} {x : Except PErr α} {f : α → Except PErr β} {r : β} :
    (x >>= f) = .ok r ↔ ∃ a, x = .ok a ∧ f a = .ok r := by
  cases x with
  | error e => simp [bind, Except.bind]
  | ok a => simp [bind, Except.bind]

theorem pure_ok {α : Type} {a r : α} : (pure a : Except PErr α) = .ok r ↔ a = r := by
  simp [pure, Except.pure]

/-- `y` gives the result of `x`, unless `x` hit the recursion bound -/
def Le {α : Type} (x y : Except PErr α) : Prop := x ≠ .error .fuel → y = x

theorem Le.rfl' {α : Type} {x : Except PErr α} : Le x x := fun _ => rfl

theorem Le.ok {α : Type} {x y : Except PErr α} (h : Le x y) {r : α} (hx : x = .ok r) : y = .ok r := by
  rw [h (by rw [hx]; simp), hx]

theorem Le.bind {α β : Type} {x y : Except PErr α} {f g : α → Except PErr β} (h : Le x y)
    (h' : ∀ a, Le (f a) (g a)) : Le (x >>= f) (y >>= g) := by
  intro hne
  cases x with
  | error e =>
    have : y = .error e := h (by intro he; apply hne; cases he; rfl)
    rw [this]; rfl
  | ok a =>
    have : y = .ok a := h (by simp)
    rw [this]
    exact h' a hne

theorem Le.ite {α : Type} {p : Prop} [Decidable p] {x y x' y' : Except PErr α} (h : Le x y) (h' : Le x' y') :
    Le (if p then x else x') (if p then y else y') := by
  split
  · exact h
  · exact h'

/-- solves `Le` goals of the shape of the parser's methods -/
macro "le_tac" h:term : tactic => `(tactic| repeat (first
  | exact Le.rfl'
  | exact $h _ _
  | apply Le.ite
  | (apply Le.bind)
  | (refine Prod.rec ?_; intro _ _; try dsimp only)
  | (intro _; try dsimp only)))

theorem step_mono {f g : ∀ s, P (Val s)} (h : ∀ s t, Le (f s t) (g s t)) (s : Sym) (t : List Tok) :
    Le (step f s t) (step g s t) := by
  cases s <;> dsimp only [step]
  case ty => unfold stepTy stepTyCore; le_tac h
  case tyTail c => unfold stepTyTail; le_tac h
  case expr => unfold stepExpr; le_tac h
  case bin m => unfold stepBin; le_tac h
  case binLoop m l =>
    unfold stepBinLoop
    cases prec (cur t) with
    | none => exact Le.rfl'
    | some p => dsimp only; le_tac h
  case unary => unfold stepUnary; le_tac h
  case post => unfold stepPost; le_tac h
  case postLoop e => unfold stepPostLoop; le_tac h
  case prim =>
    unfold stepPrim
    refine Le.ite Le.rfl' (Le.ite Le.rfl' (Le.ite ?_ (Le.ite ?_ (Le.ite ?_ (Le.ite ?_ (Le.ite ?_ Le.rfl'))))))
    · unfold stepGroup
      apply Le.ite
      · le_tac h
      · cases lambdaHead (adv t) with
        | none => dsimp only; le_tac h
        | some r => obtain ⟨ps, s1⟩ := r; dsimp only; le_tac h
    · unfold stepList; le_tac h
    · le_tac h
    · le_tac h
    · unfold stepMatch; le_tac h
  case item k => unfold stepItem; cases k <;> dsimp only <;> le_tac h
  case seq k => unfold stepSeq; le_tac h
  case seqTail k => unfold stepSeqTail; le_tac h
  case clauses => unfold stepClauses; le_tac h
  case conds => unfold stepConds; le_tac h
  case elifs => unfold stepElifs; le_tac h
  case ifParts => unfold stepIfParts; le_tac h
  case arms => unfold stepArms; le_tac h
  case block => unfold stepBlock; le_tac h
  case stmts c => unfold stepStmts; le_tac h
  case stmt =>
    unfold stepStmt
    refine Le.ite ?_ (Le.ite ?_ (Le.ite ?_ (Le.ite ?_ (Le.ite ?_ (Le.ite Le.rfl' (Le.ite ?_ (Le.ite Le.rfl'
      (Le.ite ?_ (Le.ite Le.rfl' (Le.ite ?_ (Le.ite ?_ ?_)))))))))))
    · unfold stmtLet optType; le_tac h
    · unfold stmtRequire optExpr; le_tac h
    · unfold stmtRequire optExpr; le_tac h
    · unfold stmtEmit optWith; le_tac h
    · unfold stmtFor; le_tac h
    · le_tac h
    · unfold stmtReturn retValue optAs; le_tac h
    · unfold stmtVarDecl optExpr; le_tac h
    · unfold stmtSimple; le_tac h
    · unfold stmtExpr; le_tac h
  case emitMeta => unfold stepEmitMeta; le_tac h

theorem parse_succ (n : Nat) (s : Sym) (t : List Tok) : Le (parse n s t) (parse (n + 1) s t) := by
  induction n generalizing s t with
  | zero => intro h; exact absurd rfl h
  | succ n ih => exact step_mono ih s t

theorem parse_mono {n m : Nat} (h : n ≤ m) (s : Sym) (t : List Tok) : Le (parse n s t) (parse m s t) := by
  induction h with
  | refl => exact Le.rfl'
  | step _ ih =>
    intro hne
    have := ih hne
    rw [← this] at hne ⊢
    exact parse_succ _ s t hne

/-- results do not depend on the recursion bound -/
theorem parse_det {n m : Nat} {s : Sym} {t : List Tok} {r r' : Val s × List Tok} (h : parse n s t = .ok r)
    (h' : parse m s t = .ok r') : r = r' := by
  have a := (parse_mono (Nat.le_max_left n m) s t).ok h
  have b := (parse_mono (Nat.le_max_right n m) s t).ok h'
  rw [a] at b
  exact Except.ok.inj b

/-! ### first tokens -/

/-- the kinds an expression begins with -/
def exprFirst (k : String) : Bool :=
  isLit k || isName k || k = "LPAREN" || k = "LBRACKET" || k = "LBRACE" || k = "IF" || k = "MATCH" || k = "NOT" ||
    k = "MINUS"

/-- the kinds a statement begins with -/
def stmtFirst (k : String) : Bool :=
  exprFirst k || k = "LET" || k = "REQUIRE" || k = "ASSERT" || k = "EMIT" || k = "FOR" || k = "PASS" ||
    k = "RETURN" || k = "PYTHON"

/-- what a phrase begins with -/
def First : (s : Sym) → Val s → String → Prop
  | .ty, _, k => isName k = true
  | .tyTail c, _, k => k = tyClose c ∨ k = "COMMA"
  | .item _, _, k => exprFirst k = true
  | .seq q, _, k => k = q.close ∨ exprFirst k = true
  | .seqTail q, _, k => k = q.close ∨ k = "COMMA"
  | .clauses, _, k => k = "FOR"
  | .conds, _, k => k = "IF"
  | .elifs, _, k => k = "ELIF"
  | .arms, _, k => k = "NEWLINE" ∨ k = "UNDERSCORE" ∨ isLit k = true ∨ k = "IDENTIFIER"
  | .block, _, k => k = "NEWLINE" ∨ k = "INDENT" ∨ k = "LBRACE"
  | .stmts _, _, k => k = "NEWLINE" ∨ stmtFirst k = true
  | .stmt, _, k => stmtFirst k = true
  | .emitMeta, _, k => k = "COMMA"
  | _, _, k => exprFirst k = true

/-- the phrases that may be empty, and then what they mean -/
def Empty : (s : Sym) → Val s → Prop
  | .clauses, v => v = []
  | .conds, v => v = []
  | .elifs, v => v = []
  | .arms, v => v = []
  | .stmts _, v => v = []
  | .emitMeta, v => v = []
  | _, _ => False

theorem isName_ident : isName "IDENTIFIER" = true := rfl

theorem first_lemma {s : Sym} {v : Val s} {t : Tail} {w : List Tok} (h : D s v t w) :
    (w = [] ∧ Empty s v) ∨ ∃ a w', w = a :: w' ∧ First s v a.kind := by
  induction h
  case tyOpt q a u w _ _ _ ih =>
    right
    rcases ih with ⟨_, h⟩ | ⟨a, w', rfl, h⟩
    · exact h.elim
    · exact ⟨a, _, rfl, h⟩
  case expr ih | operand ih | unPost ih | prim ih =>
    rcases ih with ⟨_, h⟩ | ⟨a, w', rfl, h⟩
    · exact h.elim
    · exact .inr ⟨a, _, rfl, h⟩
  case cond ih _ _ | op ih _ | call ih _ | method ih _ | member ih | index ih _ | seq ih _ | ifThen ih _ _ |
      ifElse ih _ _ _ =>
    right
    rcases ih with ⟨_, h⟩ | ⟨a, w', rfl, h⟩
    · exact h.elim
    · refine ⟨a, _, rfl, ?_⟩
      first | exact h | exact .inr h
  case itemExpr ih =>
    right
    rcases ih with ⟨_, h⟩ | ⟨a, w', rfl, h⟩
    · exact h.elim
    · exact ⟨a, _, rfl, h⟩
  case unary o h _ _ =>
    refine .inr ⟨_, _, rfl, ?_⟩
    rcases h with h | h <;> simp [First, exprFirst, h]
  case lit h => exact .inr ⟨_, _, rfl, by simp [First, exprFirst, h]⟩
  case ident h => exact .inr ⟨_, _, rfl, by simp [First, exprFirst, h]⟩
  case itemEntry h _ _ _ =>
    refine .inr ⟨_, _, rfl, ?_⟩
    rcases h with h | h <;> simp [First, exprFirst, isLit, isName, h]
  case arm h _ _ _ _ _ =>
    refine .inr ⟨_, _, rfl, ?_⟩
    cases h <;> simp_all [First]
  case stmtsMore ih _ =>
    right
    rcases ih with ⟨_, h⟩ | ⟨a, w', rfl, h⟩
    · exact h.elim
    · exact ⟨a, _, rfl, .inr h⟩
  case stmtsLast ih =>
    right
    rcases ih with ⟨_, h⟩ | ⟨a, w', rfl, h⟩
    · exact h.elim
    · exact ⟨a, _, rfl, .inr h⟩
  case assign ih _ =>
    right
    rcases ih with ⟨_, h⟩ | ⟨a, w', rfl, h⟩
    · exact h.elim
    · exact ⟨a, _, rfl, by simp only [First] at h; simp [First, stmtFirst, h]⟩
  case exprS ih =>
    right
    rcases ih with ⟨_, h⟩ | ⟨a, w', rfl, h⟩
    · exact h.elim
    · exact ⟨a, _, rfl, by simp only [First] at h; simp [First, stmtFirst, h]⟩
  all_goals first
    | exact .inl ⟨rfl, rfl⟩
    | (refine .inr ⟨_, _, rfl, ?_⟩; simp_all [First, stmtFirst, exprFirst, isName_ident, tyClose])

end Verif.Parser
