import Verif.Checker.Rules

/-!
# Syntax trees with known literal kinds and operators

The parser makes no others (`Verif/Parser/Grammar.lean`): literals are numbers, strings and Booleans, operators those of the
precedence table, `not` and minus.
-/

namespace Verif.Checker

open Verif.Types (Ty)
open Verif.Parser (Name Expr Clause Stmt Block Pat Mod Fn Param)

/-- the binary operators of the precedence table, parser.py:60-77 -/
def binOps : List String := arithOps ++ ["LT", "GT", "LE", "GE", "EQ", "NE", "AND", "OR"]

mutual
/-- known kinds and operators in an expression -/
def wfE : Expr → Prop
  | .lit k _ => litTy k ≠ .error
  | .ident _ => True
  | .bin op l r => op ∈ binOps ∧ wfE l ∧ wfE r
  | .un op e => (op = "NOT" ∨ op = "MINUS") ∧ wfE e
  | .call f args named => wfE f ∧ wfEs args ∧ wfN named
  | .method o _ args named => wfE o ∧ wfEs args ∧ wfN named
  | .member o _ => wfE o
  | .index o i => wfE o ∧ wfE i
  | .list es => wfEs es
  | .comp e cs => wfE e ∧ wfC cs
  | .range a b => wfE a ∧ wfE b
  | .dict es => wfN es
  | .lam _ b => wfE b
  | .cond c t e => wfE c ∧ wfE t ∧ wfE e
  | .ifE c t elifs els => wfE c ∧ wfB t ∧ wfL elifs ∧ (match els with | some b => wfB b | none => True)
  | .matchE s arms => wfE s ∧ wfA arms
/-- in a list of expressions -/
def wfEs : List Expr → Prop
  | [] => True
  | e :: es => wfE e ∧ wfEs es
/-- in named expressions -/
def wfN : List (Name × Expr) → Prop
  | [] => True
  | (_, e) :: es => wfE e ∧ wfN es
/-- in comprehension clauses -/
def wfC : List Clause → Prop
  | [] => True
  | .mk _ it conds :: cs => wfE it ∧ wfEs conds ∧ wfC cs
/-- in match arms -/
def wfA : List (Pat × Expr) → Prop
  | [] => True
  | (_, e) :: as => wfE e ∧ wfA as
/-- in elif branches -/
def wfL : List (Expr × Block) → Prop
  | [] => True
  | (c, b) :: bs => wfE c ∧ wfB b ∧ wfL bs
/-- in a block -/
def wfB : Block → Prop
  | .mk ss final => wfSs ss ∧ (match final with | some e => wfE e | none => True)
/-- in statements -/
def wfSs : List Stmt → Prop
  | [] => True
  | s :: ss => wfS s ∧ wfSs ss
/-- in a statement -/
def wfS : Stmt → Prop
  | .letS _ _ e => wfE e
  | .varDecl _ _ e => (match e with | some e => wfE e | none => True)
  | .require c msg => wfE c ∧ (match msg with | some e => wfE e | none => True)
  | .assertS c msg => wfE c ∧ (match msg with | some e => wfE e | none => True)
  | .emit v md => wfE v ∧ wfN md
  | .forS _ it body => wfE it ∧ wfB body
  | .ifS c t elifs els => wfE c ∧ wfB t ∧ wfL elifs ∧ (match els with | some b => wfB b | none => True)
  | .pass => True
  | .ret e => (match e with | some e => wfE e | none => True)
  | .py _ => True
  | .assign t v => wfE t ∧ wfE v
  | .exprS e => wfE e
end

/-- in a command: its body and the defaults of its parameters -/
def wfFn (c : Fn) : Prop := wfB c.body ∧ ∀ p ∈ c.params, ∀ e, p.dflt = some e → wfE e

/-- in a module -/
def wfMod (m : Mod) : Prop := ∀ c ∈ m.functions, wfFn c

end Verif.Checker
