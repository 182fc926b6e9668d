import Verif.Lexer.Model
import Verif.Base.Dict

/-!
# Model of `src/yapcad/dsl/parser.py`: types, expressions, statements and blocks

The parser's position is the list of tokens still to be read. The `EOF` token the lexer puts at the end may be left
out: reading from the empty list gives `EOF`, as `_current`/`_peek` do past the end (parser.py:99-104).
Every `_parse_...` method is one case of `step`; `parse n` allows a recursion depth of `n`. Running out of it is an
error of the model only (`PErr.fuel`), and `Verif/Parser/Terminate.lean` shows that it does not occur.
Not modelled: source spans, the text of error messages, and CPython's recursion limit.
-/

namespace Verif.Parser

open Verif.Lexer Verif.Dict

/-- `Token.value` of a name token -/
abbrev Name := TVal

/-- why a parse failed: `syn` is a `ParserError`; `fuel` exists in the model only -/
inductive PErr
  | syn
  | fuel
  deriving DecidableEq

/-- type annotations: `SimpleType`, `GenericType`, `OptionalType` of dsl/ast.py -/
inductive Ty
  | simple (n : Name)
  | generic (n : Name) (args : List Ty)
  | opt (t : Ty)

/-- match patterns -/
inductive Pat
  | wild
  | lit (kind : String) (v : TVal)
  | ident (n : Name)

mutual
/-- expression nodes of dsl/ast.py; operators are named by their token kind -/
inductive Expr
  | lit (kind : String) (v : TVal)
  | ident (n : Name)
  | bin (op : String) (l r : Expr)
  | un (op : String) (e : Expr)
  | call (f : Expr) (args : List Expr) (named : List (Name × Expr))
  | method (o : Expr) (m : Name) (args : List Expr) (named : List (Name × Expr))
  | member (o : Expr) (m : Name)
  | index (o i : Expr)
  | list (es : List Expr)
  | comp (e : Expr) (cs : List Clause)
  | range (a b : Expr)
  | dict (es : List (Name × Expr))
  | lam (ps : List Name) (body : Expr)
  | cond (c t e : Expr)
  | ifE (c : Expr) (t : Block) (elifs : List (Expr × Block)) (els : Option Block)
  | matchE (s : Expr) (arms : List (Pat × Expr))
/-- `ComprehensionClause` -/
inductive Clause
  | mk (v : Name) (it : Expr) (conds : List Expr)
/-- statement nodes of dsl/ast.py -/
inductive Stmt
  | letS (n : Name) (t : Option Ty) (e : Expr)
  | varDecl (n : Name) (t : Option Ty) (e : Option Expr)
  | require (c : Expr) (msg : Option Expr)
  | assertS (c : Expr) (msg : Option Expr)
  | emit (v : Expr) (md : List (Name × Expr))
  | forS (v : Name) (it : Expr) (body : Block)
  | ifS (c : Expr) (t : Block) (elifs : List (Expr × Block)) (els : Option Block)
  | pass
  | ret (e : Option Expr)
  | py (code : List (List Char))
  | assign (target value : Expr)
  | exprS (e : Expr)
/-- `Block` -/
inductive Block
  | mk (ss : List Stmt) (final : Option Expr)
end

/-- an argument or entry: with its name, or positional -/
abbrev Item := Option Name × Expr

/-- the positional ones, parser.py:402-403 -/
def positional (l : List Item) : List Expr := l.filterMap fun x => if x.1.isNone then some x.2 else none

/-- the named ones, stored into a Python dict one after the other, parser.py:395-401, 593-609 -/
def named (l : List Item) : List (Name × Expr) :=
  l.foldl (fun d x => match x.1 with | some k => dset d k x.2 | none => d) []

/-- `PRECEDENCE`, parser.py:60-77 -/
def prec (k : String) : Option Nat :=
  if k = "OR" then some 1 else if k = "AND" then some 2
  else if k = "EQ" then some 3 else if k = "NE" then some 3
  else if k = "LT" then some 4 else if k = "GT" then some 4
  else if k = "LE" then some 4 else if k = "GE" then some 4
  else if k = "PLUS" then some 5 else if k = "MINUS" then some 5
  else if k = "STAR" then some 6 else if k = "SLASH" then some 6
  else if k = "DOUBLE_SLASH" then some 6 else if k = "PERCENT" then some 6
  else if k = "DOUBLE_STAR" then some 7 else none

/-- precedence required of the right operand, parser.py:293-294 with `RIGHT_ASSOCIATIVE` of line 80 -/
def nextPrec (k : String) (p : Nat) : Nat := if k = "DOUBLE_STAR" then p else p + 1

/-- `is_type_token`, tokens.py:318-320: the token kinds that begin with `TYPE_`, tokens.py:64-103 -/
def typeKinds : List String :=
  ["TYPE_INT", "TYPE_FLOAT", "TYPE_STRING", "TYPE_BOOL", "TYPE_POINT", "TYPE_POINT2D", "TYPE_POINT3D",
   "TYPE_VECTOR", "TYPE_VECTOR2D", "TYPE_VECTOR3D", "TYPE_TRANSFORM", "TYPE_LINE_SEGMENT", "TYPE_ARC",
   "TYPE_CIRCLE", "TYPE_ELLIPSE", "TYPE_PARABOLA", "TYPE_HYPERBOLA", "TYPE_CATMULLROM", "TYPE_NURBS",
   "TYPE_BEZIER", "TYPE_PATH2D", "TYPE_PATH3D", "TYPE_PROFILE2D", "TYPE_REGION2D", "TYPE_LOOP3D",
   "TYPE_SURFACE", "TYPE_SHELL", "TYPE_SOLID", "TYPE_LIST", "TYPE_DICT"]

/-- kinds that name something in an expression or type: identifiers and type keywords -/
def isName (k : String) : Bool := k = "IDENTIFIER" || typeKinds.contains k

/-- the kinds of literals, parser.py:410-441 -/
def isLit (k : String) : Bool :=
  k = "INT_LITERAL" || k = "FLOAT_LITERAL" || k = "STRING_LITERAL" || k = "BOOL_LITERAL"

/-- kind of `_current()`, parser.py:93-97 -/
def cur (s : List Tok) : String := match s with | [] => "EOF" | t :: _ => t.kind

/-- kind of `_peek(1)`, parser.py:99-104 -/
def peek1 (s : List Tok) : String := match s with | _ :: t :: _ => t.kind | _ => "EOF"

/-- value of `_current()` -/
def val (s : List Tok) : TVal := match s with | [] => .none | t :: _ => t.val

/-- the position after `_advance()`, parser.py:122-127 -/
def adv (s : List Tok) : List Tok := if cur s = "EOF" then s else s.tail

/-- `_consume`, parser.py:129-133: the token's value -/
def consume (k : String) (s : List Tok) : Except PErr (TVal × List Tok) :=
  if cur s = k then .ok (val s, adv s) else .error .syn

/-- `_skip_newlines`, parser.py:141-144 -/
def skipNl : List Tok → List Tok
  | [] => []
  | t :: s => if t.kind = "NEWLINE" then skipNl s else t :: s

/-- `_expect_newline_or_eof`, parser.py:146-162. The `if not self._match(SEMICOLON)` that comes before it in some
statements changes nothing, as a semicolon is accepted here. -/
def terminator (s : List Tok) : Except PErr (List Tok) :=
  if cur s = "EOF" then .ok s
  else if cur s = "NEWLINE" then .ok (adv s)
  else if cur s = "DEDENT" then .ok s
  else if cur s = "RBRACE" then .ok s
  else if cur s = "SEMICOLON" then .ok (adv s)
  else .error .syn

/-- the names after the first in the lambda look-ahead, parser.py:498-502 -/
def moreNames : List Tok → List Name × List Tok
  | [] => ([], [])
  | [t] => if t.kind = "COMMA" then ([], []) else ([], [t])
  | t :: u :: s =>
    if t.kind = "COMMA" then
      if u.kind = "IDENTIFIER" then let (ns, r) := moreNames s; (u.val :: ns, r) else ([], u :: s)
    else ([], t :: u :: s)

/-- the look-ahead of `_parse_grouped_or_lambda`, parser.py:494-509: parameter names and the position of the body
if the text up to `=>` is a parameter list -/
def lambdaHead (s : List Tok) : Option (List Name × List Tok) :=
  if cur s = "IDENTIFIER" then
    let (ns, r) := moreNames (adv s)
    if cur r = "RPAREN" then
      if cur (adv r) = "DOUBLE_ARROW" then some (val s :: ns, adv (adv r)) else none
    else none
  else none

/-- what a comma-separated sequence is for: call arguments, list elements, dict entries -/
inductive SeqK
  | args
  | elems
  | entries
  deriving DecidableEq

/-- its closing token -/
def SeqK.close : SeqK → String
  | .args => "RPAREN"
  | .elems => "RBRACKET"
  | .entries => "RBRACE"

/-- closing token of type arguments `[...]` or, legacy, `<...>` -/
def tyClose (lt : Bool) : String := if lt then "GT" else "RBRACKET"

/-- closing token of an indented or, legacy, braced block -/
def blockClose (brace : Bool) : String := if brace then "RBRACE" else "DEDENT"

/-- the methods of the parser (and their loops) -/
inductive Sym
  | ty
  | tyTail (lt : Bool)
  | expr
  | bin (m : Nat)
  | binLoop (m : Nat) (l : Expr)
  | unary
  | post
  | postLoop (e : Expr)
  | prim
  | item (k : SeqK)
  | seq (k : SeqK)
  | seqTail (k : SeqK)
  | clauses
  | conds
  | elifs
  | ifParts
  | arms
  | block
  | stmts (brace : Bool)
  | stmt
  | emitMeta

/-- what they return -/
abbrev Val : Sym → Type
  | .ty => Ty
  | .tyTail _ => List Ty
  | .item _ => Item
  | .seq _ => List Item
  | .seqTail _ => List Item
  | .clauses => List Clause
  | .conds => List Expr
  | .elifs => List (Expr × Block)
  | .ifParts => Expr × Block × List (Expr × Block) × Option Block
  | .arms => List (Pat × Expr)
  | .block => Block
  | .stmts _ => List Stmt
  | .stmt => Stmt
  | .emitMeta => List Item
  | _ => Expr

/-- parser of one kind of phrase -/
abbrev P (α : Type) := List Tok → Except PErr (α × List Tok)

/-- `_parse_type`, parser.py:182-218, up to the optional marker -/
def stepTyCore (f : ∀ s, P (Val s)) (s : List Tok) : Except PErr (Ty × List Tok) :=
  if isName (cur s) then
    let n := val s
    let s1 := adv s
    if cur s1 = "LBRACKET" then do
      let (a, s2) ← f .ty (adv s1)
      let (as, s3) ← f (.tyTail false) s2
      pure (.generic n (a :: as), s3)
    else if cur s1 = "LT" then do
      let (a, s2) ← f .ty (adv s1)
      let (as, s3) ← f (.tyTail true) s2
      pure (.generic n (a :: as), s3)
    else pure (.simple n, s1)
  else .error .syn

/-- the optional marker, parser.py:220-222 -/
def optMark (t : Ty) (s : List Tok) : Ty × List Tok :=
  if cur s = "QUESTION" then (.opt t, adv s) else (t, s)

/-- `_parse_type`, parser.py:182-224 -/
def stepTy (f : ∀ s, P (Val s)) (s : List Tok) : Except PErr (Ty × List Tok) := do
  let (t, s') ← stepTyCore f s
  pure (optMark t s')

/-- the loop over type arguments and the closing token, parser.py:197-199 and 208-210 -/
def stepTyTail (f : ∀ s, P (Val s)) (lt : Bool) (s : List Tok) : Except PErr (List Ty × List Tok) :=
  if cur s = "COMMA" then do
    let (a, s1) ← f .ty (adv s)
    let (as, s2) ← f (.tyTail lt) s1
    pure (a :: as, s2)
  else do
    let (_, s1) ← consume (tyClose lt) s
    pure ([], s1)

/-- `_parse_expression`/`_parse_conditional_expr`, parser.py:238-278 -/
def stepExpr (f : ∀ s, P (Val s)) (s : List Tok) : Except PErr (Expr × List Tok) := do
  let (t, s1) ← f (.bin 0) s
  if cur s1 = "IF" then do
    let (c, s2) ← f (.bin 0) (adv s1)
    if cur s2 = "ELSE" then do
      let (e, s3) ← f .expr (adv s2)
      pure (Expr.cond c t e, s3)
    else pure (t, s1)
  else pure (t, s1)

/-- `_parse_binary_expr`, parser.py:280-282 -/
def stepBin (f : ∀ s, P (Val s)) (m : Nat) (s : List Tok) : Except PErr (Expr × List Tok) := do
  let (l, s1) ← f .unary s
  f (.binLoop m l) s1

/-- its loop, parser.py:284-304 -/
def stepBinLoop (f : ∀ s, P (Val s)) (m : Nat) (l : Expr) (s : List Tok) : Except PErr (Expr × List Tok) :=
  match prec (cur s) with
  | none => pure (l, s)
  | some p =>
    if p < m then pure (l, s)
    else do
      let (r, s1) ← f (.bin (nextPrec (cur s) p)) (adv s)
      f (.binLoop m (.bin (cur s) l r)) s1

/-- `_parse_unary_expr`, parser.py:306-317 -/
def stepUnary (f : ∀ s, P (Val s)) (s : List Tok) : Except PErr (Expr × List Tok) :=
  if cur s = "NOT" ∨ cur s = "MINUS" then do
    let (e, s1) ← f .unary (adv s)
    pure (.un (cur s) e, s1)
  else f .post s

/-- `_parse_postfix_expr`, parser.py:319-321 -/
def stepPost (f : ∀ s, P (Val s)) (s : List Tok) : Except PErr (Expr × List Tok) := do
  let (e, s1) ← f .prim s
  f (.postLoop e) s1

/-- its loop, parser.py:323-372 -/
def stepPostLoop (f : ∀ s, P (Val s)) (e : Expr) (s : List Tok) : Except PErr (Expr × List Tok) :=
  if cur s = "LPAREN" then do
    let (as, s1) ← f (.seq .args) (adv s)
    f (.postLoop (.call e (positional as) (named as))) s1
  else if cur s = "DOT" then do
    let (m, s1) ← consume "IDENTIFIER" (adv s)
    if cur s1 = "LPAREN" then do
      let (as, s2) ← f (.seq .args) (adv s1)
      f (.postLoop (.method e m (positional as) (named as))) s2
    else f (.postLoop (.member e m)) s1
  else if cur s = "LBRACKET" then do
    let (i, s1) ← f .expr (adv s)
    let (_, s2) ← consume "RBRACKET" s1
    f (.postLoop (.index e i)) s2
  else pure (e, s)

/-- `_parse_grouped_or_lambda` after `(`, parser.py:483-513 -/
def stepGroup (f : ∀ s, P (Val s)) (s : List Tok) : Except PErr (Expr × List Tok) :=
  if cur s = "RPAREN" then
    if cur (adv s) = "DOUBLE_ARROW" then do
      let (b, s1) ← f .expr (adv (adv s))
      pure (Expr.lam [] b, s1)
    else .error .syn
  else match lambdaHead s with
    | some (ps, s1) => do
      let (b, s2) ← f .expr s1
      pure (Expr.lam ps b, s2)
    | none => do
      let (e, s1) ← f .expr s
      let (_, s2) ← consume "RPAREN" s1
      pure (e, s2)

/-- `_parse_list_literal` after `[`, parser.py:526-582 -/
def stepList (f : ∀ s, P (Val s)) (s : List Tok) : Except PErr (Expr × List Tok) :=
  if cur s = "RBRACKET" then pure (.list [], adv s)
  else do
    let (e, s1) ← f .expr s
    if cur s1 = "FOR" then do
      let (cs, s2) ← f .clauses s1
      let (_, s3) ← consume "RBRACKET" s2
      pure (Expr.comp e cs, s3)
    else if cur s1 = "RANGE" then do
      let (b, s2) ← f .expr (adv s1)
      let (_, s3) ← consume "RBRACKET" s2
      pure (Expr.range e b, s3)
    else do
      let (es, s2) ← f (.seqTail .elems) s1
      pure (Expr.list (e :: positional es), s2)

/-- `_parse_match_expr` after `match`, parser.py:648-661 -/
def stepMatch (f : ∀ s, P (Val s)) (s : List Tok) : Except PErr (Expr × List Tok) := do
  let (e, s1) ← f .expr s
  let (_, s2) ← consume "COLON" s1
  let (_, s3) ← consume "NEWLINE" s2
  let (_, s4) ← consume "INDENT" s3
  let (as, s5) ← f .arms s4
  let (_, s6) ← consume "DEDENT" s5
  pure (Expr.matchE e as, s6)

/-- `_parse_primary_expr`, parser.py:406-477 -/
def stepPrim (f : ∀ s, P (Val s)) (s : List Tok) : Except PErr (Expr × List Tok) :=
  if isLit (cur s) then pure (.lit (cur s) (val s), adv s)
  else if isName (cur s) then pure (.ident (val s), adv s)
  else if cur s = "LPAREN" then stepGroup f (adv s)
  else if cur s = "LBRACKET" then stepList f (adv s)
  else if cur s = "LBRACE" then do
    let (es, s1) ← f (.seq .entries) (adv s)
    pure (Expr.dict (named es), s1)
  else if cur s = "IF" then do
    let ((c, t, el, els), s1) ← f .ifParts (adv s)
    pure (Expr.ifE c t el els, s1)
  else if cur s = "MATCH" then stepMatch f (adv s)
  else .error .syn

/-- one argument (parser.py:393-404), element, or dict entry (parser.py:590-597) -/
def stepItem (f : ∀ s, P (Val s)) (k : SeqK) (s : List Tok) : Except PErr (Item × List Tok) :=
  match k with
  | .args =>
    if cur s = "IDENTIFIER" ∧ peek1 s = "ASSIGN" then do
      let (e, s1) ← f .expr (adv (adv s))
      pure ((some (val s), e), s1)
    else do
      let (e, s1) ← f .expr s
      pure ((none, e), s1)
  | .elems => do
    let (e, s1) ← f .expr s
    pure ((none, e), s1)
  | .entries =>
    if cur s = "STRING_LITERAL" ∨ cur s = "IDENTIFIER" then do
      let (_, s1) ← consume "COLON" (adv s)
      let (e, s2) ← f .expr s1
      pure ((some (val s), e), s2)
    else .error .syn

/-- `_parse_arguments` (parser.py:374-391) and `_parse_dict_literal` (parser.py:584-611) after the opening token -/
def stepSeq (f : ∀ s, P (Val s)) (k : SeqK) (s : List Tok) : Except PErr (List Item × List Tok) :=
  if cur s = k.close then pure ([], adv s)
  else do
    let (a, s1) ← f (.item k) s
    let (as, s2) ← f (.seqTail k) s1
    pure (a :: as, s2)

/-- the loops over further arguments, elements (parser.py:576-581) and entries, with the closing token -/
def stepSeqTail (f : ∀ s, P (Val s)) (k : SeqK) (s : List Tok) : Except PErr (List Item × List Tok) :=
  if cur s = "COMMA" then
    if cur (adv s) = k.close then pure ([], adv (adv s))
    else do
      let (a, s1) ← f (.item k) (adv s)
      let (as, s2) ← f (.seqTail k) s1
      pure (a :: as, s2)
  else do
    let (_, s1) ← consume k.close s
    pure ([], s1)

/-- the `for` clauses of a comprehension, parser.py:538-562 -/
def stepClauses (f : ∀ s, P (Val s)) (s : List Tok) : Except PErr (List Clause × List Tok) :=
  if cur s = "FOR" then do
    let (v, s1) ← consume "IDENTIFIER" (adv s)
    let (_, s2) ← consume "IN" s1
    let (it, s3) ← f .expr s2
    let (cs, s4) ← f .conds s3
    let (rest, s5) ← f .clauses s4
    pure (Clause.mk v it cs :: rest, s5)
  else pure ([], s)

/-- the `if` conditions of one clause, parser.py:549-552 -/
def stepConds (f : ∀ s, P (Val s)) (s : List Tok) : Except PErr (List Expr × List Tok) :=
  if cur s = "IF" then do
    let (c, s1) ← f .expr (adv s)
    let (cs, s2) ← f .conds s1
    pure (c :: cs, s2)
  else pure ([], s)

/-- the `elif` branches, parser.py:620-629 and 942-951 -/
def stepElifs (f : ∀ s, P (Val s)) (s : List Tok) : Except PErr (List (Expr × Block) × List Tok) :=
  if cur s = "ELIF" then do
    let (c, s1) ← f .expr (adv s)
    let (_, s2) ← consume "COLON" s1
    let (b, s3) ← f .block s2
    let (rest, s4) ← f .elifs s3
    pure ((c, b) :: rest, s4)
  else pure ([], s)

/-- `_parse_if_expr` and `_parse_if_statement` after `if`, parser.py:613-643 and 935-965 -/
def stepIfParts (f : ∀ s, P (Val s)) (s : List Tok) :
    Except PErr ((Expr × Block × List (Expr × Block) × Option Block) × List Tok) := do
  let (c, s1) ← f .expr s
  let (_, s2) ← consume "COLON" s1
  let (t, s3) ← f .block s2
  let (el, s4) ← f .elifs s3
  if cur s4 = "ELSE" then do
    let (_, s5) ← consume "COLON" (adv s4)
    let (b, s6) ← f .block s5
    pure ((c, t, el, some b), s6)
  else pure ((c, t, el, none), s4)

/-- `_parse_pattern`, parser.py:675-710 -/
def pattern (s : List Tok) : Except PErr (Pat × List Tok) :=
  if cur s = "UNDERSCORE" then .ok (.wild, adv s)
  else if isLit (cur s) then .ok (.lit (cur s) (val s), adv s)
  else if cur s = "IDENTIFIER" then .ok (.ident (val s), adv s)
  else .error .syn

/-- `_match(IDENTIFIER)` before a pattern, parser.py:666-667 -/
def skipCase (s : List Tok) : List Tok := if cur s = "IDENTIFIER" then adv s else s

/-- `_parse_match_arm` and the loop over the arms, parser.py:653-658 and 663-673 -/
def stepArms (f : ∀ s, P (Val s)) (s : List Tok) : Except PErr (List (Pat × Expr) × List Tok) :=
  if cur s = "DEDENT" ∨ cur s = "EOF" then pure ([], s)
  else if cur (skipNl s) = "DEDENT" then pure ([], skipNl s)
  else do
    let (p, s1) ← pattern (skipCase (skipNl s))
    let (_, s2) ← consume "COLON" s1
    let (e, s3) ← f .expr s2
    let (rest, s4) ← f .arms (skipNl s3)
    pure ((p, e) :: rest, s4)

/-- a block's last expression statement is its value, parser.py:1036-1040 and 1061-1064 -/
def mkBlock (ss : List Stmt) : Block :=
  match ss.getLast? with
  | some (.exprS e) => .mk ss.dropLast (some e)
  | _ => .mk ss none

/-- `_parse_block` and `_parse_brace_block`, parser.py:1015-1070 -/
def stepBlock (f : ∀ s, P (Val s)) (s : List Tok) : Except PErr (Block × List Tok) :=
  if cur (skipNl s) = "LBRACE" then do
    let (ss, s1) ← f (.stmts true) (adv (skipNl s))
    let (_, s2) ← consume "RBRACE" s1
    pure (mkBlock ss, s2)
  else do
    let (_, s1) ← consume "INDENT" (skipNl s)
    let (ss, s2) ← f (.stmts false) s1
    let (_, s3) ← consume "DEDENT" s2
    pure (mkBlock ss, s3)

/-- the loop over the statements of a block, parser.py:1028-1032 and 1053-1057 -/
def stepStmts (f : ∀ s, P (Val s)) (brace : Bool) (s : List Tok) : Except PErr (List Stmt × List Tok) :=
  if cur s = blockClose brace ∨ cur s = "EOF" then pure ([], s)
  else if cur (skipNl s) = blockClose brace then pure ([], skipNl s)
  else do
    let (x, s1) ← f .stmt (skipNl s)
    let (xs, s2) ← f (.stmts brace) s1
    pure (x :: xs, s2)

/-- an optional type annotation, parser.py:834-836 -/
def optType (f : ∀ s, P (Val s)) (s : List Tok) : Except PErr (Option Ty × List Tok) :=
  if cur s = "COLON" then do
    let (t, s1) ← f .ty (adv s)
    pure (some t, s1)
  else pure (none, s)

/-- an optional part that begins with the token `k`: `, message`, `= value` -/
def optExpr (f : ∀ s, P (Val s)) (k : String) (s : List Tok) : Except PErr (Option Expr × List Tok) :=
  if cur s = k then do
    let (e, s1) ← f .expr (adv s)
    pure (some e, s1)
  else pure (none, s)

/-- `_parse_let_statement`, parser.py:829-850 -/
def stmtLet (f : ∀ s, P (Val s)) (s : List Tok) : Except PErr (Stmt × List Tok) := do
  let (n, s1) ← consume "IDENTIFIER" (adv s)
  let (t, s2) ← optType f s1
  let (_, s3) ← consume "ASSIGN" s2
  let (e, s4) ← f .expr s3
  let s5 ← terminator s4
  pure (Stmt.letS n t e, s5)

/-- `_parse_require_statement` and `_parse_assert_statement`, parser.py:852-885 -/
def stmtRequire (f : ∀ s, P (Val s)) (mk : Expr → Option Expr → Stmt) (s : List Tok) :
    Except PErr (Stmt × List Tok) := do
  let (c, s1) ← f .expr (adv s)
  let (m, s2) ← optExpr f "COMMA" s1
  let s3 ← terminator s2
  pure (mk c m, s3)

/-- the keyword metadata of `emit`, parser.py:892-900 -/
def stepEmitMeta (f : ∀ s, P (Val s)) (s : List Tok) : Except PErr (List Item × List Tok) :=
  if cur s = "COMMA" then
    if cur (adv s) = "IDENTIFIER" ∧ peek1 (adv s) = "ASSIGN" then do
      let (e, s1) ← f .expr (adv (adv (adv s)))
      let (rest, s2) ← f .emitMeta s1
      pure ((some (val (adv s)), e) :: rest, s2)
    else pure ([], adv s)
  else pure ([], s)

/-- the legacy `with { ... }`, parser.py:902-905; `_parse_dict_literal` skips whatever token comes first -/
def optWith (f : ∀ s, P (Val s)) (s : List Tok) : Except PErr (List Item × List Tok) :=
  if cur s = "WITH" then f (.seq .entries) (adv (adv s)) else pure ([], s)

/-- `dict.update`, parser.py:905 -/
def updateDict (d e : List (Name × Expr)) : List (Name × Expr) := e.foldl (fun d p => dset d p.1 p.2) d

/-- `_parse_emit_statement`, parser.py:887-915 -/
def stmtEmit (f : ∀ s, P (Val s)) (s : List Tok) : Except PErr (Stmt × List Tok) := do
  let (v, s1) ← f .expr (adv s)
  let (md, s2) ← f .emitMeta s1
  let (w, s3) ← optWith f s2
  let s4 ← terminator s3
  pure (Stmt.emit v (updateDict (named md) (named w)), s4)

/-- `_parse_for_statement`, parser.py:917-931 -/
def stmtFor (f : ∀ s, P (Val s)) (s : List Tok) : Except PErr (Stmt × List Tok) := do
  let (v, s1) ← consume "IDENTIFIER" (adv s)
  let (_, s2) ← consume "IN" s1
  let (it, s3) ← f .expr s2
  let (_, s4) ← consume "COLON" s3
  let (b, s5) ← f .block s4
  pure (Stmt.forS v it b, s5)

/-- an optional `as type`, whose type is dropped, parser.py:1004-1007 -/
def optAs (f : ∀ s, P (Val s)) (s : List Tok) : Except PErr (List Tok) :=
  if cur s = "AS" then do
    let (_, s1) ← f .ty (adv s)
    pure s1
  else pure s

/-- the value of a `return`, parser.py:999-1002 -/
def retValue (f : ∀ s, P (Val s)) (s : List Tok) : Except PErr (Option Expr × List Tok) :=
  if cur s = "NEWLINE" ∨ cur s = "DEDENT" ∨ cur s = "EOF" then pure (none, s)
  else do
    let (e, s1) ← f .expr s
    pure (some e, s1)

/-- `_parse_return_statement`, parser.py:995-1013 -/
def stmtReturn (f : ∀ s, P (Val s)) (s : List Tok) : Except PErr (Stmt × List Tok) := do
  let (v, s1) ← retValue f (adv s)
  let s2 ← optAs f s1
  let s3 ← terminator s2
  pure (Stmt.ret v, s3)

/-- the text of a Python block, parser.py:978-992: the lexemes up to the matching `}` (`d` braces are open);
an unfinished block ends with the text -/
def pyBody : Nat → List Tok → List (List Char) × List Tok
  | 0, s => ([], s)
  | _ + 1, [] => ([], [])
  | d + 1, t :: s =>
    if t.kind = "EOF" then ([], t :: s)
    else if t.kind = "LBRACE" then let (c, r) := pyBody (d + 2) s; (t.lexeme :: c, r)
    else if t.kind = "RBRACE" then
      if d = 0 then ([], s) else let (c, r) := pyBody d s; (t.lexeme :: c, r)
    else let (c, r) := pyBody (d + 1) s; (t.lexeme :: c, r)

/-- `_parse_python_block`, parser.py:973-993 -/
def stmtPython (s : List Tok) : Except PErr (Stmt × List Tok) := do
  let (_, s1) ← consume "LBRACE" (adv s)
  let (c, s2) := pyBody 1 s1
  pure (Stmt.py c, s2)

/-- `_parse_var_decl`, parser.py:795-812 -/
def stmtVarDecl (f : ∀ s, P (Val s)) (s : List Tok) : Except PErr (Stmt × List Tok) := do
  let (t, s1) ← f .ty (adv (adv s))
  let (e, s2) ← optExpr f "ASSIGN" s1
  let s3 ← terminator s2
  pure (Stmt.varDecl (val s) (some t) e, s3)

/-- `_parse_simple_var_decl`, parser.py:814-827 -/
def stmtSimple (f : ∀ s, P (Val s)) (s : List Tok) : Except PErr (Stmt × List Tok) := do
  let (e, s1) ← f .expr (adv (adv s))
  let s2 ← terminator s1
  pure (Stmt.varDecl (val s) none (some e), s2)

/-- expression statement or assignment, parser.py:777-793 -/
def stmtExpr (f : ∀ s, P (Val s)) (s : List Tok) : Except PErr (Stmt × List Tok) := do
  let (e, s1) ← f .expr s
  if cur s1 = "ASSIGN" then do
    let (v, s2) ← f .expr (adv s1)
    let s3 ← terminator s2
    pure (Stmt.assign e v, s3)
  else do
    let s2 ← terminator s1
    pure (Stmt.exprS e, s2)

/-- `_parse_statement`, parser.py:716-793; its callers have skipped the newlines it skips first -/
def stepStmt (f : ∀ s, P (Val s)) (s : List Tok) : Except PErr (Stmt × List Tok) :=
  if cur s = "LET" then stmtLet f s
  else if cur s = "REQUIRE" then stmtRequire f .require s
  else if cur s = "ASSERT" then stmtRequire f .assertS s
  else if cur s = "EMIT" then stmtEmit f s
  else if cur s = "FOR" then stmtFor f s
  else if cur s = "WHILE" then .error .syn
  else if cur s = "IF" then do
    let ((c, t, el, els), s1) ← f .ifParts (adv s)
    pure (Stmt.ifS c t el els, s1)
  else if cur s = "PASS" then do
    let s1 ← terminator (adv s)
    pure (Stmt.pass, s1)
  else if cur s = "RETURN" then stmtReturn f s
  else if cur s = "PYTHON" then stmtPython s
  else if cur s = "IDENTIFIER" ∧ peek1 s = "COLON" then stmtVarDecl f s
  else if cur s = "IDENTIFIER" ∧ peek1 s = "ASSIGN" then stmtSimple f s
  else stmtExpr f s

/-- one method of the parser, with `f` for the methods it calls -/
def step (f : ∀ s, P (Val s)) : ∀ s, P (Val s)
  | .ty => stepTy f
  | .tyTail c => stepTyTail f c
  | .expr => stepExpr f
  | .bin m => stepBin f m
  | .binLoop m l => stepBinLoop f m l
  | .unary => stepUnary f
  | .post => stepPost f
  | .postLoop e => stepPostLoop f e
  | .prim => stepPrim f
  | .item k => stepItem f k
  | .seq k => stepSeq f k
  | .seqTail k => stepSeqTail f k
  | .clauses => stepClauses f
  | .conds => stepConds f
  | .elifs => stepElifs f
  | .ifParts => stepIfParts f
  | .arms => stepArms f
  | .block => stepBlock f
  | .stmts c => stepStmts f c
  | .stmt => stepStmt f
  | .emitMeta => stepEmitMeta f

/-- the parser with a bound on the recursion depth -/
def parse : Nat → ∀ s, P (Val s)
  | 0 => fun _ _ => .error .fuel
  | n + 1 => step (parse n)

/-- a recursion depth that is always enough, see `C137_terminates` -/
def depth (s : List Tok) : Nat := 12 * s.length + 12

/-- `_parse_expression` -/
def parseExpr (s : List Tok) : Except PErr (Expr × List Tok) := parse (depth s) .expr s

/-- `_parse_statement` -/
def parseStmt (s : List Tok) : Except PErr (Stmt × List Tok) := parse (depth s) .stmt s

/-- `_parse_block` -/
def parseBlock (s : List Tok) : Except PErr (Block × List Tok) := parse (depth s) .block s

/-- `_parse_type` -/
def parseType (s : List Tok) : Except PErr (Ty × List Tok) := parse (depth s) .ty s

end Verif.Parser
