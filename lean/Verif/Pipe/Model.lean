import Verif.Checker.Compile
import Verif.Interp.Terminate

/-!
# From source text to result: `compile_and_run`, interpreter.py:1053-1119

The syntax trees of the parser model (`Verif/Parser`) and of the interpreter model (`Verif/Interp`) stand for the same
Python objects; `trE`, `trS`, ... go from one to the other. What the interpreter model leaves opaque is a parameter
(`Enc`): the values of float literals, the identity of lambdas, of Python blocks and of `@meta` hints.
-/

namespace Verif.Pipe

open Verif.Parser (Name Mod Fn)

/-- what is opaque to the interpreter model -/
structure Enc (F : Type) where
  /-- `float(lexeme)` -/
  flt : List Char → F
  /-- a lambda -/
  lam : List Name → Parser.Expr → Nat
  /-- the code of a Python block -/
  py : List (List Char) → Nat
  /-- a requirement's message: the program stores the syntax node (interpreter.py:335) -/
  msg : Parser.Expr → String
  /-- a `@meta` hint -/
  hint : Fn → Option Nat

variable {F : Type}

/-- the string of a name -/
def str : Name → String
  | .text s => String.ofList s
  | _ => ""

/-- something that is no expression, e.g. a `Block`, or a callee that is not a name: `RuntimeError` after the arguments,
interpreter.py:541, 660-664. No function has the empty name. -/
def bad (args : List (Interp.Expr F)) : Interp.Expr F := .call "" args []

/-- operators by token kind, interpreter.py:571-640 -/
def opOf (k : String) : Option Interp.Op :=
  if k = "AND" then some .and else if k = "OR" then some .or else if k = "PLUS" then some .plus
  else if k = "MINUS" then some .minus else if k = "STAR" then some .star else if k = "SLASH" then some .slash
  else if k = "PERCENT" then some .percent else if k = "DOUBLE_SLASH" then some .dslash
  else if k = "DOUBLE_STAR" then some .dstar else if k = "EQ" then some .eq else if k = "NE" then some .ne
  else if k = "LT" then some .lt else if k = "GT" then some .gt else if k = "LE" then some .le
  else if k = "GE" then some .ge else none

/-- a literal, interpreter.py:543-557 -/
def litOf (E : Enc F) (k : String) (v : Lexer.TVal) : Option (Interp.Lit F) :=
  if k = "INT_LITERAL" then match v with | .int n => some (.int n) | _ => none
  else if k = "FLOAT_LITERAL" then match v with | .float l => some (.flt (E.flt l)) | _ => none
  else if k = "BOOL_LITERAL" then match v with | .bool b => some (.bool b) | _ => none
  else if k = "STRING_LITERAL" then match v with | .text s => some (.str (String.ofList s)) | _ => none
  else none

/-- the data of a literal pattern -/
def litData : Interp.Lit F → Interp.Data F
  | .int n => .int n
  | .flt x => .flt x
  | .bool b => .bool b
  | .str s => .str s

/-- a pattern, interpreter.py:985-996 -/
def trP (E : Enc F) : Parser.Pat → Interp.Pat F
  | .wild => .wild
  | .lit k v => match litOf E k v with
    | some l => .lit (litData l)
    | none => .other
  | .ident n => .ident (str n)

mutual
/-- expressions; the interpreter ignores named arguments of methods and `elif` branches of if expressions, and evaluates
the branches of an if expression, which are blocks, as expressions -/
def trE (E : Enc F) : Parser.Expr → Interp.Expr F
  | .lit k v => match litOf E k v with
    | some l => .lit l
    | none => bad []
  | .ident n => .ident (str n)
  | .bin op l r => match opOf op with
    | some o => .bin o (trE E l) (trE E r)
    | none => bad [trE E l, trE E r]
  | .un op e => if op = "NOT" then .un .not (trE E e) else if op = "MINUS" then .un .minus (trE E e) else bad [trE E e]
  | .call f args named => match f with
    | .ident n => .call (str n) (trEs E args) (trN E named)
    | _ => bad (trEs E args)
  | .method o m args _ => .method (trE E o) (str m) (trEs E args)
  | .member o m => .member (trE E o) (str m)
  | .index o i => .index (trE E o) (trE E i)
  | .list es => .list (trEs E es)
  | .comp e cs => .comp (trE E e) (trC E cs)
  | .range a b => .range (trE E a) (trE E b)
  | .dict es => .dict (trN E es)
  | .lam ps b => .lambda (E.lam ps b)
  | .cond c t e => .cond (trE E c) (trE E t) (trE E e)
  | .ifE c _ _ els => .ifE (trE E c) (bad []) (els.map fun _ => bad [])
  | .matchE s arms => .matchE (trE E s) (trA E arms)
/-- lists of expressions -/
def trEs (E : Enc F) : List Parser.Expr → List (Interp.Expr F)
  | [] => []
  | e :: es => trE E e :: trEs E es
/-- named expressions -/
def trN (E : Enc F) : List (Name × Parser.Expr) → List (String × Interp.Expr F)
  | [] => []
  | (n, e) :: es => (str n, trE E e) :: trN E es
/-- comprehension clauses -/
def trC (E : Enc F) : List Parser.Clause → List (String × Interp.Expr F × List (Interp.Expr F))
  | [] => []
  | .mk v it conds :: cs => (str v, trE E it, trEs E conds) :: trC E cs
/-- match arms -/
def trA (E : Enc F) : List (Parser.Pat × Parser.Expr) → List (Interp.Pat F × Interp.Expr F)
  | [] => []
  | (p, e) :: as => (trP E p, trE E e) :: trA E as
end

mutual
/-- statements -/
def trS (E : Enc F) : Parser.Stmt → Interp.Stmt F
  | .letS n _ e => .letS (str n) (trE E e)
  | .varDecl n _ e => .letS (str n) (match e with | some e => trE E e | none => bad [])
  | .require c msg => .require (trE E c) (msg.map E.msg)
  | .assertS c msg => .require (trE E c) (msg.map E.msg)
  | .emit v md => .emit (trE E v) (trN E md)
  | .forS v it body => .forS (str v) (trE E it) (trB E body)
  | .ifS c t elifs els => .ifS (trE E c) (trB E t) (trL E elifs) (match els with | some b => some (trB E b) | none => none)
  | .pass => .pass
  | .ret e => .ret (e.map (trE E))
  | .py code => .py (E.py code) none
  | .assign t v => match t with
    | .ident x => .assign (str x) (trE E v)
    | _ => .assignTo (trE E v)
  | .exprS e => .expr (trE E e)
/-- blocks: `block.statements`; a block's final expression is not executed, interpreter.py:254-259, 373-377, 421-425 -/
def trB (E : Enc F) : Parser.Block → List (Interp.Stmt F)
  | .mk ss _ => trSs E ss
/-- statement lists -/
def trSs (E : Enc F) : List Parser.Stmt → List (Interp.Stmt F)
  | [] => []
  | s :: ss => trS E s :: trSs E ss
/-- elif branches -/
def trL (E : Enc F) : List (Parser.Expr × Parser.Block) → List (Interp.Expr F × List (Interp.Stmt F))
  | [] => []
  | (c, b) :: bs => (trE E c, trB E b) :: trL E bs
end

/-- the annotation of a parameter as `_wrap_parameters` sees it, interpreter.py:231-233: by name only. A generic annotation
has the name `list`, which is no key of `BUILTIN_TYPES`: the value's type is then `None`, here `unknown`. -/
def annOf : Option Parser.Ty → Option Types.Ty
  | some (.simple n) => some ((Checker.resolveName n).getD .unknown)
  | some (.generic _ _) => some .unknown
  | _ => none

/-- a parameter -/
def trParam (E : Enc F) (p : Parser.Param) : Interp.Param F :=
  { name := str p.name, ann := annOf p.ty, default := p.dflt.map (trE E) }

/-- a command -/
def trFn (E : Enc F) (c : Fn) : Interp.Cmd F :=
  { name := str c.name, params := c.params.map (trParam E), body := trB E c.body, hint := E.hint c }

/-- a module, with the recursion limit -/
def trMod (E : Enc F) (limit : Nat) (m : Mod) : Interp.Prog F := { cmds := m.functions.map (trFn E), limit := limit }

/-- how `compile_and_run` ends -/
inductive Outcome (F : Type)
  /-- "Lexer error", "Parser error", "Type errors" -/
  | refused
  /-- an exception of the checker or the interpreter escapes -/
  | raised
  | result (r : Interp.Result F)

/-- `compile_and_run`, interpreter.py:1094-1119, with `fuel` for the interpreter's recursion; `none` only if that is too
small or the lexer model has no answer -/
def compileAndRun (U : Lexer.Uni) (o : Checker.SetOrder) (E : Enc F) (H : Interp.Host F) (limit fuel : Nat)
    (src : List Char) (cmd : String) (raw : List (String × Interp.Data F)) : Option (Outcome F) :=
  match Checker.front U o src with
  | none => none
  | some (.accepted m _) => match (Interp.execute H (trMod E limit m) fuel cmd raw).1 with
    | .ok r => some (.result r)
    | .error (.py _) => some .raised
    | .error .outOfFuel => none
  | some .crash => some .raised
  | some _ => some .refused

end Verif.Pipe
