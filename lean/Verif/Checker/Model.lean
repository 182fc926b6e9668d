import Verif.Checker.Tables
import Verif.Parser.Module

/-!
# Model of the DSL type checker: `src/yapcad/dsl/checker.py` with `symbols.py` and `errors.py`

The checker works on the syntax trees of `Verif/Parser`. A diagnostic is represented by its severity, its code and the
names it mentions; spans and texts are left out. A scope is a finite map from names to symbols (the order of its
dictionary is never observed). `PythonExpr`, `IfExpr` as an else branch and old-style emit metadata are never produced by
the parser and are left out. `Crash` stands for an `AttributeError` that escapes from `check`.
-/

namespace Verif.Checker

open Verif.Types (Ty accepts commonType isNumeric isPoint isVector)
open Verif.Parser (Name Expr Clause Stmt Block Pat Mod Fn Param NBlock NFn NDecl)
open Verif.Lexer (TVal)

/-- a name as the parser gives it -/
def nm (s : String) : Name := .text s.toList

/-- `Diagnostic`, errors.py: severity (error or warning), code and names -/
structure Diag where
  err : Bool
  code : String
  names : List Name
  deriving DecidableEq

/-- `SymbolKind`, symbols.py:26-32 (no symbol of kind MODULE is ever defined) -/
inductive Kind
  | var | param | func | cmd
  deriving DecidableEq

/-- `Symbol`, symbols.py:35-43 -/
structure Symb where
  kind : Kind
  ty : Ty
  deriving DecidableEq

/-- `Scope.symbols`, symbols.py:56-61 -/
abbrev Frame := Name → Option Symb

/-- the state of a `TypeChecker`: diagnostics, scopes from the current one outwards, `_has_python_blocks` and the edges of
`_call_graph`, checker.py:76-85 -/
structure St where
  diags : List Diag
  scopes : List Frame
  py : Bool
  calls : List (Name × Name)

/-- an escaping `AttributeError` -/
inductive Crash
  | attributeError
  deriving DecidableEq

/-- what does not change while a command is checked: `max_errors`, `_command_names` and `_current_command` (its name and
return type) -/
structure Cfg where
  max : Nat
  cmds : List Name
  cur : Name
  ret : Option Parser.Ty

/-- a step of the checker -/
def M (α : Type) := St → Except Crash (α × St)

/-- sequencing -/
def bind {α β : Type} (m : M α) (k : α → M β) : M β := fun s =>
  match m s with
  | .ok (a, s') => k a s'
  | .error e => .error e

instance : Monad M where
  pure a := fun s => .ok (a, s)
  bind := bind

/-- an exception -/
def crash {α : Type} : M α := fun _ => .error .attributeError

/-- `DiagnosticCollector.error_count`, errors.py:318-336 -/
def errCount (s : St) : Nat := (s.diags.filter (·.err)).length

/-- `_error`, checker.py:1283-1290 -/
def err (code : String) (names : List Name := []) : M Unit := fun s =>
  .ok ((), { s with diags := s.diags ++ [⟨true, code, names⟩] })

/-- `_warning`, checker.py:1292-1299 -/
def warn (code : String) (names : List Name := []) : M Unit := fun s =>
  .ok ((), { s with diags := s.diags ++ [⟨false, code, names⟩] })

/-- an error if a condition holds -/
def errIf (b : Bool) (code : String) (names : List Name := []) : M Unit := if b then err code names else pure ()

/-- `_has_python_blocks = True` -/
def setPy : M Unit := fun s => .ok ((), { s with py := true })

/-! ### symbol table, symbols.py:56-76, 784-830 -/

/-- an empty scope -/
def emptyFrame : Frame := fun _ => none

/-- `push_scope`, symbols.py:785-788 -/
def push : M Unit := fun s => .ok ((), { s with scopes := emptyFrame :: s.scopes })

/-- `pop_scope`, symbols.py:790-793: the outermost scope stays -/
def pop : M Unit := fun s => .ok ((), { s with scopes := match s.scopes with | _ :: f :: fs => f :: fs | l => l })

/-- `Scope.lookup`, symbols.py:70-77 -/
def lookup : List Frame → Name → Option Symb
  | [], _ => none
  | f :: fs, n => match f n with
    | some s => some s
    | none => lookup fs n

/-- `Scope.define`, symbols.py:62-64 -/
def setTop : List Frame → Name → Symb → List Frame
  | [], _, _ => []
  | f :: fs, n, s => (fun m => if m = n then some s else f m) :: fs

/-- `SymbolTable.define`, symbols.py:795-804: false (and no change) when the current scope has the name -/
def define (n : Name) (k : Kind) (t : Ty) : M Bool := fun s =>
  match s.scopes with
  | [] => .ok (true, s)
  | f :: _ => if (f n).isSome then .ok (false, s) else .ok (true, { s with scopes := setTop s.scopes n ⟨k, t⟩ })

/-- define, or an error if the name is taken, e.g. checker.py:404-409 -/
def defineOr (n : Name) (k : Kind) (t : Ty) (code : String) : M Unit := do
  let ok ← define n k t
  errIf (!ok) code [n]

/-- an entry of a table -/
def tableGet {α : Type} (l : List (String × α)) (n : Name) : Option α := (l.find? fun e => nm e.1 = n).map (·.2)

/-- `lookup_builtin`, symbols.py:810-812 -/
def lookupBuiltin (n : Name) : Option Sig := tableGet builtins n

/-- `resolve_type_name`, types.py:431-433 -/
def resolveName (n : Name) : Option Ty := tableGet typeNames n

/-- `FunctionType(ps, r)` -/
def fnTy (ps : List Ty) (r : Ty) : Ty := ps.foldr .arrow (.result r)

/-- `param_types` and `return_type` of a function type -/
def fnParts : Ty → Option (List Ty × Ty)
  | .arrow p t => (fnParts t).map fun x => (p :: x.1, x.2)
  | .result r => some ([], r)
  | _ => none

/-! ### types -/

mutual
/-- `_resolve_type_node`, checker.py:1238-1277 (for a node that is present) -/
def resolve : Parser.Ty → M Ty
  | .simple n => match resolveName n with
    | some t => pure t
    | none => do
      err "E299" [n]
      pure .error
  | .generic n args => if n = nm "list" then resolveArg args else do
    err "E297" [n]
    pure .error
  | .opt t => do
    let u ← resolve t
    pure (.opt u)
/-- the type argument of `list`, checker.py:1252-1261 -/
def resolveArg : List Parser.Ty → M Ty
  | [] => do
    err "E298"
    pure .error
  | [t] => do
    let u ← resolve t
    pure (.list u)
  | _ :: _ :: _ => do
    err "E298"
    pure .error
end

/-- a type annotation that may be missing: UNKNOWN then, checker.py:1238-1239 and e.g. 200-203 -/
def resolveOpt : Option Parser.Ty → M Ty
  | none => pure .unknown
  | some t => resolve t

/-! ### operators -/

/-- `isinstance(t, GeometricPrimitiveType)` -/
def isGeo : Ty → Bool
  | .geo _ => true
  | _ => false

/-- the element type of a list type -/
def listElem : Ty → Option Ty
  | .list t => some t
  | _ => none

/-- `_check_literal`, checker.py:609-620 -/
def litTy (k : String) : Ty :=
  if k = "INT_LITERAL" then .prim .int else if k = "FLOAT_LITERAL" then .prim .float
  else if k = "STRING_LITERAL" then .prim .string else if k = "BOOL_LITERAL" then .prim .bool else .error

/-- arithmetic operators, checker.py:654-656 -/
def arithOps : List String := ["PLUS", "MINUS", "STAR", "SLASH", "PERCENT", "DOUBLE_SLASH", "DOUBLE_STAR"]

/-- arithmetic on two types, checker.py:657-681; `none`: cannot be applied -/
def arithTy (op : String) (a b : Ty) : Option Ty :=
  if isNumeric a && isNumeric b then
    if op = "DOUBLE_SLASH" then some (.prim .int)
    else if a = .prim .float ∨ b = .prim .float ∨ op = "SLASH" then some (.prim .float)
    else some (.prim .int)
  else if isGeo a && isNumeric b then some a
  else if (isGeo a && isGeo b) && (op = "PLUS" || op = "MINUS") then some ((commonType a b).getD a)
  else match a, b with
    | .list t, .list u => if op = "PLUS" then
        match commonType t u with
        | some c => some (.list c)
        | none => some a
      else none
    | _, _ => none

/-- an error unless the type is boolean or already an error, e.g. checker.py:427-432 -/
def wantBool (t : Ty) (code : String) : M Unit := errIf (t ≠ .prim .bool && t ≠ .error) code

/-- an error unless the type is an integer or already an error, e.g. checker.py:990-995 -/
def wantInt (t : Ty) (code : String) : M Unit := errIf (t ≠ .prim .int && t ≠ .error) code

/-- `_check_binary_op` after its operands, checker.py:646-723 -/
def binTy (op : String) (a b : Ty) : M Ty :=
  if op ∈ arithOps then
    match arithTy op a b with
    | some t => pure t
    | none => do
      errIf (a ≠ .error && b ≠ .error) "E250"
      pure .error
  else if op ∈ ["LT", "GT", "LE", "GE"] then
    if isNumeric a && isNumeric b then pure (.prim .bool) else do
      errIf (a ≠ .error && b ≠ .error) "E251"
      pure .error
  else if op ∈ ["EQ", "NE"] then pure (.prim .bool)
  else if op ∈ ["AND", "OR"] then do
    wantBool a "E252"
    wantBool b "E253"
    pure (.prim .bool)
  else pure .error

/-- `_check_unary_op` after its operand, checker.py:725-751 -/
def unTy (op : String) (a : Ty) : M Ty :=
  if op = "NOT" then do
    wantBool a "E260"
    pure (.prim .bool)
  else if op = "MINUS" then
    if isNumeric a || isGeo a then pure a else do
      errIf (a ≠ .error) "E261"
      pure .error
  else pure .error

/-- `get_method_signature`, symbols.py:962-978 -/
def methodSig (t : Ty) (m : Name) : Option Sig :=
  match t with
  | .curve _ => tableGet curveMethods m
  | .solid => tableGet solidMethods m
  | .compound .region2d => tableGet region2dMethods m
  | .geo .transform => tableGet transformMethods m
  | _ => none

/-- the type of a member, checker.py:965-969; none if there is no such member -/
def memberTy (t : Ty) (m : Name) : Option Ty :=
  if (isPoint t || isVector t) && (m = nm "x" || m = nm "y" || m = nm "z") then some (.prim .float) else none

/-- one argument against the parameter at its position, checker.py:793-803, 836-845, 945-953 -/
def argOk (p a : Ty) (code : String) : M Unit := errIf (p ≠ .unknown && !accepts p a && a ≠ .error) code

/-- the return type of a built-in call, checker.py:858-875. The last branch (patterns) needs a built-in of that name
returning `list<unknown>`; both return `<unknown>`. -/
def builtinRet (n : Name) (sig : Sig) (args : List Ty) : Ty :=
  if sig.ret = .list .unknown then
    if n = nm "concat" ∨ n = nm "reverse" ∨ n = nm "flatten" then
      match args with
      | .list t :: _ => if n = nm "flatten" && (listElem t).isSome then t else .list t
      | _ => sig.ret
    else if n = nm "radial_pattern" ∨ n = nm "linear_pattern" then
      match args with
      | t :: _ => .list t
      | [] => sig.ret
    else sig.ret
  else sig.ret

/-- the element type of an iterable, checker.py:481-487, 1052-1055 -/
def elemTy (t : Ty) : Ty := (listElem t).getD (.prim .int)

/-- one element of a list literal, checker.py:1015-1027 -/
def elemStep (t u : Ty) : M Ty :=
  if accepts t u then pure t
  else match commonType t u with
    | some c => pure c
    | none => do
      err "E293"
      pure t

/-- the two branches of a ternary, checker.py:1120-1133 -/
def condTy (a b : Ty) : M Ty :=
  if a ≠ .error ∧ b ≠ .error then
    match commonType a b with
    | some c => pure c
    | none => do
      errIf (a ≠ b) "E311"
      pure a
  else if a ≠ .error then pure a else pure b

/-- the type of an if expression with an else branch, checker.py:1154-1164 -/
def ifTy (a b : Option Ty) : M Ty :=
  match a, b with
  | some x, some y => match commonType x y with
    | some c => pure c
    | none => do
      (if x ≠ .error ∧ y ≠ .error then warn "W230" else pure ())
      pure x
  | some x, none => pure x
  | none, _ => pure .unknown

/-- `_check_pattern`, checker.py:1179-1195 -/
def patTy (p : Pat) (t : Ty) : M Unit :=
  match p with
  | .lit k _ => if accepts t (litTy k) then pure () else warn "W231"
  | _ => pure ()

/-- the type of the arms so far and of one more, checker.py:1178-1185 -/
def armTy (r : Option Ty) (a : Ty) : Ty :=
  match r with
  | none => a
  | some t => (commonType t a).getD t

/-- `_check_identifier`, checker.py:622-645 -/
def identTy (n : Name) : M Ty := fun s =>
  match lookup s.scopes n with
  | some y => .ok (y.ty, s)
  | none =>
    if (resolveName n).isSome || (lookupBuiltin n).isSome then .ok (.unknown, s)
    else (do
      err "E240" [n]
      pure Ty.error) s

/-- the command or function a name stands for, checker.py:783-784 -/
def calleeSym (n : Name) : M (Option Symb) := fun s =>
  .ok ((lookup s.scopes n).filter fun y => y.kind = .cmd ∨ y.kind = .func, s)

/-- an edge of the call graph, checker.py:786-789 -/
def noteCall (K : Cfg) (n : Name) : M Unit := fun s =>
  .ok ((), if n ∈ K.cmds then { s with calls := s.calls ++ [(K.cur, n)] } else s)

/-- `if self.diagnostics.error_count >= self.max_errors: return ERROR`, checker.py:560-561 -/
def guardE (K : Cfg) (m : M Ty) : M Ty := fun s => if K.max ≤ errCount s then .ok (.error, s) else m s

/-- `if self.diagnostics.error_count >= self.max_errors: return`, checker.py:346-347 -/
def guardS (K : Cfg) (m : M Unit) : M Unit := fun s => if K.max ≤ errCount s then .ok ((), s) else m s

/-- parameters with no default -/
def required (sig : Sig) : Nat := (sig.params.filter fun p => !p.2.2).length

/-! ### expressions, statements, blocks -/

/-- the parameters of a lambda, checker.py:1218-1225 -/
def defineAll : List Name → M Unit
  | [] => pure ()
  | n :: ns => do
    let _ ← define n .param .unknown
    defineAll ns

/-- the end of `_check_let_statement`, checker.py:377-406 -/
def declare (n : Name) (ty : Option Parser.Ty) (t : Ty) : M Unit := do
  let u ← match ty with
    | some a => do
      let d ← resolve a
      errIf (!accepts d t) "E210"
      pure d
    | none => pure t
  defineOr n .var u "E211"

mutual
/-- `_check_expression`, checker.py:562-607 and 609-1234 -/
def checkE (K : Cfg) : Expr → M Ty
  | .lit k _ => guardE K (pure (litTy k))
  | .ident n => guardE K (identTy n)
  | .bin op l r => guardE K (do
    let a ← checkE K l
    let b ← checkE K r
    binTy op a b)
  | .un op e => guardE K (do
    let a ← checkE K e
    unTy op a)
  | .call f args named => guardE K (match f with
    | .ident n => match lookupBuiltin n with
      -- `_check_builtin_call`, checker.py:813-869
      | some sig => do
        errIf (args.length < required sig) "E271" [n]
        let ts ← checkArgs K "E272" (sig.params.map (·.2.1)) args
        checkNamed K (some (sig.params.map fun p => nm p.1)) named
        pure (builtinRet n sig ts)
      | none => match resolveName n with
        | some t => do
          let _ ← checkArgs K "" [] args
          checkNamed K none named
          pure t
        | none => do
          let y ← calleeSym n
          match y with
          | some y => do
            noteCall K n
            match fnParts y.ty with
            | some pr => do
              let _ ← checkArgs K "E274" pr.1 args
              pure pr.2
            | none => pure .unknown
          | none => do
            err "E270" [n]
            pure .error
    | f => do
      let _ ← checkE K f
      pure .unknown)
  | .method o m args _ => guardE K (do
    let t ← checkE K o
    match methodSig t m with
    | none => do
      errIf (t ≠ .error) "E280" [m]
      pure .error
    | some sig => do
      let _ ← checkArgs K "E281" (sig.params.map (·.2.1)) args
      pure sig.ret)
  | .member o m => guardE K (do
    let t ← checkE K o
    match memberTy t m with
    | some u => pure u
    | none => do
      errIf (t ≠ .error) "E290" [m]
      pure .error)
  | .index o i => guardE K (do
    let t ← checkE K o
    let j ← checkE K i
    wantInt j "E291"
    match listElem t with
    | some u => pure u
    | none => do
      errIf (t ≠ .error) "E292"
      pure .error)
  | .list es => guardE K (match es with
    | [] => pure (.list .unknown)
    | e :: es => do
      let t ← checkE K e
      let u ← checkElems K t es
      pure (.list u))
  | .comp e cs => guardE K (do
    push
    checkClauses K cs
    let t ← checkE K e
    pop
    pure (.list t))
  | .range a b => guardE K (do
    let t ← checkE K a
    let u ← checkE K b
    wantInt t "E295"
    wantInt u "E296"
    pure (.list (.prim .int)))
  | .dict es => guardE K (do
    checkNamed K none es
    pure .dict)
  | .lam ps body => guardE K (do
    push
    defineAll ps
    let t ← checkE K body
    pop
    pure (fnTy (ps.map fun _ => .unknown) t))
  | .cond c t e => guardE K (do
    let b ← checkE K c
    wantBool b "E310"
    let x ← checkE K t
    let y ← checkE K e
    condTy x y)
  | .ifE c t _ els => guardE K (do
    let b ← checkE K c
    wantBool b "E297"
    let x ← checkB K t
    match els with
    | some blk => do
      let y ← checkB K blk
      ifTy x y
    | none => pure (x.getD .unknown))
  | .matchE s arms => guardE K (do
    let t ← checkE K s
    let r ← checkArms K t none arms
    pure (r.getD .unknown))
/-- positional arguments against the parameters -/
def checkArgs (K : Cfg) (code : String) : List Ty → List Expr → M (List Ty)
  | _, [] => pure []
  | [], e :: es => do
    let t ← checkE K e
    let ts ← checkArgs K code [] es
    pure (t :: ts)
  | p :: ps, e :: es => do
    let t ← checkE K e
    argOk p t code
    let ts ← checkArgs K code ps es
    pure (t :: ts)
/-- named arguments (of a built-in: with the names of its parameters), dictionary entries, emit metadata,
checker.py:848-856, 1207-1211, 470-474 -/
def checkNamed (K : Cfg) (allowed : Option (List Name)) : List (Name × Expr) → M Unit
  | [] => pure ()
  | (k, e) :: es => do
    let _ ← checkE K e
    errIf (match allowed with | some l => k ∉ l | none => false) "E273" [k]
    checkNamed K allowed es
/-- the remaining elements of a list literal -/
def checkElems (K : Cfg) : Ty → List Expr → M Ty
  | t, [] => pure t
  | t, e :: es => do
    let u ← checkE K e
    let t' ← elemStep t u
    checkElems K t' es
/-- the clauses of a comprehension, checker.py:1043-1073 -/
def checkClauses (K : Cfg) : List Clause → M Unit
  | [] => pure ()
  | .mk v it conds :: cs => do
    let t ← checkE K it
    let _ ← define v .var (elemTy t)
    checkConds K conds
    checkClauses K cs
/-- the conditions of a clause -/
def checkConds (K : Cfg) : List Expr → M Unit
  | [] => pure ()
  | e :: es => do
    let t ← checkE K e
    wantBool t "E294"
    checkConds K es
/-- the arms of a match, checker.py:1172-1187 -/
def checkArms (K : Cfg) (t : Ty) : Option Ty → List (Pat × Expr) → M (Option Ty)
  | r, [] => pure r
  | r, (p, e) :: as => do
    patTy p t
    let a ← checkE K e
    checkArms K t (some (armTy r a)) as
/-- `_check_statement`, checker.py:344-375 and 380-552 -/
def checkS (K : Cfg) : Stmt → M Unit
  | .letS n ty e => guardS K (do
    let t ← checkE K e
    declare n ty t)
  | .varDecl n ty e => guardS K (match e with
    | some e => do
      let t ← checkE K e
      declare n ty t
    | none => crash)
  | .assign target value => guardS K (do
    let t ← checkE K target
    let u ← checkE K value
    errIf (!accepts t u) "E212")
  | .require c msg => guardS K (do
    let t ← checkE K c
    wantBool t "E220"
    match msg with
    | some e => do
      let u ← checkE K e
      errIf (u ≠ .prim .string && u ≠ .error) "E221"
    | none => pure ())
  | .assertS c msg => guardS K (do
    let t ← checkE K c
    wantBool t "E220"
    match msg with
    | some e => do
      let u ← checkE K e
      errIf (u ≠ .prim .string && u ≠ .error) "E221"
    | none => pure ())
  | .emit v md => guardS K (do
    let t ← checkE K v
    match K.ret with
    | some ty => do
      let r ← resolve ty
      errIf (!accepts r t) "E230"
    | none => pure ()
    checkNamed K none md)
  | .forS v it body => guardS K (do
    let t ← checkE K it
    push
    let _ ← define v .var (elemTy t)
    let _ ← checkB K body
    pop)
  | .ifS c t elifs els => guardS K (do
    let b ← checkE K c
    wantBool b "E226"
    push
    let _ ← checkB K t
    pop
    checkElifs K elifs
    match els with
    | some blk => do
      push
      let _ ← checkB K blk
      pop
    | none => pure ())
  | .pass => guardS K (pure ())
  | .exprS e => guardS K (do
    let _ ← checkE K e
    pure ())
  | .ret e => guardS K (match e with
    | some e => do
      let _ ← checkE K e
      crash
    | none => crash)
  | .py _ => guardS K (do
    setPy
    warn "W210")
/-- elif branches of an if statement, checker.py:516-526 -/
def checkElifs (K : Cfg) : List (Expr × Block) → M Unit
  | [] => pure ()
  | (c, blk) :: bs => do
    let b ← checkE K c
    wantBool b "E227"
    push
    let _ ← checkB K blk
    pop
    checkElifs K bs
/-- `_check_block`, checker.py:334-342 -/
def checkB (K : Cfg) : Block → M (Option Ty)
  | .mk ss final => do
    checkSs K ss
    match final with
    | some e => do
      let t ← checkE K e
      pure (some t)
    | none => pure none
/-- statements in order -/
def checkSs (K : Cfg) : List Stmt → M Unit
  | [] => pure ()
  | s :: ss => do
    checkS K s
    checkSs K ss
end

/-! ### commands and modules -/

/-- the types of a list of parameters, e.g. checker.py:205-211 -/
def resolveParams : List Param → M (List Ty)
  | [] => pure []
  | p :: ps => do
    let t ← resolveOpt p.ty
    let ts ← resolveParams ps
    pure (t :: ts)

/-- one exported function, `_register_native_block`, checker.py:128-152 -/
def regDecl (d : NDecl) : M Unit := do
  let r ← resolve d.ret
  let ps ← resolveParams d.params
  defineOr d.name .func (fnTy ps r) "E205"

/-- the exported functions in order -/
def regDecls : List NDecl → M Unit
  | [] => pure ()
  | d :: ds => do
    regDecl d
    regDecls ds

/-- `_register_native_block`, checker.py:124-158 -/
def regBlock (b : NBlock) : M Unit := do
  setPy
  regDecls b.decls
  warn "W212"

/-- `_register_native_function`, checker.py:160-195 -/
def regNative (f : NFn) : M Unit := do
  setPy
  let r ← resolve f.ret
  let ps ← resolveParams f.params
  defineOr f.name .func (fnTy ps r) "E205"
  warn "W213"

/-- `_register_command`, checker.py:197-228 -/
def regCommand (c : Fn) : M Unit := do
  let r ← resolveOpt c.ret
  let ps ← resolveParams c.params
  defineOr c.name .cmd (fnTy ps r) "E201"

/-- one after the other -/
def each {α : Type} (g : α → M Unit) : List α → M Unit
  | [] => pure ()
  | a :: as => do
    g a
    each g as

/-- one parameter of a command that is checked, checker.py:236-261 -/
def checkParam (K : Cfg) (p : Param) : M Unit := do
  let t ← resolveOpt p.ty
  defineOr p.name .param t "E202"
  match p.dflt with
  | some e => do
    let u ← checkE K e
    errIf (t ≠ .unknown && !accepts t u) "E203"
  | none => pure ()

/-- known fields of the namespaces of `@meta`, checker.py:290-296 and meta_apply.py:83, 90-95, 158-161 -/
def metaKnown (ns field : Name) : Bool :=
  if ns = nm "assembly" then
    field ∈ ["joint_kind", "no_cut", "bolt_patterns", "datums", "surfaces", "keepouts"].map nm
  else field ∈ ["kind", "priority", "through", "consume", "policy", "feature_id", "feature_kind", "stage",
    "target_filter"].map nm

/-- one key of `@meta`, `_check_meta_hint`, checker.py:298-328 -/
def checkMetaKey (k : List Name) : M Unit :=
  match k with
  | [] => pure ()
  | [n] => if n ∈ ["layer", "tags", "material"].map nm then pure () else warn "W310" [n]
  | ns :: rest =>
    if ns = nm "assembly" ∨ ns = nm "operation" then
      if (match rest with | [f] => metaKnown ns f | _ => false) then pure ()
      else warn (if ns = nm "assembly" then "W311" else "W312") k
    else warn "W310" k

/-- the configuration in which a command is checked -/
def cfgOf (max : Nat) (m : Mod) (c : Fn) : Cfg := ⟨max, m.functions.map (·.name), c.name, c.ret⟩

/-- `_check_command`, checker.py:230-272 -/
def checkCommand (max : Nat) (m : Mod) (c : Fn) : M Unit := do
  push
  each (checkParam (cfgOf max m c)) c.params
  let _ ← checkB (cfgOf max m c) c.body
  each checkMetaKey (c.md.map (·.1))
  pop

/-! ### recursion warnings, checker.py:879-959 -/

/-- the state of the search: `visited` and `cycles_found` -/
structure Dfs where
  visited : List Name
  cycles : List (List Name)

/-- the part of a path that begins at a name (`path[path.index(node):]`) -/
def fromNode (n : Name) : List Name → List Name
  | [] => []
  | m :: ms => if m = n then m :: ms else fromNode n ms

/-- `find_cycles`, checker.py:882-901; `path` holds the nodes of `rec_stack` in order. `succ` lists the set of callees in
the order in which Python happens to iterate over it. The number bounds the depth of the recursion (never reached). -/
def findCycles (succ : Name → List Name) : Nat → Name → List Name → Dfs → Dfs
  | 0, _, _, d => d
  | k + 1, n, path, d =>
    if n ∈ path then { d with cycles := d.cycles ++ [fromNode n path ++ [n]] }
    else if n ∈ d.visited then d
    else (succ n).foldl (fun d c => findCycles succ k c (path ++ [n]) d) { d with visited := d.visited ++ [n] }

/-- the search from every command, checker.py:911-914; `nodes` lists the set of command names in iteration order -/
def allCycles (succ : Name → List Name) (nodes : List Name) : List (List Name) :=
  (nodes.foldl (fun d n => if n ∈ d.visited then d else findCycles succ (nodes.length + 1) n [] d) ⟨[], []⟩).cycles

/-- the warning for a cycle, checker.py:916-941 -/
def cycleWarning (c : List Name) : M Unit :=
  match c with
  | [a, b] => if a = b then warn "W301" [a] else warn "W302" c
  | _ => warn "W302" c

/-- an iteration order for the sets of names: any list with the elements of the given one, without repetition -/
structure SetOrder where
  list : List Name → List Name
  nodup : ∀ l, (list l).Nodup
  mem : ∀ l n, n ∈ list l ↔ n ∈ l

/-- `_check_recursion`, checker.py:871-933 -/
def checkRecursion (o : SetOrder) (m : Mod) : M Unit := fun s =>
  each cycleWarning (allCycles (fun n => o.list ((s.calls.filter fun e => e.1 = n).map (·.2)))
    (o.list (m.functions.map (·.name)))) s

/-- `_check_module`, checker.py:102-122 -/
def checkModule (o : SetOrder) (max : Nat) (m : Mod) : M Unit := do
  each regBlock m.blocks
  each regNative m.natives
  each regCommand m.functions
  each (checkCommand max m) m.functions
  checkRecursion o m

/-- `CheckResult`, checker.py:54-60 -/
structure CheckResult where
  diags : List Diag
  hasErrors : Bool
  hasWarnings : Bool
  py : Bool

/-- a new `TypeChecker`: the global scope is empty (built-ins are kept apart), checker.py:76-85, symbols.py:88-99 -/
def st0 : St := ⟨[], [emptyFrame], false, []⟩

/-- `check`, checker.py:87-96, 1300-1314 -/
def check (o : SetOrder) (max : Nat) (m : Mod) : Except Crash CheckResult :=
  match checkModule o max m st0 with
  | .ok (_, s) => .ok ⟨s.diags, s.diags.any (·.err), s.diags.any (fun d => !d.err), s.py⟩
  | .error e => .error e

end Verif.Checker
