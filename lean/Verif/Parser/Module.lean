import Verif.Parser.Props

/-!
# Model of `parse_module` and the declarations, `src/yapcad/dsl/parser.py:1072-1580`

Positions are token lists as in `Verif/Parser/Model.lean`. Loops have a bound (`MErr.fuel`) that is shown to be never
reached. Simplified: the text of native code is represented by its tokens (the code cuts it out of the source text by
offsets), source spans and error texts are left out.
-/

namespace Verif.Parser

open Verif.Lexer Verif.Dict

/-- how `parse_module` fails: with a `ParserError`, or with a Python `TypeError` (line 1236: unary minus of a string) -/
inductive MErr
  | syn
  | typeError
  | fuel
  deriving DecidableEq

/-- errors of the expression parser (`fuel` does not occur, C137) -/
def lift {α : Type} : Except PErr α → Except MErr α
  | .ok a => .ok a
  | .error .syn => .error .syn
  | .error .fuel => .error .fuel

/-- the JSON-like values of `@ui` and `@meta` -/
inductive Hint
  | lit (v : TVal)
  | neg (v : TVal)
  | list (l : List Hint)
  | dict (l : List (Name × Hint))
  /-- the fallback: `str(...)` of the expression -/
  | other (e : Expr)

/-- `-value` of a literal, line 1236: numbers and Booleans only -/
def negate : TVal → Except MErr Hint
  | .int n => .ok (.neg (.int n))
  | .float l => .ok (.neg (.float l))
  | .bool b => .ok (.neg (.bool b))
  | .text _ => .error .typeError
  | .none => .error .typeError

mutual
/-- `_ui_hint_value`, parser.py:1216-1242 -/
def hint : Expr → Except MErr Hint
  | .lit _ v => .ok (.lit v)
  | .un op e => match e with
    | .lit _ v => if op = "MINUS" then negate v else .ok (.other (.un op e))
    | _ => .ok (.other (.un op e))
  | .list es => do
    let hs ← hintList es
    pure (.list hs)
  | .dict es => do
    let hs ← hintDict es
    pure (.dict hs)
  | e => .ok (.other e)
/-- the list comprehension of line 1238 -/
def hintList : List Expr → Except MErr (List Hint)
  | [] => .ok []
  | e :: es => do
    let h ← hint e
    let hs ← hintList es
    pure (h :: hs)
/-- the dict comprehension of line 1240 -/
def hintDict : List (Name × Expr) → Except MErr (List (Name × Hint))
  | [] => .ok []
  | (k, e) :: es => do
    let h ← hint e
    let hs ← hintDict es
    pure ((k, h) :: hs)
end

/-- a parser of this module -/
abbrev M (α : Type) := List Tok → Except MErr (α × List Tok)

/-- `_consume` -/
def eat (k : String) (s : List Tok) : Except MErr (TVal × List Tok) := lift (consume k s)

/-- `_parse_expression` -/
def mExpr : M Expr := fun s => lift (parseExpr s)
/-- `_parse_type` -/
def mType : M Ty := fun s => lift (parseType s)
/-- `_parse_block` -/
def mBlock : M Block := fun s => lift (parseBlock s)
/-- `_expect_newline_or_eof`, with or without a preceding `_match(SEMICOLON)` -/
def mTerm (s : List Tok) : Except MErr (List Tok) := lift (terminator s)

/-- items separated by commas up to the token `close`, which is read too; `trail`: a comma before it is allowed.
parser.py:1270-1277 (parameters), 1205-1213 (`@ui`), 1250-1255 (decorator arguments) -/
def items {α : Type} (p : M α) (close : String) (trail : Bool) : Nat → M (List α)
  | 0, _ => .error .fuel
  | n + 1, s => do
    let (a, s1) ← p s
    if cur s1 = "COMMA" then
      if trail = true ∧ cur (adv s1) = close then pure ([a], adv (adv s1))
      else do
        let (as, s2) ← items p close trail n (adv s1)
        pure (a :: as, s2)
    else do
      let (_, s2) ← eat close s1
      pure ([a], s2)

/-- the same with an empty list allowed -/
def commaSep {α : Type} (p : M α) (close : String) (trail : Bool) : M (List α) := fun s =>
  if cur s = close then pure ([], adv s) else items p close trail (s.length + 1) s

/-- a key and its value -/
abbrev Entry (κ : Type) := κ × Hint

/-- entries stored into a dict one after the other -/
def toDict {κ : Type} [DecidableEq κ] (l : List (Entry κ)) : List (Entry κ) := l.foldl (fun d e => dset d e.1 e.2) []

/-- `key = value` in `@ui`, lines 1207-1210 -/
def uiEntry : M (Entry Name) := fun s => do
  let (k, s1) ← eat "IDENTIFIER" s
  let (_, s2) ← eat "ASSIGN" s1
  let (e, s3) ← mExpr s2
  let h ← hint e
  pure ((k, h), s3)

/-- `_parse_param_ui_hint`, parser.py:1183-1214 -/
def uiHint : M (List (Entry Name)) := fun s => do
  let (n, s1) ← eat "IDENTIFIER" (adv s)
  if n = .text "ui".toList then do
    let (_, s2) ← eat "LPAREN" s1
    let (es, s3) ← commaSep uiEntry "RPAREN" false s2
    pure (toDict es, s3)
  else .error .syn

/-- `Parameter` -/
structure Param where
  name : Name
  ty : Option Ty
  ui : Option (List (Entry Name))
  dflt : Option Expr

/-- `: type`, lines 1090-1092 -/
def optTy : M (Option Ty) := fun s =>
  if cur s = "COLON" then do
    let (t, s1) ← mType (adv s)
    pure (some t, s1)
  else pure (none, s)

/-- `@ui(...)`, lines 1095-1097 -/
def optUi : M (Option (List (Entry Name))) := fun s =>
  if cur s = "AT" then do
    let (h, s1) ← uiHint s
    pure (some h, s1)
  else pure (none, s)

/-- `= default`, lines 1099-1101 -/
def optDefault : M (Option Expr) := fun s =>
  if cur s = "ASSIGN" then do
    let (e, s1) ← mExpr (adv s)
    pure (some e, s1)
  else pure (none, s)

/-- `_parse_parameter`, parser.py:1076-1109 -/
def param : M Param := fun s => do
  let (n, s1) ← eat "IDENTIFIER" s
  let (t, s2) ← optTy s1
  let (u, s3) ← optUi s2
  let (d, s4) ← optDefault s3
  pure (⟨n, t, u, d⟩, s4)

/-- `(` parameters `)`, lines 1269-1277 and its copies -/
def params : M (List Param) := fun s => do
  let (_, s1) ← eat "LPAREN" s
  commaSep param "RPAREN" true s1

/-- `Decorator` -/
structure Deco where
  name : Name
  args : List Expr

/-- `(` arguments `)` of a decorator -/
def decoArgs : M (List Expr) := fun s =>
  if cur s = "LPAREN" then commaSep mExpr "RPAREN" false (adv s) else pure ([], s)

/-- `_parse_decorator`, parser.py:1244-1258 -/
def deco : M Deco := fun s => do
  let (n, s1) ← eat "IDENTIFIER" (adv s)
  let (as, s2) ← decoArgs s1
  let s3 ← mTerm s2
  pure (⟨n, as⟩, s3)

/-- the parts of a dotted key after the first, lines 1165-1168 -/
def keyTail : List Tok → Except MErr (List Name × List Tok)
  | [] => pure ([], [])
  | [t] => if t.kind = "DOT" then .error .syn else pure ([], [t])
  | t :: u :: s =>
    if t.kind = "DOT" then
      if isName u.kind then do
        let (ns, r) ← keyTail s
        pure (u.val :: ns, r)
      else .error .syn
    else pure ([], t :: u :: s)

/-- `_parse_meta_key`, parser.py:1152-1169. The key is the list of its parts; the code joins them with dots. -/
def metaKey : M (List Name) := fun s =>
  if isName (cur s) then do
    let (ns, r) ← keyTail (adv s)
    pure (val s :: ns, r)
  else .error .syn

/-- the loop of `_parse_meta_decorator`, lines 1137-1149: newlines are skipped everywhere between -/
def metaLoop : Nat → M (List (Entry (List Name)))
  | 0, _ => .error .fuel
  | n + 1, s =>
    if cur s = "RPAREN" then pure ([], adv s)
    else do
      let (k, s1) ← metaKey s
      let (_, s2) ← eat "ASSIGN" s1
      let (e, s3) ← mExpr (skipNl s2)
      let h ← hint e
      if cur (skipNl s3) = "COMMA" then do
        let (es, s4) ← metaLoop n (skipNl (adv (skipNl s3)))
        pure ((k, h) :: es, s4)
      else do
        let (_, s4) ← eat "RPAREN" (skipNl s3)
        pure ([(k, h)], s4)

/-- `_parse_meta_decorator`, parser.py:1111-1150 -/
def metaDeco : M (List (Entry (List Name))) := fun s => do
  let (n, s1) ← eat "IDENTIFIER" (adv s)
  if n = .text "meta".toList then do
    let (_, s2) ← eat "LPAREN" s1
    let (es, s3) ← metaLoop (s2.length + 1) (skipNl s2)
    pure (toDict es, s3)
  else .error .syn

/-- `FunctionDef` and `Command` -/
structure Fn where
  command : Bool
  name : Name
  params : List Param
  ret : Option Ty
  body : Block
  decos : List Deco
  md : List (Entry (List Name))

/-- `-> type` or nothing, lines 1279-1281 -/
def optRet : M (Option Ty) := fun s =>
  if cur s = "ARROW" then do
    let (t, s1) ← mType (adv s)
    pure (some t, s1)
  else pure (none, s)

/-- `_parse_function_def`, parser.py:1260-1294; `decos` and `md` come from the caller -/
def fnDef (decos : List Deco) (md : List (Entry (List Name))) : M Fn := fun s => do
  let (n, s1) ← eat "IDENTIFIER" (adv s)
  let (ps, s2) ← params s1
  let (r, s3) ← optRet s2
  let (_, s4) ← eat "COLON" s3
  let (b, s5) ← mBlock s4
  pure (⟨false, n, ps, r, b, decos, md⟩, s5)

/-- `_parse_command`, parser.py:1296-1328; its decorators are dropped (line 1326), its `@meta` is kept (lines 1551-1552) -/
def commandDef (md : List (Entry (List Name))) : M Fn := fun s => do
  let (n, s1) ← eat "IDENTIFIER" (adv s)
  let (ps, s2) ← params s1
  let (_, s3) ← eat "ARROW" s2
  let (r, s4) ← mType s3
  let (b, s5) ← mBlock (if cur s4 = "COLON" then adv s4 else s4)
  pure (⟨true, n, ps, some r, b, [], md⟩, s5)

/-- is the token's value a string? -/
def isText (v : TVal) : Bool := match v with | .text _ => true | _ => false

/-- `_parse_module_path_component`, parser.py:1330-1339: any token with a text value -/
def pathPart : M Name := fun s => if isText (val s) then pure (val s, adv s) else .error .syn

/-- the rest of a module path, lines 1348-1349 -/
def pathTail : List Tok → Except MErr (List Name × List Tok)
  | [] => pure ([], [])
  | [t] => if t.kind = "DOT" then .error .syn else pure ([], [t])
  | t :: u :: s =>
    if t.kind = "DOT" then
      if isText u.val then do
        let (ns, r) ← pathTail s
        pure (u.val :: ns, r)
      else .error .syn
    else pure ([], t :: u :: s)

/-- `UseStatement` and `ExportUseStatement` -/
structure Use where
  exp : Bool
  path : List Name
  as : Option Name

/-- `as name`, lines 1351-1353 -/
def optAlias (exp : Bool) : M (Option Name) := fun s =>
  if exp = false ∧ cur s = "AS" then do
    let (n, s1) ← eat "IDENTIFIER" (adv s)
    pure (some n, s1)
  else pure (none, s)

/-- `_parse_use_statement`, parser.py:1341-1361 -/
def useStmt : M Use := fun s => do
  let exp := decide (cur s = "EXPORT")
  let (_, s1) ← eat "USE" (if exp then adv s else s)
  let (p, s2) ← pathPart s1
  let (ps, s3) ← pathTail s2
  let (a, s4) ← optAlias exp s3
  let s5 ← mTerm s4
  pure (⟨exp, p :: ps, a⟩, s5)

/-- the `use` statements at the beginning, lines 1496-1501 -/
def uses : Nat → M (List Use)
  | 0, _ => .error .fuel
  | n + 1, s =>
    if cur s = "USE" ∨ (cur s = "EXPORT" ∧ peek1 s = "USE") then do
      let (u, s1) ← useStmt s
      let (us, s2) ← uses n (skipNl s1)
      pure (u :: us, s2)
    else pure ([], s)

/-- `NativeFunctionDecl` -/
structure NDecl where
  name : Name
  params : List Param
  ret : Ty

/-- `_parse_native_function_decl`, parser.py:1363-1388 -/
def nativeDecl : M NDecl := fun s => do
  let (n, s1) ← eat "IDENTIFIER" (adv s)
  let (ps, s2) ← params s1
  let (_, s3) ← eat "ARROW" s2
  let (t, s4) ← mType s3
  let (_, s5) ← eat "SEMICOLON" s4
  pure (⟨n, ps, t⟩, s5)

/-- the declarations of an exports block, lines 1417-1419 -/
def nativeDecls : Nat → M (List NDecl)
  | 0, _ => .error .fuel
  | n + 1, s =>
    if cur s = "FN" then do
      let (d, s1) ← nativeDecl s
      let (ds, s2) ← nativeDecls n s1
      pure (d :: ds, s2)
    else pure ([], s)

/-- the code of a native block, lines 1396-1404: the tokens before the matching brace -/
def codeTo : Nat → List Tok → List Tok × List Tok
  | 0, s => ([], s)
  | _ + 1, [] => ([], [])
  | d + 1, t :: s =>
    if t.kind = "EOF" then ([], t :: s)
    else if t.kind = "LBRACE" then let (c, r) := codeTo (d + 2) s; (t :: c, r)
    else if t.kind = "RBRACE" then
      if d = 0 then ([], s) else let (c, r) := codeTo d s; (t :: c, r)
    else let (c, r) := codeTo (d + 1) s; (t :: c, r)

/-- `NativeBlock` -/
structure NBlock where
  code : List Tok
  decls : List NDecl

/-- `_parse_native_block`, parser.py:1390-1427 -/
def nativeBlock : M NBlock := fun s => do
  let (_, s1) ← eat "PYTHON" (adv s)
  let (_, s2) ← eat "LBRACE" s1
  let (_, s4) ← eat "EXPORTS" (codeTo 1 s2).2
  let (_, s5) ← eat "LBRACE" s4
  let (ds, s6) ← nativeDecls (s5.length + 1) s5
  let (_, s7) ← eat "RBRACE" s6
  pure (⟨(codeTo 1 s2).1, ds⟩, s7)

/-- the code of a native function, lines 1461-1465: all tokens before the first `DEDENT` -/
def codeDedent : List Tok → List Tok × List Tok
  | [] => ([], [])
  | t :: s => if t.kind = "DEDENT" ∨ t.kind = "EOF" then ([], t :: s)
    else let (c, r) := codeDedent s; (t :: c, r)

/-- `NativeFunction` -/
structure NFn where
  name : Name
  params : List Param
  ret : Ty
  code : List Tok

/-- the body of a native function, lines 1450-1469 -/
def nativeBody : M (List Tok) := fun s =>
  let s0 := if cur s = "NEWLINE" then adv s else s
  if cur s0 = "INDENT" then do
    let (_, s2) ← eat "DEDENT" (codeDedent (adv s0)).2
    pure ((codeDedent (adv s0)).1, s2)
  else pure ([], s0)

/-- `_parse_native_function`, parser.py:1429-1477 -/
def nativeFn : M NFn := fun s => do
  let (n, s1) ← eat "IDENTIFIER" (adv s)
  let (ps, s2) ← params s1
  let (_, s3) ← eat "ARROW" s2
  let (t, s4) ← mType s3
  let (_, s5) ← eat "COLON" s4
  let (c, s6) ← nativeBody s5
  pure (⟨n, ps, t, c⟩, s6)

/-- one decorator of a declaration -/
inductive DecoItem
  | md (h : List (Entry (List Name)))
  | deco (d : Deco)

/-- the decorators before a declaration, lines 1512-1529 -/
def decos : Nat → M (List DecoItem)
  | 0, _ => .error .fuel
  | n + 1, s =>
    if cur s = "AT" then
      if val (adv s) = .text "meta".toList then do
        let (h, s1) ← metaDeco s
        let (ds, s2) ← decos n (skipNl s1)
        pure (.md h :: ds, s2)
      else do
        let (d, s1) ← deco s
        let (ds, s2) ← decos n (skipNl s1)
        pure (.deco d :: ds, s2)
    else pure ([], s)

/-- the entries of a decorator, none for one that is not `@meta` -/
def DecoItem.entries : DecoItem → List (Entry (List Name))
  | .md h => h
  | .deco _ => []

/-- `merged_meta`, lines 1514 and 1525: later decorators win -/
def mergedMeta (l : List DecoItem) : List (Entry (List Name)) :=
  l.foldl (fun d x => x.entries.foldl (fun d e => dset d e.1 e.2) d) []

/-- the other decorators -/
def plainDecos (l : List DecoItem) : List Deco := l.filterMap fun x => match x with | .md _ => none | .deco d => some d

/-- a declaration -/
inductive Decl
  | block (b : NBlock)
  | native (f : NFn)
  | fn (f : Fn)

/-- one declaration after its decorators, lines 1536-1556 -/
def decl (ds : List DecoItem) : M Decl := fun s =>
  if cur s = "NATIVE" then do
    let (b, s1) ← nativeBlock s
    pure (.block b, s1)
  else if cur s = "DEF" then
    if (plainDecos ds).any (fun d => d.name = .text "native".toList) then do
      let (f, s1) ← nativeFn s
      pure (.native f, s1)
    else do
      let (f, s1) ← fnDef (plainDecos ds) (mergedMeta ds) s
      pure (.fn f, s1)
  else if cur s = "COMMAND" then do
    let (f, s1) ← commandDef (mergedMeta ds) s
    pure (.fn f, s1)
  else .error .syn

/-- the main loop of `parse_module`, lines 1507-1558 -/
def decls : Nat → List Tok → Except MErr (List Decl)
  | 0, _ => .error .fuel
  | n + 1, s =>
    if cur (skipNl s) = "EOF" then pure []
    else do
      let (ds, s1) ← decos (s.length + 1) (skipNl s)
      if cur s1 = "EOF" then pure []
      else do
        let (d, s2) ← decl ds s1
        let rest ← decls n s2
        pure (d :: rest)

/-- `Module` -/
structure Mod where
  name : Option Name
  uses : List Use
  blocks : List NBlock
  natives : List NFn
  functions : List Fn

/-- `module name`, lines 1484-1490 -/
def optModule : M (Option Name) := fun s =>
  if cur s = "MODULE" then do
    let (n, s1) ← eat "IDENTIFIER" (adv s)
    let s2 ← mTerm s1
    pure (some n, s2)
  else pure (none, s)

/-- the declarations sorted by kind, in the order of the text -/
def mkMod (name : Option Name) (us : List Use) (ds : List Decl) : Mod :=
  { name := name, uses := us
    blocks := ds.filterMap fun d => match d with | .block b => some b | _ => none
    natives := ds.filterMap fun d => match d with | .native f => some f | _ => none
    functions := ds.filterMap fun d => match d with | .fn f => some f | _ => none }

/-- `parse_module`, parser.py:1479-1564 -/
def parseModule (s : List Tok) : Except MErr Mod := do
  let (n, s1) ← optModule (skipNl s)
  let (us, s2) ← uses (s.length + 1) (skipNl s1)
  let ds ← decls (s.length + 1) s2
  pure (mkMod n us ds)

end Verif.Parser
