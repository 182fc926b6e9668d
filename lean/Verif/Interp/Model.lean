import Verif.Base.Dict
import Verif.Types.Model

/-!
# Model of the DSL interpreter: `dsl/runtime/interpreter.py`, `context.py`, `values.py`

Every expression and statement form is modelled. What Python code outside the interpreter does is a parameter
(`Host`): the built-in functions and methods, native functions, embedded Python, float arithmetic and the
operations on geometry. Host code is taken to be a function of the data it is given (no effects on DSL variables,
no aliasing). The recursion of the interpreter over the syntax tree is by fuel; `outOfFuel` is an error of the
model only, and `Verif/Interp/Terminate.lean` shows that with enough fuel it never occurs.
The field `log` of the state is ghost: the program never reads it.
-/

namespace Verif.Interp

open Verif.Dict Verif.Types

/-- Python data held by a DSL value; `opq` stands for geometry, assemblies and functions -/
inductive Data (F : Type)
  | int (n : Int)
  | flt (x : F)
  | bool (b : Bool)
  | str (s : String)
  | list (l : List (Data F))
  | dict (l : List (String × Data F))
  | none
  | opq (n : Nat)

/-- `Value`, values.py:23-49, and `EmitResult`, values.py:175-192: both have `data` and `type`; only a `Value` has
`is_truthy`. `emitted` says it is an `EmitResult`. -/
structure Val (F : Type) where
  data : Data F
  ty : Ty
  emitted : Bool := false

/-- Python exceptions: `rt` is RuntimeError, `other` any other one -/
inductive Err
  | rt (msg : String)
  | other (msg : String)
  deriving DecidableEq

/-- how a run of the model may fail: with a Python exception, or, in the model only, for lack of fuel -/
inductive Exn
  | py (e : Err)
  | outOfFuel
  deriving DecidableEq

/-- binary operators, interpreter.py:566-640 -/
inductive Op
  | and | or | plus | minus | star | slash | percent | dslash | dstar | eq | ne | lt | gt | le | ge
  deriving DecidableEq

/-- unary operators, interpreter.py:642-653 -/
inductive UOp
  | minus | not
  deriving DecidableEq

/-- literals, interpreter.py:543-557 -/
inductive Lit (F : Type)
  | int (n : Int)
  | flt (x : F)
  | bool (b : Bool)
  | str (s : String)

/-- patterns, interpreter.py:985-996; `other` is any other pattern node -/
inductive Pat (F : Type)
  | wild
  | lit (d : Data F)
  | ident (x : String)
  | other

/-- expression nodes, interpreter.py:504-541. A comprehension clause is (variable, iterable, conditions). -/
inductive Expr (F : Type)
  | lit (l : Lit F)
  | ident (x : String)
  | bin (op : Op) (a b : Expr F)
  | un (op : UOp) (a : Expr F)
  | call (fn : String) (args : List (Expr F)) (named : List (String × Expr F))
  | method (obj : Expr F) (name : String) (args : List (Expr F))
  | member (obj : Expr F) (name : String)
  | index (obj i : Expr F)
  | list (es : List (Expr F))
  | comp (elem : Expr F) (clauses : List (String × Expr F × List (Expr F)))
  | range (a b : Expr F)
  | dict (es : List (String × Expr F))
  | cond (c t e : Expr F)
  | ifE (c t : Expr F) (e : Option (Expr F))
  | matchE (subj : Expr F) (arms : List (Pat F × Expr F))
  | lambda (id : Nat)
  | py (code : Nat) (ty : Ty)

/-- statement nodes, interpreter.py:292-318 -/
inductive Stmt (F : Type)
  | letS (x : String) (e : Expr F)
  | assign (x : String) (e : Expr F)
  /-- an assignment whose target is not a name -/
  | assignTo (e : Expr F)
  | require (c : Expr F) (msg : Option String)
  | emit (v : Expr F) (md : List (String × Expr F))
  | forS (x : String) (it : Expr F) (body : List (Stmt F))
  | ifS (c : Expr F) (thn : List (Stmt F)) (elifs : List (Expr F × List (Stmt F))) (els : Option (List (Stmt F)))
  | pass
  | expr (e : Expr F)
  | ret (e : Option (Expr F))
  | block (ss : List (Stmt F))
  | py (code : Nat) (result : Option String)

/-- a command parameter (`Parameter`): name, resolved annotation, default -/
structure Param (F : Type) where
  name : String
  ann : Option Ty
  default : Option (Expr F)

/-- a command; `hint` stands for a non-empty `meta_hint` -/
structure Cmd (F : Type) where
  name : String
  params : List (Param F)
  body : List (Stmt F)
  hint : Option Nat

/-- the interpreter's environment: Python code outside the interpreter -/
structure Host (F : Type) where
  /-- `float(n)` -/
  ofInt : Int → F
  /-- `int(x)`; none when it raises -/
  toInt : F → Option Int
  /-- `a / b` of integers, `b ≠ 0` -/
  idiv : Int → Int → F
  /-- `a ** b` of integers with `b < 0` -/
  ipow : Int → Int → F
  /-- float operations `+ - * / % // **`; none when they raise -/
  fop : Op → F → F → Option F
  /-- float comparisons -/
  fcmp : Op → F → F → Bool
  fneg : F → F
  /-- operators on other data -/
  otherOp : Op → Data F → Data F → Except Err (Data F)
  /-- comparisons of other data -/
  otherCmp : Op → Data F → Data F → Except Err Bool
  /-- unary minus of other data -/
  otherNeg : Data F → Except Err (Data F)
  /-- `str(x)` -/
  str : Data F → String
  /-- `a == b` of other data -/
  eq : Data F → Data F → Bool
  /-- `int(x)` of a string or other data -/
  parseInt : Data F → Except Err Int
  /-- `float(x)` of a string or other data -/
  parseFloat : Data F → Except Err F
  /-- iteration over `opq` data -/
  iter : Nat → Option (List (Data F))
  /-- `d[i]` of data other than lists -/
  getitem : Data F → Int → Except Err (Data F)
  /-- `hasattr(d, "__getitem__")` of data other than lists -/
  hasItem : Data F → Bool
  /-- `getattr(d, name)` when there is one -/
  attr : Data F → String → Option (Data F)
  /-- registered built-in functions; they return `Value`s -/
  builtin : String → Option (List (Val F) → Except Err (Val F))
  /-- registered methods, by type -/
  method : Ty → String → Option (Val F → List (Val F) → Except Err (Val F))
  /-- functions exported by native blocks -/
  native : String → Option (List (Data F) → Except Err (Val F))
  /-- embedded Python statement blocks, run in a namespace: the `_return_value`, if any -/
  pyExec : Nat → List (String × Data F) → Except Err (Option (Data F × Ty))
  /-- embedded Python expressions -/
  pyEval : Nat → List (String × Data F) → Except Err (Data F)
  /-- `apply_meta_hint` on an emitted value, interpreter.py:283-290 -/
  applyMeta : Nat → Data F → Except Err (Data F)

/-- the module being run -/
structure Prog (F : Type) where
  cmds : List (Cmd F)
  limit : Nat

/-- ghost events: a command entered and the value of `call_depth` then; a value emitted, a requirement failed or a
built-in called by a command run, with the call depth at which that run began (0 for the command given to `execute`) -/
inductive Event (F : Type)
  | enter (cmd : String) (depth : Nat)
  | emit (v : Val F) (level : Nat)
  | fail (msg : String) (level : Nat)
  | builtin (name : String) (level : Nat)

/-- a scope's own variables -/
abbrev Frame (F : Type) := List (String × Val F)

/-- `ExecutionContext`, context.py:60-92; `frames` is the scope chain from the current scope outwards (never
empty). `level` is ghost: the call depth at which the context was created. -/
structure Ctx (F : Type) where
  level : Nat
  frames : List (Frame F)
  emit : Option (Val F × List (String × Data F))
  fails : List String
  diags : List String
  ret : Option (Val F)

/-- interpreter state: the current context, `call_depth`, and the ghost log -/
structure St (F : Type) where
  ctx : Ctx F
  depth : Nat
  log : List (Event F)

/-- a computation: a result or an exception, and the state it leaves -/
def M (F : Type) (α : Type) := St F → Except Exn α × St F

variable {F : Type}

/-- a value -/
def ret {α : Type} (a : α) : M F α := fun s => (.ok a, s)

/-- sequencing; exceptions propagate -/
def bind {α β : Type} (m : M F α) (k : α → M F β) : M F β := fun s =>
  match m s with
  | (.ok a, s') => k a s'
  | (.error e, s') => (.error e, s')

instance : Monad (M F) where
  pure := ret
  bind := bind

/-- raise -/
def raise {α : Type} (e : Err) : M F α := fun s => (.error (.py e), s)

/-- a host result -/
def lift {α : Type} (r : Except Err α) : M F α := fun s => (r.mapError .py, s)

/-- change the current context -/
def modCtx (g : Ctx F → Ctx F) : M F Unit := fun s => (.ok (), { s with ctx := g s.ctx })

/-- append a ghost event of the current context -/
def note (e : Nat → Event F) : M F Unit := fun s => (.ok (), { s with log := s.log ++ [e s.ctx.level] })

/-- `try: m finally: g` -/
def fin {α : Type} (m : M F α) (g : St F → St F) : M F α := fun s =>
  match m s with
  | (r, s') => (r, g s')

/-- `for a in l: b = g(b, a)` -/
def foldM {α β : Type} (g : β → α → M F β) : β → List α → M F β
  | b, [] => pure b
  | b, a :: l => do
    let b' ← g b a
    foldM g b' l

/-- `[g(a) for a in l]` -/
def mapM {α β : Type} (g : α → M F β) : List α → M F (List β)
  | [] => pure []
  | a :: l => do
    let b ← g a
    let bs ← mapM g l
    pure (b :: bs)

/-! ### scopes, context.py:18-120 -/

/-- `Scope.get`, context.py:29-35 -/
def lookup : List (Frame F) → String → Option (Val F)
  | [], _ => none
  | f :: fs, x =>
    match dget f x with
    | some v => some v
    | none => lookup fs x

/-- `Scope.set` on the current scope, context.py:37-39 -/
def bindTop : List (Frame F) → String → Val F → List (Frame F)
  | [], _, _ => []
  | f :: fs, x, v => dset f x v :: fs

/-- `Scope.update`, context.py:41-53 -/
def update : List (Frame F) → String → Val F → Option (List (Frame F))
  | [], _, _ => none
  | f :: fs, x, v =>
    if (dget f x).isSome then some (dset f x v :: fs)
    else (update fs x v).map (f :: ·)

/-- `ExecutionContext.set_variable`, context.py:98-100 -/
def setVar (x : String) (v : Val F) : M F Unit := modCtx fun c => { c with frames := bindTop c.frames x v }

/-- `ExecutionContext.new_scope`, context.py:106-122: the scope object current before is current again afterwards -/
def withScope {α : Type} (m : M F α) : M F α := fun s =>
  let k := s.ctx.frames.length
  fin m (fun s' => { s' with ctx := { s'.ctx with frames := s'.ctx.frames.drop (s'.ctx.frames.length - k) } })
    { s with ctx := { s.ctx with frames := [] :: s.ctx.frames } }

/-- `create_context`, context.py:191-220 -/
def freshCtx (level : Nat) (params : List (String × Val F)) : Ctx F :=
  { level := level, frames := [params], emit := none, fails := [], diags := [], ret := none }

/-! ### values -/

/-- `int(n)` of data -/
def toInt (H : Host F) : Data F → Except Err Int
  | .int n => .ok n
  | .bool b => .ok (if b then 1 else 0)
  | .flt x => match H.toInt x with
    | some n => .ok n
    | none => .error (.other "ValueError")
  | d => H.parseInt d

/-- `float(x)` of data -/
def toFloat (H : Host F) : Data F → Except Err F
  | .int n => .ok (H.ofInt n)
  | .bool b => .ok (H.ofInt (if b then 1 else 0))
  | .flt x => .ok x
  | d => H.parseFloat d

/-- `int_val`, values.py:52-54 -/
def intVal (H : Host F) (d : Data F) : Except Err (Val F) :=
  match toInt H d with
  | .ok n => .ok ⟨.int n, .prim .int, false⟩
  | .error e => .error e

/-- `float_val`, values.py:57-59 -/
def floatVal (H : Host F) (d : Data F) : Except Err (Val F) :=
  match toFloat H d with
  | .ok x => .ok ⟨.flt x, .prim .float, false⟩
  | .error e => .error e

/-- `bool_val`, values.py:62-64 -/
def boolVal (b : Bool) : Val F := ⟨.bool b, .prim .bool, false⟩

/-- `string_val`, values.py:67-69 -/
def strVal (s : String) : Val F := ⟨.str s, .prim .string, false⟩

/-- `list_val`, values.py:72-74 -/
def listVal (vs : List (Val F)) (t : Ty) : Val F := ⟨.list (vs.map (·.data)), .list t, false⟩

/-- `none_val(INT)`, values.py:82-84 -/
def noneVal : Val F := ⟨.none, .opt (.prim .int), false⟩

/-- Python's truth value of data held by a boolean-typed value, values.py:38-39 -/
def dataBool (H : Host F) : Data F → Bool
  | .bool b => b
  | .int n => n != 0
  | .flt x => H.fcmp .ne x (H.ofInt 0)
  | .str s => s != ""
  | .list l => !l.isEmpty
  | .dict l => !l.isEmpty
  | .none => false
  | .opq _ => true

/-- `Value.is_truthy`, values.py:36-47; an `EmitResult` has no such method -/
def truthy (H : Host F) (v : Val F) : Except Err Bool :=
  if v.emitted then .error (.other "AttributeError")
  else match v.ty with
    | .prim .bool => .ok (dataBool H v.data)
    | .list _ => match v.data with
      | .list l => .ok (!l.isEmpty)
      | .str s => .ok (s != "")
      | .dict l => .ok (!l.isEmpty)
      | _ => .error (.other "TypeError")
    | .opt _ => match v.data with
      | .none => .ok false
      | _ => .ok true
    | _ => .ok true

/-- integers for arithmetic: Python's bool is an int -/
def asInt : Data F → Option Int
  | .int n => some n
  | .bool b => some (if b then 1 else 0)
  | _ => none

/-- floats for mixed arithmetic -/
def asFloat (H : Host F) : Data F → Option F
  | .int n => some (H.ofInt n)
  | .bool b => some (H.ofInt (if b then 1 else 0))
  | .flt x => some x
  | _ => none

/-- `a op b` of Python integers -/
def intOp (H : Host F) (op : Op) (a b : Int) : Except Err (Data F) :=
  match op with
  | .plus => .ok (.int (a + b))
  | .minus => .ok (.int (a - b))
  | .star => .ok (.int (a * b))
  | .slash => if b = 0 then .error (.other "ZeroDivisionError") else .ok (.flt (H.idiv a b))
  | .percent => if b = 0 then .error (.other "ZeroDivisionError") else .ok (.int (Int.fmod a b))
  | .dslash => if b = 0 then .error (.other "ZeroDivisionError") else .ok (.int (Int.fdiv a b))
  | .dstar =>
    if 0 ≤ b then .ok (.int (a ^ b.toNat))
    else if a = 0 then .error (.other "ZeroDivisionError")
    else .ok (.flt (H.ipow a b))
  | _ => .error (.other "TypeError")

/-- `a op b` of Python data -/
def dataOp (H : Host F) (op : Op) (a b : Data F) : Except Err (Data F) :=
  match asInt a, asInt b with
  | some m, some n => intOp H op m n
  | _, _ =>
    match asFloat H a, asFloat H b with
    | some x, some y => match H.fop op x y with
      | some z => .ok (.flt z)
      | none => .error (.other "ArithmeticError")
    | _, _ => H.otherOp op a b

/-- comparison of integers -/
def intCmp (op : Op) (a b : Int) : Bool :=
  match op with
  | .eq => decide (a = b)
  | .ne => decide (a ≠ b)
  | .lt => decide (a < b)
  | .gt => decide (a > b)
  | .le => decide (a ≤ b)
  | .ge => decide (a ≥ b)
  | _ => false

/-- comparison of Python data -/
def dataCmp (H : Host F) (op : Op) (a b : Data F) : Except Err Bool :=
  match asInt a, asInt b with
  | some m, some n => .ok (intCmp op m n)
  | _, _ =>
    match asFloat H a, asFloat H b with
    | some x, some y => .ok (H.fcmp op x y)
    | _, _ => H.otherCmp op a b

/-- `a == b` of Python data -/
def dataEq (H : Host F) (a b : Data F) : Bool :=
  match asInt a, asInt b with
  | some m, some n => decide (m = n)
  | _, _ =>
    match asFloat H a, asFloat H b with
    | some x, some y => H.fcmp .eq x y
    | _, _ => H.eq a b

/-- both operands are of type int -/
def bothInt (l r : Val F) : Bool := decide (l.ty = .prim .int) && decide (r.ty = .prim .int)

/-- `int_val(result)` for two ints, `float_val(result)` otherwise, e.g. interpreter.py:592-595 -/
def numResult (H : Host F) (l r : Val F) (d : Data F) : Except Err (Val F) :=
  if bothInt l r then intVal H d else floatVal H d

/-- list-typed -/
def isListTy : Ty → Bool
  | .list _ => true
  | _ => false

/-- `+`, interpreter.py:582-595 -/
def plusOp (H : Host F) (l r : Val F) : Except Err (Val F) :=
  if decide (l.ty = .prim .string) || decide (r.ty = .prim .string) then .ok (strVal (H.str l.data ++ H.str r.data))
  else if isListTy l.ty && isListTy r.ty then
    match l.data, r.data with
    | .list a, .list b => .ok ⟨.list (a ++ b), l.ty, false⟩
    | a, b => match H.otherOp .plus a b with
      | .ok d => .ok ⟨d, l.ty, false⟩
      | .error e => .error e
  else match dataOp H .plus l.data r.data with
    | .ok d => numResult H l r d
    | .error e => .error e

/-- non-negative exponent, interpreter.py:621 -/
def nonneg (H : Host F) : Data F → Bool
  | .flt x => H.fcmp .ge x (H.ofInt 0)
  | d => match asInt d with
    | some n => decide (0 ≤ n)
    | none => false

/-- the result value of an arithmetic operator, interpreter.py:596-623 -/
def arithVal (H : Host F) (op : Op) (l r : Val F) (d : Data F) : Except Err (Val F) :=
  match op with
  | .slash => floatVal H d
  | .dslash => intVal H d
  | .dstar => if bothInt l r && nonneg H r.data then intVal H d else floatVal H d
  | _ => numResult H l r d

/-- arithmetic and comparison operators, interpreter.py:581-640 (`and`/`or` are in `evalStep`) -/
def binVal (H : Host F) (op : Op) (l r : Val F) : Except Err (Val F) :=
  match op with
  | .plus => plusOp H l r
  | .minus | .star | .slash | .percent | .dslash | .dstar =>
    match dataOp H op l.data r.data with
    | .ok d => arithVal H op l r d
    | .error e => .error e
  | .eq => .ok (boolVal (dataEq H l.data r.data))
  | .ne => .ok (boolVal (!dataEq H l.data r.data))
  | _ => match dataCmp H op l.data r.data with
    | .ok b => .ok (boolVal b)
    | .error e => .error e

/-- unary minus of data -/
def dataNeg (H : Host F) : Data F → Except Err (Data F)
  | .int n => .ok (.int (-n))
  | .bool b => .ok (.int (if b then -1 else 0))
  | .flt x => .ok (.flt (H.fneg x))
  | d => H.otherNeg d

/-- `_eval_unary_op`, interpreter.py:642-653 -/
def unVal (H : Host F) (op : UOp) (v : Val F) : Except Err (Val F) :=
  match op with
  | .minus => match dataNeg H v.data with
    | .ok d => if v.ty = .prim .int then intVal H d else floatVal H d
    | .error e => .error e
  | .not => match truthy H v with
    | .ok b => .ok (boolVal (!b))
    | .error e => .error e

/-- a literal's value, interpreter.py:543-557 -/
def litVal : Lit F → Val F
  | .int n => ⟨.int n, .prim .int, false⟩
  | .flt x => ⟨.flt x, .prim .float, false⟩
  | .bool b => boolVal b
  | .str s => strVal s

/-- Python iteration over data -/
def iterItems (H : Host F) : Data F → Option (List (Data F))
  | .list l => some l
  | .str s => some (s.toList.map fun c => .str (String.singleton c))
  | .dict l => some (l.map fun p => .str p.1)
  | .opq n => H.iter n
  | _ => none

/-- the element type of an iterable, interpreter.py:365-369, 916-920 -/
def elemTy : Ty → Ty
  | .list t => t
  | _ => .prim .int

/-- `d[i]`, Python lists count from the end for negative `i` -/
def getItem (H : Host F) : Data F → Int → Except Err (Data F)
  | .list l, i =>
    if 0 ≤ i then match l[i.toNat]? with
      | some d => .ok d
      | none => .error (.other "IndexError")
    else if i + l.length < 0 then .error (.other "IndexError")
    else match l[(i + l.length).toNat]? with
      | some d => .ok d
      | none => .error (.other "IndexError")
  | d, i => H.getitem d i

/-- index of a coordinate member, interpreter.py:811-817 -/
def coordIx : String → Option Int
  | "x" => some 0
  | "y" => some 1
  | "z" => some 2
  | _ => none

/-- `hasattr(d, "__getitem__")` -/
def hasItem (H : Host F) : Data F → Bool
  | .list _ => true
  | d => H.hasItem d

/-- `_eval_member_access` after the object, interpreter.py:799-819 -/
def memberVal (H : Host F) (v : Val F) (name : String) : Except Err (Val F) :=
  match v.ty with
  | .dict => match v.data with
    | .dict l => .ok ⟨(dget l name).getD .none, .prim .string, false⟩
    | _ => .error (.other "AttributeError")
  | _ => match H.attr v.data name with
    | some d => .ok ⟨d, .prim .float, false⟩
    | none => match coordIx name with
      | some i =>
        if hasItem H v.data then match getItem H v.data i with
          | .ok d => floatVal H d
          | .error e => .error e
        else .error (.rt "Unknown member")
      | none => .error (.rt "Unknown member")

/-- `_eval_index_access` after its parts, interpreter.py:821-830 -/
def indexVal (H : Host F) (v i : Val F) : Except Err (Val F) :=
  match toInt H i.data with
  | .error e => .error e
  | .ok n => match getItem H v.data n with
    | .error e => .error e
    | .ok d => match v.ty with
      | .list t => .ok ⟨d, t, false⟩
      | _ => .ok ⟨d, .prim .float, false⟩

/-- `_eval_list_literal` after its elements, interpreter.py:832-839 -/
def listLitVal : List (Val F) → Val F
  | [] => listVal [] (.prim .int)
  | v :: vs => listVal (v :: vs) v.ty

/-- `[start, start+1, .., end-1]` -/
def intRange (a b : Int) : List Int := (List.range (b - a).toNat).map fun i => a + i

/-- `_eval_range` after its parts, interpreter.py:938-945 -/
def rangeVal (H : Host F) (a b : Val F) : Except Err (Val F) :=
  match toInt H a.data with
  | .error e => .error e
  | .ok m => match toInt H b.data with
    | .error e => .error e
    | .ok n => .ok ⟨.list ((intRange m n).map .int), .list (.prim .int), false⟩

/-- the Python namespace of embedded code, interpreter.py:432-438, 1018-1024: scopes from the inside outwards, each
overwriting the names set before -/
def namespaceOf (frames : List (Frame F)) : List (String × Data F) :=
  frames.foldl (fun ns f => f.foldl (fun ns p => dset ns p.1 p.2.data) ns) []

/-! ### evaluation -/

/-- the interpreter's two recursive entry points, `_evaluate` and `_execute_statement` -/
structure Fns (F : Type) where
  ev : Expr F → M F (Val F)
  ex : Stmt F → M F Unit

/-- `cond.is_truthy()` -/
def evTruthy (H : Host F) (f : Fns F) (e : Expr F) : M F Bool := do
  let v ← f.ev e
  lift (truthy H v)

/-- maximal size of a comprehension's result, interpreter.py:15 -/
def compMaxSize : Nat := 100000

/-- maximal number of clauses, interpreter.py:16 -/
def compMaxDepth : Nat := 4

/-- all conditions of a clause hold (later ones are not evaluated after a false one), interpreter.py:925-933 -/
def allTrue (H : Host F) (f : Fns F) : List (Expr F) → M F Bool
  | [] => pure true
  | c :: cs => do
    let b ← evTruthy H f c
    if b then allTrue H f cs else pure false

/-- `_eval_comprehension_clauses`, interpreter.py:874-936 -/
def compClauses (H : Host F) (f : Fns F) (elem : Expr F) :
    List (String × Expr F × List (Expr F)) → List (Val F) → M F (List (Val F))
  | [], acc =>
    if compMaxSize ≤ acc.length then raise (.rt "List comprehension result size exceeds maximum")
    else do
      let v ← f.ev elem
      pure (acc ++ [v])
  | c :: cs, acc => do
    let it ← f.ev c.2.1
    match iterItems H it.data with
    | none => raise (.other "TypeError")
    | some items => foldM (fun acc d =>
        if compMaxSize ≤ acc.length then raise (.rt "List comprehension result size exceeds maximum")
        else do
          setVar c.1 ⟨d, elemTy it.ty, false⟩
          let ok ← allTrue H f c.2.2
          if ok then compClauses H f elem cs acc else pure acc) acc items

/-- the value of a comprehension, interpreter.py:870-872 -/
def compVal : List (Val F) → Val F
  | [] => listVal [] (.prim .int)
  | v :: vs => listVal (v :: vs) v.ty

/-- the argument of one parameter, interpreter.py:680-688 -/
def namedArg (f : Fns F) (named : List (String × Expr F)) (p : Param F) : M F (Val F) :=
  match dget named p.name with
  | some e => f.ev e
  | none => match p.default with
    | some e => f.ev e
    | none => raise (.rt "missing required argument")

/-- named arguments put in the order of the parameters, interpreter.py:674-689 -/
def resolveNamed (f : Fns F) (named : List (String × Expr F)) : List (Param F) → M F (List (Val F))
  | [] => pure []
  | p :: ps => do
    let v ← namedArg f named p
    let vs ← resolveNamed f named ps
    pure (v :: vs)

/-- go on unless a return was executed -/
def unlessRet (m : M F Unit) : M F Unit := fun st => if st.ctx.ret.isSome then (.ok (), st) else m st

/-- a statement list that stops at a return, e.g. interpreter.py:254-259 -/
def runBody (f : Fns F) : List (Stmt F) → M F Unit
  | [] => pure ()
  | s :: ss => do
    f.ex s
    unlessRet (runBody f ss)

/-- `_apply_command_meta_hint`, interpreter.py:261-290 (the emitted data is replaced) -/
def applyHint (H : Host F) (cmd : Cmd F) : M F Unit := fun st =>
  match cmd.hint, st.ctx.emit with
  | some h, some (v, md) => match H.applyMeta h v.data with
    | .ok d => (.ok (), { st with ctx := { st.ctx with emit := some ({ v with data := d }, md) } })
    | .error e => (.error (.py e), st)
  | _, _ => (.ok (), st)

/-- parameters without a default, interpreter.py:711 -/
def requiredCount (cmd : Cmd F) : Nat := (cmd.params.filter fun p => p.default.isNone).length

/-- arguments bound to the first parameters, interpreter.py:723-725 -/
def bindArgs (ps : List (Param F)) (args : List (Val F)) : List (String × Val F) :=
  (ps.zip args).foldl (fun d p => dset d p.1.name p.2) []

/-- default values of the remaining parameters, evaluated in the caller's context, interpreter.py:727-732 -/
def fillDefaults (f : Fns F) : List (Param F) → List (String × Val F) → M F (List (String × Val F))
  | [], d => pure d
  | p :: ps, d => match p.default with
    | some e => do
      let v ← f.ev e
      fillDefaults f ps (dset d p.name v)
    | none => fillDefaults f ps d

/-- the emitted value of the current context, interpreter.py:746-750 -/
def emittedVal : M F (Val F) := fun st =>
  match st.ctx.emit with
  | some (v, _) => (.ok { v with emitted := true }, st)
  | none => (.error (.py (.rt "did not emit a value")), st)

/-- the command body in its context, interpreter.py:738-750 -/
def cmdBody (H : Host F) (f : Fns F) (cmd : Cmd F) : M F (Val F) := do
  note (.enter cmd.name)
  runBody f cmd.body
  applyHint H cmd
  emittedVal

/-- run a command body in a context of its own and return what it emitted, interpreter.py:734-750 -/
def inNewCtx (H : Host F) (f : Fns F) (cmd : Cmd F) (params : List (String × Val F)) : M F (Val F) := fun st =>
  fin (cmdBody H f cmd) (fun st' => { st' with ctx := st.ctx }) { st with ctx := freshCtx st.depth params }

/-- the guarded part of `_call_command`, interpreter.py:706-750 -/
def callBody (H : Host F) (f : Fns F) (cmd : Cmd F) (args : List (Val F)) : M F (Val F) :=
  if args.length < requiredCount cmd ∨ cmd.params.length < args.length then raise (.rt "wrong number of arguments")
  else do
    let params ← fillDefaults f (cmd.params.drop args.length) (bindArgs cmd.params args)
    inNewCtx H f cmd params

/-- `_call_command`, interpreter.py:695-752 -/
def callCommand (H : Host F) (P : Prog F) (f : Fns F) (cmd : Cmd F) (args : List (Val F)) : M F (Val F) := fun st =>
  if P.limit < st.depth + 1 then (.error (.py (.rt "Maximum recursion depth exceeded")), st)
  else fin (callBody H f cmd args) (fun st' => { st' with depth := st'.depth - 1 }) { st with depth := st.depth + 1 }

/-- first command of that name, interpreter.py:672-673 -/
def findCmd (P : Prog F) (name : String) : Option (Cmd F) := P.cmds.find? fun c => c.name == name

/-- `_eval_function_call` after the positional arguments, interpreter.py:660-693 -/
def callFn (H : Host F) (P : Prog F) (f : Fns F) (fn : String) (named : List (String × Expr F))
    (args : List (Val F)) : M F (Val F) :=
  match H.native fn with
  | some g => match g (args.map (·.data)) with
    | .ok v => pure v
    | .error _ => raise (.rt "Error calling native function")
  | none => match findCmd P fn with
    | some cmd =>
      if !named.isEmpty && args.isEmpty then do
        let args' ← resolveNamed f named cmd.params
        callCommand H P f cmd args'
      else callCommand H P f cmd args
    | none => match H.builtin fn with
      | some g => do
        note (.builtin fn)
        lift (g args)
      | none => raise (.rt "Unknown built-in function")

/-- `_pattern_matches`, interpreter.py:985-996 -/
def patMatches (H : Host F) (p : Pat F) (v : Val F) : M F Bool :=
  match p with
  | .wild => pure true
  | .lit d => pure (dataEq H v.data d)
  | .ident x => do
    setVar x v
    pure true
  | .other => pure false

/-- the arms of a match, interpreter.py:979-983 -/
def runArms (H : Host F) (f : Fns F) (v : Val F) : List (Pat F × Expr F) → M F (Val F)
  | [] => raise (.rt "No match arm matched")
  | a :: as => do
    let b ← patMatches H a.1 v
    if b then f.ev a.2 else runArms H f v as

/-- `and`/`or`, interpreter.py:571-579: both operands have been evaluated before -/
def logicVal (H : Host F) (op : Op) (l r : Val F) : Except Err (Val F) :=
  match truthy H l with
  | .error e => .error e
  | .ok b =>
    match op with
    | .and => if !b then .ok (boolVal false) else (truthy H r).map boolVal
    | _ => if b then .ok (boolVal true) else (truthy H r).map boolVal

/-- operators by kind -/
def opVal (H : Host F) (op : Op) (l r : Val F) : Except Err (Val F) :=
  match op with
  | .and => logicVal H .and l r
  | .or => logicVal H .or l r
  | _ => binVal H op l r

/-- evaluate the values of a dict in order -/
def evEntries (f : Fns F) (es : List (String × Expr F)) : M F (List (String × Data F)) :=
  foldM (fun d p => do
    let v ← f.ev p.2
    pure (dset d p.1 v.data)) [] es

/-- `_eval_identifier`, interpreter.py:559-564 -/
def evIdent (x : String) : M F (Val F) := fun st =>
  match lookup st.ctx.frames x with
  | some v => (.ok v, st)
  | none => (.error (.py (.rt "Undefined variable")), st)

/-- `_eval_list_comprehension`, interpreter.py:841-872 -/
def evComp (H : Host F) (f : Fns F) (elem : Expr F) (clauses : List (String × Expr F × List (Expr F))) : M F (Val F) :=
  if compMaxDepth < clauses.length then raise (.rt "List comprehension nesting depth exceeds maximum")
  else do
    let vs ← withScope (compClauses H f elem clauses [])
    pure (compVal vs)

/-- `_eval_python_expr`, interpreter.py:1016-1035 -/
def evPy (H : Host F) (code : Nat) (ty : Ty) : M F (Val F) := fun st =>
  match H.pyEval code (namespaceOf st.ctx.frames) with
  | .ok d => (.ok ⟨d, ty, false⟩, st)
  | .error e => (.error (.py e), st)

/-- `_evaluate`, interpreter.py:504-541 and 543-1035 -/
def evalStep (H : Host F) (P : Prog F) (f : Fns F) : Expr F → M F (Val F)
  | .lit l => pure (litVal l)
  | .ident x => evIdent x
  | .bin op a b => do
    let l ← f.ev a
    let r ← f.ev b
    lift (opVal H op l r)
  | .un op a => do
    let v ← f.ev a
    lift (unVal H op v)
  | .call fn args named => do
    let vs ← mapM f.ev args
    callFn H P f fn named vs
  | .method obj name args => do
    let r ← f.ev obj
    let vs ← mapM f.ev args
    match H.method r.ty name with
    | some g => lift (g r vs)
    | none => raise (.rt "Unknown method")
  | .member obj name => do
    let v ← f.ev obj
    lift (memberVal H v name)
  | .index obj i => do
    let v ← f.ev obj
    let j ← f.ev i
    lift (indexVal H v j)
  | .list es => do
    let vs ← mapM f.ev es
    pure (listLitVal vs)
  | .comp elem clauses => evComp H f elem clauses
  | .range a b => do
    let l ← f.ev a
    let r ← f.ev b
    lift (rangeVal H l r)
  | .dict es => do
    let d ← evEntries f es
    pure ⟨.dict d, .dict, false⟩
  | .cond c t e => do
    let b ← evTruthy H f c
    if b then f.ev t else f.ev e
  | .ifE c t e => do
    let b ← evTruthy H f c
    if b then f.ev t
    else match e with
      | some e => f.ev e
      | none => pure noneVal
  | .matchE subj arms => do
    let v ← f.ev subj
    runArms H f v arms
  | .lambda id => pure ⟨.opq id, .result (.prim .float), false⟩
  | .py code ty => evPy H code ty

/-- the iterations of a for loop, interpreter.py:371-377 -/
def forItems (f : Fns F) (x : String) (t : Ty) (body : List (Stmt F)) : List (Data F) → M F Unit
  | [] => pure ()
  | d :: ds => do
    setVar x ⟨d, t, false⟩
    runBody f body
    unlessRet (forItems f x t body ds)

/-- the items of a for loop, interpreter.py:357-363 -/
def forData (H : Host F) (v : Val F) : Except Err (List (Data F)) :=
  match iterItems H v.data with
  | some l => .ok l
  | none => if isListTy v.ty then .error (.other "TypeError") else .error (.rt "Cannot iterate")

/-- the elif/else part, interpreter.py:392-412 -/
def runElifs (H : Host F) (f : Fns F) (els : Option (List (Stmt F))) : List (Expr F × List (Stmt F)) → M F Unit
  | [] => match els with
    | some ss => withScope (runBody f ss)
    | none => pure ()
  | b :: bs => do
    let t ← evTruthy H f b.1
    if t then withScope (runBody f b.2) else runElifs H f els bs

/-- `update_variable`, or a diagnostic when there is no such variable, interpreter.py:328-329 -/
def assignVar (x : String) (v : Val F) : M F Unit := modCtx fun c =>
  match update c.frames x v with
  | some fr => { c with frames := fr }
  | none => { c with diags := c.diags ++ [x] }

/-- `_execute_python_block`, interpreter.py:430-459 -/
def exPy (H : Host F) (code : Nat) (result : Option String) : M F Unit := fun st =>
  match H.pyExec code (namespaceOf st.ctx.frames) with
  | .ok (some (d, t)) => setVar (result.getD "_python_result") ⟨d, t, false⟩ st
  | .ok none => (.ok (), st)
  | .error _ => (.error (.py (.rt "Python block error")), st)

/-- `_execute_statement`, interpreter.py:292-459 -/
def execStep (H : Host F) (f : Fns F) : Stmt F → M F Unit
  | .letS x e => do
    let v ← f.ev e
    setVar x v
  | .assign x e => do
    let v ← f.ev e
    assignVar x v
  | .assignTo e => do
    let _ ← f.ev e
    raise (.other "AttributeError")
  | .require c msg => do
    let b ← evTruthy H f c
    if b then pure () else do
      modCtx fun c => { c with fails := c.fails ++ [msg.getD "Constraint violated"] }
      note (.fail (msg.getD "Constraint violated"))
  | .emit e md => do
    let v ← f.ev e
    let md ← evEntries f md
    modCtx fun c => { c with emit := some (v, md) }
    note (.emit v)
  | .forS x it body => do
    let v ← f.ev it
    let items ← lift (forData H v)
    withScope (forItems f x (elemTy v.ty) body items)
  | .ifS c thn elifs els => do
    let b ← evTruthy H f c
    if b then withScope (runBody f thn) else runElifs H f els elifs
  | .pass => pure ()
  | .expr e => do
    let _ ← f.ev e
    pure ()
  | .ret none => modCtx fun c => { c with ret := some noneVal }
  | .ret (some e) => do
    let v ← f.ev e
    modCtx fun c => { c with ret := some v }
  | .block ss => withScope (runBody f ss)
  | .py code result => exPy H code result

/-- out of fuel -/
def noFuel {α : Type} : M F α := fun s => (.error .outOfFuel, s)

/-- the interpreter with a bound on the nesting of its recursion -/
def interp (H : Host F) (P : Prog F) : Nat → Fns F
  | 0 => ⟨fun _ => noFuel, fun _ => noFuel⟩
  | n + 1 => ⟨evalStep H P (interp H P n), execStep H (interp H P n)⟩

/-! ### running a command -/

/-- `ExecutionResult`, interpreter.py:49-69 (without provenance) -/
structure Result (F : Type) where
  success : Bool
  emit : Option (Val F × List (String × Data F)) := none
  fails : List String := []
  error : Option String := none

/-- inferred type of an unannotated parameter, interpreter.py:235-246 -/
def inferTy : Data F → Ty
  | .bool _ => .prim .bool
  | .int _ => .prim .int
  | .flt _ => .prim .float
  | .str _ => .prim .string
  | _ => .prim .float

/-- `_wrap_parameters`, interpreter.py:221-252; defaults are evaluated in an empty context -/
def wrapParams (f : Fns F) (raw : List (String × Data F)) : List (Param F) → List (String × Val F) →
    M F (List (String × Val F))
  | [], d => pure d
  | p :: ps, d => match dget raw p.name with
    | some r => wrapParams f raw ps (dset d p.name ⟨r, p.ann.getD (inferTy r), false⟩)
    | none => match p.default with
      | some e => do
        let v ← f.ev e
        wrapParams f raw ps (dset d p.name v)
      | none => wrapParams f raw ps d

/-- state before anything ran -/
def st0 : St F := { ctx := freshCtx 0 [], depth := 0, log := [] }

/-- `Interpreter.execute` from the point where native blocks have run, interpreter.py:149-219. The outer result is an
exception that escapes; the state is returned for its ghost log and diagnostics. -/
def execute (H : Host F) (P : Prog F) (fuel : Nat) (name : String) (raw : List (String × Data F)) :
    Except Exn (Result F) × St F :=
  match findCmd P name with
  | none => (.ok { success := false, error := some "not found" }, st0)
  | some cmd =>
    match wrapParams (interp H P fuel) raw cmd.params [] st0 with
    | (.error e, s) => (.error e, s)
    | (.ok params, s) =>
      match runBody (interp H P fuel) cmd.body { s with ctx := freshCtx s.depth params } with
      | (.error (.py (.rt m)), s') => (.ok { success := false, fails := s'.ctx.fails, error := some m }, s')
      | (.error e, s') => (.error e, s')
      | (.ok (), s') =>
        match applyHint H cmd s' with
        | (.error e, s'') => (.error e, s'')
        | (.ok (), s'') =>
          if !s''.ctx.fails.isEmpty then (.ok { success := false, emit := s''.ctx.emit, fails := s''.ctx.fails }, s'')
          else if s''.ctx.emit.isNone then (.ok { success := false, error := some "Command did not emit any geometry" }, s'')
          else (.ok { success := true, emit := s''.ctx.emit }, s'')

end Verif.Interp
