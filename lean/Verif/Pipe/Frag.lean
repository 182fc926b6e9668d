import Verif.Pipe.Model
import Verif.Checker.Scope
import Verif.Types.Props

/-!
# The core language: what "does not go wrong" means, and for which programs

`Exact t d` says that data `d` is what a user expects of a value of type `t`. `tameMod` is the fragment for which accepted
programs are shown not to go wrong: scalars and lists, operators, conditionals, loops, assignments, calls of commands and of
some built-in functions. What it leaves out is left out because accepted programs do go wrong there
(`Verif/Pipe/Witness.lean`), or because it needs geometry.
-/

namespace Verif.Pipe

open Verif.Types (Ty accepts)
open Verif.Parser (Name Mod Fn Param Expr Stmt Block)
open Verif.Checker (resolveName lookupBuiltin Sig required builtinRet nm)
open Verif.Interp (Data Val Host Err)

variable {F : Type}

/-- the data a value of a type may have; an integer is a float -/
def Exact : Ty → Data F → Prop
  | .prim .int, .int _ => True
  | .prim .float, .int _ => True
  | .prim .float, .flt _ => True
  | .prim .bool, .bool _ => True
  | .prim .string, .str _ => True
  | .list t, .list l => ∀ d ∈ l, Exact t d
  | _, _ => False

/-- a value fits a type: its own type is accepted there and is right for its data; a boolean has `is_truthy` -/
def Fits (t : Ty) (v : Val F) : Prop :=
  accepts t v.ty = true ∧ Exact v.ty v.data ∧ (v.ty = .prim .bool → v.emitted = false)

/-- exceptions that types cannot rule out; `X` are those of built-in functions -/
inductive Benign (X : Err → Prop) : Err → Prop
  | zeroDivision : Benign X (.other "ZeroDivisionError")
  | arithmetic : Benign X (.other "ArithmeticError")
  | value : Benign X (.other "ValueError")
  | index : Benign X (.other "IndexError")
  | depth : Benign X (.rt "Maximum recursion depth exceeded")
  | noEmit : Benign X (.rt "did not emit a value")
  | builtin {e : Err} : X e → Benign X e

/-- a scalar type -/
def isPrim : Ty → Bool
  | .prim _ => true
  | _ => false

/-- a type of lists of scalars -/
def isPrimList : Ty → Bool
  | .list t => isPrim t
  | _ => false

/-- scalars and lists of them -/
def core (t : Ty) : Bool := isPrim t || isPrimList t

/-- a name as the lexer gives it -/
def isText : Name → Bool
  | .text _ => true
  | _ => false

/-- a literal token with a value of its kind -/
def litOk (k : String) (v : Lexer.TVal) : Bool :=
  match v with
  | .int _ => k == "INT_LITERAL"
  | .float _ => k == "FLOAT_LITERAL"
  | .bool _ => k == "BOOL_LITERAL"
  | .text _ => k == "STRING_LITERAL"
  | .none => false

/-- a program and two sets of names: the built-in functions it may use, and the variables that hold lists -/
structure Lang where
  mod : Mod
  builtins : Name → Bool
  lists : Name → Bool

/-- a number literal: an exponent that is not negative -/
def isNumLit : Expr → Bool
  | .lit k v => litOk k v && (k == "INT_LITERAL" || k == "FLOAT_LITERAL")
  | _ => false

/-- literals of one kind -/
def litsOf (k : String) : List Expr → Bool
  | [] => true
  | .lit k' v :: es => (k' == k && litOk k v) && litsOf k es
  | _ => false

/-- a list of literals of one kind, not empty -/
def sameLits : List Expr → Bool
  | .lit k v :: es => litsOf k (.lit k v :: es)
  | _ => false

/-- a scalar annotation -/
def primOf : Option Parser.Ty → Option Types.Prim
  | some (.simple n) => match resolveName n with
    | some (.prim p) => some p
    | _ => none
  | _ => none

/-- an annotation of lists of scalars -/
def listAnn : Parser.Ty → Bool
  | .generic n [a] => n == nm "list" && (primOf (some a)).isSome
  | _ => false

/-- a call of a built-in function on scalars and lists with `k` arguments -/
def builtinOk (n : Name) (k : Nat) : Bool :=
  match lookupBuiltin n with
  | some sig => core sig.ret && sig.params.all (fun p => core p.2.1) && decide (k ≤ sig.params.length)
  | none => false

/-- a call of a command with `k` arguments: not too many, and the parameters left have defaults; its result is not a
boolean -/
def userOk (m : Mod) (n : Name) (k : Nat) : Bool :=
  match m.functions.find? (fun c => c.name == n) with
  | some c => (primOf c.ret).isSome && (primOf c.ret != some .bool) && decide (k ≤ c.params.length) &&
      (c.params.drop k).all (fun p => p.dflt.isSome)
  | none => false

/-- is it the name of a command -/
def isCmd (m : Mod) (n : Name) : Bool := m.functions.any fun c => c.name == n

/-- a call -/
def callOk (A : Lang) (n : Name) (k : Nat) : Bool :=
  isText n && (if A.builtins n then builtinOk n k && !isCmd A.mod n else (!Checker.isGlobal n && userOk A.mod n k))

/-- a variable -/
def varOk (A : Lang) (n : Name) : Bool := isText n && (!Checker.isGlobal n && !isCmd A.mod n)

/-- evidently a list; otherwise a scalar -/
def listE (A : Lang) : Expr → Bool
  | .ident n => A.lists n
  | .list _ => true
  | .range _ _ => true
  | .call f _ _ => match f with
    | .ident n => A.builtins n && match lookupBuiltin n with
      | some sig => isPrimList sig.ret
      | none => false
    | _ => false
  | .cond _ t _ => listE A t
  | _ => false

/-- the declaration of a variable: a list if the name is one of a list variable, otherwise a scalar -/
def declOk (A : Lang) (n : Name) (ty : Option Parser.Ty) (e : Expr) : Bool :=
  match ty with
  | none => listE A e == A.lists n
  | some a => if A.lists n then listAnn a else (primOf (some a)).isSome

mutual
/-- expressions -/
def tameE (A : Lang) : Expr → Bool
  | .lit k v => litOk k v
  | .ident n => varOk A n
  | .bin op l r => tameE A l && (tameE A r && ((op != "DOUBLE_STAR" || isNumLit r) && (op != "PLUS" || !listE A l)))
  | .un _ e => tameE A e
  | .call f args named => named.isEmpty && (tameEs A args && match f with
    | .ident n => callOk A n args.length
    | _ => false)
  | .index o i => tameE A o && tameE A i
  | .list es => sameLits es
  | .range a b => tameE A a && tameE A b
  | .cond c t e => tameE A c && (tameE A t && tameE A e)
  | _ => false
/-- lists of expressions -/
def tameEs (A : Lang) : List Expr → Bool
  | [] => true
  | e :: es => tameE A e && tameEs A es
/-- named expressions -/
def tameN (A : Lang) : List (Name × Expr) → Bool
  | [] => true
  | (_, e) :: es => tameE A e && tameN A es
end

/-- an expression that may be missing -/
def tameO (A : Lang) : Option Expr → Bool
  | none => true
  | some e => tameE A e

/-- the names a statement declares in its own scope -/
def binds : Stmt → List Name
  | .letS n _ _ => [n]
  | .varDecl n _ _ => [n]
  | _ => []

/-- the names a block declares in its own scope -/
def bindsB : Block → List Name
  | .mk ss _ => ss.flatMap binds

mutual
/-- statements; `D` are the names declared before, in this scope or around it -/
def tameS (A : Lang) (D : List Name) : Stmt → Bool
  | .letS n ty e => isText n && (declOk A n ty e && tameE A e)
  | .varDecl n ty e => match e with
    | some e => isText n && (declOk A n ty e && tameE A e)
    | none => false
  | .require c msg => tameE A c && tameO A msg
  | .assertS c msg => tameE A c && tameO A msg
  | .emit v md => tameE A v && tameN A md
  | .forS v it body => isText v && ((listE A it && !A.lists v) && (tameE A it && ((bindsB body).all (fun n => !(D.contains n)) &&
      tameB A (v :: D) body)))
  | .ifS c t elifs els => tameE A c && (tameB A D t && (tameL A D elifs && match els with
    | some b => tameB A D b
    | none => true))
  | .pass => true
  | .assign t v => match t with
    | .ident x => varOk A x && tameE A v
    | _ => false
  | .exprS e => tameE A e
  | _ => false
/-- blocks; the final expression of a block is not executed -/
def tameB (A : Lang) (D : List Name) : Block → Bool
  | .mk ss _ => tameSs A D ss
/-- statement lists -/
def tameSs (A : Lang) (D : List Name) : List Stmt → Bool
  | [] => true
  | s :: ss => tameS A D s && tameSs A (binds s ++ D) ss
/-- elif branches -/
def tameL (A : Lang) (D : List Name) : List (Expr × Block) → Bool
  | [] => true
  | (c, b) :: bs => tameE A c && (tameB A D b && tameL A D bs)
end

/-- a parameter: a scalar; its default is a literal -/
def tameP (A : Lang) (p : Param) : Bool :=
  isText p.name && !A.lists p.name && ((primOf p.ty).isSome && match p.dflt with
    | some (.lit k v) => litOk k v
    | some _ => false
    | none => true)

/-- a command -/
def tameFn (A : Lang) (c : Fn) : Bool :=
  isText c.name && (c.params.all (tameP A) && tameB A (c.params.map (·.name)) c.body)

/-- a module without native code -/
def tameMod (A : Lang) : Bool :=
  A.mod.blocks.isEmpty && (A.mod.natives.isEmpty && A.mod.functions.all (tameFn A))

/-- built-in functions keep the promises of the checker's table -/
def Honest (H : Host F) (B : Name → Bool) (X : Err → Prop) : Prop :=
  ∀ n sig vs, B n = true → lookupBuiltin n = some sig → required sig ≤ vs.length →
    List.Forall₂ Fits ((sig.params.map (·.2.1)).take vs.length) vs →
    ∃ g, H.builtin (str n) = some g ∧ (∀ v, g vs = .ok v → Fits sig.ret v) ∧ ∀ e, g vs = .error e → X e

/-- the arguments of a command given to `execute`: each fits the annotation, none without a default is missing -/
def RawOk (c : Fn) (raw : List (String × Data F)) : Prop :=
  ∀ p ∈ c.params, (∀ d, Dict.dget raw (str p.name) = some d → ∀ q, primOf p.ty = some q → Exact (.prim q) d) ∧
    (p.dflt = none → (Dict.dget raw (str p.name)).isSome = true)

end Verif.Pipe
