import Verif.Checker.Model

/-!
# The typing rules of the DSL

What it means for a module to be well typed, as inference rules: no error recovery, no limit on errors, no order in which
commands are checked. They use the assignability `accepts` and the common type `commonType` of `Verif/Types`, the tables of
built-in names, and scopes. `HasTy R Γ e t Γ'`: in the scopes `Γ` (innermost first) the expression `e` has type `t`;
`Γ'` are the scopes after it (an if expression declares the names of its blocks in the scope around it). `R` is the
declared result type of the command.
-/

namespace Verif.Checker

open Verif.Types (Ty accepts commonType isNumeric isPoint isVector)
open Verif.Parser (Name Expr Clause Stmt Block Pat Mod Fn Param NBlock NFn NDecl)

/-- the type an annotation denotes -/
inductive Denotes : Parser.Ty → Ty → Prop
  | simple {n : Name} {t : Ty} : resolveName n = some t → Denotes (.simple n) t
  | list {a : Parser.Ty} {t : Ty} : Denotes a t → Denotes (.generic (nm "list") [a]) (.list t)
  | opt {a : Parser.Ty} {t : Ty} : Denotes a t → Denotes (.opt a) (.opt t)

/-- an annotation that may be missing -/
inductive DenotesOpt : Option Parser.Ty → Ty → Prop
  | none : DenotesOpt none .unknown
  | some {a : Parser.Ty} {t : Ty} : Denotes a t → DenotesOpt (some a) t

/-- the result type of a binary operator -/
inductive BinTy : String → Ty → Ty → Ty → Prop
  | int {op : String} : op ∈ ["PLUS", "MINUS", "STAR", "PERCENT", "DOUBLE_STAR"] →
      BinTy op (.prim .int) (.prim .int) (.prim .int)
  | div {a b : Ty} : isNumeric a = true → isNumeric b = true → BinTy "SLASH" a b (.prim .float)
  | floorDiv {a b : Ty} : isNumeric a = true → isNumeric b = true → BinTy "DOUBLE_SLASH" a b (.prim .int)
  | floatL {op : String} {b : Ty} : op ∈ ["PLUS", "MINUS", "STAR", "PERCENT", "DOUBLE_STAR"] → isNumeric b = true →
      BinTy op (.prim .float) b (.prim .float)
  | floatR {op : String} : op ∈ ["PLUS", "MINUS", "STAR", "PERCENT", "DOUBLE_STAR"] →
      BinTy op (.prim .int) (.prim .float) (.prim .float)
  | geoScalar {op : String} {g : Types.Geo} {b : Ty} : op ∈ arithOps → isNumeric b = true → BinTy op (.geo g) b (.geo g)
  | geoSum {op : String} {g h : Types.Geo} : op = "PLUS" ∨ op = "MINUS" →
      BinTy op (.geo g) (.geo h) ((commonType (.geo g) (.geo h)).getD (.geo g))
  | concat {t u : Ty} : BinTy "PLUS" (.list t) (.list u) (.list ((commonType t u).getD t))
  | compare {op : String} {a b : Ty} : op ∈ ["LT", "GT", "LE", "GE"] → isNumeric a = true → isNumeric b = true →
      BinTy op a b (.prim .bool)
  | equal {op : String} {a b : Ty} : op = "EQ" ∨ op = "NE" → BinTy op a b (.prim .bool)
  | logic {op : String} : op = "AND" ∨ op = "OR" → BinTy op (.prim .bool) (.prim .bool) (.prim .bool)

/-- the result type of a unary operator -/
inductive UnTy : String → Ty → Ty → Prop
  | not : UnTy "NOT" (.prim .bool) (.prim .bool)
  | num {a : Ty} : isNumeric a = true → UnTy "MINUS" a a
  | geo {g : Types.Geo} : UnTy "MINUS" (.geo g) (.geo g)

/-- the type of the elements so far and of one more -/
inductive ElemTy : Ty → Ty → Ty → Prop
  | fits {t u : Ty} : accepts t u = true → ElemTy t u t
  | widen {t u c : Ty} : accepts t u = false → commonType t u = some c → ElemTy t u c

/-- the type of a ternary from those of its branches -/
inductive CondTy : Ty → Ty → Ty → Prop
  | common {a b c : Ty} : commonType a b = some c → CondTy a b c

/-- the type of an if expression from those of its blocks -/
inductive IfTy : Option Ty → Option Ty → Ty → Prop
  | both {x y : Ty} : IfTy (some x) (some y) ((commonType x y).getD x)
  | noElse {x : Ty} : IfTy (some x) none x
  | noThen {y : Option Ty} : IfTy none y .unknown

/-- declare a name in the innermost scope unless it is declared there -/
def bindFree (Γ : List Frame) (n : Name) (k : Kind) (t : Ty) : List Frame :=
  match Γ with
  | [] => []
  | f :: fs => if (f n).isSome then f :: fs else setTop (f :: fs) n ⟨k, t⟩

/-- is the name free in the innermost scope -/
def topFree (Γ : List Frame) (n : Name) : Prop := ∃ f fs, Γ = f :: fs ∧ f n = none

/-- the type of a declared variable: that of its annotation, which must accept the value, else that of the value -/
inductive DeclTy : Option Parser.Ty → Ty → Ty → Prop
  | infer {t : Ty} : DeclTy none t t
  | annot {a : Parser.Ty} {t d : Ty} : Denotes a d → accepts d t = true → DeclTy (some a) t d

mutual
/-- expressions -/
inductive HasTy (R : Option Parser.Ty) : List Frame → Expr → Ty → List Frame → Prop
  | lit {Γ : List Frame} {k : String} {v : Lexer.TVal} : litTy k ≠ .error → HasTy R Γ (.lit k v) (litTy k) Γ
  | var {Γ : List Frame} {n : Name} {y : Symb} : lookup Γ n = some y → HasTy R Γ (.ident n) y.ty Γ
  | global {Γ : List Frame} {n : Name} : lookup Γ n = none → (resolveName n).isSome = true ∨ (lookupBuiltin n).isSome = true →
      HasTy R Γ (.ident n) .unknown Γ
  | bin {Γ Γ1 Γ2 : List Frame} {op : String} {l r : Expr} {a b t : Ty} : HasTy R Γ l a Γ1 → HasTy R Γ1 r b Γ2 →
      BinTy op a b t → HasTy R Γ (.bin op l r) t Γ2
  | un {Γ Γ1 : List Frame} {op : String} {e : Expr} {a t : Ty} : HasTy R Γ e a Γ1 → UnTy op a t →
      HasTy R Γ (.un op e) t Γ1
  | builtin {Γ Γ1 Γ2 : List Frame} {n : Name} {args : List Expr} {named : List (Name × Expr)} {sig : Sig} {ts : List Ty} :
      lookupBuiltin n = some sig → required sig ≤ args.length → ArgsTy R Γ (sig.params.map (·.2.1)) args ts Γ1 →
      NamedOk R Γ1 (some (sig.params.map fun p => nm p.1)) named Γ2 →
      HasTy R Γ (.call (.ident n) args named) (builtinRet n sig ts) Γ2
  | constructor {Γ Γ1 Γ2 : List Frame} {n : Name} {args : List Expr} {named : List (Name × Expr)} {t : Ty} {ts : List Ty} :
      lookupBuiltin n = none → resolveName n = some t → ArgsTy R Γ [] args ts Γ1 → NamedOk R Γ1 none named Γ2 →
      HasTy R Γ (.call (.ident n) args named) t Γ2
  | user {Γ Γ1 : List Frame} {n : Name} {args : List Expr} {named : List (Name × Expr)} {y : Symb} {ps ts : List Ty} {r : Ty} :
      lookupBuiltin n = none → resolveName n = none → lookup Γ n = some y → y.kind = .cmd ∨ y.kind = .func →
      y.ty = fnTy ps r → ArgsTy R Γ ps args ts Γ1 → HasTy R Γ (.call (.ident n) args named) r Γ1
  | indirect {Γ Γ1 : List Frame} {f : Expr} {args : List Expr} {named : List (Name × Expr)} {t : Ty} :
      (∀ n, f ≠ .ident n) → HasTy R Γ f t Γ1 → HasTy R Γ (.call f args named) .unknown Γ1
  | method {Γ Γ1 Γ2 : List Frame} {o : Expr} {m : Name} {args : List Expr} {named : List (Name × Expr)} {t : Ty} {sig : Sig}
      {ts : List Ty} : HasTy R Γ o t Γ1 → methodSig t m = some sig → ArgsTy R Γ1 (sig.params.map (·.2.1)) args ts Γ2 →
      HasTy R Γ (.method o m args named) sig.ret Γ2
  | member {Γ Γ1 : List Frame} {o : Expr} {m : Name} {t u : Ty} : HasTy R Γ o t Γ1 → memberTy t m = some u →
      HasTy R Γ (.member o m) u Γ1
  | index {Γ Γ1 Γ2 : List Frame} {o i : Expr} {t : Ty} : HasTy R Γ o (.list t) Γ1 → HasTy R Γ1 i (.prim .int) Γ2 →
      HasTy R Γ (.index o i) t Γ2
  | empty {Γ : List Frame} : HasTy R Γ (.list []) (.list .unknown) Γ
  | list {Γ Γ1 Γ2 : List Frame} {e : Expr} {es : List Expr} {t u : Ty} : HasTy R Γ e t Γ1 → ElemsTy R Γ1 t es u Γ2 →
      HasTy R Γ (.list (e :: es)) (.list u) Γ2
  | comp {Γ Γ1 Γ2 : List Frame} {e : Expr} {cs : List Clause} {t : Ty} : ClausesOk R (emptyFrame :: Γ) cs Γ1 →
      HasTy R Γ1 e t Γ2 → HasTy R Γ (.comp e cs) (.list t) Γ
  | range {Γ Γ1 Γ2 : List Frame} {a b : Expr} : HasTy R Γ a (.prim .int) Γ1 → HasTy R Γ1 b (.prim .int) Γ2 →
      HasTy R Γ (.range a b) (.list (.prim .int)) Γ2
  | dict {Γ Γ1 : List Frame} {es : List (Name × Expr)} : NamedOk R Γ none es Γ1 → HasTy R Γ (.dict es) .dict Γ1
  | lam {Γ Γ1 : List Frame} {ps : List Name} {body : Expr} {t : Ty} :
      HasTy R (ps.foldl (fun Γ p => bindFree Γ p .param .unknown) (emptyFrame :: Γ)) body t Γ1 →
      HasTy R Γ (.lam ps body) (fnTy (ps.map fun _ => .unknown) t) Γ
  | cond {Γ Γ1 Γ2 Γ3 : List Frame} {c a b : Expr} {x y t : Ty} : HasTy R Γ c (.prim .bool) Γ1 → HasTy R Γ1 a x Γ2 →
      HasTy R Γ2 b y Γ3 → CondTy x y t → HasTy R Γ (.cond c a b) t Γ3
  | ifNone {Γ Γ1 Γ2 : List Frame} {c : Expr} {b : Block} {elifs : List (Expr × Block)} {x : Option Ty} {t : Ty} :
      HasTy R Γ c (.prim .bool) Γ1 → BlockTy R Γ1 b x Γ2 → IfTy x none t → HasTy R Γ (.ifE c b elifs none) t Γ2
  | ifSome {Γ Γ1 Γ2 Γ3 : List Frame} {c : Expr} {b d : Block} {elifs : List (Expr × Block)} {x y : Option Ty} {t : Ty} :
      HasTy R Γ c (.prim .bool) Γ1 → BlockTy R Γ1 b x Γ2 → BlockTy R Γ2 d y Γ3 → IfTy x y t →
      HasTy R Γ (.ifE c b elifs (some d)) t Γ3
  | matchE {Γ Γ1 Γ2 : List Frame} {s : Expr} {arms : List (Pat × Expr)} {t : Ty} {r : Option Ty} : HasTy R Γ s t Γ1 →
      ArmsTy R Γ1 none arms r Γ2 → HasTy R Γ (.matchE s arms) (r.getD .unknown) Γ2
/-- arguments against the types of the parameters; more arguments than parameters are allowed -/
inductive ArgsTy (R : Option Parser.Ty) : List Frame → List Ty → List Expr → List Ty → List Frame → Prop
  | nil {Γ : List Frame} {ps : List Ty} : ArgsTy R Γ ps [] [] Γ
  | extra {Γ Γ1 Γ2 : List Frame} {e : Expr} {es : List Expr} {t : Ty} {ts : List Ty} : HasTy R Γ e t Γ1 →
      ArgsTy R Γ1 [] es ts Γ2 → ArgsTy R Γ [] (e :: es) (t :: ts) Γ2
  | cons {Γ Γ1 Γ2 : List Frame} {p : Ty} {ps : List Ty} {e : Expr} {es : List Expr} {t : Ty} {ts : List Ty} :
      HasTy R Γ e t Γ1 → accepts p t = true → ArgsTy R Γ1 ps es ts Γ2 → ArgsTy R Γ (p :: ps) (e :: es) (t :: ts) Γ2
/-- named arguments; with the allowed names, if restricted -/
inductive NamedOk (R : Option Parser.Ty) : List Frame → Option (List Name) → List (Name × Expr) → List Frame → Prop
  | nil {Γ : List Frame} {al : Option (List Name)} : NamedOk R Γ al [] Γ
  | cons {Γ Γ1 Γ2 : List Frame} {al : Option (List Name)} {k : Name} {e : Expr} {es : List (Name × Expr)} {t : Ty} :
      HasTy R Γ e t Γ1 → (∀ l, al = some l → k ∈ l) → NamedOk R Γ1 al es Γ2 → NamedOk R Γ al ((k, e) :: es) Γ2
/-- the elements of a list literal after the first -/
inductive ElemsTy (R : Option Parser.Ty) : List Frame → Ty → List Expr → Ty → List Frame → Prop
  | nil {Γ : List Frame} {t : Ty} : ElemsTy R Γ t [] t Γ
  | cons {Γ Γ1 Γ2 : List Frame} {t u v w : Ty} {e : Expr} {es : List Expr} : HasTy R Γ e u Γ1 → ElemTy t u v →
      ElemsTy R Γ1 v es w Γ2 → ElemsTy R Γ t (e :: es) w Γ2
/-- comprehension clauses -/
inductive ClausesOk (R : Option Parser.Ty) : List Frame → List Clause → List Frame → Prop
  | nil {Γ : List Frame} : ClausesOk R Γ [] Γ
  | cons {Γ Γ1 Γ2 Γ3 : List Frame} {v : Name} {it : Expr} {conds : List Expr} {cs : List Clause} {t : Ty} :
      HasTy R Γ it t Γ1 → CondsOk R (bindFree Γ1 v .var (elemTy t)) conds Γ2 → ClausesOk R Γ2 cs Γ3 →
      ClausesOk R Γ (.mk v it conds :: cs) Γ3
/-- the conditions of a clause -/
inductive CondsOk (R : Option Parser.Ty) : List Frame → List Expr → List Frame → Prop
  | nil {Γ : List Frame} : CondsOk R Γ [] Γ
  | cons {Γ Γ1 Γ2 : List Frame} {e : Expr} {es : List Expr} : HasTy R Γ e (.prim .bool) Γ1 → CondsOk R Γ1 es Γ2 →
      CondsOk R Γ (e :: es) Γ2
/-- the arms of a match: the type so far and at the end -/
inductive ArmsTy (R : Option Parser.Ty) : List Frame → Option Ty → List (Pat × Expr) → Option Ty → List Frame → Prop
  | nil {Γ : List Frame} {r : Option Ty} : ArmsTy R Γ r [] r Γ
  | cons {Γ Γ1 Γ2 : List Frame} {r r' : Option Ty} {p : Pat} {e : Expr} {as : List (Pat × Expr)} {a : Ty} :
      HasTy R Γ e a Γ1 → ArmsTy R Γ1 (some (armTy r a)) as r' Γ2 → ArmsTy R Γ r ((p, e) :: as) r' Γ2
/-- statements; there is no rule for `return` and for a declaration without a value -/
inductive StmtOk (R : Option Parser.Ty) : List Frame → Stmt → List Frame → Prop
  | letS {Γ Γ1 : List Frame} {n : Name} {ty : Option Parser.Ty} {e : Expr} {t u : Ty} : HasTy R Γ e t Γ1 →
      DeclTy ty t u → topFree Γ1 n → StmtOk R Γ (.letS n ty e) (setTop Γ1 n ⟨.var, u⟩)
  | varDecl {Γ Γ1 : List Frame} {n : Name} {ty : Option Parser.Ty} {e : Expr} {t u : Ty} : HasTy R Γ e t Γ1 →
      DeclTy ty t u → topFree Γ1 n → StmtOk R Γ (.varDecl n ty (some e)) (setTop Γ1 n ⟨.var, u⟩)
  | assign {Γ Γ1 Γ2 : List Frame} {l e : Expr} {t u : Ty} : HasTy R Γ l t Γ1 → HasTy R Γ1 e u Γ2 → accepts t u = true →
      StmtOk R Γ (.assign l e) Γ2
  | require {Γ Γ1 : List Frame} {c : Expr} : HasTy R Γ c (.prim .bool) Γ1 → StmtOk R Γ (.require c none) Γ1
  | requireMsg {Γ Γ1 Γ2 : List Frame} {c m : Expr} : HasTy R Γ c (.prim .bool) Γ1 → HasTy R Γ1 m (.prim .string) Γ2 →
      StmtOk R Γ (.require c (some m)) Γ2
  | assertS {Γ Γ1 : List Frame} {c : Expr} : HasTy R Γ c (.prim .bool) Γ1 → StmtOk R Γ (.assertS c none) Γ1
  | assertMsg {Γ Γ1 Γ2 : List Frame} {c m : Expr} : HasTy R Γ c (.prim .bool) Γ1 → HasTy R Γ1 m (.prim .string) Γ2 →
      StmtOk R Γ (.assertS c (some m)) Γ2
  | emit {Γ Γ1 Γ2 : List Frame} {v : Expr} {md : List (Name × Expr)} {t : Ty} : HasTy R Γ v t Γ1 →
      (∀ a, R = some a → ∃ r, Denotes a r ∧ accepts r t = true) → NamedOk R Γ1 none md Γ2 → StmtOk R Γ (.emit v md) Γ2
  | forS {Γ Γ1 Γ2 : List Frame} {v : Name} {it : Expr} {body : Block} {t : Ty} {x : Option Ty} : HasTy R Γ it t Γ1 →
      BlockTy R (bindFree (emptyFrame :: Γ1) v .var (elemTy t)) body x Γ2 → StmtOk R Γ (.forS v it body) Γ1
  | ifNone {Γ Γ1 Γ2 Γ3 : List Frame} {c : Expr} {b : Block} {elifs : List (Expr × Block)} {x : Option Ty} :
      HasTy R Γ c (.prim .bool) Γ1 → BlockTy R (emptyFrame :: Γ1) b x Γ2 → ElifsOk R Γ1 elifs Γ3 →
      StmtOk R Γ (.ifS c b elifs none) Γ3
  | ifSome {Γ Γ1 Γ2 Γ3 Γ4 : List Frame} {c : Expr} {b d : Block} {elifs : List (Expr × Block)} {x y : Option Ty} :
      HasTy R Γ c (.prim .bool) Γ1 → BlockTy R (emptyFrame :: Γ1) b x Γ2 → ElifsOk R Γ1 elifs Γ3 →
      BlockTy R (emptyFrame :: Γ3) d y Γ4 → StmtOk R Γ (.ifS c b elifs (some d)) Γ3
  | pass {Γ : List Frame} : StmtOk R Γ .pass Γ
  | exprS {Γ Γ1 : List Frame} {e : Expr} {t : Ty} : HasTy R Γ e t Γ1 → StmtOk R Γ (.exprS e) Γ1
  | py {Γ : List Frame} {code : List (List Char)} : StmtOk R Γ (.py code) Γ
/-- elif branches of an if statement -/
inductive ElifsOk (R : Option Parser.Ty) : List Frame → List (Expr × Block) → List Frame → Prop
  | nil {Γ : List Frame} : ElifsOk R Γ [] Γ
  | cons {Γ Γ1 Γ2 Γ3 : List Frame} {c : Expr} {b : Block} {bs : List (Expr × Block)} {x : Option Ty} :
      HasTy R Γ c (.prim .bool) Γ1 → BlockTy R (emptyFrame :: Γ1) b x Γ2 → ElifsOk R Γ1 bs Γ3 →
      ElifsOk R Γ ((c, b) :: bs) Γ3
/-- blocks: the type of their last expression, if they end with one -/
inductive BlockTy (R : Option Parser.Ty) : List Frame → Block → Option Ty → List Frame → Prop
  | none {Γ Γ1 : List Frame} {ss : List Stmt} : StmtsOk R Γ ss Γ1 → BlockTy R Γ (.mk ss none) none Γ1
  | some {Γ Γ1 Γ2 : List Frame} {ss : List Stmt} {e : Expr} {t : Ty} : StmtsOk R Γ ss Γ1 → HasTy R Γ1 e t Γ2 →
      BlockTy R Γ (.mk ss (some e)) (some t) Γ2
/-- statements in order -/
inductive StmtsOk (R : Option Parser.Ty) : List Frame → List Stmt → List Frame → Prop
  | nil {Γ : List Frame} : StmtsOk R Γ [] Γ
  | cons {Γ Γ1 Γ2 : List Frame} {s : Stmt} {ss : List Stmt} : StmtOk R Γ s Γ1 → StmtsOk R Γ1 ss Γ2 →
      StmtsOk R Γ (s :: ss) Γ2
end

/-- the parameters of a command: distinct names; defaults fit -/
inductive ParamsOk (R : Option Parser.Ty) : List Frame → List Param → List Frame → Prop
  | nil {Γ : List Frame} : ParamsOk R Γ [] Γ
  | plain {Γ Γ1 : List Frame} {p : Param} {ps : List Param} {t : Ty} : DenotesOpt p.ty t → topFree Γ p.name →
      p.dflt = none → ParamsOk R (setTop Γ p.name ⟨.param, t⟩) ps Γ1 → ParamsOk R Γ (p :: ps) Γ1
  | dflt {Γ Γ1 Γ2 : List Frame} {p : Param} {ps : List Param} {e : Expr} {t u : Ty} : DenotesOpt p.ty t →
      topFree Γ p.name → p.dflt = some e → HasTy R (setTop Γ p.name ⟨.param, t⟩) e u Γ1 → accepts t u = true →
      ParamsOk R Γ1 ps Γ2 → ParamsOk R Γ (p :: ps) Γ2

/-- a command in a global scope -/
def CmdOk (g : Frame) (c : Fn) : Prop :=
  ∃ Γ Γ' x, ParamsOk c.ret [emptyFrame, g] c.params Γ ∧ BlockTy c.ret Γ c.body x Γ'

/-- a global declaration: name, kind, parameters, result annotation -/
structure Item where
  name : Name
  kind : Kind
  params : List Param
  ret : Option Parser.Ty

/-- the global declarations of a module -/
def items (m : Mod) : List Item :=
  (m.blocks.flatMap fun b => b.decls.map fun d => ⟨d.name, .func, d.params, some d.ret⟩) ++
  (m.natives.map fun f => ⟨f.name, .func, f.params, some f.ret⟩) ++
  (m.functions.map fun c => ⟨c.name, .cmd, c.params, c.ret⟩)

/-- the symbol a declaration stands for -/
def ItemSym (i : Item) (e : Name × Symb) : Prop :=
  ∃ ps r, e = (i.name, ⟨i.kind, fnTy ps r⟩) ∧ List.Forall₂ (fun p t => DenotesOpt p.ty t) i.params ps ∧ DenotesOpt i.ret r

/-- a scope given by a list of entries -/
def frameOf (G : List (Name × Symb)) : Frame := Verif.Dict.dget G

/-- a well-typed module: every global declaration denotes a symbol, their names differ, and every command is well typed
in the scope of all of them -/
def ModOk (m : Mod) : Prop :=
  ∃ G, List.Forall₂ ItemSym (items m) G ∧ (G.map (·.1)).Nodup ∧ ∀ c ∈ m.functions, CmdOk (frameOf G) c

end Verif.Checker
