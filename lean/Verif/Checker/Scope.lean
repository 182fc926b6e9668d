import Verif.Checker.Total

/-!
# C154: names are declared before they are used

A specification of scoping that knows nothing of types: `undefE full S e` lists the names used in `e` that are neither in
`S` nor names of types or built-in functions. With `full`, every part of the text counts and the names declared in the
blocks of an if expression are visible in these blocks only. Without, it is what the checker does: named arguments of calls
of commands and of methods, the arguments of calls whose callee is not a name and the `elif` branches of if expressions
are skipped, and the blocks of an if expression declare their names in the block around them (`declE`).
-/

namespace Verif.Checker

open Verif.Types (Ty)
open Verif.Parser (Name Expr Clause Stmt Block Pat Mod Fn Param NBlock NFn NDecl)

/-- the name of a type or a built-in function -/
def isGlobal (n : Name) : Bool := (resolveName n).isSome || (lookupBuiltin n).isSome

/-- a use of a name -/
def undefN (S : List Name) (n : Name) : List Name := if n ∈ S ∨ isGlobal n = true then [] else [n]

mutual
/-- the names an expression declares in the block around it -/
def declE (full : Bool) : Expr → List Name
  | .lit _ _ => []
  | .ident _ => []
  | .bin _ l r => declE full r ++ declE full l
  | .un _ e => declE full e
  | .call f args named => match f with
    | .ident n => if userName n then onlyIf full (declN full named) ++ declEs full args
      else declN full named ++ declEs full args
    | f => onlyIf full (declN full named ++ declEs full args) ++ declE full f
  | .method o _ args named => onlyIf full (declN full named) ++ (declEs full args ++ declE full o)
  | .member o _ => declE full o
  | .index o i => declE full i ++ declE full o
  | .list es => declEs full es
  | .comp _ _ => []
  | .range a b => declE full b ++ declE full a
  | .dict es => declN full es
  | .lam _ _ => []
  | .cond c t e => declE full e ++ (declE full t ++ declE full c)
  | .ifE c t _ els => onlyIf (!full) ((match els with | some b => declB full b | none => []) ++ declB full t) ++ declE full c
  | .matchE s arms => declA full arms ++ declE full s
/-- a list of expressions -/
def declEs (full : Bool) : List Expr → List Name
  | [] => []
  | e :: es => declEs full es ++ declE full e
/-- named expressions -/
def declN (full : Bool) : List (Name × Expr) → List Name
  | [] => []
  | (_, e) :: es => declN full es ++ declE full e
/-- comprehension clauses -/
def declC (full : Bool) : List Clause → List Name
  | [] => []
  | .mk v it conds :: cs => declC full cs ++ (declEs full conds ++ (v :: declE full it))
/-- match arms -/
def declA (full : Bool) : List (Pat × Expr) → List Name
  | [] => []
  | (_, e) :: as => declA full as ++ declE full e
/-- the conditions of elif branches -/
def declL (full : Bool) : List (Expr × Block) → List Name
  | [] => []
  | (c, _) :: bs => declL full bs ++ declE full c
/-- a block -/
def declB (full : Bool) : Block → List Name
  | .mk ss final => (match final with | some e => declE full e | none => []) ++ declSs full ss
/-- statements -/
def declSs (full : Bool) : List Stmt → List Name
  | [] => []
  | s :: ss => declSs full ss ++ declS full s
/-- a statement -/
def declS (full : Bool) : Stmt → List Name
  | .letS n _ e => n :: declE full e
  | .varDecl n _ e => n :: (match e with | some e => declE full e | none => [])
  | .require c msg => (match msg with | some e => declE full e | none => []) ++ declE full c
  | .assertS c msg => (match msg with | some e => declE full e | none => []) ++ declE full c
  | .emit v md => declN full md ++ declE full v
  | .forS _ it _ => declE full it
  | .ifS c _ elifs _ => declL full elifs ++ declE full c
  | .pass => []
  | .ret e => (match e with | some e => declE full e | none => [])
  | .py _ => []
  | .assign t v => declE full v ++ declE full t
  | .exprS e => declE full e
end

mutual
/-- the names used in an expression without a declaration -/
def undefE (full : Bool) (S : List Name) : Expr → List Name
  | .lit _ _ => []
  | .ident n => undefN S n
  | .bin _ l r => undefE full S l ++ undefE full (declE full l ++ S) r
  | .un _ e => undefE full S e
  | .call f args named => match f with
    | .ident n => undefN S n ++ (undefEs full S args ++
        onlyIf (full || !userName n) (undefNs full (declEs full args ++ S) named))
    | f => undefE full S f ++ onlyIf full (undefEs full (declE full f ++ S) args ++
        undefNs full (declEs full args ++ (declE full f ++ S)) named)
  | .method o _ args named => undefE full S o ++ (undefEs full (declE full o ++ S) args ++
      onlyIf full (undefNs full (declEs full args ++ (declE full o ++ S)) named))
  | .member o _ => undefE full S o
  | .index o i => undefE full S o ++ undefE full (declE full o ++ S) i
  | .list es => undefEs full S es
  | .comp e cs => undefC full S cs ++ undefE full (declC full cs ++ S) e
  | .range a b => undefE full S a ++ undefE full (declE full a ++ S) b
  | .dict es => undefNs full S es
  | .lam ps b => undefE full (ps ++ S) b
  | .cond c t e => undefE full S c ++ (undefE full (declE full c ++ S) t ++
      undefE full (declE full t ++ (declE full c ++ S)) e)
  | .ifE c t elifs els => undefE full S c ++ (undefB full (declE full c ++ S) t ++
      (onlyIf full (undefL full (declE full c ++ S) elifs) ++
      match els with
      | some b => undefB full (onlyIf (!full) (declB full t) ++ (declE full c ++ S)) b
      | none => []))
  | .matchE s arms => undefE full S s ++ undefA full (declE full s ++ S) arms
/-- in a list of expressions -/
def undefEs (full : Bool) (S : List Name) : List Expr → List Name
  | [] => []
  | e :: es => undefE full S e ++ undefEs full (declE full e ++ S) es
/-- in named expressions -/
def undefNs (full : Bool) (S : List Name) : List (Name × Expr) → List Name
  | [] => []
  | (_, e) :: es => undefE full S e ++ undefNs full (declE full e ++ S) es
/-- in comprehension clauses -/
def undefC (full : Bool) (S : List Name) : List Clause → List Name
  | [] => []
  | .mk v it conds :: cs => undefE full S it ++ (undefEs full (v :: (declE full it ++ S)) conds ++
      undefC full (declEs full conds ++ (v :: (declE full it ++ S))) cs)
/-- in match arms; the checker declares no names of patterns -/
def undefA (full : Bool) (S : List Name) : List (Pat × Expr) → List Name
  | [] => []
  | (p, e) :: as => undefE full (onlyIf full (match p with | .ident n => [n] | _ => []) ++ S) e ++
      undefA full (declE full e ++ S) as
/-- in elif branches -/
def undefL (full : Bool) (S : List Name) : List (Expr × Block) → List Name
  | [] => []
  | (c, b) :: bs => undefE full S c ++ (undefB full (declE full c ++ S) b ++ undefL full (declE full c ++ S) bs)
/-- in a block -/
def undefB (full : Bool) (S : List Name) : Block → List Name
  | .mk ss final => undefSs full S ss ++ match final with | some e => undefE full (declSs full ss ++ S) e | none => []
/-- in statements -/
def undefSs (full : Bool) (S : List Name) : List Stmt → List Name
  | [] => []
  | s :: ss => undefS full S s ++ undefSs full (declS full s ++ S) ss
/-- in a statement -/
def undefS (full : Bool) (S : List Name) : Stmt → List Name
  | .letS _ _ e => undefE full S e
  | .varDecl _ _ e => match e with | some e => undefE full S e | none => []
  | .require c msg => undefE full S c ++ match msg with | some e => undefE full (declE full c ++ S) e | none => []
  | .assertS c msg => undefE full S c ++ match msg with | some e => undefE full (declE full c ++ S) e | none => []
  | .emit v md => undefE full S v ++ undefNs full (declE full v ++ S) md
  | .forS v it body => undefE full S it ++ undefB full (v :: (declE full it ++ S)) body
  | .ifS c t elifs els => undefE full S c ++ (undefB full (declE full c ++ S) t ++ (undefL full (declE full c ++ S) elifs ++
      match els with | some b => undefB full (declL full elifs ++ (declE full c ++ S)) b | none => []))
  | .pass => []
  | .ret e => match e with | some e => undefE full S e | none => []
  | .py _ => []
  | .assign t v => undefE full S t ++ undefE full (declE full t ++ S) v
  | .exprS e => undefE full S e
end

/-- in the defaults of parameters: a parameter is visible in its own default and the following ones -/
def undefPs (full : Bool) (S : List Name) : List Param → List Name
  | [] => []
  | p :: ps => (match p.dflt with | some e => undefE full (p.name :: S) e | none => []) ++
      undefPs full ((match p.dflt with | some e => declE full e | none => []) ++ (p.name :: S)) ps

/-- the names the parameters declare -/
def declPs (full : Bool) : List Param → List Name
  | [] => []
  | p :: ps => declPs full ps ++ ((match p.dflt with | some e => declE full e | none => []) ++ [p.name])

/-- in a command -/
def undefFn (full : Bool) (S : List Name) (c : Fn) : List Name :=
  undefPs full S c.params ++ undefB full (declPs full c.params ++ S) c.body

/-- the global names of a module -/
def globals (m : Mod) : List Name :=
  m.blocks.flatMap (fun b => b.decls.map (·.name)) ++ m.natives.map (·.name) ++ m.functions.map (·.name)

/-- the names used in a module without a declaration -/
def undefMod (full : Bool) (m : Mod) : List Name := m.functions.flatMap (undefFn full (globals m))

/-! ### the checker enforces this -/

/-- the scopes have no other names -/
def Names (Γ : List Frame) (S : List Name) : Prop := ∀ n, (lookup Γ n).isSome = true → n ∈ S

theorem Names.setTop {Γ : List Frame} {S : List Name} (h : Names Γ S) (n : Name) (y : Symb) :
    Names (setTop Γ n y) (n :: S) := by
  intro x hx
  cases Γ with
  | nil => exact .tail _ (h x hx)
  | cons f fs =>
    by_cases hxn : x = n
    · exact hxn ▸ List.mem_cons_self ..
    · refine .tail _ (h x ?_)
      simpa [Checker.setTop, lookup, hxn] using hx

theorem Names.empty {Γ : List Frame} {S : List Name} (h : Names Γ S) : Names (emptyFrame :: Γ) S := by
  intro x hx
  exact h x (by simpa [lookup, emptyFrame] using hx)

theorem Names.mono {Γ : List Frame} {S T : List Name} (h : Names Γ S) (hs : S ⊆ T) : Names Γ T :=
  fun n hn => hs (h n hn)

theorem Names.bindFree {Γ : List Frame} {S : List Name} (h : Names Γ S) (n : Name) (k : Kind) (t : Ty) :
    Names (bindFree Γ n k t) (n :: S) := by
  cases Γ with
  | nil => exact fun x hx => by simp [Checker.bindFree, lookup] at hx
  | cons f fs =>
    unfold Checker.bindFree
    dsimp only
    split
    · exact fun x hx => .tail _ (h x hx)
    · exact Names.setTop h n ⟨k, t⟩

theorem Names.params {S : List Name} : ∀ (ps : List Name) {Γ : List Frame}, Names Γ S →
    Names (ps.foldl (fun Γ p => Checker.bindFree Γ p .param .unknown) Γ) (ps ++ S)
  | [], _, h => h
  | p :: ps, Γ, h => by
    have := Names.params ps (h.bindFree p .param .unknown)
    refine this.mono ?_
    intro x hx
    simp only [List.mem_append, List.mem_cons] at hx ⊢
    tauto

theorem undefN_lookup {Γ : List Frame} {S : List Name} (h : Names Γ S) {n : Name} {y : Symb} (hn : lookup Γ n = some y) :
    undefN S n = [] := by
  have := h n (by rw [hn]; rfl)
  simp [undefN, this]

theorem undefN_global {S : List Name} {n : Name} (h : isGlobal n = true) : undefN S n = [] := by simp [undefN, h]

theorem undef_indirect {S : List Name} {f : Expr} {args : List Expr} {named : List (Name × Expr)} (h : ∀ n, f ≠ .ident n) :
    undefE false S (.call f args named) = undefE false S f := by
  rw [undefE]
  · simp [onlyIf]
  · exact h

theorem decl_indirect {f : Expr} {args : List Expr} {named : List (Name × Expr)} (h : ∀ n, f ≠ .ident n) :
    declE false (.call f args named) = declE false f := by
  rw [declE]
  · simp [onlyIf]
  · exact h

set_option maxHeartbeats 2000000 in
mutual
theorem scopeE {R : Option Parser.Ty} : ∀ (e : Expr) {Γ Γ' : List Frame} {t : Ty} {S : List Name}, Names Γ S →
    HasTy R Γ e t Γ' → undefE false S e = [] ∧ Names Γ' (declE false e ++ S)
  | .lit _ _, Γ, Γ', t, S, hS, h => by
    cases h
    exact ⟨by simp [undefE], by simpa [declE] using hS⟩
  | .ident n, Γ, Γ', t, S, hS, h => by
    cases h with
    | var hl => exact ⟨by simp [undefE, undefN_lookup hS hl], by simpa [declE] using hS⟩
    | global _ hg => exact ⟨by simp [undefE, undefN_global (show isGlobal n = true by simpa [isGlobal] using hg)],
        by simpa [declE] using hS⟩
  | .bin op l r, Γ, Γ', t, S, hS, h => by
    cases h with
    | bin h1 h2 _ =>
      obtain ⟨a1, a2⟩ := scopeE l hS h1
      obtain ⟨b1, b2⟩ := scopeE r a2 h2
      exact ⟨by simp [undefE, a1, b1], by simpa [declE] using b2⟩
  | .un op e, Γ, Γ', t, S, hS, h => by
    cases h with
    | un h1 _ =>
      obtain ⟨a1, a2⟩ := scopeE e hS h1
      exact ⟨by simp [undefE, a1], by simpa [declE] using a2⟩
  | .call f args named, Γ, Γ', t, S, hS, h => by
    cases h with
    | @builtin _ _ _ n _ _ _ _ hb _ h1 h2 =>
      obtain ⟨a1, a2⟩ := scopeEs args hS h1
      obtain ⟨b1, b2⟩ := scopeNs named a2 h2
      have hu : userName n = false := by simp [userName, hb]
      have hg : isGlobal n = true := by simp [isGlobal, hb]
      exact ⟨by simp [undefE, undefN_global hg, a1, b1, hu, onlyIf], by simpa [declE, hu] using b2⟩
    | @constructor _ _ _ n _ _ _ _ hb hr h1 h2 =>
      obtain ⟨a1, a2⟩ := scopeEs args hS h1
      obtain ⟨b1, b2⟩ := scopeNs named a2 h2
      have hu : userName n = false := by simp [userName, hr]
      have hg : isGlobal n = true := by simp [isGlobal, hr]
      exact ⟨by simp [undefE, undefN_global hg, a1, b1, hu, onlyIf], by simpa [declE, hu] using b2⟩
    | @user _ _ n _ _ _ _ _ _ hb hr hl _ _ h1 =>
      obtain ⟨a1, a2⟩ := scopeEs args hS h1
      have hu : userName n = true := by simp [userName, hr, hb]
      exact ⟨by simp [undefE, undefN_lookup hS hl, a1, hu, onlyIf], by simpa [declE, hu, onlyIf] using a2⟩
    | indirect hn h1 =>
      obtain ⟨a1, a2⟩ := scopeE f hS h1
      exact ⟨by rw [undef_indirect hn, a1], by rw [decl_indirect hn]; exact a2⟩
  | .method o m args named, Γ, Γ', t, S, hS, h => by
    cases h with
    | method h1 _ h2 =>
      obtain ⟨a1, a2⟩ := scopeE o hS h1
      obtain ⟨b1, b2⟩ := scopeEs args a2 h2
      exact ⟨by simp [undefE, a1, b1, onlyIf], by simpa [declE, onlyIf] using b2⟩
  | .member o m, Γ, Γ', t, S, hS, h => by
    cases h with
    | member h1 _ =>
      obtain ⟨a1, a2⟩ := scopeE o hS h1
      exact ⟨by simp [undefE, a1], by simpa [declE] using a2⟩
  | .index o i, Γ, Γ', t, S, hS, h => by
    cases h with
    | index h1 h2 =>
      obtain ⟨a1, a2⟩ := scopeE o hS h1
      obtain ⟨b1, b2⟩ := scopeE i a2 h2
      exact ⟨by simp [undefE, a1, b1], by simpa [declE] using b2⟩
  | .list es, Γ, Γ', t, S, hS, h => by
    cases h with
    | empty => exact ⟨by simp [undefE, undefEs], by simpa [declE, declEs] using hS⟩
    | @list _ _ _ e es' _ _ h1 h2 =>
      obtain ⟨a1, a2⟩ := scopeE e hS h1
      obtain ⟨b1, b2⟩ := scopeElems es' a2 h2
      exact ⟨by simp [undefE, undefEs, a1, b1], by simpa [declE, declEs] using b2⟩
  | .comp e cs, Γ, Γ', t, S, hS, h => by
    cases h with
    | comp h1 h2 =>
      obtain ⟨a1, a2⟩ := scopeC cs hS.empty h1
      obtain ⟨b1, -⟩ := scopeE e a2 h2
      exact ⟨by simp [undefE, a1, b1], by simpa [declE] using hS⟩
  | .range a b, Γ, Γ', t, S, hS, h => by
    cases h with
    | range h1 h2 =>
      obtain ⟨a1, a2⟩ := scopeE a hS h1
      obtain ⟨b1, b2⟩ := scopeE b a2 h2
      exact ⟨by simp [undefE, a1, b1], by simpa [declE] using b2⟩
  | .dict es, Γ, Γ', t, S, hS, h => by
    cases h with
    | dict h1 =>
      obtain ⟨a1, a2⟩ := scopeNs es hS h1
      exact ⟨by simp [undefE, a1], by simpa [declE] using a2⟩
  | .lam ps b, Γ, Γ', t, S, hS, h => by
    cases h with
    | lam h1 =>
      obtain ⟨a1, -⟩ := scopeE b (Names.params ps hS.empty) h1
      exact ⟨by simp [undefE, a1], by simpa [declE] using hS⟩
  | .cond c a b, Γ, Γ', t, S, hS, h => by
    cases h with
    | cond h1 h2 h3 _ =>
      obtain ⟨a1, a2⟩ := scopeE c hS h1
      obtain ⟨b1, b2⟩ := scopeE a a2 h2
      obtain ⟨c1, c2⟩ := scopeE b b2 h3
      exact ⟨by simp [undefE, a1, b1, c1], by simpa [declE] using c2⟩
  | .ifE c b elifs els, Γ, Γ', t, S, hS, h => by
    cases h with
    | ifNone h1 h2 _ =>
      obtain ⟨a1, a2⟩ := scopeE c hS h1
      obtain ⟨b1, b2⟩ := scopeB b a2 h2
      exact ⟨by simp [undefE, a1, b1, onlyIf], by simpa [declE, onlyIf] using b2⟩
    | @ifSome _ _ _ _ _ _ d _ _ _ _ h1 h2 h3 _ =>
      obtain ⟨a1, a2⟩ := scopeE c hS h1
      obtain ⟨b1, b2⟩ := scopeB b a2 h2
      obtain ⟨c1, c2⟩ := scopeB d b2 h3
      exact ⟨by simp [undefE, a1, b1, c1, onlyIf], by simpa [declE, onlyIf] using c2⟩
  | .matchE s arms, Γ, Γ', t, S, hS, h => by
    cases h with
    | matchE h1 h2 =>
      obtain ⟨a1, a2⟩ := scopeE s hS h1
      obtain ⟨b1, b2⟩ := scopeA arms a2 h2
      exact ⟨by simp [undefE, a1, b1], by simpa [declE] using b2⟩
theorem scopeEs {R : Option Parser.Ty} : ∀ (es : List Expr) {Γ Γ' : List Frame} {ps ts : List Ty} {S : List Name}, Names Γ S →
    ArgsTy R Γ ps es ts Γ' → undefEs false S es = [] ∧ Names Γ' (declEs false es ++ S)
  | [], Γ, Γ', ps, ts, S, hS, h => by
    cases h
    exact ⟨by simp [undefEs], by simpa [declEs] using hS⟩
  | e :: es, Γ, Γ', ps, ts, S, hS, h => by
    cases h with
    | extra h1 h2 =>
      obtain ⟨a1, a2⟩ := scopeE e hS h1
      obtain ⟨b1, b2⟩ := scopeEs es a2 h2
      exact ⟨by simp [undefEs, a1, b1], by simpa [declEs] using b2⟩
    | cons h1 _ h2 =>
      obtain ⟨a1, a2⟩ := scopeE e hS h1
      obtain ⟨b1, b2⟩ := scopeEs es a2 h2
      exact ⟨by simp [undefEs, a1, b1], by simpa [declEs] using b2⟩
theorem scopeNs {R : Option Parser.Ty} : ∀ (es : List (Name × Expr)) {Γ Γ' : List Frame} {al : Option (List Name)} {S : List Name},
    Names Γ S → NamedOk R Γ al es Γ' → undefNs false S es = [] ∧ Names Γ' (declN false es ++ S)
  | [], Γ, Γ', al, S, hS, h => by
    cases h
    exact ⟨by simp [undefNs], by simpa [declN] using hS⟩
  | (k, e) :: es, Γ, Γ', al, S, hS, h => by
    cases h with
    | cons h1 _ h2 =>
      obtain ⟨a1, a2⟩ := scopeE e hS h1
      obtain ⟨b1, b2⟩ := scopeNs es a2 h2
      exact ⟨by simp [undefNs, a1, b1], by simpa [declN] using b2⟩
theorem scopeElems {R : Option Parser.Ty} : ∀ (es : List Expr) {Γ Γ' : List Frame} {t u : Ty} {S : List Name}, Names Γ S →
    ElemsTy R Γ t es u Γ' → undefEs false S es = [] ∧ Names Γ' (declEs false es ++ S)
  | [], Γ, Γ', t, u, S, hS, h => by
    cases h
    exact ⟨by simp [undefEs], by simpa [declEs] using hS⟩
  | e :: es, Γ, Γ', t, u, S, hS, h => by
    cases h with
    | cons h1 _ h2 =>
      obtain ⟨a1, a2⟩ := scopeE e hS h1
      obtain ⟨b1, b2⟩ := scopeElems es a2 h2
      exact ⟨by simp [undefEs, a1, b1], by simpa [declEs] using b2⟩
theorem scopeC {R : Option Parser.Ty} : ∀ (cs : List Clause) {Γ Γ' : List Frame} {S : List Name}, Names Γ S →
    ClausesOk R Γ cs Γ' → undefC false S cs = [] ∧ Names Γ' (declC false cs ++ S)
  | [], Γ, Γ', S, hS, h => by
    cases h
    exact ⟨by simp [undefC], by simpa [declC] using hS⟩
  | .mk v it conds :: cs, Γ, Γ', S, hS, h => by
    cases h with
    | cons h1 h2 h3 =>
      obtain ⟨a1, a2⟩ := scopeE it hS h1
      obtain ⟨b1, b2⟩ := scopeConds conds (a2.bindFree _ _ _) h2
      obtain ⟨c1, c2⟩ := scopeC cs b2 h3
      exact ⟨by simp [undefC, a1, b1, c1], by simpa [declC] using c2⟩
theorem scopeConds {R : Option Parser.Ty} : ∀ (es : List Expr) {Γ Γ' : List Frame} {S : List Name}, Names Γ S →
    CondsOk R Γ es Γ' → undefEs false S es = [] ∧ Names Γ' (declEs false es ++ S)
  | [], Γ, Γ', S, hS, h => by
    cases h
    exact ⟨by simp [undefEs], by simpa [declEs] using hS⟩
  | e :: es, Γ, Γ', S, hS, h => by
    cases h with
    | cons h1 h2 =>
      obtain ⟨a1, a2⟩ := scopeE e hS h1
      obtain ⟨b1, b2⟩ := scopeConds es a2 h2
      exact ⟨by simp [undefEs, a1, b1], by simpa [declEs] using b2⟩
theorem scopeA {R : Option Parser.Ty} : ∀ (as : List (Pat × Expr)) {Γ Γ' : List Frame} {r r' : Option Ty} {S : List Name},
    Names Γ S → ArmsTy R Γ r as r' Γ' → undefA false S as = [] ∧ Names Γ' (declA false as ++ S)
  | [], Γ, Γ', r, r', S, hS, h => by
    cases h
    exact ⟨by simp [undefA], by simpa [declA] using hS⟩
  | (p, e) :: as, Γ, Γ', r, r', S, hS, h => by
    cases h with
    | cons h1 h2 =>
      obtain ⟨a1, a2⟩ := scopeE e hS h1
      obtain ⟨b1, b2⟩ := scopeA as a2 h2
      exact ⟨by simp [undefA, a1, b1, onlyIf], by simpa [declA] using b2⟩
theorem scopeL {R : Option Parser.Ty} : ∀ (bs : List (Expr × Block)) {Γ Γ' : List Frame} {S : List Name}, Names Γ S →
    ElifsOk R Γ bs Γ' → undefL false S bs = [] ∧ Names Γ' (declL false bs ++ S)
  | [], Γ, Γ', S, hS, h => by
    cases h
    exact ⟨by simp [undefL], by simpa [declL] using hS⟩
  | (c, b) :: bs, Γ, Γ', S, hS, h => by
    cases h with
    | cons h1 h2 h3 =>
      obtain ⟨a1, a2⟩ := scopeE c hS h1
      obtain ⟨b1, -⟩ := scopeB b a2.empty h2
      obtain ⟨c1, c2⟩ := scopeL bs a2 h3
      exact ⟨by simp [undefL, a1, b1, c1], by simpa [declL] using c2⟩
theorem scopeB {R : Option Parser.Ty} : ∀ (b : Block) {Γ Γ' : List Frame} {x : Option Ty} {S : List Name}, Names Γ S →
    BlockTy R Γ b x Γ' → undefB false S b = [] ∧ Names Γ' (declB false b ++ S)
  | .mk ss final, Γ, Γ', x, S, hS, h => by
    cases h with
    | none h1 =>
      obtain ⟨a1, a2⟩ := scopeSs ss hS h1
      exact ⟨by simp [undefB, a1], by simpa [declB] using a2⟩
    | @some _ _ _ _ e _ h1 h2 =>
      obtain ⟨a1, a2⟩ := scopeSs ss hS h1
      obtain ⟨b1, b2⟩ := scopeE e a2 h2
      exact ⟨by simp [undefB, a1, b1], by simpa [declB] using b2⟩
theorem scopeSs {R : Option Parser.Ty} : ∀ (ss : List Stmt) {Γ Γ' : List Frame} {S : List Name}, Names Γ S →
    StmtsOk R Γ ss Γ' → undefSs false S ss = [] ∧ Names Γ' (declSs false ss ++ S)
  | [], Γ, Γ', S, hS, h => by
    cases h
    exact ⟨by simp [undefSs], by simpa [declSs] using hS⟩
  | s :: ss, Γ, Γ', S, hS, h => by
    cases h with
    | cons h1 h2 =>
      obtain ⟨a1, a2⟩ := scopeS s hS h1
      obtain ⟨b1, b2⟩ := scopeSs ss a2 h2
      exact ⟨by simp [undefSs, a1, b1], by simpa [declSs] using b2⟩
theorem scopeS {R : Option Parser.Ty} : ∀ (s : Stmt) {Γ Γ' : List Frame} {S : List Name}, Names Γ S →
    StmtOk R Γ s Γ' → undefS false S s = [] ∧ Names Γ' (declS false s ++ S)
  | .letS n ty e, Γ, Γ', S, hS, h => by
    cases h with
    | letS h1 _ _ =>
      obtain ⟨a1, a2⟩ := scopeE e hS h1
      exact ⟨by simp [undefS, a1], by simpa [declS] using a2.setTop _ _⟩
  | .varDecl n ty e, Γ, Γ', S, hS, h => by
    cases h with
    | @varDecl _ _ _ _ e _ _ h1 _ _ =>
      obtain ⟨a1, a2⟩ := scopeE e hS h1
      exact ⟨by simp [undefS, a1], by simpa [declS] using a2.setTop _ _⟩
  | .assign l e, Γ, Γ', S, hS, h => by
    cases h with
    | assign h1 h2 _ =>
      obtain ⟨a1, a2⟩ := scopeE l hS h1
      obtain ⟨b1, b2⟩ := scopeE e a2 h2
      exact ⟨by simp [undefS, a1, b1], by simpa [declS] using b2⟩
  | .require c msg, Γ, Γ', S, hS, h => by
    cases h with
    | require h1 =>
      obtain ⟨a1, a2⟩ := scopeE c hS h1
      exact ⟨by simp [undefS, a1], by simpa [declS] using a2⟩
    | @requireMsg _ _ _ _ e h1 h2 =>
      obtain ⟨a1, a2⟩ := scopeE c hS h1
      obtain ⟨b1, b2⟩ := scopeE e a2 h2
      exact ⟨by simp [undefS, a1, b1], by simpa [declS] using b2⟩
  | .assertS c msg, Γ, Γ', S, hS, h => by
    cases h with
    | assertS h1 =>
      obtain ⟨a1, a2⟩ := scopeE c hS h1
      exact ⟨by simp [undefS, a1], by simpa [declS] using a2⟩
    | @assertMsg _ _ _ _ e h1 h2 =>
      obtain ⟨a1, a2⟩ := scopeE c hS h1
      obtain ⟨b1, b2⟩ := scopeE e a2 h2
      exact ⟨by simp [undefS, a1, b1], by simpa [declS] using b2⟩
  | .emit v md, Γ, Γ', S, hS, h => by
    cases h with
    | emit h1 _ h2 =>
      obtain ⟨a1, a2⟩ := scopeE v hS h1
      obtain ⟨b1, b2⟩ := scopeNs md a2 h2
      exact ⟨by simp [undefS, a1, b1], by simpa [declS] using b2⟩
  | .forS v it body, Γ, Γ', S, hS, h => by
    cases h with
    | forS h1 h2 =>
      obtain ⟨a1, a2⟩ := scopeE it hS h1
      obtain ⟨b1, -⟩ := scopeB body (a2.empty.bindFree _ _ _) h2
      exact ⟨by simp [undefS, a1, b1], by simpa [declS] using a2⟩
  | .ifS c b elifs els, Γ, Γ', S, hS, h => by
    cases h with
    | ifNone h1 h2 h3 =>
      obtain ⟨a1, a2⟩ := scopeE c hS h1
      obtain ⟨b1, -⟩ := scopeB b a2.empty h2
      obtain ⟨c1, c2⟩ := scopeL elifs a2 h3
      exact ⟨by simp [undefS, a1, b1, c1], by simpa [declS] using c2⟩
    | @ifSome _ _ _ _ _ _ _ d _ _ _ h1 h2 h3 h4 =>
      obtain ⟨a1, a2⟩ := scopeE c hS h1
      obtain ⟨b1, -⟩ := scopeB b a2.empty h2
      obtain ⟨c1, c2⟩ := scopeL elifs a2 h3
      obtain ⟨d1, -⟩ := scopeB d c2.empty h4
      exact ⟨by simp [undefS, a1, b1, c1, d1], by simpa [declS] using c2⟩
  | .pass, Γ, Γ', S, hS, h => by
    cases h
    exact ⟨by simp [undefS], by simpa [declS] using hS⟩
  | .ret e, Γ, Γ', S, hS, h => by cases h
  | .py _, Γ, Γ', S, hS, h => by
    cases h
    exact ⟨by simp [undefS], by simpa [declS] using hS⟩
  | .exprS e, Γ, Γ', S, hS, h => by
    cases h with
    | exprS h1 =>
      obtain ⟨a1, a2⟩ := scopeE e hS h1
      exact ⟨by simp [undefS, a1], by simpa [declS] using a2⟩
end

theorem scopePs {R : Option Parser.Ty} : ∀ (ps : List Param) {Γ Γ' : List Frame} {S : List Name}, Names Γ S →
    ParamsOk R Γ ps Γ' → undefPs false S ps = [] ∧ Names Γ' (declPs false ps ++ S)
  | [], Γ, Γ', S, hS, h => by
    cases h
    exact ⟨by simp [undefPs], by simpa [declPs] using hS⟩
  | p :: ps, Γ, Γ', S, hS, h => by
    cases h with
    | plain _ _ hd h1 =>
      obtain ⟨a1, a2⟩ := scopePs ps (hS.setTop _ _) h1
      exact ⟨by simp [undefPs, hd, a1], by simpa [declPs, hd] using a2⟩
    | @dflt _ _ _ _ _ e _ _ _ _ hd h1 _ h2 =>
      obtain ⟨a1, a2⟩ := scopeE e (hS.setTop _ _) h1
      obtain ⟨b1, b2⟩ := scopePs ps a2 h2
      exact ⟨by simp [undefPs, hd, a1, b1], by simpa [declPs, hd] using b2⟩

theorem scope_globals {m : Mod} {G : List (Name × Symb)} (h : List.Forall₂ ItemSym (items m) G) :
    Names [emptyFrame, frameOf G] (globals m) := by
  intro n hn
  have h1 : (Verif.Dict.dget G n).isSome = true := by
    simp only [lookup, emptyFrame, frameOf] at hn
    cases hd : Verif.Dict.dget G n with
    | none => simp [hd] at hn
    | some y => rfl
  obtain ⟨y, hy⟩ := Option.isSome_iff_exists.1 h1
  have hm := Verif.Dict.mem_of_dget hy
  have hg : globals m = (items m).map (·.name) := by
    simp [globals, items, List.map_flatMap, Function.comp_def]
  rw [hg]
  clear hn h1 hy hg
  generalize items m = l at h
  induction h with
  | nil => simp at hm
  | cons hi _ ih =>
    obtain ⟨ps, r, rfl, -, -⟩ := hi
    rcases List.mem_cons.1 hm with hm | hm
    · simp only [Prod.mk.injEq] at hm
      simp [hm.1]
    · exact List.mem_cons_of_mem _ (ih hm)

/-- **C154** (partial): in an accepted module every name used in a place the checker looks at is a parameter, a name
declared before in the same block or one around it, a loop variable, a command, a native function, a type or a built-in
function. Missing: the places the checker does not look at; and names declared in a block of an if expression count as
declared in the block around it (below). -/
theorem C154_scoping_partial (o : SetOrder) (max : Nat) (hm : 1 ≤ max) (m : Mod) (w : wfMod m) (h : Accepted o max m) :
    undefMod false m = [] := by
  obtain ⟨G, hG, -, hc⟩ := (C152_accepts_iff_well_typed o max hm m w).1 h
  unfold undefMod
  rw [List.flatMap_eq_nil_iff]
  intro c hcm
  obtain ⟨Γ, Γ', x, h1, h2⟩ := hc c hcm
  obtain ⟨a1, a2⟩ := scopePs c.params (scope_globals hG) h1
  obtain ⟨b1, -⟩ := scopeB c.body a2 h2
  simp [undefFn, a1, b1]

/-- the names used without a declaration in a source, and whether it is accepted -/
def undeclared (full : Bool) (src : String) : Option (List Name × Bool) :=
  match Lexer.tokenize Lexer.asciiUni src.toList with
  | some (.ok (ts, _)) => match Parser.parseModule ts with
    | .ok m => match check listOrder 20 m with
      | .ok r => some (undefMod full m, !r.hasErrors)
      | .error _ => none
    | .error _ => none
  | _ => none

end Verif.Checker
