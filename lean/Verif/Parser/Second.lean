import Verif.Parser.Terminate

/-! An expression that begins with a name does not continue with a comma, a colon, an equals sign or a parenthesis
that closes. -/

namespace Verif.Parser

open Verif.Lexer

/-- the tokens with which the parser tells a lambda, a named argument or a declaration from an expression -/
def mark (k : String) : Bool := k = "COMMA" || k = "RPAREN" || k = "COLON" || k = "ASSIGN"

/-- what follows a leading name -/
def Sec (w : List Tok) : Prop := ∀ a b w', w = a :: b :: w' → a.kind = "IDENTIFIER" → mark b.kind = false

/-- the kinds of expressions -/
def Exprish : Sym → Prop
  | .expr | .bin _ | .unary | .post | .prim => True
  | _ => False

theorem Sec.append {s : Sym} {v : Val s} {t : Tail} {w : List Tok} (hd : D s v t w) (he : Exprish s) (h : Sec w)
    {o : Tok} (ho : mark o.kind = false) (r : List Tok) : Sec (w ++ o :: r) := by
  intro a b w' e ha
  rcases first_lemma hd with ⟨-, h0⟩ | ⟨x, y, rfl, -⟩
  · cases s <;> first | exact h0.elim | exact he.elim
  · cases y with
    | nil =>
      injection e with e1 e2
      injection e2 with e2 e3
      subst e2
      exact ho
    | cons z y =>
      injection e with e1 e2
      injection e2 with e2 e3
      subst e1 e2
      exact h _ _ _ rfl ha

theorem Sec.other {o : Tok} {k : String} (ho : o.kind = k) (hk : k ≠ "IDENTIFIER") (w : List Tok) : Sec (o :: w) := by
  intro a b w' e ha
  injection e with e1 e2
  subst e1
  exact absurd (ho.symm.trans ha) hk

theorem Sec.single (o : Tok) : Sec [o] := by
  intro a b w' e
  cases e

theorem second_lemma {s : Sym} {v : Val s} {t : Tail} {w : List Tok} (h : D s v t w) : Exprish s → Sec w := by
  induction h <;> intro he <;> first
    | exact he.elim
    | skip
  case expr ih => exact ih trivial
  case operand ih => exact ih trivial
  case unPost ih => exact ih trivial
  case prim ih => exact ih trivial
  case cond h1 _ hi _ _ _ _ ih _ _ =>
    simpa using Sec.append h1 trivial (ih trivial) (by rw [hi]; rfl) _
  case op m p l r tl tr wl wr o hp _ h1 _ _ ih _ =>
    refine Sec.append h1 trivial (ih trivial) ?_ _
    simp only [opLevel, List.mem_cons, Prod.mk.injEq, List.not_mem_nil, or_false] at hp
    rcases hp with ⟨hp, -⟩ | ⟨hp, -⟩ | ⟨hp, -⟩ | ⟨hp, -⟩ | ⟨hp, -⟩ | ⟨hp, -⟩ | ⟨hp, -⟩ |
      ⟨hp, -⟩ | ⟨hp, -⟩ | ⟨hp, -⟩ | ⟨hp, -⟩ | ⟨hp, -⟩ | ⟨hp, -⟩ | ⟨hp, -⟩ | ⟨hp, -⟩ <;> rw [hp] <;> rfl
  case unary h _ _ => rcases h with h | h <;> exact Sec.other h (by decide) _
  case call h1 _ _ ho _ ih _ => exact Sec.append h1 trivial (ih trivial) (by rw [ho]; rfl) _
  case method h1 _ ho _ _ _ ih _ => exact Sec.append h1 trivial (ih trivial) (by rw [ho]; rfl) _
  case member h1 _ ho _ ih => exact Sec.append h1 trivial (ih trivial) (by rw [ho]; rfl) _
  case index h1 _ ho _ _ ih _ =>
    simpa using Sec.append h1 trivial (ih trivial) (by rw [ho]; rfl) _
  case lit => exact Sec.single _
  case ident => exact Sec.single _
  case group h _ _ _ => exact Sec.other h (by decide) _
  case lam0 h _ _ _ _ => exact Sec.other h (by decide) _
  case lam h _ _ _ _ _ => exact Sec.other h (by decide) _
  case list0 h _ => exact Sec.other h (by decide) _
  case list h _ _ _ _ => exact Sec.other h (by decide) _
  case comp h _ _ _ _ _ _ => exact Sec.other h (by decide) _
  case range h _ _ _ _ _ _ => exact Sec.other h (by decide) _
  case dict h _ _ => exact Sec.other h (by decide) _
  case ifE h _ _ => exact Sec.other h (by decide) _
  case matchE h _ _ _ _ _ _ _ _ => exact Sec.other h (by decide) _

end Verif.Parser
