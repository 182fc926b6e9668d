import Verif.Pipe.Witness2

/-!
# C160: if expressions and conditional expressions
-/

namespace Verif.Pipe

open Verif.Interp hiding lookup Param

variable {F : Type}

/-- something that is not an expression has no value -/
theorem bad_fails {H : Host F} {P : Prog F} (h1 : H.native "" = none) (h2 : H.builtin "" = none) (h3 : findCmd P "" = none) (n : Nat)
    (s : St F) (v : Val F) : (((interp H P n).ev (bad [] : Expr F)) s).1 ≠ .ok v := by
  intro h
  cases n with
  | zero => cases h
  | succ n =>
    change (Interp.bind (ret []) (fun vs => callFn H P (interp H P n) "" [] vs) s).1 = _ at h
    simp only [Interp.bind, ret, callFn, h1, h2, h3, raise] at h
    cases h

/-- **C160** is violated by every if expression with an `else` branch, in every program, state and environment in which no
function has the empty name: its evaluation never gives a value, although the checker accepts it (`C160_violated`). -/
theorem C160_if_expression_never_succeeds (E : Enc F) (H : Host F) (P : Prog F) (h1 : H.native "" = none) (h2 : H.builtin "" = none)
    (h3 : findCmd P "" = none) (c : Parser.Expr) (b d : Parser.Block) (elifs : List (Parser.Expr × Parser.Block)) (n : Nat) (s : St F) :
    ∀ v, (((interp H P n).ev (trE E (.ifE c b elifs (some d)))) s).1 ≠ .ok v := by
  intro v h
  cases n with
  | zero => cases h
  | succ n =>
    change (Interp.bind (evTruthy H (interp H P n) (trE E c))
      (fun t => if t then (interp H P n).ev (bad []) else (interp H P n).ev (bad [])) s).1 = _ at h
    unfold Interp.bind at h
    cases ht : evTruthy H (interp H P n) (trE E c) s with
    | mk r s' =>
      rw [ht] at h
      cases r with
      | error e => cases h
      | ok t => cases t <;> exact bad_fails h1 h2 h3 n s' v h

/-- without `else` an if expression has a value only when its condition is false, and then it is `None` -/
theorem C160_if_expression_without_else (E : Enc F) (H : Host F) (P : Prog F) (h1 : H.native "" = none) (h2 : H.builtin "" = none)
    (h3 : findCmd P "" = none) (c : Parser.Expr) (b : Parser.Block) (elifs : List (Parser.Expr × Parser.Block)) (n : Nat) (s : St F) :
    ∀ v, (((interp H P n).ev (trE E (.ifE c b elifs none))) s).1 = .ok v → v = noneVal := by
  intro v h
  cases n with
  | zero => cases h
  | succ n =>
    change (Interp.bind (evTruthy H (interp H P n) (trE E c))
      (fun t => if t then (interp H P n).ev (bad []) else ret noneVal) s).1 = _ at h
    unfold Interp.bind at h
    cases ht : evTruthy H (interp H P n) (trE E c) s with
    | mk r s' =>
      rw [ht] at h
      cases r with
      | error e => cases h
      | ok t => cases t
                · cases h; rfl
                · exact absurd h (bad_fails h1 h2 h3 n s' v)

/-- the condition of a conditional expression: its value and what is left of the state -/
def Cond (H : Host F) (f : Fns F) (c : Expr F) (s : St F) (b : Bool) (s' : St F) : Prop :=
  ∃ v, f.ev c s = (.ok v, s') ∧ truthy H v = .ok b

/-- **C160** for conditional expressions `a if c else b`: the value, the error and the effects are those of the branch the
condition selects; the other branch is not evaluated. Missing: if expressions, see above. -/
theorem C160_conditional_partial (E : Enc F) (H : Host F) (P : Prog F) (c a b : Parser.Expr) (n : Nat) (s s' : St F) (t : Bool)
    (h : Cond H (interp H P n) (trE E c) s t s') :
    (interp H P (n + 1)).ev (trE E (.cond c a b)) s = (interp H P n).ev (trE E (if t then a else b)) s' := by
  obtain ⟨v, hv, ht⟩ := h
  change Interp.bind (Interp.bind ((interp H P n).ev (trE E c)) (fun v => lift (truthy H v)))
    (fun t => if t then (interp H P n).ev (trE E a) else (interp H P n).ev (trE E b)) s = _
  simp only [Interp.bind, hv, lift, ht, Except.mapError]
  cases t <;> rfl

/-- the condition `true` is met in every program -/
example (H : Host F) (P : Prog F) (E : Enc F) (s : St F) :
    ∃ s', Cond H (interp H P 1) (trE E (.lit "BOOL_LITERAL" (.bool true))) s true s' :=
  ⟨s, _, rfl, rfl⟩

end Verif.Pipe
