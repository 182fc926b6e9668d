import Verif.Checker.Props

/-!
# Properties of the checker on source texts: C156–C158, C161–C163

Sources the checker accepts or rejects against the claims, all the way from the text.
-/

namespace Verif.Checker

open Verif.Parser (Mod)

set_option maxRecDepth 100000

/-! ### C156 -/

/-- **C156** as stated is violated: a Python block in an `elif` branch of an if expression is not noticed -/
theorem C156_missed : pyFlag
    "module m\ncommand F(a: float) -> float:\n    emit if a > 0.0:\n        1.0\n    elif a > 1.0:\n        python { x }\n        2.0\n    else:\n        3.0\n" =
    some (false, false) := by decide +kernel

/-- in other places it is -/
example : pyFlag "module m\ncommand F(a: float) -> float:\n    python { x }\n    emit 1.0\n" = some (false, true) ∧
    pyFlag "module m\ncommand F(a: float) -> float:\n    emit if a > 0.0:\n        1.0\n    else:\n        python { x }\n        3.0\n" =
    some (false, true) ∧
    pyFlag "module m\ncommand F(a: float) -> float:\n    emit a\n" = some (false, false) := by decide +kernel

/-! ### C157 -/

/-- **C157** as stated is violated: `F` calls itself in a named argument, and there is no warning -/
theorem C157_missed : verdict
    "module m\ncommand F(a: float) -> float:\n    emit G(z=F(1.0))\ncommand G(z: float) -> float:\n    emit 1.0\n" =
    some (true, []) := by decide +kernel

/-- the same call as a positional argument, and a circle of two -/
example : verdict "module m\ncommand F(a: float) -> float:\n    emit G(F(1.0))\ncommand G(z: float) -> float:\n    emit 1.0\n" =
    some (true, ["W301"]) ∧
    verdict "module m\ncommand F(a: float) -> float:\n    emit G(1.0)\ncommand G(z: float) -> float:\n    emit F(1.0)\n" =
    some (true, ["W302"]) := by decide +kernel

/-! ### C158: the limit on errors -/

/-- **C158** (partial): any two positive limits on the number of errors give the same verdict. Missing: the limit 0, and
that no more errors than the limit are reported (below). -/
theorem C158_limit_partial (o : SetOrder) (max max' : Nat) (hm : 1 ≤ max) (hm' : 1 ≤ max') (m : Mod) (w : wfMod m) :
    Accepted o max m ↔ Accepted o max' m :=
  C153_order o o max max' hm hm' m m w (.refl _) (.refl _) (.refl _)

/-- once the limit is reached, an expression is not looked at: it has the error type and changes nothing -/
theorem checkE_stops (K : Cfg) (e : Parser.Expr) (s : St) (h : K.max ≤ (s.diags.filter (·.err)).length) :
    checkE K e s = .ok (.error, s) := by
  cases e <;> (unfold checkE guardE; exact if_pos h)

/-- the same for a statement -/
theorem checkS_stops (K : Cfg) (x : Parser.Stmt) (s : St) (h : K.max ≤ (s.diags.filter (·.err)).length) :
    checkS K x s = .ok ((), s) := by
  cases x <;> (unfold checkS guardS; exact if_pos h)

/-- **C158, the limit is a limit.** From the moment at which `max_errors` errors are reported, no statement,
expression or block reports anything: neither errors nor warnings, whatever it is. -/
theorem C158_stops (K : Cfg) (s : St) (h : K.max ≤ (s.diags.filter (·.err)).length) :
    (∀ e, checkE K e s = .ok (.error, s)) ∧ (∀ x, checkS K x s = .ok ((), s)) ∧
    (∀ b, ∃ t, checkB K b s = .ok (t, s)) := by
  have hb : ∀ {α β : Type} (m : M α) (k : α → M β) (a : α), m s = .ok (a, s) → (m >>= k) s = k a s := by
    intro α β m k a hm
    show bind m k s = _
    unfold bind
    rw [hm]
  refine ⟨fun e => checkE_stops K e s h, fun x => checkS_stops K x s h, fun b => ?_⟩
  obtain ⟨ss, f⟩ := b
  have hss : checkSs K ss s = .ok ((), s) := by
    induction ss with
    | nil => unfold checkSs; rfl
    | cons x ss ih =>
      unfold checkSs
      rw [hb _ _ _ (checkS_stops K x s h)]
      exact ih
  unfold checkB
  cases f with
  | none => exact ⟨none, by rw [hb _ _ _ hss]; rfl⟩
  | some e => exact ⟨some .error, by rw [hb _ _ _ hss]; dsimp only; rw [hb _ _ _ (checkE_stops K e s h)]; rfl⟩

/-- a state in which the limit 1 is reached, and one in which it is not -/
example : (1 ≤ (([⟨true, "E240", []⟩] : List Diag).filter (·.err)).length) ∧
    ¬ (1 ≤ (([⟨false, "W210", []⟩] : List Diag).filter (·.err)).length) := by decide

/-- the number of errors and whether the module is accepted, with a given limit -/
def errorsWith (max : Nat) (src : String) : Option (Nat × Bool) :=
  match Lexer.tokenize Lexer.asciiUni src.toList with
  | some (.ok (ts, _)) => match Parser.parseModule ts with
    | .ok m => match check listOrder max m with
      | .ok r => some ((r.diags.filter (·.err)).length, !r.hasErrors)
      | .error _ => none
    | .error _ => none
  | _ => none

/-- with the limit 0 an ill-typed module is accepted; with the limit 1 two errors are reported -/
theorem C158_violated :
    errorsWith 0 "module m\ncommand F(a: int) -> int:\n    emit nope\n" = some (0, true) ∧
    errorsWith 1 "module m\ncommand F(a: int) -> int:\n    emit nope\n" = some (2, false) := by decide +kernel

/-! ### C161: calls -/

/-- arguments that do not exist are accepted: too many for a built-in function or a command, too few or unknown named
ones for a command -/
theorem C161_violated :
    verdict "module m\ncommand F() -> float:\n    emit sin(1.0, 2.0, true)\n" = some (true, []) ∧
    verdict "module m\ncommand F() -> float:\n    emit G(1.0, 2.0, true)\ncommand G(z: float) -> float:\n    emit z\n" =
      some (true, []) ∧
    verdict "module m\ncommand F() -> float:\n    emit G()\ncommand G(z: float) -> float:\n    emit z\n" = some (true, []) ∧
    verdict "module m\ncommand F() -> float:\n    emit G(nosuch=true)\ncommand G(z: float) -> float:\n    emit z\n" =
      some (true, []) := by decide +kernel

/-- a named argument of a built-in function does not count as given -/
theorem C161_named_builtin :
    verdict "module m\ncommand F() -> float:\n    emit sin(x=1.0)\n" = some (false, ["E271"]) := by decide +kernel

end Verif.Checker
