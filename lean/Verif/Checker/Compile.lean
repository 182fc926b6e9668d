import Verif.Checker.ParsedWf
import Verif.Checker.ModSound
import Verif.Lexer.Model
import Mathlib.Data.List.Dedup

/-!
# From source text to the verdict of the checker: the front end of `compile_and_run`, interpreter.py:1094-1119

The lexer model is `Verif/Lexer`, the parser `Verif/Parser`.
-/

namespace Verif.Checker

open Verif.Parser (Mod parseModule)

/-- what the front end does with a source text -/
inductive Front
  /-- "Lexer error: ..." -/
  | lexError
  /-- "Parser error: ..." -/
  | parseError
  /-- an `AttributeError` of the checker, which `compile_and_run` does not catch -/
  | crash
  /-- "Type errors: ..." -/
  | rejected (ds : List Diag)
  /-- the module goes to the interpreter -/
  | accepted (m : Mod) (ds : List Diag)

/-- `compile_and_run` up to the interpreter, interpreter.py:1094-1119; `check(module)` has `max_errors = 20`,
checker.py:1302-1314 -/
def front (U : Lexer.Uni) (o : SetOrder) (src : List Char) : Option Front :=
  match Lexer.tokenize U src with
  | none => none
  | some (.error _) => some .lexError
  | some (.ok (ts, _)) => match parseModule ts with
    | .error _ => some .parseError
    | .ok m => match check o 20 m with
      | .error _ => some .crash
      | .ok r => if r.hasErrors then some (.rejected r.diags) else some (.accepted m r.diags)

/-- an order in which sets may be listed -/
def listOrder : SetOrder where
  list := List.dedup
  nodup := List.nodup_dedup
  mem _ _ := List.mem_dedup

/-- the codes of a verdict, errors and warnings; none for a module that is not checked -/
def codes : Option Front → Option (Bool × List String)
  | some (.rejected ds) => some (false, ds.map (·.code))
  | some (.accepted _ ds) => some (true, ds.map (·.code))
  | _ => none

/-- the verdict on an ASCII source -/
def verdict (src : String) : Option (Bool × List String) := codes (front Lexer.asciiUni listOrder src.toList)

/-- an `AttributeError` escapes -/
def crashes (src : String) : Bool := match front Lexer.asciiUni listOrder src.toList with
  | some .crash => true
  | _ => false

set_option maxRecDepth 100000 in
example : verdict "module m\ncommand F(a: int, b: float = 2.0) -> float:\n    c = a * b\n    emit c + 1\n" =
    some (true, []) := by decide +kernel

example : verdict "module m\ncommand F(a: int) -> int:\n    emit a / 2\n" = some (false, ["E230"]) := by decide +kernel
end Verif.Checker
