import Verif.Checker.Scope

/-!
# C154 on source texts
-/

namespace Verif.Checker

set_option maxRecDepth 100000

/-- **C154** as stated is violated: an undeclared name in a named argument, in an `elif` condition, and one declared only
in the branch of an if expression that has not run -/
theorem C154_violated :
    undeclared true "module m\ncommand F(a: float) -> float:\n    emit G(z=nope)\ncommand G(z: float) -> float:\n    emit z\n" =
      some ([nm "nope"], true) ∧
    undeclared true "module m\ncommand F(a: float) -> float:\n    emit if a > 0.0:\n        1.0\n    elif nope > 1.0:\n        2.0\n    else:\n        3.0\n" =
      some ([nm "nope"], true) ∧
    undeclared true "module m\ncommand F(a: float) -> float:\n    emit if a > 0.0:\n        b = 1.0\n        b\n    else:\n        b\n" =
      some ([nm "b"], true) :=
  ⟨by decide +kernel, by decide +kernel, by decide +kernel⟩

/-- an accepted module with scopes -/
example : undeclared true "module m\ncommand F(a: float) -> float:\n    for i in range(3):\n        b = a * i\n        c = b\n    emit a\n" =
    some ([], true) := by decide +kernel

/-- one that is rejected because a loop variable is used after the loop -/
example : undeclared true "module m\ncommand F(a: float) -> float:\n    for i in range(3):\n        b = a * i\n    emit i\n" =
    some ([nm "i"], false) := by decide +kernel

/-! ### C162, C163: what else the checker rejects and accepts -/

/-- **C162**: a parameter without annotation cannot be used in arithmetic or as an argument of a built-in function, and
strings cannot be concatenated, though the interpreter does all of it -/
theorem C162_rejected :
    verdict "module m\ncommand F(q) -> float:\n    emit q + 1\n" = some (false, ["E250", "E230"]) ∧
    verdict "module m\ncommand F(q) -> float:\n    emit sin(q)\n" = some (false, ["E272"]) ∧
    verdict "module m\ncommand F(s: string) -> string:\n    emit s + s\n" = some (false, ["E250", "E230"]) :=
  ⟨by decide +kernel, by decide +kernel, by decide +kernel⟩

/-- **C163**: a variable cannot be assigned a second time in its block; in a loop the same text is accepted -/
theorem C163_assignment :
    verdict "module m\ncommand F() -> int:\n    t = 0\n    t = 1\n    emit t\n" = some (false, ["E211"]) ∧
    verdict "module m\ncommand F() -> int:\n    t = 0\n    for i in range(3):\n        t = t + i\n    emit t\n" = some (true, []) :=
  ⟨by decide +kernel, by decide +kernel⟩

end Verif.Checker
