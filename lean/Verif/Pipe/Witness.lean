import Verif.Pipe.Props

set_option maxRecDepth 100000

/-!
# Accepted programs that go wrong: why C155 is only proved for a fragment
-/

namespace Verif.Pipe

/-- is the source accepted by the checker, and what running its command `F` gives -/
def runs (src : String) (raw : List (String × Interp.Data Int)) : Bool × Option Seen :=
  ((match Checker.front Lexer.asciiUni Checker.listOrder src.toList with
    | some (.accepted _ _) => true
    | _ => false), demoRun src raw)

/-- a program that runs as its types say (tenths: 1.5 * 2.0 + 1 = 4.0) -/
example :
    runs "module m\ncommand F(a: float) -> float:\n    b = a * 2.0\n    emit b + 1\n"
      [("a", .flt 15)] = (true, some (.flt 40)) :=
  by decide +kernel

/-- **C155** as stated is violated: accepted programs fail or raise at run time though every argument has its declared type. In turn: a condition that is a call of a boolean command, a command used as a value, a call without a required argument, a default that names another parameter, a required parameter after an optional one, an argument forgotten by the caller, points that are added, and points that are scaled -/
theorem C155_violated_fails :
    runs "module m\ncommand G() -> bool:\n    emit true\ncommand F() -> int:\n    if G():\n        emit 1\n    else:\n        emit 2\n"
      [] = (true, some (.raised)) ∧
    runs "module m\ncommand G() -> int:\n    emit 1\ncommand F() -> bool:\n    emit G == 1\n"
      [] = (true, some (.failed)) ∧
    runs "module m\ncommand G(a: int) -> int:\n    emit a\ncommand F() -> int:\n    emit G()\n"
      [] = (true, some (.failed)) ∧
    runs "module m\ncommand G(a: float, b: float = a) -> float:\n    emit b\ncommand F() -> float:\n    emit G(1.0)\n"
      [] = (true, some (.failed)) ∧
    runs "module m\ncommand G(a: int = 1, b: int) -> int:\n    emit b\ncommand F() -> int:\n    emit G(5)\n"
      [] = (true, some (.failed)) ∧
    runs "module m\ncommand F(a: int) -> int:\n    emit a\n"
      [] = (true, some (.failed)) ∧
    runs "module m\ncommand F(p: point3d) -> point3d:\n    emit p + p\n"
      [("p", .list [.flt 25])] = (true, some (.raised)) ∧
    runs "module m\ncommand F(p: point3d) -> point3d:\n    emit p * 2\n"
      [("p", .list [.flt 25])] = (true, some (.raised)) :=
  ⟨by decide +kernel, by decide +kernel, by decide +kernel, by decide +kernel, by decide +kernel, by decide +kernel, by decide +kernel, by decide +kernel⟩

/-- **C155** as stated is violated: accepted programs emit data of another type than declared, or a wrong number. In turn: a variable declared again in a loop body, the characters of a string, a negative exponent, a command with the name of a built-in function, and an argument that is not checked -/
theorem C155_violated_type :
    runs "module m\ncommand F() -> int:\n    t = 1\n    for i in range(2):\n        emit t\n        t = \"a\"\n"
      [] = (true, some (.str "a")) ∧
    runs "module m\ncommand F() -> int:\n    for c in \"ab\":\n        emit c\n"
      [] = (true, some (.str "b")) ∧
    runs "module m\ncommand F() -> int:\n    emit 2 ** -1\n"
      [] = (true, some (.flt 5)) ∧
    runs "module m\ncommand sin(a: float) -> string:\n    emit \"x\"\ncommand F() -> float:\n    emit sin(1.0)\n"
      [] = (true, some (.str "x")) ∧
    runs "module m\ncommand F(a: int) -> int:\n    emit a\n"
      [("a", .str "x")] = (true, some (.str "x")) :=
  ⟨by decide +kernel, by decide +kernel, by decide +kernel, by decide +kernel, by decide +kernel⟩

end Verif.Pipe
