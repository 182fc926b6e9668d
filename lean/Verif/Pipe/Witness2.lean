import Verif.Pipe.Witness

set_option maxRecDepth 100000

/-!
# More accepted programs that go wrong
-/

namespace Verif.Pipe

/-- **C155**, **C164** violated: elements of lists are truncated to integers in arithmetic when the list has a first element that is one, was concatenated to one, or came in as an argument: 2.5 + 1 is 3 -/
theorem C164_violated :
    runs "module m\ncommand F(xs: list[float]) -> float:\n    for x in xs:\n        emit x + 1\n"
      [("xs", .list [.flt 25])] = (true, some (.int 3)) ∧
    runs "module m\ncommand F() -> float:\n    emit [1, 2.5][1] + 1\n"
      [] = (true, some (.int 3)) ∧
    runs "module m\ncommand F() -> float:\n    emit ([1] + [2.5])[1] + 1\n"
      [] = (true, some (.int 3)) :=
  ⟨by decide +kernel, by decide +kernel, by decide +kernel⟩

/-- **C163** violated: the assignment `t = t + i` in a loop has no effect on `t`; with `(t)` it does -/
theorem C163_violated :
    runs "module m\ncommand F() -> int:\n    t = 0\n    for i in range(4):\n        t = t + i\n    emit t\n"
      [] = (true, some (.int 0)) ∧
    runs "module m\ncommand F() -> int:\n    t = 0\n    for i in range(4):\n        (t) = t + i\n    emit t\n"
      [] = (true, some (.int 6)) :=
  ⟨by decide +kernel, by decide +kernel⟩

/-- **C160** violated: an accepted if expression -/
theorem C160_violated :
    runs "module m\ncommand F(a: float) -> float:\n    emit if a > 0.0:\n        1.0\n    else:\n        2.0\n"
      [("a", .flt 15)] = (true, some (.failed)) :=
  by decide +kernel

/-- both operands of `and` are evaluated -/
theorem C29_no_short_circuit :
    runs "module m\ncommand F(b: bool) -> bool:\n    emit b and 1 / 0 > 0\n"
      [("b", .bool false)] = (true, some (.raised)) :=
  by decide +kernel

end Verif.Pipe
