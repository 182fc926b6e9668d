import Verif.Base.Dict
import Mathlib.Order.Basic

/-!
# JSON-like Python values

`None`, booleans, numbers of a type `K`, strings, lists and string-keyed dictionaries.
-/

namespace Verif.Dict

/-- Python values as they appear in JSON-like data -/
inductive Val (K : Type)
  | none
  | bool (b : Bool)
  | num (x : K)
  | str (s : String)
  | list (l : List (Val K))
  | dict (d : List (String × Val K))

variable {K : Type}

/-- Python truthiness (`if v:`); numbers need a zero test -/
def Val.truthy [DecidableEq K] [Zero K] : Val K → Bool
  | .none => false
  | .bool b => b
  | .num x => decide (x ≠ 0)
  | .str s => decide (s ≠ "")
  | .list l => !l.isEmpty
  | .dict d => !d.isEmpty

end Verif.Dict
