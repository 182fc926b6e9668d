import Verif.Pipe.Model
import Verif.Interp.Props

/-!
# A host for examples

Floats are decimal numbers with one digit after the point, kept as tenths; there is one built-in function, `range`.
-/

namespace Verif.Pipe

open Verif.Interp (Host Data Val Op)

/-- the value of a digit -/
def digit (c : Char) : Int := c.toNat - 48

/-- tenths of a decimal literal -/
def tenths : List Char → Int → Int
  | [], n => 10 * n
  | '.' :: c :: _, n => 10 * n + digit c
  | c :: cs, n => tenths cs (10 * n + digit c)

/-- opaque things are not told apart -/
def demoEnc : Enc Int where
  flt l := tenths l 0
  lam _ _ := 0
  py _ := 0
  msg _ := "message"
  hint _ := none

/-- the host of `Verif/Interp/Props.lean` with products, string equality and `range` -/
def demoHost : Host Int := { Interp.demoHost with
  fop := fun op x y => match op with
    | .plus => some (x + y)
    | .minus => some (x - y)
    | .star => some ((x * y).fdiv 10)
    | .slash => if y = 0 then none else some ((10 * x).fdiv y)
    | _ => none
  ipow := fun a b => if a = 2 ∧ b = -1 then 5 else 0
  eq := fun a b => match a, b with
    | .str s, .str t => decide (s = t)
    | _, _ => false
  builtin := fun n => if n = "range" then some (fun vs => match vs with
      | [v] => match v.data with
        | .int n => .ok ⟨.list ((Interp.intRange 0 n).map .int), .list (.prim .int), false⟩
        | _ => .error (.other "TypeError")
      | _ => .error (.rt "arguments")) else none }

/-- what can be seen of a result -/
inductive Seen
  | refused
  | raised
  /-- unsuccessful: an error message, or failed requirements -/
  | failed
  | int (n : Int)
  | flt (tenths : Int)
  | bool (b : Bool)
  | str (s : String)
  | other
  deriving DecidableEq

/-- the emitted data of an outcome -/
def seen : Option (Outcome Int) → Option Seen
  | some .refused => some .refused
  | some .raised => some .raised
  | some (.result r) => if r.success then match r.emit with
      | some (v, _) => match v.data with
        | .int n => some (.int n)
        | .flt x => some (.flt x)
        | .bool b => some (.bool b)
        | .str s => some (.str s)
        | _ => some .other
      | none => some .other
    else some .failed
  | none => none

/-- run the command `F` of an ASCII source -/
def demoRun (src : String) (raw : List (String × Data Int)) : Option Seen :=
  seen (compileAndRun Lexer.asciiUni Checker.listOrder demoEnc demoHost 100 30 src.toList "F" raw)

end Verif.Pipe
