import Mathlib.Algebra.Order.Floor.Ring
import Mathlib.Algebra.Order.Field.Basic
import Mathlib.Tactic.Linarith
import Mathlib.Tactic.FieldSimp
import Mathlib.Tactic.NormNum
import Mathlib.Tactic.Ring
import Mathlib.Analysis.SpecialFunctions.Exp
import Mathlib.Analysis.Real.Pi.Bounds
import Verif.Types.Model

/-!
# Model of the numeric and list built-ins of the DSL: `src/yapcad/dsl/runtime/builtins.py`

Floats are elements of an ordered field with a floor (no rounding, infinities or NaN). A value is data and a type, as in values.py:23-31. Exceptions are their Python names.
-/

namespace Verif.Builtin
open Verif.Types

/-- Python data in a DSL value: integers, floats, booleans, strings, lists -/
inductive Data (K : Type)
  | int (n : Int)
  | flt (x : K)
  | bool (b : Bool)
  | str (s : String)
  | list (l : List (Data K))

/-- `Value`, values.py:23-31 -/
structure Val (K : Type) where
  data : Data K
  ty : Ty

/-- a number: the data of values of type int or float -/
inductive Num (K : Type)
  | int (n : Int)
  | flt (x : K)

/-- result of a builtin: a value or the name of an exception -/
abbrev Res (K : Type) := Except String (Val K)

section
variable {K : Type} [Field K] [LinearOrder K] [IsStrictOrderedRing K]

/-- the number itself -/
def Num.val : Num K → K
  | .int n => n
  | .flt x => x

/-- the type of the value the number comes in is int -/
def Num.isInt : Num K → Bool
  | .int _ => true
  | .flt _ => false

/-- `int_val`, values.py:52-54, of an integer -/
def intVal (n : Int) : Val K := ⟨.int n, .prim .int⟩
/-- `float_val`, values.py:57-59 -/
def floatVal (x : K) : Val K := ⟨.flt x, .prim .float⟩
/-- `bool_val`, values.py:62-64 -/
def boolVal (b : Bool) : Val K := ⟨.bool b, .prim .bool⟩

/-- `abs`, builtins.py:150-153 -/
def absB : Num K → Val K
  | .int n => intVal |n|
  | .flt x => floatVal |x|

/-- Python's `min` of a non-empty list: the first of the least -/
def pyMin : Num K → List (Num K) → Num K
  | m, [] => m
  | m, x :: xs => pyMin (if x.val < m.val then x else m) xs

/-- Python's `max` of a non-empty list: the first of the greatest -/
def pyMax : Num K → List (Num K) → Num K
  | m, [] => m
  | m, x :: xs => pyMax (if m.val < x.val then x else m) xs

/-- `int_val(x)` of a number: an integer (here only of integers) or `float_val(x)`, builtins.py:167-169, 174-176 -/
def wrapNum (allInt : Bool) (x : Num K) : Val K :=
  match allInt, x with
  | true, .int n => intVal n
  | _, x => floatVal x.val

/-- `min`, builtins.py:164-169 -/
def minB : List (Num K) → Res K
  | [] => .error "ValueError"
  | x :: xs => .ok (wrapNum ((x :: xs).all Num.isInt) (pyMin x xs))

/-- `max`, builtins.py:171-176 -/
def maxB : List (Num K) → Res K
  | [] => .error "ValueError"
  | x :: xs => .ok (wrapNum ((x :: xs).all Num.isInt) (pyMax x xs))

variable [FloorRing K]

/-- `floor`, builtins.py:155-156 -/
def floorB (x : Num K) : Val K := intVal ⌊x.val⌋

/-- `ceil`, builtins.py:158-159 -/
def ceilB (x : Num K) : Val K := intVal ⌈x.val⌉

/-- Python's `round(x)`: to the nearest integer, halves to the even one -/
def pyRound (x : K) : Int :=
  if Int.fract x < 1 / 2 then ⌊x⌋
  else if 1 / 2 < Int.fract x then ⌊x⌋ + 1
  else if ⌊x⌋ % 2 = 0 then ⌊x⌋ else ⌊x⌋ + 1

/-- `round`, builtins.py:161-162 -/
def roundB (x : Num K) : Val K := intVal (pyRound x.val)
end

/-- `radians`, builtins.py:181-182 -/
noncomputable def radiansB (x : Num ℝ) : Val ℝ := floatVal (x.val * Real.pi / 180)
/-- `degrees`, builtins.py:184-185 -/
noncomputable def degreesB (x : Num ℝ) : Val ℝ := floatVal (x.val * 180 / Real.pi)
/-- `pi`, builtins.py:187-188 -/
noncomputable def piB : Val ℝ := floatVal Real.pi
/-- `tau`, builtins.py:190-191 -/
noncomputable def tauB : Val ℝ := floatVal (2 * Real.pi)

/-- `exp`, builtins.py:193-200 -/
noncomputable def expB (x : Num ℝ) : Val ℝ :=
  floatVal (Real.exp (if x.val > 700 then 700 else if x.val < -700 then -700 else x.val))

/-! ## lists -/

section
variable {K : Type}

/-- number of elements of `range(lo, hi, step)`, step not 0 (CPython's `compute_range_length`) -/
def rangeLen (lo hi step : Int) : Nat :=
  if 0 < step then (if lo < hi then (1 + (hi - 1 - lo) / step).toNat else 0)
  else (if hi < lo then (1 + (lo - 1 - hi) / (-step)).toNat else 0)

/-- the integers of `range(lo, hi, step)`, step not 0 -/
def rangeList (lo hi step : Int) : List Int := (List.range (rangeLen lo hi step)).map fun i : Nat => lo + step * (i : Int)

/-- `range` of integers, builtins.py:2914-2924. More than three arguments: the rest is ignored. -/
def rangeB : List Int → Res K
  | [] => .error "IndexError"
  | [b] => .ok ⟨.list ((rangeList 0 b 1).map .int), .list (.prim .int)⟩
  | [a, b] => .ok ⟨.list ((rangeList a b 1).map .int), .list (.prim .int)⟩
  | a :: b :: s :: _ =>
    if s = 0 then .error "ValueError" else .ok ⟨.list ((rangeList a b s).map .int), .list (.prim .int)⟩

/-- a value of a list type: its element type and its elements -/
structure LVal (K : Type) where
  elem : Ty
  items : List (Data K)

/-- the list value as a value -/
def LVal.toVal (l : LVal K) : Val K := ⟨.list l.items, .list l.elem⟩

/-- `len`, builtins.py:2910-2912 -/
def lenB (l : LVal K) : Val K := intVal l.items.length

/-- `concat`, builtins.py:2931-2937 -/
def concatB (a b : LVal K) : LVal K := ⟨a.elem, a.items ++ b.items⟩

/-- `reverse`, builtins.py:2939-2944 -/
def reverseB (l : LVal K) : LVal K := ⟨l.elem, l.items.reverse⟩

/-- one element in `flatten`, builtins.py:2955-2959 -/
def spread : Data K → List (Data K)
  | .list l => l
  | d => [d]

/-- `flatten`, builtins.py:2946-2960 -/
def flattenB (l : LVal K) : LVal K :=
  ⟨match l.elem with
    | .list t => t
    | _ => .unknown, l.items.flatMap spread⟩

/-! ## aggregation -/

variable [Field K] [LinearOrder K] [IsStrictOrderedRing K]

/-- `sum` of a list of numbers, builtins.py:2995-3001 -/
def sumB (l : List (Num K)) : Val K := floatVal (l.foldl (fun t x => t + x.val) 0)

/-- `product` of a list of numbers, builtins.py:3003-3009 -/
def productB (l : List (Num K)) : Val K := floatVal (l.foldl (fun t x => t * x.val) 1)

/-- `any_true` of a list of booleans, builtins.py:3011-3017 -/
def anyB : List Bool → Val K
  | [] => boolVal false
  | b :: bs => if b then boolVal true else anyB bs

/-- `all_true` of a list of booleans, builtins.py:3019-3025 -/
def allB : List Bool → Val K
  | [] => boolVal true
  | b :: bs => if !b then boolVal false else allB bs

/-- `min_of`, builtins.py:3027-3032 -/
def minOfB : List (Num K) → Res K
  | [] => .error "ValueError"
  | x :: xs => .ok (floatVal (pyMin x xs).val)

/-- `max_of`, builtins.py:3034-3039 -/
def maxOfB : List (Num K) → Res K
  | [] => .error "ValueError"
  | x :: xs => .ok (floatVal (pyMax x xs).val)
end

end Verif.Builtin
