import Mathlib.Data.Real.Sqrt
import Mathlib.Analysis.SpecialFunctions.Trigonometric.Basic
import Mathlib.Data.Fin.VecNotation

/-!
# Model of `src/yapcad/xform.py`

Numbers are elements of an arbitrary field `K` (the reals for `Rotation`); floating-point rounding is
not modelled. 4-vectors are `Fin 4 → K`. Row/element type checks (`isvect`, `isgoodnum`) are
always true of the values of the model, so the corresponding `ValueError`s do not appear.
A separate heap model (`Heap`, below) is used for the statement about shared rows.
-/

namespace Verif.Xform
variable {K : Type} [Field K]

abbrev Vec4 (K : Type) := Fin 4 → K

/-- class `Matrix`: `self.m` and `self.trans`, xform.py:48-97 -/
structure Mat (K : Type) where
  m : Fin 4 → Fin 4 → K
  trans : Bool

/-- `Matrix()`, xform.py:52-56 -/
def Mat.ident : Mat K := ⟨fun i j => if i = j then 1 else 0, false⟩

/-- `Matrix([r1,r2,r3,r4])`, xform.py:63-77: four rows of four numbers -/
def Mat.ofRows (a : Fin 4 → Fin 4 → K) : Mat K := ⟨a, false⟩

/-- `Matrix([x0,...,x15])`, xform.py:78-87 (`m[i][j] = a[i*4+j]`); `none` if the list does not have
16 elements (for other lengths see `Mat.ofRows`, `ValueError`) -/
def Mat.ofFlat (a : List K) : Option (Mat K) :=
  if h : a.length = 16 then
    some ⟨fun i j => a.get ⟨i.val * 4 + j.val, by have := i.isLt; have := j.isLt; omega⟩, false⟩
  else none

/-- `get(i,j)` after the range check, xform.py:99-105 -/
def Mat.get (A : Mat K) (i j : Fin 4) : K := if A.trans then A.m j i else A.m i j

/-- the range check of `get`/`set`/`getrow`/… on integer indices, xform.py:100-101 etc. -/
def idx (i : Int) : Option (Fin 4) :=
  if h : i < 0 ∨ i > 3 then none else some ⟨i.toNat, by omega⟩

/-- `get(i,j)`, xform.py:99-105; `none` = ValueError -/
def Mat.get? (A : Mat K) (i j : Int) : Option K :=
  match idx i, idx j with
  | some i, some j => some (A.get i j)
  | _, _ => none

/-- `set(i,j,x)` after the range check, xform.py:108-118 -/
def Mat.set (A : Mat K) (i j : Fin 4) (x : K) : Mat K :=
  if A.trans then { A with m := Function.update A.m j (Function.update (A.m j) i x) }
  else { A with m := Function.update A.m i (Function.update (A.m i) j x) }

/-- `set(i,j,x)`, xform.py:108-118; `none` = ValueError -/
def Mat.set? (A : Mat K) (i j : Int) (x : K) : Option (Mat K) :=
  match idx i, idx j with
  | some i, some j => some (A.set i j x)
  | _, _ => none

/-- `getrow(i)`, xform.py:120-129 -/
def Mat.getrow (A : Mat K) (i : Fin 4) : Vec4 K :=
  if A.trans then ![A.m 0 i, A.m 1 i, A.m 2 i, A.m 3 i] else A.m i

/-- `getcol(j)`, xform.py:131-140 -/
def Mat.getcol (A : Mat K) (j : Fin 4) : Vec4 K :=
  if !A.trans then ![A.m 0 j, A.m 1 j, A.m 2 j, A.m 3 j] else A.m j

/-- `setrow(i,x)`, xform.py:142-153 -/
def Mat.setrow (A : Mat K) (i : Fin 4) (x : Vec4 K) : Mat K :=
  if A.trans then { A with m := fun r => Function.update (A.m r) i (x r) }
  else { A with m := Function.update A.m i x }

/-- `setcol(j,x)`, xform.py:155-166 -/
def Mat.setcol (A : Mat K) (j : Fin 4) (x : Vec4 K) : Mat K :=
  if !A.trans then { A with m := fun r => Function.update (A.m r) j (x r) }
  else { A with m := Function.update A.m j x }

/-- `range(4)` -/
def range4 : List (Fin 4) := [0, 1, 2, 3]

/-- `Matrix(a, trans)` for a `Matrix` a, xform.py:56-60,92: rows copied (into an untransposed
matrix) with `setrow(i, a.getrow(i))`, then the flag is set -/
def Mat.copy (A : Mat K) (trans : Bool := false) : Mat K :=
  { range4.foldl (fun r i => r.setrow i (A.getrow i)) Mat.ident with trans := trans }

/-- `geom.dot4`, geom.py:1811-1813 -/
def dot4 (a b : Vec4 K) : K := a 0 * b 0 + a 1 * b 1 + a 2 * b 2 + a 3 * b 3

/-- `mul(x)` for a matrix, xform.py:179-185 -/
def Mat.mul (A B : Mat K) : Mat K :=
  range4.foldl (fun r i => range4.foldl (fun r j => r.set i j (dot4 (A.getrow i) (B.getcol j))) r)
    Mat.ident

/-- `mul(x)` for a 4-vector, xform.py:186-190 -/
def Mat.mulVec (A : Mat K) (x : Vec4 K) : Vec4 K :=
  range4.foldl (fun r i => Function.update r i (dot4 (A.getrow i) x)) ![0, 0, 0, 1]

/-- `geom.scale4`, geom.py:1721-1723 -/
def scale4 (a : Vec4 K) (c : K) : Vec4 K := ![a 0 * c, a 1 * c, a 2 * c, a 3 * c]

/-- `mul(x)` for a number, xform.py:191-195 -/
def Mat.mulScalar (A : Mat K) (x : K) : Mat K :=
  range4.foldl (fun r i => r.setrow i (scale4 (A.getrow i) x)) Mat.ident

/-- `geom.scale3`, geom.py:1682-1684 (sets w to 1) -/
def scale3 (a : Vec4 K) (c : K) : Vec4 K := ![a 0 * c, a 1 * c, a 2 * c, 1]

/-- `Translation(delta, inverse)`, xform.py:239-249 -/
def translation (delta : Vec4 K) (inverse : Bool := false) : Mat K :=
  let d := if inverse then scale3 delta (-1) else delta
  Mat.ofRows ![![1, 0, 0, d 0], ![0, 1, 0, d 1], ![0, 0, 1, d 2], ![0, 0, 0, 1]]

/-- first argument(s) of `Scale` -/
inductive ScaleArg (K : Type)
  /-- `Scale(x, y, z)`; `y`, `z` are `none` when omitted (`False`) -/
  | nums (x : K) (y z : Option K)
  /-- `Scale(vect)` -/
  | vec (v : Vec4 K)

/-- the three factors chosen by `Scale`, xform.py:252-265 -/
def scaleFactors : ScaleArg K → K × K × K
  | .nums x y z =>
    match y, z with
    | some y, some z => (x, y, z)
    | _, _ => (x, x, x)
  | .vec v => (v 0, v 1, v 2)

/-- `Scale(x,y,z,inverse)`, xform.py:251-276; `none` = ZeroDivisionError -/
def scale [DecidableEq K] (a : ScaleArg K) (inverse : Bool := false) : Option (Mat K) :=
  let s := scaleFactors a
  if inverse then
    if s.1 = 0 ∨ s.2.1 = 0 ∨ s.2.2 = 0 then none
    else some (Mat.ofRows ![![1 / s.1, 0, 0, 0], ![0, 1 / s.2.1, 0, 0], ![0, 0, 1 / s.2.2, 0], ![0, 0, 0, 1]])
  else some (Mat.ofRows ![![s.1, 0, 0, 0], ![0, s.2.1, 0, 0], ![0, 0, s.2.2, 0], ![0, 0, 0, 1]])

/-! ## rotations (over the reals) -/

/-- `geom.epsilon`, geom.py:1604 -/
noncomputable def epsilon : ℝ := 0.000005

/-- `geom.mag`, geom.py:1746-1748 -/
noncomputable def mag (a : Vec4 ℝ) : ℝ := Real.sqrt (a 0 * a 0 + a 1 * a 1 + a 2 * a 2)

/-- Python's float `%` for a positive modulus -/
noncomputable def pymod (a b : ℝ) : ℝ := a - b * ⌊a / b⌋

/-- outcome of `Rotation` -/
inductive RotErr
  | zeroAxis        -- ValueError, xform.py:204-205
  | attributeError  -- `geom.geom` does not exist, xform.py:206-207
deriving DecidableEq

/-- the matrix built by `Rotation` from the axis `u` and the angle in radians, xform.py:211-235 -/
noncomputable def rotMat (u : Vec4 ℝ) (rad : ℝ) : Mat ℝ :=
  let c := Real.cos rad
  let cm := 1 - c
  let s := Real.sin rad
  Mat.ofRows
    ![![c + u 0 * u 0 * cm, u 0 * u 1 * cm - u 2 * s, u 0 * u 2 * cm + u 1 * s, 0],
      ![u 1 * u 0 * cm + u 2 * s, c + u 1 * u 1 * cm, u 1 * u 2 * cm - u 0 * s, 0],
      ![u 2 * u 0 * cm - u 1 * s, u 2 * u 1 * cm + u 0 * s, c + u 2 * u 2 * cm, 0],
      ![0, 0, 0, 1]]

/-- `Rotation(axis, angle, inverse)`, xform.py:201-237. When the axis is not a unit vector (within
epsilon) the code evaluates `geom.geom.scale3`, which raises `AttributeError` because module
`yapcad.geom` has no attribute `geom` (geom.py:1596-1600 are its imports). -/
noncomputable def rotation (axis : Vec4 ℝ) (angle : ℝ) (inverse : Bool := false) :
    Except RotErr (Mat ℝ) :=
  let m := mag axis
  if m < epsilon then .error .zeroAxis
  else if ¬ |m - 1| < epsilon then .error .attributeError
  else
    let angle := if inverse then angle * (-1) else angle
    .ok (rotMat axis (pymod angle 360 * (2 * Real.pi) / 360))

/-! ## shared rows: a heap model of `Matrix(a)`

Rows are Python list objects; `getrow` of an untransposed matrix returns the row object itself
(xform.py:129) and `setrow` of an untransposed matrix stores the object it is given
(xform.py:153), so a copy shares its rows with the original. -/

/-- the store of row objects -/
abbrev Heap (K : Type) := Nat → Vec4 K

/-- a matrix object: the identities of its four row lists, and the flag -/
structure MatObj where
  rows : Fin 4 → Nat
  trans : Bool

/-- allocation pointer is explicit: rows `n, n+1, n+2, n+3` are fresh -/
def hCopy (h : Heap K) (n : Nat) (A : MatObj) : Heap K × MatObj :=
  if A.trans then
    -- getrow builds new lists
    (fun k => if k = n then fun r => h (A.rows r) 0
      else if k = n + 1 then fun r => h (A.rows r) 1
      else if k = n + 2 then fun r => h (A.rows r) 2
      else if k = n + 3 then fun r => h (A.rows r) 3
      else h k, ⟨fun i => n + i.val, false⟩)
  else (h, ⟨A.rows, false⟩)

/-- logical entry of a matrix object -/
def hGet (h : Heap K) (A : MatObj) (i j : Fin 4) : K :=
  if A.trans then h (A.rows j) i else h (A.rows i) j

/-- `set(i,j,x)` mutates one row list in place, xform.py:112-115 -/
def hSet (h : Heap K) (A : MatObj) (i j : Fin 4) (x : K) : Heap K :=
  if A.trans then Function.update h (A.rows j) (Function.update (h (A.rows j)) i x)
  else Function.update h (A.rows i) (Function.update (h (A.rows i)) j x)

end Verif.Xform
