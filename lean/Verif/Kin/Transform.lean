import Mathlib.Data.Matrix.Mul
import Mathlib.Data.Matrix.Reflection
import Mathlib.LinearAlgebra.Matrix.NonsingularInverse
import Mathlib.Analysis.SpecialFunctions.Trigonometric.Basic
import Mathlib.Analysis.SpecialFunctions.Complex.Arg
import Mathlib.Analysis.SpecialFunctions.Sqrt
import Mathlib.Tactic.FinCases
import Mathlib.Tactic.LinearCombination

/-!
# Model of `src/yapcad/kinematics/transform.py`

`Transform.matrix` is a 4x4 numpy array; numpy's `@` is Mathlib's matrix product.
-/

namespace Verif.Kin

/-- `Transform.matrix` (transform.py:56). The shape check of `__post_init__` (59-64) is the type. -/
abbrev Transform (K : Type) := Matrix (Fin 4) (Fin 4) K

namespace Transform
variable {K : Type} [CommRing K]

/-- `Transform.identity` (transform.py:68-71). -/
def identity : Transform K := fun i j => if i = j then 1 else 0

/-- `Transform.from_translation` (transform.py:73-86). -/
def fromTranslation (x y z : K) : Transform K :=
  !![1, 0, 0, x; 0, 1, 0, y; 0, 0, 1, z; 0, 0, 0, 1]

/-- `Transform.__matmul__` (transform.py:240-250). -/
def compose (A B : Transform K) : Transform K := fun i j => ∑ k, A i k * B k j

/-- `Transform.inverse` (transform.py:252-272): transpose the rotation block, `t_inv = -Rᵀ t`. -/
def inverse (A : Transform K) : Transform K :=
  let r (i j : Fin 3) : K := A (Fin.castSucc i) (Fin.castSucc j)
  let t (i : Fin 3) : K := A (Fin.castSucc i) 3
  let ti (i : Fin 3) : K := - ∑ k, r k i * t k
  !![r 0 0, r 1 0, r 2 0, ti 0;
     r 0 1, r 1 1, r 2 1, ti 1;
     r 0 2, r 1 2, r 2 2, ti 2;
     0, 0, 0, 1]

/-- A 3-vector / point. -/
abbrev V3 (K : Type) := Fin 3 → K

/-- `np.array([p[0], p[1], p[2], w])`. -/
def hom (p : V3 K) (w : K) : Fin 4 → K := ![p 0, p 1, p 2, w]

/-- `self.matrix @ v` truncated to three components. -/
def act (A : Transform K) (v : Fin 4 → K) : V3 K := fun i => ∑ k, A (Fin.castSucc i) k * v k

/-- `Transform.transform_point` (transform.py:274-282). -/
def transformPoint (A : Transform K) (p : V3 K) : V3 K := act A (hom p 1)

/-- `Transform.transform_vector` (transform.py:284-292). -/
def transformVector (A : Transform K) (p : V3 K) : V3 K := act A (hom p 0)

/-- Rotation matrices of transform.py:88-134 with `c = cos`, `s = sin` of the angle. -/
def rotX (c s : K) : Transform K := !![1, 0, 0, 0; 0, c, -s, 0; 0, s, c, 0; 0, 0, 0, 1]
/-- transform.py:104-118. -/
def rotY (c s : K) : Transform K := !![c, 0, s, 0; 0, 1, 0, 0; -s, 0, c, 0; 0, 0, 0, 1]
/-- transform.py:120-134. -/
def rotZ (c s : K) : Transform K := !![c, -s, 0, 0; s, c, 0, 0; 0, 0, 1, 0; 0, 0, 0, 1]

/-- `m[:3,:3] = R` on an identity (transform.py:184-186) for
`R = I + s K + (1-c) K²` (transform.py:175-182), with `ax` the normalised axis. -/
def rodrigues (ax : V3 K) (c s : K) : Transform K :=
  let k : Fin 3 → Fin 3 → K := ![![0, -ax 2, ax 1], ![ax 2, 0, -ax 0], ![-ax 1, ax 0, 0]]
  let r (i j : Fin 3) : K := (if i = j then 1 else 0) + s * k i j + (1 - c) * ∑ l, k i l * k l j
  !![r 0 0, r 0 1, r 0 2, 0; r 1 0, r 1 1, r 1 2, 0; r 2 0, r 2 1, r 2 2, 0; 0, 0, 0, 1]

end Transform

open Transform

/-- `math.radians`. -/
noncomputable def radians (d : ℝ) : ℝ := d * Real.pi / 180

/-- `math.degrees`. -/
noncomputable def degrees (r : ℝ) : ℝ := r * 180 / Real.pi

/-- `Transform.from_rotation_x` (transform.py:88-102). -/
noncomputable def fromRotationX (a : ℝ) : Transform ℝ := rotX (Real.cos (radians a)) (Real.sin (radians a))
/-- `Transform.from_rotation_y` (transform.py:104-118). -/
noncomputable def fromRotationY (a : ℝ) : Transform ℝ := rotY (Real.cos (radians a)) (Real.sin (radians a))
/-- `Transform.from_rotation_z` (transform.py:120-134). -/
noncomputable def fromRotationZ (a : ℝ) : Transform ℝ := rotZ (Real.cos (radians a)) (Real.sin (radians a))

/-- `Transform.from_euler_xyz` (transform.py:136-150): `Rx @ Ry @ Rz`. -/
noncomputable def fromEulerXyz (rx ry rz : ℝ) : Transform ℝ :=
  compose (compose (fromRotationX rx) (fromRotationY ry)) (fromRotationZ rz)

/-- `Transform.from_axis_angle` (transform.py:152-187). -/
noncomputable def fromAxisAngle (axis : V3 ℝ) (angle : ℝ) : Transform ℝ :=
  let norm := Real.sqrt (axis 0 ^ 2 + axis 1 ^ 2 + axis 2 ^ 2)
  if norm < 1e-10 then identity
  else rodrigues (fun i => axis i / norm) (Real.cos (radians angle)) (Real.sin (radians angle))

/-- `Transform.from_position_rpy` (transform.py:189-207). -/
noncomputable def fromPositionRpy (x y z roll pitch yaw : ℝ) : Transform ℝ :=
  compose (fromTranslation x y z) (fromEulerXyz roll pitch yaw)

/-- `math.atan2(y,x)` as the argument of `x + iy` (with `atan2(0,0) = 0`, as in Python). -/
noncomputable def atan2 (y x : ℝ) : ℝ := Complex.arg ⟨x, y⟩

/-- `Transform.to_euler_xyz` (transform.py:294-320). -/
noncomputable def toEulerXyz (R : Transform ℝ) : ℝ × ℝ × ℝ :=
  let sy := Real.sqrt (R 0 0 ^ 2 + R 1 0 ^ 2)
  if sy > 1e-6 then
    (degrees (atan2 (R 2 1) (R 2 2)), degrees (atan2 (-R 2 0) sy), degrees (atan2 (R 1 0) (R 0 0)))
  else
    (degrees (atan2 (-R 1 2) (R 1 1)), degrees (atan2 (-R 2 0) sy), degrees 0)

/-- `Transform.to_dict` (transform.py:322-333), the three serialised fields. -/
structure TDict where
  translation : Option (ℝ × ℝ × ℝ)
  rotationXyz : Option (ℝ × ℝ × ℝ)
  matrix : Option (Transform ℝ)

noncomputable def toDict (A : Transform ℝ) : TDict :=
  { translation := some (A 0 3, A 1 3, A 2 3), rotationXyz := some (toEulerXyz A), matrix := some A }

/-- `Transform.from_dict` (transform.py:335-349); `none` is the `ValueError`. -/
noncomputable def fromDict (d : TDict) : Option (Transform ℝ) :=
  match d.matrix with
  | some m => some m
  | none =>
    match d.translation, d.rotationXyz with
    | some t, some r => some (fromPositionRpy t.1 t.2.1 t.2.2 r.1 r.2.1 r.2.2)
    | _, _ => none

end Verif.Kin
