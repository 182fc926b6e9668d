import Verif.Kin.TransformSpec

/-! # Property C07 (rigid transform algebra) -/

namespace Verif.Kin
open Transform
variable {K : Type} [CommRing K]

theorem compose_eq_mul (A B : Transform K) : compose A B = A * B := by
  ext i j; rfl

theorem identity_eq_one : (identity : Transform K) = 1 := by
  ext i j; simp [identity, Matrix.one_apply]

/-- The rows of the rotation block are orthonormal too. -/
theorem Rigid.rows {A : Transform K} (h : Rigid A) (i j : Fin 3) :
    ∑ k : Fin 3, A (Fin.castSucc i) (Fin.castSucc k) * A (Fin.castSucc j) (Fin.castSucc k) =
      if i = j then 1 else 0 := by
  let R : Matrix (Fin 3) (Fin 3) K := fun i j => A (Fin.castSucc i) (Fin.castSucc j)
  have h1 : R.transpose * R = 1 := by
    ext i j
    simp only [Matrix.mul_apply, Matrix.transpose_apply, Matrix.one_apply]
    exact h.ortho i j
  have h2 : R * R.transpose = 1 := mul_eq_one_comm.mp h1
  have h3 := congrFun (congrFun h2 i) j
  simp only [Matrix.mul_apply, Matrix.transpose_apply, Matrix.one_apply] at h3
  exact h3

/-- C07: composition is associative. -/
theorem C07_compose_assoc (A B C : Transform K) :
    compose (compose A B) C = compose A (compose B C) := by
  simp only [compose_eq_mul, Matrix.mul_assoc]

/-- C07: the identity is neutral on both sides. -/
theorem C07_identity_neutral (A : Transform K) :
    compose identity A = A ∧ compose A identity = A := by
  simp [compose_eq_mul, identity_eq_one]

/-- C07: the inverse of a rigid transform is a left inverse. -/
theorem C07_inverse_left {A : Transform K} (h : Rigid A) : compose (inverse A) A = identity := by
  obtain ⟨b0, b1, b2, b3⟩ := h.bottom
  have o := h.ortho
  simp only [Fin.sum_univ_three] at o
  have c0 : (Fin.castSucc 0 : Fin 4) = 0 := rfl
  have c1 : (Fin.castSucc 1 : Fin 4) = 1 := rfl
  have c2 : (Fin.castSucc 2 : Fin 4) = 2 := rfl
  simp only [c0, c1, c2] at o
  have o00 := o 0 0; have o01 := o 0 1; have o02 := o 0 2
  have o10 := o 1 0; have o11 := o 1 1; have o12 := o 1 2
  have o20 := o 2 0; have o21 := o 2 1; have o22 := o 2 2
  simp only [c0, c1, c2, Fin.reduceEq, if_true, if_false] at o00 o01 o02 o10 o11 o12 o20 o21 o22
  ext i j
  fin_cases i <;> fin_cases j <;>
    simp [compose, inverse, identity, Fin.sum_univ_four, Fin.sum_univ_three, b0, b1, b2, b3, c0, c1, c2] <;>
    first
    | linear_combination o00
    | linear_combination o01
    | linear_combination o02
    | linear_combination o10
    | linear_combination o11
    | linear_combination o12
    | linear_combination o20
    | linear_combination o21
    | linear_combination o22

/-- C07: the inverse of a rigid transform is a right inverse. -/
theorem C07_inverse_right {A : Transform K} (h : Rigid A) : compose A (inverse A) = identity := by
  have := C07_inverse_left h
  rw [compose_eq_mul, identity_eq_one] at *
  exact mul_eq_one_comm.mp this

/-- C07: transforming by a composition is transforming twice (points). -/
theorem C07_point_compose (A B : Transform K) (h : Rigid B) (p : V3 K) :
    transformPoint (compose A B) p = transformPoint A (transformPoint B p) := by
  obtain ⟨b0, b1, b2, b3⟩ := h.bottom
  ext i
  fin_cases i <;>
    simp [transformPoint, act, hom, compose, Fin.sum_univ_four, b0, b1, b2, b3] <;> ring

/-- C07: and for direction vectors. -/
theorem C07_vector_compose (A B : Transform K) (h : Rigid B) (p : V3 K) :
    transformVector (compose A B) p = transformVector A (transformVector B p) := by
  obtain ⟨b0, b1, b2, b3⟩ := h.bottom
  ext i
  fin_cases i <;>
    simp [transformVector, act, hom, compose, Fin.sum_univ_four, b0, b1, b2, b3] <;> ring

/-- C07: rigid motions preserve distances. -/
theorem C07_preserves_distance {A : Transform K} (h : Rigid A) (p q : V3 K) :
    sqDist (transformPoint A p) (transformPoint A q) = sqDist p q := by
  have o := h.ortho
  have c0 : (Fin.castSucc 0 : Fin 4) = 0 := rfl
  have c1 : (Fin.castSucc 1 : Fin 4) = 1 := rfl
  have c2 : (Fin.castSucc 2 : Fin 4) = 2 := rfl
  have o00 := o 0 0; have o01 := o 0 1; have o02 := o 0 2
  have o11 := o 1 1; have o12 := o 1 2; have o22 := o 2 2
  simp only [Fin.sum_univ_three, c0, c1, c2, Fin.reduceEq, if_true, if_false] at o00 o01 o02 o11 o12 o22
  simp only [sqDist, transformPoint, act, hom, Fin.sum_univ_four, c0, c1, c2, Matrix.cons_val]
  linear_combination ((p 0 - q 0) ^ 2) * o00 + ((p 1 - q 1) ^ 2) * o11 + ((p 2 - q 2) ^ 2) * o22 +
    2 * (p 0 - q 0) * (p 1 - q 1) * o01 + 2 * (p 0 - q 0) * (p 2 - q 2) * o02 +
    2 * (p 1 - q 1) * (p 2 - q 2) * o12

/-- C07: the identity is rigid. -/
theorem C07_rigid_identity : Rigid (identity : Transform K) := by
  refine ⟨by simp [identity], fun i j => ?_⟩
  fin_cases i <;> fin_cases j <;> simp [identity, Fin.sum_univ_three]

theorem compose_block {A B : Transform K} (hB : Rigid B) (i j : Fin 3) :
    compose A B (Fin.castSucc i) (Fin.castSucc j) =
      ∑ k : Fin 3, A (Fin.castSucc i) (Fin.castSucc k) * B (Fin.castSucc k) (Fin.castSucc j) := by
  obtain ⟨b0, b1, b2, _⟩ := hB.bottom
  have : B 3 (Fin.castSucc j) = 0 := by fin_cases j <;> assumption
  simp only [compose]
  rw [Fin.sum_univ_castSucc (n := 3)]
  change _ + A i.castSucc 3 * B 3 j.castSucc = _
  rw [this]; simp

/-- C07: rigid transforms are closed under composition. -/
theorem C07_rigid_compose {A B : Transform K} (hA : Rigid A) (hB : Rigid B) :
    Rigid (compose A B) := by
  obtain ⟨a0, a1, a2, a3⟩ := hA.bottom
  obtain ⟨b0, b1, b2, b3⟩ := hB.bottom
  refine ⟨by simp [compose, Fin.sum_univ_four, a0, a1, a2, a3, b0, b1, b2, b3], fun i j => ?_⟩
  simp only [compose_block hB]
  let R : Matrix (Fin 3) (Fin 3) K := fun i j => A (Fin.castSucc i) (Fin.castSucc j)
  let S : Matrix (Fin 3) (Fin 3) K := fun i j => B (Fin.castSucc i) (Fin.castSucc j)
  have hR : R.transpose * R = 1 := by
    ext i j; simp only [Matrix.mul_apply, Matrix.transpose_apply, Matrix.one_apply]; exact hA.ortho i j
  have hS : S.transpose * S = 1 := by
    ext i j; simp only [Matrix.mul_apply, Matrix.transpose_apply, Matrix.one_apply]; exact hB.ortho i j
  have h : (R * S).transpose * (R * S) = 1 := by
    rw [Matrix.transpose_mul, Matrix.mul_assoc, ← Matrix.mul_assoc R.transpose, hR, Matrix.one_mul, hS]
  have := congrFun (congrFun h i) j
  simp only [Matrix.mul_apply, Matrix.transpose_apply, Matrix.one_apply] at this
  exact this

/-- C07: and under inverse. -/
theorem C07_rigid_inverse {A : Transform K} (hA : Rigid A) : Rigid (inverse A) := by
  refine ⟨by simp [inverse], fun i j => ?_⟩
  have := hA.rows i j
  have c0 : (Fin.castSucc 0 : Fin 4) = 0 := rfl
  have c1 : (Fin.castSucc 1 : Fin 4) = 1 := rfl
  have c2 : (Fin.castSucc 2 : Fin 4) = 2 := rfl
  simp only [Fin.sum_univ_three] at this ⊢
  rw [← this]
  fin_cases i <;> fin_cases j <;> simp [inverse, c0, c1, c2]

/-- C07: translations are rigid, and translate. -/
theorem C07_translation (x y z : K) (p : V3 K) :
    Rigid (fromTranslation x y z) ∧
    transformPoint (fromTranslation x y z) p = ![p 0 + x, p 1 + y, p 2 + z] := by
  refine ⟨⟨by simp [fromTranslation], fun i j => ?_⟩, ?_⟩
  · fin_cases i <;> fin_cases j <;> simp [fromTranslation, Fin.sum_univ_three]
  · ext i
    fin_cases i <;>
      simp [transformPoint, act, hom, fromTranslation, Fin.sum_univ_four]

theorem rot_rigid (c s : K) (h : c ^ 2 + s ^ 2 = 1) :
    Rigid (rotX c s) ∧ Rigid (rotY c s) ∧ Rigid (rotZ c s) := by
  have h' : s ^ 2 + c ^ 2 = 1 := by rw [add_comm]; exact h
  refine ⟨⟨by simp [rotX], fun i j => ?_⟩, ⟨by simp [rotY], fun i j => ?_⟩, ⟨by simp [rotZ], fun i j => ?_⟩⟩ <;>
  fin_cases i <;> fin_cases j <;> simp [rotX, rotY, rotZ, Fin.sum_univ_three] <;>
    first | linear_combination h | ring

theorem rodrigues_rigid (a : V3 K) (c s : K) (h : c ^ 2 + s ^ 2 = 1)
    (ha : a 0 ^ 2 + a 1 ^ 2 + a 2 ^ 2 = 1) : Rigid (rodrigues a c s) := by
  refine ⟨by simp [rodrigues], fun i j => ?_⟩
  generalize hx : a 0 = x at *
  generalize hy : a 1 = y at *
  generalize hz : a 2 = z at *
  fin_cases i <;> fin_cases j <;>
    simp [rodrigues, Fin.sum_univ_three, hx, hy, hz] <;>
    first
    | linear_combination (-(-(y^2+z^2))) * h - (-(y^2+z^2)) * (1 - c) ^ 2 * ha
    | linear_combination (-(-(x^2+z^2))) * h - (-(x^2+z^2)) * (1 - c) ^ 2 * ha
    | linear_combination (-(-(x^2+y^2))) * h - (-(x^2+y^2)) * (1 - c) ^ 2 * ha
    | linear_combination (-(x*y)) * h - (x*y) * (1 - c) ^ 2 * ha
    | linear_combination (-(x*z)) * h - (x*z) * (1 - c) ^ 2 * ha
    | linear_combination (-(y*z)) * h - (y*z) * (1 - c) ^ 2 * ha

/-- C07: every rotation constructor of the API yields a rigid transform, for every angle and for
every axis (an axis shorter than 1e-10 is treated as "no rotation"). -/
theorem C07_rotations_rigid (a rx ry rz x y z : ℝ) (axis : V3 ℝ) :
    Rigid (fromRotationX a) ∧ Rigid (fromRotationY a) ∧ Rigid (fromRotationZ a) ∧
    Rigid (fromEulerXyz rx ry rz) ∧ Rigid (fromAxisAngle axis a) ∧
    Rigid (fromPositionRpy x y z rx ry rz) := by
  have r (t : ℝ) := rot_rigid _ _ (Real.cos_sq_add_sin_sq (radians t))
  have he : Rigid (fromEulerXyz rx ry rz) :=
    C07_rigid_compose (C07_rigid_compose (r rx).1 (r ry).2.1) (r rz).2.2
  refine ⟨(r a).1, (r a).2.1, (r a).2.2, he, ?_, C07_rigid_compose (C07_translation x y z ![0,0,0]).1 he⟩
  unfold fromAxisAngle
  simp only
  split_ifs with h
  · exact C07_rigid_identity
  · apply rodrigues_rigid _ _ _ (Real.cos_sq_add_sin_sq _)
    have hpos : 0 < Real.sqrt (axis 0 ^ 2 + axis 1 ^ 2 + axis 2 ^ 2) := by
      have : (0:ℝ) < 1e-10 := by norm_num
      exact lt_of_lt_of_le this (not_lt.mp h)
    have hs : Real.sqrt (axis 0 ^ 2 + axis 1 ^ 2 + axis 2 ^ 2) ^ 2 =
        axis 0 ^ 2 + axis 1 ^ 2 + axis 2 ^ 2 := Real.sq_sqrt (by positivity)
    rw [div_pow, div_pow, div_pow, ← add_div, ← add_div, hs, div_self]
    rw [← hs]; positivity

/-- C07: a rotation about an axis fixes the axis. -/
theorem C07_axis_fixed (axis : V3 ℝ) (a : ℝ) : transformPoint (fromAxisAngle axis a) axis = axis := by
  unfold fromAxisAngle
  simp only
  split_ifs with h
  · ext i; fin_cases i <;> simp [transformPoint, act, hom, identity, Fin.sum_univ_four]
  · ext i
    fin_cases i <;>
      simp [transformPoint, act, hom, rodrigues, Fin.sum_univ_four, Fin.sum_univ_three] <;> ring

/-- Non-vacuity: a non-trivial rigid motion (rotate a quarter turn about z, then shift). -/
example : Rigid (compose (fromTranslation 1 2 3) (rotZ 0 1) : Transform ℚ) ∧
    transformPoint (compose (fromTranslation 1 2 3) (rotZ 0 1) : Transform ℚ) ![1, 0, 0] = ![1, 3, 3] := by
  refine ⟨C07_rigid_compose (C07_translation 1 2 3 ![0,0,0]).1 (rot_rigid 0 1 (by norm_num)).2.2, ?_⟩
  ext i
  fin_cases i <;> simp [transformPoint, act, hom, compose, fromTranslation, rotZ, Fin.sum_univ_four] <;> norm_num

/-- The rigidity hypothesis is needed: for a scaling matrix, which the API accepts
(`from_matrix`), `inverse` is not an inverse. -/
example : compose (inverse (!![2,0,0,0; 0,2,0,0; 0,0,2,0; 0,0,0,1] : Transform ℚ))
    !![2,0,0,0; 0,2,0,0; 0,0,2,0; 0,0,0,1] ≠ identity := by
  intro h
  have := congrFun (congrFun h 0) 0
  simp [compose, inverse, identity, Fin.sum_univ_four] at this
  norm_num at this

/-! ## C47 serialisation of transforms -/

/-- C47: serialising a transform and loading it back gives the same transform. -/
theorem C47_dict_roundtrip (A : Transform ℝ) : fromDict (toDict A) = some A := rfl

theorem radians_degrees (r : ℝ) : radians (degrees r) = r := by
  unfold radians degrees
  field_simp

/-- C47 is false for the Euler-angle form: `from_euler_xyz` builds `Rx·Ry·Rz` while `to_euler_xyz`
extracts angles of `Rz·Ry·Rx`, so rebuilding a rotation from its reported Euler angles can give a
different rotation. Witness: rotate by 90° about z, then 90° about x. -/
theorem C47_euler_roundtrip_fails :
    ∃ A : Transform ℝ, Rigid A ∧ A = fromEulerXyz 90 0 90 ∧
      fromEulerXyz (toEulerXyz A).1 (toEulerXyz A).2.1 (toEulerXyz A).2.2 ≠ A := by
  have r90 : radians 90 = Real.pi / 2 := by unfold radians; ring
  have r0 : radians 0 = 0 := by unfold radians; ring
  have hA : fromEulerXyz 90 0 90 = !![0, -1, 0, 0; 0, 0, -1, 0; 1, 0, 0, 0; 0, 0, 0, 1] := by
    ext i j
    fin_cases i <;> fin_cases j <;>
      simp [fromEulerXyz, fromRotationX, fromRotationY, fromRotationZ, rotX, rotY, rotZ, compose,
        Fin.sum_univ_four, r90, r0]
  refine ⟨fromEulerXyz 90 0 90, (C07_rotations_rigid 0 90 0 90 0 0 0 ![0,0,0]).2.2.2.1, rfl, ?_⟩
  rw [hA]
  have hE : toEulerXyz !![0, -1, 0, 0; 0, 0, -1, 0; 1, 0, 0, 0; 0, 0, 0, 1] =
      (degrees (Real.pi / 2), degrees (-(Real.pi / 2)), degrees 0) := by
    have a1 : atan2 1 0 = Real.pi / 2 := by
      unfold atan2
      exact Complex.arg_I
    have a2 : atan2 (-1) 0 = -(Real.pi / 2) := by
      unfold atan2
      have : (⟨0, -1⟩ : ℂ) = -Complex.I := by apply Complex.ext <;> simp
      rw [this, Complex.arg_neg_I]
    simp only [toEulerXyz]
    rw [if_neg]
    · simp [a1, a2]
    · simp
      norm_num
  rw [hE]
  intro h
  have h01 := congrFun (congrFun h 0) 1
  simp [fromEulerXyz, fromRotationX, fromRotationY, fromRotationZ, rotX, rotY, rotZ, compose,
    Fin.sum_univ_four, radians_degrees] at h01

end Verif.Kin
