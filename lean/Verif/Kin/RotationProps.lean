import Verif.Kin.TransformProps
import Mathlib.LinearAlgebra.Matrix.Adjugate

/-! # C07 / C47: which rotation each constructor builds, and what the reported Euler angles mean -/

namespace Verif.Kin
open Transform

/-- Specification: `q` is `p` turned by the angle `t` (radians) about the unit vector `u`,
right-handed (Rodrigues' formula `q = cos t · p + sin t · (u × p) + (1 - cos t)(u·p) u`). -/
def TurnedAbout (u : V3 ℝ) (t : ℝ) (p q : V3 ℝ) : Prop :=
  let d := u 0 * p 0 + u 1 * p 1 + u 2 * p 2
  q 0 = Real.cos t * p 0 + Real.sin t * (u 1 * p 2 - u 2 * p 1) + (1 - Real.cos t) * d * u 0 ∧
  q 1 = Real.cos t * p 1 + Real.sin t * (u 2 * p 0 - u 0 * p 2) + (1 - Real.cos t) * d * u 1 ∧
  q 2 = Real.cos t * p 2 + Real.sin t * (u 0 * p 1 - u 1 * p 0) + (1 - Real.cos t) * d * u 2

/-- C07: `from_axis_angle` turns points about the (normalised) axis by the given number of degrees,
right-handed, for every axis not shorter than the tolerance 1e-10. -/
theorem C07_axis_angle_turns (axis : V3 ℝ) (a n : ℝ) (p : V3 ℝ)
    (hn : n = Real.sqrt (axis 0 ^ 2 + axis 1 ^ 2 + axis 2 ^ 2)) (h : 1e-10 ≤ n) :
    TurnedAbout (fun i => axis i / n) (a * Real.pi / 180) p (transformPoint (fromAxisAngle axis a) p) := by
  have hpos : 0 < n := lt_of_lt_of_le (by norm_num) h
  have hsq : (axis 0 / n) ^ 2 + (axis 1 / n) ^ 2 + (axis 2 / n) ^ 2 = 1 := by
    have hs : n ^ 2 = axis 0 ^ 2 + axis 1 ^ 2 + axis 2 ^ 2 := by rw [hn]; exact Real.sq_sqrt (by positivity)
    rw [div_pow, div_pow, div_pow, ← add_div, ← add_div, ← hs, div_self (by positivity)]
  unfold fromAxisAngle
  simp only
  rw [← hn, if_neg (not_lt.mpr h)]
  unfold radians TurnedAbout
  generalize Real.cos (a * Real.pi / 180) = c
  generalize Real.sin (a * Real.pi / 180) = s
  refine ⟨?_, ?_, ?_⟩ <;>
    simp [transformPoint, act, hom, rodrigues, Fin.sum_univ_four, Fin.sum_univ_three]
  · linear_combination (-(1 - c) * p 0) * hsq
  · linear_combination (-(1 - c) * p 1) * hsq
  · linear_combination (-(1 - c) * p 2) * hsq

/-- C07: the three coordinate-axis constructors are rotations about the corresponding axes. -/
theorem C07_coordinate_axes (a : ℝ) (p : V3 ℝ) :
    TurnedAbout ![1, 0, 0] (a * Real.pi / 180) p (transformPoint (fromRotationX a) p) ∧
    TurnedAbout ![0, 1, 0] (a * Real.pi / 180) p (transformPoint (fromRotationY a) p) ∧
    TurnedAbout ![0, 0, 1] (a * Real.pi / 180) p (transformPoint (fromRotationZ a) p) := by
  refine ⟨?_, ?_, ?_⟩ <;> refine ⟨?_, ?_, ?_⟩ <;>
    simp [transformPoint, act, hom, fromRotationX, fromRotationY, fromRotationZ, rotX, rotY, rotZ,
      Fin.sum_univ_four, radians] <;> ring

/-- C07: `from_axis_angle` about a coordinate axis is the coordinate-axis constructor. -/
theorem C07_axis_angle_coordinate (a : ℝ) :
    fromAxisAngle ![1, 0, 0] a = fromRotationX a ∧ fromAxisAngle ![0, 1, 0] a = fromRotationY a ∧
    fromAxisAngle ![0, 0, 1] a = fromRotationZ a := by
  refine ⟨?_, ?_, ?_⟩ <;> unfold fromAxisAngle <;>
    rw [if_neg (by simp; norm_num)] <;> ext i j <;> fin_cases i <;> fin_cases j <;>
    simp [fromRotationX, fromRotationY, fromRotationZ, rotX, rotY, rotZ, rodrigues, Fin.sum_univ_three]

/-- C07: `transform_vector` moves the difference of two points to the difference of their images:
directions turn and are not shifted. No rigidity needed. -/
theorem C07_vector_difference {K : Type} [CommRing K] (A : Transform K) (p q : V3 K) :
    transformVector A (fun i => p i - q i) = fun i => transformPoint A p i - transformPoint A q i := by
  ext i
  simp [transformVector, transformPoint, act, hom, Fin.sum_univ_four]
  ring

/-! ## Euler angles -/

/-- The cofactor identities of a proper rotation that are needed below. -/
theorem proper_cofactor {A : Transform ℝ} (h : Rigid A)
    (hdet : (A.submatrix Fin.castSucc Fin.castSucc : Matrix (Fin 3) (Fin 3) ℝ).det = 1) :
    A 2 2 = A 0 0 * A 1 1 - A 0 1 * A 1 0 ∧ A 2 1 = A 0 2 * A 1 0 - A 0 0 * A 1 2 := by
  set R : Matrix (Fin 3) (Fin 3) ℝ := A.submatrix Fin.castSucc Fin.castSucc with hR
  have h1 : R.transpose * R = 1 := by
    ext i j
    simp only [Matrix.mul_apply, Matrix.transpose_apply, Matrix.one_apply]
    exact h.ortho i j
  have h2 : R * R.transpose = 1 := mul_eq_one_comm.mp h1
  have h3 : R.adjugate = R.transpose := by
    calc R.adjugate = R.adjugate * (R * R.transpose) := by rw [h2, mul_one]
      _ = R.transpose := by rw [← mul_assoc, Matrix.adjugate_mul, hdet, one_smul, one_mul]
  rw [Matrix.adjugate_fin_three] at h3
  have e22 := congrFun (congrFun h3 2) 2
  have e12 := congrFun (congrFun h3 1) 2
  simp [hR] at e22 e12
  exact ⟨e22.symm, by linarith⟩

theorem cos_atan2 (y x n : ℝ) (hn : n ^ 2 = x ^ 2 + y ^ 2) (h0 : 0 < n) :
    Real.cos (atan2 y x) = x / n ∧ Real.sin (atan2 y x) = y / n := by
  have hz : (⟨x, y⟩ : ℂ) ≠ 0 := by
    intro h
    have hx : x = 0 := congrArg Complex.re h
    have hy : y = 0 := congrArg Complex.im h
    rw [hx, hy] at hn
    nlinarith
  have hnorm : ‖(⟨x, y⟩ : ℂ)‖ = n := by
    rw [Complex.norm_def, Complex.normSq_mk, show x * x + y * y = n ^ 2 by rw [hn]; ring,
      Real.sqrt_sq h0.le]
  unfold atan2
  rw [Complex.cos_arg hz, Complex.sin_arg, hnorm]
  exact ⟨rfl, rfl⟩

/-- C47: what the angles reported by `to_euler_xyz` mean. For every proper rotation (with or without
a translation) away from gimbal lock, turning by the first angle about x, then by the second about
the fixed y axis, then by the third about the fixed z axis reproduces its rotation. (This is the
order opposite to the one `from_euler_xyz` uses, which is why the round trip fails.) -/
theorem C47_euler_meaning_partial {A : Transform ℝ} (h : Rigid A)
    (hdet : (A.submatrix Fin.castSucc Fin.castSucc : Matrix (Fin 3) (Fin 3) ℝ).det = 1)
    (hg : Real.sqrt (A 0 0 ^ 2 + A 1 0 ^ 2) > 1e-6) (p : V3 ℝ) :
    transformVector A p =
      transformVector (fromRotationZ (toEulerXyz A).2.2)
        (transformVector (fromRotationY (toEulerXyz A).2.1)
          (transformVector (fromRotationX (toEulerXyz A).1) p)) := by
  obtain ⟨c22, c21⟩ := proper_cofactor h hdet
  set n := Real.sqrt (A 0 0 ^ 2 + A 1 0 ^ 2) with hn
  have hpos : 0 < n := lt_trans (by norm_num) hg
  have hn2 : n ^ 2 = A 0 0 ^ 2 + A 1 0 ^ 2 := Real.sq_sqrt (by positivity)
  have o00 := h.ortho 0 0
  have o01 := h.ortho 0 1
  have o02 := h.ortho 0 2
  have r22 := h.rows 2 2
  simp [Fin.sum_univ_three] at o00 o01 o02 r22
  have hx : n ^ 2 = A 2 2 ^ 2 + A 2 1 ^ 2 := by rw [hn2]; linarith
  have hy : (1:ℝ) ^ 2 = n ^ 2 + (-A 2 0) ^ 2 := by rw [hn2]; linarith
  obtain ⟨cx, sx⟩ := cos_atan2 (A 2 1) (A 2 2) n hx hpos
  obtain ⟨cy, sy⟩ := cos_atan2 (-A 2 0) n 1 hy one_pos
  obtain ⟨cz, sz⟩ := cos_atan2 (A 1 0) (A 0 0) n hn2 hpos
  have hE : toEulerXyz A = (degrees (atan2 (A 2 1) (A 2 2)), degrees (atan2 (-A 2 0) n),
      degrees (atan2 (A 1 0) (A 0 0))) := by
    unfold toEulerXyz; simp only; rw [← hn, if_pos hg]
  rw [hE]
  have hne : n ≠ 0 := hpos.ne'
  ext i
  fin_cases i <;>
    simp [transformVector, act, hom, fromRotationX, fromRotationY, fromRotationZ, rotX, rotY, rotZ,
      Fin.sum_univ_four, radians_degrees, cx, sx, cy, sy, cz, sz] <;> field_simp
  · linear_combination p 1 * (A 0 1 * hn2 + A 0 0 * o01 + A 1 0 * c22) +
      p 2 * (A 0 2 * hn2 + A 0 0 * o02 - A 1 0 * c21)
  · linear_combination p 1 * (A 1 1 * hn2 + A 1 0 * o01 - A 0 0 * c22) +
      p 2 * (A 1 2 * hn2 + A 1 0 * o02 + A 0 0 * c21)
  · ring

/-- The hypotheses of `C47_euler_meaning_partial` hold for every rotation about z. -/
example (a : ℝ) : Rigid (fromRotationZ a) ∧
    ((fromRotationZ a).submatrix Fin.castSucc Fin.castSucc : Matrix (Fin 3) (Fin 3) ℝ).det = 1 ∧
    Real.sqrt ((fromRotationZ a) 0 0 ^ 2 + (fromRotationZ a) 1 0 ^ 2) > 1e-6 := by
  refine ⟨(C07_rotations_rigid a 0 0 0 0 0 0 ![0, 0, 0]).2.2.1, ?_, ?_⟩
  · rw [Matrix.det_fin_three]
    simp [fromRotationZ, rotZ]
    linarith [Real.cos_sq_add_sin_sq (radians a)]
  · simp [fromRotationZ, rotZ]
    norm_num

end Verif.Kin
