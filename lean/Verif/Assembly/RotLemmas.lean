import Verif.Assembly.Solver
import Verif.Assembly.ConstraintProps
import Verif.Kin.TransformProps
import Mathlib.LinearAlgebra.Matrix.Determinant.Basic

/-! Specification (proper rigid motions) and lemmas about rotations between vectors. -/

namespace Verif.Assembly
open Verif.Kin (Rigid)
open Verif.Kin.Transform (identity compose transformPoint transformVector)

/-- Specification: a proper rotation matrix. -/
def IsRotation (R : M3) : Prop := R.transpose * R = 1 ∧ R.det = 1

/-- Specification: a proper rigid motion (no reflection). -/
def ProperRigid (T : M4) : Prop := Rigid T ∧ (rotOf T).det = 1

theorem rotOf_mk4 (R : M3) (t : V3) : rotOf (mk4 R t) = R := by
  ext i j; fin_cases i <;> fin_cases j <;> simp [rotOf, mk4]

theorem rigid_iff (T : M4) : Rigid T ↔ (T 3 0 = 0 ∧ T 3 1 = 0 ∧ T 3 2 = 0 ∧ T 3 3 = 1) ∧
    (rotOf T).transpose * rotOf T = 1 := by
  constructor
  · rintro ⟨h1, h2⟩
    refine ⟨h1, ?_⟩
    ext i j
    rw [Matrix.mul_apply, Matrix.one_apply]
    exact h2 i j
  · rintro ⟨h1, h2⟩
    refine ⟨h1, fun i j => ?_⟩
    have := congrFun (congrFun h2 i) j
    rw [Matrix.mul_apply, Matrix.one_apply] at this
    exact this

theorem proper_mk4 {R : M3} (h : IsRotation R) (t : V3) : ProperRigid (mk4 R t) := by
  refine ⟨(rigid_iff _).2 ⟨by simp [mk4], ?_⟩, ?_⟩ <;> rw [rotOf_mk4]
  · exact h.1
  · exact h.2

theorem rotOf_compose {A B : M4} (hB : Rigid B) : rotOf (compose A B) = rotOf A * rotOf B := by
  ext i j
  rw [Matrix.mul_apply]
  obtain ⟨h0, h1, h2, h3⟩ := hB.bottom
  fin_cases i <;> fin_cases j <;>
    simp [rotOf, compose, Fin.sum_univ_four, Fin.sum_univ_three, h0, h1, h2]

theorem proper_compose {A B : M4} (hA : ProperRigid A) (hB : ProperRigid B) :
    ProperRigid (compose A B) := by
  refine ⟨Verif.Kin.C07_rigid_compose hA.1 hB.1, ?_⟩
  rw [rotOf_compose hB.1, Matrix.det_mul, hA.2, hB.2, one_mul]

theorem mulVec_three (R : M3) (p : V3) (i : Fin 3) :
    R.mulVec p i = R i 0 * p 0 + R i 1 * p 1 + R i 2 * p 2 := by
  simp [Matrix.mulVec, dotProduct, Fin.sum_univ_three]

theorem point_mk4 (R : M3) (t p : V3) : transformPoint (mk4 R t) p = R.mulVec p + t := by
  ext i
  rw [Pi.add_apply, mulVec_three]
  fin_cases i <;>
    simp [transformPoint, Verif.Kin.Transform.act, Verif.Kin.Transform.hom, mk4, Fin.sum_univ_four]

theorem vector_mk4 (R : M3) (t p : V3) : transformVector (mk4 R t) p = R.mulVec p := by
  ext i
  rw [mulVec_three]
  fin_cases i <;>
    simp [transformVector, Verif.Kin.Transform.act, Verif.Kin.Transform.hom, mk4, Fin.sum_univ_four]

theorem isRotation_one : IsRotation 1 := by simp [IsRotation]

theorem mulVec_one3 (p : V3) : (1 : M3).mulVec p = p := Matrix.one_mulVec p

/-! ### norms and unit vectors -/

theorem norm3_sq (a : V3) : norm3 a ^ 2 = dot3 a a :=
  Real.sq_sqrt (by unfold dot3; nlinarith [sq_nonneg (a 0), sq_nonneg (a 1), sq_nonneg (a 2)])

theorem norm3_nonneg (a : V3) : 0 ≤ norm3 a := Real.sqrt_nonneg _

theorem norm3_pos {a : V3} (h : a ≠ 0) : 0 < norm3 a :=
  lt_of_le_of_ne (norm3_nonneg a) (fun e => h (norm3_eq_zero.1 e.symm))

theorem unit3_some {a u : V3} (h : unit3 a = some u) :
    norm3 a ≠ 0 ∧ u = (fun i => a i / norm3 a) := by
  unfold unit3 at h
  split_ifs at h with h0
  refine ⟨h0, ?_⟩
  simp only [Option.some.injEq] at h
  rw [← h]; ext i; fin_cases i <;> simp

theorem unit3_of_ne {a : V3} (h : a ≠ 0) : unit3 a = some (fun i => a i / norm3 a) := by
  unfold unit3
  rw [if_neg (by rw [norm3_eq_zero]; exact h)]
  congr 1; ext i; fin_cases i <;> simp

theorem dot3_unit {a u : V3} (h : unit3 a = some u) : dot3 u u = 1 := by
  obtain ⟨h0, rfl⟩ := unit3_some h
  have := norm3_sq a
  unfold dot3 at this ⊢
  field_simp
  linarith

theorem norm3_of_unit {a : V3} (h : dot3 a a = 1) : norm3 a = 1 := by
  unfold norm3; rw [h]; simp

theorem unit3_of_unit {a : V3} (h : dot3 a a = 1) : unit3 a = some a := by
  have hn := norm3_of_unit h
  unfold unit3
  rw [if_neg (by rw [hn]; norm_num), hn]
  congr 1; ext i; fin_cases i <;> simp

theorem dot3_neg (a b : V3) : dot3 a (-b) = - dot3 a b := by simp [dot3]; ring

theorem dot3_comm (a b : V3) : dot3 a b = dot3 b a := by simp [dot3]; ring

/-- Lagrange's identity. -/
theorem lagrange (a b : V3) :
    dot3 (cross3 a b) (cross3 a b) = dot3 a a * dot3 b b - dot3 a b ^ 2 := by
  simp [dot3, cross3]; ring

/-! ### Rodrigues matrices -/

theorem isRotation_rodM {a : V3} {c s : ℝ} (ha : dot3 a a = 1) (h : c ^ 2 + s ^ 2 = 1) :
    IsRotation (rodM a c s) := by
  have ha' : a 0 ^ 2 + a 1 ^ 2 + a 2 ^ 2 = 1 := by unfold dot3 at ha; linarith
  constructor
  · have hr := (rigid_iff _).1 (Verif.Kin.rodrigues_rigid a c s h ha')
    have : rotOf (Verif.Kin.Transform.rodrigues a c s) = rodM a c s := by
      ext i j
      fin_cases i <;> fin_cases j <;>
        simp [rotOf, Verif.Kin.Transform.rodrigues, rodM, skew3, Matrix.mul_apply, Fin.sum_univ_three]
    rw [← this]; exact hr.2
  · have : (rodM a c s).det =
        (1 - (1 - c) * (a 0 ^ 2 + a 1 ^ 2 + a 2 ^ 2)) ^ 2 + s ^ 2 * (a 0 ^ 2 + a 1 ^ 2 + a 2 ^ 2) := by
      rw [Matrix.det_fin_three]
      simp [rodM, skew3, Matrix.mul_apply, Fin.sum_univ_three]
      ring
    rw [this, ha']
    linear_combination h

theorem rodM_mulVec (a p : V3) (c s : ℝ) :
    (rodM a c s).mulVec p = p + s • cross3 a p + (1 - c) • cross3 a (cross3 a p) := by
  ext i
  rw [mulVec_three]
  fin_cases i <;>
    simp [rodM, skew3, cross3, Matrix.mul_apply, Fin.sum_univ_three, Matrix.vecHead, Matrix.vecTail] <;> ring

theorem cross_cross (a b p : V3) : cross3 a (cross3 b p) = dot3 a p • b - dot3 a b • p := by
  ext i; fin_cases i <;> simp [cross3, dot3] <;> ring

theorem cross_smul_left (k : ℝ) (a p : V3) : cross3 (k • a) p = k • cross3 a p := by
  ext i; fin_cases i <;> simp [cross3] <;> ring

theorem cross_anti (a b : V3) : cross3 a b = - cross3 b a := by
  ext i; fin_cases i <;> simp [cross3] <;> ring

/-- rotating `a` about the unit axis `w`, with `s w = a × b`, `c = a·b`, gives `b` -/
theorem rodM_maps {a b w : V3} {c s : ℝ} (ha : dot3 a a = 1) (hw : dot3 w w = 1)
    (hwa : dot3 w a = 0) (hs : s • w = cross3 a b) (hc : c = dot3 a b) :
    (rodM w c s).mulVec a = b := by
  rw [rodM_mulVec, ← cross_smul_left, hs, cross_cross, hwa, hw, cross_anti, cross_cross, ha, ← hc]
  ext i; simp; ring

theorem isRotation_flip {p : V3} (h : dot3 p p = 1) : IsRotation ((2 : ℝ) • outer3 p p - 1) := by
  have : (2 : ℝ) • outer3 p p - 1 = rodM p (-1) 0 := by
    have h' : p 0 * p 0 + p 1 * p 1 + p 2 * p 2 = 1 := h
    ext i j
    fin_cases i <;> fin_cases j <;>
      simp [rodM, skew3, outer3, Matrix.mul_apply, Fin.sum_univ_three] <;> linarith
  rw [this]
  exact isRotation_rodM h (by norm_num)

theorem flip_mulVec {p a : V3} (h : dot3 p a = 0) : ((2 : ℝ) • outer3 p p - 1 : M3).mulVec a = -a := by
  have h' : p 0 * a 0 + p 1 * a 1 + p 2 * a 2 = 0 := h
  ext i
  rw [mulVec_three]
  fin_cases i
  · simp [outer3]; linear_combination 2 * p 0 * h'
  · simp [outer3]; linear_combination 2 * p 1 * h'
  · simp [outer3]; linear_combination 2 * p 2 * h'

/-- the chosen perpendicular is perpendicular and not zero -/
theorem perpTo_spec {a : V3} (ha : dot3 a a = 1) : perpTo a ≠ 0 ∧ dot3 (perpTo a) a = 0 := by
  have ha' : a 0 * a 0 + a 1 * a 1 + a 2 * a 2 = 1 := ha
  unfold perpTo
  constructor
  · intro h0
    split_ifs at h0 with h
    · have h1 := congrFun h0 1
      have h2 := congrFun h0 2
      simp [cross3] at h1 h2
      have := abs_lt.1 h
      nlinarith
    · have h1 := congrFun h0 0
      have h2 := congrFun h0 2
      simp [cross3] at h1 h2
      rw [h2] at h
      norm_num at h
  · split_ifs <;> simp [cross3, dot3] <;> ring

theorem unit_perp {a p : V3} (ha : dot3 a a = 1) (h : unit3 (perpTo a) = some p) :
    dot3 p p = 1 ∧ dot3 p a = 0 := by
  refine ⟨dot3_unit h, ?_⟩
  obtain ⟨h0, rfl⟩ := unit3_some h
  have := (perpTo_spec ha).2
  unfold dot3 at this ⊢
  field_simp
  linarith

theorem unit_cross {a b w : V3} (h : unit3 (cross3 a b) = some w) :
    dot3 w w = 1 ∧ dot3 w a = 0 ∧ norm3 (cross3 a b) • w = cross3 a b := by
  refine ⟨dot3_unit h, ?_, ?_⟩
  · obtain ⟨h0, rfl⟩ := unit3_some h
    unfold dot3
    field_simp
    simp [cross3]; ring
  · obtain ⟨h0, rfl⟩ := unit3_some h
    ext i
    simp
    field_simp

theorem unit3_none {a : V3} : unit3 a = none ↔ a = 0 := by
  unfold unit3
  rw [← norm3_eq_zero]
  split_ifs with h <;> simp [h]

/-- chord length between unit vectors -/
theorem chord {a b : V3} (ha : dot3 a a = 1) (hb : dot3 b b = 1) :
    dot3 (a - b) (a - b) = 2 - 2 * dot3 a b := by
  have : dot3 (a - b) (a - b) = dot3 a a + dot3 b b - 2 * dot3 a b := by simp [dot3]; ring
  rw [this, ha, hb]; ring

end Verif.Assembly
