import Verif.Assembly.RotBetween

/-! C19 and C65: the face-mate transforms. -/

namespace Verif.Assembly
open Verif.Kin (Rigid)
open Verif.Kin.Transform (identity compose transformPoint transformVector)

/-- the unit vector along `v` -/
noncomputable def hat (v : V3) : V3 := fun i => v i / norm3 v

theorem hat_unit {v : V3} (h : v ≠ 0) : dot3 (hat v) (hat v) = 1 := dot3_unit (unit3_of_ne h)

theorem aboutM_eq {n : V3} (h : dot3 n n = 1) (c s : ℝ) :
    (c • (1 : M3) + s • skew3 n + (1 - c) • outer3 n n) = rodM n c s := by
  have h' : n 0 * n 0 + n 1 * n 1 + n 2 * n 2 = 1 := h
  ext i j
  fin_cases i <;> fin_cases j <;> simp [rodM, skew3, outer3]
  · linear_combination (1 - c) * h'
  · left; ring
  · left; ring
  · left; ring
  · linear_combination (1 - c) * h'
  · left; ring
  · left; ring
  · left; ring
  · linear_combination (1 - c) * h'

theorem about_point (R : M3) (P q : V3) (T : M4) (hT : Rigid T) :
    transformPoint (compose (compose (compose (mk4 1 P) (mk4 R 0)) (mk4 1 (-P))) T) q =
      R.mulVec (transformPoint T q - P) + P := by
  rw [Verif.Kin.C07_point_compose _ _ hT]
  generalize transformPoint T q = x
  have r1 : Rigid (mk4 1 (-P)) := (proper_mk4 isRotation_one _).1
  rw [Verif.Kin.C07_point_compose _ _ r1]
  rw [point_mk4, mulVec_one3, ← sub_eq_add_neg]
  generalize x - P = y
  ext i
  rw [Pi.add_apply, mulVec_three]
  fin_cases i <;>
    simp [transformPoint, Verif.Kin.Transform.act, Verif.Kin.Transform.hom, mk4, compose,
      Fin.sum_univ_four] <;> ring

theorem about_vector (R : M3) (P q : V3) (T : M4) (hT : Rigid T) :
    transformVector (compose (compose (compose (mk4 1 P) (mk4 R 0)) (mk4 1 (-P))) T) q =
      R.mulVec (transformVector T q) := by
  rw [Verif.Kin.C07_vector_compose _ _ hT]
  generalize transformVector T q = x
  ext i
  rw [mulVec_three]
  fin_cases i <;>
    simp [transformVector, Verif.Kin.Transform.act, Verif.Kin.Transform.hom, mk4, compose,
      Fin.sum_univ_four]

theorem rod_fixes {n : V3} (c s : ℝ) : (rodM n c s).mulVec n = n := by
  rw [rodM_mulVec]
  have : cross3 n n = 0 := by ext i; fin_cases i <;> simp [cross3] <;> ring
  rw [this]
  have h0 : cross3 n 0 = 0 := by ext i; fin_cases i <;> simp [cross3]
  rw [h0]; simp

theorem norm_rot {R : M3} (h : IsRotation R) (v : V3) : norm3 (R.mulVec v) = norm3 v := by
  unfold norm3
  congr 1
  have e (i j : Fin 3) := congrFun (congrFun h.1 i) j
  simp only [Matrix.mul_apply, Matrix.transpose_apply, Fin.sum_univ_three, Matrix.one_apply] at e
  have e00 := e 0 0; have e01 := e 0 1; have e02 := e 0 2
  have e11 := e 1 1; have e12 := e 1 2; have e22 := e 2 2
  simp at e00 e01 e02 e11 e12 e22
  unfold dot3
  rw [mulVec_three, mulVec_three, mulVec_three]
  linear_combination (v 0)^2 * e00 + 2 * v 0 * v 1 * e01 + 2 * v 0 * v 2 * e02 + (v 1)^2 * e11 +
    2 * v 1 * v 2 * e12 + (v 2)^2 * e22

/-- C19 (flush mates): for any parent and child datum with non-zero normals, any offset, any
rotation about the mating axis and either choice of `flip_normal`, the computed pose is a proper rigid
motion, takes the child datum's origin exactly to the parent datum's origin moved `offset` along the
parent normal, and takes the child normal to minus (plus, when not flipped) the parent normal — exactly,
unless the two normals are within an angle of 1e-10 of parallel without being parallel, and then with an
error below 1.5e-10. -/
theorem C19_flush (P0 C0 Pn Cn : V3) (hP : Pn ≠ 0) (hC : Cn ≠ 0) (offset rot : ℝ) (flip : Bool) :
    ∃ T, flushVec P0 C0 Pn Cn offset rot flip = some T ∧ ProperRigid T ∧
      transformPoint T C0 = P0 + offset • hat Pn ∧
      norm3 (transformVector T (hat Cn) - (if flip then -hat Pn else hat Pn)) < 1.5e-10 ∧
      (norm3 (cross3 (hat Cn) (hat Pn)) ≥ 1e-10 ∨ cross3 (hat Cn) (hat Pn) = 0 →
        transformVector T (hat Cn) = (if flip then -hat Pn else hat Pn)) := by
  have hp := hat_unit hP
  have hc := hat_unit hC
  set tgt : V3 := if flip then -hat Pn else hat Pn with htgt
  have ht : dot3 tgt tgt = 1 := by
    rw [htgt]; cases flip <;> simp
    · exact hp
    · rw [← hp]; simp [dot3]
  have hcr : cross3 (hat Cn) tgt = cross3 (hat Cn) (hat Pn) ∨
      cross3 (hat Cn) tgt = - cross3 (hat Cn) (hat Pn) := by
    rw [htgt]; cases flip
    · left; simp
    · right; ext i; fin_cases i <;> simp [cross3] <;> ring
  obtain ⟨R, hR, hrot, herr, hex⟩ := rotBetween_unit hc ht
  have hex' : (norm3 (cross3 (hat Cn) (hat Pn)) ≥ 1e-10 ∨ cross3 (hat Cn) (hat Pn) = 0) →
      R.mulVec (hat Cn) = tgt := by
    intro h; apply hex
    rcases hcr with e | e
    · rw [e]; exact h
    · rw [e, neg_eq_zero]
      have : norm3 (-cross3 (hat Cn) (hat Pn)) = norm3 (cross3 (hat Cn) (hat Pn)) := by
        unfold norm3; congr 1; simp [dot3]
      rw [this]; exact h
  unfold flushVec
  rw [unit3_of_ne hP, unit3_of_ne hC]
  change ∃ T, (match rotBetween (hat Cn) tgt with
    | none => none
    | some R => _) = some T ∧ _
  rw [hR]
  simp only
  set t : V3 := if offset = 0 then P0 - R.mulVec C0 else P0 - R.mulVec C0 + offset • hat Pn with htt
  have htt' : t = P0 - R.mulVec C0 + offset • hat Pn := by
    rw [htt]; split_ifs with h <;> simp [h]
  have hpt : transformPoint (mk4 R t) C0 = P0 + offset • hat Pn := by
    rw [point_mk4, htt']
    ext i; simp; ring
  by_cases hrz : rot = 0
  · refine ⟨mk4 R t, by rw [if_pos hrz]; rfl, proper_mk4 hrot t, hpt, ?_, ?_⟩
    · rw [vector_mk4]; exact herr
    · rw [vector_mk4]; exact hex'
  · have hA := isRotation_rodM (a := hat Pn) (c := Real.cos (radians rot)) (s := Real.sin (radians rot)) hp
      (Real.cos_sq_add_sin_sq _)
    have hrig := (proper_mk4 hrot t).1
    have hfix : ∀ q : V3, (q = hat Pn ∨ q = -hat Pn) →
        (rodM (hat Pn) (Real.cos (radians rot)) (Real.sin (radians rot))).mulVec q = q := by
      rintro q (rfl | rfl)
      · exact rod_fixes _ _
      · rw [Matrix.mulVec_neg, rod_fixes]
    have htf : tgt = hat Pn ∨ tgt = -hat Pn := by rw [htgt]; cases flip <;> simp
    refine ⟨_, by
      rw [if_neg hrz]
      change rotAboutAxis (mk4 R t) (hat Pn) P0 rot = _
      unfold rotAboutAxis
      simp only [unit3_of_unit hp, Option.map_some, aboutM_eq hp]
      exact rfl, ?_, ?_, ?_, ?_⟩
    · exact proper_compose (proper_compose (proper_compose (proper_mk4 isRotation_one _) (proper_mk4 hA _))
        (proper_mk4 isRotation_one _)) (proper_mk4 hrot t)
    · rw [about_point _ _ _ _ hrig, hpt, add_sub_cancel_left, Matrix.mulVec_smul, rod_fixes, add_comm]
    · rw [about_vector _ _ _ _ hrig, vector_mk4]
      have e : (rodM (hat Pn) (Real.cos (radians rot)) (Real.sin (radians rot))).mulVec (R.mulVec (hat Cn)) - tgt =
          (rodM (hat Pn) (Real.cos (radians rot)) (Real.sin (radians rot))).mulVec (R.mulVec (hat Cn) - tgt) := by
        rw [Matrix.mulVec_sub, hfix tgt htf]
      rw [e, norm_rot hA]; exact herr
    · intro h
      rw [about_vector _ _ _ _ hrig, vector_mk4, hex' h]
      exact hfix tgt htf

/-- C19: the constructor of plane datums guarantees the non-zero normal `C19_flush` asks for. -/
theorem C19_plane_datum_normal {d d' : Datum} (h : Datum.mk' d = some d') (ht : d'.dtype = .plane) :
    ∃ n, d'.normal = some n ∧ first3 n ≠ 0 := by
  unfold Datum.mk' at h
  cases hd : d.dtype <;> simp [hd] at h
  all_goals first
    | (subst h; simp [hd] at ht; done)
    | skip
  · cases hdir : d.direction with
    | none => simp [hdir] at h
    | some v =>
      simp only [hdir] at h
      split_ifs at h
      simp only [Option.some.injEq] at h
      rw [← h] at ht; simp [hd] at ht
  · cases hn : d.normal with
    | none => simp [hn] at h
    | some v =>
      simp only [hn] at h
      split_ifs at h with hm
      simp only [Option.some.injEq] at h
      refine ⟨asDir v, by rw [← h], ?_⟩
      intro h0
      apply hm
      have e0 := congrFun h0 0; have e1 := congrFun h0 1; have e2 := congrFun h0 2
      simp [first3, asDir] at e0 e1 e2
      simp [Verif.Xform.mag, asDir, e0, e1, e2, Verif.Xform.epsilon]
      norm_num
  · cases hx : d.xAxis <;> cases hy : d.yAxis <;> simp [hx, hy] at h
    obtain ⟨_, _, h⟩ := h
    rw [← h] at ht; simp [hd] at ht
  · cases hn : d.normal <;> cases hr : d.radius <;> simp [hn, hr] at h
    obtain ⟨_, _, h⟩ := h
    rw [← h] at ht; simp [hd] at ht

/-- C65 (violated): `FaceToFaceMate.compute_transform` never produces a transform on a mate that has
not been computed before, whatever its constraint type, registry and parent pose: it raises. -/
theorem C65_compute_transform_always_raises (m : FaceMate) (hm : m.cached = none) (reg : Reg)
    (parent : Option M4) : ∃ e, m.computeTransform reg parent = .error e := by
  unfold FaceMate.computeTransform
  simp only [hm]
  cases hP : reg m.parentSource m.parentDatum with
  | none => exact ⟨"KeyError", rfl⟩
  | some P =>
    cases hC : reg m.childSource m.childDatum with
    | none => exact ⟨"KeyError", rfl⟩
    | some C => exact ⟨"AttributeError", rfl⟩

/-- C65 (violated), the error is `AttributeError` whenever both datums exist. -/
theorem C65_attribute_error (m : FaceMate) (hm : m.cached = none) (reg : Reg) (parent : Option M4)
    (P C : Datum) (hP : reg m.parentSource m.parentDatum = some P)
    (hC : reg m.childSource m.childDatum = some C) :
    m.computeTransform reg parent = .error "AttributeError" := by
  unfold FaceMate.computeTransform
  simp only [hm, hP, hC]
  rfl

/-- C65: what does hold: a missing datum is reported as `KeyError`. -/
theorem C65_missing_datum_partial (m : FaceMate) (hm : m.cached = none) (reg : Reg) (parent : Option M4)
    (hP : reg m.parentSource m.parentDatum = none ∨ reg m.childSource m.childDatum = none) :
    m.computeTransform reg parent = .error "KeyError" := by
  unfold FaceMate.computeTransform
  simp only [hm]
  cases h1 : reg m.parentSource m.parentDatum with
  | none => rfl
  | some P =>
    rcases hP with h | h
    · simp [h1] at h
    · rw [h]; rfl

/-- the ANGLE-0 concentric transform puts the child origin `offset` along the parent axis and aligns the
axes, C19 for CONCENTRIC mates -/
theorem C19_concentric (P C : Datum) (hP : axisOf P ≠ 0) (hC : axisOf C ≠ 0) (offset : ℝ) :
    ∃ T, concentric P C offset = some T ∧ ProperRigid T ∧
      transformPoint T (first3 C.origin) = first3 P.origin + offset • hat (axisOf P) ∧
      norm3 (transformVector T (hat (axisOf C)) - hat (axisOf P)) < 1.5e-10 ∧
      (norm3 (cross3 (hat (axisOf C)) (hat (axisOf P))) ≥ 1e-10 ∨
        cross3 (hat (axisOf C)) (hat (axisOf P)) = 0 →
        transformVector T (hat (axisOf C)) = hat (axisOf P)) := by
  obtain ⟨R, hR, hrot, herr, hex⟩ := rotBetween_unit (hat_unit hC) (hat_unit hP)
  unfold concentric
  rw [unit3_of_ne hP, unit3_of_ne hC]
  change ∃ T, (rotBetween (hat (axisOf C)) (hat (axisOf P))).map _ = some T ∧ _
  rw [hR]
  refine ⟨_, rfl, proper_mk4 hrot _, ?_, ?_, ?_⟩
  · rw [point_mk4]
    ext i; simp [hat]; ring
  · rw [vector_mk4]; exact herr
  · rw [vector_mk4]; exact hex

end Verif.Assembly
