import Verif.Assembly.Datum

/-! # C54: datums move with their part -/

namespace Verif.Assembly
open Verif.Xform

/-- A 4x4 matrix that moves space rigidly: last row (0,0,0,1) and distance preserving on directions. -/
structure Rigid (M : Mat ℝ) : Prop where
  last : ∀ j, M.get 3 j = if j = 3 then 1 else 0
  iso : ∀ v : Vec4 ℝ, v 3 = 0 → mag (M.mulVec v) = mag v

/-- a well-formed datum (what the constructor establishes), with unit direction vectors -/
structure UnitDatum (d : Datum) : Prop where
  origin : d.origin 3 = 1
  direction : ∀ v, d.direction = some v → v 3 = 0 ∧ mag v = 1
  normal : ∀ v, d.normal = some v → v 3 = 0 ∧ mag v = 1
  xAxis : ∀ v, d.xAxis = some v → v 3 = 0 ∧ mag v = 1
  yAxis : ∀ v, d.yAxis = some v → v 3 = 0 ∧ mag v = 1
  need : match d.dtype with
    | .axis => d.direction.isSome ∧ d.normal = none ∧ d.xAxis = none ∧ d.yAxis = none
    | .plane => d.normal.isSome ∧ d.direction = none ∧ d.xAxis = none ∧ d.yAxis = none
    | .circle => d.normal.isSome ∧ (∃ r, d.radius = some r ∧ 0 < r) ∧ d.direction = none ∧
        d.xAxis = none ∧ d.yAxis = none
    | .frame => d.xAxis.isSome ∧ d.yAxis.isSome ∧ d.direction = none ∧ d.normal = none
    | .point => d.direction = none ∧ d.normal = none ∧ d.xAxis = none ∧ d.yAxis = none

theorem eps_lt_one : epsilon < 1 := by unfold epsilon; norm_num

theorem mulVec3 {M : Mat ℝ} (hM : Rigid M) (v : Vec4 ℝ) : M.mulVec v 3 = v 3 := by
  rw [mulVec_get]
  unfold dot4
  simp only [getrow_eq, hM.last]
  simp

theorem asDir_eq {v : Vec4 ℝ} (h : v 3 = 0) : asDir v = v := by
  funext i; fin_cases i <;> simp [asDir, h]

theorem asPoint_eq {v : Vec4 ℝ} (h : v 3 = 1) : asPoint v = v := by
  funext i; fin_cases i <;> simp [asPoint, h]

theorem transformVec_unit {M : Mat ℝ} (hM : Rigid M) {v : Vec4 ℝ} (h : v 3 = 0) (hm : mag v = 1) :
    asDir (transformVec M v) = M.mulVec v ∧ mag (asDir (transformVec M v)) = 1 := by
  have h1 : mag (M.mulVec v) = 1 := by rw [hM.iso v h, hm]
  have h2 : asDir (transformVec M v) = M.mulVec v := by
    unfold transformVec
    simp only [h1, eps_lt_one, gt_iff_lt, if_true]
    funext i
    have := mulVec3 hM v
    fin_cases i <;> simp [asDir, scale3]
    rw [this, h]
  exact ⟨h2, by rw [h2]; exact h1⟩

/-- Specification: the datum moved by `M` — the origin as a point, the directions as directions. -/
noncomputable def movedBy (M : Mat ℝ) (d : Datum) : Datum :=
  { d with
    origin := M.mulVec d.origin
    direction := d.direction.map M.mulVec
    normal := d.normal.map M.mulVec
    xAxis := d.xAxis.map M.mulVec
    yAxis := d.yAxis.map M.mulVec }

theorem mk'_moved (d : Datum) (hd : UnitDatum d) (M : Mat ℝ) (hM : Rigid M) :
    Datum.mk' { d with
      origin := M.mulVec d.origin
      direction := d.direction.map (transformVec M)
      normal := d.normal.map (transformVec M)
      xAxis := d.xAxis.map (transformVec M)
      yAxis := d.yAxis.map (transformVec M) } = some (movedBy M d) := by
  have ho' : asPoint (M.mulVec d.origin) = M.mulVec d.origin :=
    asPoint_eq (by rw [mulVec3 hM, hd.origin])
  obtain ⟨name, dtype, origin, direction, normal, xAxis, yAxis, radius⟩ := d
  have ho : asPoint (M.mulVec origin) = M.mulVec origin := ho'
  clear ho'
  obtain ⟨h1, h2, h3, h4, h5, h6⟩ := hd
  cases dtype with
  | point =>
    obtain ⟨rfl, rfl, rfl, rfl⟩ := h6
    simp [Datum.mk', movedBy, ho]
  | axis =>
    obtain ⟨hs, rfl, rfl, rfl⟩ := h6
    obtain ⟨v, rfl⟩ := Option.isSome_iff_exists.mp hs
    obtain ⟨e, m⟩ := transformVec_unit hM (h2 v rfl).1 (h2 v rfl).2
    rw [e] at m
    simp [Datum.mk', movedBy, ho, m, eps_lt_one.le, e]
  | plane =>
    obtain ⟨hs, rfl, rfl, rfl⟩ := h6
    obtain ⟨v, rfl⟩ := Option.isSome_iff_exists.mp hs
    obtain ⟨e, m⟩ := transformVec_unit hM (h3 v rfl).1 (h3 v rfl).2
    rw [e] at m
    simp [Datum.mk', movedBy, ho, m, eps_lt_one.le, e]
  | circle =>
    obtain ⟨hs, ⟨r, rfl, hr⟩, rfl, rfl, rfl⟩ := h6
    obtain ⟨v, rfl⟩ := Option.isSome_iff_exists.mp hs
    obtain ⟨e, m⟩ := transformVec_unit hM (h3 v rfl).1 (h3 v rfl).2
    rw [e] at m
    simp [Datum.mk', movedBy, ho, m, eps_lt_one.le, e, hr]
  | frame =>
    obtain ⟨hs, hs', rfl, rfl⟩ := h6
    obtain ⟨v, rfl⟩ := Option.isSome_iff_exists.mp hs
    obtain ⟨w, rfl⟩ := Option.isSome_iff_exists.mp hs'
    obtain ⟨e, m⟩ := transformVec_unit hM (h4 v rfl).1 (h4 v rfl).2
    obtain ⟨e', m'⟩ := transformVec_unit hM (h5 w rfl).1 (h5 w rfl).2
    rw [e] at m
    rw [e'] at m'
    simp [Datum.mk', movedBy, ho, m, eps_lt_one.le, e, m', e']

/-- C54 (partial: for a transform given as a yapCAD `Matrix` or as a list of rows): transforming a datum
by a rigid motion succeeds and moves origin and directions by exactly that motion. Missing: transforms
given as numpy arrays, for which the claim is false (`C54_ndarray_ignored`). -/
theorem C54_transform_partial (d : Datum) (hd : UnitDatum d) (A : Mat ℝ) (hA : Rigid A) :
    d.transform (.matrix A) = some (movedBy A d) ∧
    (∀ a, A = Mat.ofRows a → d.transform (.rows a) = some (movedBy A d)) := by
  refine ⟨mk'_moved d hd A hA, ?_⟩
  rintro a rfl
  exact mk'_moved d hd _ hA

/-- C54: moving by one motion and then another is moving by their product; unit datums stay unit
datums. -/
theorem C54_compose (d : Datum) (hd : UnitDatum d) (A B : Mat ℝ) (hA : Rigid A) (hB : Rigid B) :
    Rigid (B.mul A) ∧ UnitDatum (movedBy A d) ∧
    (d.transform (.matrix A)).bind (fun d' => d'.transform (.matrix B)) =
      d.transform (.matrix (B.mul A)) := by
  have hmv : ∀ v, (B.mul A).mulVec v = B.mulVec (A.mulVec v) := fun v => (C37_laws B A A v).1
  have hBA : Rigid (B.mul A) := by
    refine ⟨?_, ?_⟩
    · intro j
      rw [mul_get]
      unfold dot4
      simp only [getrow_eq, getcol_eq, hB.last, hA.last]
      simp
    · intro v hv
      rw [hmv, hB.iso _ (by rw [mulVec3 hA, hv]), hA.iso v hv]
  have key : ∀ o : Option (Vec4 ℝ), (∀ v, o = some v → v 3 = 0 ∧ mag v = 1) →
      ∀ v, o.map A.mulVec = some v → v 3 = 0 ∧ mag v = 1 := by
    intro o ho v hv
    cases o with
    | none => simp at hv
    | some w =>
      simp only [Option.map_some, Option.some.injEq] at hv
      subst hv
      exact ⟨by rw [mulVec3 hA]; exact (ho w rfl).1, by rw [hA.iso w (ho w rfl).1]; exact (ho w rfl).2⟩
  have hU : UnitDatum (movedBy A d) := by
    refine ⟨by show A.mulVec d.origin 3 = 1; rw [mulVec3 hA, hd.origin], key _ hd.direction,
      key _ hd.normal, key _ hd.xAxis, key _ hd.yAxis, ?_⟩
    have := hd.need
    unfold movedBy
    cases h : d.dtype <;> simp only [h] at this ⊢ <;> simpa using this
  refine ⟨hBA, hU, ?_⟩
  rw [(C54_transform_partial d hd A hA).1, (C54_transform_partial d hd _ hBA).1]
  show (movedBy A d).transform (.matrix B) = _
  rw [(C54_transform_partial _ hU B hB).1]
  unfold movedBy
  have hf : (B.mul A).mulVec = fun v => B.mulVec (A.mulVec v) := funext hmv
  simp [hf, Function.comp_def]

/-- C54 fails as stated: a transform given as a numpy array is silently ignored — the datum stays
where it is. -/
theorem C54_ndarray_ignored (d : Datum) (a b : Fin 4 → Fin 4 → ℝ) :
    d.transform (.ndarray a) = d.transform (.ndarray b) := rfl

theorem rigid_ident : Rigid (Mat.ident : Mat ℝ) := by
  refine ⟨?_, ?_⟩
  · intro j; fin_cases j <;> simp [Mat.ident, Mat.get]
  · intro v _; rw [(C37_laws Mat.ident Mat.ident Mat.ident v).2.2.2.2]

theorem C54_ndarray_is_identity (d : Datum) (hd : UnitDatum d) (a : Fin 4 → Fin 4 → ℝ) :
    d.transform (.ndarray a) = some d := by
  have h := mk'_moved d hd Mat.ident rigid_ident
  have hm : ∀ v : Vec4 ℝ, Mat.ident.mulVec v = v := fun v => (C37_laws Mat.ident Mat.ident Mat.ident v).2.2.2.2
  have : movedBy Mat.ident d = d := by
    unfold movedBy
    have : (Mat.ident : Mat ℝ).mulVec = id := funext hm
    simp [this]
  rw [this] at h
  exact h

/-- rotations about a unit axis and translations are rigid, so the hypotheses are met by all the
motions the library builds -/
theorem C54_rotation_rigid (u : Vec4 ℝ) (hu : u 0 * u 0 + u 1 * u 1 + u 2 * u 2 = 1) (a : ℝ)
    (R : Mat ℝ) (hR : rotation u a = .ok R) : Rigid R := by
  obtain ⟨R', h1, h2, _, h4⟩ := C37_rotation_unit u hu a
  rw [h1] at hR
  cases hR
  have hl : ∀ j, R.get 3 j = if j = 3 then 1 else 0 := by
    intro j; rw [h2]; fin_cases j <;> simp [rotMat, Mat.get, Mat.ofRows]
  refine ⟨hl, ?_⟩
  intro v hv
  have h3 : R.mulVec v 3 = 0 := by
    rw [mulVec_get]; unfold dot4; simp only [getrow_eq, hl]; simp [hv]
  have := h4 v v
  unfold dot4 at this
  rw [h3, hv] at this
  unfold mag
  congr 1
  linarith

theorem C54_translation_rigid (t : Vec4 ℝ) : Rigid (translation t) := by
  refine ⟨?_, ?_⟩
  · intro j; fin_cases j <;> simp [translation, Mat.get, Mat.ofRows]
  · intro v hv
    rw [(C37_translation t v).1]
    simp [mag, hv]

/-- a concrete axis datum meets the hypotheses, and a concrete translation moves it by 100 when given
as a `Matrix`, and by nothing when given as a numpy array -/
example :
    let d : Datum := { name := "a", dtype := .axis, origin := ![1, 2, 3, 1],
                       direction := some ![0, 1, 0, 0] }
    UnitDatum d ∧
    (d.transform (.matrix (translation ![100, 0, 0, 1]))).map (·.origin) = some ![101, 2, 3, 1] ∧
    (d.transform (.ndarray (translation ![100, 0, 0, 1]).m)).map (·.origin) = some ![1, 2, 3, 1] := by
  intro d
  have hd : UnitDatum d := by
    refine ⟨by simp [d], ?_, by simp [d], by simp [d], by simp [d], by simp [d]⟩
    intro v hv
    simp only [d, Option.some.injEq] at hv
    subst hv
    exact ⟨by simp, by simp [mag]⟩
  refine ⟨hd, ?_, ?_⟩
  · rw [(C54_transform_partial d hd _ (C54_translation_rigid _)).1]
    simp only [Option.map_some, Option.some.injEq, movedBy]
    rw [(C37_translation _ _).1]
    simp [d]; norm_num
  · rw [C54_ndarray_is_identity d hd]
    simp [d]


/-- C54: under any matrix, also one that scales, a direction that is not collapsed keeps its transformed
line and orientation and comes out with unit length. -/
theorem C54_direction_unit (M : Mat ℝ) (v : Vec4 ℝ) (h : epsilon < mag (M.mulVec v)) :
    mag (asDir (transformVec M v)) = 1 ∧
    ∃ c : ℝ, 0 < c ∧ ∀ i : Fin 3, asDir (transformVec M v) (i.castSucc) = c * M.mulVec v (i.castSucc) := by
  have h0 : 0 < mag (M.mulVec v) := lt_trans (by unfold epsilon; norm_num) h
  have hx : ∀ i : Fin 3, asDir (transformVec M v) (i.castSucc) = (1 / mag (M.mulVec v)) * M.mulVec v (i.castSucc) := by
    intro i
    unfold transformVec
    simp only [gt_iff_lt, h, if_true]
    fin_cases i <;> simp [asDir, scale3] <;> ring
  refine ⟨?_, _, one_div_pos.mpr h0, hx⟩
  have e0 := hx 0; have e1 := hx 1; have e2 := hx 2
  simp only [Fin.castSucc_zero, Fin.castSucc_one] at e0 e1
  have e2' : asDir (transformVec M v) 2 = (1 / mag (M.mulVec v)) * M.mulVec v 2 := e2
  have hsq : mag (M.mulVec v) ^ 2 = M.mulVec v 0 * M.mulVec v 0 + M.mulVec v 1 * M.mulVec v 1 +
      M.mulVec v 2 * M.mulVec v 2 := by
    unfold mag
    rw [Real.sq_sqrt]
    nlinarith [mul_self_nonneg (M.mulVec v 0), mul_self_nonneg (M.mulVec v 1), mul_self_nonneg (M.mulVec v 2)]
  generalize hm : mag (M.mulVec v) = m at *
  unfold mag
  rw [e0, e1, e2', Real.sqrt_eq_one]
  have : m ≠ 0 := ne_of_gt h0
  field_simp
  nlinarith

/-- Non-vacuity: under a uniform scaling by 10 the direction +z (length 1, image of length 10) stays the
unit vector +z. -/
example : ∃ S : Mat ℝ, scale (.nums (10 : ℝ) none none) = some S ∧ epsilon < mag (S.mulVec ![0, 0, 1, 0]) := by
  obtain ⟨S, h1, h2⟩ := (C37_scale_arguments (10 : ℝ) 0 0 ![0, 0, 0, 0] ![0, 0, 1, 0]).2.1
  refine ⟨S, h1, ?_⟩
  rw [h2]
  have : mag (![10 * 0, 10 * 0, 10 * 1, 0] : Vec4 ℝ) = 10 := by
    unfold mag
    rw [show ((10 : ℝ) * 0) = 0 by norm_num]
    simp
  have h3 : mag (![10 * (![0, 0, 1, 0] : Vec4 ℝ) 0, 10 * (![0, 0, 1, 0] : Vec4 ℝ) 1,
      10 * (![0, 0, 1, 0] : Vec4 ℝ) 2, (![0, 0, 1, 0] : Vec4 ℝ) 3] : Vec4 ℝ) = 10 := by
    simpa using this
  rw [h3]; unfold epsilon; norm_num

end Verif.Assembly
