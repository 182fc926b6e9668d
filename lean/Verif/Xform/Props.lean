import Verif.Xform.Model
import Mathlib.Tactic.FinCases
import Mathlib.Tactic.Ring
import Mathlib.Tactic.LinearCombination
import Mathlib.Tactic.FieldSimp
import Mathlib.Algebra.BigOperators.Fin
import Mathlib.LinearAlgebra.Matrix.Notation

/-! # C37: 4x4 matrices of `xform.py` -/

namespace Verif.Xform
set_option linter.unusedSectionVars false
variable {K : Type} [Field K]

/-- The mathematical matrix denoted by a `Matrix` object. -/
def Mat.toMatrix (A : Mat K) : Matrix (Fin 4) (Fin 4) K := fun i j => A.get i j

theorem getrow_eq (A : Mat K) (i j : Fin 4) : A.getrow i j = A.get i j := by
  unfold Mat.getrow Mat.get
  split_ifs
  · fin_cases j <;> rfl
  · rfl

theorem getcol_eq (A : Mat K) (i j : Fin 4) : A.getcol j i = A.get i j := by
  unfold Mat.getcol Mat.get
  rcases A with ⟨m, t⟩
  cases t
  · fin_cases i <;> rfl
  · rfl

/-- C37: `set` then `get`: exactly the addressed entry changes, for both values of the flag. -/
theorem C37_set_get (A : Mat K) (i j i' j' : Fin 4) (x : K) :
    (A.set i j x).get i' j' = if i' = i ∧ j' = j then x else A.get i' j' := by
  unfold Mat.set Mat.get
  rcases A with ⟨m, t⟩
  cases t
  · simp only [Bool.false_eq_true, if_false, Function.update_apply]
    by_cases h : i' = i <;> by_cases h' : j' = j <;> simp [h, h']
  · simp only [if_true, Function.update_apply]
    by_cases h : i' = i <;> by_cases h' : j' = j <;> simp [h, h']

/-- C37: indices outside 0..3 are rejected, all others accepted. -/
theorem C37_index_check (A : Mat K) (i j : Int) (x : K) :
    ((A.get? i j).isSome ↔ (0 ≤ i ∧ i ≤ 3) ∧ 0 ≤ j ∧ j ≤ 3) ∧
    ((A.set? i j x).isSome ↔ (0 ≤ i ∧ i ≤ 3) ∧ 0 ≤ j ∧ j ≤ 3) ∧
    (∀ B, A.set? i j x = some B → B.get? i j = some x) := by
  have hi : ∀ k : Int, (idx k).isSome ↔ 0 ≤ k ∧ k ≤ 3 := by
    intro k; unfold idx; split_ifs with h
    · simp; omega
    · simp; omega
  refine ⟨?_, ?_, ?_⟩
  · rw [← hi, ← hi]; unfold Mat.get?
    cases idx i <;> cases idx j <;> simp
  · rw [← hi, ← hi]; unfold Mat.set?
    cases idx i <;> cases idx j <;> simp
  · intro B
    unfold Mat.set? Mat.get?
    rcases idx i with _ | i <;> rcases idx j with _ | j <;> simp
    rintro rfl
    rw [C37_set_get]; simp

/-- C37: rows and columns are those of the denoted matrix, for both values of the flag, and
`setrow`/`setcol` replace exactly one of them. -/
theorem C37_rows_cols (A : Mat K) (i j : Fin 4) (x : Vec4 K) :
    A.getrow i = (fun c => A.get i c) ∧ A.getcol j = (fun r => A.get r j) ∧
    (∀ r c, (A.setrow i x).get r c = if r = i then x c else A.get r c) ∧
    (∀ r c, (A.setcol j x).get r c = if c = j then x r else A.get r c) := by
  refine ⟨funext fun c => getrow_eq A i c, funext fun r => getcol_eq A r j, ?_, ?_⟩
  · intro r c
    unfold Mat.setrow Mat.get
    rcases A with ⟨m, t⟩
    cases t <;> simp only [if_true, Bool.false_eq_true, if_false, Function.update_apply]
    · split_ifs <;> rfl
  · intro r c
    unfold Mat.setcol Mat.get
    rcases A with ⟨m, t⟩
    cases t <;>
      simp only [if_true, Bool.false_eq_true, if_false, Function.update_apply, Bool.not_true,
        Bool.not_false]
    · split_ifs <;> rfl

theorem fold_set_inner (f : Fin 4 → K) (r : Mat K) (i i' j' : Fin 4) :
    (range4.foldl (fun r j => r.set i j (f j)) r).get i' j' = if i' = i then f j' else r.get i' j' := by
  unfold range4
  simp only [List.foldl_cons, List.foldl_nil, C37_set_get]
  fin_cases j' <;> simp <;> split_ifs <;> rfl

theorem mul_get (A B : Mat K) (i j : Fin 4) :
    (A.mul B).get i j = dot4 (A.getrow i) (B.getcol j) := by
  unfold Mat.mul
  conv_lhs => unfold range4
  simp only [List.foldl_cons, List.foldl_nil]
  have h := fun (r : Mat K) (i i' j' : Fin 4) =>
    fold_set_inner (fun j => dot4 (A.getrow i) (B.getcol j)) r i i' j'
  simp only [range4, List.foldl_cons, List.foldl_nil] at h
  simp only [h]
  fin_cases i <;> simp

/-- C37: the product denotes the matrix product, whatever the transpose flags. -/
theorem C37_mul (A B : Mat K) : (A.mul B).toMatrix = A.toMatrix * B.toMatrix := by
  funext i j
  rw [Matrix.mul_apply, Fin.sum_univ_four]
  show (A.mul B).get i j = _
  rw [mul_get]
  unfold dot4 Mat.toMatrix
  simp only [getrow_eq, getcol_eq]

theorem mulVec_get (A : Mat K) (x : Vec4 K) (i : Fin 4) : A.mulVec x i = dot4 (A.getrow i) x := by
  unfold Mat.mulVec range4
  simp only [List.foldl_cons, List.foldl_nil, Function.update_apply]
  fin_cases i <;> simp

/-- C37: applying to a vector denotes the matrix-vector product. -/
theorem C37_mulVec (A : Mat K) (x : Vec4 K) : A.mulVec x = A.toMatrix.mulVec x := by
  funext i
  rw [mulVec_get]
  unfold Matrix.mulVec dotProduct dot4 Mat.toMatrix
  rw [Fin.sum_univ_four]
  simp only [getrow_eq]

/-- C37: multiplying by a number scales every entry. -/
theorem C37_mulScalar (A : Mat K) (c : K) : (A.mulScalar c).toMatrix = c • A.toMatrix := by
  funext i j
  show (A.mulScalar c).get i j = c * A.get i j
  unfold Mat.mulScalar range4
  simp only [List.foldl_cons, List.foldl_nil, (C37_rows_cols _ _ 0 _).2.2.1]
  fin_cases i <;> fin_cases j <;> simp [scale4, getrow_eq, mul_comm]

theorem toMatrix_ident : (Mat.ident : Mat K).toMatrix = 1 := by
  funext i j
  simp [Mat.toMatrix, Mat.get, Mat.ident, Matrix.one_apply]

/-- C37: composition of maps: `(A.mul(B)).mul(v) = A.mul(B.mul(v))`, associativity, and the default
matrix is neutral, for every combination of transpose flags. -/
theorem C37_laws (A B C : Mat K) (v : Vec4 K) :
    (A.mul B).mulVec v = A.mulVec (B.mulVec v) ∧
    ((A.mul B).mul C).toMatrix = (A.mul (B.mul C)).toMatrix ∧
    (Mat.ident.mul A).toMatrix = A.toMatrix ∧ (A.mul Mat.ident).toMatrix = A.toMatrix ∧
    Mat.ident.mulVec v = v := by
  refine ⟨?_, ?_, ?_, ?_, ?_⟩
  · simp only [C37_mulVec, C37_mul, Matrix.mulVec_mulVec]
  · simp only [C37_mul, Matrix.mul_assoc]
  · rw [C37_mul, toMatrix_ident, Matrix.one_mul]
  · rw [C37_mul, toMatrix_ident, Matrix.mul_one]
  · rw [C37_mulVec, toMatrix_ident, Matrix.one_mulVec]

/-- C37: `Matrix(A)` denotes the same matrix and `Matrix(A, trans=True)` its transpose. -/
theorem C37_copy (A : Mat K) :
    (A.copy).toMatrix = A.toMatrix ∧ (A.copy true).toMatrix = A.toMatrix.transpose := by
  have h : ∀ i j, (range4.foldl (fun r i => r.setrow i (A.getrow i)) (Mat.ident : Mat K)).get i j =
      A.get i j := by
    intro i j
    unfold range4
    simp only [List.foldl_cons, List.foldl_nil, (C37_rows_cols _ _ 0 _).2.2.1]
    fin_cases i <;> simp [getrow_eq]
  have ht : (range4.foldl (fun r i => r.setrow i (A.getrow i)) (Mat.ident : Mat K)).trans = false := by
    unfold range4
    simp [Mat.setrow, Mat.ident]
  constructor
  · funext i j
    have := h i j
    unfold Mat.get at this
    rw [ht] at this
    simpa [Mat.toMatrix, Mat.copy, Mat.get] using this
  · funext i j
    have := h j i
    unfold Mat.get at this
    rw [ht] at this
    simpa [Mat.toMatrix, Mat.copy, Mat.get, Matrix.transpose] using this

/-- C37: a flat list of 16 numbers is read row by row; other lengths are not. -/
theorem C37_ofFlat (a : List K) :
    ((Mat.ofFlat a).isSome ↔ a.length = 16) ∧
    ∀ A, Mat.ofFlat a = some A → ∀ i j : Fin 4, a[i.val * 4 + j.val]? = some (A.get i j) := by
  unfold Mat.ofFlat
  refine ⟨by split_ifs with h <;> simp [h], ?_⟩
  intro A hA i j
  split_ifs at hA with h
  simp only [Option.some.injEq] at hA
  subst hA
  simp only [Mat.get, Bool.false_eq_true, if_false, List.get_eq_getElem]
  rw [List.getElem?_eq_getElem]

/-! ## Translation, Scale -/

/-- C37: translating a point adds the offset to its coordinates; directions (w=0) are unchanged;
`inverse=True` undoes it in both orders. -/
theorem C37_translation (d v : Vec4 K) :
    (translation d).mulVec v = ![v 0 + d 0 * v 3, v 1 + d 1 * v 3, v 2 + d 2 * v 3, v 3] ∧
    ((translation d).mul (translation d true)).toMatrix = 1 ∧
    ((translation d true).mul (translation d)).toMatrix = 1 := by
  refine ⟨?_, ?_, ?_⟩
  · funext i
    rw [mulVec_get]
    unfold dot4
    simp only [getrow_eq]
    fin_cases i <;> simp [translation, Mat.get, Mat.ofRows]
  · rw [← toMatrix_ident]
    funext i j
    show ((translation d).mul (translation d true)).get i j = _
    rw [mul_get]
    unfold dot4
    simp only [getrow_eq, getcol_eq]
    fin_cases i <;> fin_cases j <;>
      simp [translation, Mat.get, Mat.ofRows, Mat.toMatrix, Mat.ident, scale3]
  · rw [← toMatrix_ident]
    funext i j
    show ((translation d true).mul (translation d)).get i j = _
    rw [mul_get]
    unfold dot4
    simp only [getrow_eq, getcol_eq]
    fin_cases i <;> fin_cases j <;>
      simp [translation, Mat.get, Mat.ofRows, Mat.toMatrix, Mat.ident, scale3]

/-- C37: `Scale` multiplies coordinates by its factors; with `inverse=True` it fails exactly when a
factor is zero, otherwise it is a two-sided inverse. A missing third factor makes the scaling uniform
(the second factor is ignored). -/
theorem C37_scale [DecidableEq K] (a : ScaleArg K) (v : Vec4 K) :
    (∃ S, scale a = some S ∧ S.mulVec v =
        ![(scaleFactors a).1 * v 0, (scaleFactors a).2.1 * v 1, (scaleFactors a).2.2 * v 2, v 3]) ∧
    ((scale a true).isSome ↔
        (scaleFactors a).1 ≠ 0 ∧ (scaleFactors a).2.1 ≠ 0 ∧ (scaleFactors a).2.2 ≠ 0) ∧
    (∀ S T, scale a = some S → scale a true = some T →
        (S.mul T).toMatrix = 1 ∧ (T.mul S).toMatrix = 1) := by
  generalize hs : scaleFactors a = s
  obtain ⟨x, y, z⟩ := s
  refine ⟨?_, ?_, ?_⟩
  · refine ⟨_, by unfold scale; rfl, ?_⟩
    funext i
    rw [mulVec_get]
    unfold dot4
    simp only [getrow_eq]
    fin_cases i <;> simp [Mat.get, Mat.ofRows, hs]
  · unfold scale
    simp only [hs]
    by_cases h : x = 0 ∨ y = 0 ∨ z = 0
    · simp only [h, if_true]
      simp only [Option.isSome_none, Bool.false_eq_true, false_iff]
      tauto
    · simp only [h, if_true, if_false]
      simp only [Option.isSome_some, true_iff]
      tauto
  · intro S T hS hT
    unfold scale at hS hT
    simp only [hs, if_true, Bool.false_eq_true, if_false, Option.some.injEq] at hS hT
    split_ifs at hT with h
    simp only [Option.some.injEq] at hT
    push Not at h
    obtain ⟨hx, hy, hz⟩ := h
    subst hS hT
    constructor
    · rw [← toMatrix_ident]
      funext i j
      rw [show ∀ A B : Mat K, (A.mul B).toMatrix i j = (A.mul B).get i j from fun _ _ => rfl, mul_get]
      unfold dot4
      simp only [getrow_eq, getcol_eq]
      fin_cases i <;> fin_cases j <;>
        simp [Mat.get, Mat.ofRows, Mat.toMatrix, Mat.ident, hx, hy, hz]
    · rw [← toMatrix_ident]
      funext i j
      rw [show ∀ A B : Mat K, (A.mul B).toMatrix i j = (A.mul B).get i j from fun _ _ => rfl, mul_get]
      unfold dot4
      simp only [getrow_eq, getcol_eq]
      fin_cases i <;> fin_cases j <;>
        simp [Mat.get, Mat.ofRows, Mat.toMatrix, Mat.ident, hx, hy, hz]

/-- C37 defect: `Scale(x, y)` without `z` silently ignores `y`. -/
theorem C37_scale_ignores_second_factor (x y : K) :
    scaleFactors (.nums x (some y) none) = (x, x, x) := rfl

/-! ## Rotation -/

/-- entry of a product of two rotations about the same axis -/
theorem rot_mul (u : Vec4 ℝ) (hu : u 0 * u 0 + u 1 * u 1 + u 2 * u 2 = 1) (a b : ℝ) :
    ((rotMat u a).mul (rotMat u b)).toMatrix = (rotMat u (a + b)).toMatrix := by
  funext i j
  show ((rotMat u a).mul (rotMat u b)).get i j = (rotMat u (a + b)).get i j
  rw [mul_get]
  unfold dot4
  simp only [getrow_eq, getcol_eq]
  generalize hc : Real.cos a = c
  generalize hs : Real.sin a = s
  generalize hc' : Real.cos b = c'
  generalize hs' : Real.sin b = s'
  fin_cases i <;> fin_cases j <;>
    simp [rotMat, Mat.get, Mat.ofRows, Real.cos_add, Real.sin_add, hc, hs, hc', hs']
  · linear_combination ((1 - c) * (1 - c') * (u 0 * u 0) - s * s') * hu
  · linear_combination ((1 - c) * (1 - c') * (u 0 * u 1)) * hu
  · linear_combination ((1 - c) * (1 - c') * (u 0 * u 2)) * hu
  · linear_combination ((1 - c) * (1 - c') * (u 1 * u 0)) * hu
  · linear_combination ((1 - c) * (1 - c') * (u 1 * u 1) - s * s') * hu
  · linear_combination ((1 - c) * (1 - c') * (u 1 * u 2)) * hu
  · linear_combination ((1 - c) * (1 - c') * (u 2 * u 0)) * hu
  · linear_combination ((1 - c) * (1 - c') * (u 2 * u 1)) * hu
  · linear_combination ((1 - c) * (1 - c') * (u 2 * u 2) - s * s') * hu

theorem rot_zero (u : Vec4 ℝ) : (rotMat u 0).toMatrix = 1 := by
  rw [← toMatrix_ident]
  funext i j
  fin_cases i <;> fin_cases j <;> simp [rotMat, Mat.get, Mat.ofRows, Mat.toMatrix, Mat.ident]

theorem cos_pymod (a : ℝ) : Real.cos (pymod a 360 * (2 * Real.pi) / 360) =
    Real.cos (a * (2 * Real.pi) / 360) ∧
    Real.sin (pymod a 360 * (2 * Real.pi) / 360) = Real.sin (a * (2 * Real.pi) / 360) := by
  have : pymod a 360 * (2 * Real.pi) / 360 =
      a * (2 * Real.pi) / 360 - (⌊a / 360⌋ : ℤ) * (2 * Real.pi) := by
    unfold pymod; ring
  rw [this, Real.cos_sub_int_mul_two_pi, Real.sin_sub_int_mul_two_pi]
  exact ⟨rfl, rfl⟩

theorem rotMat_congr (u : Vec4 ℝ) {a b : ℝ} (hc : Real.cos a = Real.cos b)
    (hs : Real.sin a = Real.sin b) : rotMat u a = rotMat u b := by
  unfold rotMat; rw [hc, hs]

/-- C37: a rotation about a unit axis is accepted for every angle, equals the rotation by the angle in
degrees (angles may be any real, also beyond 360), fixes the axis, and preserves the dot product of
any two vectors (so lengths and angles). -/
theorem C37_rotation_unit (u : Vec4 ℝ) (hu : u 0 * u 0 + u 1 * u 1 + u 2 * u 2 = 1) (a : ℝ) :
    ∃ R, rotation u a = .ok R ∧ R = rotMat u (a * (2 * Real.pi) / 360) ∧
      R.mulVec ![u 0, u 1, u 2, 1] = ![u 0, u 1, u 2, 1] ∧
      ∀ x y : Vec4 ℝ, dot4 (R.mulVec x) (R.mulVec y) = dot4 x y := by
  have hm : mag u = 1 := by unfold mag; rw [hu, Real.sqrt_one]
  have he : ¬ (mag u < epsilon) := by rw [hm]; unfold epsilon; norm_num
  have he2 : ¬ ¬ |mag u - 1| < epsilon := by rw [hm]; unfold epsilon; norm_num
  refine ⟨_, ?_, rfl, ?_, ?_⟩
  · unfold rotation
    simp only [he, he2, if_false, Bool.false_eq_true]
    rw [rotMat_congr u (cos_pymod a).1 (cos_pymod a).2]
  · generalize a * (2 * Real.pi) / 360 = r
    funext i
    rw [mulVec_get]
    unfold dot4
    simp only [getrow_eq]
    generalize hc : Real.cos r = c
    generalize hs : Real.sin r = s
    fin_cases i <;> simp [rotMat, Mat.get, Mat.ofRows, hc, hs]
    · linear_combination ((1 - c) * u 0) * hu
    · linear_combination ((1 - c) * u 1) * hu
    · linear_combination ((1 - c) * u 2) * hu
  · intro x y
    generalize a * (2 * Real.pi) / 360 = r
    -- Rᵀ R = 1 follows from R(-r) R(r) = R(0) and R(-r) = Rᵀ
    have hT : ∀ i j, (rotMat u r).get i j = (rotMat u (-r)).get j i := by
      intro i j
      fin_cases i <;> fin_cases j <;> simp [rotMat, Mat.get, Mat.ofRows] <;>
        first | (left; ring) | (ring_nf; simp; done) | ring
    have hI : (rotMat u (-r)).toMatrix * (rotMat u r).toMatrix = 1 := by
      rw [← C37_mul, rot_mul u hu, neg_add_cancel, rot_zero]
    have hd : ∀ p q : Vec4 ℝ, dot4 p q = p ⬝ᵥ q := by
      intro p q
      unfold dot4 dotProduct
      rw [Fin.sum_univ_four]
    rw [hd, hd, C37_mulVec, C37_mulVec, Matrix.dotProduct_mulVec, ← Matrix.mulVec_transpose,
      Matrix.mulVec_mulVec]
    have hTT : (rotMat u r).toMatrix.transpose = (rotMat u (-r)).toMatrix := by
      funext i j
      exact hT j i
    rw [hTT, hI, Matrix.one_mulVec]

/-- C37: rotations about one axis add their angles; `inverse=True` is a two-sided inverse. -/
theorem C37_rotation_compose (u : Vec4 ℝ) (hu : u 0 * u 0 + u 1 * u 1 + u 2 * u 2 = 1) (a b : ℝ) :
    (∃ A B C, rotation u a = .ok A ∧ rotation u b = .ok B ∧ rotation u (a + b) = .ok C ∧
      (A.mul B).toMatrix = C.toMatrix) ∧
    (∃ A B, rotation u a = .ok A ∧ rotation u a true = .ok B ∧
      (A.mul B).toMatrix = 1 ∧ (B.mul A).toMatrix = 1) := by
  obtain ⟨A, hA, eA, -⟩ := C37_rotation_unit u hu a
  obtain ⟨B, hB, eB, -⟩ := C37_rotation_unit u hu b
  obtain ⟨C, hC, eC, -⟩ := C37_rotation_unit u hu (a + b)
  obtain ⟨D, hD, eD, -⟩ := C37_rotation_unit u hu (-a)
  have hinv : rotation u a true = .ok D := by
    rw [← hD]; unfold rotation; simp
  subst eA eB eC eD
  refine ⟨⟨_, _, _, hA, hB, hC, ?_⟩, ⟨_, _, hA, hinv, ?_, ?_⟩⟩
  · rw [rot_mul u hu]; congr 2; ring
  · rw [rot_mul u hu, ← rot_zero u]; congr 2; ring
  · rw [rot_mul u hu, ← rot_zero u]; congr 2; ring

/-- C37 defect: `Rotation` is documented for an arbitrary axis, but every axis whose length is not
within epsilon of 1 makes it raise `AttributeError`. -/
theorem C37_rotation_rejects_non_unit (u : Vec4 ℝ) (a : ℝ) (inv : Bool)
    (h0 : ¬ mag u < epsilon) (h : ¬ |mag u - 1| < epsilon) :
    rotation u a inv = .error .attributeError := by
  unfold rotation
  simp only [h0, h, if_false, not_false_iff, if_true]

/-- e.g. the axis (0,0,2) -/
theorem C37_rotation_axis_002 : rotation ![0, 0, 2, 1] 90 = .error .attributeError := by
  have : mag ![0, 0, 2, 1] = 2 := by
    unfold mag
    have : ((![0, 0, 2, 1] : Vec4 ℝ) 0 * (![0, 0, 2, 1] : Vec4 ℝ) 0 +
      (![0, 0, 2, 1] : Vec4 ℝ) 1 * (![0, 0, 2, 1] : Vec4 ℝ) 1 +
      (![0, 0, 2, 1] : Vec4 ℝ) 2 * (![0, 0, 2, 1] : Vec4 ℝ) 2) = 2 ^ 2 := by simp; norm_num
    rw [this, Real.sqrt_sq (by norm_num)]
  apply C37_rotation_rejects_non_unit <;> rw [this] <;> unfold epsilon <;> norm_num

/-- the hypothesis of the rotation theorems is met by a genuinely oblique axis -/
example : (![3/5, 0, 4/5, 1] : Vec4 ℝ) 0 * (![3/5, 0, 4/5, 1] : Vec4 ℝ) 0 +
      (![3/5, 0, 4/5, 1] : Vec4 ℝ) 1 * (![3/5, 0, 4/5, 1] : Vec4 ℝ) 1 +
      (![3/5, 0, 4/5, 1] : Vec4 ℝ) 2 * (![3/5, 0, 4/5, 1] : Vec4 ℝ) 2 = 1 := by
  simp; norm_num

/-! ## C53: copies -/

/-- C53 (partial: only for a transposed source): the copy `Matrix(a)` of a transposed matrix denotes
the same matrix, and later writes to the copy are not seen through the original. -/
theorem C53_copy_of_transposed_independent_partial (h : Heap K) (n : Nat) (A : MatObj)
    (hA : ∀ i, A.rows i < n) (ht : A.trans = true) (i j r c : Fin 4) (x : K) :
    (∀ i j, hGet (hCopy h n A).1 (hCopy h n A).2 i j = hGet h A i j) ∧
    hGet (hSet (hCopy h n A).1 (hCopy h n A).2 i j x) A r c = hGet h A r c := by
  have hne : ∀ k : Fin 4, ∀ m : Nat, A.rows k ≠ n + m := fun k m => by have := hA k; omega
  have hne0 : ∀ k : Fin 4, A.rows k ≠ n := fun k => by have := hA k; omega
  constructor
  · intro i j
    unfold hCopy hGet
    simp only [ht, if_true, Bool.false_eq_true, if_false]
    fin_cases i <;> simp
  · unfold hCopy hGet hSet
    simp only [ht, if_true, Bool.false_eq_true, if_false, Function.update_apply]
    have h1 : ¬ (A.rows c = n + i.val) := hne c i.val
    simp [h1, hne0, hne]

/-- C53 fails as stated: `B = Matrix(A); B.set(i,j,x)` also changes `A` whenever `A` is not
transposed, because the two matrices share their row lists. -/
theorem C53_copy_shares_rows (h : Heap K) (n : Nat) (A : MatObj) (ht : A.trans = false)
    (i j : Fin 4) (x : K) :
    hGet (hSet (hCopy h n A).1 (hCopy h n A).2 i j x) A i j = x := by
  unfold hCopy hGet hSet
  simp [ht]


/-- C37: the meaning of `Scale`'s arguments, spelled out: three numbers scale the three axes, one number
scales uniformly, a vector scales by its components. -/
theorem C37_scale_arguments [DecidableEq K] (x y z : K) (w v : Vec4 K) :
    (∃ S, scale (.nums x (some y) (some z)) = some S ∧ S.mulVec v = ![x * v 0, y * v 1, z * v 2, v 3]) ∧
    (∃ S, scale (.nums x none none) = some S ∧ S.mulVec v = ![x * v 0, x * v 1, x * v 2, v 3]) ∧
    (∃ S, scale (.vec w) = some S ∧ S.mulVec v = ![w 0 * v 0, w 1 * v 1, w 2 * v 2, v 3]) :=
  ⟨(C37_scale (.nums x (some y) (some z)) v).1, (C37_scale (.nums x none none) v).1, (C37_scale (.vec w) v).1⟩

/-- Non-vacuity: `Scale(2, 3, 5)` takes (1, 1, 1) to (2, 3, 5). -/
example : ∃ S, scale (.nums (2 : ℚ) (some 3) (some 5)) = some S ∧ S.mulVec ![1, 1, 1, 1] = ![2, 3, 5, 1] := by
  obtain ⟨S, h1, h2⟩ := (C37_scale_arguments (2 : ℚ) 3 5 ![0, 0, 0, 0] ![1, 1, 1, 1]).1
  exact ⟨S, h1, by rw [h2]; simp⟩

end Verif.Xform
