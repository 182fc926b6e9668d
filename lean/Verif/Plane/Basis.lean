import Verif.Plane.Model
import Verif.Xform.Props
import Verif.Geom.Spec
import Verif.Prim.Frustum
import Mathlib.LinearAlgebra.Matrix.NonsingularInverse

/-!
# C349-C351: plane of a triangle, its basis, distance from a plane
-/

namespace Verif.Plane
open Verif.Geom Verif.Xform
open Verif.Prim (tri2p0n)

/-- twice the signed volume of the corner (p; q, r) against the direction `n`: positive when the turn `p → q → r` is
counter-clockwise seen against `n` -/
def turn (t : Tri) (n : V4) : ℝ :=
  n.x * ((t.p2.y - t.p1.y) * (t.p3.z - t.p1.z) - (t.p2.z - t.p1.z) * (t.p3.y - t.p1.y)) +
  n.y * ((t.p2.z - t.p1.z) * (t.p3.x - t.p1.x) - (t.p2.x - t.p1.x) * (t.p3.z - t.p1.z)) +
  n.z * ((t.p2.x - t.p1.x) * (t.p3.y - t.p1.y) - (t.p2.y - t.p1.y) * (t.p3.x - t.p1.x))

/-- the square of twice the area of the triangle -/
def area2sq (t : Tri) : ℝ :=
  ((t.p2.y - t.p1.y) * (t.p3.z - t.p1.z) - (t.p2.z - t.p1.z) * (t.p3.y - t.p1.y)) ^ 2 +
  ((t.p2.z - t.p1.z) * (t.p3.x - t.p1.x) - (t.p2.x - t.p1.x) * (t.p3.z - t.p1.z)) ^ 2 +
  ((t.p2.x - t.p1.x) * (t.p3.y - t.p1.y) - (t.p2.y - t.p1.y) * (t.p3.x - t.p1.x)) ^ 2

/-- `p` is on the plane through `p0` orthogonal to `n` -/
def OnPlane (p p0 n : V4) : Prop := (p.x - p0.x) * n.x + (p.y - p0.y) * n.y + (p.z - p0.z) * n.z = 0

theorem mag_cross (t : Tri) : mag (Geom.cross (Geom.sub t.p2 t.p1) (Geom.sub t.p3 t.p2)) = √(area2sq t) := by
  unfold Geom.mag area2sq
  congr 1
  simp only [Geom.cross, Geom.sub]
  ring

/-- **C349** the plane of a triangle: refused exactly when twice the area is below epsilon; else the centroid, and the
unit vector orthogonal to the edges against which the corners run counter-clockwise -/
theorem C349_plane (t : Tri) :
    (√(area2sq t) < eps ∧ tri2p0n t.p1 t.p2 t.p3 = .error .valueError) ∨
    (eps ≤ √(area2sq t) ∧ ∃ p0 n, tri2p0n t.p1 t.p2 t.p3 = .ok (p0, n) ∧
      (p0.x = (t.p1.x + t.p2.x + t.p3.x) / 3 ∧ p0.y = (t.p1.y + t.p2.y + t.p3.y) / 3 ∧
        p0.z = (t.p1.z + t.p2.z + t.p3.z) / 3 ∧ p0.w = 1) ∧
      n.w = 0 ∧ n.x ^ 2 + n.y ^ 2 + n.z ^ 2 = 1 ∧
      OnPlane t.p1 p0 n ∧ OnPlane t.p2 p0 n ∧ OnPlane t.p3 p0 n ∧ turn t n = √(area2sq t)) := by
  have hm := mag_cross t
  rcases lt_or_ge (√(area2sq t)) eps with h | h
  · left
    refine ⟨h, ?_⟩
    unfold tri2p0n
    simp only
    rw [hm, if_pos h]
  · right
    refine ⟨h, _, _, Prim.tri2p0n_ok _ _ _ (hm ▸ h), ?_, rfl, ?_⟩
    · simp only [Geom.scale3, Geom.add]
      refine ⟨by ring, by ring, by ring, trivial⟩
    · have hp : 0 < √(area2sq t) := lt_of_lt_of_le eps_pos h
      have hsq : √(area2sq t) ^ 2 = area2sq t := Real.sq_sqrt (by unfold area2sq; positivity)
      rw [hm]
      have hk : (1 / √(area2sq t)) * √(area2sq t) = 1 := by field_simp
      have hk2 : (1 / √(area2sq t)) ^ 2 * area2sq t = 1 := by
        rw [div_pow, one_pow, hsq]
        exact one_div_mul_cancel (by intro h0; rw [h0, Real.sqrt_zero] at hp; exact lt_irrefl _ hp)
      have hk3 : (1 / √(area2sq t)) * area2sq t = √(area2sq t) := by
        nth_rewrite 2 [← hsq]; field_simp
      generalize hM : √(area2sq t) = m at *
      generalize 1 / m = k at *
      unfold area2sq at hk2 hk3
      simp only [OnPlane, Geom.cross, Geom.sub, Geom.scale3, Geom.add, turn]
      refine ⟨by linear_combination hk2, by ring, by ring, by ring, by linear_combination hk3⟩

/-! ## the orthonormal frame -/

/-- three orthonormal vectors -/
structure Frame (x y z : V4) : Prop where
  xx : Geom.dot x x = 1
  yy : Geom.dot y y = 1
  zz : Geom.dot z z = 1
  xy : Geom.dot x y = 0
  yz : Geom.dot y z = 0
  xz : Geom.dot x z = 0

theorem toMatrix_trans (M : Mat ℝ) (h : M.trans = false) :
    ({ M with trans := true } : Mat ℝ).toMatrix = M.toMatrix.transpose := by
  funext i j
  simp [Mat.toMatrix, Mat.get, Matrix.transpose_apply, h]

theorem rot_entry (x y z : V4) : (rotRows x y z).toMatrix =
    !![x.x, x.y, x.z, 0; y.x, y.y, y.z, 0; z.x, z.y, z.z, 0; 0, 0, 0, 1] := by
  funext i j
  fin_cases i <;> fin_cases j <;> rfl

theorem rot_orth {x y z : V4} (h : Frame x y z) :
    (rotRows x y z).toMatrix * (rotRows x y z).toMatrix.transpose = 1 := by
  obtain ⟨h1, h2, h3, h4, h5, h6⟩ := h
  simp only [Geom.dot] at *
  rw [rot_entry]
  ext i j
  rw [Matrix.mul_apply, Fin.sum_univ_four]
  fin_cases i <;> fin_cases j <;> simp [Matrix.transpose_apply, Matrix.one_apply] <;> linarith

theorem rot_orth' {x y z : V4} (h : Frame x y z) :
    (rotRows x y z).toMatrix.transpose * (rotRows x y z).toMatrix = 1 :=
  mul_eq_one_comm.mp (rot_orth h)

/-- the coordinates in the frame keep lengths -/
theorem frame_norm {x y z : V4} (h : Frame x y z) (a b c : ℝ) :
    (x.x * a + x.y * b + x.z * c) ^ 2 + (y.x * a + y.y * b + y.z * c) ^ 2 + (z.x * a + z.y * b + z.z * c) ^ 2 =
      a ^ 2 + b ^ 2 + c ^ 2 := by
  have H := rot_orth' h
  rw [rot_entry] at H
  have e := fun i j => congrFun (congrFun H i) j
  simp only [Matrix.mul_apply, Fin.sum_univ_four, Matrix.transpose_apply] at e
  have e00 := e 0 0
  have e01 := e 0 1
  have e02 := e 0 2
  have e11 := e 1 1
  have e12 := e 1 2
  have e22 := e 2 2
  simp [Matrix.one_apply] at e00 e01 e02 e11 e12 e22
  linear_combination a ^ 2 * e00 + b ^ 2 * e11 + c ^ 2 * e22 + 2 * a * b * e01 + 2 * a * c * e02 + 2 * b * c * e12

theorem translation_inv (d : V4) :
    (translation (toVec d)).toMatrix * (translation (toVec (Geom.scale3 d (-1)))).toMatrix = 1 := by
  have h := (C37_translation (toVec d) (toVec d)).2.1
  rw [C37_mul] at h
  have e : (translation (toVec d) true).toMatrix = (translation (toVec (Geom.scale3 d (-1)))).toMatrix := by
    funext i j
    fin_cases i <;> fin_cases j <;> rfl
  rw [← e]
  exact h

/-- the two matrices built by `tri2p0n` from a frame -/
structure IsBasis (b : Basis) (x y : V4) : Prop where
  frame : Frame x y b.n
  fwd : b.fwd = (rotRows x y b.n).mul (translation (toVec (Geom.scale3 b.p0 (-1))))
  inv : b.inv = (translation (toVec b.p0)).mul { rotRows x y b.n with trans := true }

theorem app_fwd {b : Basis} {x y : V4} (h : IsBasis b x y) (p : V4) (hw : p.w = 1) :
    app b.fwd p = ⟨x.x * (p.x - b.p0.x) + x.y * (p.y - b.p0.y) + x.z * (p.z - b.p0.z),
      y.x * (p.x - b.p0.x) + y.y * (p.y - b.p0.y) + y.z * (p.z - b.p0.z),
      b.n.x * (p.x - b.p0.x) + b.n.y * (p.y - b.p0.y) + b.n.z * (p.z - b.p0.z), 1⟩ := by
  unfold app
  rw [h.fwd, C37_mulVec, C37_mul, ← Matrix.mulVec_mulVec, ← C37_mulVec, ← C37_mulVec,
    (C37_translation (toVec (Geom.scale3 b.p0 (-1))) (toVec p)).1]
  unfold ofVec
  simp only [mulVec_get, dot4, getrow_eq, rotRows, Mat.get, Mat.ofRows, toVec, Geom.scale3]
  simp only [V4.mk.injEq]
  simp [hw]
  refine ⟨by ring, by ring, by ring⟩

theorem inv_fwd {b : Basis} {x y : V4} (h : IsBasis b x y) :
    b.inv.toMatrix * b.fwd.toMatrix = 1 ∧ b.fwd.toMatrix * b.inv.toMatrix = 1 := by
  have H : b.inv.toMatrix * b.fwd.toMatrix = 1 := by
    rw [h.inv, h.fwd, C37_mul, C37_mul, toMatrix_trans _ rfl, Matrix.mul_assoc,
      ← Matrix.mul_assoc (rotRows x y b.n).toMatrix.transpose, rot_orth' h.frame, Matrix.one_mul, translation_inv]
  exact ⟨H, mul_eq_one_comm.mp H⟩

theorem app_app (A B : Mat ℝ) (p : V4) (h : A.toMatrix * B.toMatrix = 1) : app A (app B p) = p := by
  unfold app
  have : toVec (ofVec (B.mulVec (toVec p))) = B.mulVec (toVec p) := by
    funext i; fin_cases i <;> rfl
  rw [this, C37_mulVec, C37_mulVec, Matrix.mulVec_mulVec, h, Matrix.one_mulVec]
  rfl

theorem mag_pos_of_area (t : Tri) (h : eps ≤ √(area2sq t)) : 0 < mag (Geom.sub t.p2 t.p1) := by
  unfold Geom.mag
  apply Real.sqrt_pos.mpr
  by_contra hn
  have hz : Geom.dot (Geom.sub t.p2 t.p1) (Geom.sub t.p2 t.p1) ≤ 0 := not_lt.mp hn
  simp only [Geom.dot, Geom.sub] at hz
  have a1 : t.p2.x - t.p1.x = 0 := by nlinarith [sq_nonneg (t.p2.x - t.p1.x), sq_nonneg (t.p2.y - t.p1.y), sq_nonneg (t.p2.z - t.p1.z)]
  have a2 : t.p2.y - t.p1.y = 0 := by nlinarith [sq_nonneg (t.p2.x - t.p1.x), sq_nonneg (t.p2.y - t.p1.y), sq_nonneg (t.p2.z - t.p1.z)]
  have a3 : t.p2.z - t.p1.z = 0 := by nlinarith [sq_nonneg (t.p2.x - t.p1.x), sq_nonneg (t.p2.y - t.p1.y), sq_nonneg (t.p2.z - t.p1.z)]
  have : area2sq t = 0 := by unfold area2sq; rw [a1, a2, a3]; ring
  rw [this, Real.sqrt_zero] at h
  linarith [eps_pos]

/-- the frame of a triangle: first edge direction, normal, and their product -/
theorem frame_of (v n : V4) (hv : 0 < Geom.mag v) (hn : n.x ^ 2 + n.y ^ 2 + n.z ^ 2 = 1) (ho : Geom.dot v n = 0) :
    Frame (axisX v) (axisY v n) n := by
  unfold axisY axisX
  have hsq : Geom.mag v ^ 2 = v.x * v.x + v.y * v.y + v.z * v.z := by
    unfold Geom.mag
    rw [Real.sq_sqrt (by nlinarith [sq_nonneg v.x, sq_nonneg v.y, sq_nonneg v.z])]
  have hk : (1 / Geom.mag v) ^ 2 * (v.x * v.x + v.y * v.y + v.z * v.z) = 1 := by rw [← hsq]; field_simp
  generalize 1 / Geom.mag v = k at *
  simp only [Geom.dot] at ho
  constructor <;> simp only [Geom.dot, Geom.scale3, Geom.cross]
  · linear_combination hk
  · linear_combination hk + k ^ 2 * (v.x * v.x + v.y * v.y + v.z * v.z) * hn - k ^ 2 * (v.x * n.x + v.y * n.y + v.z * n.z) * ho
  · linear_combination hn
  · ring
  · ring
  · linear_combination k * ho

theorem basisOf_is (p0 n v : V4) (hv : 0 < Geom.mag v) (hn : n.x ^ 2 + n.y ^ 2 + n.z ^ 2 = 1) (ho : Geom.dot v n = 0) :
    IsBasis (basisOf p0 n v) (axisX v) (axisY v n) := by
  have hf := frame_of v n hv hn ho
  unfold basisOf
  exact { frame := hf, fwd := by dsimp only, inv := by dsimp only }

theorem basis_ok (t : Tri) (h : eps ≤ √(area2sq t)) : ∃ b, tri2basis t = .ok b ∧ tri2p0n t.p1 t.p2 t.p3 = .ok (b.p0, b.n) ∧
    IsBasis b (axisX (Geom.sub t.p2 t.p1)) (axisY (Geom.sub t.p2 t.p1) b.n) := by
  rcases C349_plane t with ⟨h', _⟩ | ⟨_, p0, n, he, hp0, hw, hu, h1, h2, h3, ht⟩
  · exact absurd h' (not_lt.mpr h)
  have hv := mag_pos_of_area t h
  have ho : Geom.dot (Geom.sub t.p2 t.p1) n = 0 := by
    simp only [OnPlane] at h1 h2
    simp only [Geom.dot, Geom.sub]
    linear_combination h2 - h1
  have e : tri2basis t = .ok (basisOf p0 n (Geom.sub t.p2 t.p1)) := by
    unfold tri2basis
    rw [he]
    exact if_neg hv.ne'
  exact ⟨_, e, he, basisOf_is p0 n _ hv hu ho⟩

/-- **C350** the planar basis of a triangle exists exactly for triangles whose doubled area is at least epsilon, and has the
centre and normal of the plane -/
theorem C350_exists (t : Tri) :
    (√(area2sq t) < eps → tri2basis t = .error .valueError) ∧
    (eps ≤ √(area2sq t) → ∃ b, tri2basis t = .ok b ∧ tri2p0n t.p1 t.p2 t.p3 = .ok (b.p0, b.n)) := by
  constructor
  · intro h
    rcases C349_plane t with ⟨_, e⟩ | ⟨h', _⟩
    · unfold tri2basis; rw [e]
    · exact absurd h (not_lt.mpr h')
  · intro h
    obtain ⟨b, e, e', _⟩ := basis_ok t h
    exact ⟨b, e, e'⟩

theorem basis_is {t : Tri} {b : Basis} (h : tri2basis t = .ok b) : eps ≤ √(area2sq t) ∧
    tri2p0n t.p1 t.p2 t.p3 = .ok (b.p0, b.n) ∧
    IsBasis b (axisX (Geom.sub t.p2 t.p1)) (axisY (Geom.sub t.p2 t.p1) b.n) := by
  rcases lt_or_ge (√(area2sq t)) eps with h' | h'
  · rw [(C350_exists t).1 h'] at h; cases h
  · obtain ⟨b', e, e', hb⟩ := basis_ok t h'
    rw [e] at h
    injection h with h
    subst h
    exact ⟨h', e', hb⟩

/-- **C350** the two matrices undo each other, on every 4-vector -/
theorem C350_inverse (t : Tri) (b : Basis) (h : tri2basis t = .ok b) (p : V4) :
    app b.inv (app b.fwd p) = p ∧ app b.fwd (app b.inv p) = p := by
  obtain ⟨_, _, hb⟩ := basis_is h
  exact ⟨app_app _ _ _ (inv_fwd hb).1, app_app _ _ _ (inv_fwd hb).2⟩

/-- **C350** the forward matrix keeps distances, sends the centre to the origin, the plane of the triangle to `z = 0` (every
point to its signed distance as height), the first edge to the x direction and the third corner above it -/
theorem C350_forward (t : Tri) (b : Basis) (h : tri2basis t = .ok b) :
    (∀ p q : V4, p.w = 1 → q.w = 1 → sqDist (app b.fwd p) (app b.fwd q) = sqDist p q) ∧
    app b.fwd b.p0 = ⟨0, 0, 0, 1⟩ ∧
    (∀ p : V4, p.w = 1 → (app b.fwd p).w = 1 ∧ (app b.fwd p).z = signedPlaneDistance p b.p0 b.n ∧
      ((app b.fwd p).z = 0 ↔ OnPlane p b.p0 b.n)) ∧
    (t.p1.w = 1 → t.p2.w = 1 → (app b.fwd t.p1).y = (app b.fwd t.p2).y ∧
      (app b.fwd t.p1).x < (app b.fwd t.p2).x) ∧
    (t.p1.w = 1 → t.p3.w = 1 → (app b.fwd t.p1).y < (app b.fwd t.p3).y) := by
  obtain ⟨ha, hpn, hb⟩ := basis_is h
  rcases C349_plane t with ⟨h', _⟩ | ⟨_, p0, n, he, hp0, hw, hu, h1, h2, h3, ht⟩
  · exact absurd h' (not_lt.mpr ha)
  rw [hpn] at he
  injection he with he
  injection he with he1 he2
  subst he1; subst he2
  have hv := mag_pos_of_area t ha
  refine ⟨?_, ?_, ?_, ?_, ?_⟩
  · intro p q hp hq
    rw [app_fwd hb p hp, app_fwd hb q hq]
    unfold sqDist
    rw [← frame_norm hb.frame (p.x - q.x) (p.y - q.y) (p.z - q.z)]
    ring
  · rw [app_fwd hb _ hp0.2.2.2]
    simp
  · intro p hp
    rw [app_fwd hb p hp]
    refine ⟨rfl, ?_, ?_⟩
    · simp only [signedPlaneDistance, Geom.dot, Geom.sub]; ring
    · simp only [OnPlane]
      constructor <;> intro h <;> linarith
  · intro w1 w2
    rw [app_fwd hb _ w1, app_fwd hb _ w2]
    have hsq : Geom.mag (Geom.sub t.p2 t.p1) ^ 2 = (t.p2.x - t.p1.x) * (t.p2.x - t.p1.x) +
        (t.p2.y - t.p1.y) * (t.p2.y - t.p1.y) + (t.p2.z - t.p1.z) * (t.p2.z - t.p1.z) := by
      unfold Geom.mag
      rw [Real.sq_sqrt (by simp only [Geom.sub]; nlinarith [sq_nonneg (t.p2.x - t.p1.x), sq_nonneg (t.p2.y - t.p1.y), sq_nonneg (t.p2.z - t.p1.z)])]
      rfl
    have hk : (1 / Geom.mag (Geom.sub t.p2 t.p1)) * Geom.mag (Geom.sub t.p2 t.p1) ^ 2 = Geom.mag (Geom.sub t.p2 t.p1) := by
      field_simp
    rw [hsq] at hk
    constructor
    · simp only [axisX, axisY, Geom.cross, Geom.scale3, Geom.sub]; ring
    · rw [← sub_pos]
      have : 0 < (1 / Geom.mag (Geom.sub t.p2 t.p1)) * ((t.p2.x - t.p1.x) * (t.p2.x - t.p1.x) +
        (t.p2.y - t.p1.y) * (t.p2.y - t.p1.y) + (t.p2.z - t.p1.z) * (t.p2.z - t.p1.z)) := by rw [hk]; exact hv
      refine lt_of_lt_of_eq this ?_
      simp only [axisX, Geom.scale3, Geom.sub]; ring
  · intro w1 w3
    rw [app_fwd hb _ w1, app_fwd hb _ w3, ← sub_pos]
    have : 0 < (1 / Geom.mag (Geom.sub t.p2 t.p1)) * turn t b.n := by
      rw [ht]
      exact mul_pos (by positivity) (lt_of_lt_of_le eps_pos ha)
    refine lt_of_lt_of_eq this ?_
    simp only [axisX, axisY, Geom.cross, Geom.scale3, Geom.sub, turn]; ring

/-- **C350** a right triangle off the coordinate planes has a basis -/
theorem C350_case : ∃ b, tri2basis ⟨⟨1, 2, 3, 1⟩, ⟨4, 2, 7, 1⟩, ⟨1, 3, 3, 1⟩⟩ = .ok b := by
  refine ((C350_exists _).2 ?_).imp fun b h => h.1
  have : area2sq ⟨⟨1, 2, 3, 1⟩, ⟨4, 2, 7, 1⟩, ⟨1, 3, 3, 1⟩⟩ = 5 ^ 2 := by unfold area2sq; norm_num
  rw [this, Real.sqrt_sq (by norm_num)]
  unfold eps; norm_num

/-! ## distance from a plane -/

/-- **C351** for a unit normal the signed distance is the distance to the plane: no point of the plane is nearer than its
absolute value and one is exactly that far; it is positive exactly on the side the normal points to -/
theorem C351_distance (p p0 n : V4) (hn : n.x ^ 2 + n.y ^ 2 + n.z ^ 2 = 1) :
    (∀ q, OnPlane q p0 n → signedPlaneDistance p p0 n ^ 2 ≤ sqDist p q) ∧
    (∃ q, OnPlane q p0 n ∧ sqDist p q = signedPlaneDistance p p0 n ^ 2 ∧
      p.x = q.x + signedPlaneDistance p p0 n * n.x ∧ p.y = q.y + signedPlaneDistance p p0 n * n.y ∧
      p.z = q.z + signedPlaneDistance p p0 n * n.z) := by
  simp only [signedPlaneDistance, OnPlane, sqDist, Geom.dot, Geom.sub]
  constructor
  · intro q hq
    have e : (p.x - p0.x) * n.x + (p.y - p0.y) * n.y + (p.z - p0.z) * n.z =
        (p.x - q.x) * n.x + (p.y - q.y) * n.y + (p.z - q.z) * n.z := by linear_combination hq
    rw [e]
    nlinarith [sq_nonneg ((p.x - q.x) * n.y - (p.y - q.y) * n.x), sq_nonneg ((p.y - q.y) * n.z - (p.z - q.z) * n.y),
      sq_nonneg ((p.x - q.x) * n.z - (p.z - q.z) * n.x),
      congrArg (fun s => s * ((p.x - q.x) ^ 2 + (p.y - q.y) ^ 2 + (p.z - q.z) ^ 2)) hn]
  · generalize hd : (p.x - p0.x) * n.x + (p.y - p0.y) * n.y + (p.z - p0.z) * n.z = d
    refine ⟨⟨p.x - d * n.x, p.y - d * n.y, p.z - d * n.z, 1⟩, ?_, ?_, ?_, ?_, ?_⟩
    · simp only; linear_combination hd - d * hn
    · simp only; linear_combination d ^ 2 * hn
    all_goals simp

/-- the hypothesis is met by an oblique normal -/
example : (3 / 5 : ℝ) ^ 2 + (0 : ℝ) ^ 2 + (4 / 5 : ℝ) ^ 2 = 1 := by norm_num

/-- **C351** three points of one plane have signed distance zero, and the distance changes sign with the normal -/
theorem C351_sign (p p0 n : V4) :
    (signedPlaneDistance p p0 n = 0 ↔ OnPlane p p0 n) ∧
    signedPlaneDistance p p0 (Geom.scale3 n (-1)) = -signedPlaneDistance p p0 n := by
  refine ⟨Iff.rfl, ?_⟩
  simp only [signedPlaneDistance, Geom.dot, Geom.sub, Geom.scale3]
  ring

end Verif.Plane
