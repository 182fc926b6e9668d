import Verif.Bool3.Clip
import Verif.Valid.Core
import Mathlib.Tactic.FinCases
import Mathlib.Tactic.NormNum

/-!
# Points in solids: `solid_contains_point` (C267–C270)
-/

namespace Verif.Bool3
open Verif.Valid (V vsub vadd smul dot cross Box Tri hull)

section field
variable {K : Type} [Field K] [LinearOrder K]

/-! ## specification -/

/-- coordinate number `i` -/
def co : Fin 3 → V K → K
  | 0, p => p.x
  | 1, p => p.y
  | 2, p => p.z

/-- the bound of the box on side `up` of axis `i` -/
def bound (b : Box K) (i : Fin 3) (up : Bool) : K := if up then co i b.2 else co i b.1

/-- the triangle is in the side `up` of axis `i` of the box -/
def OnFace (b : Box K) (i : Fin 3) (up : Bool) (t : Tri K) : Prop := co i t.1 = bound b i up ∧ co i t.2.1 = bound b i up ∧ co i t.2.2 = bound b i up

/-- the point is in the triangle -/
def InTri (t : Tri K) (x : V K) : Prop := ∃ u v, 0 ≤ u ∧ 0 ≤ v ∧ u + v ≤ 1 ∧ x = vadd t.1 (vadd (smul u (vsub t.2.1 t.1)) (smul v (vsub t.2.2 t.1)))

/-- triangles, none degenerate, that cover the sides of the box and run counter-clockwise seen from outside. (They may overlap.) -/
structure BoxMesh (b : Box K) (ts : List (Tri K)) : Prop where
  out : ∀ t ∈ ts, ∃ i up, OnFace b i up t ∧ (if up then 0 < co i (rawNormal t) else co i (rawNormal t) < 0) ∧ ¬ degenerate t
  cover : ∀ i up x, inBox b x → co i x = bound b i up → ∃ t ∈ ts, OnFace b i up t ∧ InTri t x

/-- the two boxes have a point in common -/
def Meets (a b : Box K) : Prop := a.1.x ≤ b.2.x ∧ b.1.x ≤ a.2.x ∧ a.1.y ≤ b.2.y ∧ b.1.y ≤ a.2.y ∧ a.1.z ≤ b.2.z ∧ b.1.z ≤ a.2.z

/-- an octree: what it returns are triangles of the surface, and every triangle whose bounding box meets the query is returned (C02) -/
def Finder (find : Surf K → Box K → List (Tri K)) : Prop :=
  ∀ s q, (∀ t ∈ find s q, t ∈ s.tris) ∧ ∀ t ∈ s.tris, Meets (hull t.1 [t.2.1, t.2.2]) q → t ∈ find s q

/-- the direction of axis `i` -/
def dir (i : Fin 3) (up : Bool) : V K :=
  match i, up with
  | 0, true => ⟨1, 0, 0⟩
  | 0, false => ⟨-1, 0, 0⟩
  | 1, true => ⟨0, 1, 0⟩
  | 1, false => ⟨0, -1, 0⟩
  | 2, true => ⟨0, 0, 1⟩
  | 2, false => ⟨0, 0, -1⟩

variable [IsStrictOrderedRing K]

omit [IsStrictOrderedRing K] [LinearOrder K] in
theorem rawNormal_eq (t : Tri K) : rawNormal t = cross (vsub t.2.1 t.1) (vsub t.2.2 t.1) := by
  simp only [rawNormal, cross, vsub, Verif.Valid.V.mk.injEq]
  refine ⟨?_, ?_, ?_⟩ <;> ring

omit [IsStrictOrderedRing K] [LinearOrder K] in
/-- the coordinate of the determinant -/
theorem det_eq (d : V K) (t : Tri K) : dot (vsub t.2.1 t.1) (cross d (vsub t.2.2 t.1)) = -dot d (rawNormal t) := by
  rw [rawNormal_eq]
  simp only [dot, cross, vsub]; ring

omit [IsStrictOrderedRing K] in
/-- the normal of a triangle in a side of the box -/
theorem normal_face {b : Box K} {i : Fin 3} {up : Bool} {t : Tri K} (h : OnFace b i up t) (j : Fin 3) (hj : j ≠ i) : co j (rawNormal t) = 0 := by
  obtain ⟨h1, h2, h3⟩ := h
  rw [rawNormal_eq]
  fin_cases i <;> fin_cases j <;> first | exact absurd rfl hj | (
    simp only [co, cross, vsub] at *
    rw [h1, h2, h3]; ring)

omit [IsStrictOrderedRing K] in
theorem dot_dir (i : Fin 3) (up : Bool) (v : V K) : dot (dir i up) v = if up then co i v else -co i v := by
  fin_cases i <;> cases up <;> simp [dir, dot, co]

/-- a ray along another axis misses the triangle -/
theorem ray_other {b : Box K} {i j : Fin 3} {up u2 : Bool} {t : Tri K} {tol : K} (ht : 0 < tol) (h : OnFace b i up t) (hj : j ≠ i) (p : V K) : rayTri p (dir j u2) t tol = none := by
  unfold rayTri
  dsimp only
  rw [det_eq, dot_dir, normal_face h j hj, if_pos]
  simp [ht]

omit [IsStrictOrderedRing K] in
theorem rayTri_some {o d : V K} {t : Tri K} {tol r : K} (h : rayTri o d t tol = some r) :
    tol ≤ |dot d (rawNormal t)| ∧ -tol ≤ r ∧ r = 1 / (-dot d (rawNormal t)) * dot (vsub t.2.2 t.1) (cross (vsub o t.1) (vsub t.2.1 t.1)) := by
  unfold rayTri at h
  dsimp only at h
  rw [det_eq] at h
  split at h
  · cases h
  rename_i h1
  split at h
  · cases h
  split at h
  · cases h
  split at h
  · cases h
  rename_i h4
  split at h
  · cases h
  rw [abs_neg, not_lt] at h1
  have := (Option.some.inj h).symm
  exact ⟨h1, this ▸ not_lt.1 h4, this⟩

/-- a ray that meets the triangle -/
theorem rayTri_hit {o d : V K} {t : Tri K} {tol r : K} (ht : 0 < tol) (hD : tol ≤ |dot d (rawNormal t)|) (hr : 0 ≤ r) (hx : InTri t (vadd o (smul r d))) :
    rayTri o d t tol = some r := by
  obtain ⟨u, v, hu, hv, huv, hx⟩ := hx
  have hne : dot d (rawNormal t) ≠ 0 := by intro h; rw [h, abs_zero] at hD; linarith
  simp only [vadd, smul, vsub, Verif.Valid.V.mk.injEq] at hx
  obtain ⟨x1, x2, x3⟩ := hx
  have s1 : o.x - t.1.x = u * (t.2.1.x - t.1.x) + v * (t.2.2.x - t.1.x) - r * d.x := by linear_combination x1
  have s2 : o.y - t.1.y = u * (t.2.1.y - t.1.y) + v * (t.2.2.y - t.1.y) - r * d.y := by linear_combination x2
  have s3 : o.z - t.1.z = u * (t.2.1.z - t.1.z) + v * (t.2.2.z - t.1.z) - r * d.z := by linear_combination x3
  have eu : dot (vsub o t.1) (cross d (vsub t.2.2 t.1)) = u * -dot d (rawNormal t) := by
    rw [rawNormal_eq]
    simp only [dot, cross, vsub]
    rw [s1, s2, s3]; ring
  have ev : dot d (cross (vsub o t.1) (vsub t.2.1 t.1)) = v * -dot d (rawNormal t) := by
    rw [rawNormal_eq]
    simp only [dot, cross, vsub]
    rw [s1, s2, s3]; ring
  have er : dot (vsub t.2.2 t.1) (cross (vsub o t.1) (vsub t.2.1 t.1)) = r * -dot d (rawNormal t) := by
    rw [rawNormal_eq]
    simp only [dot, cross, vsub]
    rw [s1, s2, s3]; ring
  have hc : ∀ w : K, 1 / -dot d (rawNormal t) * (w * -dot d (rawNormal t)) = w := fun w => by field_simp
  unfold rayTri
  dsimp only
  rw [det_eq, eu, ev, er, hc, hc, hc, abs_neg, if_neg (not_lt.2 hD), if_neg, if_neg, if_neg, if_neg]
  · linarith
  · linarith
  · push Not; exact ⟨by linarith, by linarith⟩
  · push Not; exact ⟨by linarith, by linarith⟩

/-- Boxes overlap, up to a tolerance, exactly if they have points that differ by at most the tolerance in each coordinate. -/
theorem C272_boxes (a b : Box K) (tol : K) (ht : 0 ≤ tol) (ha : a.1.x ≤ a.2.x ∧ a.1.y ≤ a.2.y ∧ a.1.z ≤ a.2.z) (hb : b.1.x ≤ b.2.x ∧ b.1.y ≤ b.2.y ∧ b.1.z ≤ b.2.z) :
    boxOverlap a b tol ↔ ∃ p q : V K, (a.1.x ≤ p.x ∧ p.x ≤ a.2.x ∧ a.1.y ≤ p.y ∧ p.y ≤ a.2.y ∧ a.1.z ≤ p.z ∧ p.z ≤ a.2.z) ∧
      (b.1.x ≤ q.x ∧ q.x ≤ b.2.x ∧ b.1.y ≤ q.y ∧ q.y ≤ b.2.y ∧ b.1.z ≤ q.z ∧ q.z ≤ b.2.z) ∧ |p.x - q.x| ≤ tol ∧ |p.y - q.y| ≤ tol ∧ |p.z - q.z| ≤ tol := by
  have key : ∀ l h l' h' : K, l ≤ h → l' ≤ h' → ((¬ h < l' - tol ∧ ¬ l > h' + tol) ↔ ∃ x y, l ≤ x ∧ x ≤ h ∧ l' ≤ y ∧ y ≤ h' ∧ |x - y| ≤ tol) := by
    intro l h l' h' hl hl'
    constructor
    · rintro ⟨h1, h2⟩
      rw [not_lt] at h1
      rw [gt_iff_lt, not_lt] at h2
      by_cases c : l ≤ l'
      · by_cases c' : l' ≤ h
        · exact ⟨l', l', c, c', le_refl _, hl', by rw [sub_self, abs_zero]; exact ht⟩
        · exact ⟨h, l', hl, le_refl _, le_refl _, hl', abs_le.2 ⟨by linarith, by linarith [not_le.1 c']⟩⟩
      · have c := not_le.1 c
        by_cases c' : l ≤ h'
        · exact ⟨l, l, le_refl _, hl, c.le, c', by rw [sub_self, abs_zero]; exact ht⟩
        · exact ⟨l, h', le_refl _, hl, hl', le_refl _, abs_le.2 ⟨by linarith [not_le.1 c'], by linarith⟩⟩
    · rintro ⟨x, y, h1, h2, h3, h4, h5⟩
      obtain ⟨h6, h7⟩ := abs_le.1 h5
      exact ⟨by rw [not_lt]; linarith, by rw [gt_iff_lt, not_lt]; linarith⟩
  have kx := key a.1.x a.2.x b.1.x b.2.x ha.1 hb.1
  have ky := key a.1.y a.2.y b.1.y b.2.y ha.2.1 hb.2.1
  have kz := key a.1.z a.2.z b.1.z b.2.z ha.2.2 hb.2.2
  simp only [boxOverlap, not_or]
  constructor
  · rintro ⟨g1, g2, g3, g4, g5, g6⟩
    obtain ⟨x, x', h1⟩ := kx.1 ⟨g1, g2⟩
    obtain ⟨y, y', h2⟩ := ky.1 ⟨g3, g4⟩
    obtain ⟨z, z', h3⟩ := kz.1 ⟨g5, g6⟩
    exact ⟨⟨x, y, z⟩, ⟨x', y', z'⟩, ⟨h1.1, h1.2.1, h2.1, h2.2.1, h3.1, h3.2.1⟩, ⟨h1.2.2.1, h1.2.2.2.1, h2.2.2.1, h2.2.2.2.1, h3.2.2.1, h3.2.2.2.1⟩,
      h1.2.2.2.2, h2.2.2.2.2, h3.2.2.2.2⟩
  · rintro ⟨p, q, ⟨a1, a2, a3, a4, a5, a6⟩, ⟨b1, b2, b3, b4, b5, b6⟩, c1, c2, c3⟩
    obtain ⟨g1, g2⟩ := kx.2 ⟨p.x, q.x, a1, a2, b1, b2, c1⟩
    obtain ⟨g3, g4⟩ := ky.2 ⟨p.y, q.y, a3, a4, b3, b4, c2⟩
    obtain ⟨g5, g6⟩ := kz.2 ⟨p.z, q.z, a5, a6, b5, b6, c3⟩
    exact ⟨g1, g2, g3, g4, g5, g6⟩

/-- A hit is a point of the ray, at the parameter returned, and of the plane of the triangle, and its barycentric coordinates are within the tolerance of those of points of the triangle. -/
theorem C267_hit {o d : V K} {t : Tri K} {tol r : K} (ht : 0 < tol) (h : rayTri o d t tol = some r) :
    ∃ u v, -tol ≤ u ∧ -tol ≤ v ∧ u + v ≤ 1 + tol ∧ -tol ≤ r ∧
      vadd o (smul r d) = vadd t.1 (vadd (smul u (vsub t.2.1 t.1)) (smul v (vsub t.2.2 t.1))) := by
  unfold rayTri at h
  dsimp only at h
  split at h
  · cases h
  rename_i h1
  split at h
  · cases h
  rename_i h2
  split at h
  · cases h
  rename_i h3
  split at h
  · cases h
  rename_i h4
  split at h
  · cases h
  rw [not_or, not_lt, not_lt] at h2 h3
  refine ⟨_, _, h2.1, h3.1, h3.2, by rw [← Option.some.inj h]; exact not_lt.1 h4, ?_⟩
  rw [← Option.some.inj h]
  have hne : dot (vsub t.2.1 t.1) (cross d (vsub t.2.2 t.1)) ≠ 0 := by
    intro e; rw [e, abs_zero] at h1; exact h1 ht
  have hf := one_div_mul_cancel hne
  generalize 1 / dot (vsub t.2.1 t.1) (cross d (vsub t.2.2 t.1)) = f at hf ⊢
  simp only [dot, cross, vsub, vadd, smul, Verif.Valid.V.mk.injEq] at hf ⊢
  refine ⟨?_, ?_, ?_⟩
  · linear_combination (t.1.x - o.x) * hf
  · linear_combination (t.1.y - o.y) * hf
  · linear_combination (t.1.z - o.z) * hf

/-- what the ray along the axis of the side hits is at the distance of the side -/
theorem ray_same {b : Box K} {i : Fin 3} {up u2 : Bool} {t : Tri K} {tol r : K} (ht : 0 < tol) (h : OnFace b i up t) (p : V K) (hr : rayTri p (dir i u2) t tol = some r) :
    r = if u2 then bound b i up - co i p else co i p - bound b i up := by
  have n1 : ∀ j, j ≠ i → co j (rawNormal t) = 0 := normal_face h
  obtain ⟨hd, -, hr⟩ := rayTri_some hr
  rw [dot_dir] at hd hr
  have e : dot (vsub t.2.2 t.1) (cross (vsub p t.1) (vsub t.2.1 t.1)) = (co i p - bound b i up) * co i (rawNormal t) := by
    have : dot (vsub t.2.2 t.1) (cross (vsub p t.1) (vsub t.2.1 t.1)) = dot (vsub p t.1) (rawNormal t) := by
      rw [rawNormal_eq]; simp only [dot, cross, vsub]; ring
    rw [this, ← h.1]
    fin_cases i
    · have a1 := n1 1 (by decide); have a2 := n1 2 (by decide)
      simp only [co, dot, vsub] at *
      rw [a1, a2]; ring
    · have a1 := n1 0 (by decide); have a2 := n1 2 (by decide)
      simp only [co, dot, vsub] at *
      rw [a1, a2]; ring
    · have a1 := n1 0 (by decide); have a2 := n1 1 (by decide)
      simp only [co, dot, vsub] at *
      rw [a1, a2]; ring
  rw [e] at hr
  have hne : co i (rawNormal t) ≠ 0 := by
    intro h0
    rw [h0] at hd
    have : ¬ tol ≤ 0 := not_le.2 ht
    cases u2 <;> simp [this] at hd
  rw [hr]
  cases u2
  · simp only [Bool.false_eq_true, if_false]
    field_simp
    try ring
  · simp only [if_true]
    field_simp
    try ring

/-- the length of the normal of a triangle in a side of the box -/
theorem normal_long {b : Box K} {i : Fin 3} {up : Bool} {t : Tri K} (h : OnFace b i up t) (hd : ¬ degenerate t) : (eps : K) ≤ |co i (rawNormal t)| := by
  have n1 : ∀ j, j ≠ i → co j (rawNormal t) = 0 := normal_face h
  have e : dot (rawNormal t) (rawNormal t) = co i (rawNormal t) ^ 2 := by
    fin_cases i
    · have a1 := n1 1 (by decide); have a2 := n1 2 (by decide)
      simp only [co, dot] at *
      rw [a1, a2]; ring
    · have a1 := n1 0 (by decide); have a2 := n1 2 (by decide)
      simp only [co, dot] at *
      rw [a1, a2]; ring
    · have a1 := n1 0 (by decide); have a2 := n1 1 (by decide)
      simp only [co, dot] at *
      rw [a1, a2]; ring
  unfold degenerate at hd
  rw [not_lt, e] at hd
  have hp : (0 : K) ≤ eps := by unfold eps; positivity
  have := sq_le_sq.1 hd
  rwa [abs_of_nonneg hp] at this

theorem bound_mem {b : Box K} {p : V K} (h : inBox b p) (i : Fin 3) : co i b.1 ≤ co i p ∧ co i p ≤ co i b.2 := by
  obtain ⟨h1, h2, h3, h4, h5, h6⟩ := h
  fin_cases i
  · exact ⟨h1, h2⟩
  · exact ⟨h3, h4⟩
  · exact ⟨h5, h6⟩

/-- the distance from the point to the side -/
def gap (b : Box K) (p : V K) (i : Fin 3) (up : Bool) : K := if up then co i b.2 - co i p else co i p - co i b.1

theorem gap_nonneg {b : Box K} {p : V K} (h : inBox b p) (i : Fin 3) (up : Bool) : 0 ≤ gap b p i up := by
  have := bound_mem h i
  unfold gap; split <;> linarith [this.1, this.2]

theorem gap_len {b : Box K} {p : V K} (h : inBox b p) (i : Fin 3) (up : Bool) : gap b p i up ≤ rayLength b := by
  have := bound_mem h i
  have h1 : gap b p i up ≤ co i b.2 - co i b.1 := by unfold gap; split <;> linarith [this.1, this.2]
  have h0 : 0 ≤ co i b.2 - co i b.1 := by linarith [this.1, this.2]
  have h2 : co i b.2 - co i b.1 ≤ max (max (b.2.x - b.1.x) (b.2.y - b.1.y)) (b.2.z - b.1.z) := by
    fin_cases i
    · exact le_max_of_le_left (le_max_left _ _)
    · exact le_max_of_le_left (le_max_right _ _)
    · exact le_max_right _ _
  unfold rayLength
  refine le_max_of_le_left ?_
  linarith

/-- the point where the ray meets the side -/
theorem far_in {b : Box K} {p : V K} (h : inBox b p) (i : Fin 3) (up : Bool) :
    inBox b (vadd p (smul (gap b p i up) (dir i up))) ∧ co i (vadd p (smul (gap b p i up) (dir i up))) = bound b i up := by
  obtain ⟨h1, h2, h3, h4, h5, h6⟩ := h
  fin_cases i <;> cases up <;> simp [inBox, gap, co, bound, dir, vadd, smul, h1, h2, h3, h4, h5, h6] <;>
    (try refine ⟨?_, ?_⟩) <;> linarith

/-- one ray: the hits are all at the distance of the side, and there is one if a triangle where the ray meets the side is among the candidates -/
theorem scan_box {b : Box K} {ts : List (Tri K)} (hm : BoxMesh b ts) {tol len : K} (ht : 0 < tol) (hte : tol ≤ eps) {p : V K} (hp : inBox b p) (i : Fin 3) (up : Bool)
    (hlen : gap b p i up ≤ len) : ∀ (cs : List (Tri K)), (∀ t ∈ cs, t ∈ ts) → ∀ hits : List (K × ℤ), (∀ h ∈ hits, h = (gap b p i up, -1)) →
    scan tol len p (dir i up) hits cs = .ok none ∨ ∃ r, scan tol len p (dir i up) hits cs = .ok (some r) ∧ (∀ h ∈ r, h = (gap b p i up, -1)) ∧
      (r = [] → hits = [] ∧ ∀ t ∈ cs, OnFace b i up t → ¬ InTri t (vadd p (smul (gap b p i up) (dir i up))))
  | [], _, hits, hh => .inr ⟨hits, rfl, hh, fun h => ⟨h, by simp⟩⟩
  | t :: cs, hcs, hits, hh => by
    have hg := gap_nonneg hp i up
    have hcs' : ∀ t ∈ cs, t ∈ ts := fun t h => hcs t (.tail _ h)
    obtain ⟨j, u2, hf, hs, hd⟩ := hm.out t (hcs t (by simp))
    have skip : ((OnFace b i up t → ¬ InTri t (vadd p (smul (gap b p i up) (dir i up)))) → scan tol len p (dir i up) hits (t :: cs) = scan tol len p (dir i up) hits cs →
        scan tol len p (dir i up) hits (t :: cs) = .ok none ∨ ∃ r, scan tol len p (dir i up) hits (t :: cs) = .ok (some r) ∧ (∀ h ∈ r, h = (gap b p i up, -1)) ∧
          (r = [] → hits = [] ∧ ∀ t' ∈ t :: cs, OnFace b i up t' → ¬ InTri t' (vadd p (smul (gap b p i up) (dir i up))))) := by
      intro hno he
      rw [he]
      rcases scan_box hm ht hte hp i up hlen cs hcs' hits hh with h | ⟨r, h1, h2, h3⟩
      · exact .inl h
      · refine .inr ⟨r, h1, h2, fun hr => ⟨(h3 hr).1, fun t' ht' => ?_⟩⟩
        rcases List.mem_cons.1 ht' with rfl | ht'
        · exact hno
        · exact (h3 hr).2 t' ht'
    have hitl : OnFace b i up t → InTri t (vadd p (smul (gap b p i up) (dir i up))) → rayTri p (dir i up) t tol = some (gap b p i up) := by
      intro hf' hin
      refine rayTri_hit ht ?_ hg hin
      have := (hte.trans (normal_long hf' hd))
      rw [dot_dir]
      cases up <;> simpa using this
    cases hr : rayTri p (dir i up) t tol with
    | none =>
      refine skip (fun hf' hin => ?_) (by rw [scan, hr])
      rw [hitl hf' hin] at hr; cases hr
    | some r =>
      have hji : i = j := by
        by_contra hne
        rw [ray_other ht hf hne] at hr; cases hr
      subst hji
      have hrr := ray_same ht hf p hr
      have hlo := (rayTri_some hr).2.1
      by_cases hu : u2 = up
      · subst hu
        have hrg : r = gap b p i u2 := by
          rw [hrr]; unfold gap bound; cases u2 <;> simp
        rw [scan, hr]
        dsimp only
        rw [if_neg (by push Not; exact ⟨hlo, by rw [hrg]; linarith⟩)]
        by_cases hle : r ≤ tol
        · rw [if_pos hle]; exact .inl rfl
        · rw [if_neg hle, if_neg hd]
          have hsg : sign (dir i u2) t = -1 := by
            unfold sign
            rw [if_pos]
            have : dot (rawNormal t) (dir i u2) = dot (dir i u2) (rawNormal t) := by simp only [dot]; ring
            rw [this, dot_dir]
            cases u2
            · simp only [Bool.false_eq_true, if_false] at hs ⊢; linarith
            · simpa using hs
          rcases scan_box hm ht hte hp i u2 hlen cs hcs' (hits ++ [(r, sign (dir i u2) t)]) (by
            intro h hh'
            rw [List.mem_append, List.mem_singleton] at hh'
            rcases hh' with hh' | rfl
            · exact hh h hh'
            · rw [hsg, hrg]) with h | ⟨r', h1, h2, h3⟩
          · exact .inl h
          · exact .inr ⟨r', h1, h2, fun hr' => absurd (h3 hr').1 (by simp)⟩
      · have hr0 : r ≤ 0 := by
          have := bound_mem hp i
          rw [hrr]; unfold bound
          cases u2 <;> cases up <;> simp at hu ⊢ <;> linarith [this.1, this.2]
        left
        rw [scan, hr]
        dsimp only
        rw [if_neg (by push Not; exact ⟨hlo, by linarith⟩), if_pos (by linarith)]

/-- one group with the same signs is counted once -/
theorem parity_same {tol R : K} (ht : 0 ≤ tol) : ∀ (l : List (K × ℤ)), l ≠ [] → (∀ h ∈ l, h = (R, -1)) → parity tol (sortHits l) = true := by
  intro l hne hl
  have hperm : ∀ h ∈ sortHits l, h = (R, -1) := fun h hh => hl h ((List.perm_insertionSort _ l).subset hh)
  have hn : sortHits l ≠ [] := by
    intro h
    have := (List.perm_insertionSort (fun a b : K × ℤ => a.1 ≤ b.1) l).length_eq
    unfold sortHits at h
    rw [h] at this
    exact hne (List.length_eq_zero_iff.1 this.symm)
  generalize sortHits l = m at hperm hn
  have hg : ∀ (m : List (K × ℤ)) (s : ℤ), s < 0 → (∀ h ∈ m, h = (R, -1)) → ∃ s', s' < 0 ∧ groupSums tol R s m = [s'] := by
    intro m
    induction m with
    | nil => intro s hs _; exact ⟨s, hs, rfl⟩
    | cons h m ih =>
      intro s hs hm
      rw [groupSums, hm h (by simp)]
      simp only [sub_self, abs_zero, if_pos ht]
      exact ih (s + -1) (by omega) fun h hh => hm h (.tail _ hh)
  cases m with
  | nil => exact absurd rfl hn
  | cons h m =>
    obtain ⟨s', h1, h2⟩ := hg m (-1) (by omega) fun h hh => hperm h (.tail _ hh)
    rw [parity, hperm h (by simp)]
    dsimp only
    rw [h2]
    simp [show s' ≠ 0 by omega]

theorem inTri_hull {t : Tri K} {x : V K} (h : InTri t x) : inBox (hull t.1 [t.2.1, t.2.2]) x := by
  obtain ⟨u, v, hu, hv, huv, rfl⟩ := h
  have key : ∀ a b c : K, min (min a b) c ≤ a + (u * (b - a) + v * (c - a)) ∧ a + (u * (b - a) + v * (c - a)) ≤ max (max a b) c := by
    intro a b c
    have m1 : min (min a b) c ≤ a := (min_le_left _ _).trans (min_le_left _ _)
    have m2 : min (min a b) c ≤ b := (min_le_left _ _).trans (min_le_right _ _)
    have m3 : min (min a b) c ≤ c := min_le_right _ _
    have M1 : a ≤ max (max a b) c := (le_max_left _ _).trans (le_max_left _ _)
    have M2 : b ≤ max (max a b) c := (le_max_right _ _).trans (le_max_left _ _)
    have M3 : c ≤ max (max a b) c := le_max_right _ _
    have hw : 0 ≤ 1 - u - v := by linarith
    have e : a + (u * (b - a) + v * (c - a)) = (1 - u - v) * a + u * b + v * c := by ring
    have e1 : ∀ m : K, m = (1 - u - v) * m + u * m + v * m := fun m => by ring
    rw [e]
    constructor
    · conv_lhs => rw [e1 (min (min a b) c)]
      exact add_le_add (add_le_add (mul_le_mul_of_nonneg_left m1 hw) (mul_le_mul_of_nonneg_left m2 hu)) (mul_le_mul_of_nonneg_left m3 hv)
    · conv_rhs => rw [e1 (max (max a b) c)]
      exact add_le_add (add_le_add (mul_le_mul_of_nonneg_left M1 hw) (mul_le_mul_of_nonneg_left M2 hu)) (mul_le_mul_of_nonneg_left M3 hv)
  simp only [hull, List.foldl_cons, List.foldl_nil, inBox, vadd, smul, vsub]
  exact ⟨(key _ _ _).1, (key _ _ _).2, (key _ _ _).1, (key _ _ _).2, (key _ _ _).1, (key _ _ _).2⟩

/-- the point where the ray ends is in the query box -/
theorem inBox_query {tol len r : K} (ht : 0 < tol) (hr : 0 ≤ r) (hl : r ≤ len) (p : V K) (i : Fin 3) (up : Bool) : inBox (query tol len p (dir i up)) (vadd p (smul r (dir i up))) := by
  unfold query segBox inBox
  fin_cases i <;> cases up <;> simp only [dir, vadd, smul] <;> refine ⟨?_, ?_, ?_, ?_, ?_, ?_⟩ <;>
    first
      | (refine le_trans (sub_le_sub_right (min_le_left _ _) _) ?_; linarith)
      | (refine le_trans (sub_le_sub_right (min_le_right _ _) _) ?_; linarith)
      | (refine le_trans ?_ (add_le_add_left (le_max_left _ _) _); linarith)
      | (refine le_trans ?_ (add_le_add_left (le_max_right _ _) _); linarith)
      | (refine le_trans ?_ (add_le_add_right (le_max_left _ _) _); linarith)
      | (refine le_trans ?_ (add_le_add_right (le_max_right _ _) _); linarith)

theorem meets_of_common {a b : Box K} {x : V K} (ha : inBox a x) (hb : inBox b x) : Meets a b :=
  ⟨ha.1.trans hb.2.1, hb.1.trans ha.2.1, ha.2.2.1.trans hb.2.2.2.1, hb.2.2.1.trans ha.2.2.2.1, ha.2.2.2.2.1.trans hb.2.2.2.2.2, hb.2.2.2.2.1.trans ha.2.2.2.2.2⟩

theorem castAll_box {find : Surf K → Box K → List (Tri K)} (hf : Finder find) {tol : K} (ht : 0 < tol) (hte : tol ≤ eps) {ss : List (Surf K)} {b : Box K}
    (hm : BoxMesh b (ss.flatMap (·.tris))) {p : V K} (hp : inBox b p) : ∀ ds : List (V K), (∀ d ∈ ds, ∃ i up, d = dir i up) → castAll find tol (rayLength b) p ss ds = .ok true
  | [], _ => rfl
  | d :: ds, hd => by
    obtain ⟨i, up, rfl⟩ := hd d (by simp)
    have ih := castAll_box hf ht hte hm hp ds fun d h => hd d (.tail _ h)
    have hsub : ∀ t ∈ ss.flatMap (candidates find (query tol (rayLength b) p (dir i up))), t ∈ ss.flatMap (·.tris) := by
      intro t h
      obtain ⟨s, hs, h⟩ := List.mem_flatMap.1 h
      refine List.mem_flatMap.2 ⟨s, hs, ?_⟩
      unfold candidates at h
      split at h
      · exact h
      · exact (hf s _).1 t h
    obtain ⟨fx, fb⟩ := far_in hp i up
    obtain ⟨t, htm, hface, hin⟩ := hm.cover i up _ fx fb
    have hmem : t ∈ ss.flatMap (candidates find (query tol (rayLength b) p (dir i up))) := by
      obtain ⟨s, hs, h⟩ := List.mem_flatMap.1 htm
      refine List.mem_flatMap.2 ⟨s, hs, ?_⟩
      unfold candidates
      split
      · exact h
      · refine (hf s _).2 t h (meets_of_common (inTri_hull hin) (inBox_query ht (gap_nonneg hp i up) (gap_len hp i up) p i up))
    rw [castAll]
    rcases scan_box hm ht hte hp i up (gap_len hp i up) _ hsub [] (by simp) with h | ⟨r, h1, h2, h3⟩
    · rw [h]
    · rw [h1]
      dsimp only
      have hne : r ≠ [] := fun h => (h3 h).2 t hmem hface hin
      rw [if_pos (parity_same ht.le r hne h2)]
      exact ih

omit [IsStrictOrderedRing K] in
theorem directions_dir : ∀ d ∈ (directions : List (V K)), ∃ i up, d = dir i up := by
  intro d h
  simp only [directions, List.mem_cons, List.not_mem_nil, or_false] at h
  rcases h with rfl | rfl | rfl | rfl | rfl | rfl
  · exact ⟨0, true, rfl⟩
  · exact ⟨0, false, rfl⟩
  · exact ⟨1, true, rfl⟩
  · exact ⟨1, false, rfl⟩
  · exact ⟨2, true, rfl⟩
  · exact ⟨2, false, rfl⟩

/-- A solid whose triangles cover the sides of a box and face outward contains every point of the box and none farther than the tolerance outside of it, whatever the octrees return. -/
theorem C267_box_partial {find : Surf K → Box K → List (Tri K)} (hf : Finder find) {tol : K} (ht : 0 < tol) (hte : tol ≤ eps) {ss : List (Surf K)} {b : Box K}
    (hb : solidBox ss = some b) (hm : BoxMesh b (ss.flatMap (·.tris))) (p : V K) :
    (inBox b p → contains find tol ss p = .ok true) ∧ (¬ inBox (expand b tol) p → contains find tol ss p = .ok false) := by
  have hne : ss ≠ [] := by rintro rfl; simp [solidBox] at hb
  constructor
  · intro hp
    have he : inBox (expand b tol) p := by
      obtain ⟨h1, h2, h3, h4, h5, h6⟩ := hp
      refine ⟨?_, ?_, ?_, ?_, ?_, ?_⟩ <;> simp only [expand] <;> linarith
    unfold contains
    rw [if_neg hne, hb]
    dsimp only
    rw [if_pos he]
    exact castAll_box hf ht hte hm hp _ directions_dir
  · intro hp
    unfold contains
    rw [if_neg hne, hb]
    dsimp only
    rw [if_neg hp]

/-- A point farther than the tolerance outside of the bounding box of any solid is reported as outside. -/
theorem C268_far (find : Surf K → Box K → List (Tri K)) {tol : K} {ss : List (Surf K)} {p : V K}
    (hv : ∃ s ∈ ss, s.verts ≠ [])
    (h : ∃ i, (∀ s ∈ ss, ∀ v ∈ s.verts, co i v + tol < co i p) ∨ (∀ s ∈ ss, ∀ v ∈ s.verts, co i p < co i v - tol)) : contains find tol ss p = .ok false := by
  obtain ⟨s0, hs0, hv0⟩ := hv
  have hne : ss ≠ [] := by rintro rfl; nomatch hs0
  unfold contains
  rw [if_neg hne]
  cases hl : ss.flatMap (·.verts) with
  | nil =>
    obtain ⟨v, hv⟩ := List.exists_mem_of_ne_nil _ hv0
    have : v ∈ ss.flatMap (·.verts) := List.mem_flatMap.2 ⟨s0, hs0, hv⟩
    rw [hl] at this; nomatch this
  | cons q l =>
    have hb : solidBox ss = some (hull q l) := by unfold solidBox; rw [hl]
    rw [hb]
    dsimp only
    rw [if_neg]
    intro hin
    have T := Verif.Valid.hull_tight q l
    rw [← hl] at T
    generalize hull q l = b at T hin
    obtain ⟨h1, h2, h3, h4, h5, h6⟩ := hin
    simp only [expand] at h1 h2 h3 h4 h5 h6
    obtain ⟨i, h | h⟩ := h
    · have hmem : ∀ v ∈ ss.flatMap (·.verts), co i v + tol < co i p := by
        intro v hv
        obtain ⟨s, hs, hv⟩ := List.mem_flatMap.1 hv
        exact h s hs v hv
      fin_cases i
      · obtain ⟨v, hv, e⟩ := T.hiX
        have := hmem v hv; simp only [co] at this; linarith
      · obtain ⟨v, hv, e⟩ := T.hiY
        have := hmem v hv; simp only [co] at this; linarith
      · obtain ⟨v, hv, e⟩ := T.hiZ
        have := hmem v hv; simp only [co] at this; linarith
    · have hmem : ∀ v ∈ ss.flatMap (·.verts), co i p < co i v - tol := by
        intro v hv
        obtain ⟨s, hs, hv⟩ := List.mem_flatMap.1 hv
        exact h s hs v hv
      fin_cases i
      · obtain ⟨v, hv, e⟩ := T.loX
        have := hmem v hv; simp only [co] at this; linarith
      · obtain ⟨v, hv, e⟩ := T.loY
        have := hmem v hv; simp only [co] at this; linarith
      · obtain ⟨v, hv, e⟩ := T.loZ
        have := hmem v hv; simp only [co] at this; linarith

end field
end Verif.Bool3
