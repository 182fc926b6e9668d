import Verif.Surf.Closed
import Verif.Geom.FigProps3
import Mathlib.Algebra.BigOperators.Group.List.Lemmas

/-!
# Volume of closed solids (C168)
-/

namespace Verif.Surf
open Verif.Geom

/-! ## specification -/

/-- a position in space -/
abbrev Pos := ℝ × ℝ × ℝ

/-- the coordinates of a point -/
def pos (p : V4) : Pos := (p.x, p.y, p.z)

/-- face sides by position -/
def posSides (ts : List Tri) : List (Pos × Pos) := (sides ts).map fun s => (pos s.1, pos s.2)

open Classical in
/-- the mesh is consistently oriented: between any two positions, as many face sides run one way as the other -/
def Oriented (ts : List Tri) : Prop := ∀ a b : Pos, (posSides ts).count (a, b) = (posSides ts).count (b, a)

/-- `p` is a corner of one of the triangles -/
def IsCorner (ts : List Tri) (p : V4) : Prop := ∃ t ∈ ts, p = t.a ∨ p = t.b ∨ p = t.c

/-- any two corners coincide or are at least 2 epsilon apart -/
def Separated (ts : List Tri) : Prop :=
  ∀ p q, IsCorner ts p → IsCorner ts q → pos p = pos q ∨ (2 * eps) ^ 2 ≤ sqDist p q

/-- the determinant of three positions: six times the signed volume of the tetrahedron with the origin -/
def det3 (p q r : V4) : ℝ :=
  p.x * (q.y * r.z - q.z * r.y) - p.y * (q.x * r.z - q.z * r.x) + p.z * (q.x * r.y - q.y * r.x)

/-! ## rounding -/

theorem pyround_near (x : ℝ) : |(pyround x : ℝ) - x| ≤ 1 / 2 := by
  have h1 := Int.floor_le x
  have h2 := Int.lt_floor_add_one x
  unfold pyround
  split
  · rw [abs_le]; constructor <;> linarith
  · split
    · rw [abs_le]; push_cast; constructor <;> linarith
    · have : x - ⌊x⌋ = 1 / 2 := by linarith
      split
      · rw [abs_le]; constructor <;> linarith
      · rw [abs_le]; push_cast; constructor <;> linarith

theorem pyround_eq_near {x y : ℝ} (h : pyround (x / eps) = pyround (y / eps)) : |x - y| ≤ eps := by
  have h1 := abs_le.mp (pyround_near (x / eps))
  have h2 := abs_le.mp (pyround_near (y / eps))
  rw [h] at h1
  have he : 0 < eps := by unfold eps; norm_num
  have hx : x = x / eps * eps := by field_simp
  have hy : y = y / eps * eps := by field_simp
  rw [abs_le]
  constructor <;> nlinarith

theorem grid_near {p q : V4} (h : grid p = grid q) : sqDist p q ≤ 3 * eps ^ 2 := by
  unfold grid at h
  simp only [Prod.mk.injEq] at h
  have hx := pyround_eq_near h.1
  have hy := pyround_eq_near h.2.1
  have hz := pyround_eq_near h.2.2
  have sq : ∀ t : ℝ, |t| ≤ eps → t ^ 2 ≤ eps ^ 2 := fun t ht => by
    have := abs_nonneg t
    rw [← sq_abs]; nlinarith
  unfold sqDist
  linarith [sq _ hx, sq _ hy, sq _ hz]

theorem grid_pos {p q : V4} (h : pos p = pos q) : grid p = grid q := by
  unfold pos at h
  simp only [Prod.mk.injEq] at h
  unfold grid
  rw [h.1, h.2.1, h.2.2]

theorem grid_iff {ts : List Tri} (hs : Separated ts) {p q : V4} (hp : IsCorner ts p) (hq : IsCorner ts q) :
    grid p = grid q ↔ pos p = pos q := by
  refine ⟨fun h => ?_, grid_pos⟩
  rcases hs p q hp hq with h' | h'
  · exact h'
  · have := grid_near h
    have he : 0 < eps := by unfold eps; norm_num
    nlinarith [mul_pos he he]

theorem side_corner {ts : List Tri} {s : Side} (h : s ∈ sides ts) : IsCorner ts s.1 ∧ IsCorner ts s.2 := by
  unfold sides at h
  obtain ⟨t, ht, hs⟩ := List.mem_flatMap.mp h
  simp only [sidesOf, List.mem_cons, List.not_mem_nil, or_false] at hs
  rcases hs with rfl | rfl | rfl
  · exact ⟨⟨t, ht, by simp⟩, ⟨t, ht, by simp⟩⟩
  · exact ⟨⟨t, ht, by simp⟩, ⟨t, ht, by simp⟩⟩
  · exact ⟨⟨t, ht, by simp⟩, ⟨t, ht, by simp⟩⟩

/-! ## moving the corners -/

/-- the triangle with moved corners -/
def Tri.map (T : V4 → V4) (t : Tri) : Tri := ⟨T t.a, T t.b, T t.c⟩

theorem sides_map (T : V4 → V4) (ts : List Tri) : sides (ts.map (Tri.map T)) = (sides ts).map fun s => (T s.1, T s.2) := by
  unfold sides
  rw [List.flatMap_map, List.map_flatMap]
  rfl

theorem sides_rev_perm (ts : List Tri) : (sides (ts.map Tri.rev)).Perm ((sides ts).map Prod.swap) := by
  unfold sides
  rw [List.flatMap_map, List.map_flatMap]
  refine List.Perm.flatMap_left _ fun t _ => ?_
  simp only [sidesOf, Tri.rev, List.map_cons, List.map_nil, Prod.swap]
  -- [(a,c),(c,b),(b,a)] ~ [(b,a),(c,b),(a,c)]
  exact (List.reverse_perm _).symm.trans (by simp)

theorem corner_map {T : V4 → V4} {ts : List Tri} {p : V4} (h : IsCorner (ts.map (Tri.map T)) p) :
    ∃ q, IsCorner ts q ∧ p = T q := by
  obtain ⟨t, ht, hp⟩ := h
  obtain ⟨u, hu, rfl⟩ := List.mem_map.mp ht
  rcases hp with rfl | rfl | rfl
  · exact ⟨u.a, ⟨u, hu, by simp⟩, rfl⟩
  · exact ⟨u.b, ⟨u, hu, by simp⟩, rfl⟩
  · exact ⟨u.c, ⟨u, hu, by simp⟩, rfl⟩

theorem corner_rev {ts : List Tri} {p : V4} (h : IsCorner (ts.map Tri.rev) p) : IsCorner ts p := by
  obtain ⟨t, ht, hp⟩ := h
  obtain ⟨u, hu, rfl⟩ := List.mem_map.mp ht
  refine ⟨u, hu, ?_⟩
  simp only [Tri.rev] at hp
  tauto

/-- closedness of separated meshes is kept by a map that keeps positions apart -/
theorem uses_map {T : V4 → V4} {ts : List Tri} (hs : Separated ts) (hs' : Separated (ts.map (Tri.map T)))
    (hT : ∀ p q, IsCorner ts p → IsCorner ts q → (pos (T p) = pos (T q) ↔ pos p = pos q)) {s : Side} (h : s ∈ sides ts) :
    uses (ts.map (Tri.map T)) (T s.1, T s.2) = uses ts s := by
  classical
  have hc : ∀ p, IsCorner ts p → IsCorner (ts.map (Tri.map T)) (T p) := by
    rintro p ⟨t, ht, hp⟩
    refine ⟨t.map T, List.mem_map.mpr ⟨t, ht, rfl⟩, ?_⟩
    rcases hp with rfl | rfl | rfl <;> simp [Tri.map]
  have hg : ∀ p q, IsCorner ts p → IsCorner ts q → (grid (T p) = grid (T q) ↔ grid p = grid q) := by
    intro p q hp hq
    rw [grid_iff hs' (hc p hp) (hc q hq), grid_iff hs hp hq, hT p q hp hq]
  unfold uses
  rw [sides_map, List.countP_map]
  apply List.countP_congr
  intro t ht
  simp only [Function.comp, decide_eq_true_eq]
  unfold SameEdge
  have a := side_corner h
  have b := side_corner ht
  rw [hg _ _ a.1 b.1, hg _ _ a.2 b.2, hg _ _ a.1 b.2, hg _ _ a.2 b.1]

theorem closed_map {T : V4 → V4} {ts : List Tri} (hs : Separated ts) (hs' : Separated (ts.map (Tri.map T)))
    (hT : ∀ p q, IsCorner ts p → IsCorner ts q → (pos (T p) = pos (T q) ↔ pos p = pos q))
    (h : ∀ s ∈ sides ts, uses ts s = 2) : ∀ s ∈ sides (ts.map (Tri.map T)), uses (ts.map (Tri.map T)) s = 2 := by
  intro s hs1
  rw [sides_map] at hs1
  obtain ⟨s, h1, rfl⟩ := List.mem_map.mp hs1
  rw [uses_map hs hs' hT h1]
  exact h s h1

theorem uses_revs (ts : List Tri) (s : Side) : uses (ts.map Tri.rev) s = uses ts s := by
  induction ts with
  | nil => rfl
  | cons t ts ih => rw [List.map_cons, uses_cons, uses_rev, ih, ← uses_cons]

theorem closed_rev {ts : List Tri} (h : ∀ s ∈ sides ts, uses ts s = 2) :
    ∀ s ∈ sides (ts.map Tri.rev), uses (ts.map Tri.rev) s = 2 := by
  intro s hs
  rw [uses_revs]
  have := (sides_rev_perm ts).mem_iff.mp hs
  obtain ⟨s', h', rfl⟩ := List.mem_map.mp this
  rw [uses_swap]
  exact h s' h'

/-! ## the signed volume of an oriented mesh under affine maps -/

theorem sum_foldl (l : List ℝ) : l.foldl (· + ·) 0 = l.sum := by
  have : ∀ c : ℝ, l.foldl (· + ·) c = c + l.sum := by
    induction l with
    | nil => simp
    | cons x l ih => intro c; rw [List.foldl_cons, ih, List.sum_cons]; ring
  rw [this, zero_add]

theorem triVolume_det (t : Tri) : triVolume t = det3 t.a t.b t.c / 6 := by
  unfold triVolume det3 dot cross sub
  ring

/-- a function that changes sign with the direction of a side sums to zero over an oriented mesh -/
theorem sum_antisymm {ts : List Tri} (ho : Oriented ts) (f : Pos → Pos → ℝ) (hf : ∀ a b, f b a = - f a b) :
    ((posSides ts).map fun s => f s.1 s.2).sum = 0 := by
  classical
  have hp : ((posSides ts).map Prod.swap).Perm (posSides ts) := by
    rw [List.perm_iff_count]
    rintro ⟨a, b⟩
    have : ((posSides ts).map Prod.swap).count (a, b) = (posSides ts).count (b, a) :=
      List.count_map_of_injective _ Prod.swap Prod.swap_injective (b, a)
    rw [this]
    exact ho b a
  have h1 : (((posSides ts).map Prod.swap).map fun s => f s.1 s.2).sum = ((posSides ts).map fun s => f s.1 s.2).sum :=
    (hp.map _).sum_eq
  have h2 : (((posSides ts).map Prod.swap).map fun s => f s.1 s.2).sum = - ((posSides ts).map fun s => f s.1 s.2).sum := by
    rw [List.map_map]
    generalize posSides ts = l
    induction l with
    | nil => simp
    | cons x l ih => simp only [List.map_cons, List.sum_cons, Function.comp, Prod.fst_swap, Prod.snd_swap, neg_add] at ih ⊢; rw [ih, hf]
  linarith

/-- the coordinates of a linear map, row by row -/
structure Lin where
  r1 : Pos
  r2 : Pos
  r3 : Pos

/-- scalar product -/
def dotP (a b : Pos) : ℝ := a.1 * b.1 + a.2.1 * b.2.1 + a.2.2 * b.2.2

/-- determinant of a linear map -/
def Lin.det (A : Lin) : ℝ :=
  A.r1.1 * (A.r2.2.1 * A.r3.2.2 - A.r2.2.2 * A.r3.2.1) - A.r1.2.1 * (A.r2.1 * A.r3.2.2 - A.r2.2.2 * A.r3.1) +
    A.r1.2.2 * (A.r2.1 * A.r3.2.1 - A.r2.2.1 * A.r3.1)

/-- `q` is the image of `p` under the affine map `A p + v` -/
def IsAffine (A : Lin) (v : Pos) (p q : V4) : Prop :=
  q.x = dotP A.r1 (pos p) + v.1 ∧ q.y = dotP A.r2 (pos p) + v.2.1 ∧ q.z = dotP A.r3 (pos p) + v.2.2

/-- the linear form of the determinant in one side -/
def shiftTerm (A : Lin) (v : Pos) (a b : Pos) : ℝ :=
  let a' := (dotP A.r1 a, dotP A.r2 a, dotP A.r3 a)
  let b' := (dotP A.r1 b, dotP A.r2 b, dotP A.r3 b)
  dotP v (a'.2.1 * b'.2.2 - a'.2.2 * b'.2.1, a'.2.2 * b'.1 - a'.1 * b'.2.2, a'.1 * b'.2.1 - a'.2.1 * b'.1)

theorem det_affine (A : Lin) (v : Pos) (p q r p' q' r' : V4) (hp : IsAffine A v p p') (hq : IsAffine A v q q')
    (hr : IsAffine A v r r') : det3 p' q' r' = A.det * det3 p q r + shiftTerm A v (pos p) (pos q) +
      shiftTerm A v (pos q) (pos r) + shiftTerm A v (pos r) (pos p) := by
  obtain ⟨p1, p2, p3⟩ := hp
  obtain ⟨q1, q2, q3⟩ := hq
  obtain ⟨r1, r2, r3⟩ := hr
  unfold det3
  rw [p1, p2, p3, q1, q2, q3, r1, r2, r3]
  simp only [shiftTerm, dotP, pos, Lin.det]
  ring

theorem volume_affine (A : Lin) (v : Pos) (T : V4 → V4) (ts : List Tri) (ho : Oriented ts)
    (hT : ∀ p, IsCorner ts p → IsAffine A v p (T p)) :
    ((ts.map (Tri.map T)).map triVolume).sum = A.det * (ts.map triVolume).sum := by
  have hz := sum_antisymm ho (shiftTerm A v) (by intro a b; simp only [shiftTerm, dotP]; ring)
  have key : ((ts.map (Tri.map T)).map triVolume).sum = A.det * (ts.map triVolume).sum +
      ((posSides ts).map fun s => shiftTerm A v s.1 s.2).sum / 6 := by
    clear hz ho
    unfold posSides sides
    induction ts with
    | nil => simp
    | cons t ts ih =>
      have ih := ih (fun p ⟨u, hu, hp⟩ => hT p ⟨u, List.mem_cons_of_mem _ hu, hp⟩)
      have hd := det_affine A v t.a t.b t.c (T t.a) (T t.b) (T t.c) (hT _ ⟨t, by simp, by simp⟩)
        (hT _ ⟨t, by simp, by simp⟩) (hT _ ⟨t, by simp, by simp⟩)
      simp only [List.map_cons, List.sum_cons, List.flatMap_cons, sidesOf, List.cons_append, List.nil_append]
      rw [ih, triVolume_det, triVolume_det]
      simp only [Tri.map]
      rw [hd]
      ring
  rw [key, hz]; ring

theorem volume_rev (ts : List Tri) : ((ts.map Tri.rev).map triVolume).sum = - (ts.map triVolume).sum := by
  induction ts with
  | nil => simp
  | cons t ts ih =>
    simp only [List.map_cons, List.sum_cons] at ih ⊢
    rw [ih, triVolume_det, triVolume_det]
    unfold det3 Tri.rev
    ring

/-! ## what `volumeof` returns -/

theorem volume_eq (x : Solid) (ts : List Tri) (hx : issolid x = true) (ht : Tris x.surfs ts)
    (hc : ∀ s ∈ sides ts, uses ts s = 2) : volumeof x = .ok |(ts.map triVolume).sum| := by
  obtain ⟨b, h1, h2⟩ := C169_closed_iff x ts hx ht
  have hb := h2.mpr hc
  subst hb
  unfold volumeof
  rw [hx, h1]
  simp only [Bool.not_true, Bool.false_eq_true, if_false]
  rw [← solidTris_ok] at ht
  by_cases hs : x.surfs.isEmpty
  · rw [if_pos hs]
    rw [List.isEmpty_iff] at hs
    rw [hs] at ht
    injection ht with ht
    subst ht
    simp
  · rw [if_neg hs, ht]
    simp only [sum_foldl]

theorem volume_inv (x : Solid) (v : ℝ) (h : volumeof x = .ok v) :
    issolid x = true ∧ ∃ ts, Tris x.surfs ts ∧ (∀ s ∈ sides ts, uses ts s = 2) ∧ v = |(ts.map triVolume).sum| := by
  have hx : issolid x = true := by
    by_contra hx
    rw [Bool.not_eq_true] at hx
    unfold volumeof at h
    rw [hx] at h
    cases h
  refine ⟨hx, ?_⟩
  have ht : ∃ ts, Tris x.surfs ts := by
    by_contra hn
    unfold volumeof at h
    rw [hx] at h
    simp only [Bool.not_true, Bool.false_eq_true, if_false] at h
    cases hr : solidTris x.surfs with
    | ok ts => exact hn ⟨ts, (solidTris_ok ..).mp hr⟩
    | error e =>
      have hne : x.surfs ≠ [] := by intro h0; rw [h0] at hr; cases hr
      rw [(C169_errors x).2 hx hne e hr] at h
      cases h
  obtain ⟨ts, ht⟩ := ht
  obtain ⟨b, h1, h2⟩ := C169_closed_iff x ts hx ht
  cases b with
  | false => unfold volumeof at h; rw [hx, h1] at h; cases h
  | true =>
    have hc := h2.mp rfl
    have := volume_eq x ts hx ht hc
    rw [this] at h
    injection h with h
    exact ⟨ts, ht, hc, h.symm⟩

end Verif.Surf
