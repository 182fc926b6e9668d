import Verif.Prim.Model
import Verif.Surf.Props

/-!
# C178: the rectangular prism
-/

namespace Verif.Prim
open Verif.Geom Verif.Surf Real

theorem rotsurf (s : Surface) (a : ℝ) (u : V4) (hu : UnitV u) (ha : ¬ close a 0) :
    rotatesurface s a (axis := u) = .ok { s with verts := s.verts.map (rotCoord u (deg a)),
                                                 norms := s.norms.map (rotCoord u (deg a)) } := by
  obtain ⟨M, hM, hm⟩ := rotateMat_ok u (pt 0 0) hu (Or.inl ⟨rfl, rfl, rfl⟩) a
  unfold rotatesurface
  rw [if_neg ha]
  have e : (pt 0 0 0) = pt 0 0 := rfl
  rw [e, hM]
  have : mulP M = rotCoord u (deg a) := by
    funext p
    rw [hm, rotMap_origin u _ _ p ⟨rfl, rfl, rfl⟩]
  simp only [this]

theorem deg180 : deg 180 = π := by unfold deg; ring
theorem deg90 : deg 90 = π / 2 := by unfold deg; ring

theorem not_close {a : ℝ} (h : 1 ≤ a) : ¬ close a 0 := by
  unfold close eps
  rw [sub_zero, abs_of_nonneg (by linarith)]
  norm_num
  linarith

theorem rectangularPlane_ok (l w : ℝ) (c : V4) : rectangularPlane l w c = .ok
    ⟨[pt (c.x - l / 2) (c.y - w / 2) c.z, pt (c.x + l / 2) (c.y - w / 2) c.z,
      pt (c.x + l / 2) (c.y + w / 2) c.z, pt (c.x - l / 2) (c.y + w / 2) c.z],
     [dir 0 0 1, dir 0 0 1, dir 0 0 1, dir 0 0 1], [[0, 1, 2], [2, 3, 0]], [0, 1, 2, 3], []⟩ := by
  unfold rectangularPlane
  simp only
  have he : (0 : ℝ) < eps := by unfold eps; norm_num
  rw [(C171_stores_partial _ _ _ 0 [] [] [] ⟨by simp, ?_, ?_, by simp, by simp⟩).2.2.2.2.1]
  · simp only [add, scale3, pt]
    simp only [Except.ok.injEq, Surface.mk.injEq, List.cons.injEq, V4.mk.injEq, and_true]
    constructorm* _ ∧ _ <;> ring
  · simp [add]
  · simp [dir, he]

theorem rotX180 (x y z w : ℝ) : rotCoord (pt 1 0 0) (deg 180) ⟨x, y, z, w⟩ = ⟨x, -y, -z, w⟩ := by
  rw [deg180]; unfold rotCoord; simp [pt]

theorem rotX90 (x y z w : ℝ) : rotCoord (pt 1 0 0) (deg 90) ⟨x, y, z, w⟩ = ⟨x, -z, y, w⟩ := by
  rw [deg90]; unfold rotCoord; simp [pt]

theorem rotY90 (x y z w : ℝ) : rotCoord (pt 0 1 0) (deg 90) ⟨x, y, z, w⟩ = ⟨z, y, -x, w⟩ := by
  rw [deg90]; unfold rotCoord; simp [pt]

theorem rotZ180 (x y z w : ℝ) : rotCoord (pt 0 0 1) (deg 180) ⟨x, y, z, w⟩ = ⟨-x, -y, z, w⟩ := by
  rw [deg180]; unfold rotCoord; simp [pt]

/-- the corner with the given signs -/
def boxV (a b d : ℝ) (c : V4) (x y z : ℝ) : V4 := pt (c.x + x * a) (c.y + y * b) (c.z + z * d)

/-- one side -/
def boxS (p0 p1 p2 p3 n : V4) : Surface := ⟨[p0, p1, p2, p3], [n, n, n, n], [[0, 1, 2], [2, 3, 0]], [0, 1, 2, 3], []⟩

/-- the six sides -/
def boxSurfs (a b d : ℝ) (c : V4) : List Surface :=
  let v := boxV a b d c
  [boxS (v (-1) (-1) 1) (v 1 (-1) 1) (v 1 1 1) (v (-1) 1 1) (dir 0 0 1),
   boxS (v (-1) 1 (-1)) (v 1 1 (-1)) (v 1 (-1) (-1)) (v (-1) (-1) (-1)) (dir 0 0 (-1)),
   boxS (v (-1) (-1) (-1)) (v 1 (-1) (-1)) (v 1 (-1) 1) (v (-1) (-1) 1) (dir 0 (-1) 0),
   boxS (v 1 1 (-1)) (v (-1) 1 (-1)) (v (-1) 1 1) (v 1 1 1) (dir 0 1 0),
   boxS (v 1 (-1) 1) (v 1 (-1) (-1)) (v 1 1 (-1)) (v 1 1 1) (dir 1 0 0),
   boxS (v (-1) 1 1) (v (-1) 1 (-1)) (v (-1) (-1) (-1)) (v (-1) (-1) 1) (dir (-1) 0 0)]

theorem boxSurfs_shift (a b d : ℝ) (c : V4) : (boxSurfs a b d (pt 0 0 0)).map
    (fun s => { s with verts := s.verts.map fun p => add p c }) = boxSurfs a b d c := by
  unfold boxSurfs boxS boxV add pt
  simp only [List.map_cons, List.map_nil, Surface.mk.injEq, List.cons.injEq, V4.mk.injEq, and_true]
  constructorm* _ ∧ _ <;> ring

open Classical in
theorem prism_ok (l w h : ℝ) (c : V4) (hc : GoodCentre c) :
    prism l w h c = .ok ⟨boxSurfs (l / 2) (w / 2) (h / 2) c⟩ := by
  have u1 : UnitV (pt 1 0 0) := by unfold UnitV pt; norm_num
  have u2 : UnitV (pt 0 1 0) := by unfold UnitV pt; norm_num
  have u3 : UnitV (pt 0 0 1) := by unfold UnitV pt; norm_num
  have n1 : ¬ close 180 0 := not_close (by norm_num)
  have n2 : ¬ close 90 0 := not_close (by norm_num)
  unfold prism
  simp only [rectangularPlane_ok, rotsurf _ _ _ u1 n1, rotsurf _ _ _ u1 n2, rotsurf _ _ _ u2 n2, rotsurf _ _ _ u3 n1]
  simp only [List.map_cons, List.map_nil, pt, dir]
  simp only [show (⟨1, 0, 0, 1⟩ : V4) = pt 1 0 0 from rfl, show (⟨0, 1, 0, 1⟩ : V4) = pt 0 1 0 from rfl,
    show (⟨0, 0, 1, 1⟩ : V4) = pt 0 0 1 from rfl, rotX180, rotX90, rotY90, rotZ180]
  have key : ∀ L : List Surface, L = boxSurfs (l / 2) (w / 2) (h / 2) (pt 0 0 0) →
      (if ¬ vclose c (pt 0 0 0) then (.ok ⟨L.map fun s => translatesurface s c⟩ : Except Err Solid) else .ok ⟨L⟩) =
      .ok ⟨boxSurfs (l / 2) (w / 2) (h / 2) c⟩ := by
    rintro L rfl
    rcases hc with hz | hz
    · have hv : vclose c (pt 0 0 0) := vclose_self hz
      rw [if_neg (not_not.mpr hv)]
      have : boxSurfs (l / 2) (w / 2) (h / 2) c = boxSurfs (l / 2) (w / 2) (h / 2) (pt 0 0 0) := by
        unfold boxSurfs boxV
        rw [hz.1, hz.2.1, hz.2.2]
      rw [this]
    · rw [if_pos hz]
      have e : (fun s => translatesurface s c) = fun s : Surface => { s with verts := s.verts.map fun p => add p c } := by
        funext s
        unfold translatesurface
        exact if_neg hz
      rw [e, boxSurfs_shift]
  refine key _ ?_
  unfold boxSurfs boxS boxV pt dir
  simp only [Surface.mk.injEq, List.cons.injEq, V4.mk.injEq, and_true]
  constructorm* _ ∧ _ <;> first | trivial | (ring; done)

/-- the corners as numbered: bit 0 = x, bit 1 = y, bit 2 = z -/
def boxC (a b d : ℝ) (c : V4) : Fin 8 → V4 :=
  ![boxV a b d c (-1) (-1) (-1), boxV a b d c 1 (-1) (-1), boxV a b d c (-1) 1 (-1), boxV a b d c 1 1 (-1),
    boxV a b d c (-1) (-1) 1, boxV a b d c 1 (-1) 1, boxV a b d c (-1) 1 1, boxV a b d c 1 1 1]

/-- the triangles by corner number -/
def boxF : List (Fin 8 × Fin 8 × Fin 8) :=
  [(4, 5, 7), (7, 6, 4), (2, 3, 1), (1, 0, 2), (0, 1, 5), (5, 4, 0), (3, 2, 6), (6, 7, 3), (5, 1, 3), (3, 7, 5),
   (6, 2, 0), (0, 4, 6)]

theorem box_tris (a b d : ℝ) (c : V4) : Tris (boxSurfs a b d c) (idxTris (boxC a b d c) boxF) := by
  rw [← solidTris_ok]
  simp [boxSurfs, boxS, solidTris, faceTris, faceTri, pyGet, idxTris, boxF, boxC]

theorem box_far (a b d : ℝ) (c : V4) (ha : eps ≤ |a|) (hb : eps ≤ |b|) (hd : eps ≤ |d|) (i j : Fin 8) (h : i ≠ j) :
    (2 * eps) ^ 2 ≤ sqDist (boxC a b d c i) (boxC a b d c j) := by
  have he : 0 < eps := by unfold eps; norm_num
  have sq : ∀ t : ℝ, eps ≤ |t| → eps ^ 2 ≤ t ^ 2 := fun t ht => by rw [← sq_abs t]; nlinarith
  have h1 := sq a ha
  have h2 := sq b hb
  have h3 := sq d hd
  fin_cases i <;> fin_cases j <;> first | exact absurd rfl h | (simp [boxC, boxV, sqDist, pt]; ring_nf; nlinarith)

theorem box_valid (a b d : ℝ) (c : V4) : issolid ⟨boxSurfs a b d c⟩ = true := by
  have he : (0 : ℝ) < eps := by unfold eps; norm_num
  rw [issolid_iff]
  intro s hs
  rw [C170_accepts_iff]
  simp only [boxSurfs, List.mem_cons, List.not_mem_nil, or_false] at hs
  rcases hs with rfl | rfl | rfl | rfl | rfl | rfl <;> simp [boxS, boxV, pt, dir, he]

/-- **C178** `prism(length, width, height, center)`: a valid closed solid of six sides around `center` whose volume is
length · width · height (the dimensions may be negative, but are at least 2 epsilon in size; a centre within epsilon of
the origin but not equal to it is dropped) -/
theorem C178_prism (l w h : ℝ) (c : V4) (hl : 2 * eps ≤ |l|) (hw : 2 * eps ≤ |w|) (hh : 2 * eps ≤ |h|) (hc : GoodCentre c) :
    ∃ x, prism l w h c = .ok x ∧ issolid x = true ∧ issolidclosed x = .ok true ∧ volumeof x = .ok |l * w * h| ∧
      x.surfs.length = 6 ∧
      (∀ s ∈ x.surfs, ∀ p ∈ s.verts, |p.x - c.x| = |l| / 2 ∧ |p.y - c.y| = |w| / 2 ∧ |p.z - c.z| = |h| / 2 ∧ p.w = 1) ∧
      ∃ ts, Tris x.surfs ts ∧ Oriented ts ∧ Separated ts := by
  have h2 : ∀ t : ℝ, 2 * eps ≤ |t| → eps ≤ |t / 2| := fun t ht => by rw [abs_div, abs_two]; linarith
  have far := box_far (l / 2) (w / 2) (h / 2) c (h2 l hl) (h2 w hw) (h2 h hh)
  have hg : ∀ i j, grid (boxC (l / 2) (w / 2) (h / 2) c i) = grid (boxC (l / 2) (w / 2) (h / 2) c j) → i = j := by
    intro i j e
    by_contra hij
    have h1 := far i j hij
    have h3 := grid_near e
    have he : 0 < eps := by unfold eps; norm_num
    nlinarith [mul_pos he he]
  have hcl := closed_idx (boxC (l / 2) (w / 2) (h / 2) c) hg boxF (by decide +kernel)
  have hv := box_valid (l / 2) (w / 2) (h / 2) c
  have ht := box_tris (l / 2) (w / 2) (h / 2) c
  refine ⟨_, prism_ok l w h c hc, hv, ?_, ?_, by simp [boxSurfs], ?_, _, ht, oriented_idx _ _ (by decide +kernel),
    separated_idx _ _ far⟩
  · obtain ⟨b, h1, h3⟩ := C169_closed_iff _ _ hv ht
    rw [h1, h3.mpr hcl]
  · rw [volume_eq _ _ hv ht hcl]
    congr 2
    simp only [idxTris, boxF, boxC, boxV, List.map_cons, List.map_nil, triVolume_det, det3, pt, List.sum_cons, List.sum_nil]
    simp
    ring
  · intro s hs p hp
    simp only [boxSurfs, List.mem_cons, List.not_mem_nil, or_false] at hs
    rcases hs with rfl | rfl | rfl | rfl | rfl | rfl <;>
      simp only [boxS, List.mem_cons, List.not_mem_nil, or_false] at hp <;>
      rcases hp with rfl | rfl | rfl | rfl <;> simp [boxV, pt, abs_div]

/-- the dot product of direction `n` and the displacement from `c` to `p` -/
def reach (n c p : V4) : ℝ := n.x * (p.x - c.x) + n.y * (p.y - c.y) + n.z * (p.z - c.z)

/-- **C178** the sides face outwards: on every side of a prism with positive dimensions all stored normals are the same
axis direction `u`, the side lies on the `u` side of the centre, and each of its triangles is walked counter-clockwise
as seen from the tip of `u` -/
theorem C178_outward (l w h : ℝ) (c : V4) (hl : 0 < l) (hw : 0 < w) (hh : 0 < h) (hc : GoodCentre c) :
    ∃ x, prism l w h c = .ok x ∧ ∀ s ∈ x.surfs, ∃ u : V4, u.x ^ 2 + u.y ^ 2 + u.z ^ 2 = 1 ∧ (∀ n ∈ s.norms, n = u) ∧
      (∀ p ∈ s.verts, 0 < reach u c p) ∧
      ∃ ts, Tris [s] ts ∧ ts.length = 2 ∧ ∀ t ∈ ts, ∃ k > 0, cross (sub t.b t.a) (sub t.c t.a) = pt (k * u.x) (k * u.y) (k * u.z) := by
  refine ⟨_, prism_ok l w h c hc, fun s hs => ?_⟩
  have key : ∀ p0 p1 p2 p3 n, ∃ ts, Tris [boxS p0 p1 p2 p3 n] ts ∧ ts = [⟨p0, p1, p2⟩, ⟨p2, p3, p0⟩] := by
    intro p0 p1 p2 p3 n
    refine ⟨_, ?_, rfl⟩
    rw [← solidTris_ok]
    simp [boxS, solidTris, faceTris, faceTri, pyGet]
  have hlw := mul_pos hl hw
  have hlh := mul_pos hl hh
  have hwh := mul_pos hw hh
  simp only [boxSurfs, List.mem_cons, List.not_mem_nil, or_false] at hs
  rcases hs with rfl | rfl | rfl | rfl | rfl | rfl
  · refine ⟨dir 0 0 1, by simp [dir], by simp [boxS], by simp [boxS, boxV, pt, reach, dir, hh], ?_⟩
    obtain ⟨ts, h1, rfl⟩ := key _ _ _ _ _
    refine ⟨_, h1, rfl, fun t ht => ⟨l * w, hlw, ?_⟩⟩
    simp only [List.mem_cons, List.not_mem_nil, or_false] at ht
    rcases ht with rfl | rfl <;> (simp only [boxV, pt, dir, cross, sub, V4.mk.injEq, and_true]; refine ⟨?_, ?_, ?_⟩ <;> ring)
  · refine ⟨dir 0 0 (-1), by simp [dir], by simp [boxS], by simp [boxS, boxV, pt, reach, dir, hh], ?_⟩
    obtain ⟨ts, h1, rfl⟩ := key _ _ _ _ _
    refine ⟨_, h1, rfl, fun t ht => ⟨l * w, hlw, ?_⟩⟩
    simp only [List.mem_cons, List.not_mem_nil, or_false] at ht
    rcases ht with rfl | rfl <;> (simp only [boxV, pt, dir, cross, sub, V4.mk.injEq, and_true]; refine ⟨?_, ?_, ?_⟩ <;> ring)
  · refine ⟨dir 0 (-1) 0, by simp [dir], by simp [boxS], by simp [boxS, boxV, pt, reach, dir, hw], ?_⟩
    obtain ⟨ts, h1, rfl⟩ := key _ _ _ _ _
    refine ⟨_, h1, rfl, fun t ht => ⟨l * h, hlh, ?_⟩⟩
    simp only [List.mem_cons, List.not_mem_nil, or_false] at ht
    rcases ht with rfl | rfl <;> (simp only [boxV, pt, dir, cross, sub, V4.mk.injEq, and_true]; refine ⟨?_, ?_, ?_⟩ <;> ring)
  · refine ⟨dir 0 1 0, by simp [dir], by simp [boxS], by simp [boxS, boxV, pt, reach, dir, hw], ?_⟩
    obtain ⟨ts, h1, rfl⟩ := key _ _ _ _ _
    refine ⟨_, h1, rfl, fun t ht => ⟨l * h, hlh, ?_⟩⟩
    simp only [List.mem_cons, List.not_mem_nil, or_false] at ht
    rcases ht with rfl | rfl <;> (simp only [boxV, pt, dir, cross, sub, V4.mk.injEq, and_true]; refine ⟨?_, ?_, ?_⟩ <;> ring)
  · refine ⟨dir 1 0 0, by simp [dir], by simp [boxS], by simp [boxS, boxV, pt, reach, dir, hl], ?_⟩
    obtain ⟨ts, h1, rfl⟩ := key _ _ _ _ _
    refine ⟨_, h1, rfl, fun t ht => ⟨w * h, hwh, ?_⟩⟩
    simp only [List.mem_cons, List.not_mem_nil, or_false] at ht
    rcases ht with rfl | rfl <;> (simp only [boxV, pt, dir, cross, sub, V4.mk.injEq, and_true]; refine ⟨?_, ?_, ?_⟩ <;> ring)
  · refine ⟨dir (-1) 0 0, by simp [dir], by simp [boxS], by simp [boxS, boxV, pt, reach, dir, hl], ?_⟩
    obtain ⟨ts, h1, rfl⟩ := key _ _ _ _ _
    refine ⟨_, h1, rfl, fun t ht => ⟨w * h, hwh, ?_⟩⟩
    simp only [List.mem_cons, List.not_mem_nil, or_false] at ht
    rcases ht with rfl | rfl <;> (simp only [boxV, pt, dir, cross, sub, V4.mk.injEq, and_true]; refine ⟨?_, ?_, ?_⟩ <;> ring)

/-- a 2 × 3 × 4 box about (5, 0, 0) has volume 24 -/
example : ∃ x, prism 2 3 4 (pt 5 0 0) = .ok x ∧ volumeof x = .ok 24 := by
  have hc : GoodCentre (pt 5 0 0) := by
    right
    intro h
    have := vclose_near h
    unfold sqDist pt eps at this
    norm_num at this
  obtain ⟨x, h1, -, -, h2, -⟩ := C178_prism 2 3 4 (pt 5 0 0) (by unfold eps; norm_num) (by unfold eps; norm_num)
    (by unfold eps; norm_num) hc
  exact ⟨x, h1, by rw [h2]; norm_num⟩

end Verif.Prim
