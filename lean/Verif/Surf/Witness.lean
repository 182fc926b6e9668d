import Verif.Surf.VolumeProps

/-!
# Concrete solids for C168 – C170
-/

namespace Verif.Surf
open Verif.Geom

/-! ## meshes given by indices -/

/-- the sides of index triangles -/
def idxSides {n : Nat} (fs : List (Fin n × Fin n × Fin n)) : List (Fin n × Fin n) :=
  fs.flatMap fun f => [(f.1, f.2.1), (f.2.1, f.2.2), (f.2.2, f.1)]

/-- the triangles -/
def idxTris {n : Nat} (v : Fin n → V4) (fs : List (Fin n × Fin n × Fin n)) : List Tri :=
  fs.map fun f => ⟨v f.1, v f.2.1, v f.2.2⟩

theorem sides_idx {n : Nat} (v : Fin n → V4) (fs : List (Fin n × Fin n × Fin n)) :
    sides (idxTris v fs) = (idxSides fs).map fun s => (v s.1, v s.2) := by
  unfold sides idxTris idxSides
  rw [List.flatMap_map, List.map_flatMap]
  rfl

theorem closed_idx {n : Nat} (v : Fin n → V4) (hv : ∀ i j, grid (v i) = grid (v j) → i = j) (fs : List (Fin n × Fin n × Fin n))
    (h : ∀ s ∈ idxSides fs, (idxSides fs).countP (fun t => decide (s = t ∨ s = t.swap)) = 2) :
    ∀ s ∈ sides (idxTris v fs), uses (idxTris v fs) s = 2 := by
  intro s hs
  rw [sides_idx] at hs
  obtain ⟨⟨i, j⟩, hm, rfl⟩ := List.mem_map.mp hs
  rw [← h _ hm]
  unfold uses
  rw [sides_idx, List.countP_map]
  apply List.countP_congr
  rintro ⟨k, l⟩ _
  simp only [Function.comp, decide_eq_true_eq]
  unfold SameEdge
  simp only [Prod.mk.injEq, Prod.swap]
  constructor
  · rintro (⟨a, b⟩ | ⟨a, b⟩)
    · exact Or.inl ⟨hv _ _ a, hv _ _ b⟩
    · exact Or.inr ⟨hv _ _ a, hv _ _ b⟩
  · rintro (⟨rfl, rfl⟩ | ⟨rfl, rfl⟩)
    · exact Or.inl ⟨rfl, rfl⟩
    · exact Or.inr ⟨rfl, rfl⟩

theorem oriented_idx {n : Nat} (v : Fin n → V4) (fs : List (Fin n × Fin n × Fin n))
    (h : ((idxSides fs).map Prod.swap).Perm (idxSides fs)) : Oriented (idxTris v fs) := by
  classical
  intro a b
  unfold posSides
  rw [sides_idx, List.map_map]
  have := ((h.map ((fun s : Side => (pos s.1, pos s.2)) ∘ fun s : Fin n × Fin n => (v s.1, v s.2))).count_eq (a, b)).symm
  rw [this, List.map_map]
  have e : ((fun s : Side => (pos s.1, pos s.2)) ∘ fun s : Fin n × Fin n => (v s.1, v s.2)) ∘ Prod.swap =
      Prod.swap ∘ ((fun s : Side => (pos s.1, pos s.2)) ∘ fun s : Fin n × Fin n => (v s.1, v s.2)) := by
    funext s; rfl
  rw [e, ← List.map_map]
  exact List.count_map_of_injective _ Prod.swap Prod.swap_injective (b, a)

theorem separated_idx {n : Nat} (v : Fin n → V4) (fs : List (Fin n × Fin n × Fin n))
    (h : ∀ i j, i ≠ j → (2 * eps) ^ 2 ≤ sqDist (v i) (v j)) : Separated (idxTris v fs) := by
  have key : ∀ p, IsCorner (idxTris v fs) p → ∃ i, p = v i := by
    rintro p ⟨t, ht, hp⟩
    obtain ⟨f, -, rfl⟩ := List.mem_map.mp ht
    rcases hp with rfl | rfl | rfl <;> exact ⟨_, rfl⟩
  intro p q hp hq
  obtain ⟨i, rfl⟩ := key p hp
  obtain ⟨j, rfl⟩ := key q hq
  by_cases hij : i = j
  · subst hij; exact Or.inl rfl
  · exact Or.inr (h i j hij)

theorem pyround_int (n : ℤ) : pyround (n : ℝ) = n := by
  unfold pyround; simp

/-! ## the corner tetrahedron -/

/-- its vertices, moved by `d` along x -/
def tetV (d : ℝ) : Fin 4 → V4 := ![pt d 0 0, pt (1 + d) 0 0, pt d 1 0, pt d 0 1]

/-- consistently oriented faces -/
def tetF : List (Fin 4 × Fin 4 × Fin 4) := [(0, 2, 1), (0, 1, 3), (0, 3, 2), (1, 2, 3)]

/-- the same with the last face walked the other way round -/
def badF : List (Fin 4 × Fin 4 × Fin 4) := [(0, 2, 1), (0, 1, 3), (0, 3, 2), (1, 3, 2)]

/-- an upward normal for every vertex -/
def tetN : List V4 := [⟨0, 0, 1, 0⟩, ⟨0, 0, 1, 0⟩, ⟨0, 0, 1, 0⟩, ⟨0, 0, 1, 0⟩]

/-- the solid with one surface -/
def tet (d : ℝ) : Solid :=
  ⟨[⟨[pt d 0 0, pt (1 + d) 0 0, pt d 1 0, pt d 0 1], tetN, [[0, 2, 1], [0, 1, 3], [0, 3, 2], [1, 2, 3]], [], []⟩]⟩

/-- the solid with one inverted face -/
def badTet (d : ℝ) : Solid :=
  ⟨[⟨[pt d 0 0, pt (1 + d) 0 0, pt d 1 0, pt d 0 1], tetN, [[0, 2, 1], [0, 1, 3], [0, 3, 2], [1, 3, 2]], [], []⟩]⟩

theorem tet_valid (d : ℝ) (fs : List (List Int)) (h : ∀ f ∈ fs, f.length = 3) :
    issolid ⟨[⟨[pt d 0 0, pt (1 + d) 0 0, pt d 1 0, pt d 0 1], tetN, fs, [], []⟩]⟩ = true := by
  rw [issolid_iff]
  intro s hs
  rw [List.mem_singleton] at hs
  subst hs
  rw [C170_accepts_iff]
  refine ⟨by simp, ?_, ?_, by simp [tetN], h⟩
  · intro p hp
    simp only [List.mem_cons, List.not_mem_nil, or_false] at hp
    rcases hp with rfl | rfl | rfl | rfl <;> simp [pt]
  · intro p hp
    simp only [tetN, List.mem_cons, List.not_mem_nil, or_false] at hp
    rcases hp with rfl | rfl | rfl | rfl <;> simp [eps] <;> norm_num

theorem tet_tris (d : ℝ) : Tris (tet d).surfs (idxTris (tetV d) tetF) := by
  rw [← solidTris_ok]
  simp [tet, solidTris, faceTris, faceTri, pyGet, idxTris, tetF, tetV]

theorem badTet_tris (d : ℝ) : Tris (badTet d).surfs (idxTris (tetV d) badF) := by
  rw [← solidTris_ok]
  simp [badTet, solidTris, faceTris, faceTri, pyGet, idxTris, badF, tetV]

theorem tet_apart (d : ℝ) (i j : Fin 4) (h : i ≠ j) : (1 : ℝ) ≤ sqDist (tetV d i) (tetV d j) := by
  fin_cases i <;> fin_cases j <;> simp_all [tetV, sqDist, pt] <;> norm_num

theorem tet_grid (d : ℝ) (i j : Fin 4) (h : grid (tetV d i) = grid (tetV d j)) : i = j := by
  by_contra hn
  have h1 := tet_apart d i j hn
  have h2 := grid_near h
  unfold eps at h2
  norm_num at h2
  linarith

theorem tet_sep (d : ℝ) (fs) : Separated (idxTris (tetV d) fs) := by
  apply separated_idx
  intro i j h
  have := tet_apart d i j h
  unfold eps
  norm_num
  linarith

/-- the tetrahedron has volume 1/6 and meets all hypotheses of C168 -/
example (d : ℝ) : volumeof (tet d) = .ok (1 / 6) ∧ Tris (tet d).surfs (idxTris (tetV d) tetF) ∧
    Oriented (idxTris (tetV d) tetF) ∧ Separated (idxTris (tetV d) tetF) := by
  refine ⟨?_, tet_tris d, oriented_idx _ _ (by decide), tet_sep d _⟩
  rw [volume_eq (tet d) _ (tet_valid d _ (by simp)) (tet_tris d) (closed_idx _ (tet_grid d) _ (by decide))]
  congr 1
  simp only [idxTris, tetF, tetV, List.map_cons, List.map_nil, triVolume_det, det3, pt, List.sum_cons, List.sum_nil]
  simp
  ring_nf
  norm_num

theorem badTet_closed (d : ℝ) : issolidclosed (badTet d) = .ok true := by
  obtain ⟨b, h1, h2⟩ := C169_closed_iff _ _ (tet_valid d _ (by simp)) (badTet_tris d)
  have := h2.mpr (closed_idx _ (tet_grid d) _ (by decide))
  subst this
  exact h1

theorem badTet_volume (d : ℝ) : volumeof (badTet d) = .ok |(1 + 2 * d) / 6| := by
  rw [volume_eq (badTet d) _ (tet_valid d _ (by simp)) (badTet_tris d) (closed_idx _ (tet_grid d) _ (by decide))]
  congr 1
  simp only [idxTris, badF, tetV, List.map_cons, List.map_nil, triVolume_det, det3, pt, List.sum_cons, List.sum_nil]
  rw [← abs_neg]
  congr 1
  simp
  ring

/-- **C168** fails in general: a tetrahedron with one face walked the wrong way round counts as closed, and its
reported volume changes from 1/6 to 7/6 when it is moved by 3 along x -/
theorem C168_depends_on_position :
    issolidclosed (badTet 0) = .ok true ∧ volumeof (badTet 0) = .ok (1 / 6) ∧
    volumeof (translatesolid (badTet 0) (pt 3 0 0)) = .ok (7 / 6) := by
  refine ⟨badTet_closed 0, ?_, ?_⟩
  · rw [badTet_volume]; norm_num
  · have hd : ¬ vclose (pt 3 0 0) (pt 0 0 0) := by
      intro h
      have := vclose_near h
      unfold sqDist pt eps at this
      norm_num at this
    have : translatesolid (badTet 0) (pt 3 0 0) = badTet 3 := by
      unfold translatesolid translatesurface badTet
      simp only [List.map_cons, List.map_nil]
      rw [if_neg hd]
      simp [add, pt]
    rw [this, badTet_volume]
    norm_num

/-- **C170** fails: a surface whose only face refers to vertices that do not exist is accepted, and then the area,
the outline and the closedness test raise `IndexError` -/
theorem C170_dangling_accepted (a b c n : V4) (h : 0 < a.w ∧ 0 < b.w ∧ 0 < c.w) (hn : |n.w| < eps) :
    ∃ s, mkSurface [a, b, c] [n, n, n] [[0, 1, 7]] [] = .ok s ∧ issurface s = true ∧
      surfacearea s = .error .indexError ∧ surf2lines s = .error .indexError ∧
      issolidclosed ⟨[s]⟩ = .error .indexError := by
  have hok : ∀ bd h', issurface ⟨[a, b, c], [n, n, n], [[0, 1, 7]], bd, h'⟩ = true := by
    intro bd h'
    rw [C170_accepts_iff]
    simp [h, hn]
  refine ⟨⟨[a, b, c], [n, n, n], [[0, 1, 7]], [], []⟩, ?_, hok _ _, ?_, ?_, ?_⟩
  · simp [mkSurface, extrasLoop, asBoundary, asHoles, hok]
  · simp [surfacearea, areaLoop, areaTri, faceTri, pyGet]
  · simp [surf2lines, linesLoop, addLines, addLine, faceSides, pyGet, inds2key, mkLine, ispoint, h]
  · have : issolid ⟨[⟨[a, b, c], [n, n, n], [[0, 1, 7]], [], []⟩]⟩ = true := by simp [issolid, hok]
    exact (C169_errors _).2 this (by simp) .indexError (by simp [solidTris, faceTris, faceTri, pyGet])

/-- **C170** conversely, a surface that is accepted and whose indices are in range can be measured and drawn -/
theorem C170_in_range_partial (s : Surface) (h : issurface s = true)
    (hi : ∀ f ∈ s.faces, ∀ i ∈ f, 0 ≤ i ∧ i < s.verts.length) : ∃ ts, Tris [s] ts ∧ ∃ b, issolidclosed ⟨[s]⟩ = .ok b := by
  have h3 := ((C170_accepts_iff s).mp h).2.2.2.2
  have key : ∀ fs : List (List Int), (∀ f ∈ fs, f.length = 3) → (∀ f ∈ fs, ∀ i ∈ f, 0 ≤ i ∧ i < s.verts.length) →
      ∃ ts, faceTris s.verts fs = .ok ts := by
    intro fs
    induction fs with
    | nil => intro _ _; exact ⟨[], rfl⟩
    | cons f fs ih =>
      intro h1 h2
      obtain ⟨ts, hts⟩ := ih (fun g hg => h1 g (by simp [hg])) (fun g hg => h2 g (by simp [hg]))
      match f, h1 f (by simp), h2 f (by simp) with
      | [i, j, k], _, hr =>
        have get : ∀ i : Int, 0 ≤ i ∧ i < s.verts.length → ∃ p, pyGet s.verts i = .ok p := by
          intro i hi
          have hl : i.toNat < s.verts.length := by omega
          refine ⟨s.verts[i.toNat], (pyGet_ok ..).mpr (Or.inl ⟨hi.1, ?_⟩)⟩
          rw [List.getElem?_eq_getElem hl]
        obtain ⟨a, ha⟩ := get i (hr i (by simp))
        obtain ⟨b, hb⟩ := get j (hr j (by simp))
        obtain ⟨c, hc⟩ := get k (hr k (by simp))
        exact ⟨⟨a, b, c⟩ :: ts, by simp only [faceTris, faceTri, ha, hb, hc, hts]⟩
  obtain ⟨ts, hts⟩ := key s.faces h3 hi
  have ht : Tris [s] ts := (solidTris_ok ..).mp (by simp [solidTris, hts])
  obtain ⟨b, hb, -⟩ := C169_closed_iff ⟨[s]⟩ ts (by rw [issolid_iff]; simpa using h) ht
  exact ⟨ts, ht, b, hb⟩

end Verif.Surf
