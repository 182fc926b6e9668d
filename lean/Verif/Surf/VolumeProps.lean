import Verif.Surf.Volume
import Verif.Geom.FigProps2

/-!
# C168: the volume of a solid does not depend on where it is
-/

namespace Verif.Surf
open Verif.Geom

/-! ## what the structural check accepts (C170) -/

theorem filterInds_ints (l : List Int) (n : Nat) : filterInds (l.map .int) n = decide (3 ≤ n) := by
  unfold filterInds
  by_cases h : n < 3
  · rw [if_pos h]; simp; omega
  · rw [if_neg h]
    have : (l.map Ix.int).filter (badInd n) = [] := by
      rw [List.filter_eq_nil_iff]
      intro x hx
      obtain ⟨i, -, rfl⟩ := List.mem_map.mp hx
      simp [badInd]
    rw [this]
    simp; omega

/-- **C170** the full check of a surface accepts exactly: at least three vertices, all of them points; as many
normals, all of them directions; faces of three indices. The values of the indices are not looked at. -/
theorem C170_accepts_iff (s : Surface) : issurface s = true ↔
    3 ≤ s.verts.length ∧ (∀ p ∈ s.verts, 0 < p.w) ∧ (∀ n ∈ s.norms, |n.w| < eps) ∧
    s.verts.length = s.norms.length ∧ ∀ f ∈ s.faces, f.length = 3 := by
  unfold issurface
  have hd : isdirectlist s.norms ↔ ∀ n ∈ s.norms, |n.w| < eps := by
    unfold isdirectlist close; simp
  have hf : (s.faces.filter fun x => !(x.length == 3)).length > 0 ↔ ¬ ∀ f ∈ s.faces, f.length = 3 := by
    rw [gt_iff_lt, List.length_pos_iff, ne_eq, List.filter_eq_nil_iff]
    simp
  have hp : ispoly s.verts ↔ 3 ≤ s.verts.length ∧ ∀ p ∈ s.verts, 0 < p.w := Iff.rfl
  simp only [filterInds_ints, hf, hd, hp]
  by_cases h1 : 3 ≤ s.verts.length ∧ ∀ p ∈ s.verts, 0 < p.w
  · by_cases h2 : ∀ n ∈ s.norms, |n.w| < eps
    · by_cases h3 : s.verts.length = s.norms.length
      · by_cases h4 : ∀ f ∈ s.faces, f.length = 3
        · rw [if_neg (by simp only [not_or, not_not]; exact ⟨h1, h2, h3⟩), if_neg (not_not.mpr h4)]
          simp only [decide_eq_true h1.1]
          simpa using ⟨h1.1, h1.2, h2, h3, h4⟩
        · rw [if_neg (by simp only [not_or, not_not]; exact ⟨h1, h2, h3⟩), if_pos h4]
          simp only [Bool.false_eq_true, false_iff]
          rintro ⟨-, -, -, -, h⟩; exact h4 h
      · rw [if_pos (Or.inr (Or.inr h3))]
        simp only [Bool.false_eq_true, false_iff]
        rintro ⟨-, -, -, h, -⟩; exact h3 h
    · rw [if_pos (Or.inr (Or.inl h2))]
      simp only [Bool.false_eq_true, false_iff]
      rintro ⟨-, -, h, -⟩; exact h2 h
  · rw [if_pos (Or.inl h1)]
    simp only [Bool.false_eq_true, false_iff]
    rintro ⟨a, b, -⟩; exact h1 ⟨a, b⟩

theorem issolid_iff (x : Solid) : issolid x = true ↔ ∀ s ∈ x.surfs, issurface s = true := by
  unfold issolid; simp

/-! ## the triangles of a moved solid -/

theorem entry_map (T : V4 → V4) {vs : List V4} {i : Int} {p : V4} (h : EntryAt vs i p) : EntryAt (vs.map T) i (T p) := by
  unfold EntryAt at *
  simp only [List.getElem?_map, List.length_map]
  rcases h with ⟨h1, h2⟩ | ⟨h1, h2, h3⟩
  · exact Or.inl ⟨h1, by rw [h2]; rfl⟩
  · exact Or.inr ⟨h1, h2, by rw [h3]; rfl⟩

theorem forall₂_map_map {α β γ δ : Type} {R : α → β → Prop} {S : γ → δ → Prop} {f : α → γ} {g : β → δ}
    {l : List α} {m : List β} (h : List.Forall₂ R l m) (hRS : ∀ a b, a ∈ l → R a b → S (f a) (g b)) :
    List.Forall₂ S (l.map f) (m.map g) := by
  induction h with
  | nil => exact .nil
  | cons hab _ ih =>
    exact .cons (hRS _ _ (by simp) hab) (ih fun a b ha => hRS a b (by simp [ha]))

/-- replace the vertices and normals of a surface, and its faces by `F` -/
def Surface.move (T : V4 → V4) (N : V4 → V4) (F : List Int → List Int) (s : Surface) : Surface :=
  { s with verts := s.verts.map T, norms := s.norms.map N, faces := s.faces.map F }

theorem tris_move (T N : V4 → V4) (F : List Int → List Int) (G : Tri → Tri) (ss : List Surface) (ts : List Tri)
    (hFG : ∀ vs f t, f.length = 3 → Corners vs f t → Corners (vs.map T) (F f) (G t))
    (h3 : ∀ s ∈ ss, ∀ f ∈ s.faces, f.length = 3) (h : Tris ss ts) : Tris (ss.map (Surface.move T N F)) (ts.map G) := by
  unfold Tris at *
  have e : ((ss.map (Surface.move T N F)).flatMap fun s => s.faces.map fun f => (s.verts, f)) =
      (ss.flatMap fun s => s.faces.map fun f => (s.verts, f)).map (fun vf => (vf.1.map T, F vf.2)) := by
    rw [List.flatMap_map, List.map_flatMap]
    congr 1
    funext s
    simp [Surface.move, Function.comp]
  rw [e]
  refine forall₂_map_map h ?_
  rintro ⟨vs, f⟩ t hm hc
  obtain ⟨s, hs, hm⟩ := List.mem_flatMap.mp hm
  obtain ⟨f', hf', e⟩ := List.mem_map.mp hm
  injection e with e1 e2
  subst e1 e2
  exact hFG _ _ _ (h3 s hs _ hf') hc

theorem corners_map (T : V4 → V4) (vs : List V4) (f : List Int) (t : Tri) (h : Corners vs f t) :
    Corners (vs.map T) (id f) (t.map T) := by
  obtain ⟨i, j, k, rfl, h1, h2, h3⟩ := h
  exact ⟨i, j, k, rfl, entry_map T h1, entry_map T h2, entry_map T h3⟩

/-- exchange the last two of three indices -/
def swap3 : List Int → List Int
  | [a, b, c] => [a, c, b]
  | f => f

theorem corners_swap (T : V4 → V4) (vs : List V4) (f : List Int) (t : Tri) (h : Corners vs f t) :
    Corners (vs.map T) (swap3 f) (t.map T).rev := by
  obtain ⟨i, j, k, rfl, h1, h2, h3⟩ := h
  exact ⟨i, k, j, rfl, entry_map T h1, entry_map T h3, entry_map T h2⟩

theorem swapFaces_ok : ∀ fs : List (List Int), (∀ f ∈ fs, f.length = 3) → swapFaces fs = .ok (fs.map swap3)
  | [], _ => rfl
  | f :: fs, h => by
    have h1 := h f (by simp)
    have ih := swapFaces_ok fs (fun g hg => h g (by simp [hg]))
    match f, h1 with
    | [a, b, c], _ => simp only [swapFaces, swapFace, ih, List.map_cons, swap3]

theorem mapSurfs_ok (f : Surface → Except Err Surface) (g : Surface → Surface) : ∀ ss : List Surface,
    (∀ s ∈ ss, f s = .ok (g s)) → mapSurfs f ss = .ok (ss.map g)
  | [], _ => rfl
  | s :: ss, h => by
    have ih := mapSurfs_ok f g ss (fun g hg => h g (by simp [hg]))
    simp only [mapSurfs, h s (by simp), ih, List.map_cons]

theorem issurface_move (T N : V4 → V4) (F : List Int → List Int) (s : Surface) (h : issurface s = true)
    (hT : ∀ p ∈ s.verts, 0 < p.w → 0 < (T p).w) (hN : ∀ n ∈ s.norms, |n.w| < eps → |(N n).w| < eps)
    (hF : ∀ f, f.length = 3 → (F f).length = 3) : issurface (s.move T N F) = true := by
  rw [C170_accepts_iff] at h ⊢
  obtain ⟨h1, h2, h3, h4, h5⟩ := h
  refine ⟨by simpa [Surface.move] using h1, ?_, ?_, by simpa [Surface.move] using h4, ?_⟩
  · intro p hp
    obtain ⟨q, hq, rfl⟩ := List.mem_map.mp hp
    exact hT q hq (h2 q hq)
  · intro p hp
    obtain ⟨q, hq, rfl⟩ := List.mem_map.mp hp
    exact hN q hq (h3 q hq)
  · intro p hp
    obtain ⟨q, hq, rfl⟩ := List.mem_map.mp hp
    exact hF q (h5 q hq)

theorem swap3_length (f : List Int) (h : f.length = 3) : (swap3 f).length = 3 := by
  match f, h with
  | [a, b, c], _ => rfl

/-! ## the volume of a moved solid -/

/-- every corner of the triangles is a vertex of one of the surfaces -/
theorem corner_vertex {ss : List Surface} {ts : List Tri} (h : Tris ss ts) {p : V4} (hp : IsCorner ts p) :
    ∃ s ∈ ss, p ∈ s.verts := by
  obtain ⟨t, ht, hp⟩ := hp
  unfold Tris at h
  obtain ⟨vf, hm, hc⟩ : ∃ vf ∈ (ss.flatMap fun s => s.faces.map fun f => (s.verts, f)), Corners vf.1 vf.2 t := by
    clear hp
    revert ht
    generalize (ss.flatMap fun s => s.faces.map fun f => (s.verts, f)) = l at h
    intro ht
    induction h with
    | nil => simp at ht
    | cons hab _ ih =>
      rcases List.mem_cons.mp ht with rfl | ht
      · exact ⟨_, by simp, hab⟩
      · obtain ⟨vf, h1, h2⟩ := ih ht
        exact ⟨vf, by simp [h1], h2⟩
  obtain ⟨s, hs, hm⟩ := List.mem_flatMap.mp hm
  obtain ⟨f, hf, rfl⟩ := List.mem_map.mp hm
  obtain ⟨i, j, k, -, h1, h2, h3⟩ := hc
  have key : ∀ i q, EntryAt s.verts i q → q ∈ s.verts := by
    rintro i q (⟨-, h⟩ | ⟨-, -, h⟩) <;> exact List.mem_of_getElem? h
  refine ⟨s, hs, ?_⟩
  rcases hp with rfl | rfl | rfl
  · exact key i _ h1
  · exact key j _ h2
  · exact key k _ h3

/-- the volume after an affine map `T` of all vertices, optionally with all faces walked backwards -/
theorem volume_move (A : Lin) (v : Pos) (T N : V4 → V4) (F : List Int → List Int) (back : Bool) (x : Solid) (vol : ℝ)
    (ts : List Tri) (hv : volumeof x = .ok vol) (ht : Tris x.surfs ts) (ho : Oriented ts) (hs : Separated ts)
    (hs' : Separated (ts.map (Tri.map T)))
    (hF : F = if back then swap3 else id)
    (hA : ∀ p, IsCorner ts p → IsAffine A v p (T p)) (hdet : A.det ≠ 0)
    (hT : ∀ s ∈ x.surfs, ∀ p ∈ s.verts, 0 < p.w → 0 < (T p).w)
    (hN : ∀ s ∈ x.surfs, ∀ n ∈ s.norms, |n.w| < eps → |(N n).w| < eps) :
    volumeof ⟨x.surfs.map (Surface.move T N F)⟩ = .ok (|A.det| * vol) := by
  obtain ⟨hx, ts', ht', hc, hvol⟩ := volume_inv x vol hv
  have : ts' = ts := by
    have h1 := (solidTris_ok ..).mpr ht
    have h2 := (solidTris_ok ..).mpr ht'
    rw [h1] at h2
    injection h2 with h2
    exact h2.symm
  subst this
  rw [issolid_iff] at hx
  have h3 : ∀ s ∈ x.surfs, ∀ f ∈ s.faces, f.length = 3 := fun s hs => ((C170_accepts_iff s).mp (hx s hs)).2.2.2.2
  have hinj : ∀ p q, IsCorner ts' p → IsCorner ts' q → (pos (T p) = pos (T q) ↔ pos p = pos q) := by
    intro p q hp hq
    obtain ⟨p1, p2, p3⟩ := hA p hp
    obtain ⟨q1, q2, q3⟩ := hA q hq
    unfold pos
    simp only [Prod.mk.injEq]
    rw [p1, p2, p3, q1, q2, q3]
    simp only [dotP, pos]
    constructor
    · rintro ⟨h1, h2, h3⟩
      have e1 : A.det * (p.x - q.x) = 0 := by
        unfold Lin.det
        linear_combination (A.r2.2.1 * A.r3.2.2 - A.r2.2.2 * A.r3.2.1) * h1 -
          (A.r1.2.1 * A.r3.2.2 - A.r1.2.2 * A.r3.2.1) * h2 + (A.r1.2.1 * A.r2.2.2 - A.r1.2.2 * A.r2.2.1) * h3
      have e2 : A.det * (p.y - q.y) = 0 := by
        unfold Lin.det
        linear_combination -(A.r2.1 * A.r3.2.2 - A.r2.2.2 * A.r3.1) * h1 +
          (A.r1.1 * A.r3.2.2 - A.r1.2.2 * A.r3.1) * h2 - (A.r1.1 * A.r2.2.2 - A.r1.2.2 * A.r2.1) * h3
      have e3 : A.det * (p.z - q.z) = 0 := by
        unfold Lin.det
        linear_combination (A.r2.1 * A.r3.2.1 - A.r2.2.1 * A.r3.1) * h1 -
          (A.r1.1 * A.r3.2.1 - A.r1.2.1 * A.r3.1) * h2 + (A.r1.1 * A.r2.2.1 - A.r1.2.1 * A.r2.1) * h3
      have e1 := (mul_eq_zero.mp e1).resolve_left hdet
      have e2 := (mul_eq_zero.mp e2).resolve_left hdet
      have e3 := (mul_eq_zero.mp e3).resolve_left hdet
      exact ⟨by linarith, by linarith, by linarith⟩
    · rintro ⟨h1, h2, h3⟩; rw [h1, h2, h3]; exact ⟨rfl, rfl, rfl⟩
  have hF3 : ∀ f, f.length = 3 → (F f).length = 3 := by
    intro f hf; subst hF; cases back
    · exact hf
    · exact swap3_length f hf
  have hy : issolid ⟨x.surfs.map (Surface.move T N F)⟩ = true := by
    rw [issolid_iff]
    intro s hs
    obtain ⟨s', h', rfl⟩ := List.mem_map.mp hs
    exact issurface_move T N F s' (hx s' h') (hT s' h') (hN s' h') hF3
  have hcl := closed_map hs hs' hinj hc
  have hva := volume_affine A v T ts' ho hA
  cases back with
  | false =>
    have htm : Tris (x.surfs.map (Surface.move T N F)) (ts'.map (Tri.map T)) := by
      refine tris_move T N F (Tri.map T) _ _ ?_ h3 ht
      intro vs f t _ h; subst hF; exact corners_map T vs f t h
    rw [volume_eq _ _ hy htm hcl, hva, abs_mul, hvol]
  | true =>
    have htm : Tris (x.surfs.map (Surface.move T N F)) ((ts'.map (Tri.map T)).map Tri.rev) := by
      rw [List.map_map]
      refine tris_move T N F (Tri.rev ∘ Tri.map T) _ _ ?_ h3 ht
      intro vs f t _ h; subst hF; exact corners_swap T vs f t h
    rw [volume_eq _ _ hy htm (closed_rev hcl), volume_rev, hva, abs_neg, abs_mul, hvol]

theorem separated_rigid {T : V4 → V4} {ts : List Tri} (hs : Separated ts)
    (hT : ∀ p q, IsCorner ts p → IsCorner ts q → sqDist (T p) (T q) = sqDist p q) : Separated (ts.map (Tri.map T)) := by
  intro p' q' hp' hq'
  obtain ⟨p, hp, rfl⟩ := corner_map hp'
  obtain ⟨q, hq, rfl⟩ := corner_map hq'
  rcases hs p q hp hq with h | h
  · left
    have : sqDist (T p) (T q) = 0 := by
      rw [hT p q hp hq]
      unfold pos at h
      simp only [Prod.mk.injEq] at h
      unfold sqDist
      rw [h.1, h.2.1, h.2.2]; ring
    unfold sqDist at this
    have hx : (T p).x - (T q).x = 0 := by nlinarith [sq_nonneg ((T p).x - (T q).x), sq_nonneg ((T p).y - (T q).y), sq_nonneg ((T p).z - (T q).z)]
    have hy : (T p).y - (T q).y = 0 := by nlinarith [sq_nonneg ((T p).x - (T q).x), sq_nonneg ((T p).y - (T q).y), sq_nonneg ((T p).z - (T q).z)]
    have hz : (T p).z - (T q).z = 0 := by nlinarith [sq_nonneg ((T p).x - (T q).x), sq_nonneg ((T p).y - (T q).y), sq_nonneg ((T p).z - (T q).z)]
    unfold pos
    simp only [Prod.mk.injEq]
    exact ⟨by linarith, by linarith, by linarith⟩
  · right; rw [hT p q hp hq]; exact h

/-- **C168** (translation) a solid with a consistently oriented, well separated mesh keeps its volume -/
theorem C168_translate_partial (x : Solid) (δ : V4) (vol : ℝ) (ts : List Tri) (hv : volumeof x = .ok vol)
    (ht : Tris x.surfs ts) (ho : Oriented ts) (hs : Separated ts) : volumeof (translatesolid x δ) = .ok vol := by
  unfold translatesolid
  by_cases hd : vclose δ (pt 0 0 0)
  · have : (x.surfs.map fun s => translatesurface s δ) = x.surfs := by
      conv_rhs => rw [← List.map_id x.surfs]
      congr 1
      funext s
      unfold translatesurface
      rw [if_pos hd]; rfl
    rw [this]; exact hv
  · have : (x.surfs.map fun s => translatesurface s δ) = x.surfs.map (Surface.move (fun p => add p δ) id id) := by
      congr 1
      funext s
      unfold translatesurface Surface.move
      rw [if_neg hd]; simp
    rw [this]
    have h := volume_move ⟨(1, 0, 0), (0, 1, 0), (0, 0, 1)⟩ (δ.x, δ.y, δ.z) (fun p => add p δ) id id false x vol ts hv ht ho hs
      (separated_rigid hs (fun p q _ _ => by unfold sqDist add; ring)) rfl
      (fun p _ => by unfold IsAffine add dotP pos; simp) (by unfold Lin.det; norm_num)
      (fun s _ p _ _ => by unfold add; norm_num) (fun s _ n _ h => h)
    rw [h]
    congr 1
    unfold Lin.det
    norm_num

/-- the determinant of the rotation matrix about the unit vector `(a, b, d)` -/
theorem rot_det (a b d C S : ℝ) (hu : a * a + b * b + d * d = 1) (cs : S ^ 2 + C ^ 2 = 1) :
    Lin.det ⟨(C + a * a * (1 - C), a * b * (1 - C) - d * S, a * d * (1 - C) + b * S),
      (b * a * (1 - C) + d * S, C + b * b * (1 - C), b * d * (1 - C) - a * S),
      (d * a * (1 - C) - b * S, d * b * (1 - C) + a * S, C + d * d * (1 - C))⟩ = 1 := by
  unfold Lin.det
  have hS : S ^ 2 = 1 - C ^ 2 := by linarith
  have ha : a ^ 2 = 1 - b * b - d * d := by linarith
  have : Lin.det ⟨(C + a * a * (1 - C), a * b * (1 - C) - d * S, a * d * (1 - C) + b * S),
      (b * a * (1 - C) + d * S, C + b * b * (1 - C), b * d * (1 - C) - a * S),
      (d * a * (1 - C) - b * S, d * b * (1 - C) + a * S, C + d * d * (1 - C))⟩ =
      C ^ 3 + C * S ^ 2 * (a * a + b * b + d * d) + (1 - C) * (C ^ 2 * (a * a + b * b + d * d) + S ^ 2 * (a * a + b * b + d * d) ^ 2) := by
    unfold Lin.det; ring
  unfold Lin.det at this
  simp only at this ⊢
  rw [this, hu, hS]
  ring

/-- **C168** (rotation) the same for rotations about any centre and unit axis; vertices are ordinary points -/
theorem C168_rotate_partial (x : Solid) (ang : ℝ) (c u : V4) (vol : ℝ) (ts : List Tri) (hu : UnitV u) (hc : GoodCentre c)
    (hw : ∀ s ∈ x.surfs, ∀ p ∈ s.verts, p.w = 1) (hv : volumeof x = .ok vol)
    (ht : Tris x.surfs ts) (ho : Oriented ts) (hs : Separated ts) :
    ∃ y, rotatesolid x ang c u = .ok y ∧ volumeof y = .ok vol := by
  unfold rotatesolid
  by_cases ha : close ang 0
  · refine ⟨x, ?_, hv⟩
    have : mapSurfs (fun s => rotatesurface s ang c u) x.surfs = .ok (x.surfs.map id) := by
      apply mapSurfs_ok
      intro s _
      unfold rotatesurface
      rw [if_pos ha]; rfl
    rw [this]; simp
  · obtain ⟨M, hM, hm⟩ := rotateMat_ok u c hu hc ang
    have hmap : mapSurfs (fun s => rotatesurface s ang c u) x.surfs =
        .ok (x.surfs.map (Surface.move (rotMap c u (deg ang)) (rotMap c u (deg ang)) id)) := by
      apply mapSurfs_ok
      intro s _
      unfold rotatesurface Surface.move
      rw [if_neg ha, hM]
      simp only [Except.ok.injEq]
      have : mulP M = rotMap c u (deg ang) := funext hm
      rw [this]; simp
    rw [hmap]
    refine ⟨_, rfl, ?_⟩
    have hcw : ∀ p, IsCorner ts p → p.w = 1 := fun p hp => by
      obtain ⟨s, hs, hp⟩ := corner_vertex ht hp
      exact hw s hs p hp
    generalize hr : deg ang = r
    unfold UnitV at hu
    have hdet := rot_det u.x u.y u.z (Real.cos r) (Real.sin r) hu (Real.sin_sq_add_cos_sq r)
    have h := volume_move ⟨(Real.cos r + u.x * u.x * (1 - Real.cos r), u.x * u.y * (1 - Real.cos r) - u.z * Real.sin r, u.x * u.z * (1 - Real.cos r) + u.y * Real.sin r),
      (u.y * u.x * (1 - Real.cos r) + u.z * Real.sin r, Real.cos r + u.y * u.y * (1 - Real.cos r), u.y * u.z * (1 - Real.cos r) - u.x * Real.sin r),
      (u.z * u.x * (1 - Real.cos r) - u.y * Real.sin r, u.z * u.y * (1 - Real.cos r) + u.x * Real.sin r, Real.cos r + u.z * u.z * (1 - Real.cos r))⟩
      (c.x - dotP (Real.cos r + u.x * u.x * (1 - Real.cos r), u.x * u.y * (1 - Real.cos r) - u.z * Real.sin r, u.x * u.z * (1 - Real.cos r) + u.y * Real.sin r) (pos c),
       c.y - dotP (u.y * u.x * (1 - Real.cos r) + u.z * Real.sin r, Real.cos r + u.y * u.y * (1 - Real.cos r), u.y * u.z * (1 - Real.cos r) - u.x * Real.sin r) (pos c),
       c.z - dotP (u.z * u.x * (1 - Real.cos r) - u.y * Real.sin r, u.z * u.y * (1 - Real.cos r) + u.x * Real.sin r, Real.cos r + u.z * u.z * (1 - Real.cos r)) (pos c))
      (rotMap c u r) (rotMap c u r) id false x vol ts hv ht ho hs
      (separated_rigid hs (fun p q hp hq => rotMap_dist c u r p q (hcw p hp) (hcw q hq) hu)) rfl
      (fun p hp => by
        unfold IsAffine rotMap rotCoord dotP pos
        simp only [hcw p hp]
        refine ⟨?_, ?_, ?_⟩ <;> ring) (by rw [hdet]; norm_num)
      (fun s _ p _ h => by unfold rotMap rotCoord; exact h) (fun s _ n _ h => by unfold rotMap rotCoord; exact h)
    rw [h, hdet]
    simp

/-- **C168** (reflection) the same for reflections -/
theorem C168_mirror_partial (x : Solid) (pl : Plane) (vol : ℝ) (ts : List Tri) (hv : volumeof x = .ok vol)
    (ht : Tris x.surfs ts) (ho : Oriented ts) (hs : Separated ts) :
    ∃ y, mirrorsolid x pl = .ok y ∧ volumeof y = .ok vol := by
  unfold mirrorsolid
  have hx := (volume_inv x vol hv).1
  rw [issolid_iff] at hx
  have hmap : mapSurfs (fun s => mirrorsurface s pl) x.surfs =
      .ok (x.surfs.map (Surface.move (fun p => mul4 p (flip pl)) (fun p => mul4 p (flip pl)) swap3)) := by
    apply mapSurfs_ok
    intro s hs
    unfold mirrorsurface Surface.move
    rw [swapFaces_ok s.faces ((C170_accepts_iff s).mp (hx s hs)).2.2.2.2]
  rw [hmap]
  refine ⟨_, rfl, ?_⟩
  have h := volume_move ⟨((flip pl).x, 0, 0), (0, (flip pl).y, 0), (0, 0, (flip pl).z)⟩ (0, 0, 0) (fun p => mul4 p (flip pl))
    (fun p => mul4 p (flip pl)) swap3 true x vol ts hv ht ho hs
    (separated_rigid hs (fun p q _ _ => by cases pl <;> unfold sqDist mul4 Geom.flip <;> ring)) rfl
    (fun p _ => by unfold IsAffine mul4 dotP pos; refine ⟨?_, ?_, ?_⟩ <;> simp <;> ring)
    (by cases pl <;> unfold Lin.det Geom.flip <;> norm_num)
    (fun s _ p _ h => by cases pl <;> (unfold mul4 Geom.flip; simpa using h))
    (fun s _ p _ h => by cases pl <;> (unfold mul4 Geom.flip; simpa using h))
  rw [h]
  congr 1
  cases pl <;> unfold Lin.det Geom.flip <;> norm_num

theorem vclose_near {p q : V4} (h : vclose p q) : sqDist p q < eps ^ 2 := by
  unfold vclose close mag sub at h
  rw [sub_zero, abs_of_nonneg (Real.sqrt_nonneg _)] at h
  have he : 0 < eps := by unfold eps; norm_num
  have := (Real.sqrt_lt' he).mp h
  unfold sqDist
  nlinarith

/-- **C168** (scaling) three explicit non-zero factors multiply the volume by the absolute value of their product,
about whatever centre, provided the scaled mesh is still well separated -/
theorem C168_scale_partial (x : Solid) (sx sy sz : ℝ) (c : V4) (vol : ℝ) (ts : List Tri)
    (h0 : sx ≠ 0 ∧ sy ≠ 0 ∧ sz ≠ 0) (hf : ¬ vclose (pt sx sy sz) (pt 1 1 1))
    (hw : ∀ s ∈ x.surfs, ∀ p ∈ s.verts, p.w = 1) (hv : volumeof x = .ok vol)
    (ht : Tris x.surfs ts) (ho : Oriented ts) (hs : Separated ts)
    (hs' : Separated (ts.map (Tri.map fun p => ⟨sx * p.x, sy * p.y, sz * p.z, 1⟩))) :
    ∃ y, scalesolid x sx (some sy) (some sz) c = .ok y ∧ volumeof y = .ok (|sx * sy * sz| * vol) := by
  obtain ⟨M, hM, hm1, hm2⟩ := scaleMat_coord sx sy sz c
  have euni : uniform sx (some sy) (some sz) = (some sy, some sz) := rfl
  -- the map applied to a point
  obtain ⟨v, hvM⟩ : ∃ v : Pos, ∀ p : V4, p.w = 1 → mulP M p = ⟨sx * p.x + v.1, sy * p.y + v.2.1, sz * p.z + v.2.2, 1⟩ := by
    by_cases hc : vclose c (pt 0 0)
    · refine ⟨(0, 0, 0), fun p hp => ?_⟩
      rw [hm1 hc p]; ext <;> simp [hp]
    · refine ⟨(sx * c.x - c.x, sy * c.y - c.y, sz * c.z - c.z), fun p hp => ?_⟩
      rw [hm2 hc p]; ext <;> simp [hp] <;> ring
  have hwM : ∀ p : V4, (mulP M p).w = p.w := by
    intro p
    by_cases hc : vclose c (pt 0 0)
    · rw [hm1 hc p]
    · rw [hm2 hc p]
  have hcw : ∀ p, IsCorner ts p → p.w = 1 := fun p hp => by
    obtain ⟨s, hs, hp⟩ := corner_vertex ht hp
    exact hw s hs p hp
  -- the normals
  obtain ⟨N, hN, hNw⟩ : ∃ N : V4 → V4, (∀ s, scalesurface s sx (some sy) (some sz) c = .ok (s.move (mulP M) N id)) ∧
      ∀ n, |n.w| < eps → |(N n).w| < eps := by
    by_cases hu : ¬ close sx sy ∨ ¬ close sy sz
    · refine ⟨scaleNormal sx sy sz, fun s => ?_, fun n hn => ?_⟩
      · unfold scalesurface
        rw [euni]
        simp only
        rw [if_neg (show ¬ vclose (factorPoint sx (some sy) (some sz)) (pt 1 1 1) from hf), hM]
        simp only [Option.getD_some]
        rw [if_pos hu, if_neg (by simp [h0])]
        simp [Surface.move]
      · unfold scaleNormal
        simp only
        split
        · have : 0 < eps := by unfold eps; norm_num
          simpa using this
        · exact hn
    · refine ⟨id, fun s => ?_, fun n hn => hn⟩
      unfold scalesurface
      rw [euni]
      simp only
      rw [if_neg (show ¬ vclose (factorPoint sx (some sy) (some sz)) (pt 1 1 1) from hf), hM]
      simp only [Option.getD_some]
      rw [if_neg hu]
      simp [Surface.move]
  have hsol : scalesolid x sx (some sy) (some sz) c = .ok ⟨x.surfs.map (Surface.move (mulP M) N id)⟩ := by
    unfold scalesolid
    rw [euni]
    simp only
    rw [if_neg (show ¬ vclose (factorPoint sx (some sy) (some sz)) (pt 1 1 1) from hf), mapSurfs_ok _ (Surface.move (mulP M) N id) x.surfs (fun s _ => hN s)]
  refine ⟨_, hsol, ?_⟩
  have hsep : Separated (ts.map (Tri.map (mulP M))) := by
    intro p' q' hp' hq'
    obtain ⟨p, hp, rfl⟩ := corner_map hp'
    obtain ⟨q, hq, rfl⟩ := corner_map hq'
    have hc : ∀ p, IsCorner ts p → IsCorner (ts.map (Tri.map fun p => ⟨sx * p.x, sy * p.y, sz * p.z, 1⟩)) ⟨sx * p.x, sy * p.y, sz * p.z, 1⟩ := by
      rintro p ⟨t, ht, hp⟩
      refine ⟨_, List.mem_map.mpr ⟨t, ht, rfl⟩, ?_⟩
      rcases hp with rfl | rfl | rfl <;> simp [Tri.map]
    rw [hvM p (hcw p hp), hvM q (hcw q hq)]
    rcases hs' _ _ (hc p hp) (hc q hq) with h | h
    · left
      unfold pos at h ⊢
      simp only [Prod.mk.injEq] at h ⊢
      rw [h.1, h.2.1, h.2.2]; exact ⟨rfl, rfl, rfl⟩
    · right
      refine le_trans h (le_of_eq ?_)
      unfold sqDist; ring
  have h := volume_move ⟨(sx, 0, 0), (0, sy, 0), (0, 0, sz)⟩ v (mulP M) N id false x vol ts hv ht ho hs hsep rfl
    (fun p hp => by rw [hvM p (hcw p hp)]; unfold IsAffine dotP pos; simp)
    (by unfold Lin.det; simp; exact ⟨h0.1, h0.2.1, h0.2.2⟩ )
    (fun s _ p _ h => by rw [hwM]; exact h) (fun s _ n _ h => hNw n h)
  rw [h]
  congr 2
  unfold Lin.det
  simp only
  ring_nf

end Verif.Surf
