import Verif.Builtin.Solid
import Mathlib.Tactic.Linarith
import Mathlib.Tactic.Ring
import Mathlib.Tactic.FieldSimp
import Mathlib.Analysis.Complex.Trigonometric

/-!
# C329–C333: solids in the language
-/

namespace Verif.Builtin
open Verif.Geom Verif.Surf Real

/-! ## Specification: all representations of a solid move alike -/

/-- the points of `l'` are the images of those of `l`, in order -/
def Image (f : V4 → V4) (l l' : List V4) : Prop := List.Forall₂ (fun p q => Same3 q (f p)) l l'

/-- the same for a representation the solid may lack -/
def ImageOpt (f : V4 → V4) (b b' : Option (List V4)) : Prop := Option.Rel (Image f) b b'

/-- the vertices of the mesh are moved by `f` -/
def MeshMoved (f : V4 → V4) (b b' : Body) : Prop := List.Forall₂ (fun s s' => Image f s.verts s'.verts) b.mesh.surfs b'.mesh.surfs

/-- mesh, shape and native representation are moved by `f` -/
def Moved (f : V4 → V4) (b b' : Body) : Prop := MeshMoved f b b' ∧ ImageOpt f b.brep b'.brep ∧ ImageOpt f b.native b'.native

/-- the triangles join the same vertices -/
def SameTopology (b b' : Body) : Prop := List.Forall₂ SameShape b.mesh.surfs b'.mesh.surfs

/-- all triangles are walked the other way round -/
def FlippedTopology (b b' : Body) : Prop := List.Forall₂ (fun s s' => Flipped s.faces s'.faces) b.mesh.surfs b'.mesh.surfs

/-- turning by degrees about the coordinate axes -/
noncomputable def turnX (a : ℝ) (p : V4) : V4 := ⟨p.x, cos (a * π / 180) * p.y - sin (a * π / 180) * p.z, sin (a * π / 180) * p.y + cos (a * π / 180) * p.z, p.w⟩
noncomputable def turnY (a : ℝ) (p : V4) : V4 := ⟨cos (a * π / 180) * p.x + sin (a * π / 180) * p.z, p.y, -(sin (a * π / 180) * p.x) + cos (a * π / 180) * p.z, p.w⟩
noncomputable def turnZ (a : ℝ) (p : V4) : V4 := ⟨cos (a * π / 180) * p.x - sin (a * π / 180) * p.y, sin (a * π / 180) * p.x + cos (a * π / 180) * p.y, p.z, p.w⟩

/-- reflection in the plane through the origin with normal `n` -/
noncomputable def reflect (n p : V4) : V4 :=
  let k := 2 * (p.x * n.x + p.y * n.y + p.z * n.z) / (n.x * n.x + n.y * n.y + n.z * n.z)
  ⟨p.x - k * n.x, p.y - k * n.y, p.z - k * n.z, p.w⟩

/-! ## Lemmas about images -/

theorem image_map (f g : V4 → V4) (l : List V4) (h : ∀ p ∈ l, Same3 (g p) (f p)) : Image f l (l.map g) := forall₂_map_self l h

theorem imageOpt_map (f g : V4 → V4) (b : Option (List V4)) (h : ∀ p, Same3 (g p) (f p)) : ImageOpt f b (mapBrep g b) := by
  cases b with
  | none => exact .none
  | some l => exact .some (image_map f g l fun p _ => h p)

theorem same_self (p : V4) : Same3 p p := ⟨rfl, rfl, rfl⟩

theorem image_self (f : V4 → V4) (l : List V4) (h : ∀ p, Same3 p (f p)) : Image f l l := by
  have := image_map f id l fun p _ => h p
  rwa [List.map_id] at this

theorem imageOpt_self (f : V4 → V4) (b : Option (List V4)) (h : ∀ p, Same3 p (f p)) : ImageOpt f b b := by
  cases b with
  | none => exact .none
  | some l => exact .some (image_self f l h)

theorem moved_self (f : V4 → V4) (b : Body) (h : ∀ p, Same3 p (f p)) : Moved f b b :=
  ⟨by unfold MeshMoved; rw [List.forall₂_same]; exact fun s _ => image_self f _ h, imageOpt_self f _ h, imageOpt_self f _ h⟩

/-- respects positions -/
def Respects (f : V4 → V4) : Prop := ∀ p q, Same3 p q → Same3 (f p) (f q)

theorem image_trans {f g : V4 → V4} (hg : Respects g) : ∀ {l m n}, Image f l m → Image g m n → Image (g ∘ f) l n
  | _, _, _, .nil, .nil => .nil
  | _, _, _, .cons h1 t1, .cons h2 t2 => .cons (by
      obtain ⟨a, b, c⟩ := h2
      obtain ⟨d, e, f⟩ := hg _ _ h1
      exact ⟨a.trans d, b.trans e, c.trans f⟩) (image_trans hg t1 t2)

theorem imageOpt_trans {f g : V4 → V4} (hg : Respects g) {a b c} (h : ImageOpt f a b) (h' : ImageOpt g b c) : ImageOpt (g ∘ f) a c := by
  cases h with
  | none => cases h' with | none => exact .none
  | some h => cases h' with | some h' => exact .some (image_trans hg h h')

theorem meshes_trans {f g : V4 → V4} (hg : Respects g) : ∀ {l m n : List Surface}, List.Forall₂ (fun s s' => Image f s.verts s'.verts) l m →
    List.Forall₂ (fun s s' => Image g s.verts s'.verts) m n → List.Forall₂ (fun s s' => Image (g ∘ f) s.verts s'.verts) l n
  | _, _, _, .nil, .nil => .nil
  | _, _, _, .cons h1 t1, .cons h2 t2 => .cons (image_trans hg h1 h2) (meshes_trans hg t1 t2)

theorem moved_trans {f g : V4 → V4} (hg : Respects g) {a b c : Body} (h : Moved f a b) (h' : Moved g b c) : Moved (g ∘ f) a c :=
  ⟨meshes_trans hg h.1 h'.1, imageOpt_trans hg h.2.1 h'.2.1, imageOpt_trans hg h.2.2 h'.2.2⟩

theorem topology_trans : ∀ {l m n : List Surface}, List.Forall₂ SameShape l m → List.Forall₂ SameShape m n → List.Forall₂ SameShape l n
  | _, _, _, .nil, .nil => .nil
  | _, _, _, .cons ⟨a, b, c⟩ t1, .cons ⟨d, e, f⟩ t2 => .cons ⟨d.trans a, e.trans b, f.trans c⟩ (topology_trans t1 t2)

theorem topology_self (b : Body) : SameTopology b b := by unfold SameTopology; rw [List.forall₂_same]; exact fun s _ => ⟨rfl, rfl, rfl⟩

/-- mapping the surfaces -/
theorem mapSurfs_map (f : Surface → Except Err Surface) (g : Surface → Surface) : ∀ (l : List Surface), (∀ s ∈ l, f s = .ok (g s)) →
    mapSurfs f l = .ok (l.map g)
  | [], _ => rfl
  | s :: l, h => by
    unfold mapSurfs
    rw [h s List.mem_cons_self]
    simp only
    rw [mapSurfs_map f g l fun s hs => h s (List.mem_cons_of_mem _ hs)]
    rfl

/-! ## C331: moving solids -/

/-- **C331** (translation) mesh, shape and native representation move by the vector; the triangles stay. -/
theorem C331_translate (b : Body) (x y z : ℝ) (h : (x = 0 ∧ y = 0 ∧ z = 0) ∨ (5e-6 : ℝ) ^ 2 ≤ x ^ 2 + y ^ 2 + z ^ 2) :
    Moved (fun p => ⟨p.x + x, p.y + y, p.z + z, p.w⟩) b (translateB b x y z) ∧ SameTopology b (translateB b x y z) := by
  unfold translateB translateBody translatesolid
  refine ⟨⟨?_, ?_, ?_⟩, ?_⟩
  · apply forall₂_map_self
    intro s _
    rcases h with ⟨rfl, rfl, rfl⟩ | h
    · unfold translatesurface
      rw [if_pos (vclose_self ⟨rfl, rfl, rfl⟩)]
      exact image_self _ _ fun p => ⟨by simp, by simp, by simp⟩
    · exact (C172_translate s (pt x y z)).2.2.2 (by unfold eps pt; convert h using 2)
  · exact imageOpt_map _ _ _ fun p => ⟨rfl, rfl, rfl⟩
  · exact imageOpt_map _ _ _ fun p => ⟨rfl, rfl, rfl⟩
  · exact forall₂_map_self _ fun s _ => (C172_translate s (pt x y z)).1

/-- one turn -/
theorem step_moved (b : Body) (a : ℝ) (u : V4) (hu : UnitV u) (f : V4 → V4) (hf : ∀ p, Same3 (rotCoord u (deg a) p) (f p)) (ha : a = 0 ∨ ¬ close a 0) :
    ∃ b', rotateStep a u b = .ok b' ∧ Moved f b b' ∧ SameTopology b b' := by
  unfold rotateStep
  rcases ha with rfl | ha
  · rw [if_neg (by norm_num)]
    refine ⟨b, rfl, moved_self f b fun p => ?_, topology_self b⟩
    obtain ⟨h1, h2, h3⟩ := hf p
    unfold rotCoord deg at h1 h2 h3
    simp only [zero_mul, zero_div, cos_zero, sin_zero, sub_self, mul_zero, add_zero, one_mul, zero_add] at h1 h2 h3
    exact ⟨h1, h2, h3⟩
  · have hl : (1e-10 : ℝ) < |a| := by
      unfold close eps at ha
      rw [sub_zero, not_lt] at ha
      refine lt_of_lt_of_le ?_ ha
      norm_num
    rw [if_pos hl]
    obtain ⟨M, hM, hm⟩ := rotateMat_ok u (pt 0 0 0) hu (.inl ⟨rfl, rfl, rfl⟩) a
    have ho : ∀ p, rotMap (pt 0 0 0) u (deg a) p = rotCoord u (deg a) p := fun p => rotMap_origin u _ _ p ⟨rfl, rfl, rfl⟩
    have es : ∀ s ∈ b.mesh.surfs, rotatesurface s a (pt 0 0 0) u = .ok { s with verts := s.verts.map (mulP M), norms := s.norms.map (mulP M) } := by
      intro s _
      unfold rotatesurface
      rw [if_neg ha, hM]
    unfold rotateBody rotatesolid
    rw [mapSurfs_map _ _ _ es, if_neg ha, hM]
    refine ⟨_, rfl, ⟨?_, ?_, ?_⟩, ?_⟩
    · exact forall₂_map_self _ fun s _ => image_map _ _ _ fun p _ => by rw [hm, ho]; exact hf p
    · exact imageOpt_map _ _ _ fun p => by unfold brepTurn; rw [ho]; exact hf p
    · exact imageOpt_map _ _ _ fun p => by rw [hm, ho]; exact hf p
    · exact forall₂_map_self _ fun s _ => ⟨rfl, rfl, rfl⟩

theorem deg_eq (a : ℝ) : deg a = a * π / 180 := by unfold deg; ring

theorem turnX_eq (a : ℝ) (p : V4) : Same3 (rotCoord (pt 1 0 0) (deg a) p) (turnX a p) := by
  unfold rotCoord turnX pt; rw [deg_eq]; refine ⟨?_, ?_, ?_⟩ <;> simp only <;> ring

theorem turnY_eq (a : ℝ) (p : V4) : Same3 (rotCoord (pt 0 1 0) (deg a) p) (turnY a p) := by
  unfold rotCoord turnY pt; rw [deg_eq]; refine ⟨?_, ?_, ?_⟩ <;> simp only <;> ring

theorem turnZ_eq (a : ℝ) (p : V4) : Same3 (rotCoord (pt 0 0 1) (deg a) p) (turnZ a p) := by
  unfold rotCoord turnZ pt; rw [deg_eq]; refine ⟨?_, ?_, ?_⟩ <;> simp only <;> ring

theorem turnY_respects (a : ℝ) : Respects (turnY a) := fun p q ⟨h1, h2, h3⟩ => by unfold turnY; simp only [h1, h2, h3]; exact same_self _
theorem turnZ_respects (a : ℝ) : Respects (turnZ a) := fun p q ⟨h1, h2, h3⟩ => by unfold turnZ; simp only [h1, h2, h3]; exact same_self _

/-- **C331** (rotation, partial: angles below the threshold of 0.000005 degrees that are not zero are excluded) first about x, then about y, then about z, all representations. -/
theorem C331_rotate_partial (b : Body) (x y z : ℝ) (hx : x = 0 ∨ 5e-6 ≤ |x|) (hy : y = 0 ∨ 5e-6 ≤ |y|) (hz : z = 0 ∨ 5e-6 ≤ |z|) :
    ∃ b', rotateB b x y z = .ok b' ∧ Moved (fun p => turnZ z (turnY y (turnX x p))) b b' ∧ SameTopology b b' := by
  have hc : ∀ a : ℝ, (a = 0 ∨ 5e-6 ≤ |a|) → (a = 0 ∨ ¬ close a 0) := by
    rintro a (h | h)
    · exact .inl h
    · right; unfold close eps; rw [sub_zero, not_lt]; convert h using 1
  obtain ⟨b1, e1, m1, t1⟩ := step_moved b x (pt 1 0 0) (by unfold UnitV pt; norm_num) _ (turnX_eq x) (hc x hx)
  obtain ⟨b2, e2, m2, t2⟩ := step_moved b1 y (pt 0 1 0) (by unfold UnitV pt; norm_num) _ (turnY_eq y) (hc y hy)
  obtain ⟨b3, e3, m3, t3⟩ := step_moved b2 z (pt 0 0 1) (by unfold UnitV pt; norm_num) _ (turnZ_eq z) (hc z hz)
  refine ⟨b3, by unfold rotateB; rw [e1]; simp only; rw [e2]; simp only; exact e3, ?_, topology_trans t1 (topology_trans t2 t3)⟩
  exact moved_trans (turnZ_respects z) (moved_trans (turnY_respects y) m1 m2) m3

/-- **C331** fails for small angles: between 10⁻¹⁰ and 5·10⁻⁶ degrees the mesh and the native representation stay and the shape is turned. -/
theorem C331_rotate_small (b : Body) (x : ℝ) (h1 : 1e-10 < |x|) (h2 : |x| < 5e-6) :
    ∃ b', rotateB b x 0 0 = .ok b' ∧ b'.mesh = b.mesh ∧ b'.native = b.native ∧ ImageOpt (turnX x) b.brep b'.brep := by
  have hc : close x 0 := by unfold close eps; rw [sub_zero]; convert h2 using 1
  have es : ∀ s ∈ b.mesh.surfs, rotatesurface s x (pt 0 0 0) (pt 1 0 0) = .ok (id s) := by
    intro s _; unfold rotatesurface; rw [if_pos hc]; rfl
  have e1 : rotateStep x (pt 1 0 0) b = .ok ⟨⟨b.mesh.surfs⟩, mapBrep (brepTurn (pt 1 0 0) x) b.brep, b.native⟩ := by
    unfold rotateStep rotateBody rotatesolid
    rw [if_pos h1, mapSurfs_map _ _ _ es, if_pos hc, List.map_id]
  have e0 : ∀ u b, rotateStep 0 u b = .ok b := by
    intro u b; unfold rotateStep; rw [if_neg (by norm_num)]
  unfold rotateB
  rw [e1]
  simp only
  rw [e0]
  simp only
  rw [e0]
  refine ⟨_, rfl, rfl, rfl, imageOpt_map _ _ _ fun p => ?_⟩
  unfold brepTurn
  rw [rotMap_origin _ _ _ _ ⟨rfl, rfl, rfl⟩]
  exact turnX_eq x p

theorem uniform_some (x y z : ℝ) : uniform x (some y) (some z) = (some y, some z) := rfl

theorem mesh_scaled (b : Body) (x y z : ℝ) (hf : ¬ vclose (pt x y z) (pt 1 1 1)) (h0 : x ≠ 0 ∧ y ≠ 0 ∧ z ≠ 0) :
    ∃ m, scalesolid b.mesh x (some y) (some z) (pt 0 0 0) = .ok m ∧
      List.Forall₂ (fun s s' => Image (fun p => ⟨x * p.x, y * p.y, z * p.z, 1⟩) s.verts s'.verts) b.mesh.surfs m.surfs ∧ List.Forall₂ SameShape b.mesh.surfs m.surfs := by
  have hs := fun s => C172_scale_origin_partial s x y z hf h0
  choose g hg using hs
  unfold scalesolid
  rw [uniform_some]
  simp only
  rw [if_neg (show ¬ vclose (factorPoint x (some y) (some z)) (pt 1 1 1) from hf), mapSurfs_map _ g _ fun s _ => (hg s).1]
  exact ⟨_, rfl, forall₂_map_self _ fun s _ => (hg s).2.2, forall₂_map_self _ fun s _ => (hg s).2.1⟩

/-- **C331** (scaling) with equal factors every representation is scaled about the origin. -/
theorem C331_scale_partial (b : Body) (f : ℝ) (h0 : f ≠ 0) (hf : f = 1 ∨ 5e-6 ≤ |f - 1|) :
    ∃ b', scaleB b f f f = .ok b' ∧ Moved (fun p => ⟨f * p.x, f * p.y, f * p.z, p.w⟩) b b' ∧ SameTopology b b' := by
  rcases hf with rfl | hf
  · have hc : vclose (pt 1 1 1) (pt 1 1 1) := vclose_self ⟨rfl, rfl, rfl⟩
    unfold scaleB scalesolid
    rw [uniform_some]
    simp only
    rw [if_pos (show vclose (factorPoint 1 (some 1) (some 1)) (pt 1 1 1) from hc)]
    simp only
    rw [if_pos hc]
    exact ⟨b, rfl, moved_self _ b fun p => ⟨by simp, by simp, by simp⟩, topology_self b⟩
  · have hn : ¬ vclose (pt f f f) (pt 1 1 1) := by
      unfold vclose close mag sub pt eps
      simp only [not_lt, sub_zero]
      rw [abs_of_nonneg (Real.sqrt_nonneg _)]
      apply Real.le_sqrt_of_sq_le
      have h2 : (5e-6 : ℝ) ^ 2 ≤ |f - 1| ^ 2 := by gcongr
      rw [sq_abs] at h2
      nlinarith
    obtain ⟨m, hm, h1, h2⟩ := mesh_scaled b f f f hn ⟨h0, h0, h0⟩
    have hcl : close f f := by unfold close eps; norm_num
    unfold scaleB
    rw [hm]
    simp only
    rw [if_neg hn, if_pos ⟨hcl, hcl⟩]
    refine ⟨_, rfl, ⟨h1, ?_, ?_⟩, h2⟩ <;>
      exact imageOpt_map _ _ _ fun p => ⟨mul_comm _ _, mul_comm _ _, mul_comm _ _⟩

/-- **C331** fails for different factors: the mesh is scaled, the shape and the native representation stay as they were. -/
theorem C331_scale_stale (b : Body) (x y z : ℝ) (h0 : x ≠ 0 ∧ y ≠ 0 ∧ z ≠ 0) (hd : 5e-6 ≤ |x - y| ∨ 5e-6 ≤ |y - z|) (h1 : 5e-6 ≤ |x - 1|) :
    ∃ b', scaleB b x y z = .ok b' ∧ MeshMoved (fun p => ⟨x * p.x, y * p.y, z * p.z, 1⟩) b b' ∧ b'.brep = b.brep ∧ b'.native = b.native := by
  have hn : ¬ vclose (pt x y z) (pt 1 1 1) := by
    unfold vclose close mag sub pt eps
    simp only [not_lt, sub_zero]
    rw [abs_of_nonneg (Real.sqrt_nonneg _)]
    apply Real.le_sqrt_of_sq_le
    have h2 : (5e-6 : ℝ) ^ 2 ≤ |x - 1| ^ 2 := by gcongr
    rw [sq_abs] at h2
    nlinarith [sq_nonneg (y - 1), sq_nonneg (z - 1)]
  have hu : ¬ (close x y ∧ close y z) := by
    unfold close eps
    rintro ⟨a, c⟩
    rcases hd with h | h <;> norm_num at h a c <;> linarith
  obtain ⟨m, hm, k1, -⟩ := mesh_scaled b x y z hn h0
  unfold scaleB
  rw [hm]
  simp only
  rw [if_neg hn, if_neg hu]
  exact ⟨_, rfl, k1, rfl, rfl⟩

/-- a case for it: a point of the shape ends up elsewhere than the same point of the mesh -/
theorem C331_stale_example : ∃ b b' : Body, scaleB b 2 1 1 = .ok b' ∧ b.brep = some (b.mesh.surfs.flatMap Surface.verts) ∧
    b'.brep ≠ some (b'.mesh.surfs.flatMap Surface.verts) := by
  have e : ¬ Same3 (pt 1 0 0) ⟨2, 0, 0, 1⟩ := by unfold Same3 pt; norm_num
  let b : Body := ⟨⟨[⟨[pt 1 0 0], [], [], [], []⟩]⟩, some [pt 1 0 0], none⟩
  obtain ⟨b', h1, h2, h3, -⟩ := C331_scale_stale b 2 1 1 (by norm_num) (.inl (by norm_num)) (by norm_num)
  refine ⟨b, b', h1, rfl, ?_⟩
  rw [h3]
  intro h
  unfold MeshMoved Image at h2
  obtain ⟨s', l', hs, hl, e2⟩ : ∃ s' l', Image (fun p => ⟨2 * p.x, 1 * p.y, 1 * p.z, 1⟩) [pt 1 0 0] s'.verts ∧ l' = [] ∧ b'.mesh.surfs = s' :: l' := by
    generalize b'.mesh.surfs = q at h2
    cases h2 with
    | cons a t => cases t with | nil => exact ⟨_, _, a, rfl, rfl⟩
  rw [e2, hl] at h
  simp only [List.flatMap_cons, List.flatMap_nil, List.append_nil] at h
  have h' : [pt 1 0 0] = s'.verts := Option.some.inj h
  rw [← h'] at hs
  unfold Image at hs
  simp only [List.forall₂_cons, pt, Same3] at hs
  norm_num at hs

/-- a normal along an axis -/
def AxisParallel (n : V4) : Prop := (n.x ≠ 0 ∧ n.y = 0 ∧ n.z = 0) ∨ (n.x = 0 ∧ n.y ≠ 0 ∧ n.z = 0) ∨ (n.x = 0 ∧ n.y = 0 ∧ n.z ≠ 0)

theorem reflect_axis (n p : V4) (h : AxisParallel n) : Same3 (mul4 p (flip (planeOf n))) (reflect n p) := by
  rcases h with ⟨h1, h2, h3⟩ | ⟨h1, h2, h3⟩ | ⟨h1, h2, h3⟩
  · have e : planeOf n = .yz := by unfold planeOf; rw [if_pos (by rw [h2, h3]; simpa using h1)]
    rw [e]; unfold reflect mul4 Geom.flip Same3; simp only [h2, h3]; field_simp
    refine ⟨?_, ?_, ?_⟩ <;> ring
  · have e : planeOf n = .xz := by unfold planeOf; rw [if_neg (by rw [h1]; simp), if_pos (by rw [h1, h3]; simpa using h2)]
    rw [e]; unfold reflect mul4 Geom.flip Same3; simp only [h1, h3]; field_simp
    refine ⟨?_, ?_, ?_⟩ <;> ring
  · have e : planeOf n = .xy := by unfold planeOf; rw [if_neg (by rw [h1, h2]; simp), if_neg (by rw [h1, h2]; simp)]
    rw [e]; unfold reflect mul4 Geom.flip Same3; simp only [h1, h2]; field_simp
    refine ⟨?_, ?_, ?_⟩ <;> ring

theorem mirror_ok (b : Body) (n : V4) (h3 : ∀ s ∈ b.mesh.surfs, ∀ f ∈ s.faces, f.length = 3) :
    ∃ b', mirrorB b n = .ok b' ∧ Moved (fun p => mul4 p (flip (planeOf n))) b b' ∧ FlippedTopology b b' := by
  have hs : ∀ s : Surface, ∃ s', s ∈ b.mesh.surfs → mirrorsurface s (planeOf n) = .ok s' ∧ Flipped s.faces s'.faces ∧
      List.Forall₂ (Mirrored (planeOf n)) s.verts s'.verts := by
    intro s
    by_cases h : s ∈ b.mesh.surfs
    · obtain ⟨s', a, -, -, d, e, -⟩ := C172_mirror s (planeOf n) (h3 s h)
      exact ⟨s', fun _ => ⟨a, d, e⟩⟩
    · exact ⟨s, fun h' => absurd h' h⟩
  choose g hg using hs
  unfold mirrorB mirrorsolid
  rw [mapSurfs_map _ g _ fun s hs => (hg s hs).1]
  refine ⟨_, rfl, ⟨?_, imageOpt_map _ _ _ fun p => same_self _, imageOpt_map _ _ _ fun p => same_self _⟩, ?_⟩
  · refine forall₂_map_self _ fun s hs => ?_
    refine List.Forall₂.imp ?_ (hg s hs).2.2
    intro p q hm
    unfold Mirrored at hm
    unfold mul4 Geom.flip Same3
    cases e : planeOf n <;> rw [e] at hm <;> simpa using hm
  · exact forall₂_map_self _ fun s hs => (hg s hs).2.1

/-- **C331** (mirroring) with a normal along an axis, solids are reflected in the plane through the origin with this normal, all representations, and the triangles are turned round. -/
theorem C331_mirror_partial (b : Body) (n : V4) (hn : AxisParallel n) (h3 : ∀ s ∈ b.mesh.surfs, ∀ f ∈ s.faces, f.length = 3) :
    ∃ b', mirrorB b n = .ok b' ∧ Moved (reflect n) b b' ∧ FlippedTopology b b' := by
  obtain ⟨b', h1, ⟨h2, h4, h5⟩, h6⟩ := mirror_ok b n h3
  have tr : ∀ l l' : List V4, Image (fun p => mul4 p (flip (planeOf n))) l l' → Image (reflect n) l l' := by
    intro l l' h
    refine List.Forall₂.imp ?_ h
    rintro p q ⟨a, c, d⟩
    obtain ⟨a', c', d'⟩ := reflect_axis n p hn
    exact ⟨a.trans a', c.trans c', d.trans d'⟩
  have tro : ∀ l l' : Option (List V4), ImageOpt (fun p => mul4 p (flip (planeOf n))) l l' → ImageOpt (reflect n) l l' := by
    intro l l' h
    cases h with
    | none => exact .none
    | some h => exact .some (tr _ _ h)
  refine ⟨b', h1, ⟨?_, tro _ _ h4, tro _ _ h5⟩, h6⟩
  exact List.Forall₂.imp (fun s s' h => tr _ _ h) h2

/-- **C331** fails for every other normal that is not zero: the nearest coordinate plane is used instead. -/
theorem C331_mirror_oblique (n : V4) (h0 : ¬ (n.x = 0 ∧ n.y = 0 ∧ n.z = 0)) (hn : ¬ AxisParallel n) :
    ∃ b b' : Body, mirrorB b n = .ok b' ∧ ¬ MeshMoved (reflect n) b b' := by
  -- the normal itself is not mapped to its opposite
  let b : Body := ⟨⟨[⟨[n], [], [], [], []⟩]⟩, none, none⟩
  obtain ⟨b', h1, ⟨h2, -, -⟩, -⟩ := mirror_ok b n (by intro s hs f hf; simp only [b, List.mem_singleton] at hs; subst hs; exact absurd hf (by simp))
  refine ⟨b, b', h1, fun h => ?_⟩
  have hpos : n.x * n.x + n.y * n.y + n.z * n.z ≠ 0 := by
    intro e
    apply h0
    refine ⟨?_, ?_, ?_⟩ <;> nlinarith [mul_self_nonneg n.x, mul_self_nonneg n.y, mul_self_nonneg n.z]
  unfold MeshMoved at h h2
  generalize b'.mesh.surfs = q at h h2
  cases h with
  | cons a t =>
    cases h2 with
    | cons a' t' =>
      unfold Image at a a'
      simp only at a a'
      generalize (_ : Surface).verts = v at a a'
      cases a with
      | cons a u =>
        cases a' with
        | cons a' u' =>
          obtain ⟨x1, y1, z1⟩ := a
          obtain ⟨x2, y2, z2⟩ := a'
          rw [x1] at x2; rw [y1] at y2; rw [z1] at z2
          unfold reflect mul4 Geom.flip at x2 y2 z2
          simp only at x2 y2 z2
          rw [mul_div_assoc, div_self hpos] at x2 y2 z2
          apply hn
          unfold AxisParallel
          cases e : planeOf n <;> rw [e] at x2 y2 z2 <;> simp only at x2 y2 z2
          · have hx : n.x = 0 := by linarith
            have hz : n.z = 0 := by linarith
            exact .inr (.inl ⟨hx, fun hy => h0 ⟨hx, hy, hz⟩, hz⟩)
          · have hy : n.y = 0 := by linarith
            have hz : n.z = 0 := by linarith
            exact .inl ⟨fun hx => h0 ⟨hx, hy, hz⟩, hy, hz⟩
          · have hx : n.x = 0 := by linarith
            have hy : n.y = 0 := by linarith
            exact .inr (.inr ⟨hx, hy, fun hz => h0 ⟨hx, hy, hz⟩⟩)

/-- a case: mirroring in the diagonal plane with normal (1,1,0) turns (0,0,1) into (0,0,-1) -/
example : planeOf (pt 1 1 0) = .xy ∧ ¬ AxisParallel (pt 1 1 0) := by
  unfold planeOf AxisParallel pt; norm_num

/-! ## C330: mirrors of the plane -/

/-- **C330** `mirror_2d` of an axis that is long enough is the reflection of the plane in the line through the origin along the axis, height kept; of a shorter axis it is an error. -/
theorem C330_mirror (ax ay : ℝ) (h : 1e-10 ≤ √(ax * ax + ay * ay)) :
    ∃ f, mirror2dB ax ay = some f ∧
      (∀ t z w, Same3 (f ⟨t * ax, t * ay, z, w⟩) ⟨t * ax, t * ay, z, w⟩) ∧
      (∀ t z w, Same3 (f ⟨-(t * ay), t * ax, z, w⟩) ⟨t * ay, -(t * ax), z, w⟩) ∧
      (∀ p, f (f p) = p) ∧ ∀ p q, sqDist (f p) (f q) = sqDist p q := by
  have hp : 0 < √(ax * ax + ay * ay) := lt_of_lt_of_le (by norm_num) h
  have hs : √(ax * ax + ay * ay) * √(ax * ax + ay * ay) = ax * ax + ay * ay := Real.mul_self_sqrt (by nlinarith [mul_self_nonneg ax, mul_self_nonneg ay])
  unfold mirror2dB
  simp only
  rw [if_neg (not_lt.mpr h)]
  generalize √(ax * ax + ay * ay) = m at hp hs
  have hm : m ≠ 0 := hp.ne'
  have hu : (ax / m) * (ax / m) + (ay / m) * (ay / m) = 1 := by
    field_simp; nlinarith
  obtain ⟨ux, hux⟩ : ∃ ux, ux = ax / m := ⟨_, rfl⟩
  obtain ⟨uy, huy⟩ : ∃ uy, uy = ay / m := ⟨_, rfl⟩
  have ex : ax = m * ux := by rw [hux]; field_simp
  have ey : ay = m * uy := by rw [huy]; field_simp
  rw [← hux, ← huy] at hu ⊢
  rw [ex, ey]
  refine ⟨_, rfl, ?_, ?_, ?_, ?_⟩
  · intro t z w
    unfold Same3
    refine ⟨?_, ?_, rfl⟩
    · show (ux * ux - uy * uy) * (t * (m * ux)) + 2 * ux * uy * (t * (m * uy)) = t * (m * ux)
      linear_combination t * m * ux * hu
    · show 2 * ux * uy * (t * (m * ux)) + (uy * uy - ux * ux) * (t * (m * uy)) = t * (m * uy)
      linear_combination t * m * uy * hu
  · intro t z w
    unfold Same3
    refine ⟨?_, ?_, rfl⟩
    · show (ux * ux - uy * uy) * (-(t * (m * uy))) + 2 * ux * uy * (t * (m * ux)) = t * (m * uy)
      linear_combination t * m * uy * hu
    · show 2 * ux * uy * (-(t * (m * uy))) + (uy * uy - ux * ux) * (t * (m * ux)) = -(t * (m * ux))
      linear_combination (-(t * m * ux)) * hu
  · intro p
    have h2 : (ux * ux - uy * uy) ^ 2 + (2 * ux * uy) ^ 2 = 1 := by
      have : (ux * ux - uy * uy) ^ 2 + (2 * ux * uy) ^ 2 = (ux * ux + uy * uy) ^ 2 := by ring
      rw [this, hu]; norm_num
    ext
    · simp only; linear_combination p.x * h2
    · simp only; linear_combination p.y * h2
    · rfl
    · rfl
  · intro p q
    unfold sqDist
    simp only
    have h2 : (ux * ux - uy * uy) ^ 2 + (2 * ux * uy) ^ 2 = 1 := by
      have : (ux * ux - uy * uy) ^ 2 + (2 * ux * uy) ^ 2 = (ux * ux + uy * uy) ^ 2 := by ring
      rw [this, hu]; norm_num
    linear_combination ((p.x - q.x) ^ 2 + (p.y - q.y) ^ 2) * h2

/-- **C330** the error -/
theorem C330_error (ax ay : ℝ) (h : √(ax * ax + ay * ay) < 1e-10) : mirror2dB ax ay = none := by
  unfold mirror2dB; simp only; rw [if_pos h]

/-! ## C329: the centroid -/

/-- the vertices of all surfaces -/
def vertices (x : Solid) : List V4 := x.surfs.flatMap Surface.verts

theorem centroid_eq (x : Solid) (h : vertices x ≠ []) : centroidB x =
    pt (((vertices x).map V4.x).sum / (vertices x).length) (((vertices x).map V4.y).sum / (vertices x).length) (((vertices x).map V4.z).sum / (vertices x).length) := by
  unfold centroidB; simp only; exact if_neg h

theorem mean_sym (l : List V4) (g : V4 → ℝ) (c : ℝ) (s : V4 → V4) (hp : (l.map s).Perm l) (hg : ∀ p, g (s p) = 2 * c - g p) (h : l ≠ []) :
    (l.map g).sum / l.length = c := by
  have h1 : ((l.map s).map g).sum = (l.map g).sum := (hp.map g).sum_eq
  have h2 : ∀ m : List V4, ((m.map s).map g).sum = 2 * c * m.length - (m.map g).sum := by
    intro m
    induction m with
    | nil => simp
    | cons a m ih => simp only [List.map_cons, List.sum_cons, List.length_cons, ih, hg]; push_cast; ring
  have hl : (l.length : ℝ) ≠ 0 := by
    rw [Nat.cast_ne_zero]; exact fun e => h (List.length_eq_zero_iff.mp e)
  rw [h2] at h1
  rw [div_eq_iff hl]
  linarith

/-- **C329** (partial) the centroid of a solid whose vertices are symmetric about a point is that point. -/
theorem C329_symmetric_partial (x : Solid) (c : V4) (h : vertices x ≠ [])
    (hp : ((vertices x).map fun p => (⟨2 * c.x - p.x, 2 * c.y - p.y, 2 * c.z - p.z, p.w⟩ : V4)).Perm (vertices x)) : Same3 (centroidB x) c := by
  rw [centroid_eq x h]
  refine ⟨?_, ?_, ?_⟩
  · exact mean_sym _ V4.x c.x _ hp (fun p => rfl) h
  · exact mean_sym _ V4.y c.y _ hp (fun p => rfl) h
  · exact mean_sym _ V4.z c.z _ hp (fun p => rfl) h

/-- **C329** the centroid lies between the least and the greatest coordinates of the vertices. -/
theorem C329_inside (x : Solid) (lo hi : V4) (h : vertices x ≠ []) (hb : ∀ p ∈ vertices x, InBox lo hi p) : InBox lo hi (centroidB x) := by
  have hl : (0 : ℝ) < ((vertices x).length : ℝ) := by
    rw [Nat.cast_pos]; exact List.length_pos_of_ne_nil h
  have key : ∀ (l : List V4) (g : V4 → ℝ) (a b : ℝ), (∀ p ∈ l, a ≤ g p ∧ g p ≤ b) → a * l.length ≤ (l.map g).sum ∧ (l.map g).sum ≤ b * l.length := by
    intro l g a b
    induction l with
    | nil => intro _; simp
    | cons p l ih =>
      intro hp
      obtain ⟨i1, i2⟩ := ih fun q hq => hp q (List.mem_cons_of_mem _ hq)
      obtain ⟨j1, j2⟩ := hp p List.mem_cons_self
      simp only [List.map_cons, List.sum_cons, List.length_cons]
      push_cast
      constructor <;> linarith
  rw [centroid_eq x h]
  have hx := key (vertices x) V4.x lo.x hi.x fun p hp => ⟨(hb p hp).1, (hb p hp).2.1⟩
  have hy := key (vertices x) V4.y lo.y hi.y fun p hp => ⟨(hb p hp).2.2.1, (hb p hp).2.2.2.1⟩
  have hz := key (vertices x) V4.z lo.z hi.z fun p hp => ⟨(hb p hp).2.2.2.2.1, (hb p hp).2.2.2.2.2⟩
  unfold InBox pt
  simp only
  refine ⟨?_, ?_, ?_, ?_, ?_, ?_⟩ <;> first | (rw [le_div_iff₀ hl]; tauto) | (rw [div_le_iff₀ hl]; tauto)

/-- **C329** fails in general: the centroid is that of the vertices, not of the body. Splitting an edge, which leaves the body as it is, adds a vertex; the centroid stays only if the vertex is the centroid itself. -/
theorem C329_subdivided (s : Surface) (l : List Surface) (v : V4) (h : vertices ⟨s :: l⟩ ≠ []) :
    Same3 (centroidB ⟨{ s with verts := v :: s.verts } :: l⟩) (centroidB ⟨s :: l⟩) ↔ Same3 v (centroidB ⟨s :: l⟩) := by
  have e : vertices ⟨{ s with verts := v :: s.verts } :: l⟩ = v :: vertices ⟨s :: l⟩ := by
    unfold vertices; simp
  rw [centroid_eq _ (by rw [e]; simp), centroid_eq _ h, e]
  have hl : (0 : ℝ) < ((vertices ⟨s :: l⟩).length : ℝ) := by
    rw [Nat.cast_pos]; exact List.length_pos_of_ne_nil h
  generalize vertices ⟨s :: l⟩ = vs at hl
  have key : ∀ a t n : ℝ, 0 < n → ((a + t) / (n + 1) = t / n ↔ a = t / n) := by
    intro a t n hn
    rw [div_eq_div_iff (by linarith) hn.ne', eq_div_iff hn.ne']
    constructor <;> intro h <;> linarith
  unfold Same3 pt
  simp only [List.map_cons, List.sum_cons, List.length_cons]
  push_cast
  rw [key _ _ _ hl, key _ _ _ hl, key _ _ _ hl]

/-! ## C332: boolean operations of many solids -/

/-- the operation on two solids is right where it succeeds: `sem` gives the points of a solid -/
def Sound {S P : Type} (sem : S → Set P) (comb : Set P → Set P → Set P) (op : S → S → BRes S) : Prop :=
  ∀ a b c, op a b = .ok c → sem c = comb (sem a) (sem b)

theorem foldOps_ok {S : Type} (op : S → S → BRes S) {r t q : S} (ts : List S) (h : op r t = .ok q) : foldOps op r (t :: ts) = foldOps op q ts := by
  rw [foldOps, h]

theorem foldOps_error {S : Type} (op : S → S → BRes S) {r t : S} {x : String} (ts : List S) (h : op r t = .error x) : foldOps op r (t :: ts) = .error x := by
  rw [foldOps, h]

theorem fold_sem {S P : Type} (sem : S → Set P) (comb : Set P → Set P → Set P) (op : S → S → BRes S) (h : Sound sem comb op) :
    ∀ (l : List S) (r c : S), foldOps op r l = .ok c → sem c = (l.map sem).foldl comb (sem r)
  | [], r, c, e => by
    injection e with e
    rw [← e]; rfl
  | t :: l, r, c, e => by
    unfold foldOps at e
    cases hq : op r t with
    | error x => rw [hq] at e; cases e
    | ok q =>
      rw [hq] at e
      have := fold_sem sem comb op h l q c e
      rw [this, h r t q hq]
      rfl

theorem fold_union {P : Type} (p : P) : ∀ (l : List (Set P)) (a : Set P), p ∈ l.foldl (· ∪ ·) a ↔ p ∈ a ∨ ∃ s ∈ l, p ∈ s
  | [], a => by simp
  | s :: l, a => by rw [List.foldl_cons, fold_union p l]; simp only [Set.mem_union, List.mem_cons, exists_eq_or_imp]; tauto

theorem fold_inter {P : Type} (p : P) : ∀ (l : List (Set P)) (a : Set P), p ∈ l.foldl (· ∩ ·) a ↔ p ∈ a ∧ ∀ s ∈ l, p ∈ s
  | [], a => by simp
  | s :: l, a => by rw [List.foldl_cons, fold_inter p l]; simp only [Set.mem_inter_iff, List.mem_cons, forall_eq_or_imp]; tauto

theorem fold_diff {P : Type} (p : P) : ∀ (l : List (Set P)) (a : Set P), p ∈ l.foldl (· \ ·) a ↔ p ∈ a ∧ ∀ s ∈ l, p ∉ s
  | [], a => by simp
  | s :: l, a => by rw [List.foldl_cons, fold_diff p l]; simp only [Set.mem_sdiff, List.mem_cons, forall_eq_or_imp]; tauto

theorem operands_ones {S : Type} (l : List S) : operands (l.map Arg.one) = some l := by
  cases l with
  | nil => rfl
  | cons a l =>
    unfold operands
    simp only [List.map_cons]
    have : ∀ m : List S, (m.map Arg.one).mapM (fun x : Arg S => match x with | .one s => some s | .list _ => none) = some m := by
      intro m
      induction m with
      | nil => rfl
      | cons b m ih => simp only [List.map_cons, List.mapM_cons, ih]; rfl
    exact this (a :: l)

/-- **C332** (union) of one or more solids: the points of any of them. -/
theorem C332_union {S P : Type} (sem : S → Set P) (op : S → S → BRes S) (h : Sound sem (· ∪ ·) op) (l : List S) (c : S) (e : nary op (l.map .one) = .ok c) (p : P) :
    p ∈ sem c ↔ ∃ s ∈ l, p ∈ sem s := by
  unfold nary at e
  rw [operands_ones] at e
  cases l with
  | nil => cases e
  | cons s l =>
    rw [fold_sem sem _ op h l s c e, fold_union]
    simp

/-- **C332** (intersection) the points of all of them. -/
theorem C332_intersection {S P : Type} (sem : S → Set P) (op : S → S → BRes S) (h : Sound sem (· ∩ ·) op) (l : List S) (c : S) (e : nary op (l.map .one) = .ok c) (p : P) :
    p ∈ sem c ↔ ∀ s ∈ l, p ∈ sem s := by
  unfold nary at e
  rw [operands_ones] at e
  cases l with
  | nil => cases e
  | cons s l =>
    rw [fold_sem sem _ op h l s c e, fold_inter]
    simp

/-- **C332** (difference) the points of the first solid in none of the others; without others, the solid. -/
theorem C332_difference {S P : Type} (sem : S → Set P) (op : S → S → BRes S) (h : Sound sem (· \ ·) op) (a : S) (l : List S) (c : S)
    (e : differenceB op a (l.map .one) = .ok c) (p : P) : p ∈ sem c ↔ p ∈ sem a ∧ ∀ s ∈ l, p ∉ sem s := by
  unfold differenceB at e
  rw [operands_ones] at e
  rw [fold_sem sem _ op h l a c e, fold_diff]
  simp

/-- **C332** (lists) a list of solids stands for its elements; without solids, union and intersection are errors. -/
theorem C332_lists {S : Type} (op : S → S → BRes S) (a : S) (l : List S) :
    nary op [.list l] = nary op (l.map .one) ∧ differenceB op a [.list l] = differenceB op a (l.map .one) ∧
    nary op [] = .error "ValueError" ∧ nary op [.list []] = .error "ValueError" ∧ nary op [.one a] = .ok a ∧ differenceB op a [] = .ok a := by
  refine ⟨?_, ?_, rfl, rfl, rfl, rfl⟩
  · unfold nary; rw [operands_ones]; rfl
  · unfold differenceB; rw [operands_ones]; rfl

/-- **C332** (errors) the outcome is an error exactly if an operation on two solids on the way fails, and then its error: the first solids combine to `r`, and `r` and the next one fail. -/
theorem C332_errors {S : Type} (op : S → S → BRes S) (s : S) (l : List S) (x : String) : nary op ((s :: l).map .one) = .error x ↔
    ∃ l₁ t l₂ r, l = l₁ ++ t :: l₂ ∧ nary op ((s :: l₁).map .one) = .ok r ∧ op r t = .error x := by
  have key : ∀ (l : List S) (s : S), foldOps op s l = .error x ↔ ∃ l₁ t l₂ r, l = l₁ ++ t :: l₂ ∧ foldOps op s l₁ = .ok r ∧ op r t = .error x := by
    intro l
    induction l with
    | nil =>
      intro s
      constructor
      · intro h; cases h
      · rintro ⟨l₁, t, l₂, r, e, -⟩
        simp at e
    | cons a l ih =>
      intro s
      cases hq : op s a with
      | error y =>
        rw [foldOps_error op l hq]
        constructor
        · intro h
          injection h with h
          exact ⟨[], a, l, s, rfl, rfl, by rw [hq, h]⟩
        · rintro ⟨l₁, t, l₂, r, e, h1, h2⟩
          cases l₁ with
          | nil =>
            simp only [List.nil_append, List.cons.injEq] at e
            injection h1 with h1
            rw [← e.1, ← h1, hq] at h2
            exact h2
          | cons b l₁ =>
            simp only [List.cons_append, List.cons.injEq] at e
            rw [← e.1, foldOps_error op l₁ hq] at h1
            cases h1
      | ok q =>
        rw [foldOps_ok op l hq, ih q]
        constructor
        · rintro ⟨l₁, t, l₂, r, e, h1, h2⟩
          exact ⟨a :: l₁, t, l₂, r, by rw [e]; rfl, by rw [foldOps_ok op l₁ hq]; exact h1, h2⟩
        · rintro ⟨l₁, t, l₂, r, e, h1, h2⟩
          cases l₁ with
          | nil =>
            simp only [List.nil_append, List.cons.injEq] at e
            injection h1 with h1
            rw [← e.1, ← h1, hq] at h2
            cases h2
          | cons b l₁ =>
            simp only [List.cons_append, List.cons.injEq] at e
            rw [← e.1, foldOps_ok op l₁ hq] at h1
            exact ⟨l₁, t, l₂, r, e.2, h1, h2⟩
  have en : ∀ m : List S, nary op ((s :: m).map .one) = foldOps op s m := by
    intro m
    unfold nary
    rw [operands_ones]
  rw [en, key]
  simp only [en]

/-- a case: unions of sets -/
example : ∃ c, nary (S := Set ℕ) (fun a b => .ok (a ∪ b)) ([{1}, {2}, {3}].map .one) = .ok c ∧ 3 ∈ c := ⟨_, rfl, by simp⟩

/-! ## C333: applying a transform -/

/-- **C333** (partial) the mesh is moved by the matrix, triangles kept. -/
theorem C333_mesh_partial (M : Xform.Mat ℝ) (b : Body) : MeshMoved (mulP M) b (applyB M b) ∧ SameTopology b (applyB M b) :=
  ⟨forall₂_map_self _ fun s _ => image_map _ _ _ fun p _ => same_self _, forall₂_map_self _ fun s _ => ⟨rfl, rfl, rfl⟩⟩

theorem brepTurn_z (a : ℝ) (p : V4) : Same3 (brepTurn (pt 0 0 1) a p) (turnZ a p) := by
  unfold brepTurn
  rw [rotMap_origin _ _ _ _ ⟨rfl, rfl, rfl⟩]
  exact turnZ_eq a p

/-- **C333** fails for the native representation: it is turned by a thousandth of a degree about z, whatever the transform. -/
theorem C333_native (M : Xform.Mat ℝ) (b : Body) : ImageOpt (turnZ 0.001) b.native (applyB M b).native :=
  imageOpt_map _ _ _ fun p => brepTurn_z _ p

theorem brepMat_respects (M : Xform.Mat ℝ) : Respects (brepMat M) := fun p q ⟨h1, h2, h3⟩ => by
  unfold brepMat; simp only [h1, h2, h3]; exact same_self _

/-- columns of equal length: the matrix scales alike in all directions -/
def EqualColumns (M : Xform.Mat ℝ) : Prop := colLen M 0 = colLen M 1 ∧ colLen M 1 = colLen M 2

theorem applyMatrix_equal (M : Xform.Mat ℝ) (h : EqualColumns M) (b : Option (List V4)) : applyMatrix M b = mapBrep (brepMat M) b := by
  obtain ⟨h1, h2⟩ := h
  unfold applyMatrix
  rw [if_neg]
  rw [h1, h2]
  norm_num

/-- **C333** fails for the shape: it is turned by a thousandth of a degree about z before the matrix is applied. -/
theorem C333_shape (M : Xform.Mat ℝ) (h : EqualColumns M) (b : Body) :
    ImageOpt (fun p => brepMat M (turnZ 0.001 p)) b.brep (applyB M b).brep := by
  unfold applyB
  simp only
  rw [applyMatrix_equal M h]
  exact imageOpt_trans (brepMat_respects M) (imageOpt_map (turnZ 0.001) _ b.brep fun p => brepTurn_z _ p) (imageOpt_map _ _ _ fun p => same_self _)

theorem ident_columns : EqualColumns (Xform.Mat.ident : Xform.Mat ℝ) := by
  unfold EqualColumns colLen Xform.Mat.ident
  simp

theorem brepMat_ident (p : V4) : brepMat Xform.Mat.ident p = p := by
  unfold brepMat Xform.Mat.ident
  ext <;> simp

theorem turnZ_add (a c : ℝ) (p : V4) : turnZ a (turnZ c p) = turnZ (a + c) p := by
  unfold turnZ
  have e : (a + c) * π / 180 = a * π / 180 + c * π / 180 := by ring
  rw [e, cos_add, sin_add]
  ext <;> simp only <;> ring

/-- **C333** the drift adds up: applying the identity `n` times leaves the mesh and turns the shape by `n` thousandths of a degree. -/
theorem C333_drift (b : Body) (n : ℕ) :
    MeshMoved id b ((applyB Xform.Mat.ident)^[n] b) ∧ ImageOpt (turnZ (0.001 * n)) b.brep ((applyB Xform.Mat.ident)^[n] b).brep := by
  induction n with
  | zero =>
    refine ⟨?_, ?_⟩
    · show List.Forall₂ _ _ _
      rw [Function.iterate_zero, id, List.forall₂_same]
      exact fun s _ => image_self _ _ fun p => same_self p
    · rw [Function.iterate_zero, id]
      exact imageOpt_self _ _ fun p => by unfold turnZ Same3; simp
  | succ n ih =>
    rw [Function.iterate_succ_apply']
    obtain ⟨h1, h2⟩ := ih
    have hid : ∀ p : V4, mulP (Xform.Mat.ident : Xform.Mat ℝ) p = p := by
      intro p
      unfold mulP
      have : (Xform.Mat.ident : Xform.Mat ℝ).mulVec (toVec p) = toVec p := by
        funext i
        rw [Xform.mulVec_get]
        fin_cases i <;> simp [Xform.dot4, Xform.getrow_eq, Xform.Mat.ident, Xform.Mat.get, toVec]
      rw [this]; rfl
    constructor
    · have hm := (C333_mesh_partial Xform.Mat.ident ((applyB Xform.Mat.ident)^[n] b)).1
      have := meshes_trans (f := id) (g := mulP (Xform.Mat.ident : Xform.Mat ℝ)) (fun p q h => by rw [hid, hid]; exact h) h1 hm
      have e : mulP (Xform.Mat.ident : Xform.Mat ℝ) ∘ id = id := by funext p; exact hid p
      rw [e] at this
      exact this
    · have h3 := C333_shape Xform.Mat.ident ident_columns ((applyB Xform.Mat.ident)^[n] b)
      have hr : Respects (fun p => brepMat Xform.Mat.ident (turnZ 0.001 p)) := fun p q h => brepMat_respects _ _ _ (turnZ_respects _ _ _ h)
      have := imageOpt_trans hr h2 h3
      have e : (fun p => brepMat Xform.Mat.ident (turnZ 0.001 p)) ∘ turnZ (0.001 * n) = turnZ (0.001 * ((n + 1 : ℕ) : ℝ)) := by
        funext p
        show brepMat Xform.Mat.ident (turnZ 0.001 (turnZ (0.001 * n) p)) = _
        rw [brepMat_ident, turnZ_add]
        congr 1
        push_cast; ring
      rw [e] at this
      exact this

/-- **C333** fails for normals: they are multiplied by the matrix like vertices, so different factors along the axes leave them no longer perpendicular to the triangles. -/
theorem C333_normals : ∃ (M : Xform.Mat ℝ) (a c n : V4), n.w = 0 ∧ dot (sub c a) n = 0 ∧ ∀ s : Surface, s.verts = [a, c] → s.norms = [n] →
    ∀ b : Body, b.mesh.surfs = [s] → ∃ s' a' c' n', (applyB M b).mesh.surfs = [s'] ∧ s'.verts = [a', c'] ∧ s'.norms = [n'] ∧ dot (sub c' a') n' ≠ 0 := by
  obtain ⟨M, -, h, -⟩ := scaleMat_coord 2 1 1 (pt 0 0 0)
  have hm := h (vclose_self ⟨rfl, rfl, rfl⟩)
  refine ⟨M, pt 0 0 0, pt 1 (-1) 0, ⟨1, 1, 0, 0⟩, rfl, by unfold dot sub pt; norm_num, ?_⟩
  intro s hv hn b hb
  refine ⟨_, _, _, _, by unfold applyB; simp only [hb, List.map_cons, List.map_nil]; rfl, by simp only [hv, List.map_cons, List.map_nil]; rfl,
    by simp only [hn, List.map_cons, List.map_nil]; rfl, ?_⟩
  rw [hm, hm, hm]
  unfold dot sub pt
  norm_num

end Verif.Builtin
