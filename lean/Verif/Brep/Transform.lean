import Verif.Brep.Serial

/-!
# Transformed topology graphs: `transform_topology_graph` and the functions that use it
-/

namespace Verif.Brep

open Verif.Ana (V Surf Range mag over eps planeSurface sphereSurface cylinderSurface coneSurface torusSurface bsplineSurface dot sub comb turn cross refDirection)
open Real

/-- `_transform_vector`, native_brep.py:2432-2449 -/
noncomputable def moveVec (T : V ℝ → V ℝ) (v : V ℝ) : V ℝ :=
  let r := sub (T v) (T ⟨0, 0, 0⟩)
  open Classical in if mag r > eps then over r (mag r) else r

/-- `_transform_surface_inplace`, native_brep.py:2500-2545 -/
noncomputable def moveSurf (T : V ℝ → V ℝ) : Surf → Surf
  | .plane o n ua va u v => .plane (T o) (moveVec T n) (moveVec T ua) (moveVec T va) u v
  | .sphere c r u v => .sphere (T c) r u v
  | .cylinder o a ref r u v => .cylinder (T o) (moveVec T a) ref r u v
  | .cone o a ref h u v => .cone (T o) (moveVec T a) ref h u v
  | .torus c a ref R r u v => .torus (T c) (moveVec T a) ref R r u v
  | .bspline pts w uk vk p q u v => .bspline (pts.map fun row => row.map T) w uk vk p q u v
  | .mesh vs ns fs u v => .mesh (vs.map T) (ns.map (moveVec T)) fs u v

/-- the edges in `transform_topology_graph`, native_brep.py:2475-2487 -/
noncomputable def moveCurve (T : V ℝ → V ℝ) : Curve → Curve
  | .line => .line
  | .arc b c o => .arc b (c.map T) o
  | .circle c a r t0 t1 => .circle (T c) (moveVec T a) r t0 t1
  | .bspline pts k d w t0 t1 => .bspline (pts.map T) k d w t0 t1
  | .ellipse c a b r s e => .ellipse (c.map T) a b r s e
  | .nurbs pts k d w => .nurbs (pts.map T) k d w

variable {K : Type}

/-- `transform_topology_graph`, native_brep.py:2452-2497 (the marks of the octrees, which are caches, are left out) -/
noncomputable def transform (T : V ℝ → V ℝ) (g : BGraph K) : BGraph K :=
  { g with
    vertices := fun k => (g.vertices k).map fun v => { v with loc := T v.loc }
    edges := fun k => (g.edges k).map fun e => { e with curve := moveCurve T e.curve }
    faces := fun k => (g.faces k).map fun f => { f with surface := moveSurf T f.surface } }

/-- `translate_point`, native_brep.py:2566-2567 -/
def shift (d p : V ℝ) : V ℝ := ⟨p.x + d.x, p.y + d.y, p.z + d.z⟩

/-- `scale_point`, native_brep.py:2644-2650 -/
def dilate (f : ℝ) (c p : V ℝ) : V ℝ := ⟨c.x + (p.x - c.x) * f, c.y + (p.y - c.y) * f, c.z + (p.z - c.z) * f⟩

/-- the radii in `scale_native_brep`, native_brep.py:2655-2664 -/
def growSurf (f : ℝ) : Surf → Surf
  | .sphere c r u v => .sphere c (r * f) u v
  | .cylinder o a ref r u v => .cylinder o a ref (r * f) u v
  | .torus c a ref R r u v => .torus c a ref (R * f) (r * f) u v
  | s => s

/-- `scale_native_brep`, native_brep.py:2623-2666, on a surface -/
noncomputable def scaleSurf (f : ℝ) (c : V ℝ) (s : Surf) : Surf := growSurf f (moveSurf (dilate f c) s)

/-- `scale_native_brep`, native_brep.py:2623-2666 -/
noncomputable def scaleGraph (f : ℝ) (c : V ℝ) (g : BGraph K) : BGraph K :=
  let h := transform (dilate f c) g
  { h with faces := fun k => (h.faces k).map fun x => { x with surface := growSurf f x.surface } }

/-! ## Specification -/

/-- an isometry: the axes go to perpendicular unit vectors a, b, c (rotations and mirrorings, with a translation) -/
def Spec.Isometry (T : V ℝ → V ℝ) : Prop :=
  ∃ t a b c : V ℝ, (∀ p, T p = ⟨t.x + p.x * a.x + p.y * b.x + p.z * c.x, t.y + p.x * a.y + p.y * b.y + p.z * c.y, t.z + p.x * a.z + p.y * b.z + p.z * c.z⟩) ∧
    dot a a = 1 ∧ dot b b = 1 ∧ dot c c = 1 ∧ dot a b = 0 ∧ dot a c = 0 ∧ dot b c = 0

/-! ## the topology -/

/-- **C250.** Whatever the function of points, transforming a graph changes locations, curves and surfaces only: the shells have the same closure, and vertices, edges and faces are incident as before. -/
theorem C250_topology [DecidableEq K] (T : V ℝ → V ℝ) (g : BGraph K) : (∀ s, closure (transform T g) s = closure g s) ∧
    (∀ k, (vertexEdges (transform T g) k).map (·.1) = (vertexEdges g k).map (·.1)) ∧ (∀ k, (edgeFaces (transform T g) k).map (·.1) = (edgeFaces g k).map (·.1)) ∧
    (transform T g).trims = g.trims ∧ (transform T g).loops = g.loops ∧ (transform T g).shells = g.shells ∧ (transform T g).solids = g.solids ∧
    (∀ k, ((transform T g).vertices k).map (·.loc) = ((g.vertices k).map (·.loc)).map T) ∧
    (∀ k, ((transform T g).edges k).map (fun e => (e.start, e.stop, e.sense)) = (g.edges k).map fun e => (e.start, e.stop, e.sense)) ∧
    ∀ k, ((transform T g).faces k).map (fun f => (f.loops, f.sense, f.shell)) = (g.faces k).map fun f => (f.loops, f.sense, f.shell) := by
  have eE : ∀ k, (transform T g).edges k = (g.edges k).map fun e => { e with curve := moveCurve T e.curve } := fun _ => rfl
  have eV : ∀ k, (transform T g).vertices k = (g.vertices k).map fun v => { v with loc := T v.loc } := fun _ => rfl
  have eF : ∀ k, (transform T g).faces k = (g.faces k).map fun f => { f with surface := moveSurf T f.surface } := fun _ => rfl
  refine ⟨fun s => ?_, fun k => ?_, fun k => ?_, rfl, rfl, rfl, rfl, fun k => ?_, fun k => ?_, fun k => ?_⟩
  · have h0 : shellUses (transform T g) s = shellUses g s := by
      unfold shellUses
      congr 1
      funext f
      rw [eF]
      rcases g.faces f with _ | F <;> rfl
    have h1 : edgeUsage (transform T g) s = edgeUsage g s := by unfold edgeUsage; rw [h0]
    have h2 : shellVertices (transform T g) s = shellVertices g s := by
      unfold shellVertices
      rw [h1]
      congr 2
      funext ef
      rw [eE]
      rcases g.edges ef.1 with _ | e <;> rfl
    unfold closure
    rw [h1, h2]
  · unfold vertexEdges
    rw [eV]
    rcases g.vertices k with _ | v
    · rfl
    · dsimp only [Option.map]
      induction v.edges with
      | nil => rfl
      | cons e l ih =>
        rw [List.filterMap_cons, List.filterMap_cons, eE]
        rcases g.edges e with _ | x
        · exact ih
        · simp only [Option.map_some, List.map_cons]; rw [ih]
  · unfold edgeFaces
    rw [eE]
    rcases g.edges k with _ | v
    · rfl
    · dsimp only [Option.map]
      induction v.faces with
      | nil => rfl
      | cons e l ih =>
        rw [List.filterMap_cons, List.filterMap_cons, eF]
        rcases g.faces e with _ | x
        · exact ih
        · simp only [Option.map_some, List.map_cons]; rw [ih]
  · rw [eV, Option.map_map, Option.map_map]; rfl
  · rw [eE, Option.map_map]; rfl
  · rw [eF, Option.map_map]; rfl

/-! ## vectors -/

theorem mag_one {v : V ℝ} (h : dot v v = 1) : mag v = 1 := by rw [Verif.Ana.mag_eq, h, sqrt_one]

theorem dot_one {v : V ℝ} (h : mag v = 1) : dot v v = 1 := by rw [← Verif.Ana.mag_sq, h, one_pow]

/-- the linear part -/
def lin (a b c v : V ℝ) : V ℝ := ⟨v.x * a.x + v.y * b.x + v.z * c.x, v.x * a.y + v.y * b.y + v.z * c.y, v.x * a.z + v.y * b.z + v.z * c.z⟩

/-- an isometry with its parts -/
structure Iso (T : V ℝ → V ℝ) (t a b c : V ℝ) : Prop where
  map : ∀ p, T p = ⟨t.x + p.x * a.x + p.y * b.x + p.z * c.x, t.y + p.x * a.y + p.y * b.y + p.z * c.y, t.z + p.x * a.z + p.y * b.z + p.z * c.z⟩
  aa : dot a a = 1
  bb : dot b b = 1
  cc : dot c c = 1
  ab : dot a b = 0
  ac : dot a c = 0
  bc : dot b c = 0

theorem iso_of {T : V ℝ → V ℝ} (h : Spec.Isometry T) : ∃ t a b c, Iso T t a b c := by
  obtain ⟨t, a, b, c, h0, h1, h2, h3, h4, h5, h6⟩ := h
  exact ⟨t, a, b, c, h0, h1, h2, h3, h4, h5, h6⟩

section iso
variable {T : V ℝ → V ℝ} {t a b c : V ℝ} (I : Iso T t a b c)
include I

theorem Iso.sub (p q : V ℝ) : sub (T p) (T q) = lin a b c (sub p q) := by
  rw [I.map, I.map]
  unfold Verif.Ana.sub lin
  ext <;> dsimp only <;> ring

theorem Iso.dot (v w : V ℝ) : dot (lin a b c v) (lin a b c w) = dot v w := by
  have h1 := I.aa
  have h2 := I.bb
  have h3 := I.cc
  have h4 := I.ab
  have h5 := I.ac
  have h6 := I.bc
  unfold Verif.Ana.dot at h1 h2 h3 h4 h5 h6 ⊢
  unfold lin
  dsimp only
  linear_combination (v.x * w.x) * h1 + (v.y * w.y) * h2 + (v.z * w.z) * h3 + (v.x * w.y + v.y * w.x) * h4 + (v.x * w.z + v.z * w.x) * h5 + (v.y * w.z + v.z * w.y) * h6

theorem Iso.mag (v : V ℝ) : mag (lin a b c v) = mag v := by rw [Verif.Ana.mag_eq, Verif.Ana.mag_eq, I.dot]

theorem Iso.vec {v : V ℝ} (h : Verif.Ana.mag v = 1) : moveVec T v = lin a b c v := by
  unfold moveVec
  dsimp only
  have e : Verif.Ana.sub v ⟨0, 0, 0⟩ = v := by unfold Verif.Ana.sub; ext <;> dsimp only <;> ring
  rw [I.sub, e, I.mag, h, if_pos eps_lt_one, over_one]

end iso

/-! ## made surfaces -/

theorem made_plane {o n ua va : V ℝ} {u v : Range} (h : Spec.Made (.plane o n ua va u v)) : planeSurface o n u v = .ok (.plane o n ua va u v) ∧ mag n = 1 ∧ mag ua = 1 ∧ mag va = 1 := by
  cases h with
  | plane h =>
    rename_i o' n' u' v'
    have h0 := h
    unfold planeSurface at h
    by_cases hm : mag n' < eps
    · rw [if_pos hm] at h; cases h
    rw [if_neg hm] at h
    cases h
    have f := Verif.Ana.frame_of hm
    refine ⟨?_, mag_one f.aa, mag_one f.rr, mag_one f.c⟩
    unfold planeSurface
    rw [mag_one f.aa, if_neg (by have := eps_lt_one; linarith), over_one]
  | sphere h => unfold sphereSurface at h; split at h <;> cases h
  | cylinder h => unfold cylinderSurface at h; split at h; cases h; split at h <;> cases h
  | cone h => unfold coneSurface at h; split at h; cases h; split at h <;> cases h
  | torus h => unfold torusSurface at h; split at h; cases h; split at h; cases h; split at h <;> cases h
  | bspline h => unfold bsplineSurface at h; dsimp only at h; split at h; cases h; split at h; cases h; split at h; cases h; split at h; cases h; split at h <;> cases h

theorem read_plane {o n ua va : V ℝ} {u v : Range} {s : Surf} (h : readSurf (.plane o n ua va u v) = .ok s) : planeSurface o n u v = .ok s := by
  unfold readSurf at h
  dsimp only at h
  rcases e : planeSurface o n u v with x | y
  · rw [e] at h; cases h
  · rw [e] at h; cases h; rfl

theorem made_sphere {o : V ℝ} {r : ℝ} {u v : Range} (h : Spec.Made (.sphere o r u v)) : sphereSurface o r u v = .ok (.sphere o r u v) ∧ 0 < r := by
  have h := readSurf_made h
  unfold readSurf sphereSurface at h
  dsimp only at h
  unfold sphereSurface
  by_cases hr : r ≤ 0
  · rw [if_pos hr] at h; cases h
  · rw [if_neg hr]; exact ⟨rfl, not_le.mp hr⟩

theorem made_cylinder {o a ref : V ℝ} {r : ℝ} {u v : Range} (h : Spec.Made (.cylinder o a ref r u v)) : cylinderSurface o a r u v = .ok (.cylinder o a ref r u v) ∧ mag a = 1 ∧ 0 < r := by
  have h := readSurf_made h
  unfold readSurf at h
  dsimp only at h
  rcases e : cylinderSurface o a r u v with x | y
  · rw [e] at h; cases h
  · rw [e] at h
    cases h
    refine ⟨rfl, ?_⟩
    unfold cylinderSurface at e
    by_cases hm : mag a < eps
    · rw [if_pos hm] at e; cases e
    rw [if_neg hm] at e
    by_cases hr : r ≤ 0
    · rw [if_pos hr] at e; cases e
    rw [if_neg hr] at e
    have e1 : over a (mag a) = a := by
      have := Except.ok.inj e
      injection this
    exact ⟨by have := unit_of_over hm; rwa [e1] at this, not_le.mp hr⟩

theorem made_cone {o a ref : V ℝ} {hf : ℝ} {u v : Range} (h : Spec.Made (.cone o a ref hf u v)) : coneSurface o a hf u v = .ok (.cone o a ref hf u v) ∧ mag a = 1 ∧ ¬ (hf ≤ 0 ∨ hf ≥ π / 2) := by
  have h := readSurf_made h
  unfold readSurf at h
  dsimp only at h
  rcases e : coneSurface o a hf u v with x | y
  · rw [e] at h; cases h
  · rw [e] at h
    cases h
    refine ⟨rfl, ?_⟩
    unfold coneSurface at e
    by_cases hm : mag a < eps
    · rw [if_pos hm] at e; cases e
    rw [if_neg hm] at e
    by_cases hr : hf ≤ 0 ∨ hf ≥ π / 2
    · rw [if_pos hr] at e; cases e
    rw [if_neg hr] at e
    have e1 : over a (mag a) = a := by
      have := Except.ok.inj e
      injection this
    exact ⟨by have := unit_of_over hm; rwa [e1] at this, hr⟩

theorem made_torus {o a ref : V ℝ} {R r : ℝ} {u v : Range} (h : Spec.Made (.torus o a ref R r u v)) : torusSurface o a R r u v = .ok (.torus o a ref R r u v) ∧ mag a = 1 ∧ 0 < R ∧ 0 < r ∧ r < R := by
  have h := readSurf_made h
  unfold readSurf at h
  dsimp only at h
  rcases e : torusSurface o a R r u v with x | y
  · rw [e] at h; cases h
  · rw [e] at h
    cases h
    refine ⟨rfl, ?_⟩
    unfold torusSurface at e
    by_cases hm : mag a < eps
    · rw [if_pos hm] at e; cases e
    rw [if_neg hm] at e
    by_cases hr : R ≤ 0 ∨ r ≤ 0
    · rw [if_pos hr] at e; cases e
    rw [if_neg hr] at e
    by_cases hq : r ≥ R
    · rw [if_pos hq] at e; cases e
    rw [if_neg hq] at e
    have e1 : over a (mag a) = a := by
      have := Except.ok.inj e
      injection this
    push Not at hr
    exact ⟨by have := unit_of_over hm; rwa [e1] at this, hr.1, hr.2, not_le.mp hq⟩

/-! ## translations -/

theorem shift_iso (d : V ℝ) : Iso (shift d) d ⟨1, 0, 0⟩ ⟨0, 1, 0⟩ ⟨0, 0, 1⟩ := by
  refine ⟨fun p => ?_, ?_, ?_, ?_, ?_, ?_, ?_⟩
  · unfold shift; ext <;> dsimp only <;> ring
  all_goals unfold Verif.Ana.dot; norm_num

theorem shift_vec (d : V ℝ) {v : V ℝ} (h : mag v = 1) : moveVec (shift d) v = v := by
  rw [(shift_iso d).vec h]
  unfold lin
  ext <;> dsimp only <;> ring

/-- **C251 (translations).** The translated plane, sphere, cylinder, cone or torus has, for all parameters, the translated point. -/
theorem C251_translate (d : V ℝ) {s : Surf} (h : Spec.Made s) (hb : ∀ pts w uk vk p q u v, s ≠ .bspline pts w uk vk p q u v) (hm : ∀ vs ns fs u v, s ≠ .mesh vs ns fs u v) (u v : ℝ) :
    ∃ p, s.eval u v = .ok p ∧ (moveSurf (shift d) s).eval u v = .ok (shift d p) := by
  rcases s with ⟨o, n, ua, va, ur, vr⟩ | ⟨o, r, ur, vr⟩ | ⟨o, a, ref, r, ur, vr⟩ | ⟨o, a, ref, hf, ur, vr⟩ | ⟨o, a, ref, R, r, ur, vr⟩ | _ | _
  · obtain ⟨_, h1, h2, h3⟩ := made_plane h
    refine ⟨_, rfl, ?_⟩
    unfold moveSurf
    dsimp only
    rw [shift_vec d h2, shift_vec d h3]
    show Except.ok _ = Except.ok _
    unfold comb shift
    congr 1; ext <;> dsimp only <;> ring
  · refine ⟨_, rfl, ?_⟩
    show Except.ok _ = Except.ok _
    unfold shift
    congr 1; ext <;> dsimp only <;> ring
  · obtain ⟨_, h1, h2⟩ := made_cylinder h
    refine ⟨_, rfl, ?_⟩
    unfold moveSurf
    dsimp only
    rw [shift_vec d h1]
    show Except.ok _ = Except.ok _
    unfold comb shift
    congr 1; ext <;> dsimp only <;> ring
  · obtain ⟨_, h1, h2⟩ := made_cone h
    refine ⟨_, rfl, ?_⟩
    unfold moveSurf
    dsimp only
    rw [shift_vec d h1]
    show Except.ok _ = Except.ok _
    unfold shift
    congr 1; ext <;> dsimp only <;> ring
  · obtain ⟨_, h1, h2⟩ := made_torus h
    refine ⟨_, rfl, ?_⟩
    unfold moveSurf
    dsimp only
    rw [shift_vec d h1]
    show Except.ok _ = Except.ok _
    unfold comb shift
    congr 1; ext <;> dsimp only <;> ring
  · exact absurd rfl (hb _ _ _ _ _ _ _ _)
  · exact absurd rfl (hm _ _ _ _ _)

/-! ## rotations and mirrorings -/

/-- **C252 (planes).** An isometry takes a plane surface to one that has, for all parameters, the moved point. -/
theorem C252_plane {T : V ℝ → V ℝ} (hT : Spec.Isometry T) {o n ua va : V ℝ} {ur vr : Range} (h : Spec.Made (.plane o n ua va ur vr)) (u v : ℝ) :
    ∃ p, (Surf.plane o n ua va ur vr).eval u v = .ok p ∧ (moveSurf T (.plane o n ua va ur vr)).eval u v = .ok (T p) := by
  obtain ⟨t, a, b, c, I⟩ := iso_of hT
  obtain ⟨_, h1, h2, h3⟩ := made_plane h
  refine ⟨_, rfl, ?_⟩
  unfold moveSurf
  dsimp only
  rw [I.vec h2, I.vec h3]
  show Except.ok _ = Except.ok _
  rw [I.map, I.map]
  unfold comb lin
  congr 1; ext <;> dsimp only <;> ring

/-- **C252 (spheres).** An isometry takes the sphere to the moved sphere (all points for the full ranges). -/
theorem C252_sphere {T : V ℝ → V ℝ} (hT : Spec.Isometry T) {o : V ℝ} {r : ℝ} {ur vr : Range} (h : Spec.Made (.sphere o r ur vr)) :
    ∃ s', readSurf (moveSurf T (.sphere o r ur vr)) = .ok s' ∧ ∀ p, s'.Has (Set.Icc 0 (2 * π)) (Set.Icc (-(π / 2)) (π / 2)) (T p) ↔
      (Surf.sphere o r ur vr).Has (Set.Icc 0 (2 * π)) (Set.Icc (-(π / 2)) (π / 2)) p := by
  obtain ⟨t, a, b, c, I⟩ := iso_of hT
  obtain ⟨h0, hr⟩ := made_sphere h
  have h1 : sphereSurface (T o) r ur vr = .ok (.sphere (T o) r ur vr) := by unfold sphereSurface; rw [if_neg (not_le.mpr hr)]
  refine ⟨.sphere (T o) r ur vr, ?_, fun p => ?_⟩
  · unfold moveSurf readSurf; dsimp only; rw [h1]; rfl
  · rw [Verif.Ana.C241_sphere h1, Verif.Ana.C241_sphere h0, I.sub, I.dot]

/-- **C252 (cylinders).** After an isometry and reading back, the full cylinder between any two heights is the moved one. -/
theorem C252_cylinder_partial {T : V ℝ → V ℝ} (hT : Spec.Isometry T) {o x ref : V ℝ} {r : ℝ} {ur vr : Range} (h : Spec.Made (.cylinder o x ref r ur vr)) :
    ∃ s', readSurf (moveSurf T (.cylinder o x ref r ur vr)) = .ok s' ∧ ∀ lo hi p, s'.Has (Set.Icc 0 (2 * π)) (Set.Icc lo hi) (T p) ↔
      (Surf.cylinder o x ref r ur vr).Has (Set.Icc 0 (2 * π)) (Set.Icc lo hi) p := by
  obtain ⟨t, a, b, c, I⟩ := iso_of hT
  obtain ⟨h0, hx, hr⟩ := made_cylinder h
  have hy : mag (lin a b c x) = 1 := by rw [I.mag, hx]
  obtain ⟨s', h1⟩ : ∃ s', cylinderSurface (T o) (lin a b c x) r ur vr = .ok s' := by
    unfold cylinderSurface
    rw [hy, if_neg (by have := eps_lt_one; linarith), if_neg (not_le.mpr hr)]
    exact ⟨_, rfl⟩
  refine ⟨s', ?_, fun lo hi p => ?_⟩
  · unfold moveSurf readSurf; dsimp only; rw [I.vec hx, h1]; rfl
  · rw [Verif.Ana.C241_cylinder h1, Verif.Ana.C241_cylinder h0, I.sub, I.dot, I.dot, hx, hy]

/-- **C252 (cones).** After an isometry and reading back, the full cone up to any length is the moved one. -/
theorem C252_cone_partial {T : V ℝ → V ℝ} (hT : Spec.Isometry T) {o x ref : V ℝ} {hf : ℝ} {ur vr : Range} (h : Spec.Made (.cone o x ref hf ur vr)) :
    ∃ s', readSurf (moveSurf T (.cone o x ref hf ur vr)) = .ok s' ∧ ∀ L p, s'.Has (Set.Icc 0 (2 * π)) (Set.Icc 0 L) (T p) ↔
      (Surf.cone o x ref hf ur vr).Has (Set.Icc 0 (2 * π)) (Set.Icc 0 L) p := by
  obtain ⟨t, a, b, c, I⟩ := iso_of hT
  obtain ⟨h0, hx, hr⟩ := made_cone h
  have hy : mag (lin a b c x) = 1 := by rw [I.mag, hx]
  obtain ⟨s', h1⟩ : ∃ s', coneSurface (T o) (lin a b c x) hf ur vr = .ok s' := by
    unfold coneSurface
    rw [hy, if_neg (by have := eps_lt_one; linarith), if_neg hr]
    exact ⟨_, rfl⟩
  refine ⟨s', ?_, fun L p => ?_⟩
  · unfold moveSurf readSurf; dsimp only; rw [I.vec hx, h1]; rfl
  · rw [Verif.Ana.C241_cone h1, Verif.Ana.C241_cone h0, I.sub, I.dot, I.mag, hx, hy]

/-- **C252 (tori).** After an isometry and reading back, the full torus is the moved one. -/
theorem C252_torus_partial {T : V ℝ → V ℝ} (hT : Spec.Isometry T) {o x ref : V ℝ} {R r : ℝ} {ur vr : Range} (h : Spec.Made (.torus o x ref R r ur vr)) :
    ∃ s', readSurf (moveSurf T (.torus o x ref R r ur vr)) = .ok s' ∧ ∀ p, s'.Has (Set.Icc 0 (2 * π)) (Set.Icc 0 (2 * π)) (T p) ↔
      (Surf.torus o x ref R r ur vr).Has (Set.Icc 0 (2 * π)) (Set.Icc 0 (2 * π)) p := by
  obtain ⟨t, a, b, c, I⟩ := iso_of hT
  obtain ⟨h0, hx, hR, hr, hq⟩ := made_torus h
  have hy : mag (lin a b c x) = 1 := by rw [I.mag, hx]
  obtain ⟨s', h1⟩ : ∃ s', torusSurface (T o) (lin a b c x) R r ur vr = .ok s' := by
    unfold torusSurface
    rw [hy, if_neg (by have := eps_lt_one; linarith), if_neg (by push Not; exact ⟨hR, hr⟩), if_neg (not_le.mpr hq)]
    exact ⟨_, rfl⟩
  refine ⟨s', ?_, fun p => ?_⟩
  · unfold moveSurf readSurf; dsimp only; rw [I.vec hx, h1]; rfl
  · rw [Verif.Ana.C241_torus h1, Verif.Ana.C241_torus h0, I.sub, I.dot, I.dot, hx, hy]

/-- **C252 (patches).** A part of a cylinder, say a quarter of the turn, that is rotated about its own axis — or transformed by anything that fixes the points of the axis — is not moved at all, also not after
reading back. -/
theorem C252_patch {T : V ℝ → V ℝ} {o x ref : V ℝ} {r : ℝ} {ur vr : Range} (h : Spec.Made (.cylinder o x ref r ur vr)) (h0 : T o = o) (hx : sub (T x) (T ⟨0, 0, 0⟩) = x) :
    moveSurf T (.cylinder o x ref r ur vr) = .cylinder o x ref r ur vr ∧ readSurf (moveSurf T (.cylinder o x ref r ur vr)) = .ok (.cylinder o x ref r ur vr) := by
  have e : moveSurf T (.cylinder o x ref r ur vr) = .cylinder o x ref r ur vr := by
    unfold moveSurf moveVec
    dsimp only
    rw [h0, hx, (made_cylinder h).2.1, if_pos eps_lt_one, over_one]
  exact ⟨e, by rw [e]; exact readSurf_made h⟩

/-- **C252 (before reading back).** Until the graph is written and read again, a cylinder along z that is turned so that its axis goes to the direction from which its angles are counted is a line. -/
theorem C252_line {T : V ℝ → V ℝ} {o x ref : V ℝ} {r : ℝ} {ur vr : Range} (h : Spec.Made (.cylinder o x ref r ur vr)) (hx : sub (T x) (T ⟨0, 0, 0⟩) = ref) (u v : ℝ) :
    (moveSurf T (.cylinder o x ref r ur vr)).eval u v = .ok (comb (T o) (v + r * cos u) ref 0 ref) := by
  have hf : Verif.Ana.Frame x ref := by
    cases h with
    | cylinder h =>
      rename_i o' d' r' u' v'
      unfold cylinderSurface at h
      by_cases hm : mag d' < eps
      · rw [if_pos hm] at h; cases h
      rw [if_neg hm] at h
      split at h
      · cases h
      · cases h
        exact Verif.Ana.frame_of hm
    | plane h => unfold planeSurface at h; split at h <;> cases h
    | sphere h => unfold sphereSurface at h; split at h <;> cases h
    | cone h => unfold coneSurface at h; split at h; cases h; split at h <;> cases h
    | torus h => unfold torusSurface at h; split at h; cases h; split at h; cases h; split at h <;> cases h
    | bspline h => unfold bsplineSurface at h; dsimp only at h; split at h; cases h; split at h; cases h; split at h; cases h; split at h; cases h; split at h <;> cases h
  have e : moveVec T x = ref := by
    unfold moveVec
    dsimp only
    rw [hx, mag_one hf.rr, if_pos eps_lt_one, over_one]
  unfold moveSurf
  dsimp only
  rw [e]
  show Except.ok _ = Except.ok _
  unfold comb turn cross
  congr 1; ext <;> dsimp only <;> ring

/-! ## scaling -/

theorem dilate_vec {f : ℝ} (hf : 0 < f) (c : V ℝ) (hb : eps < f) {v : V ℝ} (h : mag v = 1) : moveVec (dilate f c) v = v := by
  have e : sub (dilate f c v) (dilate f c ⟨0, 0, 0⟩) = ⟨v.x * f, v.y * f, v.z * f⟩ := by
    unfold dilate sub; ext <;> dsimp only <;> ring
  have m : mag ⟨v.x * f, v.y * f, v.z * f⟩ = f := by
    have h1 := dot_one h
    rw [Verif.Ana.mag_eq]
    have : dot ⟨v.x * f, v.y * f, v.z * f⟩ ⟨v.x * f, v.y * f, v.z * f⟩ = f ^ 2 := by
      unfold dot at h1 ⊢; dsimp only; linear_combination f ^ 2 * h1
    rw [this, sqrt_sq hf.le]
  unfold moveVec
  dsimp only
  rw [e, m, if_pos hb]
  unfold over
  ext <;> dsimp only <;> field_simp

/-- **C253 (spheres and tori).** Scaling by a factor above 5e-6 scales spheres and tori: for all parameters the point is the scaled one. -/
theorem C253_round {f : ℝ} (hb : eps < f) (c : V ℝ) {s : Surf} (h : Spec.Made s) (hs : (∃ o r u v, s = .sphere o r u v) ∨ ∃ o a ref R r u v, s = .torus o a ref R r u v) (u v : ℝ) :
    ∃ p, s.eval u v = .ok p ∧ (scaleSurf f c s).eval u v = .ok (dilate f c p) := by
  have hf : 0 < f := lt_trans Verif.Ana.eps_pos hb
  rcases hs with ⟨o, r, ur, vr, rfl⟩ | ⟨o, a, ref, R, r, ur, vr, rfl⟩
  · refine ⟨_, rfl, ?_⟩
    unfold scaleSurf moveSurf growSurf
    dsimp only
    show Except.ok _ = Except.ok _
    unfold dilate
    congr 1; ext <;> dsimp only <;> ring
  · obtain ⟨_, h1, _⟩ := made_torus h
    refine ⟨_, rfl, ?_⟩
    unfold scaleSurf moveSurf growSurf
    dsimp only
    rw [dilate_vec hf c hb h1]
    show Except.ok _ = Except.ok _
    unfold dilate comb
    congr 1; ext <;> dsimp only <;> ring

/-- **C253 (cylinders and cones).** For cylinders and cones the scaled point has the parameters u and f v; the range of v is not scaled. -/
theorem C253_cylinder_partial {f : ℝ} (hb : eps < f) (c : V ℝ) {s : Surf} (h : Spec.Made s) (hs : (∃ o a ref r u v, s = .cylinder o a ref r u v) ∨ ∃ o a ref hf u v, s = .cone o a ref hf u v) (u v : ℝ) :
    (∃ p, s.eval u v = .ok p ∧ (scaleSurf f c s).eval u (f * v) = .ok (dilate f c p)) ∧ (scaleSurf f c s).ranges = s.ranges := by
  have hf : 0 < f := lt_trans Verif.Ana.eps_pos hb
  rcases hs with ⟨o, a, ref, r, ur, vr, rfl⟩ | ⟨o, a, ref, hf', ur, vr, rfl⟩
  · obtain ⟨_, h1, _⟩ := made_cylinder h
    refine ⟨⟨_, rfl, ?_⟩, rfl⟩
    unfold scaleSurf moveSurf growSurf
    dsimp only
    rw [dilate_vec hf c hb h1]
    show Except.ok _ = Except.ok _
    unfold dilate comb
    congr 1; ext <;> dsimp only <;> ring
  · obtain ⟨_, h1, _⟩ := made_cone h
    refine ⟨⟨_, rfl, ?_⟩, rfl⟩
    unfold scaleSurf moveSurf growSurf
    dsimp only
    rw [dilate_vec hf c hb h1]
    show Except.ok _ = Except.ok _
    unfold dilate
    congr 1; ext <;> dsimp only <;> ring

/-- **C253 (planes).** The patch of a plane surface keeps its size: only its origin is scaled. -/
theorem C253_plane {f : ℝ} (hb : eps < f) (c : V ℝ) {o n ua va : V ℝ} {ur vr : Range} (h : Spec.Made (.plane o n ua va ur vr)) :
    scaleSurf f c (.plane o n ua va ur vr) = .plane (dilate f c o) n ua va ur vr := by
  have hf : 0 < f := lt_trans Verif.Ana.eps_pos hb
  obtain ⟨_, h1, h2, h3⟩ := made_plane h
  unfold scaleSurf moveSurf growSurf
  dsimp only
  rw [dilate_vec hf c hb h1, dilate_vec hf c hb h2, dilate_vec hf c hb h3]

/-- **C253 (circles).** The radius of a circular edge is not scaled. -/
theorem C253_circle [DecidableEq K] (f : ℝ) (c : V ℝ) (g : BGraph K) (k : K) (e : Edge K Curve) {o a : V ℝ} {r t0 t1 : ℝ} (h : g.edges k = some e) (hc : e.curve = .circle o a r t0 t1) :
    ∃ e', (scaleGraph f c g).edges k = some e' ∧ ∃ a', e'.curve = .circle (dilate f c o) a' r t0 t1 := by
  refine ⟨{ e with curve := moveCurve (dilate f c) e.curve }, ?_, moveVec (dilate f c) a, by rw [hc]; rfl⟩
  show (g.edges k).map _ = _
  rw [h]; rfl

/-- **C253 (negative factors).** A sphere scaled by a factor that is not positive (a point reflection) is written with a radius that is not positive; the solid's graph cannot be read any more. -/
theorem C253_negative {f : ℝ} (hf : f ≤ 0) (c : V ℝ) {o : V ℝ} {r : ℝ} {ur vr : Range} (h : Spec.Made (.sphere o r ur vr)) : readSurf (scaleSurf f c (.sphere o r ur vr)) = .error .valueError := by
  obtain ⟨_, hr⟩ := made_sphere h
  unfold scaleSurf moveSurf growSurf readSurf sphereSurface
  dsimp only
  rw [if_pos (mul_nonpos_of_nonneg_of_nonpos hr.le hf)]
  rfl

/-! ## the hypotheses can be met -/

/-- a quarter turn about z -/
def quarter (p : V ℝ) : V ℝ := ⟨-p.y, p.x, p.z⟩

theorem quarter_iso : Spec.Isometry quarter := by
  refine ⟨⟨0, 0, 0⟩, ⟨0, 1, 0⟩, ⟨-1, 0, 0⟩, ⟨0, 0, 1⟩, fun p => ?_, ?_, ?_, ?_, ?_, ?_, ?_⟩
  · unfold quarter; ext <;> dsimp only <;> ring
  all_goals unfold Verif.Ana.dot; norm_num

example : ∃ ref, Spec.Made (.cylinder ⟨0, 0, 0⟩ ⟨0, 0, 1⟩ ref 1 (0, 1) (0, 1)) ∧ quarter ⟨0, 0, 0⟩ = ⟨0, 0, 0⟩ ∧ sub (quarter ⟨0, 0, 1⟩) (quarter ⟨0, 0, 0⟩) = ⟨0, 0, 1⟩ := by
  have m : mag ⟨0, 0, 1⟩ = 1 := by unfold mag; norm_num
  refine ⟨refDirection ⟨0, 0, 1⟩, .cylinder (o := ⟨0, 0, 0⟩) (d := ⟨0, 0, 1⟩) (r := 1) (u := (0, 1)) (v := (0, 1)) ?_, ?_, ?_⟩
  · unfold cylinderSurface
    rw [m, if_neg (by have := eps_lt_one; linarith), if_neg (by norm_num), over_one]
  · unfold quarter; ext <;> norm_num
  · unfold quarter sub; ext <;> norm_num

end Verif.Brep
