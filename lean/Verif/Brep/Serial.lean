import Verif.Brep.Incidence
import Verif.Ana.Points

/-!
# Topology graphs written and read: `serialize_topology_graph` and `deserialize_topology_graph`

Points and curves are concrete here, surfaces are those of `Verif.Ana`. The written form is a record with the entries that are written; identities are the keys, as in the model of the graph.
-/

namespace Verif.Brep

open Verif.Ana (V Surf Range mag over eps planeSurface sphereSurface cylinderSurface coneSurface torusSurface bsplineSurface dot)

/-- Type and parameters of an edge, native_brep.py:143-167. Parameters that the constructors do not set and nothing reads are left out. -/
inductive Curve
  | line
  | arc (bulge : Option ℝ) (center : Option (V ℝ)) (orientation : Option ℤ)
  | circle (center axis : V ℝ) (radius tStart tEnd : ℝ)
  | bspline (points : List (V ℝ)) (knots : List ℝ) (degree : ℕ) (weights : List ℝ) (tStart tEnd : ℝ)
  | ellipse (center : Option (V ℝ)) (semiMajor semiMinor rotation startAngle endAngle : Option ℝ)
  | nurbs (points : List (V ℝ)) (knots : List ℝ) (degree : ℕ) (weights : Option (List ℝ))

/-- `_normalize_vector`, native_brep.py:466-473 -/
noncomputable def normVec (v : V ℝ) : V ℝ := open Classical in if mag v < 1e-12 then ⟨0, 0, 1⟩ else over v (mag v)

/-- `arc_edge`, native_brep.py:365-387 -/
def arcCurve (bulge : Option ℝ) (center : Option (V ℝ)) (orientation : ℤ) : Except Err Curve :=
  match bulge, center with
  | some b, _ => .ok (.arc (some b) none none)
  | none, some c => .ok (.arc none (some c) (some orientation))
  | none, none => .error .valueError

/-- `circle_edge`, native_brep.py:389-419 -/
noncomputable def circleCurve (center axis : V ℝ) (radius tStart : ℝ) (tEnd : Option ℝ) : Curve := .circle center (normVec axis) radius tStart (tEnd.getD (2 * Real.pi))

/-- `bspline_edge`, native_brep.py:421-464 -/
noncomputable def bsplineCurve (points : List (V ℝ)) (knots : List ℝ) (degree : ℕ) (weights : Option (List ℝ)) (tStart tEnd : Option ℝ) : Except Err Curve :=
  if knots.length ≠ points.length + degree + 1 then .error .valueError
  else .ok (.bspline points knots degree (weights.getD (List.replicate points.length 1)) (tStart.getD (knots.getD degree 0)) (tEnd.getD (knots.getD points.length 0)))

/-- `_serialize_edge` and `_deserialize_edge`, native_brep.py:1824-1919, on the curve: what is written is the parameters as they are; they are read by calling the constructor of the type -/
noncomputable def readCurve : Curve → Except Err Curve
  | .line => .ok .line
  | .arc (some b) _ _ => arcCurve (some b) none 1
  | .arc none c o => arcCurve none c (o.getD 1)
  | .circle c a r t0 t1 => .ok (circleCurve c a r t0 (some t1))
  | .bspline pts k d w t0 t1 => bsplineCurve pts k d (some w) (some t0) (some t1)
  | .ellipse c a b r s e => .ok (.ellipse c a b r s e)
  | .nurbs pts k d w => .ok (.nurbs pts k d w)

/-- exceptions of the constructors of surfaces -/
def lift {X : Type} : Except Verif.Ana.Err X → Except Err X
  | .ok x => .ok x
  | .error _ => .error .valueError

/-- `_serialize_surface` and `_deserialize_surface`, native_brep.py:1980-2144: the surface is made anew by its constructor from the point, the normal or axis, the numbers and the ranges -/
noncomputable def readSurf : Surf → Except Err Surf
  | .plane o n _ _ u v => lift (planeSurface o n u v)
  | .sphere c r u v => lift (sphereSurface c r u v)
  | .cylinder o a _ r u v => lift (cylinderSurface o a r u v)
  | .cone o a _ h u v => lift (coneSurface o a h u v)
  | .torus c a _ R r u v => lift (torusSurface c a R r u v)
  | .bspline pts w uk vk p q u v => lift (bsplineSurface pts uk vk p q (some w) (some u) (some v))
  | .mesh vs ns fs u v => .ok (.mesh vs ns fs u v)

/-! ## the written graph -/

/-- `_serialize_vertex`, native_brep.py:1801-1812 -/
structure SVertex where
  loc : V ℝ
  tol : ℚ

/-- `_serialize_edge`, native_brep.py:1824-1856 -/
structure SEdge (K : Type) where
  curve : Curve
  start : K
  stop : K

/-- `_serialize_face`, native_brep.py:2147-2161 -/
structure SFace (K : Type) where
  surface : Surf
  loops : List K
  sense : Bool
  shell : Option K

/-- `_serialize_shell`, native_brep.py:2177-2190 -/
structure SShell (K : Type) where
  faces : List K
  closed : Option Bool
  solid : Option K

/-- `serialize_topology_graph`, native_brep.py:2228-2251; trims (1921-1936), loops (1953-1966) and solids (2205-2216) are written with all their entries -/
structure SGraph (K : Type) where
  vertices : K → Option SVertex
  edges : K → Option (SEdge K)
  trims : K → Option (Trim K)
  loops : K → Option (Loop K)
  faces : K → Option (SFace K)
  shells : K → Option (SShell K)
  solids : K → Option (Solid K)

/-- the graphs that are written -/
abbrev BGraph (K : Type) := Graph K (V ℝ) Curve Surf

variable {K : Type}

/-- `serialize_topology_graph`, native_brep.py:2228-2251 -/
def serialize (g : BGraph K) : SGraph K :=
  { vertices := fun k => (g.vertices k).map fun v => ⟨v.loc, v.tol⟩
    edges := fun k => (g.edges k).map fun e => ⟨e.curve, e.start, e.stop⟩
    trims := g.trims
    loops := g.loops
    faces := fun k => (g.faces k).map fun f => ⟨f.surface, f.loops, f.sense, f.shell⟩
    shells := fun k => (g.shells k).map fun s => ⟨s.faces, s.closed, s.solid⟩
    solids := g.solids }

/-- `epsilon`, geom.py:1604: the default tolerance -/
def epsilon : ℚ := 5 / 1000000

/-- `_deserialize_edge`, native_brep.py:1858-1919; neither sense nor tolerance are passed to the constructors -/
noncomputable def readEdge (e : SEdge K) : Except Err (Edge K Curve) :=
  match readCurve e.curve with
  | .error x => .error x
  | .ok c => .ok ⟨c, e.start, e.stop, true, epsilon, []⟩

/-- `_deserialize_face`, native_brep.py:2163-2175 -/
noncomputable def readFace (f : SFace K) : Except Err (Face K Surf) :=
  match readSurf f.surface with
  | .error x => .error x
  | .ok s => .ok ⟨s, f.loops, f.sense, f.shell⟩

/-- a dictionary is read entry by entry; the first exception ends the reading -/
noncomputable def readAll {X Y : Type} (f : X → Except Err Y) (d : K → Option X) : Except Err (K → Option Y) :=
  open Classical in
  if ∃ k x e, d k = some x ∧ f x = .error e then .error .valueError
  else .ok fun k => (d k).bind fun x => match f x with | .ok y => some y | .error _ => none

/-- `deserialize_topology_graph`, native_brep.py:2253-2314 -/
noncomputable def deserialize (d : SGraph K) : Except Err (BGraph K) :=
  match readAll readEdge d.edges with
  | .error x => .error x
  | .ok es => match readAll readFace d.faces with
    | .error x => .error x
    | .ok fs => .ok
      { vertices := fun k => (d.vertices k).map fun v => ⟨v.loc, v.tol, []⟩
        edges := es
        trims := d.trims
        loops := d.loops
        faces := fs
        shells := fun k => (d.shells k).map fun s => ⟨s.faces, true, s.closed, s.solid⟩
        solids := d.solids }

/-! ## Specification -/

/-- the curve comes from a constructor -/
inductive Spec.Drawn : Curve → Prop
  | line : Spec.Drawn .line
  | arc {b c o x} : arcCurve b c o = .ok x → Spec.Drawn x
  | circle (c a r t0 t1) : Spec.Drawn (circleCurve c a r t0 t1)
  | bspline {pts k d w t0 t1 x} : bsplineCurve pts k d w t0 t1 = .ok x → Spec.Drawn x
  | ellipse (c a b r s e) : Spec.Drawn (.ellipse c a b r s e)
  | nurbs (pts k d w) : Spec.Drawn (.nurbs pts k d w)

/-- the surface comes from a constructor -/
inductive Spec.Made : Surf → Prop
  | plane {o n u v s} : planeSurface o n u v = .ok s → Spec.Made s
  | sphere {c r u v s} : sphereSurface c r u v = .ok s → Spec.Made s
  | cylinder {o d r u v s} : cylinderSurface o d r u v = .ok s → Spec.Made s
  | cone {o d h u v s} : coneSurface o d h u v = .ok s → Spec.Made s
  | torus {c d R r u v s} : torusSurface c d R r u v = .ok s → Spec.Made s
  | bspline {pts uk vk p q w u v s} : bsplineSurface pts uk vk p q w u v = .ok s → Spec.Made s
  | mesh (vs ns fs u v) : Spec.Made (.mesh vs ns fs u v)

/-- what is left of a graph: everything but the lists of edges at vertices and of faces at edges, which are empty, the senses and tolerances of edges and the types of shells, which have their defaults -/
def Spec.kept (g : BGraph K) : BGraph K :=
  { g with
    vertices := fun k => (g.vertices k).map fun v => { v with edges := [] }
    edges := fun k => (g.edges k).map fun e => { e with sense := true, tol := epsilon, faces := [] }
    shells := fun k => (g.shells k).map fun s => { s with outer := true } }

/-! ## proofs -/

theorem unit_of_over {d : V ℝ} (h : ¬ mag d < eps) : mag (over d (mag d)) = 1 := by
  have hp : 0 < mag d := lt_of_lt_of_le Verif.Ana.eps_pos (not_lt.mp h)
  rw [Verif.Ana.mag_eq, Verif.Ana.dot_over hp, Real.sqrt_one]

theorem over_one (d : V ℝ) : over d 1 = d := by unfold over; simp

theorem eps_lt_one : eps < 1 := by unfold eps; norm_num

theorem readSurf_made {s : Surf} (h : Spec.Made s) : readSurf s = .ok s := by
  have u1 : ∀ {d : V ℝ}, ¬ mag d < eps → ¬ (1 : ℝ) < eps := fun _ => by have := eps_lt_one; linarith
  cases h with
  | plane h =>
    rename_i o n u v
    unfold planeSurface at h
    by_cases hm : mag n < eps
    · rw [if_pos hm] at h; cases h
    rw [if_neg hm] at h
    cases h
    unfold readSurf planeSurface
    dsimp only
    rw [unit_of_over hm, if_neg (u1 hm), over_one]
    rfl
  | sphere h =>
    rename_i c r u v
    unfold sphereSurface at h
    by_cases hr : r ≤ 0
    · rw [if_pos hr] at h; cases h
    rw [if_neg hr] at h
    cases h
    unfold readSurf sphereSurface
    dsimp only
    rw [if_neg hr]; rfl
  | cylinder h =>
    rename_i o d r u v
    unfold cylinderSurface at h
    by_cases hm : mag d < eps
    · rw [if_pos hm] at h; cases h
    rw [if_neg hm] at h
    by_cases hr : r ≤ 0
    · rw [if_pos hr] at h; cases h
    rw [if_neg hr] at h
    cases h
    unfold readSurf cylinderSurface
    dsimp only
    rw [unit_of_over hm, if_neg (u1 hm), if_neg hr, over_one]
    rfl
  | cone h =>
    rename_i o d hf u v
    unfold coneSurface at h
    by_cases hm : mag d < eps
    · rw [if_pos hm] at h; cases h
    rw [if_neg hm] at h
    by_cases hr : hf ≤ 0 ∨ hf ≥ Real.pi / 2
    · rw [if_pos hr] at h; cases h
    rw [if_neg hr] at h
    cases h
    unfold readSurf coneSurface
    dsimp only
    rw [unit_of_over hm, if_neg (u1 hm), if_neg hr, over_one]
    rfl
  | torus h =>
    rename_i c d R r u v
    unfold torusSurface at h
    by_cases hm : mag d < eps
    · rw [if_pos hm] at h; cases h
    rw [if_neg hm] at h
    by_cases hr : R ≤ 0 ∨ r ≤ 0
    · rw [if_pos hr] at h; cases h
    rw [if_neg hr] at h
    by_cases hq : r ≥ R
    · rw [if_pos hq] at h; cases h
    rw [if_neg hq] at h
    cases h
    unfold readSurf torusSurface
    dsimp only
    rw [unit_of_over hm, if_neg (u1 hm), if_neg hr, if_neg hq, over_one]
    rfl
  | bspline h =>
    rename_i pts uk vk p q w u v
    unfold bsplineSurface at h
    dsimp only at h
    by_cases h1 : pts.length < 2
    · rw [if_pos h1] at h; cases h
    rw [if_neg h1] at h
    by_cases h2 : (pts.headD []).length < 2
    · rw [if_pos h2] at h; cases h
    rw [if_neg h2] at h
    by_cases h3 : (pts.any fun r => r.length ≠ (pts.headD []).length) = true
    · rw [if_pos h3] at h; cases h
    rw [if_neg h3] at h
    by_cases h4 : uk.length ≠ (pts.headD []).length + p + 1
    · rw [if_pos h4] at h; cases h
    rw [if_neg h4] at h
    by_cases h5 : vk.length ≠ pts.length + q + 1
    · rw [if_pos h5] at h; cases h
    rw [if_neg h5] at h
    cases h
    unfold readSurf bsplineSurface
    dsimp only
    rw [if_neg h1, if_neg h2, if_neg h3, if_neg h4, if_neg h5]
    rfl
  | mesh => rfl

theorem normVec_unit {v : V ℝ} (h : mag v = 1) : normVec v = v := by
  unfold normVec
  rw [h, if_neg (by norm_num), over_one]

theorem mag_normVec (v : V ℝ) : mag (normVec v) = 1 := by
  unfold normVec
  by_cases h : mag v < 1e-12
  · rw [if_pos h]; unfold mag; norm_num
  · rw [if_neg h, Verif.Ana.mag_eq, Verif.Ana.dot_over (by have := not_lt.mp h; linarith [show (0 : ℝ) < 1e-12 by norm_num]), Real.sqrt_one]

theorem readCurve_drawn {c : Curve} (h : Spec.Drawn c) : readCurve c = .ok c := by
  cases h with
  | line => rfl
  | arc h =>
    rename_i b c o
    rcases b with _ | b
    · rcases c with _ | c
      · cases h
      · cases h; rfl
    · cases h; rfl
  | circle c a r t0 t1 =>
    unfold circleCurve readCurve circleCurve
    dsimp only
    rw [normVec_unit (mag_normVec a)]; rfl
  | bspline h =>
    unfold bsplineCurve at h
    split at h
    · cases h
    · rename_i hk
      cases h
      unfold readCurve bsplineCurve
      dsimp only
      rw [if_neg hk]; rfl
  | ellipse => rfl
  | nurbs => rfl

theorem readAll_ok {X Y : Type} {f : X → Except Err Y} {d : K → Option X} (r : X → Y) (h : ∀ k x, d k = some x → f x = .ok (r x)) : readAll f d = .ok fun k => (d k).map r := by
  unfold readAll
  rw [if_neg]
  · congr 1
    funext k
    rcases hd : d k with _ | x
    · rfl
    · simp [h k x hd]
  · rintro ⟨k, x, e, h1, h2⟩
    rw [h k x h1] at h2
    cases h2

/-! ## the theorems -/

/-- **C249 (reading back).** A graph whose curves and surfaces come from the constructors can be written and read again, and what is read is the same but for the lists of edges at vertices and of faces at
edges, which are empty, the senses and tolerances of edges, and the types of shells. -/
theorem C249_read_partial (g : BGraph K) (hc : ∀ k e, g.edges k = some e → Spec.Drawn e.curve) (hs : ∀ k f, g.faces k = some f → Spec.Made f.surface) :
    deserialize (serialize g) = .ok (Spec.kept g) := by
  unfold deserialize
  have h1 : readAll readEdge (serialize g).edges = .ok (Spec.kept g).edges := by
    rw [readAll_ok (fun e : SEdge K => (⟨e.curve, e.start, e.stop, true, epsilon, []⟩ : Edge K Curve))]
    · congr 1
      funext k
      unfold serialize Spec.kept
      dsimp only
      rw [Option.map_map]; rfl
    · intro k x hx
      unfold serialize at hx
      dsimp only at hx
      rcases he : g.edges k with _ | e
      · rw [he] at hx; cases hx
      · rw [he] at hx
        cases hx
        unfold readEdge
        dsimp only
        rw [readCurve_drawn (hc k e he)]
  have h2 : readAll readFace (serialize g).faces = .ok (Spec.kept g).faces := by
    rw [readAll_ok (fun f : SFace K => (⟨f.surface, f.loops, f.sense, f.shell⟩ : Face K Surf))]
    · congr 1
      funext k
      unfold serialize Spec.kept
      dsimp only
      rw [Option.map_map]
      exact Option.map_id'
    · intro k x hx
      unfold serialize at hx
      dsimp only at hx
      rcases he : g.faces k with _ | f
      · rw [he] at hx; cases hx
      · rw [he] at hx
        cases hx
        unfold readFace
        dsimp only
        rw [readSurf_made (hs k f he)]
  rw [h1, h2]
  dsimp only
  congr 1
  unfold serialize Spec.kept
  dsimp only
  congr 1
  · funext k; rw [Option.map_map]; rfl
  · funext k; rw [Option.map_map]; rfl

/-- **C249 (closure).** Whether a shell is closed, and what else is found about its edges, is the same after reading. -/
theorem C249_closure [DecidableEq K] (g : BGraph K) (s : Shell K) : closure (Spec.kept g) s = closure g s := by
  have h1 : edgeUsage (Spec.kept g) s = edgeUsage g s := rfl
  have h2 : shellVertices (Spec.kept g) s = shellVertices g s := by
    unfold shellVertices
    rw [h1]
    congr 2
    funext ef
    have : (Spec.kept g).edges ef.1 = (g.edges ef.1).map fun e => { e with sense := true, tol := epsilon, faces := [] } := rfl
    rw [this]
    rcases g.edges ef.1 with _ | e <;> rfl
  unfold closure
  rw [h1, h2]

/-- **C249 (what is lost: incidence).** After reading, no vertex has edges and no edge has faces. -/
theorem C249_incidence (d : SGraph K) (g : BGraph K) (h : deserialize d = .ok g) (k : K) : vertexEdges g k = [] ∧ edgeFaces g k = [] := by
  unfold deserialize at h
  rcases h1 : readAll readEdge d.edges with x | es
  · rw [h1] at h; cases h
  rcases h2 : readAll readFace d.faces with x | fs
  · rw [h1, h2] at h; cases h
  rw [h1, h2] at h
  cases h
  refine ⟨?_, ?_⟩
  · unfold vertexEdges
    dsimp only
    rcases d.vertices k with _ | v <;> rfl
  · unfold edgeFaces
    dsimp only
    unfold readAll at h1
    split at h1
    · cases h1
    · cases h1
      dsimp only
      rcases d.edges k with _ | e
      · rfl
      · dsimp only [Option.bind]
        unfold readEdge
        rcases readCurve e.curve with x | c <;> rfl

/-- **C249 (what is lost: senses and tolerances).** Whatever is read, every edge has the sense True and the default tolerance, and every shell is an outer one. -/
theorem C249_defaults (d : SGraph K) (g : BGraph K) (h : deserialize d = .ok g) : (∀ k e, g.edges k = some e → e.sense = true ∧ e.tol = epsilon) ∧ ∀ k s, g.shells k = some s → s.outer = true := by
  unfold deserialize at h
  rcases h1 : readAll readEdge d.edges with x | es
  · rw [h1] at h; cases h
  rcases h2 : readAll readFace d.faces with x | fs
  · rw [h1, h2] at h; cases h
  rw [h1, h2] at h
  cases h
  refine ⟨fun k e he => ?_, fun k s hs => ?_⟩
  · dsimp only at he
    unfold readAll at h1
    split at h1
    · cases h1
    · cases h1
      dsimp only at he
      rcases hd : d.edges k with _ | e'
      · rw [hd] at he; cases he
      · rw [hd] at he
        dsimp only [Option.bind] at he
        unfold readEdge at he
        rcases hc : readCurve e'.curve with x | c
        · rw [hc] at he; cases he
        · rw [hc] at he; cases he; exact ⟨rfl, rfl⟩
  · dsimp only at hs
    rcases hd : d.shells k with _ | s'
    · rw [hd] at hs; cases hs
    · rw [hd] at hs; cases hs; rfl

/-- **C249 (arcs without parameters).** An edge made by `brep_edge('arc', …)` without bulge and centre (evaluated as a line) is written, but then the whole graph cannot be read. -/
theorem C249_arc (g : BGraph K) (k : K) (e : Edge K Curve) (o : Option ℤ) (h : g.edges k = some e) (hc : e.curve = .arc none none o) : deserialize (serialize g) = .error .valueError := by
  have : readAll readEdge (serialize g).edges = .error .valueError := by
    unfold readAll
    rw [if_pos]
    refine ⟨k, ⟨e.curve, e.start, e.stop⟩, .valueError, ?_, ?_⟩
    · unfold serialize; dsimp only; rw [h]; rfl
    · unfold readEdge; dsimp only; rw [hc]; rfl
  unfold deserialize
  rw [this]

/-- the hypotheses can be met -/
example : Spec.Made (.sphere ⟨1, 2, 3⟩ 4 (0, 1) (0, 1)) ∧ Spec.Drawn (.arc none (some ⟨0, 0, 0⟩) (some 1)) :=
  ⟨.sphere (c := ⟨1, 2, 3⟩) (r := 4) (u := (0, 1)) (v := (0, 1)) (by unfold sphereSurface; rw [if_neg (by norm_num)]), .arc (b := none) (c := some ⟨0, 0, 0⟩) (o := 1) rfl⟩

end Verif.Brep
