import Verif.Surf.Props

/-!
# Building surfaces, area, outline (C174 – C176)
-/

namespace Verif.Surf
open Verif.Geom

/-! ## C174: adding triangles -/

theorem findVert_some {p : V4} : ∀ {vs : List V4} {i : Nat}, findVert p vs = some i → ∃ v, vs[i]? = some v ∧ vclose p v
  | [], i, h => by simp [findVert] at h
  | v :: vs, i, h => by
    unfold findVert at h
    split at h
    · rename_i hv
      injection h with h
      subst h
      exact ⟨v, rfl, hv⟩
    · cases hr : findVert p vs with
      | none => rw [hr] at h; cases h
      | some j =>
        rw [hr] at h
        injection h with h
        subst h
        obtain ⟨w, h1, h2⟩ := findVert_some hr
        exact ⟨w, by simpa using h1, h2⟩

theorem findVert_none {p : V4} : ∀ {vs : List V4}, findVert p vs = none → ∀ v ∈ vs, ¬ vclose p v
  | [], _, v, hv => by simp at hv
  | w :: vs, h, v, hv => by
    unfold findVert at h
    split at h
    · cases h
    · rename_i hw
      rcases List.mem_cons.mp hv with rfl | hv
      · exact hw
      · refine findVert_none ?_ v hv
        cases hr : findVert p vs with
        | none => rfl
        | some j => rw [hr] at h; cases h

/-- no two listed vertices are within epsilon of each other -/
def AllApart (vs : List V4) : Prop := vs.Pairwise fun v w => ¬ vclose w v

theorem vclose_refl (p : V4) : vclose p p := vclose_self ⟨rfl, rfl, rfl⟩

/-- what adding one vertex does -/
theorem addVert_spec (p n : V4) (vs ns : List V4) (hl : vs.length = ns.length) :
    let r := addVert p n vs ns
    (∃ av an, r.2.1 = vs ++ av ∧ r.2.2 = ns ++ an ∧ (∀ q ∈ av, q = p) ∧ (∀ m ∈ an, m = n)) ∧ r.2.1.length = r.2.2.length ∧
    (∃ v, r.2.1[r.1]? = some v ∧ vclose p v) ∧ (AllApart vs → AllApart r.2.1) := by
  unfold addVert
  cases h : findVert p vs with
  | some i =>
    simp only
    exact ⟨⟨[], [], by simp, by simp, by simp, by simp⟩, hl, findVert_some h, id⟩
  | none =>
    simp only
    refine ⟨⟨[p], [n], rfl, rfl, by simp, by simp⟩, by simp [hl], ⟨p, by simp, vclose_refl p⟩, ?_⟩
    intro ha
    unfold AllApart at *
    rw [List.pairwise_append]
    refine ⟨ha, List.pairwise_singleton _ _, ?_⟩
    intro v hv w hw
    rw [List.mem_singleton] at hw
    subst hw
    exact findVert_none h v hv

theorem prefix_get {vs av : List V4} {i : Nat} {v : V4} (h : vs[i]? = some v) : (vs ++ av)[i]? = some v := by
  have hi : i < vs.length := by
    by_contra hn
    rw [List.getElem?_eq_none (by omega)] at h
    cases h
  rw [List.getElem?_append_left hi]; exact h

/-- **C174** adding a triangle to a surface with as many normals as vertices: existing vertices, normals and faces keep
their places; at most the three corners are appended; the one new face refers to vertices within epsilon of the three
corners, in order; vertices that were pairwise more than epsilon apart stay so -/
theorem C174_add (t : Tri) (s s' : Surface) (hl : s.verts.length = s.norms.length) (h : addTri2Surface t s = .ok s') :
    (∃ av, s'.verts = s.verts ++ av ∧ ∀ p ∈ av, p = t.a ∨ p = t.b ∨ p = t.c) ∧ (∃ an, s'.norms = s.norms ++ an) ∧
    s'.verts.length = s'.norms.length ∧ s'.boundary = s.boundary ∧ s'.holes = s.holes ∧
    (∃ (i j k : Nat) (u v w : V4), s'.faces = s.faces ++ [[(i : Int), (j : Int), (k : Int)]] ∧ s'.verts[i]? = some u ∧ s'.verts[j]? = some v ∧ s'.verts[k]? = some w ∧
      sqDist t.a u < eps ^ 2 ∧ sqDist t.b v < eps ^ 2 ∧ sqDist t.c w < eps ^ 2) ∧
    (AllApart s.verts → AllApart s'.verts) := by
  unfold addTri2Surface at h
  cases hn : normfunc t with
  | error e => rw [hn] at h; cases h
  | ok n =>
    rw [hn] at h
    simp only at h
    injection h with h
    obtain ⟨⟨av1, an1, a1, b1, c1, -⟩, l1, ⟨v1, g1, d1⟩, p1⟩ := addVert_spec t.a n s.verts s.norms hl
    generalize addVert t.a n s.verts s.norms = r1 at *
    obtain ⟨⟨av2, an2, a2, b2, c2, -⟩, l2, ⟨v2, g2, d2⟩, p2⟩ := addVert_spec t.b n r1.2.1 r1.2.2 l1
    generalize addVert t.b n r1.2.1 r1.2.2 = r2 at *
    obtain ⟨⟨av3, an3, a3, b3, c3, -⟩, l3, ⟨v3, g3, d3⟩, p3⟩ := addVert_spec t.c n r2.2.1 r2.2.2 l2
    generalize addVert t.c n r2.2.1 r2.2.2 = r3 at *
    subst h
    refine ⟨⟨av1 ++ (av2 ++ av3), ?_, ?_⟩, ⟨an1 ++ (an2 ++ an3), ?_⟩, l3, rfl, rfl,
      ⟨r1.1, r2.1, r3.1, v1, v2, v3, rfl, ?_, ?_, g3, vclose_near d1, vclose_near d2, vclose_near d3⟩, fun ha => p3 (p2 (p1 ha))⟩
    · simp only; rw [a3, a2, a1]; simp
    · intro p hp
      rcases List.mem_append.mp hp with hp | hp
      · exact Or.inl (c1 p hp)
      · rcases List.mem_append.mp hp with hp | hp
        · exact Or.inr (Or.inl (c2 p hp))
        · exact Or.inr (Or.inr (c3 p hp))
    · simp only; rw [b3, b2, b1]; simp
    · simp only; rw [a3, a2, List.append_assoc]; exact prefix_get g1
    · simp only; rw [a3]; exact prefix_get g2

/-- the determinant of the vectors `b - a`, `c - a` and `n`: positive if `n` is on the side from which `a`, `b`, `c` run
counter-clockwise -/
def handed (t : Tri) (n : V4) : ℝ :=
  ((t.b.y - t.a.y) * (t.c.z - t.a.z) - (t.b.z - t.a.z) * (t.c.y - t.a.y)) * n.x +
  ((t.b.z - t.a.z) * (t.c.x - t.a.x) - (t.b.x - t.a.x) * (t.c.z - t.a.z)) * n.y +
  ((t.b.x - t.a.x) * (t.c.y - t.a.y) - (t.b.y - t.a.y) * (t.c.x - t.a.x)) * n.z

/-- **C174** the normals given to the new vertices are unit directions, perpendicular to the triangle, on the side from
which its corners run counter-clockwise -/
theorem C174_normals (t : Tri) (s s' : Surface) (hl : s.verts.length = s.norms.length) (h : addTri2Surface t s = .ok s') :
    ∃ an, s'.norms = s.norms ++ an ∧ ∀ n ∈ an, n.w = 0 ∧ n.x ^ 2 + n.y ^ 2 + n.z ^ 2 = 1 ∧
      n.x * (t.b.x - t.a.x) + n.y * (t.b.y - t.a.y) + n.z * (t.b.z - t.a.z) = 0 ∧
      n.x * (t.c.x - t.a.x) + n.y * (t.c.y - t.a.y) + n.z * (t.c.z - t.a.z) = 0 ∧ 0 < handed t n := by
  unfold addTri2Surface at h
  cases hn : normfunc t with
  | error e => rw [hn] at h; cases h
  | ok n =>
    rw [hn] at h
    simp only at h
    injection h with h
    obtain ⟨⟨av1, an1, a1, b1, -, c1⟩, l1, -⟩ := addVert_spec t.a n s.verts s.norms hl
    generalize addVert t.a n s.verts s.norms = r1 at *
    obtain ⟨⟨av2, an2, a2, b2, -, c2⟩, l2, -⟩ := addVert_spec t.b n r1.2.1 r1.2.2 l1
    generalize addVert t.b n r1.2.1 r1.2.2 = r2 at *
    obtain ⟨⟨av3, an3, a3, b3, -, c3⟩, l3, -⟩ := addVert_spec t.c n r2.2.1 r2.2.2 l2
    generalize addVert t.c n r2.2.1 r2.2.2 = r3 at *
    subst h
    refine ⟨an1 ++ (an2 ++ an3), by simp only; rw [b3, b2, b1]; simp, fun m hm => ?_⟩
    have e : m = n := by
      rcases List.mem_append.mp hm with hm | hm
      · exact c1 m hm
      · rcases List.mem_append.mp hm with hm | hm
        · exact c2 m hm
        · exact c3 m hm
    subst e
    unfold normfunc at hn
    simp only at hn
    split at hn
    · cases hn
    rename_i hm0
    injection hn with hn
    subst hn
    set M := mag (cross (sub t.b t.a) (sub t.c t.b)) with hM
    have hMn : 0 ≤ M := Real.sqrt_nonneg _
    have hMp : 0 < M := lt_of_le_of_ne hMn (Ne.symm hm0)
    have hM2 : M ^ 2 = (cross (sub t.b t.a) (sub t.c t.b)).x ^ 2 + (cross (sub t.b t.a) (sub t.c t.b)).y ^ 2 +
        (cross (sub t.b t.a) (sub t.c t.b)).z ^ 2 := by
      rw [hM]
      unfold mag
      rw [Real.sq_sqrt]
      · ring
      · exact add_nonneg (add_nonneg (mul_self_nonneg _) (mul_self_nonneg _)) (mul_self_nonneg _)
    unfold handed
    simp only [scale3, cross, sub] at hM2 ⊢
    refine ⟨trivial, ?_, ?_, ?_, ?_⟩
    · field_simp
      linarith
    · field_simp; ring
    · field_simp; ring
    · have : 0 < M ^ 2 * (1 / M) := by positivity
      rw [hM2] at this
      nlinarith

/-- a surface built from nothing by adding triangles one after the other -/
inductive Built : List Tri → Surface → Prop
  | empty : Built [] ⟨[], [], [], [], []⟩
  | add {ts : List Tri} {t : Tri} {s s' : Surface} (h : Built ts s) (ha : addTri2Surface t s = .ok s') : Built (ts ++ [t]) s'

/-- the face refers to existing vertices within epsilon of the corners of the triangle -/
def FaceNear (vs : List V4) (t : Tri) (f : List Int) : Prop :=
  ∃ (i j k : Nat) (u v w : V4), f = [(i : Int), (j : Int), (k : Int)] ∧ vs[i]? = some u ∧ vs[j]? = some v ∧ vs[k]? = some w ∧
    sqDist t.a u < eps ^ 2 ∧ sqDist t.b v < eps ^ 2 ∧ sqDist t.c w < eps ^ 2

/-- **C174** a surface built triangle by triangle, any number of times: one face per triangle, in order, each referring
to existing vertices within epsilon of that triangle's corners; as many normals as vertices; every vertex is a corner
of some triangle; no two vertices are within epsilon of each other -/
theorem C174_built (ts : List Tri) (s : Surface) (h : Built ts s) :
    List.Forall₂ (FaceNear s.verts) ts s.faces ∧ s.verts.length = s.norms.length ∧
    (∀ v ∈ s.verts, IsCorner ts v) ∧ AllApart s.verts := by
  induction h with
  | empty => exact ⟨.nil, rfl, by simp, List.Pairwise.nil⟩
  | @add ts t s s' h ha ih =>
    obtain ⟨f, l, c, ap⟩ := ih
    obtain ⟨⟨av, e, hav⟩, -, l', -, -, ⟨i, j, k, u, v, w, hf, h1, h2, h3, d⟩, hap⟩ := C174_add t s s' l ha
    refine ⟨?_, l', ?_, hap ap⟩
    · rw [hf]
      refine List.rel_append ?_ (.cons ⟨i, j, k, u, v, w, rfl, h1, h2, h3, d⟩ .nil)
      refine f.imp ?_
      rintro t' g ⟨i, j, k, u, v, w, hf, h1, h2, h3, d⟩
      rw [e]
      exact ⟨i, j, k, u, v, w, hf, prefix_get h1, prefix_get h2, prefix_get h3, d⟩
    · intro p hp
      rw [e] at hp
      rcases List.mem_append.mp hp with hp | hp
      · obtain ⟨t', ht', h'⟩ := c p hp
        exact ⟨t', by simp [ht'], h'⟩
      · exact ⟨t, by simp, hav p hp⟩

theorem mag_pos_of {p : V4} (h : p.x * p.x + p.y * p.y + p.z * p.z ≠ 0) : mag p ≠ 0 := by
  unfold mag
  rw [Real.sqrt_ne_zero']
  have : 0 ≤ p.x * p.x + p.y * p.y + p.z * p.z := by nlinarith [mul_self_nonneg p.x, mul_self_nonneg p.y, mul_self_nonneg p.z]
  exact lt_of_le_of_ne this (Ne.symm h)

/-- a triangle smaller than epsilon is not rejected: it becomes a face with three times the same vertex -/
theorem C174_tiny_triangle : ∃ s', addTri2Surface ⟨pt 0 0, pt 0.000001 0, pt 0 0.000001⟩ ⟨[], [], [], [], []⟩ = .ok s' ∧
    s'.faces = [[0, 0, 0]] ∧ s'.verts = [pt 0 0] := by
  have hn : ∃ n, normfunc ⟨pt 0 0, pt 0.000001 0, pt 0 0.000001⟩ = .ok n := by
    unfold normfunc
    simp only
    rw [if_neg (mag_pos_of (by unfold cross sub pt; norm_num))]
    exact ⟨_, rfl⟩
  obtain ⟨n, hn⟩ := hn
  have near : ∀ p q : V4, sqDist p q < eps ^ 2 → vclose p q := by
    intro p q h
    unfold vclose close mag sub
    rw [sub_zero, abs_of_nonneg (Real.sqrt_nonneg _), Real.sqrt_lt' (by unfold eps; norm_num)]
    unfold sqDist at h
    nlinarith
  have h1 : vclose (pt 0.000001 0) (pt 0 0) := near _ _ (by unfold sqDist pt eps; norm_num)
  have h2 : vclose (pt 0 0.000001) (pt 0 0) := near _ _ (by unfold sqDist pt eps; norm_num)
  refine ⟨_, by unfold addTri2Surface; rw [hn], ?_, ?_⟩
  · simp only [addVert, findVert, List.nil_append, if_pos h1, if_pos h2]; simp
  · simp only [addVert, findVert, List.nil_append, if_pos h1, if_pos h2]

/-- a non-trivial build: two triangles sharing a side -/
example : ∃ s, Built [⟨pt 0 0, pt 1 0, pt 0 1⟩, ⟨pt 1 0, pt 1 1, pt 0 1⟩] s := by
  have hn : ∀ t : Tri, mag (cross (sub t.b t.a) (sub t.c t.b)) ≠ 0 → ∀ s, ∃ s', addTri2Surface t s = .ok s' := by
    intro t ht s
    unfold addTri2Surface normfunc
    simp only
    rw [if_neg ht]
    exact ⟨_, rfl⟩
  obtain ⟨s1, h1⟩ := hn ⟨pt 0 0, pt 1 0, pt 0 1⟩ (mag_pos_of (by unfold cross sub pt; norm_num)) ⟨[], [], [], [], []⟩
  obtain ⟨s2, h2⟩ := hn ⟨pt 1 0, pt 1 1, pt 0 1⟩ (mag_pos_of (by unfold cross sub pt; norm_num)) s1
  exact ⟨s2, .add (.add .empty h1) h2⟩

/-! ## C175: area -/

/-- `a` is the area of the triangle, by Heron's formula: sixteen times its square is a polynomial in the squared side
lengths -/
def HeronArea (t : Tri) (a : ℝ) : Prop :=
  0 ≤ a ∧ 16 * a ^ 2 = 4 * sqDist t.a t.b * sqDist t.a t.c - (sqDist t.a t.b + sqDist t.a t.c - sqDist t.b t.c) ^ 2

theorem triarea_heron (t : Tri) : HeronArea t (triarea t.a t.b t.c) := by
  unfold HeronArea triarea mag
  refine ⟨by positivity, ?_⟩
  rw [div_pow, Real.sq_sqrt (by nlinarith [mul_self_nonneg (cross (sub t.b t.a) (sub t.c t.a)).x, mul_self_nonneg (cross (sub t.b t.a) (sub t.c t.a)).y, mul_self_nonneg (cross (sub t.b t.a) (sub t.c t.a)).z])]
  unfold cross sub sqDist
  ring

theorem heron_unique {t t' : Tri} {a b : ℝ} (h : HeronArea t a) (h' : HeronArea t' b)
    (e1 : sqDist t.a t.b = sqDist t'.a t'.b) (e2 : sqDist t.a t.c = sqDist t'.a t'.c) (e3 : sqDist t.b t.c = sqDist t'.b t'.c) : a = b := by
  obtain ⟨h1, h2⟩ := h
  obtain ⟨h3, h4⟩ := h'
  rw [e1, e2, e3, ← h4] at h2
  have : a ^ 2 = b ^ 2 := by linarith
  nlinarith [sq_nonneg (a - b), sq_nonneg (a + b)]

theorem areaLoop_sum (vs : List V4) (fs : List (List Int)) : ∀ (ts : List Tri) (acc : ℝ),
    List.Forall₂ (Corners vs) fs ts → areaLoop vs acc fs = .ok (acc + (ts.map fun t => triarea t.a t.b t.c).sum) := by
  induction fs with
  | nil => intro ts acc h; cases h; simp [areaLoop]
  | cons f fs ih =>
    intro ts acc h
    cases h with
    | cons hc hr =>
      rename_i t ts
      have hf := (faceTri_ok ..).mpr hc
      obtain ⟨i, j, k, rfl, -⟩ := hc
      simp only [areaLoop, areaTri, hf, ih _ _ hr, List.map_cons, List.sum_cons, add_assoc]

/-- **C175** the area of a surface is the sum of the areas of its triangles -/
theorem C175_area (s : Surface) (ts : List Tri) (h : List.Forall₂ (Corners s.verts) s.faces ts) :
    ∃ as : List ℝ, List.Forall₂ HeronArea ts as ∧ surfacearea s = .ok as.sum ∧ 0 ≤ as.sum := by
  refine ⟨ts.map fun t => triarea t.a t.b t.c, ?_, ?_, ?_⟩
  · clear h
    induction ts with
    | nil => exact .nil
    | cons t ts ih => exact .cons (triarea_heron t) ih
  · unfold surfacearea; rw [areaLoop_sum _ _ ts 0 h, zero_add]
  · apply List.sum_nonneg
    intro x hx
    obtain ⟨t, -, rfl⟩ := List.mem_map.mp hx
    exact (triarea_heron t).1

/-- **C175** two surfaces whose triangles correspond in order with equal side lengths have the same area; in particular a
rigid motion or reflection of the vertices does not change it -/
theorem C175_congruent (s s' : Surface) (ts ts' : List Tri) (h : List.Forall₂ (Corners s.verts) s.faces ts)
    (h' : List.Forall₂ (Corners s'.verts) s'.faces ts')
    (hd : List.Forall₂ (fun t t' : Tri => sqDist t.a t.b = sqDist t'.a t'.b ∧ sqDist t.a t.c = sqDist t'.a t'.c ∧
      sqDist t.b t.c = sqDist t'.b t'.c) ts ts') : surfacearea s = surfacearea s' := by
  unfold surfacearea
  rw [areaLoop_sum _ _ ts 0 h, areaLoop_sum _ _ ts' 0 h']
  congr 2
  clear h h'
  induction hd with
  | nil => rfl
  | cons h _ ih =>
    simp only [List.map_cons, List.sum_cons, ih]
    rw [heron_unique (triarea_heron _) (triarea_heron _) h.1 h.2.1 h.2.2]

theorem corners_forall_move (T : V4 → V4) (s : Surface) (ts : List Tri) (h : List.Forall₂ (Corners s.verts) s.faces ts) :
    List.Forall₂ (Corners (s.verts.map T)) s.faces (ts.map (Tri.map T)) := by
  have := forall₂_map_map (f := id) (g := Tri.map T) (S := Corners (s.verts.map T)) h (fun f t _ hc => corners_map T _ _ _ hc)
  simpa using this

/-- **C175** translating a surface, or turning one whose vertices are ordinary points, keeps its area -/
theorem C175_rigid (s : Surface) (ts : List Tri) (h : List.Forall₂ (Corners s.verts) s.faces ts) :
    (∀ δ, surfacearea (translatesurface s δ) = surfacearea s) ∧
    (∀ ang c u s', UnitV u → GoodCentre c → (∀ p ∈ s.verts, p.w = 1) → rotatesurface s ang c u = .ok s' →
      surfacearea s' = surfacearea s) := by
  have key : ∀ T : V4 → V4, (∀ p ∈ s.verts, ∀ q ∈ s.verts, sqDist (T p) (T q) = sqDist p q) → ∀ ns b hl,
      surfacearea ⟨s.verts.map T, ns, s.faces, b, hl⟩ = surfacearea s := by
    intro T hT ns b hl
    refine C175_congruent _ s (ts.map (Tri.map T)) ts (corners_forall_move T s ts h) h ?_
    have hm : ∀ t ∈ ts, t.a ∈ s.verts ∧ t.b ∈ s.verts ∧ t.c ∈ s.verts := by
      intro t ht
      have ent : ∀ i q, EntryAt s.verts i q → q ∈ s.verts := by
        rintro i q (⟨-, h⟩ | ⟨-, -, h⟩) <;> exact List.mem_of_getElem? h
      clear hT
      generalize s.faces = fs at h
      induction h with
      | nil => simp at ht
      | cons hc _ ih =>
        rcases List.mem_cons.mp ht with rfl | ht
        · obtain ⟨i, j, k, -, h1, h2, h3⟩ := hc
          exact ⟨ent _ _ h1, ent _ _ h2, ent _ _ h3⟩
        · exact ih ht
    clear h
    induction ts with
    | nil => exact .nil
    | cons t ts ih =>
      obtain ⟨m1, m2, m3⟩ := hm t (by simp)
      exact .cons ⟨hT _ m1 _ m2, hT _ m1 _ m3, hT _ m2 _ m3⟩ (ih fun t ht => hm t (by simp [ht]))
  constructor
  · intro δ
    unfold translatesurface
    split
    · rfl
    · exact key _ (fun p _ q _ => by unfold sqDist add; ring) _ _ _
  · intro ang c u s' hu hc hw h'
    unfold rotatesurface at h'
    split at h'
    · injection h' with h'; rw [h']
    · obtain ⟨M, hM, hm⟩ := rotateMat_ok u c hu hc ang
      rw [hM] at h'
      injection h' with h'
      subst h'
      apply key
      intro p hp q hq
      rw [hm, hm]
      exact rotMap_dist c u _ p q (hw p hp) (hw q hq) hu

/-! ## C176: the outline -/

/-- the sides of a face of three vertex numbers -/
def numSides : List Int → List (Int × Int)
  | [i, j, k] => [(i, j), (j, k), (k, i)]
  | _ => []

/-- the same pair of vertex numbers, in either order -/
def SamePair (e f : Int × Int) : Prop := e = f ∨ e = f.swap

theorem key_same (i j k l : Int) : inds2key i j = inds2key k l ↔ SamePair (i, j) (k, l) := by
  unfold inds2key SamePair
  simp only [Prod.swap, Prod.mk.injEq]
  split <;> split <;> simp only [Prod.mk.injEq] <;> constructor <;> intro h <;> omega

/-- the line joins the two vertices with these numbers -/
def Joins (vs : List V4) (e : Int × Int) (l : Line) : Prop := EntryAt vs e.1 l.a ∧ EntryAt vs e.2 l.b

theorem addLines_spec (vs : List V4) : ∀ (es drawn : List (Int × Int)) (st st' : List (Int × Int) × List Line),
    addLines vs st es = .ok st' → st.1 = drawn.map (fun e => inds2key e.1 e.2) → drawn.Pairwise (fun e f => ¬ SamePair e f) →
    List.Forall₂ (Joins vs) drawn st.2 →
    ∃ drawn', st'.1 = drawn'.map (fun e => inds2key e.1 e.2) ∧ drawn'.Pairwise (fun e f => ¬ SamePair e f) ∧
      List.Forall₂ (Joins vs) drawn' st'.2 ∧ (∀ e ∈ drawn, e ∈ drawn') ∧ (∀ e ∈ es, ∃ f ∈ drawn', SamePair f e) ∧
      (∀ f ∈ drawn', f ∈ drawn ∨ f ∈ es)
  | [], drawn, st, st', h, h1, h2, h3 => by
    injection h with h
    subst h
    exact ⟨drawn, h1, h2, h3, fun e h => h, by simp, fun f h => Or.inl h⟩
  | (i, j) :: es, drawn, st, st', h, h1, h2, h3 => by
    simp only [addLines] at h
    cases ha : addLine vs st i j with
    | error e => rw [ha] at h; cases h
    | ok st1 =>
      rw [ha] at h
      simp only at h
      unfold addLine at ha
      split at ha
      · rename_i hm
        injection ha with ha
        subst ha
        obtain ⟨d', k1, k2, k3, k4, k5, k6⟩ := addLines_spec vs es drawn st st' h h1 h2 h3
        refine ⟨d', k1, k2, k3, k4, ?_, fun f hf => (k6 f hf).imp id (List.mem_cons_of_mem _)⟩
        intro e he
        rcases List.mem_cons.mp he with rfl | he
        · rw [h1] at hm
          obtain ⟨f, hf, hk⟩ := List.mem_map.mp hm
          exact ⟨f, k4 f hf, (key_same ..).mp hk⟩
        · exact k5 e he
      · rename_i hm
        cases hp : pyGet vs i with
        | error e => rw [hp] at ha; cases ha
        | ok a =>
          cases hq : pyGet vs j with
          | error e => rw [hp, hq] at ha; cases ha
          | ok b =>
            rw [hp, hq] at ha
            simp only [mkLine] at ha
            split at ha
            · cases ha
            · rename_i l hl
              split at hl
              · injection hl with hl
                subst hl
                injection ha with ha
                subst ha
                obtain ⟨d', k1, k2, k3, k4, k5, k6⟩ := addLines_spec vs es (drawn ++ [(i, j)]) _ st' h (by simp [h1])
                  (by
                    rw [List.pairwise_append]
                    refine ⟨h2, List.pairwise_singleton _ _, ?_⟩
                    intro e he f hf
                    rw [List.mem_singleton] at hf
                    subst hf
                    intro hs
                    apply hm
                    rw [h1]
                    exact List.mem_map.mpr ⟨e, he, (key_same ..).mpr hs⟩)
                  (List.rel_append h3 (.cons ⟨(pyGet_ok ..).mp hp, (pyGet_ok ..).mp hq⟩ .nil))
                refine ⟨d', k1, k2, k3, fun e he => k4 e (by simp [he]), ?_, ?_⟩
                · intro e he
                  rcases List.mem_cons.mp he with rfl | he
                  · exact ⟨_, k4 _ (by simp), Or.inl rfl⟩
                  · exact k5 e he
                · intro f hf
                  rcases k6 f hf with h | h
                  · rcases List.mem_append.mp h with h | h
                    · exact Or.inl h
                    · rw [List.mem_singleton] at h; exact Or.inr (by simp [h])
                  · exact Or.inr (by simp [h])
              · cases hl

theorem linesLoop_spec (vs : List V4) : ∀ (fs : List (List Int)), (∀ f ∈ fs, f.length = 3) → ∀ (drawn : List (Int × Int))
    (st st' : List (Int × Int) × List Line),
    linesLoop vs st fs = .ok st' → st.1 = drawn.map (fun e => inds2key e.1 e.2) → drawn.Pairwise (fun e f => ¬ SamePair e f) →
    List.Forall₂ (Joins vs) drawn st.2 →
    ∃ drawn', st'.1 = drawn'.map (fun e => inds2key e.1 e.2) ∧ drawn'.Pairwise (fun e f => ¬ SamePair e f) ∧
      List.Forall₂ (Joins vs) drawn' st'.2 ∧ (∀ e ∈ drawn, e ∈ drawn') ∧
      (∀ e ∈ fs.flatMap numSides, ∃ f ∈ drawn', SamePair f e) ∧ (∀ f ∈ drawn', f ∈ drawn ∨ f ∈ fs.flatMap numSides)
  | [], _, drawn, st, st', h, h1, h2, h3 => by
    injection h with h
    subst h
    exact ⟨drawn, h1, h2, h3, fun e h => h, by simp, fun f h => Or.inl h⟩
  | f :: fs, hl, drawn, st, st', h, h1, h2, h3 => by
    match f, hl f (by simp) with
    | [i, j, k], _ =>
      simp only [linesLoop, faceSides] at h
      cases ha : addLines vs st [(i, j), (j, k), (k, i)] with
      | error e => rw [ha] at h; cases h
      | ok st1 =>
        rw [ha] at h
        simp only [if_true] at h
        obtain ⟨d1, a1, a2, a3, a4, a5, a6⟩ := addLines_spec vs _ drawn st st1 ha h1 h2 h3
        obtain ⟨d2, b1, b2, b3, b4, b5, b6⟩ := linesLoop_spec vs fs (fun g hg => hl g (by simp [hg])) d1 st1 st' h a1 a2 a3
        refine ⟨d2, b1, b2, b3, fun e he => b4 e (a4 e he), ?_, ?_⟩
        · intro e he
          rw [List.flatMap_cons] at he
          rcases List.mem_append.mp he with he | he
          · obtain ⟨g, hg, hs⟩ := a5 e he
            exact ⟨g, b4 g hg, hs⟩
          · exact b5 e he
        · intro g hg
          rw [List.flatMap_cons]
          rcases b6 g hg with h | h
          · rcases a6 g h with h | h
            · exact Or.inl h
            · exact Or.inr (List.mem_append_left _ h)
          · exact Or.inr (List.mem_append_right _ h)

/-- **C176** the outline of a surface with triangular faces: there is a list of face sides, no two of them with the same
pair of vertex numbers, containing every face side in one direction or the other, and the lines returned join exactly
these vertices, in order -/
theorem C176_each_edge_once (s : Surface) (ls : List Line) (h3 : ∀ f ∈ s.faces, f.length = 3) (h : surf2lines s = .ok ls) :
    ∃ es : List (Int × Int), List.Forall₂ (Joins s.verts) es ls ∧ es.Pairwise (fun e f => ¬ SamePair e f) ∧
      (∀ e ∈ s.faces.flatMap numSides, ∃ f ∈ es, SamePair f e) ∧ (∀ f ∈ es, f ∈ s.faces.flatMap numSides) := by
  unfold surf2lines at h
  cases hr : linesLoop s.verts ([], []) s.faces with
  | error e => rw [hr] at h; cases h
  | ok st =>
    rw [hr] at h
    injection h with h
    subst h
    obtain ⟨es, -, b, c, -, d, e⟩ := linesLoop_spec s.verts s.faces h3 [] ([], []) st hr rfl List.Pairwise.nil .nil
    exact ⟨es, c, b, d, fun f hf => (e f hf).resolve_left (by simp)⟩

/-- two triangles sharing a side give five lines -/
example : ∃ ls, surf2lines ⟨[pt 0 0, pt 1 0, pt 0 1, pt 1 1], [], [[0, 1, 2], [1, 3, 2]], [], []⟩ = .ok ls ∧ ls.length = 5 := by
  refine ⟨_, by simp [surf2lines, linesLoop, addLines, addLine, faceSides, inds2key, pyGet, mkLine, ispoint, pt]; rfl, rfl⟩

end Verif.Surf
