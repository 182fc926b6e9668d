import Verif.Checks.Model
import Verif.Prim.Ball

/-!
# C188, C189, C191, C192: the checks of a mesh
-/

namespace Verif.Checks
open Verif.Geom Verif.Surf Verif.Prim

/-! ## C188: surface_watertight -/

/-- the sides of the triangular faces, as pairs of vertex numbers -/
def allSides (faces : List (List Int)) : List (Int × Int) :=
  faces.flatMap fun f => match f with
    | [a, b, c] => [(a, b), (b, c), (c, a)]
    | _ => []

/-- how many sides join `a` and `b`, in either direction -/
def joins (faces : List (List Int)) (a b : Int) : Nat :=
  (allSides faces).countP fun s => decide ((s.1 = a ∧ s.2 = b) ∨ (s.1 = b ∧ s.2 = a))

theorem edgeKey_eq {a b c d : Int} : edgeKey a b = edgeKey c d ↔ (a = c ∧ b = d) ∨ (a = d ∧ b = c) := by
  unfold edgeKey
  split <;> split <;> simp only [Prod.mk.injEq] <;> omega

theorem faceEdges_sides (fs : List (List Int)) : fs.flatMap faceEdges = (allSides fs).map fun s => edgeKey s.1 s.2 := by
  unfold allSides
  rw [List.map_flatMap]
  congr 1
  funext f
  unfold faceEdges
  split <;> rename_i h
  · rfl
  · split
    · rename_i h'; exact absurd rfl (h _ _ _)
    · rfl

theorem count_edges (fs : List (List Int)) (a b : Int) : (fs.flatMap faceEdges).count (edgeKey a b) = joins fs a b := by
  rw [faceEdges_sides, List.count, List.countP_map]
  unfold joins
  refine List.countP_congr ?_
  intro s _
  simp only [Function.comp, beq_iff_eq, decide_eq_true_eq]
  exact edgeKey_eq

theorem mem_edges {fs : List (List Int)} {e : Int × Int} (h : e ∈ fs.flatMap faceEdges) : ∃ a b, e = edgeKey a b ∧ (a, b) ∈ allSides fs := by
  rw [faceEdges_sides, List.mem_map] at h
  obtain ⟨s, s1, s2⟩ := h
  exact ⟨s.1, s.2, s2.symm, s1⟩

/-- a dictionary of counts -/
theorem count_inst (l : List (Int × Int)) (k : Int × Int) : @List.count (Int × Int) instBEqOfDecidableEq k l = l.count k := by
  unfold List.count
  refine List.countP_congr ?_
  intro x _
  simp

theorem counts (l : List (Int × Int)) (k : Int × Int) (n : Nat) : (k, n) ∈ l.foldl bump [] ↔ k ∈ l ∧ n = l.count k := by
  obtain ⟨h1, h2, h3⟩ := count_fold l [] (by simp [KeysNodup])
  constructor
  · intro h
    have := mem_look _ h1 k n h
    rw [h2, count_inst] at this
    simp only [Surf.look, Nat.zero_add] at this
    refine ⟨?_, this.symm⟩
    rcases (h3 k).mp (List.mem_map.mpr ⟨_, h, rfl⟩) with h | h
    · exact h
    · simp at h
  · rintro ⟨h, rfl⟩
    have := look_mem _ k ((h3 k).mpr (Or.inl h))
    rw [h2, count_inst] at this
    simpa [Surf.look] using this

/-- The check passes exactly when every two vertices are joined by no side or by two sides of triangular faces; the warnings tell how
many edges have one side and which have more than two. -/
theorem C188_iff (s : Surface) : ∃ c, surfaceWatertight (some s) = .ok c ∧
    (c.ok = true ↔ ∀ a b, joins s.faces a b = 0 ∨ joins s.faces a b = 2) ∧ (c.ok = true ↔ c.warnings = []) := by
  refine ⟨_, rfl, ?_, ?_⟩
  · simp only [Bool.and_eq_true, List.isEmpty_iff, List.map_eq_nil_iff, List.filter_eq_nil_iff, beq_iff_eq, decide_eq_true_eq]
    constructor
    · rintro ⟨h1, h2⟩ a b
      by_cases hz : joins s.faces a b = 0
      · exact Or.inl hz
      · have hm : edgeKey a b ∈ s.faces.flatMap faceEdges := by
          rw [← List.count_pos_iff, count_edges]; omega
        have hc := (counts (s.faces.flatMap faceEdges) (edgeKey a b) _).mpr ⟨hm, rfl⟩
        have a1 := h1 _ hc
        have a2 := h2 _ hc
        simp only [count_edges] at a1 a2
        right; omega
    · intro h
      have key : ∀ e ∈ (s.faces.flatMap faceEdges).foldl bump [], e.2 = 2 := by
        rintro ⟨k, n⟩ he
        obtain ⟨hk, hn⟩ := (counts _ k n).mp he
        obtain ⟨a, b, rfl, -⟩ := mem_edges hk
        rw [count_edges] at hn
        have : 0 < (s.faces.flatMap faceEdges).count (edgeKey a b) := List.count_pos_iff.mpr hk
        rw [count_edges] at this
        show n = 2
        rcases h a b with h | h <;> omega
      exact ⟨fun e he => by rw [key e he]; decide, fun e he => by rw [key e he]; decide⟩
  · simp only [Bool.and_eq_true, List.isEmpty_iff, List.append_eq_nil_iff]
    refine and_congr ?_ ?_
    · split <;> rename_i h
      · simp [h]
      · simp only [iff_true]; exact not_not.mp h
    · split <;> rename_i h
      · simp [h]
      · simp only [iff_true]; exact not_not.mp h

theorem C188_not_surface : surfaceWatertight none = .error .valueError := rfl

theorem joins_oriented {fs : List (List Int)} (hn : (allSides fs).Nodup) (hr : ∀ a b, (a, b) ∈ allSides fs → (b, a) ∈ allSides fs)
    (hl : ∀ a, (a, a) ∉ allSides fs) (a b : Int) : joins fs a b = 0 ∨ joins fs a b = 2 := by
  by_cases h : joins fs a b = 0
  · exact Or.inl h
  · right
    have : ∃ s ∈ allSides fs, (s.1 = a ∧ s.2 = b) ∨ (s.1 = b ∧ s.2 = a) := by
      unfold joins at h
      obtain ⟨s, h1, h2⟩ := List.countP_pos_iff.mp (Nat.pos_of_ne_zero h)
      exact ⟨s, h1, by simpa using h2⟩
    have hab : (a, b) ∈ allSides fs := by
      obtain ⟨⟨x, y⟩, h1, (⟨rfl, rfl⟩ | ⟨rfl, rfl⟩)⟩ := this
      · exact h1
      · exact hr _ _ h1
    have t := two_uses (allSides fs) hn (fun s hs => hr s.1 s.2 hs) (fun s hs e => hl s.1 (by
      have : s = (s.1, s.1) := Prod.ext rfl e.symm
      rw [← this]; exact hs)) (a, b) hab
    rw [← t]
    unfold joins
    refine List.countP_congr ?_
    rintro ⟨x, y⟩ _
    simp only [decide_eq_true_eq, Prod.mk.injEq, Prod.swap_prod_mk]
    constructor
    · rintro (⟨h, h'⟩ | ⟨h, h'⟩)
      · exact Or.inl ⟨h.symm, h'.symm⟩
      · exact Or.inr ⟨h'.symm, h.symm⟩
    · rintro (⟨h, h'⟩ | ⟨h, h'⟩)
      · exact Or.inl ⟨h.symm, h'.symm⟩
      · exact Or.inr ⟨h'.symm, h.symm⟩

/-- Every consistently oriented closed mesh passes: every side once in each direction and no side from a vertex to itself. -/
theorem C188_closed (s : Surface) (hn : (allSides s.faces).Nodup) (hr : ∀ a b, (a, b) ∈ allSides s.faces → (b, a) ∈ allSides s.faces)
    (hl : ∀ a, (a, a) ∉ allSides s.faces) : surfaceWatertight (some s) = .ok ⟨true, []⟩ := by
  obtain ⟨c, hc, h1, h2⟩ := C188_iff s
  have ho := h1.mpr (joins_oriented hn hr hl)
  have hw := h2.mp ho
  rw [hc]
  obtain ⟨o, w⟩ := c
  simp only at ho hw
  rw [ho, hw]

theorem joins_cons (f : List Int) (fs : List (List Int)) (a b : Int) : joins (f :: fs) a b = joins [f] a b + joins fs a b := by
  unfold joins allSides
  rw [List.flatMap_cons, List.countP_append, List.flatMap_cons, List.flatMap_nil, List.append_nil]

theorem joins_reverse (f : List Int) (a b : Int) : joins [f.reverse] a b = joins [f] a b := by
  match f with
  | [] => rfl
  | [_] => rfl
  | [_, _] => rfl
  | [x, y, z] =>
    have sw : ∀ p q : Int, (decide ((p = a ∧ q = b) ∨ (p = b ∧ q = a)) : Bool) = decide ((q = a ∧ p = b) ∨ (q = b ∧ p = a)) := by
      intro p q; congr 1; simp only [eq_iff_iff]; tauto
    simp only [joins, allSides, List.reverse_cons, List.reverse_nil, List.nil_append, List.cons_append, List.flatMap_cons, List.flatMap_nil,
      List.append_nil, List.countP_cons, List.countP_nil]
    rw [sw z y, sw y x, sw x z]
    omega
  | w :: x :: y :: z :: l =>
    have h4 : 4 ≤ (w :: x :: y :: z :: l).reverse.length := by simp
    generalize (w :: x :: y :: z :: l).reverse = g at h4
    match g, h4 with
    | _ :: _ :: _ :: _ :: _, _ => rfl

/-- The direction of the faces is not looked at: turning any of them over does not change the outcome. -/
theorem C188_direction_ignored (s s' : Surface) (h : List.Forall₂ (fun f f' => f' = f ∨ f' = f.reverse) s.faces s'.faces) :
    ∃ c c', surfaceWatertight (some s) = .ok c ∧ surfaceWatertight (some s') = .ok c' ∧ c'.ok = c.ok := by
  obtain ⟨c, hc, h1, -⟩ := C188_iff s
  obtain ⟨c', hc', h1', -⟩ := C188_iff s'
  refine ⟨c, c', hc, hc', ?_⟩
  have : ∀ a b, joins s'.faces a b = joins s.faces a b := by
    intro a b
    generalize s.faces = l, s'.faces = l' at h
    induction h with
    | nil => rfl
    | cons hd _ ih =>
      rename_i f f' l1 l2 _
      rw [joins_cons f' l2, joins_cons f l1, ih]
      rcases hd with rfl | rfl
      · rfl
      · rw [joins_reverse]
  rw [Bool.eq_iff_iff, h1, h1']
  simp only [this]

/-- Positions are not looked at either. -/
theorem C188_positions_ignored (s : Surface) (vs ns : List V4) : surfaceWatertight (some { s with verts := vs, norms := ns }) = surfaceWatertight (some s) := rfl

/-- Two triangles lying on each other with the same winding pass: the boundary of nothing. -/
theorem C188_double : surfaceWatertight (some ⟨[pt 0 0, pt 1 0, pt 0 1], [], [[0, 1, 2], [0, 1, 2]], [], []⟩) = .ok ⟨true, []⟩ := by
  obtain ⟨c, hc, h1, h2⟩ := C188_iff ⟨[pt 0 0, pt 1 0, pt 0 1], [], [[0, 1, 2], [0, 1, 2]], [], []⟩
  have ho := h1.mpr (by
    intro a b
    simp only [joins, allSides, List.flatMap_cons, List.flatMap_nil, List.append_nil, List.cons_append, List.nil_append, List.countP_cons, List.countP_nil,
      decide_eq_true_eq]
    split_ifs <;> omega)
  have hw := h2.mp ho
  rw [hc]
  obtain ⟨o, w⟩ := c
  simp only at ho hw
  rw [ho, hw]

/-- An open sheet does not pass: a single triangle has three boundary edges. -/
theorem C188_open (a b c : Int) (hab : a ≠ b) (hbc : b ≠ c) (hca : c ≠ a) (vs ns : List V4) :
    surfaceWatertight (some ⟨vs, ns, [[a, b, c]], [], []⟩) = .ok ⟨false, [.boundary 3]⟩ := by
  have e1 : edgeKey a b ≠ edgeKey b c := by rw [Ne, edgeKey_eq]; omega
  have e2 : edgeKey a b ≠ edgeKey c a := by rw [Ne, edgeKey_eq]; omega
  have e3 : edgeKey b c ≠ edgeKey c a := by rw [Ne, edgeKey_eq]; omega
  have e : ([[a, b, c]].flatMap faceEdges).foldl bump [] = [(edgeKey a b, 1), (edgeKey b c, 1), (edgeKey c a, 1)] := by
    simp only [List.flatMap_cons, List.flatMap_nil, List.append_nil, faceEdges, List.foldl_cons, List.foldl_nil, bump]
    rw [if_neg e1]
    simp only [bump]
    rw [if_neg e2, if_neg e3]
  unfold surfaceWatertight
  simp only [e]
  simp

/-- the sphere of `sphereSurface` with the full number of vertices passes -/
theorem C188_sphere (fmt : ℝ → String) (me : Nat) (t : Table) (diameter : ℝ) (center : V4) (depth : Nat) (hd : 16 * eps < diameter)
    (ht : t.owner ≠ some me) (s : Surface) (hs : sphereSurface fmt me t diameter center depth = .ok s)
    (hfull : s.verts.length = 10 * 4 ^ depth + 2) : surfaceWatertight (some s) = .ok ⟨true, []⟩ := by
  obtain ⟨c, gs, h1, h2, h3, h4, h5, h6, h7, h8⟩ := sphere_shape fmt me t diameter center depth hd ht
  rw [hs] at h1
  injection h1 with h1
  have hS : Shell c.vs gs := h8 (by rw [h1] at hfull; simpa using hfull)
  have hsd : allSides s.faces = (lSides gs).map fun x => ((x.1 : Int), (x.2 : Int)) := by
    rw [h1]
    unfold allSides lSides
    rw [List.flatMap_map, List.map_flatMap]
    rfl
  refine C188_closed s ?_ ?_ ?_
  · rw [hsd]
    refine hS.nodup.map ?_
    rintro ⟨a, b⟩ ⟨c, d⟩ e
    simp only [Prod.mk.injEq, Nat.cast_inj] at e
    exact Prod.ext e.1 e.2
  · intro a b h
    rw [hsd, List.mem_map] at h ⊢
    obtain ⟨x, x1, x2⟩ := h
    simp only [Prod.mk.injEq] at x2
    exact ⟨x.swap, hS.back x1, by simp [x2.1, x2.2]⟩
  · intro a h
    rw [hsd, List.mem_map] at h
    obtain ⟨x, x1, x2⟩ := h
    simp only [Prod.mk.injEq] at x2
    have : x.1 = x.2 := by have := x2.1.trans x2.2.symm; exact_mod_cast this
    unfold lSides at x1
    rw [List.mem_flatMap] at x1
    obtain ⟨f, f1, f2⟩ := x1
    exact outward_ne (hS.out f f1) x (by simpa [lSides] using f2) this

/-! ## C191: triangles -/

/-- `n` is the unit normal of a triangle that is not degenerate: along the cross product of its sides -/
structure UnitNormal (t : Tri) (n : V4) : Prop where
  big : eps < mag (cross (sub t.b t.a) (sub t.c t.a))
  unit : dot n n = 1
  along : (cross (sub t.b t.a) (sub t.c t.a)).x = n.x * mag (cross (sub t.b t.a) (sub t.c t.a)) ∧
    (cross (sub t.b t.a) (sub t.c t.a)).y = n.y * mag (cross (sub t.b t.a) (sub t.c t.a)) ∧
    (cross (sub t.b t.a) (sub t.c t.a)).z = n.z * mag (cross (sub t.b t.a) (sub t.c t.a))

theorem mag_sq (a : V4) : mag a ^ 2 = dot a a := by
  unfold mag dot
  rw [Real.sq_sqrt (by nlinarith [mul_self_nonneg a.x, mul_self_nonneg a.y, mul_self_nonneg a.z])]

theorem mag_nonneg (a : V4) : 0 ≤ mag a := Real.sqrt_nonneg _

theorem eps_pos : 0 < eps := by unfold eps; norm_num

/-- The normal of a triangle is the unit vector along the cross product of its sides; there is none exactly when the cross product is
at most the tolerance long. -/
theorem C191_normal (t : Tri) : (∀ n, triangleNormal t.a t.b t.c = some n → UnitNormal t n) ∧
    (triangleNormal t.a t.b t.c = none ↔ mag (cross (sub t.b t.a) (sub t.c t.a)) ≤ eps) := by
  unfold triangleNormal
  simp only
  constructor
  · intro n h
    split at h
    · cases h
    · rename_i hb
      rw [not_le] at hb
      have hp : 0 < mag (cross (sub t.b t.a) (sub t.c t.a)) := lt_trans eps_pos hb
      injection h with h
      subst h
      refine ⟨hb, ?_, ?_, ?_, ?_⟩
      · have := mag_sq (cross (sub t.b t.a) (sub t.c t.a))
        generalize mag (cross (sub t.b t.a) (sub t.c t.a)) = m at *
        unfold dot at *
        simp only
        field_simp
        linarith
      · simp only; field_simp
      · simp only; field_simp
      · simp only; field_simp
  · split <;> rename_i h <;> simp [h]

theorem normal_some (t : Tri) {n : V4} (h : UnitNormal t n) : ∃ m, triangleNormal t.a t.b t.c = some m ∧ m.x = n.x ∧ m.y = n.y ∧ m.z = n.z := by
  cases hm : triangleNormal t.a t.b t.c with
  | none => have := (C191_normal t).2.mp hm; linarith [h.big]
  | some m =>
    have h' := (C191_normal t).1 m hm
    have hp := (lt_trans eps_pos h.big).ne'
    refine ⟨m, rfl, ?_, ?_, ?_⟩
    · exact mul_right_cancel₀ hp (h'.along.1.symm.trans h.along.1)
    · exact mul_right_cancel₀ hp (h'.along.2.1.symm.trans h.along.2.1)
    · exact mul_right_cancel₀ hp (h'.along.2.2.symm.trans h.along.2.2)

/-- The normal is perpendicular to all sides. -/
theorem C191_perpendicular {t : Tri} {n : V4} (h : triangleNormal t.a t.b t.c = some n) :
    dot n (sub t.b t.a) = 0 ∧ dot n (sub t.c t.b) = 0 ∧ dot n (sub t.a t.c) = 0 := by
  have u := (C191_normal t).1 n h
  have hp := (lt_trans eps_pos u.big).ne'
  obtain ⟨a1, a2, a3⟩ := u.along
  have key : ∀ v : V4, dot (cross (sub t.b t.a) (sub t.c t.a)) v = 0 → dot n v = 0 := by
    intro v hv
    refine mul_right_cancel₀ hp ?_
    rw [zero_mul, ← hv]
    unfold dot
    rw [a1, a2, a3]
    ring
  refine ⟨key _ ?_, key _ ?_, key _ ?_⟩ <;> unfold dot cross sub <;> ring

/-- The area is a nonnegative number that does not depend on the order of the corners; half the product of base and height. -/
theorem C191_area (a b c : V4) : 0 ≤ triangleArea a b c ∧ triangleArea b c a = triangleArea a b c ∧ triangleArea a c b = triangleArea a b c ∧
    (2 * triangleArea a b c) ^ 2 = dot (sub b a) (sub b a) * dot (sub c a) (sub c a) - dot (sub b a) (sub c a) ^ 2 := by
  have e : ∀ u v : V4, dot u u = dot v v → mag u = mag v := fun u v h =>
    (pow_left_inj₀ (mag_nonneg u) (mag_nonneg v) two_ne_zero).mp (by rw [mag_sq, mag_sq, h])
  unfold triangleArea
  refine ⟨mul_nonneg (by norm_num) (mag_nonneg _), ?_, ?_, ?_⟩
  · rw [e _ (cross (sub b a) (sub c a))]
    unfold dot cross sub; ring
  · rw [e _ (cross (sub b a) (sub c a))]
    unfold dot cross sub; ring
  · have := mag_sq (cross (sub b a) (sub c a))
    have h2 : (2 * (0.5 * mag (cross (sub b a) (sub c a)))) ^ 2 = mag (cross (sub b a) (sub c a)) ^ 2 := by ring
    rw [h2, this]
    unfold dot cross sub; ring

theorem normal_flip {a b c n : V4} (h : triangleNormal a b c = some n) : triangleNormal a c b = some ⟨-n.x, -n.y, -n.z, 0⟩ := by
  have hx : mag (cross (sub c a) (sub b a)) = mag (cross (sub b a) (sub c a)) :=
    (pow_left_inj₀ (mag_nonneg _) (mag_nonneg _) two_ne_zero).mp (by rw [mag_sq, mag_sq]; unfold dot cross sub; ring)
  unfold triangleNormal at h ⊢
  simp only at h ⊢
  rw [hx]
  split at h
  · cases h
  · rename_i hc
    rw [if_neg hc]
    injection h with h
    subst h
    congr 1
    ext <;> simp only [cross, sub] <;> ring

/-- Orienting a triangle keeps its corners, the first one in place, and makes the normal point to the side of the preferred one;
doing it again changes nothing. -/
theorem C191_orient (a b c pref : V4) :
    (orientTriangle a b c pref = (a, b, c) ∨ orientTriangle a b c pref = (a, c, b)) ∧
    (∀ n, triangleNormal (orientTriangle a b c pref).1 (orientTriangle a b c pref).2.1 (orientTriangle a b c pref).2.2 = some n → 0 ≤ dot n pref) ∧
    orientTriangle (orientTriangle a b c pref).1 (orientTriangle a b c pref).2.1 (orientTriangle a b c pref).2.2 pref = orientTriangle a b c pref := by
  unfold orientTriangle
  cases h : triangleNormal a b c with
  | none => simp only [h]; exact ⟨Or.inl trivial, fun n hn => by simp at hn, trivial⟩
  | some m =>
    simp only
    by_cases hd : dot m pref < 0
    · rw [if_pos hd]
      simp only
      have hf := normal_flip h
      have hd' : ¬ dot ⟨-m.x, -m.y, -m.z, 0⟩ pref < 0 := by
        have : dot ⟨-m.x, -m.y, -m.z, 0⟩ pref = - dot m pref := by unfold dot; ring
        rw [this]; linarith
      refine ⟨by simp, ?_, ?_⟩
      · intro n hn
        rw [hf] at hn
        injection hn with hn
        subst hn
        linarith
      · rw [hf]; simp only; rw [if_neg hd']
    · rw [if_neg hd]
      simp only
      refine ⟨by simp, ?_, ?_⟩
      · intro n hn
        rw [h] at hn
        injection hn with hn
        subst hn
        linarith
      · rw [h]; simp only; rw [if_neg hd]

/-- The centroid divides the medians: it is a third of the way from the midpoint of every side to the opposite corner. -/
theorem C191_centroid (a b c : V4) : let g := triangleCentroid a b c
    g.x = (b.x + c.x) / 2 + (a.x - (b.x + c.x) / 2) / 3 ∧ g.y = (b.y + c.y) / 2 + (a.y - (b.y + c.y) / 2) / 3 ∧
    g.z = (b.z + c.z) / 2 + (a.z - (b.z + c.z) / 2) / 3 ∧ triangleCentroid b c a = g ∧ triangleCentroid a c b = g := by
  refine ⟨?_, ?_, ?_, ?_, ?_⟩
  · simp only [triangleCentroid]; ring
  · simp only [triangleCentroid]; ring
  · simp only [triangleCentroid]; ring
  · unfold triangleCentroid; ext <;> simp only <;> ring
  · unfold triangleCentroid; ext <;> simp only <;> ring

/-- A triangle without normal need not be degenerate by `triangle_is_degenerate`'s rule and the other way round: the rules differ by a
factor of 2. -/
theorem C191_degenerate (a b c : V4) : triangleIsDegenerate a b c eps ↔ mag (cross (sub b a) (sub c a)) ≤ 2 * eps := by
  unfold triangleIsDegenerate triangleArea
  constructor <;> intro h <;> linarith

/-! ## C189: faces_oriented -/

/-- the list of the faces with a normal against the reference, and the reference -/
noncomputable def scan (i : Nat) (ref : Option V4) (bad : List Nat) : List Tri → Option V4 × List Nat
  | [] => (ref, bad)
  | t :: ts => match triangleNormal t.a t.b t.c with
    | none => scan (i + 1) ref bad ts
    | some n => match ref with
      | none => scan (i + 1) (some n) bad ts
      | some r => scan (i + 1) ref (if dot r n < -eps then bad ++ [i] else bad) ts

theorem orientLoop_scan {vs : List V4} {fs : List (List Int)} {ts : List Tri} (h : List.Forall₂ (fun f t => Corners vs f t) fs ts) :
    ∀ i ref bad, orientLoop vs i ref bad fs = .ok (scan i ref bad ts) := by
  induction h with
  | nil => intro i ref bad; rfl
  | @cons f t fs ts hf _ ih =>
    intro i ref bad
    obtain ⟨a, b, c, rfl, ha, hb, hc⟩ := hf
    rw [← pyGet_ok] at ha hb hc
    simp only [orientLoop, ha, hb, hc, scan]
    cases triangleNormal t.a t.b t.c with
    | none => exact ih _ _ _
    | some n =>
      cases ref with
      | none => exact ih _ _ _
      | some r => exact ih _ _ _

theorem tris_one {s : Surface} {ts : List Tri} (h : Tris [s] ts) : List.Forall₂ (fun f t => Corners s.verts f t) s.faces ts := by
  unfold Tris at h
  rw [List.flatMap_cons, List.flatMap_nil, List.append_nil, List.forall₂_map_left_iff] at h
  exact h

theorem scan_some (r : V4) (ts : List Tri) : ∀ i bad, ∃ l, scan i (some r) bad ts = (some r, bad ++ l) ∧
    ∀ j, j ∈ l ↔ ∃ k t m, j = i + k ∧ ts[k]? = some t ∧ triangleNormal t.a t.b t.c = some m ∧ dot r m < -eps := by
  induction ts with
  | nil => intro i bad; exact ⟨[], by simp [scan], by simp⟩
  | cons t ts ih =>
    intro i bad
    have shift : ∀ (l : List Nat), (∀ j, j ∈ l ↔ ∃ k t m, j = i + 1 + k ∧ ts[k]? = some t ∧ triangleNormal t.a t.b t.c = some m ∧ dot r m < -eps) →
        ∀ j, (∃ k t' m, j = i + k ∧ (t :: ts)[k]? = some t' ∧ triangleNormal t'.a t'.b t'.c = some m ∧ dot r m < -eps) ↔
          (j = i ∧ ∃ m, triangleNormal t.a t.b t.c = some m ∧ dot r m < -eps) ∨ j ∈ l := by
      intro l hl j
      rw [hl j]
      constructor
      · rintro ⟨k, t', m, e, h1, h2⟩
        cases k with
        | zero =>
          simp only [List.getElem?_cons_zero, Option.some.injEq] at h1
          subst h1
          exact Or.inl ⟨by omega, m, h2⟩
        | succ k => exact Or.inr ⟨k, t', m, by omega, by simpa using h1, h2⟩
      · rintro (⟨rfl, m, h⟩ | ⟨k, t', m, e, h1, h2⟩)
        · exact ⟨0, t, m, rfl, rfl, h⟩
        · exact ⟨k + 1, t', m, by omega, by simpa using h1, h2⟩
    simp only [scan]
    cases hn : triangleNormal t.a t.b t.c with
    | none =>
      obtain ⟨l, l1, l2⟩ := ih (i + 1) bad
      refine ⟨l, l1, fun j => ?_⟩
      rw [shift l l2 j, hn]
      simp
    | some n =>
      simp only
      by_cases hd : dot r n < -eps
      · rw [if_pos hd]
        obtain ⟨l, l1, l2⟩ := ih (i + 1) (bad ++ [i])
        refine ⟨i :: l, by rw [l1]; simp, fun j => ?_⟩
        rw [shift l l2 j, hn, List.mem_cons]
        simp [hd]
      · rw [if_neg hd]
        obtain ⟨l, l1, l2⟩ := ih (i + 1) bad
        refine ⟨l, l1, fun j => ?_⟩
        rw [shift l l2 j, hn]
        simp [hd]

theorem scan_none (ts : List Tri) : ∀ i, ((∀ t ∈ ts, triangleNormal t.a t.b t.c = none) ∧ scan i none [] ts = (none, [])) ∨
    ∃ (k : Nat) (t : Tri) (r : V4) (l : List Nat), ts[k]? = some t ∧ triangleNormal t.a t.b t.c = some r ∧ (∀ (k' : Nat) (t' : Tri), k' < k → ts[k']? = some t' → triangleNormal t'.a t'.b t'.c = none) ∧
      scan i none [] ts = (some r, l) ∧
      ∀ j, j ∈ l ↔ ∃ k t m, j = i + k ∧ ts[k]? = some t ∧ triangleNormal t.a t.b t.c = some m ∧ dot r m < -eps := by
  induction ts with
  | nil => intro i; exact Or.inl ⟨by simp, rfl⟩
  | cons t ts ih =>
    intro i
    simp only [scan]
    cases hn : triangleNormal t.a t.b t.c with
    | none =>
      rcases ih (i + 1) with ⟨h1, h2⟩ | ⟨k, t', r, l, h1, h2, h3, h4, h5⟩
      · left
        refine ⟨?_, h2⟩
        intro x hx
        rcases List.mem_cons.mp hx with rfl | hx
        · exact hn
        · exact h1 x hx
      · right
        refine ⟨k + 1, t', r, l, by simpa using h1, h2, ?_, h4, ?_⟩
        · intro k' t'' hk ht
          cases k' with
          | zero => simp only [List.getElem?_cons_zero, Option.some.injEq] at ht; subst ht; exact hn
          | succ k' => exact h3 k' t'' (by omega) (by simpa using ht)
        · intro j
          rw [h5 j]
          constructor
          · rintro ⟨k, x, m, e, g⟩; exact ⟨k + 1, x, m, by omega, by simpa using g⟩
          · rintro ⟨k, x, m, e, g1, g2, g3⟩
            cases k with
            | zero => simp only [List.getElem?_cons_zero, Option.some.injEq] at g1; subst g1; rw [hn] at g2; cases g2
            | succ k => exact ⟨k, x, m, by omega, by simpa using g1, g2, g3⟩
    | some n =>
      right
      obtain ⟨l, l1, l2⟩ := scan_some n ts (i + 1) []
      refine ⟨0, t, n, l, rfl, hn, by intro k' t' h; omega, by simpa using l1, ?_⟩
      intro j
      rw [l2 j]
      constructor
      · rintro ⟨k, x, m, e, g⟩; exact ⟨k + 1, x, m, by omega, by simpa using g⟩
      · rintro ⟨k, x, m, e, g1, g2, g3⟩
        cases k with
        | zero =>
          simp only [List.getElem?_cons_zero, Option.some.injEq] at g1
          subst g1
          rw [hn] at g2
          injection g2 with g2
          subst g2
          have := ((C191_normal t).1 n hn).unit
          linarith [eps_pos]
        | succ k => exact ⟨k, x, m, by omega, by simpa using g1, g2, g3⟩

/-- The check of a mesh of triangles: with the normal of the first triangle that has one as reference, it fails exactly when there are
triangles whose normal points against it, by more than the tolerance, and it names exactly those. -/
theorem C189_iff (s : Surface) (ts : List Tri) (h : Tris [s] ts) :
    ((∀ t ∈ ts, ∀ n, ¬ UnitNormal t n) ∧ facesOriented (some s) = .ok ⟨true, [.noFaces]⟩) ∨
    ∃ (k : Nat) (t : Tri) (r : V4) (l : List Nat), ts[k]? = some t ∧ UnitNormal t r ∧ (∀ (k' : Nat) (t' : Tri), k' < k → ts[k']? = some t' → ∀ n, ¬ UnitNormal t' n) ∧
      (∀ j, j ∈ l ↔ ∃ t m, ts[j]? = some t ∧ UnitNormal t m ∧ dot r m < -eps) ∧
      facesOriented (some s) = .ok (if l = [] then ⟨true, []⟩ else ⟨false, [.inconsistent l]⟩) := by
  have hL := orientLoop_scan (tris_one h) 0 none []
  have no : ∀ t : Tri, triangleNormal t.a t.b t.c = none → ∀ n, ¬ UnitNormal t n := by
    intro t ht n hn
    have := (C191_normal t).2.mp ht
    linarith [hn.big]
  rcases scan_none ts 0 with ⟨h1, h2⟩ | ⟨k, t, r, l, h1, h2, h3, h4, h5⟩
  · left
    refine ⟨fun t ht => no t (h1 t ht), ?_⟩
    unfold facesOriented
    simp only
    rw [hL, h2]
  · right
    refine ⟨k, t, r, l, h1, (C191_normal t).1 r h2, fun k' t' a b => no t' (h3 k' t' a b), ?_, ?_⟩
    · intro j
      rw [h5 j]
      constructor
      · rintro ⟨k, t, m, e, g1, g2, g3⟩
        rw [Nat.zero_add] at e
        subst e
        exact ⟨t, m, g1, (C191_normal t).1 m g2, g3⟩
      · rintro ⟨t, m, g1, g2, g3⟩
        obtain ⟨m', e1, e2, e3, e4⟩ := normal_some t g2
        refine ⟨j, t, m', by omega, g1, e1, ?_⟩
        unfold dot at g3 ⊢
        rw [e2, e3, e4]
        exact g3
    · unfold facesOriented
      simp only
      rw [hL, h4]
      simp only
      by_cases hl : l = []
      · rw [if_neg (by simpa using hl), if_pos hl]
      · rw [if_pos hl, if_neg hl]

/-- In a flat mesh, where all normals are `u` or `-u`, the check passes exactly when all of them are equal. -/
theorem C189_flat_partial (s : Surface) (ts : List Tri) (h : Tris [s] ts) (u : V4) (hu : dot u u = 1)
    (hflat : ∀ t ∈ ts, ∀ n, UnitNormal t n → (n.x = u.x ∧ n.y = u.y ∧ n.z = u.z) ∨ (n.x = -u.x ∧ n.y = -u.y ∧ n.z = -u.z)) :
    ∃ c, facesOriented (some s) = .ok c ∧
      (c.ok = true ↔ ∀ t ∈ ts, ∀ t' ∈ ts, ∀ n n', UnitNormal t n → UnitNormal t' n' → n.x = n'.x ∧ n.y = n'.y ∧ n.z = n'.z) := by
  have heps : eps < 1 := by unfold eps; norm_num
  rcases C189_iff s ts h with ⟨h1, h2⟩ | ⟨k, t, r, l, h1, h2, h3, h4, h5⟩
  · refine ⟨_, h2, ?_⟩
    simp only [true_iff]
    intro t ht t' ht' n n' hn
    exact absurd hn (h1 t ht n)
  · refine ⟨_, h5, ?_⟩
    have tm := List.mem_of_getElem? h1
    have dots : ∀ t' ∈ ts, ∀ n, UnitNormal t' n → (n.x = r.x ∧ n.y = r.y ∧ n.z = r.z) ∨ dot r n = -1 := by
      intro t' ht' n hn
      unfold dot at hu ⊢
      rcases hflat t tm r h2 with ⟨a, b, c⟩ | ⟨a, b, c⟩ <;> rcases hflat t' ht' n hn with ⟨a', b', c'⟩ | ⟨a', b', c'⟩
      · left; rw [a, b, c]; exact ⟨a', b', c'⟩
      · right; rw [a, b, c, a', b', c']; linarith
      · right; rw [a, b, c, a', b', c']; linarith
      · left; rw [a, b, c]; exact ⟨a', b', c'⟩
    by_cases hl : l = []
    · rw [if_pos hl]
      simp only [true_iff]
      have eq : ∀ t' ∈ ts, ∀ n, UnitNormal t' n → n.x = r.x ∧ n.y = r.y ∧ n.z = r.z := by
        intro t' ht' n hn
        rcases dots t' ht' n hn with g | g
        · exact g
        · obtain ⟨j, hj, e⟩ := List.getElem_of_mem ht'
          have : j ∈ l := (h4 j).mpr ⟨t', n, by rw [List.getElem?_eq_getElem hj, e], hn, by rw [g]; linarith⟩
          rw [hl] at this
          simp at this
      intro t1 ht1 t2 ht2 n1 n2 hn1 hn2
      obtain ⟨a, b, c⟩ := eq t1 ht1 n1 hn1
      obtain ⟨a', b', c'⟩ := eq t2 ht2 n2 hn2
      exact ⟨a.trans a'.symm, b.trans b'.symm, c.trans c'.symm⟩
    · rw [if_neg hl]
      simp only [Bool.false_eq_true, false_iff]
      intro hall
      obtain ⟨j, hj⟩ := List.exists_mem_of_ne_nil l hl
      obtain ⟨t', m, g1, g2, g3⟩ := (h4 j).mp hj
      obtain ⟨a, b, c⟩ := hall t tm t' (List.mem_of_getElem? g1) r m h2 g2
      have := h2.unit
      unfold dot at g3 this
      rw [← a, ← b, ← c] at g3
      linarith [eps_pos]

/-- The stored normals are not looked at. -/
theorem C189_normals_ignored (s : Surface) (ns : List V4) : facesOriented (some { s with norms := ns }) = facesOriented (some s) := rfl

/-- the cross products of a closed consistently oriented mesh add up to zero -/
theorem cross_sum {ts : List Tri} (ho : Oriented ts) (r : V4) : (ts.map fun t => dot r (cross (sub t.b t.a) (sub t.c t.a))).sum = 0 := by
  have h := sum_antisymm ho (fun a b => r.x * (a.2.1 * b.2.2 - a.2.2 * b.2.1) + r.y * (a.2.2 * b.1 - a.1 * b.2.2) + r.z * (a.1 * b.2.1 - a.2.1 * b.1))
    (by intro a b; ring)
  rw [← h]
  unfold posSides
  clear h ho
  induction ts with
  | nil => rfl
  | cons t ts ih =>
    have e : sides (t :: ts) = sidesOf t ++ sides ts := rfl
    rw [e, List.map_append, List.map_append, List.sum_append, List.map_cons, List.sum_cons, ih]
    congr 1
    simp only [sidesOf, List.map_cons, List.map_nil, List.sum_cons, List.sum_nil, Surf.pos]
    unfold dot cross sub
    ring

/-- Every closed, consistently oriented surface without degenerate faces is reported as inconsistent, provided its first face has more
than the 5e-6th part of its area. -/
theorem C189_closed_rejected (s : Surface) (t : Tri) (ts : List Tri) (h : Tris [s] (t :: ts)) (ho : Oriented (t :: ts))
    (hn : ∀ x ∈ t :: ts, eps < mag (cross (sub x.b x.a) (sub x.c x.a)))
    (ha : eps * ((t :: ts).map fun x => triangleArea x.a x.b x.c).sum < triangleArea t.a t.b t.c) :
    ∃ l, l ≠ [] ∧ facesOriented (some s) = .ok ⟨false, [.inconsistent l]⟩ := by
  have has : ∀ x ∈ t :: ts, ∃ n, UnitNormal x n := by
    intro x hx
    cases hm : triangleNormal x.a x.b x.c with
    | none => have := (C191_normal x).2.mp hm; linarith [hn x hx]
    | some m => exact ⟨m, (C191_normal x).1 m hm⟩
  rcases C189_iff s _ h with ⟨h1, -⟩ | ⟨k, t', r, l, h1, h2, h3, h4, h5⟩
  · obtain ⟨n, hn⟩ := has t (by simp)
    exact absurd hn (h1 t (by simp) n)
  · have k0 : k = 0 := by
      by_contra hk
      obtain ⟨n, hn⟩ := has t (by simp)
      exact h3 0 t (Nat.pos_of_ne_zero hk) rfl n hn
    subst k0
    simp only [List.getElem?_cons_zero, Option.some.injEq] at h1
    subst h1
    suffices hne : l ≠ [] from ⟨l, hne, by rw [h5, if_neg hne]⟩
    · intro hl
      have all : ∀ x ∈ ts, -(eps * mag (cross (sub x.b x.a) (sub x.c x.a))) ≤ dot r (cross (sub x.b x.a) (sub x.c x.a)) := by
        intro x hx
        obtain ⟨n, hnx⟩ := has x (by simp [hx])
        have hx' : x ∈ t :: ts := by simp [hx]
        obtain ⟨j, hj, e⟩ := List.getElem_of_mem hx'
        have ge : -eps ≤ dot r n := by
          by_contra c
          have : j ∈ l := (h4 j).mpr ⟨x, n, by rw [List.getElem?_eq_getElem hj, e], hnx, not_le.mp c⟩
          rw [hl] at this
          simp at this
        obtain ⟨a1, a2, a3⟩ := hnx.along
        have : dot r (cross (sub x.b x.a) (sub x.c x.a)) = dot r n * mag (cross (sub x.b x.a) (sub x.c x.a)) := by
          rw [dot, a1, a2, a3, dot]; ring
        rw [this]
        have := mul_le_mul_of_nonneg_right ge (mag_nonneg (cross (sub x.b x.a) (sub x.c x.a)))
        linarith
      have sum := cross_sum ho r
      rw [List.map_cons, List.sum_cons] at sum
      obtain ⟨a1, a2, a3⟩ := h2.along
      have first : dot r (cross (sub t.b t.a) (sub t.c t.a)) = mag (cross (sub t.b t.a) (sub t.c t.a)) := by
        have u := h2.unit
        rw [dot] at u
        rw [dot, a1, a2, a3]
        linear_combination mag (cross (sub t.b t.a) (sub t.c t.a)) * u
      have rest : -(eps * (ts.map fun x => mag (cross (sub x.b x.a) (sub x.c x.a))).sum) ≤ (ts.map fun x => dot r (cross (sub x.b x.a) (sub x.c x.a))).sum := by
        clear sum ha h4 h5 hl ho h hn has h3
        induction ts with
        | nil => simp
        | cons y ys ih =>
          simp only [List.map_cons, List.sum_cons]
          have i1 := ih (fun x hx => all x (List.mem_cons_of_mem _ hx))
          have i2 := all y (by simp)
          linarith
      have area : ((t :: ts).map fun x => triangleArea x.a x.b x.c).sum =
          0.5 * (mag (cross (sub t.b t.a) (sub t.c t.a)) + (ts.map fun x => mag (cross (sub x.b x.a) (sub x.c x.a))).sum) := by
        rw [List.map_cons, List.sum_cons]
        have : (ts.map fun x => triangleArea x.a x.b x.c).sum = 0.5 * (ts.map fun x => mag (cross (sub x.b x.a) (sub x.c x.a))).sum := by
          rw [← List.sum_map_mul_left]; rfl
        rw [this]
        unfold triangleArea
        ring
      rw [area] at ha
      have hp := mul_nonneg eps_pos.le (mag_nonneg (cross (sub t.b t.a) (sub t.c t.a)))
      unfold triangleArea at ha
      rw [first] at sum
      linarith

/-- the tetrahedron with three sides along the axes, all faces counterclockwise seen from outside -/
def tetra : Surface := ⟨[pt 0 0 0, pt 1 0 0, pt 0 1 0, pt 0 0 1], [], [[0, 2, 1], [0, 1, 3], [0, 3, 2], [1, 2, 3]], [], []⟩

/-- its corners -/
def tetraAt (i : Fin 4) : V4 := match i with
  | 0 => pt 0 0 0
  | 1 => pt 1 0 0
  | 2 => pt 0 1 0
  | 3 => pt 0 0 1

/-- its faces -/
def tetraFaces : List (Fin 4 × Fin 4 × Fin 4) := [(0, 2, 1), (0, 1, 3), (0, 3, 2), (1, 2, 3)]

theorem tetra_tris : Tris [tetra] (lTris tetraAt tetraFaces) := by
  unfold Tris tetra lTris tetraFaces
  simp only [List.flatMap_cons, List.flatMap_nil, List.append_nil, List.map_cons, List.map_nil]
  refine .cons ?_ (.cons ?_ (.cons ?_ (.cons ?_ .nil))) <;>
    exact ⟨_, _, _, rfl, Or.inl ⟨by norm_num, rfl⟩, Or.inl ⟨by norm_num, rfl⟩, Or.inl ⟨by norm_num, rfl⟩⟩

theorem tetra_oriented : Oriented (lTris tetraAt tetraFaces) := oriented_lTris _ _ (by decide)

/-- It passes `surface_watertight` and fails `faces_oriented`. -/
theorem C189_tetrahedron : surfaceWatertight (some tetra) = .ok ⟨true, []⟩ ∧
    ∃ l, l ≠ [] ∧ facesOriented (some tetra) = .ok ⟨false, [.inconsistent l]⟩ := by
  refine ⟨C188_closed tetra (by decide) ?_ ?_, ?_⟩
  · have : ∀ s ∈ allSides tetra.faces, (s.2, s.1) ∈ allSides tetra.faces := by decide
    exact fun a b h => this (a, b) h
  · have : ∀ s ∈ allSides tetra.faces, s.1 ≠ s.2 := by decide
    exact fun a h => this (a, a) h rfl
  · have m1 : mag (cross (sub (pt 0 1 0) (pt 0 0 0)) (sub (pt 1 0 0) (pt 0 0 0))) = 1 := by norm_num [mag, cross, sub, pt]
    have m2 : mag (cross (sub (pt 1 0 0) (pt 0 0 0)) (sub (pt 0 0 1) (pt 0 0 0))) = 1 := by norm_num [mag, cross, sub, pt]
    have m3 : mag (cross (sub (pt 0 0 1) (pt 0 0 0)) (sub (pt 0 1 0) (pt 0 0 0))) = 1 := by norm_num [mag, cross, sub, pt]
    have m4 : mag (cross (sub (pt 0 1 0) (pt 1 0 0)) (sub (pt 0 0 1) (pt 1 0 0))) = √3 := by norm_num [mag, cross, sub, pt]
    have s3 : √3 ≤ 2 := by rw [Real.sqrt_le_left (by norm_num)]; norm_num
    have s1 : 1 ≤ √3 := by rw [Real.one_le_sqrt]; norm_num
    refine C189_closed_rejected tetra _ _ tetra_tris tetra_oriented ?_ ?_
    · intro x hx
      have : x = ⟨pt 0 0 0, pt 0 1 0, pt 1 0 0⟩ ∨ x = ⟨pt 0 0 0, pt 1 0 0, pt 0 0 1⟩ ∨ x = ⟨pt 0 0 0, pt 0 0 1, pt 0 1 0⟩ ∨ x = ⟨pt 1 0 0, pt 0 1 0, pt 0 0 1⟩ := by
        simpa [tetraFaces, tetraAt] using hx
      have e : eps < 1 := by unfold eps; norm_num
      rcases this with rfl | rfl | rfl | rfl
      · rw [m1]; exact e
      · rw [m2]; exact e
      · rw [m3]; exact e
      · rw [m4]; linarith
    · simp only [List.map_cons, List.map_nil, List.sum_cons, List.sum_nil, tetraAt, triangleArea, m1, m2, m3, m4]
      unfold eps
      linarith

/-! ## C192: is_closed_polygon -/

/-- A list of points is closed exactly when it is not empty and its first and last points, both with three coordinates, are at most the
tolerance apart. -/
theorem C192_closed (points : List (Option V4)) (tol : ℝ) :
    isClosedPolygon points tol = true ↔ ∃ p q, points.head? = some (some p) ∧ points.getLast? = some (some q) ∧ Geom.dist p q ≤ tol := by
  unfold isClosedPolygon
  split
  · rename_i p q h1 h2
    rw [decide_eq_true_eq, h1, h2]
    constructor
    · intro h; exact ⟨p, q, rfl, rfl, h⟩
    · rintro ⟨p', q', e1, e2, h⟩
      simp only [Option.some.injEq] at e1 e2
      subst e1; subst e2
      exact h
  · rename_i hne
    simp only [Bool.false_eq_true, false_iff]
    rintro ⟨p, q, h1, h2, -⟩
    exact hne p q h1 h2

/-- A single point counts as closed. -/
theorem C192_single (p : V4) (tol : ℝ) (h : 0 ≤ tol) : isClosedPolygon [some p] tol = true := by
  rw [C192_closed]
  refine ⟨p, p, rfl, rfl, ?_⟩
  simp only [Geom.dist, mag, sub]
  simpa using h

end Verif.Checks
