import Verif.Prim.Ico
import Mathlib.Tactic.IntervalCases

/-!
# `sphereSurface`
-/

namespace Verif.Prim
open Verif.Geom Verif.Surf Real

theorem subdivide_emptied (fmt : ℝ → String) (me : Nat) (r : ℝ) (b : Build) (f : Face) (h : b.tab.owner ≠ some me) :
    subdivide fmt me r b f = subdivide fmt me r (emptied me b) f := by
  unfold subdivide
  simp only [addVertex_emptied fmt me _ _ b h]
  rfl

theorem subdivideAll_emptied (fmt : ℝ → String) (me : Nat) (r : ℝ) (b : Build) (f : Face) (fs : List Face) (h : b.tab.owner ≠ some me) :
    subdivideAll fmt me r b (f :: fs) = subdivideAll fmt me r (emptied me b) (f :: fs) := by
  unfold subdivideAll
  rw [subdivide_emptied fmt me r b f h]

theorem start_good (fmt : ℝ → String) (me : Nat) (r : ℝ) (t : Table) :
    Good fmt me r (emptied me ⟨ico r, (ico r).map (radial r), t⟩) := by
  refine ⟨emptied_sound (by simp [ico]) (by simp), ⟨ico_on r, rfl⟩, ⟨?_, ?_⟩, by simp [emptied, ico]⟩
  · intro k is hk; simp [emptied] at hk
  · intro j v hj hv
    have := (List.getElem?_eq_some_iff.mp hv).1
    simp only [emptied, ico_length] at this
    omega

theorem sphere_rounds (fmt : ℝ → String) (me : Nat) (t : Table) {r : ℝ} (hr : 8 * eps < r) (ht : t.owner ≠ some me) (d : Nat) :
    ∃ c gs, rounds fmt me r d ⟨ico r, (ico r).map (radial r), t⟩ icoFaces = .ok (c, gs) ∧ Round r c ∧ gs.length = 20 * 4 ^ d ∧
      (∀ g ∈ gs, FaceOk c.vs g) ∧ ((lSides gs).map Prod.swap).Perm (lSides gs) ∧ 12 ≤ c.vs.length ∧ c.vs.length ≤ 10 * 4 ^ d + 2 ∧
      (c.vs.length = 10 * 4 ^ d + 2 → Shell c.vs gs) := by
  have he : 0 < eps := by unfold eps; norm_num
  have hr0 : 0 < r := by linarith
  cases d with
  | zero =>
    exact ⟨_, _, rfl, ⟨ico_on r, rfl⟩, rfl, ico_ok r hr0, ico_swap, by simp [ico], by simp [ico], fun _ => ico_shell r hr0⟩
  | succ d =>
    have e : rounds fmt me r (d + 1) ⟨ico r, (ico r).map (radial r), t⟩ icoFaces =
        rounds fmt me r (d + 1) (emptied me ⟨ico r, (ico r).map (radial r), t⟩) icoFaces := by
      unfold rounds
      unfold icoFaces
      rw [subdivideAll_emptied fmt me r _ _ _ ht]
    rw [e]
    have hg := start_good fmt me r t
    obtain ⟨c, gs, h1, h2, -, h4, h5, h6⟩ := rounds_ok fmt hr (d + 1) icoFaces hg (ico_ok r hr0) ico_swap
    obtain ⟨k1, k2⟩ := rounds_count fmt hr (d + 1) icoFaces hg (ico_ok r hr0) ico_swap ico_loops h1
    have l : (emptied me ⟨ico r, (ico r).map (radial r), t⟩).vs.length = 12 := ico_length r
    have lf : icoFaces.length = 20 := rfl
    have hp : 1 ≤ 4 ^ (d + 1) := Nat.one_le_pow _ _ (by norm_num)
    rw [l, lf] at k1 k2
    refine ⟨c, gs, h1, h2.round, by rw [h4, lf, mul_comm], h5, h6, h2.big, by omega, fun hc => k2 ?_ (ico_shell r hr0)⟩
    omega

/-- the centre the sphere gets: a centre within epsilon of the origin is not applied -/
noncomputable def centreOf (c : V4) : V4 := open Classical in if vclose c (pt 0 0) then pt 0 0 else c

/-- the point of the built list, moved -/
noncomputable def moved (vs : List V4) (c : V4) (i : Nat) : V4 := (vs.map fun p => add p c).getD i (pt 0 0)

theorem moved_get {vs : List V4} {c : V4} {i : Nat} {v : V4} (h : vs[i]? = some v) : (vs.map fun p => add p c)[i]? = some (moved vs c i) ∧ moved vs c i = add v c := by
  have : (vs.map fun p => add p c)[i]? = some (add v c) := by rw [List.getElem?_map, h]; rfl
  unfold moved
  rw [List.getD_eq_getElem?_getD, this]
  exact ⟨rfl, rfl⟩

/-- what `sphereSurface` returns, in terms of the construction -/
theorem sphere_shape (fmt : ℝ → String) (me : Nat) (t : Table) (diameter : ℝ) (center : V4) (depth : Nat) (hd : 16 * eps < diameter)
    (ht : t.owner ≠ some me) :
    ∃ c gs, sphereSurface fmt me t diameter center depth = .ok ⟨c.vs.map (fun p => add p (centreOf center)), c.ns, gs.map faceList, [], []⟩ ∧
      Round (diameter / 2) c ∧ gs.length = 20 * 4 ^ depth ∧
      (∀ g ∈ gs, FaceOk c.vs g) ∧ ((lSides gs).map Prod.swap).Perm (lSides gs) ∧ 12 ≤ c.vs.length ∧ c.vs.length ≤ 10 * 4 ^ depth + 2 ∧
      (c.vs.length = 10 * 4 ^ depth + 2 → Shell c.vs gs) := by
  have he : 0 < eps := by unfold eps; norm_num
  have hr : 8 * eps < diameter / 2 := by linarith
  have hr0 : 0 < diameter / 2 := by linarith
  obtain ⟨c, gs, h1, h2, h3⟩ := sphere_rounds fmt me t hr ht depth
  refine ⟨c, gs, ?_, h2, h3⟩
  unfold sphereSurface
  simp only
  rw [if_neg hr0.ne', ico_moved, ico_normals hr0, h1]
  simp only
  congr 2
  unfold centreOf
  split
  · conv_lhs => rw [← List.map_id c.vs]
    refine List.map_congr_left fun p hp => ?_
    have := (h2.on p hp).2
    unfold add pt
    ext <;> simp [this]
  · rfl

theorem sphere_tris {vs ns : List V4} {gs : List Face} (c : V4) (h : ∀ g ∈ gs, FaceOk vs g) :
    Tris [⟨vs.map (fun p => add p c), ns, gs.map faceList, [], []⟩] (lTris (moved vs c) gs) := by
  apply tris_one
  conv_rhs => rw [← List.map_id gs]
  refine forall₂_maps _ _ _ fun g hg => ?_
  obtain ⟨u, v, w, h1, h2, h3, -⟩ := h g hg
  exact ⟨_, _, _, rfl, entry_nat (moved_get h1).1, entry_nat (moved_get h2).1, entry_nat (moved_get h3).1⟩

/-- **C181** For every diameter above 16 epsilon, centre and depth, and whatever the state of the global vertex table: the
surface is valid, it has 20·4^depth triangles and at most 10·4^depth + 2 vertices, all at the given distance from the centre
with the normal pointing straight away from it, and every directed side of a triangle is matched by the same side in the
opposite direction. (The identity of the new list of vertices differs from that of the list the table was last used with.) -/
theorem C181_sphere (fmt : ℝ → String) (me : Nat) (t : Table) (diameter : ℝ) (center : V4) (depth : Nat) (hd : 16 * eps < diameter)
    (ht : t.owner ≠ some me) :
    ∃ s, sphereSurface fmt me t diameter center depth = .ok s ∧ issurface s = true ∧ s.faces.length = 20 * 4 ^ depth ∧
      12 ≤ s.verts.length ∧ s.verts.length ≤ 10 * 4 ^ depth + 2 ∧
      (∀ p ∈ s.verts, sqDist p (centreOf center) = (diameter / 2) ^ 2 ∧ p.w = 1) ∧
      (∀ (i : Nat) p n, s.verts[i]? = some p → s.norms[i]? = some n → n.w = 0 ∧ n.x ^ 2 + n.y ^ 2 + n.z ^ 2 = 1 ∧
        p.x = (centreOf center).x + diameter / 2 * n.x ∧ p.y = (centreOf center).y + diameter / 2 * n.y ∧
        p.z = (centreOf center).z + diameter / 2 * n.z) ∧
      ∃ ts, Tris [s] ts ∧ Oriented ts := by
  have he : 0 < eps := by unfold eps; norm_num
  have hr0 : 0 < diameter / 2 := by linarith
  obtain ⟨c, gs, h1, h2, h3, h4, h5, h6, h7, -⟩ := sphere_shape fmt me t diameter center depth hd ht
  refine ⟨_, h1, ?_, by simpa using h3, by simpa using h6, by simpa using h7, ?_, ?_, _, sphere_tris _ h4, oriented_lTris _ _ h5⟩
  · rw [C170_accepts_iff]
    refine ⟨by simp; omega, ?_, ?_, by rw [h2.ns]; simp, ?_⟩
    · intro p hp
      obtain ⟨q, -, rfl⟩ := List.mem_map.mp hp
      simp [add]
    · intro n hn
      simp only at hn
      rw [h2.ns] at hn
      obtain ⟨q, -, rfl⟩ := List.mem_map.mp hn
      simpa [radial] using he
    · intro f hf
      obtain ⟨q, -, rfl⟩ := List.mem_map.mp hf
      rfl
  · intro p hp
    obtain ⟨q, hq, rfl⟩ := List.mem_map.mp hp
    refine ⟨?_, rfl⟩
    have := (h2.on q hq).1
    unfold sqDist add
    simp only
    rw [← this]; ring
  · intro i p n hp hn
    simp only at hp hn
    rw [h2.ns, List.getElem?_map, Option.map_eq_some_iff] at hn
    rw [List.getElem?_map, Option.map_eq_some_iff] at hp
    obtain ⟨q, hq, rfl⟩ := hp
    obtain ⟨q', hq', rfl⟩ := hn
    rw [hq] at hq'
    injection hq' with hq'
    subst hq'
    have := (h2.on q (List.mem_of_getElem? hq)).1
    have hne : diameter / 2 ≠ 0 := hr0.ne'
    generalize diameter / 2 = r at *
    unfold radial add
    simp only
    refine ⟨trivial, ?_, ?_, ?_, ?_⟩
    · rw [div_pow, div_pow, div_pow, ← add_div, ← add_div, this]
      field_simp
    all_goals (field_simp; ring)

/-- **C181** If no two of the middles were merged — the surface has the full number of vertices 10·4^depth + 2 — every
triangle faces away from the centre, and if moreover the vertices are 2 epsilon apart from each other the surface is accepted
as a closed solid. -/
theorem C181_closed (fmt : ℝ → String) (me : Nat) (t : Table) (diameter : ℝ) (center : V4) (depth : Nat) (hd : 16 * eps < diameter)
    (ht : t.owner ≠ some me) (s : Surface) (hs : sphereSurface fmt me t diameter center depth = .ok s)
    (hfull : s.verts.length = 10 * 4 ^ depth + 2) :
    (∃ ts, Tris [s] ts ∧ ∀ x ∈ ts, 0 < det3 (sub x.a (centreOf center)) (sub x.b (centreOf center)) (sub x.c (centreOf center))) ∧
    ((∀ (i j : Nat) p q, i ≠ j → s.verts[i]? = some p → s.verts[j]? = some q → (2 * eps) ^ 2 ≤ sqDist p q) →
      issolidclosed ⟨[s]⟩ = .ok true) := by
  obtain ⟨s', hs', hv, -⟩ := C181_sphere fmt me t diameter center depth hd ht
  rw [hs] at hs'
  injection hs' with hs'
  subst hs'
  obtain ⟨c, gs, h1, h2, h3, h4, h5, h6, h7, h8⟩ := sphere_shape fmt me t diameter center depth hd ht
  rw [hs] at h1
  injection h1 with h1
  subst h1
  have hsh := h8 (by simpa using hfull)
  refine ⟨⟨_, sphere_tris _ h4, ?_⟩, ?_⟩
  · intro x hx
    obtain ⟨g, hg, rfl⟩ := List.mem_map.mp hx
    obtain ⟨u, v, w, k1, k2, k3, k4⟩ := hsh.out g hg
    have e : ∀ u : V4, (sub (add u (centreOf center)) (centreOf center)).x = u.x ∧ (sub (add u (centreOf center)) (centreOf center)).y = u.y ∧
      (sub (add u (centreOf center)) (centreOf center)).z = u.z := fun u => by unfold sub add; simp
    simp only [(moved_get k1).2, (moved_get k2).2, (moved_get k3).2]
    unfold det3 at k4 ⊢
    simp only [(e u).1, (e u).2.1, (e u).2.2, (e v).1, (e v).2.1, (e v).2.2, (e w).1, (e w).2.1, (e w).2.2]
    exact k4
  · intro far
    have hx : issolid ⟨[⟨c.vs.map (fun p => add p (centreOf center)), c.ns, gs.map faceList, [], []⟩]⟩ = true := by
      unfold issolid; simpa using hv
    obtain ⟨b, e1, e2⟩ := C169_closed_iff _ _ hx (sphere_tris _ h4)
    rw [e1, e2.mpr]
    have hlab : ∀ i, (∃ f ∈ gs, i = f.1 ∨ i = f.2.1 ∨ i = f.2.2) →
        (c.vs.map fun p => add p (centreOf center))[i]? = some (moved c.vs (centreOf center) i) := by
      rintro i ⟨f, hf, h⟩
      obtain ⟨u, v, w, k1, k2, k3, -⟩ := h4 f hf
      rcases h with rfl | rfl | rfl
      · exact (moved_get k1).1
      · exact (moved_get k2).1
      · exact (moved_get k3).1
    refine closed_lTris _ _ ?_ hsh.nodup (fun s h => hsh.back h) (fun s h => hsh.ne h)
    intro i j hi hj e
    by_contra hij
    exact far_grid (far i j _ _ hij (hlab i hi) (hlab j hj)) e

/-! ## the hypotheses can be met: the icosahedron -/

theorem cos_fifths {d : Nat} (h1 : 1 ≤ d) (h2 : d ≤ 9) : 4 / 5 * cos (d * (π / 5)) + (if d % 2 = 0 then 1 else -1) / 5 ≤ 1 / 2 := by
  have a := cos_one_fifth
  have b := cos_two_fifth
  have c4 : cos (4 * (π / 5)) = - cos (π / 5) := by rw [← cos_pi_sub]; congr 1; ring
  have c3 : cos (3 * (π / 5)) = - cos (2 * (π / 5)) := by rw [← cos_pi_sub]; congr 1; ring
  have c5 : cos (5 * (π / 5)) = -1 := by rw [show 5 * (π / 5) = π by ring, cos_pi]
  have c6 : cos (6 * (π / 5)) = cos (4 * (π / 5)) := by rw [show 6 * (π / 5) = 2 * π - 4 * (π / 5) by ring, cos_two_pi_sub]
  have c7 : cos (7 * (π / 5)) = cos (3 * (π / 5)) := by rw [show 7 * (π / 5) = 2 * π - 3 * (π / 5) by ring, cos_two_pi_sub]
  have c8 : cos (8 * (π / 5)) = cos (2 * (π / 5)) := by rw [show 8 * (π / 5) = 2 * π - 2 * (π / 5) by ring, cos_two_pi_sub]
  have c9 : cos (9 * (π / 5)) = cos (π / 5) := by rw [show 9 * (π / 5) = 2 * π - π / 5 by ring, cos_two_pi_sub]
  interval_cases d <;> norm_num [-cos_pi_div_five] <;> linarith

theorem ico_far {r : ℝ} (hr : 0 < r) (i j : Nat) (p q : V4) (hij : i < j) (hp : (ico r)[i]? = some p) (hq : (ico r)[j]? = some q) :
    dot p q ≤ r ^ 2 / 2 := by
  have g : ∀ k < 10, (ico r)[k + 1]? = some (ringP r k) := by
    intro k hk
    unfold ico
    rw [List.cons_append, List.getElem?_cons_succ, List.getElem?_append_left (by simpa using hk)]
    simp [hk]
  have hj := (List.getElem?_eq_some_iff.mp hq).1
  rw [ico_length] at hj
  have hr2 : 0 < r ^ 2 := by positivity
  have hc0 := CL_pos
  have hc1 : CL < 1 := by nlinarith [CL_sq]
  have pole : ∀ k, (ringP r k).z * r ≤ r ^ 2 / 2 ∧ (ringP r k).z * (-r) ≤ r ^ 2 / 2 := by
    intro k
    have h0 : CL * r ^ 2 ≤ 1 * r ^ 2 := mul_le_mul_of_nonneg_right hc1.le hr2.le
    have h1 : 0 ≤ CL * r ^ 2 := by positivity
    unfold ringP pt
    simp only
    split <;> constructor <;> nlinarith
  rcases Nat.eq_zero_or_pos i with rfl | hi
  · have e : p = pt 0 0 r := by
      have : (ico r)[0]? = some (pt 0 0 r) := rfl
      rw [this] at hp; injection hp with hp; exact hp.symm
    subst e
    by_cases h : j = 11
    · subst h
      have : (ico r)[11]? = some (pt 0 0 (-r)) := rfl
      rw [this] at hq; injection hq with hq; subst hq
      unfold dot pt; simp only; nlinarith
    · obtain ⟨k, rfl⟩ : ∃ k, j = k + 1 := ⟨j - 1, by omega⟩
      rw [g k (by omega)] at hq; injection hq with hq; subst hq
      have := (pole k).1
      unfold dot pt; simp only; linarith
  · obtain ⟨k, rfl⟩ : ∃ k, i = k + 1 := ⟨i - 1, by omega⟩
    rw [g k (by omega)] at hp; injection hp with hp; subst hp
    by_cases h : j = 11
    · subst h
      have : (ico r)[11]? = some (pt 0 0 (-r)) := rfl
      rw [this] at hq; injection hq with hq; subst hq
      have := (pole k).2
      unfold dot; simp only [pt] at this ⊢; linarith
    · obtain ⟨d, rfl⟩ : ∃ d, j = k + d + 1 := ⟨j - 1 - k, by omega⟩
      rw [g (k + d) (by omega)] at hq; injection hq with hq; subst hq
      rw [ring_dot]
      have := mul_le_mul_of_nonneg_left (cos_fifths (d := d) (by omega) (by omega)) hr2.le
      linarith

/-- **C181** Without subdivision the result is always a closed solid with every triangle facing outwards: the hypotheses of
`C181_closed` are met by every icosahedron, wherever it is. -/
theorem C181_icosahedron (fmt : ℝ → String) (me : Nat) (t : Table) (diameter : ℝ) (center : V4) (hd : 16 * eps < diameter)
    (ht : t.owner ≠ some me) :
    ∃ s, sphereSurface fmt me t diameter center 0 = .ok s ∧ s.verts.length = 12 ∧ issolidclosed ⟨[s]⟩ = .ok true := by
  have he : 0 < eps := by unfold eps; norm_num
  have hr0 : 0 < diameter / 2 := by linarith
  have hsh : sphereSurface fmt me t diameter center 0 =
      .ok ⟨(ico (diameter / 2)).map (fun p => add p (centreOf center)), (ico (diameter / 2)).map (radial (diameter / 2)), icoFaces.map faceList, [], []⟩ := by
    unfold sphereSurface
    simp only
    rw [if_neg hr0.ne', ico_moved, ico_normals hr0]
    simp only [rounds]
    congr 2
    unfold centreOf
    split
    · conv_lhs => rw [← List.map_id (ico (diameter / 2))]
      refine List.map_congr_left fun p hp => ?_
      have := (ico_on _ p hp).2
      unfold add pt
      ext <;> simp [this]
    · rfl
  have hl : ((ico (diameter / 2)).map (fun p => add p (centreOf center))).length = 12 := by rw [List.length_map, ico_length]
  refine ⟨_, hsh, hl, (C181_closed fmt me t diameter center 0 hd ht _ hsh hl).2 ?_⟩
  have key : ∀ (i j : Nat) p q, i < j → ((ico (diameter / 2)).map (fun p => add p (centreOf center)))[i]? = some p →
      ((ico (diameter / 2)).map (fun p => add p (centreOf center)))[j]? = some q → (2 * eps) ^ 2 ≤ sqDist p q := by
    intro i j p q hij hp hq
    rw [List.getElem?_map, Option.map_eq_some_iff] at hp hq
    obtain ⟨u, hu, rfl⟩ := hp
    obtain ⟨v, hv, rfl⟩ := hq
    have h := ico_far hr0 i j u v hij hu hv
    have h1 := (ico_on _ u (List.mem_of_getElem? hu)).1
    have h2 := (ico_on _ v (List.mem_of_getElem? hv)).1
    have e : sqDist (add u (centreOf center)) (add v (centreOf center)) = 2 * (diameter / 2) ^ 2 - 2 * dot u v := by
      unfold sqDist add dot
      simp only
      linear_combination h1 + h2
    rw [e]
    nlinarith
  intro i j p q hij hp hq
  rcases Nat.lt_or_gt_of_ne hij with h | h
  · exact key i j p q h hp hq
  · have := key j i q p h hq hp
    have e : sqDist q p = sqDist p q := by unfold sqDist; ring
    rw [← e]; exact this

/-- a sphere of diameter 2 at (1, 2, 3), the table last used with list 5, the new list being 7 -/
example (fmt : ℝ → String) (h : Hash) : ∃ s, sphereSurface fmt 7 ⟨some 5, h⟩ 2 (pt 1 2 3) 3 = .ok s ∧ s.faces.length = 1280 := by
  obtain ⟨s, h1, -, h2, -⟩ := C181_sphere fmt 7 ⟨some 5, h⟩ 2 (pt 1 2 3) 3 (by unfold eps; norm_num) (by simp)
  exact ⟨s, h1, by rw [h2]; norm_num⟩

/-- with diameter 0 there is no sphere: the normals cannot be computed -/
theorem C181_zero (fmt : ℝ → String) (me : Nat) (t : Table) (center : V4) (depth : Nat) :
    sphereSurface fmt me t 0 center depth = .error .zeroDivision := by
  unfold sphereSurface; simp

end Verif.Prim
