import Verif.Checks.Props
import Verif.Prim.Model

/-!
# The result of a boolean operation: `_surface_from_triangles`, `_boolean_fragments` and the choice of triangles in `solid_boolean` (C271, C272)

Real numbers. The points of a triangle are points (`w = 1`), so that `point(pt)` is a copy.
-/

namespace Verif.Bool3
open Verif.Geom Verif.Surf Verif.Checks

abbrev Tri4 := V4 × V4 × V4

/-- the loop of `_surface_from_triangles`, native.py:950-961: vertices, normals and faces so far -/
noncomputable def addTris (vs ns : List V4) (fs : List (List Int)) : List Tri4 → Except Verif.Geom.Err Surface
  | [] => .ok ⟨vs, ns, fs, [], []⟩
  | t :: ts =>
    if mag (cross (sub t.2.1 t.1) (sub t.2.2 t.1)) < eps then addTris vs ns fs ts
    else
      match Verif.Prim.tri2p0n t.1 t.2.1 t.2.2 with
      | .error e => .error e
      | .ok (_, n) =>
        addTris (vs ++ [t.1, t.2.1, t.2.2]) (ns ++ [⟨n.x, n.y, n.z, 0⟩, ⟨n.x, n.y, n.z, 0⟩, ⟨n.x, n.y, n.z, 0⟩])
          (fs ++ [[(vs.length : Int), vs.length + 1, vs.length + 2]]) ts

/-- `_surface_from_triangles`, native.py:944-965 -/
noncomputable def surfaceFromTriangles (ts : List Tri4) : Except Verif.Geom.Err (Option Surface) :=
  if ts = [] then .ok none
  else
    match addTris [] [] [] ts with
    | .error e => .error e
    | .ok s => .ok (some s)

/-- `_iter_triangles_from_surface`, native.py:968-974; a bad vertex number raises `IndexError` -/
def trianglesOf (s : Surface) : List (List Int) → Except Verif.Geom.Err (List Tri4)
  | [] => .ok []
  | [a, b, c] :: fs =>
    match pyGet s.verts a, pyGet s.verts b, pyGet s.verts c, trianglesOf s fs with
    | .ok p, .ok q, .ok r, .ok l => .ok ((p, q, r) :: l)
    | .error e, _, _, _ => .error e
    | _, .error e, _, _ => .error e
    | _, _, .error e, _ => .error e
    | _, _, _, .error e => .error e
  | _ :: fs => trianglesOf s fs

/-! ## specification -/

open Classical in
/-- the triangles that are not too small -/
noncomputable def large (ts : List Tri4) : List Tri4 := ts.filter fun t => decide (eps ≤ mag (cross (sub t.2.1 t.1) (sub t.2.2 t.1)))

/-- three vertices for each triangle -/
def corners (ts : List Tri4) : List V4 := ts.flatMap fun t => [t.1, t.2.1, t.2.2]

/-- consecutive triples of numbers -/
def triples (n : Nat) : Nat → List (List Int)
  | 0 => []
  | k + 1 => [(n : Int), n + 1, n + 2] :: triples (n + 3) k

theorem tri2p0n_large {p q r : V4} (h : ¬ mag (cross (sub q p) (sub r p)) < eps) :
    ∃ c n, Verif.Prim.tri2p0n p q r = .ok (c, n) ∧ n.w = 0 ∧ ∃ m, m = mag (cross (sub q p) (sub r p)) ∧
      n.x = (cross (sub q p) (sub r p)).x / m ∧ n.y = (cross (sub q p) (sub r p)).y / m ∧ n.z = (cross (sub q p) (sub r p)).z / m := by
  have ex : (cross (sub q p) (sub r q)).x = (cross (sub q p) (sub r p)).x := by simp only [cross, sub]; ring
  have ey : (cross (sub q p) (sub r q)).y = (cross (sub q p) (sub r p)).y := by simp only [cross, sub]; ring
  have ez : (cross (sub q p) (sub r q)).z = (cross (sub q p) (sub r p)).z := by simp only [cross, sub]; ring
  have em : mag (cross (sub q p) (sub r q)) = mag (cross (sub q p) (sub r p)) := by unfold mag; rw [ex, ey, ez]
  unfold Verif.Prim.tri2p0n
  dsimp only
  rw [em, if_neg h]
  refine ⟨_, _, rfl, rfl, _, rfl, ?_, ?_, ?_⟩
  · simp only [scale3]; rw [ex]; ring
  · simp only [scale3]; rw [ey]; ring
  · simp only [scale3]; rw [ez]; ring

/-- the unit normal of a triangle -/
noncomputable def unitNormal (t : Tri4) : V4 :=
  let c := cross (sub t.2.1 t.1) (sub t.2.2 t.1)
  ⟨c.x / mag c, c.y / mag c, c.z / mag c, 0⟩

theorem addTris_eq : ∀ (ts : List Tri4) (vs ns : List V4) (fs : List (List Int)),
    addTris vs ns fs ts = .ok ⟨vs ++ corners (large ts), ns ++ (large ts).flatMap (fun t => [unitNormal t, unitNormal t, unitNormal t]), fs ++ triples vs.length (large ts).length, [], []⟩
  | [], vs, ns, fs => by simp [addTris, large, corners, triples]
  | t :: ts, vs, ns, fs => by
    rw [addTris]
    by_cases h : mag (cross (sub t.2.1 t.1) (sub t.2.2 t.1)) < eps
    · have hl : large (t :: ts) = large ts := by unfold large; rw [List.filter_cons, if_neg (by simpa using h)]
      rw [if_pos h, addTris_eq ts, hl]
    · have hl : large (t :: ts) = t :: large ts := by unfold large; rw [List.filter_cons, if_pos (by simpa using h)]
      rw [if_neg h]
      obtain ⟨c, n, hn, -, m, hm, e1, e2, e3⟩ := tri2p0n_large h
      rw [hn]
      dsimp only
      have en : (⟨n.x, n.y, n.z, 0⟩ : V4) = unitNormal t := by unfold unitNormal; dsimp only; rw [e1, e2, e3, hm]
      rw [addTris_eq ts, hl, en]
      simp [corners, triples, List.append_assoc]

theorem pyGet_nat {l : List V4} {n : Nat} {a : V4} (h : l[n]? = some a) : pyGet l (n : Int) = .ok a := by
  obtain ⟨hn, h'⟩ := List.getElem?_eq_some_iff.1 h
  unfold pyGet
  have h0 : ¬ ((n : Int) < 0) := by omega
  dsimp only
  rw [if_neg h0, if_neg h0, Int.toNat_natCast, h]

theorem trianglesOf_triples {s : Surface} : ∀ (ts : List Tri4) (pre : List V4), s.verts = pre ++ corners ts → trianglesOf s (triples pre.length ts.length) = .ok ts
  | [], _, _ => by simp [triples, trianglesOf]
  | t :: ts, pre, h => by
    have hc : corners (t :: ts) = [t.1, t.2.1, t.2.2] ++ corners ts := by simp [corners]
    have ih := trianglesOf_triples ts (pre ++ [t.1, t.2.1, t.2.2]) (by rw [h, hc, List.append_assoc])
    rw [List.length_append] at ih
    simp only [List.length_cons, List.length_nil, Nat.zero_add, Nat.reduceAdd] at ih
    have g0 : pyGet s.verts (pre.length : Int) = .ok t.1 := pyGet_nat (by rw [h, hc]; simp)
    have g1 : pyGet s.verts ((pre.length : Int) + 1) = .ok t.2.1 := by
      have := pyGet_nat (l := s.verts) (n := pre.length + 1) (a := t.2.1) (by rw [h, hc]; simp)
      simpa using this
    have g2 : pyGet s.verts ((pre.length : Int) + 2) = .ok t.2.2 := by
      have := pyGet_nat (l := s.verts) (n := pre.length + 2) (a := t.2.2) (by rw [h, hc]; simp)
      simpa using this
    rw [List.length_cons, triples, trianglesOf, g0, g1, g2, ih]

/-- every side of the triples has two different numbers in the range -/
theorem joins_triples_low : ∀ (k n : Nat) (a b : Int), a < n → joins (triples n k) a b = 0
  | 0, _, _, _, _ => by simp [triples, joins, allSides]
  | k + 1, n, a, b, h => by
    have ih := joins_triples_low k (n + 3) a b (by push_cast; omega)
    unfold joins allSides at ih ⊢
    rw [triples, List.flatMap_cons, List.countP_append, ih]
    simp only [List.countP_cons, List.countP_nil, decide_eq_true_eq]
    split_ifs <;> omega

theorem joins_triples (k n : Nat) : joins (triples n (k + 1)) n (n + 1) = 1 := by
  have ih := joins_triples_low k (n + 3) n (n + 1) (by push_cast; omega)
  unfold joins allSides at ih ⊢
  rw [triples, List.flatMap_cons, List.countP_append, ih]
  dsimp only
  rw [List.countP_cons_of_pos (by simp), List.countP_cons_of_neg (by rw [decide_eq_true_eq]; dsimp only; omega), List.countP_cons_of_neg (by rw [decide_eq_true_eq]; dsimp only; omega),
    List.countP_nil]

/-- `_surface_from_triangles` never fails; it keeps exactly the triangles that are not too small, in their order, with their unit normals. -/
theorem C271_keeps_partial (ts : List Tri4) :
    (surfaceFromTriangles ts = .ok none ↔ ts = []) ∧ (ts ≠ [] → ∃ s, surfaceFromTriangles ts = .ok (some s) ∧ trianglesOf s s.faces = .ok (large ts) ∧
      s.verts.length = 3 * (large ts).length ∧ s.norms = (large ts).flatMap (fun t => [unitNormal t, unitNormal t, unitNormal t])) := by
  unfold surfaceFromTriangles
  constructor
  · by_cases h : ts = []
    · simp [h]
    · rw [if_neg h, addTris_eq]; simp [h]
  · intro h
    rw [if_neg h, addTris_eq]
    refine ⟨_, rfl, ?_, ?_, by simp⟩
    · exact trianglesOf_triples (large ts) [] (by simp)
    · simp only [List.nil_append]
      unfold corners
      generalize large ts = l
      induction l with
      | nil => rfl
      | cons t l ih => rw [List.flatMap_cons, List.length_append, ih]; simp; ring

/-- No result of a boolean operation passes `surface_watertight` unless it is empty: no two triangles share a vertex number. -/
theorem C271_never_watertight {ts : List Tri4} {s : Surface} (h : surfaceFromTriangles ts = .ok (some s)) (hne : large ts ≠ []) :
    ∃ c, surfaceWatertight (some s) = .ok c ∧ c.ok = false ∧ c.warnings ≠ [] := by
  unfold surfaceFromTriangles at h
  split at h
  · cases h
  · rw [addTris_eq] at h
    simp only [List.nil_append, List.length_nil, Except.ok.injEq, Option.some.injEq] at h
    subst h
    obtain ⟨k, hk⟩ : ∃ k, (large ts).length = k + 1 := ⟨(large ts).length - 1, by have := List.length_pos_iff.2 hne; omega⟩
    obtain ⟨c, hc, h1, h2⟩ := C188_iff ⟨corners (large ts), (large ts).flatMap (fun t => [unitNormal t, unitNormal t, unitNormal t]), triples 0 (large ts).length, [], []⟩
    have hok : c.ok ≠ true := by
      intro ho
      have := h1.1 ho 0 1
      dsimp only at this
      rw [hk] at this
      have hj := joins_triples k 0
      simp only [Nat.cast_zero, zero_add] at hj
      rw [hj] at this
      omega
    exact ⟨c, hc, by simpa using hok, fun hw => hok (h2.2 hw)⟩

/-! ## which triangles -/

/-- the operations -/
inductive Op
  | union
  | inter
  | diff
  deriving DecidableEq

section choice
variable {T : Type}

/-- `_boolean_fragments`, native.py:789-806: the outside, the inside and the overlapping parts; `clip` is `_clip_triangle_against_solid` -/
def fragments (clip : T → List T × List T × Bool) : List T → List T × List T × List T
  | [] => ([], [], [])
  | t :: ts =>
    let c := clip t
    let r := fragments clip ts
    (c.2.1 ++ r.1, c.1 ++ r.2.1, (if c.2.2 = true ∧ c.1 ≠ [] then c.1 else []) ++ r.2.2)

/-- the triangles chosen by `solid_boolean`, native.py:1111-1152: the clipped solids, the filters `_filter_triangles_against_other` and `_union_boundary_from_inside`
against each solid, and the reversal of a triangle -/
def choose (op : Op) (fa fb : List T × List T × List T) (filtA filtB boundA boundB : List T → List T) (rev : T → T) : List T :=
  match op with
  | .union =>
    let r := filtB fa.1 ++ filtA fb.1 ++ boundB fa.2.1 ++ boundA fb.2.1 ++ filtB fa.2.2 ++ filtA fb.2.2
    if r = [] then (if fa.2.1 ≠ [] then fa.2.1 else fb.2.1) else r
  | .inter => if fa.2.1 ++ fb.2.1 = [] then fa.2.2 ++ fb.2.2 else fa.2.1 ++ fb.2.1
  | .diff =>
    let r := fb.2.1.map rev
    filtB fa.1 ++ (if r = [] ∧ fb.2.2 ≠ [] then fb.2.2.map rev else r)

theorem overlap_inside (clip : T → List T × List T × Bool) : ∀ ts : List T, (fragments clip ts).2.2.Sublist (fragments clip ts).2.1
  | [] => by simp [fragments]
  | t :: ts => by
    rw [fragments]
    dsimp only
    refine List.Sublist.append ?_ (overlap_inside clip ts)
    split
    · exact List.Sublist.refl _
    · exact List.nil_sublist _

/-- The intersection has exactly the inside parts of both solids, the difference exactly the filtered outside parts of the first and the reversed inside parts of the second:
the fallbacks to the overlapping parts never add anything. -/
theorem C272_parts (clip clip' : T → List T × List T × Bool) (ta tb : List T) (filtA filtB boundA boundB : List T → List T) (rev : T → T) :
    choose .inter (fragments clip ta) (fragments clip' tb) filtA filtB boundA boundB rev = ta.flatMap (fun t => (clip t).1) ++ tb.flatMap (fun t => (clip' t).1) ∧
      choose .diff (fragments clip ta) (fragments clip' tb) filtA filtB boundA boundB rev =
        filtB (ta.flatMap fun t => (clip t).2.1) ++ (tb.flatMap fun t => (clip' t).1).map rev := by
  have hin : ∀ (c : T → List T × List T × Bool) (ts : List T), (fragments c ts).2.1 = ts.flatMap fun t => (c t).1 := by
    intro c ts
    induction ts with
    | nil => rfl
    | cons t ts ih => rw [fragments, List.flatMap_cons, ← ih]
  have hout : ∀ (c : T → List T × List T × Bool) (ts : List T), (fragments c ts).1 = ts.flatMap fun t => (c t).2.1 := by
    intro c ts
    induction ts with
    | nil => rfl
    | cons t ts ih => rw [fragments, List.flatMap_cons, ← ih]
  have hsub : ∀ (c : T → List T × List T × Bool) (ts : List T), (fragments c ts).2.1 = [] → (fragments c ts).2.2 = [] := by
    intro c ts h
    have := overlap_inside c ts
    rw [h] at this
    exact List.sublist_nil.1 this
  constructor
  · unfold choose
    dsimp only
    split
    · rename_i h
      rw [List.append_eq_nil_iff] at h
      rw [hsub _ _ h.1, hsub _ _ h.2, ← hin, ← hin, h.1, h.2]
    · rw [hin, hin]
  · unfold choose
    dsimp only
    rw [if_neg, hin, hout]
    rintro ⟨h1, h2⟩
    exact h2 (hsub _ _ (List.map_eq_nil_iff.1 h1))

/-- Swapping the operands of an intersection gives the same triangles in another order, and of a union too unless nothing is left of either boundary. -/
theorem C272_symmetric_partial (fa fb : List T × List T × List T) (filtA filtB boundA boundB : List T → List T) (rev : T → T) :
    (fa.2.2.Sublist fa.2.1 → fb.2.2.Sublist fb.2.1 → (choose .inter fa fb filtA filtB boundA boundB rev).Perm (choose .inter fb fa filtB filtA boundB boundA rev)) ∧
      (filtB fa.1 ++ filtA fb.1 ++ boundB fa.2.1 ++ boundA fb.2.1 ≠ [] →
        (choose .union fa fb filtA filtB boundA boundB rev).Perm (choose .union fb fa filtB filtA boundB boundA rev)) := by
  constructor
  · intro ha hb
    unfold choose
    dsimp only
    by_cases h : fa.2.1 ++ fb.2.1 = []
    · have h' := List.append_eq_nil_iff.1 h
      rw [if_pos h, if_pos (by rw [h'.1, h'.2]; rfl)]
      exact List.perm_append_comm
    · rw [if_neg h, if_neg (fun h' => h (by have := List.append_eq_nil_iff.1 h'; rw [this.1, this.2]; rfl))]
      exact List.perm_append_comm
  · intro hne
    unfold choose
    dsimp only
    have hp : (filtB fa.1 ++ filtA fb.1 ++ boundB fa.2.1 ++ boundA fb.2.1 ++ filtB fa.2.2 ++ filtA fb.2.2).Perm
        (filtA fb.1 ++ filtB fa.1 ++ boundA fb.2.1 ++ boundB fa.2.1 ++ filtA fb.2.2 ++ filtB fa.2.2) := by
      simp only [List.append_assoc]
      refine (List.perm_append_comm_assoc _ _ _).trans (.append_left _ (.append_left _ ?_))
      refine (List.perm_append_comm_assoc _ _ _).trans (.append_left _ (.append_left _ ?_))
      exact List.perm_append_comm
    have h1 : filtB fa.1 ++ filtA fb.1 ++ boundB fa.2.1 ++ boundA fb.2.1 ++ filtB fa.2.2 ++ filtA fb.2.2 ≠ [] := by
      intro h
      rw [List.append_assoc] at h
      exact hne (List.append_eq_nil_iff.1 h).1
    have h2 : filtA fb.1 ++ filtB fa.1 ++ boundA fb.2.1 ++ boundB fa.2.1 ++ filtA fb.2.2 ++ filtB fa.2.2 ≠ [] := by
      intro h
      rw [h] at hp
      exact h1 (List.perm_nil.1 hp)
    rw [if_neg h1, if_neg h2]
    exact hp

end choice

/-! ## the hypotheses are met -/

/-- one large triangle -/
example : large [(pt 0 0, pt 1 0, pt 0 1)] = [(pt 0 0, pt 1 0, pt 0 1)] := by
  unfold large
  rw [List.filter_cons, if_pos, List.filter_nil]
  rw [decide_eq_true_eq]
  have : mag (cross (sub (pt 1 0) (pt 0 0)) (sub (pt 0 1) (pt 0 0))) = 1 := by
    simp [mag, cross, sub, pt]
  rw [this]
  norm_num [eps]

example : fragments (fun n : Nat => if n = 1 then ([10, 11], [12], true) else ([], [n], false)) [1, 2] = ([12, 2], [10, 11], [10, 11]) := rfl

end Verif.Bool3
