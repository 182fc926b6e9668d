import Verif.Stl.Ascii
import Mathlib.Data.Rat.Floor
import Mathlib.Data.Real.Sqrt
import Mathlib.Tactic.FieldSimp
import Mathlib.Tactic.Ring
import Mathlib.Tactic.NormNum

/-!
# Triangles to meshes and back (C35, C97)
-/

namespace Verif.Stl

/-! ### Specification -/

/-- index `i` of the vertex list holds a point with the key of `v` -/
def Holds {K Key : Type} (key : V3 K → Key) (verts : List (V3 K)) (v : V3 K) (i : Nat) : Prop :=
  ∃ p, verts[i]? = some p ∧ key p = key v

/-- the corners of triangles, each with the triangle's normal -/
def corners {K : Type} (ts : List (Tri K)) : List (V3 K × V3 K) :=
  ts.flatMap fun t => [(t.v0, t.normal), (t.v1, t.normal), (t.v2, t.normal)]

/-- the normals of the triangles meeting at a key, once for each corner with that key -/
def normalsAt {K Key : Type} [DecidableEq Key] (key : V3 K → Key) (k : Key) (cs : List (V3 K × V3 K)) : List (V3 K) :=
  (cs.filter fun c => key c.1 = k).map Prod.snd

/-! ### Lemmas -/

section
variable {K Key : Type} [DecidableEq Key]

abbrev Entry (K Key : Type) := Key × V3 K × List (V3 K)

theorem keyIndex_some (es : List (Entry K Key)) (k : Key) (i : Nat) (h : keyIndex es k = some i) :
    ∃ e, es[i]? = some e ∧ e.1 = k := by
  induction es generalizing i with
  | nil => cases h
  | cons e es ih =>
    rw [keyIndex] at h
    by_cases he : e.1 = k
    · rw [if_pos he] at h; cases h
      exact ⟨e, rfl, he⟩
    · rw [if_neg he] at h
      cases hk : keyIndex es k with
      | none => rw [hk] at h; cases h
      | some j =>
        rw [hk] at h; cases h
        obtain ⟨e', h1, h2⟩ := ih j hk
        exact ⟨e', by simpa using h1, h2⟩

theorem keyIndex_none (es : List (Entry K Key)) (k : Key) (h : keyIndex es k = none) : k ∉ es.map Prod.fst := by
  induction es with
  | nil => simp
  | cons e es ih =>
    rw [keyIndex] at h
    by_cases he : e.1 = k
    · rw [if_pos he] at h; cases h
    · rw [if_neg he, Option.map_eq_none_iff] at h
      rw [List.map_cons, List.mem_cons, not_or]
      exact ⟨fun h => he h.symm, ih h⟩

/-- what is known of the entries after the corners `cs` -/
structure Inv (key : V3 K → Key) (es : List (Entry K Key)) (cs : List (V3 K × V3 K)) : Prop where
  nodup : (es.map Prod.fst).Nodup
  keyed : ∀ e ∈ es, key e.2.1 = e.1
  corner : ∀ e ∈ es, ∃ c ∈ cs, c.1 = e.2.1
  normals : ∀ e ∈ es, e.2.2 = normalsAt key e.1 cs
  covered : ∀ c ∈ cs, key c.1 ∈ es.map Prod.fst

/-- key and position of an entry -/
def place (e : Entry K Key) : Key × V3 K := (e.1, e.2.1)

theorem place_addNormal (es : List (Entry K Key)) (k : Key) (n : V3 K) : (addNormal es k n).map place = es.map place := by
  unfold addNormal
  rw [List.map_map]
  apply List.map_congr_left
  intro e _
  simp only [Function.comp, place]
  split <;> rfl

theorem fst_of_place (es : List (Entry K Key)) : es.map Prod.fst = (es.map place).map Prod.fst := by
  rw [List.map_map]; rfl

theorem addCorner_spec (key : V3 K → Key) (n v : V3 K) (es : List (Entry K Key)) (cs : List (V3 K × V3 K)) (h : Inv key es cs) :
    Inv key (addCorner key n es v).1 (cs ++ [(v, n)]) ∧
    (∃ ext, (addCorner key n es v).1.map place = es.map place ++ ext) ∧
    ∃ p, ((addCorner key n es v).1.map place)[(addCorner key n es v).2]? = some (key v, p) := by
  unfold addCorner
  cases hk : keyIndex es (key v) with
  | some i =>
    simp only
    obtain ⟨e, he, hek⟩ := keyIndex_some es _ i hk
    have hpl := place_addNormal es (key v) n
    have hfst : (addNormal es (key v) n).map Prod.fst = es.map Prod.fst := by rw [fst_of_place, hpl, ← fst_of_place]
    have hmem : ∀ e' ∈ addNormal es (key v) n, ∃ e ∈ es, e'.1 = e.1 ∧ e'.2.1 = e.2.1 ∧
        e'.2.2 = if e.1 = key v then e.2.2 ++ [n] else e.2.2 := by
      intro e' h'
      unfold addNormal at h'
      rw [List.mem_map] at h'
      obtain ⟨e, he, rfl⟩ := h'
      refine ⟨e, he, ?_⟩
      by_cases hc : e.1 = key v
      · simp [hc]
      · simp [hc]
    refine ⟨⟨by rw [hfst]; exact h.nodup, ?_, ?_, ?_, ?_⟩, ⟨[], by rw [hpl, List.append_nil]⟩, ?_⟩
    · intro e' h'
      obtain ⟨e, he, h1, h2, _⟩ := hmem e' h'
      rw [h1, h2]; exact h.keyed e he
    · intro e' h'
      obtain ⟨e, he, h1, h2, _⟩ := hmem e' h'
      obtain ⟨c, hc, h3⟩ := h.corner e he
      exact ⟨c, by simp [hc], by rw [h2, h3]⟩
    · intro e' h'
      obtain ⟨e, he, h1, h2, h3⟩ := hmem e' h'
      rw [h3, h1, h.normals e he]
      unfold normalsAt
      rw [List.filter_append, List.map_append]
      by_cases hc : e.1 = key v
      · rw [if_pos hc]; simp [hc]
      · rw [if_neg hc]
        have : ¬ key v = e.1 := fun h => hc h.symm
        simp [this]
    · intro c hc
      rw [hfst]
      rw [List.mem_append] at hc
      rcases hc with hc | hc
      · exact h.covered c hc
      · rw [List.mem_singleton.mp hc, ← hek]
        exact List.mem_map_of_mem (List.mem_of_getElem? he)
    · refine ⟨e.2.1, ?_⟩
      rw [hpl, List.getElem?_map, he]
      simp [place, hek]
  | none =>
    simp only
    have hnot := keyIndex_none es _ hk
    refine ⟨⟨?_, ?_, ?_, ?_, ?_⟩, ⟨[(key v, v)], by rw [List.map_append]; rfl⟩, ?_⟩
    · rw [List.map_append, List.nodup_append]
      refine ⟨h.nodup, by simp, ?_⟩
      intro a ha b hb
      simp only [List.map_cons, List.map_nil, List.mem_singleton] at hb
      rintro rfl
      rw [hb] at ha
      exact hnot ha
    · intro e he
      rw [List.mem_append, List.mem_singleton] at he
      rcases he with he | rfl
      · exact h.keyed e he
      · rfl
    · intro e he
      rw [List.mem_append, List.mem_singleton] at he
      rcases he with he | rfl
      · obtain ⟨c, hc, h3⟩ := h.corner e he
        exact ⟨c, by simp [hc], h3⟩
      · exact ⟨(v, n), by simp, rfl⟩
    · intro e he
      rw [List.mem_append, List.mem_singleton] at he
      unfold normalsAt
      rw [List.filter_append, List.map_append]
      rcases he with he | rfl
      · have : ¬ key v = e.1 := fun hc => hnot (by rw [hc]; exact List.mem_map_of_mem he)
        rw [h.normals e he]
        simp [normalsAt, this]
      · have : cs.filter (fun c => key c.1 = key v) = [] := by
          rw [List.filter_eq_nil_iff]
          intro c hc
          simp only [decide_eq_true_eq]
          intro hkc
          exact hnot (by rw [← hkc]; exact h.covered c hc)
        simp [this]
    · intro c hc
      rw [List.map_append, List.mem_append]
      rw [List.mem_append, List.mem_singleton] at hc
      rcases hc with hc | rfl
      · exact .inl (h.covered c hc)
      · simp
    · refine ⟨v, ?_⟩
      rw [List.map_append, List.getElem?_append_right (by simp)]
      simp [place]

/-- what is known after some triangles -/
structure TInv (key : V3 K → Key) (s : Dedup K Key) (ts : List (Tri K)) : Prop where
  inv : Inv key s.entries (corners ts)
  faces : List.Forall₂ (fun (t : Tri K) (f : Nat × Nat × Nat) =>
    (∃ p, (s.entries.map place)[f.1]? = some (key t.v0, p)) ∧ (∃ p, (s.entries.map place)[f.2.1]? = some (key t.v1, p)) ∧
    (∃ p, (s.entries.map place)[f.2.2]? = some (key t.v2, p))) ts s.faces

theorem corners_append (ts : List (Tri K)) (t : Tri K) :
    corners (ts ++ [t]) = ((corners ts ++ [(t.v0, t.normal)]) ++ [(t.v1, t.normal)]) ++ [(t.v2, t.normal)] := by
  simp [corners]

theorem get_ext {α : Type} {l ext : List α} {i : Nat} {x : α} (h : l[i]? = some x) : (l ++ ext)[i]? = some x := by
  rw [List.getElem?_append_left (List.getElem?_eq_some_iff.mp h).1]
  exact h

theorem addTri_spec (key : V3 K → Key) (s : Dedup K Key) (ts : List (Tri K)) (t : Tri K) (h : TInv key s ts) :
    TInv key (addTri key s t) (ts ++ [t]) := by
  obtain ⟨i1, ⟨x1, g1⟩, p1, q1⟩ := addCorner_spec key t.normal t.v0 s.entries _ h.inv
  obtain ⟨i2, ⟨x2, g2⟩, p2, q2⟩ := addCorner_spec key t.normal t.v1 _ _ i1
  obtain ⟨i3, ⟨x3, g3⟩, p3, q3⟩ := addCorner_spec key t.normal t.v2 _ _ i2
  refine ⟨?_, ?_⟩
  · rw [corners_append]
    exact i3
  · simp only [addTri]
    rw [g3]
    refine List.rel_append ?_ ?_
    · refine h.faces.imp ?_
      rintro t f ⟨⟨a, ha⟩, ⟨b, hb⟩, ⟨c, hc⟩⟩
      rw [g2, g1]
      exact ⟨⟨a, get_ext (get_ext (get_ext ha))⟩, ⟨b, get_ext (get_ext (get_ext hb))⟩, ⟨c, get_ext (get_ext (get_ext hc))⟩⟩
    · refine .cons ⟨⟨p1, ?_⟩, ⟨p2, ?_⟩, ⟨p3, ?_⟩⟩ .nil
      · rw [g2]; exact get_ext (get_ext q1)
      · exact get_ext q2
      · rw [← g3]; exact q3

theorem foldl_spec (key : V3 K → Key) (ts done : List (Tri K)) (s : Dedup K Key) (h : TInv key s done) :
    TInv key (ts.foldl (addTri key) s) (done ++ ts) := by
  induction ts generalizing s done with
  | nil => simpa using h
  | cons t ts ih =>
    have := ih (done ++ [t]) _ (addTri_spec key s done t h)
    simpa using this

theorem dedup_spec (key : V3 K → Key) (ts : List (Tri K)) : TInv key (ts.foldl (addTri key) ⟨[], []⟩) ts := by
  have := foldl_spec key ts [] ⟨[], []⟩ ⟨⟨by simp, by simp, by simp, by simp, by simp [corners]⟩, .nil⟩
  simpa using this

variable [Field K]

/-- C35: one face per triangle, in order, whose indices refer to vertices with the keys of the triangle's corners. -/
theorem C35_faces (key : V3 K → Key) (normalize : V3 K → V3 K) (ts : List (Tri K)) :
    let m := meshDedup key normalize ts
    List.Forall₂ (fun t f => Holds key m.vertices t.v0 f.1 ∧ Holds key m.vertices t.v1 f.2.1 ∧ Holds key m.vertices t.v2 f.2.2)
      ts m.faces := by
  intro m
  obtain ⟨hi, hf⟩ := dedup_spec key ts
  have conv : ∀ (v : V3 K) (i : Nat), (∃ p, ((ts.foldl (addTri key) ⟨[], []⟩).entries.map place)[i]? = some (key v, p)) →
      Holds key m.vertices v i := by
    rintro v i ⟨p, hp⟩
    rw [List.getElem?_map] at hp
    cases he : (ts.foldl (addTri key) ⟨[], []⟩).entries[i]? with
    | none => rw [he] at hp; cases hp
    | some e =>
      rw [he] at hp
      simp only [Option.map_some, place, Option.some.injEq, Prod.mk.injEq] at hp
      refine ⟨e.2.1, ?_, ?_⟩
      · show ((ts.foldl (addTri key) ⟨[], []⟩).entries.map fun e => e.2.1)[i]? = _
        rw [List.getElem?_map, he]; rfl
      · rw [hi.keyed e (List.mem_of_getElem? he), hp.1]
  exact hf.imp fun t f h => ⟨conv _ _ h.1, conv _ _ h.2.1, conv _ _ h.2.2⟩

/-- C35: no two vertices share a key, every vertex is a corner of a triangle, exactly, and there are as many normals as
vertices: the normalised mean of the normals of the triangles meeting there. -/
theorem C35_vertices (key : V3 K → Key) (normalize : V3 K → V3 K) (ts : List (Tri K)) :
    let m := meshDedup key normalize ts
    (m.vertices.map key).Nodup ∧ (∀ p ∈ m.vertices, ∃ t ∈ ts, p = t.v0 ∨ p = t.v1 ∨ p = t.v2) ∧
    m.normals = m.vertices.map fun p =>
      let ns := normalsAt key (key p) (corners ts)
      normalize ⟨(ns.map V3.x).sum / ns.length, (ns.map V3.y).sum / ns.length, (ns.map V3.z).sum / ns.length⟩ := by
  intro m
  obtain ⟨hi, _⟩ := dedup_spec key ts
  have hv : m.vertices = (ts.foldl (addTri key) ⟨[], []⟩).entries.map fun e => e.2.1 := rfl
  have hn : m.normals = (ts.foldl (addTri key) ⟨[], []⟩).entries.map fun e => normalize (meanNormal e.2.2) := rfl
  refine ⟨?_, ?_, ?_⟩
  · rw [hv, List.map_map]
    have : (ts.foldl (addTri key) ⟨[], []⟩).entries.map (key ∘ fun e => e.2.1) =
        (ts.foldl (addTri key) ⟨[], []⟩).entries.map Prod.fst :=
      List.map_congr_left fun e he => hi.keyed e he
    rw [this]
    exact hi.nodup
  · intro p hp
    rw [hv, List.mem_map] at hp
    obtain ⟨e, he, rfl⟩ := hp
    obtain ⟨c, hc, h1⟩ := hi.corner e he
    unfold corners at hc
    rw [List.mem_flatMap] at hc
    obtain ⟨t, ht, hc⟩ := hc
    refine ⟨t, ht, ?_⟩
    rw [← h1]
    simp only [List.mem_cons, List.not_mem_nil, or_false] at hc
    rcases hc with rfl | rfl | rfl
    · exact .inl rfl
    · exact .inr (.inl rfl)
    · exact .inr (.inr rfl)
  · rw [hn, hv, List.map_map]
    apply List.map_congr_left
    intro e he
    simp only [Function.comp]
    rw [hi.normals e he, hi.keyed e he]
    rfl

end

/-- C35: without deduplication the faces list exactly the triangles' corners. -/
theorem C35_plain {K : Type} (ts : List (Tri K)) :
    let m := meshPlain 0 ts
    List.Forall₂ (fun t f => m.vertices[f.1]? = some t.v0 ∧ m.vertices[f.2.1]? = some t.v1 ∧ m.vertices[f.2.2]? = some t.v2 ∧
      m.normals[f.1]? = some t.normal ∧ m.normals[f.2.1]? = some t.normal ∧ m.normals[f.2.2]? = some t.normal) ts m.faces ∧
    m.vertices.length = 3 * ts.length ∧ m.normals.length = 3 * ts.length := by
  have gen : ∀ (ts : List (Tri K)) (i : Nat) (pv pn : List (V3 K)), pv.length = 3 * i → pn.length = 3 * i →
      List.Forall₂ (fun t f => (pv ++ (meshPlain i ts).vertices)[f.1]? = some t.v0 ∧
        (pv ++ (meshPlain i ts).vertices)[f.2.1]? = some t.v1 ∧ (pv ++ (meshPlain i ts).vertices)[f.2.2]? = some t.v2 ∧
        (pn ++ (meshPlain i ts).normals)[f.1]? = some t.normal ∧ (pn ++ (meshPlain i ts).normals)[f.2.1]? = some t.normal ∧
        (pn ++ (meshPlain i ts).normals)[f.2.2]? = some t.normal) ts (meshPlain i ts).faces ∧
      (meshPlain i ts).vertices.length = 3 * ts.length ∧ (meshPlain i ts).normals.length = 3 * ts.length := by
    intro ts
    induction ts with
    | nil => intro i pv pn _ _; exact ⟨.nil, rfl, rfl⟩
    | cons t ts ih =>
      intro i pv pn hv hn
      obtain ⟨h1, h2, h3⟩ := ih (i + 1) (pv ++ [t.v0, t.v1, t.v2]) (pn ++ [t.normal, t.normal, t.normal])
        (by rw [List.length_append, hv]; simp; omega) (by rw [List.length_append, hn]; simp; omega)
      refine ⟨?_, ?_, ?_⟩
      · simp only [meshPlain]
        refine .cons ?_ ?_
        · have a0 : i * 3 - pv.length = 0 := by omega
          have a1 : i * 3 + 1 - pv.length = 1 := by omega
          have a2 : i * 3 + 2 - pv.length = 2 := by omega
          have b0 : i * 3 - pn.length = 0 := by omega
          have b1 : i * 3 + 1 - pn.length = 1 := by omega
          have b2 : i * 3 + 2 - pn.length = 2 := by omega
          simp only
          rw [List.getElem?_append_right (by omega), List.getElem?_append_right (by omega),
            List.getElem?_append_right (by omega), List.getElem?_append_right (by omega),
            List.getElem?_append_right (by omega), List.getElem?_append_right (by omega), a0, a1, a2, b0, b1, b2]
          exact ⟨rfl, rfl, rfl, rfl, rfl, rfl⟩
        · simpa only [List.append_assoc, List.cons_append, List.nil_append] using h1
      · simp only [meshPlain, List.length_cons, h2]; omega
      · simp only [meshPlain, List.length_cons, h3]; omega
  have := gen ts 0 [] [] rfl rfl
  simpa using this

/-! ### Tolerance -/

/-- Python's `round` to an integer: nearest, ties to even -/
def roundEven (x : ℚ) : ℤ :=
  if x - ⌊x⌋ < 1 / 2 then ⌊x⌋ else if 1 / 2 < x - ⌊x⌋ then ⌊x⌋ + 1 else if ⌊x⌋ % 2 = 0 then ⌊x⌋ else ⌊x⌋ + 1

/-- `_vertex_key`, stl.py:171-174, with exact arithmetic; `scale` is 1/tol -/
def vertexKey (scale : ℚ) (v : V3 ℚ) : ℤ × ℤ × ℤ := (roundEven (v.x * scale), roundEven (v.y * scale), roundEven (v.z * scale))

theorem roundEven_near (x : ℚ) : |(roundEven x : ℚ) - x| ≤ 1 / 2 := by
  have h1 := Int.floor_le x
  have h2 := Int.lt_floor_add_one x
  unfold roundEven
  rw [abs_le]
  split_ifs <;> push_cast <;> constructor <;> linarith

/-- C35: points are merged only if each coordinate differs by at most the tolerance. -/
theorem C35_tolerance (tol : ℚ) (ht : 0 < tol) (a b : V3 ℚ) (h : vertexKey (1 / tol) a = vertexKey (1 / tol) b) :
    |a.x - b.x| ≤ tol ∧ |a.y - b.y| ≤ tol ∧ |a.z - b.z| ≤ tol := by
  have key : ∀ x y : ℚ, roundEven (x * (1 / tol)) = roundEven (y * (1 / tol)) → |x - y| ≤ tol := by
    intro x y he
    have hx := abs_le.mp (roundEven_near (x * (1 / tol)))
    have hy := abs_le.mp (roundEven_near (y * (1 / tol)))
    rw [he] at hx
    have ex : x * (1 / tol) * tol = x := by field_simp
    have ey : y * (1 / tol) * tol = y := by field_simp
    have h1 : x * (1 / tol) - y * (1 / tol) ≤ 1 := by linarith
    have h2 : -1 ≤ x * (1 / tol) - y * (1 / tol) := by linarith
    have h3 : (x * (1 / tol) - y * (1 / tol)) * tol = x - y := by rw [sub_mul, ex, ey]
    rw [abs_le, ← h3]
    constructor <;> nlinarith
  simp only [vertexKey, Prod.mk.injEq] at h
  exact ⟨key _ _ h.1, key _ _ h.2.1, key _ _ h.2.2⟩

/-- C35, example: two triangles sharing an edge give four vertices; the shared corners are merged although one differs by
less than the tolerance. -/
example :
    let a : V3 ℚ := ⟨0, 0, 0⟩
    let b : V3 ℚ := ⟨1, 0, 0⟩
    let m := meshDedup (vertexKey 100) id [⟨⟨0, 0, 1⟩, a, b, ⟨0, 1, 0⟩⟩, ⟨⟨0, 0, 1⟩, b, ⟨1 / 1000, 1, 0⟩, ⟨1, 1, 0⟩⟩]
    m.faces = [(0, 1, 2), (1, 2, 3)] ∧ m.vertices = [a, b, ⟨0, 1, 0⟩, ⟨1, 1, 0⟩] := by decide +kernel

/-! ### C97 `mesh_view` -/

section
variable {K : Type} [Field K] [LinearOrder K] [IsStrictOrderedRing K]

/-- `f` computes square roots -/
def IsSqrt (f : K → K) : Prop := ∀ x, 0 ≤ x → 0 ≤ f x ∧ f x * f x = x

/-- twice the area vector of a triangle -/
def areaVec (a b c : V3 K) : V3 K := (b.sub a).cross (c.sub a)

/-- the surface has this triangular face -/
def HasFace (s : List (V3 K) × List (List Int)) (a b c : V3 K) : Prop :=
  ∃ i j k : Int, [i, j, k] ∈ s.2 ∧ pyIndex s.1 i = some a ∧ pyIndex s.1 j = some b ∧ pyIndex s.1 k = some c

omit [IsStrictOrderedRing K] in
theorem facesView_mem (sqrt : K → K) (eps : K) (verts : List (V3 K)) (fs : List (List Int)) (ts : List (Tri K))
    (h : facesView sqrt eps verts fs = .ok ts) (t : Tri K) :
    t ∈ ts ↔ HasFace (verts, fs) t.v0 t.v1 t.v2 ∧ triangleNormal sqrt eps t.v0 t.v1 t.v2 = some t.normal := by
  induction fs generalizing ts with
  | nil =>
    cases h
    simp [HasFace]
  | cons f fs ih =>
    rw [facesView] at h
    cases h1 : faceView sqrt eps verts f with
    | error e => rw [h1] at h; cases h
    | ok t1 =>
      rw [h1] at h; simp only at h
      cases h2 : facesView sqrt eps verts fs with
      | error e => rw [h2] at h; cases h
      | ok t2 =>
        rw [h2] at h; cases h
        rw [List.mem_append, ih t2 h2]
        have hf : t ∈ t1 ↔ (∃ i j k : Int, f = [i, j, k] ∧ pyIndex verts i = some t.v0 ∧ pyIndex verts j = some t.v1 ∧
            pyIndex verts k = some t.v2) ∧ triangleNormal sqrt eps t.v0 t.v1 t.v2 = some t.normal := by
          unfold faceView at h1
          split at h1
          · next i j k =>
            split at h1
            · next a b c ha hb hc =>
              split at h1
              · next n hn =>
                cases h1
                rw [List.mem_singleton]
                constructor
                · rintro rfl
                  exact ⟨⟨i, j, k, rfl, ha, hb, hc⟩, hn⟩
                · rintro ⟨⟨i', j', k', he, ha', hb', hc'⟩, hn'⟩
                  cases he
                  rw [ha] at ha'; rw [hb] at hb'; rw [hc] at hc'
                  cases ha'; cases hb'; cases hc'
                  rw [hn] at hn'
                  obtain ⟨tn, t0, t1, t2⟩ := t
                  simp only [Option.some.injEq] at hn' ⊢
                  rw [hn']
              · next hn =>
                cases h1
                simp only [List.not_mem_nil, false_iff]
                rintro ⟨⟨i', j', k', he, ha', hb', hc'⟩, hn'⟩
                cases he
                rw [ha] at ha'; rw [hb] at hb'; rw [hc] at hc'
                cases ha'; cases hb'; cases hc'
                rw [hn] at hn'
                cases hn'
            · cases h1
          · next hne =>
            cases h1
            simp only [List.not_mem_nil, false_iff]
            rintro ⟨⟨i', j', k', he, _⟩, _⟩
            exact hne _ _ _ he
        rw [hf]
        constructor
        · rintro (⟨⟨i, j, k, rfl, h3⟩, h4⟩ | ⟨⟨i, j, k, h5, h3⟩, h4⟩)
          · exact ⟨⟨i, j, k, by simp, h3⟩, h4⟩
          · exact ⟨⟨i, j, k, by simp [h5], h3⟩, h4⟩
        · rintro ⟨⟨i, j, k, h5, h3⟩, h4⟩
          rcases List.mem_cons.mp h5 with rfl | h5
          · exact .inl ⟨⟨i, j, k, rfl, h3⟩, h4⟩
          · exact .inr ⟨⟨i, j, k, h5, h3⟩, h4⟩

omit [IsStrictOrderedRing K] in
theorem meshView_mem (sqrt : K → K) (eps : K) (ss : List (List (V3 K) × List (List Int))) (ts : List (Tri K))
    (h : meshView sqrt eps ss = .ok ts) (t : Tri K) :
    t ∈ ts ↔ (∃ s ∈ ss, HasFace s t.v0 t.v1 t.v2) ∧ triangleNormal sqrt eps t.v0 t.v1 t.v2 = some t.normal := by
  induction ss generalizing ts with
  | nil => cases h; simp
  | cons s ss ih =>
    rw [meshView] at h
    cases h1 : facesView sqrt eps s.1 s.2 with
    | error e => rw [h1] at h; cases h
    | ok t1 =>
      rw [h1] at h; simp only at h
      cases h2 : meshView sqrt eps ss with
      | error e => rw [h2] at h; cases h
      | ok t2 =>
        rw [h2] at h; cases h
        rw [List.mem_append, ih t2 h2, facesView_mem sqrt eps s.1 s.2 t1 h1 t]
        simp only [List.mem_cons, exists_eq_or_imp]
        tauto

/-- C97: every triangle `mesh_view` yields is a face of one of the surfaces, and its normal has length one, is orthogonal to
the triangle's edges and on the side from which the corners run counter-clockwise. -/
theorem C97_normals (sqrt : K → K) (hs : IsSqrt sqrt) (eps : K) (he : 0 ≤ eps) (ss : List (List (V3 K) × List (List Int)))
    (ts : List (Tri K)) (h : meshView sqrt eps ss = .ok ts) (t : Tri K) (ht : t ∈ ts) :
    (∃ s ∈ ss, HasFace s t.v0 t.v1 t.v2) ∧ t.normal.dot t.normal = 1 ∧ t.normal.dot (t.v1.sub t.v0) = 0 ∧
    t.normal.dot (t.v2.sub t.v0) = 0 ∧ 0 < t.normal.dot (areaVec t.v0 t.v1 t.v2) := by
  obtain ⟨hf, hn⟩ := (meshView_mem sqrt eps ss ts h t).mp ht
  refine ⟨hf, ?_⟩
  unfold triangleNormal at hn
  simp only at hn
  by_cases hl : sqrt ((areaVec t.v0 t.v1 t.v2).dot (areaVec t.v0 t.v1 t.v2)) ≤ eps
  · rw [if_pos (by exact hl)] at hn; cases hn
  · rw [if_neg (by exact hl)] at hn
    have hd : 0 ≤ (areaVec t.v0 t.v1 t.v2).dot (areaVec t.v0 t.v1 t.v2) := by
      unfold V3.dot
      nlinarith [mul_self_nonneg (areaVec t.v0 t.v1 t.v2).x, mul_self_nonneg (areaVec t.v0 t.v1 t.v2).y,
        mul_self_nonneg (areaVec t.v0 t.v1 t.v2).z]
    obtain ⟨_, hsq⟩ := hs _ hd
    push Not at hl
    have hpos : 0 < sqrt ((areaVec t.v0 t.v1 t.v2).dot (areaVec t.v0 t.v1 t.v2)) := lt_of_le_of_lt he hl
    change some (⟨(areaVec t.v0 t.v1 t.v2).x / sqrt ((areaVec t.v0 t.v1 t.v2).dot (areaVec t.v0 t.v1 t.v2)),
      (areaVec t.v0 t.v1 t.v2).y / sqrt ((areaVec t.v0 t.v1 t.v2).dot (areaVec t.v0 t.v1 t.v2)),
      (areaVec t.v0 t.v1 t.v2).z / sqrt ((areaVec t.v0 t.v1 t.v2).dot (areaVec t.v0 t.v1 t.v2))⟩ : V3 K) = _ at hn
    generalize sqrt ((areaVec t.v0 t.v1 t.v2).dot (areaVec t.v0 t.v1 t.v2)) = L at hn hsq hpos
    have hL : L ≠ 0 := ne_of_gt hpos
    rw [← Option.some.inj hn]
    have hsq' := hsq
    refine ⟨?_, ?_, ?_, ?_⟩
    · simp only [V3.dot] at hsq ⊢
      rw [div_mul_div_comm, div_mul_div_comm, div_mul_div_comm, ← add_div, ← add_div, hsq]
      exact div_self (by rw [← hsq]; exact mul_ne_zero hL hL)
    · simp only [V3.dot, areaVec, V3.cross, V3.sub]
      field_simp
      ring
    · simp only [V3.dot, areaVec, V3.cross, V3.sub]
      field_simp
      ring
    · have e : (⟨(areaVec t.v0 t.v1 t.v2).x / L, (areaVec t.v0 t.v1 t.v2).y / L, (areaVec t.v0 t.v1 t.v2).z / L⟩ : V3 K).dot
          (areaVec t.v0 t.v1 t.v2) = L := by
        have : (areaVec t.v0 t.v1 t.v2).x / L * (areaVec t.v0 t.v1 t.v2).x + (areaVec t.v0 t.v1 t.v2).y / L * (areaVec t.v0 t.v1 t.v2).y +
          (areaVec t.v0 t.v1 t.v2).z / L * (areaVec t.v0 t.v1 t.v2).z = (areaVec t.v0 t.v1 t.v2).dot (areaVec t.v0 t.v1 t.v2) / L := by
          simp only [V3.dot]
          field_simp
        show (areaVec t.v0 t.v1 t.v2).x / L * (areaVec t.v0 t.v1 t.v2).x + (areaVec t.v0 t.v1 t.v2).y / L * (areaVec t.v0 t.v1 t.v2).y +
          (areaVec t.v0 t.v1 t.v2).z / L * (areaVec t.v0 t.v1 t.v2).z = L
        rw [this, ← hsq', mul_div_assoc, div_self hL, mul_one]
      rw [e]
      exact hpos

/-- C97 (partial): every triangular face whose area exceeds half of epsilon is yielded. Missing: smaller faces of positive
area are dropped. -/
theorem C97_kept_partial (sqrt : K → K) (hs : IsSqrt sqrt) (eps : K) (he : 0 ≤ eps) (ss : List (List (V3 K) × List (List Int)))
    (ts : List (Tri K)) (h : meshView sqrt eps ss = .ok ts) (s : List (V3 K) × List (List Int)) (hmem : s ∈ ss) (a b c : V3 K)
    (hf : HasFace s a b c) (harea : eps * eps < (areaVec a b c).dot (areaVec a b c)) :
    ∃ t ∈ ts, t.v0 = a ∧ t.v1 = b ∧ t.v2 = c := by
  have hd : 0 ≤ (areaVec a b c).dot (areaVec a b c) := le_trans (mul_nonneg he he) (le_of_lt harea)
  obtain ⟨h0, hsq⟩ := hs _ hd
  have hgt : ¬ sqrt ((areaVec a b c).dot (areaVec a b c)) ≤ eps := by
    intro hle
    have := mul_le_mul hle hle h0 he
    rw [hsq] at this
    exact absurd harea (not_lt.mpr this)
  have hn : triangleNormal sqrt eps a b c = some ⟨(areaVec a b c).x / sqrt ((areaVec a b c).dot (areaVec a b c)),
      (areaVec a b c).y / sqrt ((areaVec a b c).dot (areaVec a b c)),
      (areaVec a b c).z / sqrt ((areaVec a b c).dot (areaVec a b c))⟩ := by
    unfold triangleNormal
    simp only
    rw [if_neg (by exact hgt)]
    rfl
  exact ⟨⟨_, a, b, c⟩, (meshView_mem sqrt eps ss ts h _).mpr ⟨⟨s, hmem, hf⟩, hn⟩, rfl, rfl, rfl⟩

end

/-- C97 (violated): a right triangle with legs of 0.002 is skipped as if it had no area: a solid made of such faces is
exported as an empty file. -/
theorem C97_small_dropped {K : Type} [Field K] [LinearOrder K] [IsStrictOrderedRing K] (sqrt : K → K) (hs : IsSqrt sqrt) :
    meshView sqrt (5 / 1000000) [([⟨0, 0, 0⟩, ⟨1 / 500, 0, 0⟩, ⟨0, 1 / 500, 0⟩], [[0, 1, 2]])] = .ok [] := by
  have e : ((⟨1 / 500, 0, 0⟩ : V3 K).sub ⟨0, 0, 0⟩).cross ((⟨0, 1 / 500, 0⟩ : V3 K).sub ⟨0, 0, 0⟩) = ⟨0, 0, 1 / 250000⟩ := by
    simp only [V3.sub, V3.cross]
    norm_num
  have hn : triangleNormal sqrt (5 / 1000000) ⟨0, 0, 0⟩ ⟨1 / 500, 0, 0⟩ ⟨0, 1 / 500, 0⟩ = none := by
    unfold triangleNormal
    simp only [e]
    rw [if_pos]
    obtain ⟨h0, h1⟩ := hs ((⟨0, 0, 1 / 250000⟩ : V3 K).dot ⟨0, 0, 1 / 250000⟩) (by simp only [V3.dot]; norm_num)
    by_contra hc
    push Not at hc
    have : (5 / 1000000 : K) * (5 / 1000000) < (⟨0, 0, 1 / 250000⟩ : V3 K).dot ⟨0, 0, 1 / 250000⟩ := by
      rw [← h1]
      exact mul_lt_mul'' hc hc (by norm_num) (by norm_num)
    simp only [V3.dot] at this
    norm_num at this
  have hf : faceView sqrt (5 / 1000000) [⟨0, 0, 0⟩, ⟨1 / 500, 0, 0⟩, ⟨0, 1 / 500, 0⟩] [0, 1, 2] = .ok [] := by
    have e0 : pyIndex [(⟨0, 0, 0⟩ : V3 K), ⟨1 / 500, 0, 0⟩, ⟨0, 1 / 500, 0⟩] 0 = some ⟨0, 0, 0⟩ := rfl
    have e1 : pyIndex [(⟨0, 0, 0⟩ : V3 K), ⟨1 / 500, 0, 0⟩, ⟨0, 1 / 500, 0⟩] 1 = some ⟨1 / 500, 0, 0⟩ := rfl
    have e2 : pyIndex [(⟨0, 0, 0⟩ : V3 K), ⟨1 / 500, 0, 0⟩, ⟨0, 1 / 500, 0⟩] 2 = some ⟨0, 1 / 500, 0⟩ := rfl
    unfold faceView
    simp only [e0, e1, e2, hn]
  simp only [meshView, facesView, hf, List.append_nil]

/-- C97, example: a unit right triangle in the plane is kept, with any square root function. -/
example {K : Type} [Field K] [LinearOrder K] [IsStrictOrderedRing K] (a b c : V3 K)
    (ha : a = ⟨0, 0, 0⟩) (hb : b = ⟨1, 0, 0⟩) (hc : c = ⟨0, 1, 0⟩) :
    HasFace ([a, b, c], [[0, 1, 2]]) a b c ∧ (5 / 1000000 : K) * (5 / 1000000) < (areaVec a b c).dot (areaVec a b c) := by
  subst ha hb hc
  refine ⟨⟨0, 1, 2, by simp, rfl, rfl, rfl⟩, ?_⟩
  simp only [areaVec, V3.cross, V3.sub, V3.dot]
  norm_num

/-- C97, example: the real numbers have a square root function. -/
example : IsSqrt Real.sqrt := fun x hx => ⟨Real.sqrt_nonneg x, Real.mul_self_sqrt hx⟩

end Verif.Stl
