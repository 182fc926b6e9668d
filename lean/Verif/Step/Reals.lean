import Verif.Step.Props
import Mathlib.Analysis.SpecialFunctions.Pow.Real
import Mathlib.Tactic.Ring
import Mathlib.Tactic.FieldSimp
import Mathlib.Tactic.Linarith
import Mathlib.Tactic.Positivity

/-! # The directions, lengths and planes of a STEP file over the reals -/

namespace Verif.Step

/-- points and vectors -/
abbrev V3 := ℝ × ℝ × ℝ

noncomputable section

/-- the length of a vector: `(x ** 2 + y ** 2 + z ** 2) ** 0.5` -/
def norm3 (v : V3) : ℝ := Real.sqrt (v.1 ^ 2 + v.2.1 ^ 2 + v.2.2 ^ 2)

open Classical in
/-- `_normalize`, step.py:453-457 -/
def normalize (v : V3) : V3 := if norm3 v = 0 then (0, 0, 1) else (v.1 / norm3 v, v.2.1 / norm3 v, v.2.2 / norm3 v)

/-- the difference of points -/
def sub3 (q p : V3) : V3 := (q.1 - p.1, q.2.1 - p.2.1, q.2.2 - p.2.2)

/-- `_distance`, step.py:460-461 -/
def distance (p q : V3) : ℝ := Real.sqrt ((p.1 - q.1) ^ 2 + (p.2.1 - q.2.1) ^ 2 + (p.2.2 - q.2.2) ^ 2)

open Classical in
/-- `_perpendicular`, step.py:464-468 -/
def perpendicular (n : V3) : V3 := if |n.1| < |n.2.2| then normalize (-n.2.2, 0, n.1) else normalize (0, n.2.2, -n.2.1)

/-- the functions of step.py over the reals: `_line_for_edge`, step.py:246-256, takes the direction of the difference of the ends -/
def realGeo : Geo V3 V3 ℝ := ⟨fun p q => normalize (sub3 q p), distance, perpendicular⟩

/-! ## specification -/

/-- the inner product -/
def dot3 (v w : V3) : ℝ := v.1 * w.1 + v.2.1 * w.2.1 + v.2.2 * w.2.2

/-- vectors of length one -/
def Unit3 (v : V3) : Prop := dot3 v v = 1

/-- the point at distance `l` from `p` in direction `d` -/
def along (p : V3) (d : V3) (l : ℝ) : V3 := (p.1 + l * d.1, p.2.1 + l * d.2.1, p.2.2 + l * d.2.2)

theorem norm3_zero {v : V3} : norm3 v = 0 ↔ v = (0, 0, 0) := by
  unfold norm3
  rw [Real.sqrt_eq_zero (by positivity)]
  constructor
  · intro h
    have h1 : v.1 ^ 2 = 0 := by nlinarith [sq_nonneg v.1, sq_nonneg v.2.1, sq_nonneg v.2.2]
    have h2 : v.2.1 ^ 2 = 0 := by nlinarith [sq_nonneg v.1, sq_nonneg v.2.1, sq_nonneg v.2.2]
    have h3 : v.2.2 ^ 2 = 0 := by nlinarith [sq_nonneg v.1, sq_nonneg v.2.1, sq_nonneg v.2.2]
    simp only [ne_eq, OfNat.ofNat_ne_zero, not_false_eq_true, pow_eq_zero_iff] at h1 h2 h3
    exact Prod.ext h1 (Prod.ext h2 h3)
  · rintro rfl; norm_num

theorem norm3_sq (v : V3) : norm3 v * norm3 v = v.1 ^ 2 + v.2.1 ^ 2 + v.2.2 ^ 2 := Real.mul_self_sqrt (by positivity)

theorem normalize_unit (v : V3) : Unit3 (normalize v) := by
  unfold Unit3 dot3 normalize
  by_cases h : norm3 v = 0
  · rw [if_pos h]; norm_num
  · rw [if_neg h]
    have := norm3_sq v
    field_simp
    linarith

/-- C304: the direction of an edge's line is a unit vector, and the length leads from the first end to the second -/
theorem C304_lines {name : String} {tris : List (Tri V3 V3)} [DecidableEq V3] {w : List (Ent V3 V3 ℝ)} (h : write realGeo name tris = .ok w) {n a b l : Nat} (hn : get w n = some (.edge a b l)) :
    ∃ p q pt v d u r, readVertex w a = some p ∧ readVertex w b = some q ∧ get w l = some (.line pt v) ∧ get w pt = some (.point p) ∧
      get w v = some (.vector d r) ∧ get w d = some (.direction u) ∧ Unit3 u ∧ along p u r = q := by
  obtain ⟨p, q, pt, v, d, h1, h2, h3, h4, h5, h6⟩ := C300_lines h hn
  refine ⟨p, q, pt, v, d, _, _, h1, h2, h3, h4, h5, h6, normalize_unit _, ?_⟩
  have hd : realGeo.len p q = norm3 (sub3 q p) := by
    show distance p q = _
    unfold distance norm3 sub3
    congr 1
    ring
  rw [hd]
  show along p (normalize (sub3 q p)) _ = q
  unfold normalize
  by_cases hz : norm3 (sub3 q p) = 0
  · rw [if_pos hz, hz]
    have := norm3_zero.1 hz
    unfold sub3 at this
    simp only [Prod.mk.injEq] at this
    unfold along
    refine Prod.ext ?_ (Prod.ext ?_ ?_) <;> dsimp only <;> linarith [this.1, this.2.1, this.2.2]
  · rw [if_neg hz]
    unfold along
    dsimp only
    rw [mul_div_cancel₀ _ hz, mul_div_cancel₀ _ hz, mul_div_cancel₀ _ hz]
    unfold sub3
    refine Prod.ext ?_ (Prod.ext ?_ ?_) <;> dsimp only <;> ring

/-- C304: the reference direction of a face's plane is a unit vector perpendicular to its normal, whatever the normal -/
theorem C304_reference {name : String} {tris : List (Tri V3 V3)} [DecidableEq V3] {w : List (Ent V3 V3 ℝ)} (h : write realGeo name tris = .ok w) :
    ∃ parts, readFile w = some (name, parts) ∧ ∀ p ∈ parts, ∀ f ∈ p.faces, Unit3 f.2.2.2 ∧ dot3 f.2.2.1 f.2.2.2 = 0 := by
  obtain ⟨parts, hr, hp⟩ := C302_faces h
  refine ⟨parts, hr, fun p hpp f hf => ?_⟩
  have : f ∈ tris.map (faceOf realGeo) := hp.mem_iff.1 (List.mem_flatMap.2 ⟨p, hpp, hf⟩)
  obtain ⟨t, -, rfl⟩ := List.mem_map.1 this
  show Unit3 (perpendicular t.normal) ∧ dot3 t.normal (perpendicular t.normal) = 0
  unfold perpendicular
  generalize t.normal = n
  obtain ⟨x, y, z⟩ := n
  dsimp only
  split
  · rename_i hlt
    refine ⟨normalize_unit _, ?_⟩
    have hz : norm3 (-z, 0, x) ≠ 0 := by
      intro h0
      have := norm3_zero.1 h0
      simp only [Prod.mk.injEq, neg_eq_zero] at this
      rw [this.1, this.2.2] at hlt
      exact lt_irrefl _ hlt
    unfold normalize dot3
    rw [if_neg hz]
    dsimp only
    field_simp
    ring
  · rename_i hlt
    refine ⟨normalize_unit _, ?_⟩
    unfold normalize dot3
    by_cases hz : norm3 (0, z, -y) = 0
    · rw [if_pos hz]
      have := norm3_zero.1 hz
      simp only [Prod.mk.injEq, neg_eq_zero] at this
      rw [this.2.1]
      ring
    · rw [if_neg hz]
      dsimp only
      field_simp
      ring

/-- C304: if the normals given are perpendicular to the triangles then the corners of every face are in its plane -/
theorem C304_planes {name : String} {tris : List (Tri V3 V3)} [DecidableEq V3] {w : List (Ent V3 V3 ℝ)} (h : write realGeo name tris = .ok w)
    (hn : ∀ t ∈ tris, dot3 t.normal (sub3 t.v1 t.v0) = 0 ∧ dot3 t.normal (sub3 t.v2 t.v0) = 0) :
    ∃ parts, readFile w = some (name, parts) ∧ ∀ p ∈ parts, ∀ f ∈ p.faces, ∀ s ∈ f.1, dot3 f.2.2.1 (sub3 s.1 f.2.1) = 0 ∧ dot3 f.2.2.1 (sub3 s.2 f.2.1) = 0 := by
  obtain ⟨parts, hr, hp⟩ := C302_faces h
  refine ⟨parts, hr, fun p hpp f hf s hs => ?_⟩
  have : f ∈ tris.map (faceOf realGeo) := hp.mem_iff.1 (List.mem_flatMap.2 ⟨p, hpp, hf⟩)
  obtain ⟨t, ht, rfl⟩ := List.mem_map.1 this
  have h0 : dot3 t.normal (sub3 t.v0 t.v0) = 0 := by unfold dot3 sub3; ring
  obtain ⟨h1, h2⟩ := hn t ht
  simp only [faceOf, Tri.sides, List.mem_cons, List.not_mem_nil, or_false] at hs
  rcases hs with rfl | rfl | rfl
  · exact ⟨h0, h1⟩
  · exact ⟨h1, h2⟩
  · exact ⟨h2, h0⟩

/-- a triangle in the plane z = 0 -/
example : (∀ t ∈ [(⟨(0, 0, 1), (0, 0, 0), (3, 0, 0), (0, 4, 0)⟩ : Tri V3 V3)], dot3 t.normal (sub3 t.v1 t.v0) = 0 ∧ dot3 t.normal (sub3 t.v2 t.v0) = 0) := by
  intro t ht
  rw [List.mem_singleton] at ht
  subst ht
  unfold dot3 sub3
  norm_num

end
end Verif.Step
