import Verif.Valid.Core
import Mathlib.Data.Rat.Defs
import Mathlib.Algebra.Order.Ring.Rat

/-!
# C228-C230: rays, points in meshes, collisions of meshes
-/

namespace Verif.Valid

section field
variable {K : Type} [Field K] [LinearOrder K] [IsStrictOrderedRing K]

/-! ## C228: a ray and a triangle -/

/-- the ray from `o` in the direction `d` meets the triangle, sides included, further than `1e-10` (in units of `d`) from its start -/
def Meets (o d : V K) (t : Tri K) : Prop :=
  ∃ τ u v : K, 1 / 10 ^ 10 < τ ∧ 0 ≤ u ∧ 0 ≤ v ∧ u + v ≤ 1 ∧
    vadd o (smul τ d) = vadd t.1 (vadd (smul u (vsub t.2.1 t.1)) (smul v (vsub t.2.2 t.1)))

/-- the volume spanned by the direction of the ray and two sides of the triangle, up to its sign: near zero if the ray runs along the triangle -/
def steep (d : V K) (t : Tri K) : K := |dot d (cross (vsub t.2.1 t.1) (vsub t.2.2 t.1))|

omit [IsStrictOrderedRing K] in
theorem det_steep (d : V K) (t : Tri K) : dot (vsub t.2.1 t.1) (cross d (vsub t.2.2 t.1)) = -dot d (cross (vsub t.2.1 t.1) (vsub t.2.2 t.1)) := by
  unfold dot cross
  dsimp only
  ring

/-- **C228.** The test says that a ray hits a triangle exactly if it meets it, and does not run (nearly) along it. -/
theorem C228_ray (o d : V K) (t : Tri K) : rayHits o d t = true ↔ 1 / 10 ^ 10 ≤ steep d t ∧ Meets o d t := by
  have hst : steep d t = |dot (vsub t.2.1 t.1) (cross d (vsub t.2.2 t.1))| := by rw [det_steep, abs_neg]; rfl
  have hpos : (0 : K) < 1 / 10 ^ 10 := by positivity
  unfold rayHits
  dsimp only
  rw [hst]
  unfold Meets
  generalize hA : t.1 = A
  generalize he1 : vsub t.2.1 A = e1
  generalize he2 : vsub t.2.2 A = e2
  generalize hdet : dot e1 (cross d e2) = det
  by_cases h0 : |det| < 1 / 10 ^ 10
  · rw [if_pos h0]
    constructor
    · intro h; cases h
    · rintro ⟨h, -⟩; exact absurd h0 (not_lt.mpr h)
  · rw [if_neg h0]
    have hne : det ≠ 0 := by rintro rfl; rw [abs_zero] at h0; exact h0 hpos
    have sub_eq : ∀ τ u v, (vadd o (smul τ d) = vadd A (vadd (smul u e1) (smul v e2))) ↔
        vadd (vsub o A) (smul τ d) = vadd (smul u e1) (smul v e2) := by
      intro τ u v
      unfold vadd vsub smul
      simp only [V.mk.injEq]
      constructor <;> rintro ⟨h1, h2, h3⟩ <;> refine ⟨?_, ?_, ?_⟩ <;> linarith
    simp only [sub_eq]
    generalize vsub o A = s
    have sol : ∀ τ u v, vadd s (smul τ d) = vadd (smul u e1) (smul v e2) ↔
        u = dot s (cross d e2) * (1 / det) ∧ v = dot d (cross s e1) * (1 / det) ∧ τ = dot e2 (cross s e1) * (1 / det) := by
      intro τ u v
      subst hdet
      constructor
      · intro h
        unfold vadd smul at h
        simp only [V.mk.injEq] at h
        obtain ⟨h1, h2, h3⟩ := h
        have ex : s.x = u * e1.x + v * e2.x - τ * d.x := by linarith
        have ey : s.y = u * e1.y + v * e2.y - τ * d.y := by linarith
        have ez : s.z = u * e1.z + v * e2.z - τ * d.z := by linarith
        refine ⟨?_, ?_, ?_⟩ <;> rw [mul_one_div, eq_div_iff hne] <;> unfold dot cross <;> dsimp only <;> rw [ex, ey, ez] <;> ring
      · rintro ⟨rfl, rfl, rfl⟩
        unfold vadd smul
        refine V.ext ?_ ?_ ?_ <;> dsimp only <;> rw [mul_one_div, mul_one_div, mul_one_div] <;> field_simp <;> unfold dot cross <;> dsimp only <;> ring
    simp only [sol]
    by_cases hu : dot s (cross d e2) * (1 / det) < 0 ∨ dot s (cross d e2) * (1 / det) > 1
    · rw [if_pos hu]
      constructor
      · intro h; cases h
      · rintro ⟨-, τ, u, v, -, h1, h2, h3, rfl, rfl, rfl⟩
        rcases hu with h | h <;> linarith
    · rw [if_neg hu]
      by_cases hv : dot d (cross s e1) * (1 / det) < 0 ∨ dot s (cross d e2) * (1 / det) + dot d (cross s e1) * (1 / det) > 1
      · rw [if_pos hv]
        constructor
        · intro h; cases h
        · rintro ⟨-, τ, u, v, -, h1, h2, h3, rfl, rfl, rfl⟩
          rcases hv with h | h <;> linarith
      · rw [if_neg hv, decide_eq_true_iff]
        push Not at hu hv
        constructor
        · intro h
          exact ⟨not_lt.mp h0, _, _, _, h, hu.1, hv.1, hv.2, rfl, rfl, rfl⟩
        · rintro ⟨-, τ, u, v, h, -, -, -, -, -, rfl⟩
          exact h

/-! ## C229: a point in a mesh -/

/-- **C229 (what is computed).** A point counts as inside a mesh of at most 1000 triangles if the number of triangles that the ray from it in the direction of x
meets (and does not run along) is odd. -/
theorem C229_parity (pick : List (Tri K) → List (Tri K)) (m : Mesh K) (h : m.triangles.length ≤ 1000) (p : V K) [DecidablePred fun t : Tri K => 1 / 10 ^ 10 ≤ steep ⟨1, 0, 0⟩ t ∧ Meets p ⟨1, 0, 0⟩ t] :
    inside pick m p = true ↔ Odd (m.triangles.countP fun t => decide (1 / 10 ^ 10 ≤ steep ⟨1, 0, 0⟩ t ∧ Meets p ⟨1, 0, 0⟩ t)) := by
  unfold inside
  dsimp only
  rw [if_neg (by omega), beq_iff_eq, Nat.odd_iff]
  have : (m.triangles.countP fun t => decide (1 / 10 ^ 10 ≤ steep ⟨1, 0, 0⟩ t ∧ Meets p ⟨1, 0, 0⟩ t)) = m.triangles.countP (rayHits p ⟨1, 0, 0⟩) := by
    apply List.countP_congr
    intro t _
    rw [decide_eq_true_iff, C228_ray]
  rw [this]

/-- the twelve triangles of a box, each side cut along the diagonal from its first to its third corner -/
def boxMesh (b : Box K) : Mesh K :=
  let q (p1 p2 p3 p4 : V K) : List (Tri K) := [(p1, p2, p3), (p1, p3, p4)]
  let v000 : V K := ⟨b.1.x, b.1.y, b.1.z⟩
  let v001 : V K := ⟨b.1.x, b.1.y, b.2.z⟩
  let v010 : V K := ⟨b.1.x, b.2.y, b.1.z⟩
  let v011 : V K := ⟨b.1.x, b.2.y, b.2.z⟩
  let v100 : V K := ⟨b.2.x, b.1.y, b.1.z⟩
  let v101 : V K := ⟨b.2.x, b.1.y, b.2.z⟩
  let v110 : V K := ⟨b.2.x, b.2.y, b.1.z⟩
  let v111 : V K := ⟨b.2.x, b.2.y, b.2.z⟩
  ⟨corners b, q v000 v001 v011 v010 ++ q v100 v110 v111 v101 ++ q v000 v100 v101 v001 ++ q v010 v011 v111 v110 ++ q v000 v010 v110 v100 ++ q v001 v101 v111 v011⟩

/-- a ray along x misses every triangle that is parallel to x -/
theorem miss_flat (p : V K) (t : Tri K) (h : dot ⟨1, 0, 0⟩ (cross (vsub t.2.1 t.1) (vsub t.2.2 t.1)) = 0) : rayHits p ⟨1, 0, 0⟩ t = false := by
  rw [Bool.eq_false_iff, ne_eq, C228_ray]
  rintro ⟨h1, -⟩
  unfold steep at h1
  rw [h, abs_zero] at h1
  have hpos : (0 : K) < 1 / 10 ^ 10 := by positivity
  exact absurd h1 (not_le.mpr hpos)

/-- and meets a half of a side across x, if the point of the side at its height is in that half -/
theorem hit_across (p : V K) (X y0 y1 z0 z1 : K) (hy : y0 < y1) (hz : z0 < z1) (ha : 1 / 10 ^ 10 ≤ (y1 - y0) * (z1 - z0)) :
    let Y := (p.y - y0) / (y1 - y0)
    let Z := (p.z - z0) / (z1 - z0)
    (rayHits p ⟨1, 0, 0⟩ (⟨X, y0, z0⟩, ⟨X, y0, z1⟩, ⟨X, y1, z1⟩) = true ↔ p.x + 1 / 10 ^ 10 < X ∧ 0 ≤ Y ∧ Y ≤ Z ∧ Z ≤ 1) ∧
    (rayHits p ⟨1, 0, 0⟩ (⟨X, y0, z0⟩, ⟨X, y1, z1⟩, ⟨X, y1, z0⟩) = true ↔ p.x + 1 / 10 ^ 10 < X ∧ 0 ≤ Z ∧ Z ≤ Y ∧ Y ≤ 1) ∧
    (rayHits p ⟨1, 0, 0⟩ (⟨X, y0, z0⟩, ⟨X, y1, z0⟩, ⟨X, y1, z1⟩) = true ↔ p.x + 1 / 10 ^ 10 < X ∧ 0 ≤ Z ∧ Z ≤ Y ∧ Y ≤ 1) ∧
    (rayHits p ⟨1, 0, 0⟩ (⟨X, y0, z0⟩, ⟨X, y1, z1⟩, ⟨X, y0, z1⟩) = true ↔ p.x + 1 / 10 ^ 10 < X ∧ 0 ≤ Y ∧ Y ≤ Z ∧ Z ≤ 1) := by
  intro Y Z
  have hy' : y1 - y0 ≠ 0 := (sub_pos.mpr hy).ne'
  have hz' : z1 - z0 ≠ 0 := (sub_pos.mpr hz).ne'
  have eY : p.y = y0 + Y * (y1 - y0) := by simp only [Y]; field_simp; ring
  have eZ : p.z = z0 + Z * (z1 - z0) := by simp only [Z]; field_simp; ring
  clear_value Y Z
  have hpos : 0 < (y1 - y0) * (z1 - z0) := mul_pos (sub_pos.mpr hy) (sub_pos.mpr hz)
  have canc : ∀ {a b c : K}, c ≠ 0 → (a * c = b * c ↔ a = b) := fun h => ⟨fun e => mul_right_cancel₀ h e, fun e => by rw [e]⟩
  refine ⟨?_, ?_, ?_, ?_⟩ <;> rw [C228_ray] <;> unfold Meets steep vadd vsub smul dot cross <;> simp only [V.mk.injEq] <;> constructor
  · rintro ⟨-, τ, u, v, h1, h2, h3, h4, h5, h6, h7⟩
    have hv : v = Y := (canc hy').mp (by linarith)
    have hu : u + v = Z := (canc hz').mp (by linarith)
    refine ⟨by linarith, by linarith, by linarith, by linarith⟩
  · rintro ⟨h1, h2, h3, h4⟩
    refine ⟨?_, X - p.x, Z - Y, Y, by linarith, by linarith, by linarith, by linarith, by ring, ?_, ?_⟩
    · rw [show (1 : K) * ((y0 - y0) * (z1 - z0) - (z1 - z0) * (y1 - y0)) + 0 * ((z1 - z0) * (X - X) - (X - X) * (z1 - z0)) + 0 * ((X - X) * (y1 - y0) - (y0 - y0) * (X - X)) = -((y1 - y0) * (z1 - z0)) by ring, abs_neg, abs_of_pos hpos]
      exact ha
    · rw [eY]; ring
    · rw [eZ]; ring
  · rintro ⟨-, τ, u, v, h1, h2, h3, h4, h5, h6, h7⟩
    have hv : u + v = Y := (canc hy').mp (by linarith)
    have hu : u = Z := (canc hz').mp (by linarith)
    refine ⟨by linarith, by linarith, by linarith, by linarith⟩
  · rintro ⟨h1, h2, h3, h4⟩
    refine ⟨?_, X - p.x, Z, Y - Z, by linarith, by linarith, by linarith, by linarith, by ring, ?_, ?_⟩
    · rw [show (1 : K) * ((y1 - y0) * (z0 - z0) - (z1 - z0) * (y1 - y0)) + 0 * ((z1 - z0) * (X - X) - (X - X) * (z0 - z0)) + 0 * ((X - X) * (y1 - y0) - (y1 - y0) * (X - X)) = -((y1 - y0) * (z1 - z0)) by ring, abs_neg, abs_of_pos hpos]
      exact ha
    · rw [eY]; ring
    · rw [eZ]; ring
  · rintro ⟨-, τ, u, v, h1, h2, h3, h4, h5, h6, h7⟩
    have hv : u + v = Y := (canc hy').mp (by linarith)
    have hu : v = Z := (canc hz').mp (by linarith)
    refine ⟨by linarith, by linarith, by linarith, by linarith⟩
  · rintro ⟨h1, h2, h3, h4⟩
    refine ⟨?_, X - p.x, Y - Z, Z, by linarith, by linarith, by linarith, by linarith, by ring, ?_, ?_⟩
    · rw [show (1 : K) * ((y1 - y0) * (z1 - z0) - (z0 - z0) * (y1 - y0)) + 0 * ((z0 - z0) * (X - X) - (X - X) * (z1 - z0)) + 0 * ((X - X) * (y1 - y0) - (y1 - y0) * (X - X)) = (y1 - y0) * (z1 - z0) by ring, abs_of_pos hpos]
      exact ha
    · rw [eY]; ring
    · rw [eZ]; ring
  · rintro ⟨-, τ, u, v, h1, h2, h3, h4, h5, h6, h7⟩
    have hv : u = Y := (canc hy').mp (by linarith)
    have hu : u + v = Z := (canc hz').mp (by linarith)
    refine ⟨by linarith, by linarith, by linarith, by linarith⟩
  · rintro ⟨h1, h2, h3, h4⟩
    refine ⟨?_, X - p.x, Y, Z - Y, by linarith, by linarith, by linarith, by linarith, by ring, ?_, ?_⟩
    · rw [show (1 : K) * ((y1 - y0) * (z1 - z0) - (z1 - z0) * (y0 - y0)) + 0 * ((z1 - z0) * (X - X) - (X - X) * (z1 - z0)) + 0 * ((X - X) * (y0 - y0) - (y1 - y0) * (X - X)) = (y1 - y0) * (z1 - z0) by ring, abs_of_pos hpos]
      exact ha
    · rw [eY]; ring
    · rw [eZ]; ring

/-- how many of the triangles of a box the ray hits -/
theorem box_count (p : V K) (b : Box K) (hy : b.1.y < b.2.y) (hz : b.1.z < b.2.z) (ha : 1 / 10 ^ 10 ≤ (b.2.y - b.1.y) * (b.2.z - b.1.z)) :
    let Y := (p.y - b.1.y) / (b.2.y - b.1.y)
    let Z := (p.z - b.1.z) / (b.2.z - b.1.z)
    (boxMesh b).triangles.countP (rayHits p ⟨1, 0, 0⟩) =
      ((if p.x + 1 / 10 ^ 10 < b.1.x then 1 else 0) + (if p.x + 1 / 10 ^ 10 < b.2.x then 1 else 0)) *
      ((if 0 ≤ Y ∧ Y ≤ Z ∧ Z ≤ 1 then 1 else 0) + (if 0 ≤ Z ∧ Z ≤ Y ∧ Y ≤ 1 then 1 else 0)) := by
  intro Y Z
  obtain ⟨a1, a2, -, -⟩ := hit_across p b.1.x b.1.y b.2.y b.1.z b.2.z hy hz ha
  obtain ⟨-, -, a3, a4⟩ := hit_across p b.2.x b.1.y b.2.y b.1.z b.2.z hy hz ha
  change (_ ↔ _ ∧ 0 ≤ Y ∧ Y ≤ Z ∧ Z ≤ 1) at a1 a4
  change (_ ↔ _ ∧ 0 ≤ Z ∧ Z ≤ Y ∧ Y ≤ 1) at a2 a3
  clear_value Y Z
  have flat : ∀ t : Tri K, dot ⟨1, 0, 0⟩ (cross (vsub t.2.1 t.1) (vsub t.2.2 t.1)) = 0 → rayHits p ⟨1, 0, 0⟩ t = false := miss_flat p
  unfold boxMesh
  simp only [List.cons_append, List.nil_append, List.countP_cons, List.countP_nil]
  rw [flat (_, _, _) (by simp [dot, cross, vsub]), flat (_, _, _) (by simp [dot, cross, vsub]), flat (_, _, _) (by simp [dot, cross, vsub]), flat (_, _, _) (by simp [dot, cross, vsub]),
    flat (_, _, _) (by simp [dot, cross, vsub]), flat (_, _, _) (by simp [dot, cross, vsub]), flat (_, _, _) (by simp [dot, cross, vsub]), flat (_, _, _) (by simp [dot, cross, vsub])]
  simp only [a1, a2, a3, a4, Bool.false_eq_true, if_false, zero_add]
  by_cases h1 : p.x + 1 / 10 ^ 10 < b.1.x <;> by_cases h2 : p.x + 1 / 10 ^ 10 < b.2.x <;> by_cases h3 : 0 ≤ Y ∧ Y ≤ Z ∧ Z ≤ 1 <;> by_cases h4 : 0 ≤ Z ∧ Z ≤ Y ∧ Y ≤ 1 <;>
    simp only [h1, h2, h3, h4, true_and, false_and, if_true, if_false]

/-- **C229 (for boxes).** For the mesh of a box, a point that is not on (or within `1e-10` before) a side across x, and from which the ray does not meet the lines of the diagonals of these
sides, counts as inside exactly if it is in the box. What is missing: other meshes, and the exceptions, for which it does not hold
(`C229_diagonal`). -/
theorem C229_box_partial (pick : List (Tri K) → List (Tri K)) (b : Box K) (p : V K) (hx : b.1.x < b.2.x) (hy : b.1.y < b.2.y) (hz : b.1.z < b.2.z)
    (ha : 1 / 10 ^ 10 ≤ (b.2.y - b.1.y) * (b.2.z - b.1.z)) (h1 : ∀ X ∈ [b.1.x, b.2.x], X < p.x ∨ p.x + 1 / 10 ^ 10 < X)
    (h3 : (p.y - b.1.y) / (b.2.y - b.1.y) ≠ (p.z - b.1.z) / (b.2.z - b.1.z)) :
    inside pick (boxMesh b) p = true ↔ Within b p := by
  unfold inside
  dsimp only
  rw [if_neg (by simp [boxMesh]), beq_iff_eq, box_count p b hy hz ha]
  have hpos : (0 : K) < 1 / 10 ^ 10 := by positivity
  have x1 := h1 b.1.x (by simp)
  have x2 := h1 b.2.x (by simp)
  have py : 0 < b.2.y - b.1.y := sub_pos.mpr hy
  have pz : 0 < b.2.z - b.1.z := sub_pos.mpr hz
  have hY0 : 0 ≤ (p.y - b.1.y) / (b.2.y - b.1.y) ↔ b.1.y ≤ p.y := by rw [le_div_iff₀ py]; constructor <;> intro h <;> linarith
  have hY1 : (p.y - b.1.y) / (b.2.y - b.1.y) ≤ 1 ↔ p.y ≤ b.2.y := by rw [div_le_iff₀ py]; constructor <;> intro h <;> linarith
  have hZ0 : 0 ≤ (p.z - b.1.z) / (b.2.z - b.1.z) ↔ b.1.z ≤ p.z := by rw [le_div_iff₀ pz]; constructor <;> intro h <;> linarith
  have hZ1 : (p.z - b.1.z) / (b.2.z - b.1.z) ≤ 1 ↔ p.z ≤ b.2.z := by rw [div_le_iff₀ pz]; constructor <;> intro h <;> linarith
  generalize (p.y - b.1.y) / (b.2.y - b.1.y) = Y at *
  generalize (p.z - b.1.z) / (b.2.z - b.1.z) = Z at *
  unfold Within
  rw [← hY0, ← hY1, ← hZ0, ← hZ1]
  have hyz : ((if 0 ≤ Y ∧ Y ≤ Z ∧ Z ≤ 1 then 1 else 0) + (if 0 ≤ Z ∧ Z ≤ Y ∧ Y ≤ 1 then 1 else 0) : ℕ) = if (0 ≤ Y ∧ Y ≤ 1) ∧ 0 ≤ Z ∧ Z ≤ 1 then 1 else 0 := by
    rcases lt_or_gt_of_ne h3 with h | h
    · rw [if_neg (show ¬ (0 ≤ Z ∧ Z ≤ Y ∧ Y ≤ 1) from fun hc => absurd hc.2.1 (not_le.mpr h)), add_zero]
      congr 1
      refine propext ⟨fun ⟨a, b, c⟩ => ⟨⟨a, b.trans c⟩, a.trans b, c⟩, fun ⟨⟨a, b⟩, c, d⟩ => ⟨a, h.le, d⟩⟩
    · rw [if_neg (show ¬ (0 ≤ Y ∧ Y ≤ Z ∧ Z ≤ 1) from fun hc => absurd hc.2.1 (not_le.mpr h)), zero_add]
      congr 1
      refine propext ⟨fun ⟨a, b, c⟩ => ⟨⟨a.trans b, c⟩, a, b.trans c⟩, fun ⟨⟨a, b⟩, c, d⟩ => ⟨c, h.le, b⟩⟩
  rw [hyz]
  have hxx : ((if p.x + 1 / 10 ^ 10 < b.1.x then 1 else 0) + (if p.x + 1 / 10 ^ 10 < b.2.x then 1 else 0) : ℕ) = if b.1.x ≤ p.x ∧ p.x ≤ b.2.x then 1 else if p.x < b.1.x then 2 else 0 := by
    rcases x1 with x1 | x1
    · rw [if_neg (by linarith)]
      rcases x2 with x2 | x2
      · rw [if_neg (by linarith), if_neg (by rintro ⟨h, h'⟩; linarith), if_neg (by linarith)]
      · rw [if_pos x2, if_pos ⟨by linarith, by linarith⟩]
    · rw [if_pos x1, if_pos (by linarith), if_neg (by rintro ⟨h, h'⟩; linarith), if_pos (by linarith)]
  rw [hxx]
  by_cases c1 : b.1.x ≤ p.x ∧ p.x ≤ b.2.x <;> by_cases c2 : (0 ≤ Y ∧ Y ≤ 1) ∧ 0 ≤ Z ∧ Z ≤ 1 <;> simp only [c1, c2, if_true, if_false, and_true, and_false]
  · simp
  · by_cases c3 : p.x < b.1.x
    · rw [if_pos c3]; simp
    · rw [if_neg c3]; simp
  · simp

/-- **C229, what does not hold.** Every point in a box from which the ray meets the diagonal of a side counts as outside: it hits both halves of the side. So does the
middle of every box. -/
theorem C229_diagonal (pick : List (Tri K) → List (Tri K)) (b : Box K) (p : V K) (hy : b.1.y < b.2.y) (hz : b.1.z < b.2.z)
    (ha : 1 / 10 ^ 10 ≤ (b.2.y - b.1.y) * (b.2.z - b.1.z)) (h3 : (p.y - b.1.y) / (b.2.y - b.1.y) = (p.z - b.1.z) / (b.2.z - b.1.z)) :
    inside pick (boxMesh b) p = false := by
  rw [Bool.eq_false_iff, ne_eq]
  unfold inside
  dsimp only
  rw [if_neg (by simp [boxMesh]), beq_iff_eq, box_count p b hy hz ha, h3]
  generalize (p.z - b.1.z) / (b.2.z - b.1.z) = Z
  generalize ((if p.x + 1 / 10 ^ 10 < b.1.x then 1 else 0) + (if p.x + 1 / 10 ^ 10 < b.2.x then 1 else 0) : ℕ) = k
  rw [← two_mul, Nat.mul_left_comm, Nat.mul_mod_right]
  omega

theorem C229_centre (pick : List (Tri K) → List (Tri K)) (b : Box K) (hy : b.1.y < b.2.y) (hz : b.1.z < b.2.z) (ha : 1 / 10 ^ 10 ≤ (b.2.y - b.1.y) * (b.2.z - b.1.z)) :
    inside pick (boxMesh b) ⟨(b.1.x + b.2.x) / 2, (b.1.y + b.2.y) / 2, (b.1.z + b.2.z) / 2⟩ = false := by
  apply C229_diagonal pick b _ hy hz ha
  have py : b.2.y - b.1.y ≠ 0 := (sub_pos.mpr hy).ne'
  have pz : b.2.z - b.1.z ≠ 0 := (sub_pos.mpr hz).ne'
  dsimp only
  rw [div_eq_div_iff py pz]
  ring

omit [IsStrictOrderedRing K] in
/-- **C229, what does not hold.** Of a mesh of more than 1000 triangles only a random choice of 1000 is looked at: if the ray hits exactly one, there is a choice that says
that the point is outside. -/
theorem C229_random (m : Mesh K) (p : V K) (h : m.triangles.length > 1000) (h1 : m.triangles.countP (rayHits p ⟨1, 0, 0⟩) = 1) :
    ∃ pick : List (Tri K) → List (Tri K), (pick m.triangles).Sublist m.triangles ∧ (pick m.triangles).length = 1000 ∧ inside pick m p = false ∧ inside (fun l => l) m p = true := by
  refine ⟨fun l => (l.filter fun t => !rayHits p ⟨1, 0, 0⟩ t).take 1000, (List.take_sublist _ _).trans List.filter_sublist, ?_, ?_, ?_⟩
  · have h2 := List.length_eq_countP_add_countP (rayHits p ⟨1, 0, 0⟩) (l := m.triangles)
    rw [List.countP_eq_length_filter (p := fun a => decide ¬rayHits p ⟨1, 0, 0⟩ a = true)] at h2
    have e : (fun a => decide ¬rayHits p ⟨1, 0, 0⟩ a = true) = fun t => !rayHits p ⟨1, 0, 0⟩ t := by
      funext a; cases rayHits p ⟨1, 0, 0⟩ a <;> rfl
    rw [e] at h2
    rw [List.length_take]
    omega
  · unfold inside
    dsimp only
    rw [if_pos h, List.countP_eq_zero.mpr]
    · rfl
    · intro t ht
      have := List.mem_of_mem_take ht
      rw [List.mem_filter] at this
      simpa using this.2
  · unfold inside
    dsimp only
    rw [if_pos h, h1]
    rfl

/-! ## C230: collisions -/

/-- the corners of the moved mesh -/
def Corner (t : Tf K) (m : Mesh K) (p : V K) : Prop := ∃ v ∈ m.vertices, place t v = p

omit [IsStrictOrderedRing K] in
theorem bounds_tight {t : Tf K} {m : Mesh K} {b : Box K} (h : bounds (move t m) = some b) : Tight b (Corner t m) := by
  have e : ∀ p, p ∈ (move t m).vertices ↔ Corner t m p := by
    intro p
    unfold move Corner
    rw [List.mem_map]
  unfold bounds at h
  rcases hl : (move t m).vertices with _ | ⟨q, l⟩
  · rw [hl] at h; cases h
  · rw [hl] at h
    cases h
    have ht := hull_tight q l
    have e2 : (fun p => p ∈ q :: l) = Corner t m := by
      funext p
      rw [← hl]
      exact propext (e p)
    rwa [e2] at ht

omit [Field K] [IsStrictOrderedRing K] in
theorem boxesMeet_false {a b : Box K} (h : a.2.x < b.1.x ∨ b.2.x < a.1.x ∨ a.2.y < b.1.y ∨ b.2.y < a.1.y ∨ a.2.z < b.1.z ∨ b.2.z < a.1.z) : boxesMeet a b = false := by
  unfold boxesMeet
  rcases h with h | h | h | h | h | h <;> simp [h]

omit [Field K] [IsStrictOrderedRing K] in
theorem boxesMeet_comm (a b : Box K) : boxesMeet a b = boxesMeet b a := by
  unfold boxesMeet
  rw [Bool.or_comm (decide (a.2.x < b.1.x)), Bool.or_comm (decide (a.2.y < b.1.y)), Bool.or_comm (decide (a.2.z < b.1.z))]

omit [IsStrictOrderedRing K] in
/-- **C230 (apart).** Meshes that load and have corners do not collide if along one of the axes of the world all corners of the one come before all corners of the other:
whatever the collision library would say. -/
theorem C230_apart (lab : Lab K) {fa fb : String} {ta tb : Tf K} {ma mb : Mesh K} (ha : lab.load fa = some ma) (hb : lab.load fb = some mb) (hna : ma.vertices ≠ []) (hnb : mb.vertices ≠ [])
    (h : ∃ f ∈ [(V.x : V K → K), V.y, V.z], (∀ p q, Corner ta ma p → Corner tb mb q → f p < f q) ∨ (∀ p q, Corner ta ma p → Corner tb mb q → f q < f p)) :
    checkMesh lab fa ta fb tb = some .no := by
  have e1 : ∃ ba, bounds (move ta ma) = some ba := by
    unfold bounds move
    rcases hv : ma.vertices with _ | ⟨p, l⟩
    · exact absurd hv hna
    · exact ⟨_, rfl⟩
  have e2 : ∃ bb, bounds (move tb mb) = some bb := by
    unfold bounds move
    rcases hv : mb.vertices with _ | ⟨p, l⟩
    · exact absurd hv hnb
    · exact ⟨_, rfl⟩
  obtain ⟨ba, e1⟩ := e1
  obtain ⟨bb, e2⟩ := e2
  have tA := bounds_tight e1
  have tB := bounds_tight e2
  unfold checkMesh
  rw [ha, hb]
  dsimp only
  rw [e1]
  dsimp only
  rw [e2]
  dsimp only
  rw [boxesMeet_false]
  · rfl
  · obtain ⟨p1, hp1, a1⟩ := tA.loX
    obtain ⟨p2, hp2, a2⟩ := tA.loY
    obtain ⟨p3, hp3, a3⟩ := tA.loZ
    obtain ⟨p4, hp4, a4⟩ := tA.hiX
    obtain ⟨p5, hp5, a5⟩ := tA.hiY
    obtain ⟨p6, hp6, a6⟩ := tA.hiZ
    obtain ⟨q1, hq1, f1⟩ := tB.loX
    obtain ⟨q2, hq2, f2⟩ := tB.loY
    obtain ⟨q3, hq3, f3⟩ := tB.loZ
    obtain ⟨q4, hq4, f4⟩ := tB.hiX
    obtain ⟨q5, hq5, f5⟩ := tB.hiY
    obtain ⟨q6, hq6, f6⟩ := tB.hiZ
    rw [← a1, ← a2, ← a3, ← a4, ← a5, ← a6, ← f1, ← f2, ← f3, ← f4, ← f5, ← f6]
    obtain ⟨f, hf, h⟩ := h
    simp only [List.mem_cons, List.not_mem_nil, or_false] at hf
    rcases hf with rfl | rfl | rfl <;> rcases h with h | h
    · exact .inl (h _ _ hp4 hq1)
    · exact .inr (.inl (h _ _ hp1 hq4))
    · exact .inr (.inr (.inl (h _ _ hp5 hq2)))
    · exact .inr (.inr (.inr (.inl (h _ _ hp2 hq5))))
    · exact .inr (.inr (.inr (.inr (.inl (h _ _ hp6 hq3)))))
    · exact .inr (.inr (.inr (.inr (.inr (h _ _ hp3 hq6)))))

omit [IsStrictOrderedRing K] in
/-- **C230 (failures).** The check fails, and does not say that there is no collision, exactly if one of the files does not load. -/
theorem C230_failed (lab : Lab K) (fa fb : String) (ta tb : Tf K) : checkMesh lab fa ta fb tb = some .failed ↔ lab.load fa = none ∨ lab.load fb = none := by
  unfold checkMesh
  rcases lab.load fa with _ | ma
  · simp
  · rcases lab.load fb with _ | mb
    · simp
    · dsimp only
      refine ⟨fun h => ?_, fun h => by rcases h with h | h <;> cases h⟩
      exfalso
      rcases e1 : bounds (move ta ma) with _ | ba
      · rw [e1] at h; cases h
      · rw [e1] at h
        dsimp only at h
        rcases e2 : bounds (move tb mb) with _ | bb
        · rw [e2] at h; cases h
        · rw [e2] at h
          dsimp only at h
          by_cases hm : boxesMeet ba bb = true
          · rw [if_pos hm] at h
            rcases e3 : lab.library (move ta ma) (move tb mb) with _ | _ | _ <;> rw [e3] at h
            · dsimp only at h
              by_cases hs : sampling lab.pa lab.pb (move ta ma) (move tb mb) ba bb ≠ []
              · rw [if_pos hs] at h; cases h
              · rw [if_neg hs] at h; cases h
            · cases h
            · cases h
          · rw [if_neg hm] at h; cases h

/-- the two meshes, and what concerns them, exchanged -/
def swapped (lab : Lab K) : Lab K := { load := lab.load, library := fun a b => lab.library b a, pa := lab.pb, pb := lab.pa }

omit [IsStrictOrderedRing K] in
theorem take_nil {α : Type} {l : List α} {n : ℕ} : l.take (n + 1) = [] ↔ l = [] := by
  cases l <;> simp

omit [IsStrictOrderedRing K] in
theorem sampling_comm (pa pb : List (Tri K) → List (Tri K)) (a b : Mesh K) (ba bb : Box K) : sampling pa pb a b ba bb = [] ↔ sampling pb pa b a bb ba = [] := by
  unfold sampling
  dsimp only
  have hg : grid ba bb = grid bb ba := by
    unfold grid
    simp only [max_comm, min_comm]
  by_cases h1 : a.vertices.filter (inBox bb) = [] ∧ b.vertices.filter (inBox ba) = []
  · rw [if_pos h1, if_pos h1.symm, hg]
    rw [show (fun p => inside pb b p && inside pa a p) = (fun p => inside pa a p && inside pb b p) from funext fun p => Bool.and_comm _ _]
  · rw [if_neg h1, if_neg (fun h => h1 h.symm), take_nil, take_nil, List.append_eq_nil_iff, List.append_eq_nil_iff, take_nil, take_nil]
    exact and_comm

omit [IsStrictOrderedRing K] in
/-- **C230 (symmetry).** The verdict does not depend on which of the two parts is called the first. -/
theorem C230_symmetric (lab : Lab K) (fa fb : String) (ta tb : Tf K) : checkMesh (swapped lab) fb tb fa ta = checkMesh lab fa ta fb tb := by
  unfold checkMesh swapped
  dsimp only
  rcases lab.load fa with _ | ma
  · rcases lab.load fb with _ | mb <;> rfl
  · rcases lab.load fb with _ | mb
    · rfl
    · dsimp only
      rcases bounds (move ta ma) with _ | ba
      · rcases bounds (move tb mb) with _ | bb <;> rfl
      · rcases bounds (move tb mb) with _ | bb
        · rfl
        · dsimp only
          rw [boxesMeet_comm bb ba]
          by_cases hm : boxesMeet ba bb = true
          · rw [if_pos hm, if_pos hm]
            rcases lab.library (move ta ma) (move tb mb) with _ | _ | _
            · dsimp only
              have := sampling_comm lab.pa lab.pb (move ta ma) (move tb mb) ba bb
              by_cases hs : sampling lab.pa lab.pb (move ta ma) (move tb mb) ba bb = []
              · rw [if_neg (by rw [not_not]; exact this.mp hs), if_neg (by rw [not_not]; exact hs)]
              · rw [if_pos (fun h => hs (this.mpr h)), if_pos hs]
            · rfl
            · rfl
          · rw [if_neg hm, if_neg hm]

omit [IsStrictOrderedRing K] in
/-- **C230 (collisions are found for a reason).** Without the library a reported collision has a point that counts as inside one of the meshes and is a corner of the other, or
counts as inside both. -/
theorem C230_reason (lab : Lab K) {fa fb : String} {ta tb : Tf K} {ma mb : Mesh K} (ha : lab.load fa = some ma) (hb : lab.load fb = some mb) (hl : lab.library (move ta ma) (move tb mb) = none)
    (h : checkMesh lab fa ta fb tb = some .yes) :
    ∃ p, (Corner ta ma p ∧ inside lab.pb (move tb mb) p = true) ∨ (Corner tb mb p ∧ inside lab.pa (move ta ma) p = true) ∨
      (inside lab.pa (move ta ma) p = true ∧ inside lab.pb (move tb mb) p = true) := by
  unfold checkMesh at h
  rw [ha, hb] at h
  dsimp only at h
  rcases e1 : bounds (move ta ma) with _ | ba
  · rw [e1] at h; cases h
  · rw [e1] at h
    dsimp only at h
    rcases e2 : bounds (move tb mb) with _ | bb
    · rw [e2] at h; cases h
    · rw [e2] at h
      dsimp only at h
      by_cases hm : boxesMeet ba bb = true
      · rw [if_pos hm, hl] at h
        dsimp only at h
        by_cases hs : sampling lab.pa lab.pb (move ta ma) (move tb mb) ba bb = []
        · rw [if_neg (by rw [not_not]; exact hs)] at h
          cases h
        · obtain ⟨p, hp⟩ := List.exists_mem_of_ne_nil _ hs
          refine ⟨p, ?_⟩
          unfold sampling at hp
          dsimp only at hp
          split_ifs at hp with hc
          · have := (List.mem_filter.mp (List.mem_of_mem_take hp)).2
            rw [Bool.and_eq_true] at this
            exact .inr (.inr this)
          · rcases List.mem_append.mp (List.mem_of_mem_take hp) with hp | hp
            · obtain ⟨h1, h2⟩ := List.mem_filter.mp (List.mem_of_mem_take hp)
              obtain ⟨v, hv, e⟩ := List.mem_map.mp (List.mem_filter.mp h1).1
              exact .inl ⟨⟨v, hv, e⟩, h2⟩
            · obtain ⟨h1, h2⟩ := List.mem_filter.mp (List.mem_of_mem_take hp)
              obtain ⟨v, hv, e⟩ := List.mem_map.mp (List.mem_filter.mp h1).1
              exact .inr (.inl ⟨⟨v, hv, e⟩, h2⟩)
      · rw [if_neg hm] at h
        cases h

end field

/-! ## a bar through a wedge -/

set_option maxRecDepth 100000

/-- a bar along x -/
def bar : Mesh ℚ := boxMesh (⟨-5, 3, -1⟩, ⟨9, 4, 1⟩)

/-- a wedge: a right triangle, upright -/
def wedge : Mesh ℚ :=
  let a0 : V ℚ := ⟨0, 0, -5⟩
  let b0 : V ℚ := ⟨10, 0, -5⟩
  let c0 : V ℚ := ⟨0, 10, -5⟩
  let a1 : V ℚ := ⟨0, 0, 5⟩
  let b1 : V ℚ := ⟨10, 0, 5⟩
  let c1 : V ℚ := ⟨0, 10, 5⟩
  ⟨[a0, b0, c0, a1, b1, c1], [(a0, c0, b0), (a1, b1, c1), (a0, b0, b1), (a0, b1, a1), (b0, c0, c1), (b0, c1, b1), (c0, a0, a1), (c0, a1, c1)]⟩

/-- no collision library -/
def bench : Lab ℚ := { load := fun f => if f = "bar" then some bar else if f = "wedge" then some wedge else none, library := fun _ _ => none, pa := fun l => l, pb := fun l => l }

/-- **C230, what does not hold.** Without the collision library a bar through a wedge is not found: it has corners in the box of the wedge, none of them in the wedge, and then
no other point is tried, although there are points inside both. -/
theorem C230_missed : checkMesh bench "bar" still "wedge" still = some .no ∧ inside bench.pa bar ⟨2, 7 / 2, 1 / 4⟩ = true ∧ inside bench.pb wedge ⟨2, 7 / 2, 1 / 4⟩ = true := by
  refine ⟨?_, ?_, ?_⟩ <;> decide +kernel

/-- a bar whose end is in the wedge is found -/
example : checkMesh bench "bar" { (still : Tf ℚ) with o := ⟨-7, -1, 0⟩ } "wedge" still = some .yes := by decide +kernel

example : rayHits ⟨0, 0, 0⟩ ⟨1, 0, 0⟩ ((⟨2, -1, -1⟩, ⟨2, 1, -1⟩, ⟨2, 0, 2⟩) : Tri ℚ) = true := by decide +kernel

example : inside (fun l => l) bar ⟨0, 7 / 2, 1 / 4⟩ = true ∧ inside (fun l => l) bar ⟨2, 7 / 2, 0⟩ = false := by constructor <;> decide +kernel

end Verif.Valid
