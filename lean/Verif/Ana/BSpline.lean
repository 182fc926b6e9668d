import Verif.Ana.Model
import Verif.Spline.Basis

/-! # B-spline surfaces: the control points bound the surface, except at the far ends of the ranges -/

namespace Verif.Ana

open Verif.Spline (NN half tm)

/-! ## Specification -/

/-- the two numbers are in order, and either equal or more than 1e-12 apart -/
def Spec.apart (a b : ℝ) : Prop := a = b ∨ a + 1e-12 < b

/-- a list of knots in order, where different knots are more than 1e-12 apart -/
def Spec.Knots (k : List ℝ) : Prop := k.Pairwise Spec.apart

/-- the half-space a x + b y + c z ≤ d -/
def Spec.inHalf (a b c d : ℝ) (p : V ℝ) : Prop := a * p.x + b * p.y + c * p.z ≤ d

/-- every control point has a weight of at least 1e-12 -/
def Spec.Weights (points : List (List (V ℝ))) (weights : List (List ℝ)) : Prop :=
  weights.length = points.length ∧ ∀ (j : ℕ) row wrow, points[j]? = some row → weights[j]? = some wrow → wrow.length = row.length ∧ ∀ w ∈ wrow, (1e-12 : ℝ) ≤ w

/-! ## the basis functions -/

theorem getD_at {α : Type} {l : List α} {d : α} {i : ℕ} (h : i < l.length) : l.getD i d = l[i] := by
  rw [List.getD_eq_getElem?_getD, List.getElem?_eq_getElem h]; rfl


/-- the knots, followed by the last one forever -/
noncomputable def ext (k : List ℝ) (j : ℕ) : ℝ := k.getD (min j (k.length - 1)) 0

theorem ext_lt {k : List ℝ} {j : ℕ} (h : j < k.length) : ext k j = k.getD j 0 := by
  unfold ext; rw [min_eq_left (by omega)]

theorem ext_apart {k : List ℝ} (hk : Spec.Knots k) {i j : ℕ} (hij : i ≤ j) : Spec.apart (ext k i) (ext k j) := by
  by_cases h0 : k = []
  · subst h0; left; simp [ext]
  have hl : 0 < k.length := List.length_pos_iff.mpr h0
  unfold ext
  have hi : min i (k.length - 1) < k.length := by omega
  have hj : min j (k.length - 1) < k.length := by omega
  rcases Nat.lt_or_ge (min i (k.length - 1)) (min j (k.length - 1)) with h | h
  · have := List.pairwise_iff_getElem.mp hk _ _ hi hj h
    rw [getD_at hi, getD_at hj]
    exact this
  · left
    rw [show min i (k.length - 1) = min j (k.length - 1) by omega]

theorem ext_mono {k : List ℝ} (hk : Spec.Knots k) : Monotone (ext k) := by
  intro i j hij
  rcases ext_apart hk hij with h | h
  · exact h.le
  · linarith

theorem ext_gap {k : List ℝ} (hk : Spec.Knots k) : ∀ i j, ext k i < ext k j → ext k j - ext k i > 1e-12 := by
  intro i j h
  rcases Nat.le_total i j with hij | hij
  · rcases ext_apart hk hij with e | e
    · linarith
    · linarith
  · have := ext_mono hk hij; linarith

open Classical in
/-- the basis functions of degree 0, with the special case at the last knot -/
noncomputable def first (κ : ℕ → ℝ) (len : ℕ) (u : ℝ) (i : ℕ) : ℝ :=
  if κ i ≤ u ∧ u < κ (i + 1) then 1 else if i + 1 = len - 1 ∧ u = κ (i + 1) then 1 else 0

theorem basis_NN (k : List ℝ) (u : ℝ) : ∀ p i, basis k u p i = NN 1e-12 (fun j => k.getD j 0) (first (fun j => k.getD j 0) k.length u) u p i
  | 0, i => rfl
  | p + 1, i => by
    simp only [basis, NN, tm]
    rw [basis_NN k u p i, basis_NN k u p (i + 1)]

/-- before the last knot, the basis functions are the usual ones -/
theorem basis_usual {k : List ℝ} (hk : Spec.Knots k) {u : ℝ} {n : ℕ} (hn : u < ext k n) {p i : ℕ} (h : i + p + 1 < k.length) :
    basis k u p i = NN 1e-12 (ext k) (half (ext k) u) u p i := by
  rw [basis_NN]
  refine Verif.Spline.NN_congr (fun j _ b => (ext_lt (by omega)).symm) fun j _ b => ?_
  unfold first half
  rw [ext_lt (by omega : j < k.length), ext_lt (by omega : j + 1 < k.length)]
  by_cases h1 : k.getD j 0 ≤ u ∧ u < k.getD (j + 1) 0
  · rw [if_pos h1, if_pos h1]
  · rw [if_neg h1, if_neg h1, if_neg]
    rintro ⟨e1, e2⟩
    have e3 : ext k n ≤ ext k (j + 1) := by
      rcases Nat.le_total n (j + 1) with e | e
      · exact ext_mono hk e
      · unfold ext; rw [e1, min_self, min_eq_right (by omega)]
    rw [ext_lt (by omega : j + 1 < k.length)] at e3
    linarith

theorem usual_facts {k : List ℝ} (hk : Spec.Knots k) {n p : ℕ} (hl : k.length = n + p + 1) {u : ℝ} (h1 : k.getD p 0 ≤ u) (h2 : u < k.getD n 0) :
    (∀ i, i < n → 0 ≤ basis k u p i) ∧ ∑ i ∈ Finset.range n, basis k u p i = 1 := by
  have e1 : ext k p ≤ u := by
    unfold ext; by_cases h : p < k.length
    · rw [min_eq_left (by omega)]; exact h1
    · omega
  have e2 : u < ext k n := by rw [ext_lt (by omega)]; exact h2
  refine ⟨fun i hi => ?_, ?_⟩
  · rw [basis_usual hk e2 (by omega)]
    exact Verif.Spline.NN_nonneg (by norm_num) (ext_mono hk) p i
  · rw [← Verif.Spline.NN_sum (δ := 1e-12) (ext_mono hk) (ext_gap hk) p e1 e2]
    exact Finset.sum_congr rfl fun i hi => basis_usual hk e2 (by have := Finset.mem_range.mp hi; omega)

/-- at the last knot, if it is repeated, all basis functions of degree at least 1 vanish -/
theorem basis_end {k : List ℝ} {u : ℝ} (hle : ∀ i, i < k.length → k.getD i 0 ≤ u) (hl : 2 ≤ k.length) (e1 : k.getD (k.length - 1) 0 = u) (e2 : k.getD (k.length - 2) 0 = u) :
    ∀ p i, i + p + 2 < k.length → basis k u (p + 1) i = 0 := by
  have b0 : ∀ i, i + 2 < k.length → basis k u 0 i = 0 := by
    intro i hi
    unfold basis
    rw [if_neg (by have := hle (i + 1) (by omega); rintro ⟨_, h⟩; linarith), if_neg (by omega)]
  intro p
  induction p with
  | zero =>
    intro i hi
    unfold basis
    rw [b0 i (by omega), mul_zero, ite_self, zero_add]
    by_cases h : i + 1 + 2 < k.length
    · rw [b0 _ h, mul_zero, ite_self]
    · have e : i + 3 = k.length := by omega
      rw [if_neg]
      rw [show i + (0 + 1) + 1 = k.length - 1 by omega, show i + 1 = k.length - 2 by omega, e1, e2]
      norm_num
  | succ p ih =>
    intro i hi
    rw [basis, ih i (by omega), ih (i + 1) (by omega), mul_zero, mul_zero, ite_self, ite_self, zero_add]

/-! ## sums over rows and columns -/

theorem total_eq (nv nu : ℕ) (f : ℕ → ℕ → ℝ) : total nv nu f = ∑ j ∈ Finset.range nv, ∑ i ∈ Finset.range nu, f j i := by
  have h : ∀ n (g : ℕ → ℝ), ((List.range n).map g).sum = ∑ i ∈ Finset.range n, g i := by
    intro n g
    induction n with
    | zero => rfl
    | succ n ih => rw [List.range_succ, List.map_append, List.sum_append, ih, Finset.sum_range_succ]; simp
  unfold total
  rw [h]
  exact Finset.sum_congr rfl fun j _ => h _ _

theorem entry_pos {points : List (List (V ℝ))} {weights : List (List ℝ)} {nu : ℕ} (hr : ∀ row ∈ points, row.length = nu) (hw : Spec.Weights points weights) {j i : ℕ} (hj : j < points.length) (hi : i < nu) :
    (1e-12 : ℝ) ≤ entry weights 0 j i := by
  obtain ⟨e, h⟩ := hw
  have hj' : j < weights.length := by omega
  obtain ⟨h1, h2⟩ := h j _ _ (List.getElem?_eq_getElem hj) (List.getElem?_eq_getElem hj')
  rw [hr _ (List.getElem_mem hj)] at h1
  unfold entry
  rw [getD_at hj', getD_at (by omega)]
  exact h2 _ (List.getElem_mem _)

theorem entry_mem {points : List (List (V ℝ))} {nu : ℕ} (hr : ∀ row ∈ points, row.length = nu) {j i : ℕ} (hj : j < points.length) (hi : i < nu) :
    ∃ row ∈ points, entry points ⟨0, 0, 0⟩ j i ∈ row := by
  refine ⟨points[j], List.getElem_mem hj, ?_⟩
  have := hr _ (List.getElem_mem hj)
  unfold entry
  rw [getD_at hj, getD_at (by omega)]
  exact List.getElem_mem _

/-! ## the theorems -/

/-- **C244, away from the far ends.** On a B-spline surface with ordered knots (equal or more than 1e-12 apart) and weights of at least 1e-12, the point for (u, v) exists and lies in every half-space
that has all the control points, so it is in their convex hull, for u from knot p up to but not including knot n and v likewise (p, q the degrees and n, m the numbers of columns and rows).
Missing: the far ends, see `C244_end`. -/
theorem C244_hull_partial {points : List (List (V ℝ))} {weights : List (List ℝ)} {uk vk : List ℝ} {p q : ℕ} {ur vr : Option Range} {s : Surf}
    (hs : bsplineSurface points uk vk p q (some weights) ur vr = .ok s) (hw : Spec.Weights points weights) (hu : Spec.Knots uk) (hv : Spec.Knots vk) {u v : ℝ}
    (u1 : uk.getD p 0 ≤ u) (u2 : u < uk.getD (points.headD []).length 0) (v1 : vk.getD q 0 ≤ v) (v2 : v < vk.getD points.length 0) :
    ∃ P, s.eval u v = .ok P ∧ ∀ a b c d, (∀ row ∈ points, ∀ Q ∈ row, Spec.inHalf a b c d Q) → Spec.inHalf a b c d P := by
  unfold bsplineSurface at hs
  dsimp only at hs
  by_cases h1 : points.length < 2
  · rw [if_pos h1] at hs; cases hs
  rw [if_neg h1] at hs
  by_cases h2 : (points.headD []).length < 2
  · rw [if_pos h2] at hs; cases hs
  rw [if_neg h2] at hs
  by_cases h3 : (points.any fun r => r.length ≠ (points.headD []).length) = true
  · rw [if_pos h3] at hs; cases hs
  rw [if_neg h3] at hs
  by_cases h4 : uk.length ≠ (points.headD []).length + p + 1
  · rw [if_pos h4] at hs; cases hs
  rw [if_neg h4] at hs
  by_cases h5 : vk.length ≠ points.length + q + 1
  · rw [if_pos h5] at hs; cases hs
  rw [if_neg h5] at hs
  cases hs
  have hr : ∀ row ∈ points, row.length = (points.headD []).length := by
    intro row hrow
    by_contra hne
    exact h3 (List.any_eq_true.mpr ⟨row, hrow, by simpa using hne⟩)
  obtain ⟨nu0, nu1⟩ := usual_facts hu (not_not.mp h4) u1 u2
  obtain ⟨nv0, nv1⟩ := usual_facts hv (not_not.mp h5) v1 v2
  refine ⟨_, rfl, fun a b c d hall => ?_⟩
  set nu := (points.headD []).length
  set nv := points.length
  have w0 : ∀ j < nv, ∀ i < nu, 1e-12 * (basis uk u p i * basis vk v q j) ≤ factor weights uk vk p q u v j i := by
    intro j hj i hi
    unfold factor
    have := entry_pos hr hw hj hi
    have := mul_nonneg (nu0 i hi) (nv0 j hj)
    nlinarith
  have wp : ∀ j < nv, ∀ i < nu, 0 ≤ factor weights uk vk p q u v j i := fun j hj i hi =>
    le_trans (mul_nonneg (by norm_num) (mul_nonneg (nu0 i hi) (nv0 j hj))) (w0 j hj i hi)
  have hS : (1e-12 : ℝ) ≤ total nv nu (factor weights uk vk p q u v) := by
    rw [total_eq]
    calc (1e-12 : ℝ) = 1e-12 * ((∑ i ∈ Finset.range nu, basis uk u p i) * ∑ j ∈ Finset.range nv, basis vk v q j) := by rw [nu1, nv1]; ring
      _ = ∑ j ∈ Finset.range nv, ∑ i ∈ Finset.range nu, 1e-12 * (basis uk u p i * basis vk v q j) := by
        rw [Finset.sum_mul_sum, Finset.mul_sum, Finset.sum_comm]
        exact Finset.sum_congr rfl fun i _ => by rw [Finset.mul_sum]
      _ ≤ _ := Finset.sum_le_sum fun j hj => Finset.sum_le_sum fun i hi => w0 j (Finset.mem_range.mp hj) i (Finset.mem_range.mp hi)
  unfold evalBspline
  rw [Option.getD_some]
  dsimp only
  rw [if_neg (by change ¬ total nv nu _ < _; linarith)]
  unfold Spec.inHalf
  dsimp only
  change a * (total nv nu _ / total nv nu _) + b * (total nv nu _ / total nv nu _) + c * (total nv nu _ / total nv nu _) ≤ d
  have hpos : 0 < total nv nu (factor weights uk vk p q u v) := by linarith
  rw [← mul_div_assoc, ← mul_div_assoc, ← mul_div_assoc, ← add_div, ← add_div, div_le_iff₀ hpos]
  rw [total_eq, total_eq, total_eq, total_eq]
  simp only [Finset.mul_sum, ← Finset.sum_add_distrib]
  refine Finset.sum_le_sum fun j hj => Finset.sum_le_sum fun i hi => ?_
  have hj := Finset.mem_range.mp hj
  have hi := Finset.mem_range.mp hi
  obtain ⟨row, hrow, hm⟩ := entry_mem hr hj hi
  have := hall row hrow _ hm
  unfold Spec.inHalf at this
  have := mul_le_mul_of_nonneg_left this (wp j hj i hi)
  nlinarith

/-- **C244, the far ends.** If the last two knots along u are equal (as in every clamped surface of degree at least 1), then for u the last knot — the end of the default range — the "point of the
surface" is the first control point, whatever v is. -/
theorem C244_end {points : List (List (V ℝ))} {weights : Option (List (List ℝ))} {uk vk : List ℝ} {p q : ℕ} {ur vr : Option Range} {s : Surf}
    (hs : bsplineSurface points uk vk (p + 1) q weights ur vr = .ok s) {u : ℝ} (hle : ∀ k ∈ uk, k ≤ u) (e1 : uk.getD (uk.length - 1) 0 = u) (e2 : uk.getD (uk.length - 2) 0 = u) (v : ℝ) :
    s.eval u v = .ok ((points.getD 0 []).getD 0 ⟨0, 0, 0⟩) := by
  unfold bsplineSurface at hs
  dsimp only at hs
  by_cases h1 : points.length < 2
  · rw [if_pos h1] at hs; cases hs
  rw [if_neg h1] at hs
  by_cases h2 : (points.headD []).length < 2
  · rw [if_pos h2] at hs; cases hs
  rw [if_neg h2] at hs
  by_cases h3 : (points.any fun r => r.length ≠ (points.headD []).length) = true
  · rw [if_pos h3] at hs; cases hs
  rw [if_neg h3] at hs
  by_cases h4 : uk.length ≠ (points.headD []).length + (p + 1) + 1
  · rw [if_pos h4] at hs; cases hs
  rw [if_neg h4] at hs
  by_cases h5 : vk.length ≠ points.length + q + 1
  · rw [if_pos h5] at hs; cases hs
  rw [if_neg h5] at hs
  cases hs
  have hb : ∀ i < (points.headD []).length, basis uk u (p + 1) i = 0 := fun i hi =>
    basis_end (fun i hi => by rw [getD_at hi]; exact hle _ (List.getElem_mem _)) (by omega) e1 e2 p i (by omega)
  have hz : ∀ w, total points.length (points.headD []).length (factor w uk vk (p + 1) q u v) = 0 := by
    intro w
    rw [total_eq]
    refine Finset.sum_eq_zero fun j _ => Finset.sum_eq_zero fun i hi => ?_
    unfold factor
    rw [hb i (Finset.mem_range.mp hi)]; ring
  unfold Surf.eval evalBspline
  dsimp only
  rw [if_pos (by rw [hz]; norm_num)]
  rfl

/-- **C244, the last rows.** The same along v. -/
theorem C244_end_v {points : List (List (V ℝ))} {weights : Option (List (List ℝ))} {uk vk : List ℝ} {p q : ℕ} {ur vr : Option Range} {s : Surf}
    (hs : bsplineSurface points uk vk p (q + 1) weights ur vr = .ok s) {v : ℝ} (hle : ∀ k ∈ vk, k ≤ v) (e1 : vk.getD (vk.length - 1) 0 = v) (e2 : vk.getD (vk.length - 2) 0 = v) (u : ℝ) :
    s.eval u v = .ok ((points.getD 0 []).getD 0 ⟨0, 0, 0⟩) := by
  unfold bsplineSurface at hs
  dsimp only at hs
  by_cases h1 : points.length < 2
  · rw [if_pos h1] at hs; cases hs
  rw [if_neg h1] at hs
  by_cases h2 : (points.headD []).length < 2
  · rw [if_pos h2] at hs; cases hs
  rw [if_neg h2] at hs
  by_cases h3 : (points.any fun r => r.length ≠ (points.headD []).length) = true
  · rw [if_pos h3] at hs; cases hs
  rw [if_neg h3] at hs
  by_cases h4 : uk.length ≠ (points.headD []).length + p + 1
  · rw [if_pos h4] at hs; cases hs
  rw [if_neg h4] at hs
  by_cases h5 : vk.length ≠ points.length + (q + 1) + 1
  · rw [if_pos h5] at hs; cases hs
  rw [if_neg h5] at hs
  cases hs
  have hb : ∀ j < points.length, basis vk v (q + 1) j = 0 := fun i hi =>
    basis_end (fun i hi => by rw [getD_at hi]; exact hle _ (List.getElem_mem _)) (by omega) e1 e2 q i (by omega)
  have hz : ∀ w, total points.length (points.headD []).length (factor w uk vk p (q + 1) u v) = 0 := by
    intro w
    rw [total_eq]
    refine Finset.sum_eq_zero fun j hj => Finset.sum_eq_zero fun i _ => ?_
    unfold factor
    rw [hb j (Finset.mem_range.mp hj)]; ring
  unfold Surf.eval evalBspline
  dsimp only
  rw [if_pos (by rw [hz]; norm_num)]
  rfl

/-- **C244, a square.** The bilinear patch on the unit square: the corner (1, 1) of its range evaluates to the origin, its opposite corner. -/
theorem C244_square : ∃ s, bsplineSurface [[⟨0, 0, 0⟩, ⟨1, 0, 0⟩], [⟨0, 1, 0⟩, ⟨1, 1, 0⟩]] [0, 0, 1, 1] [0, 0, 1, 1] 1 1 none none none = .ok s ∧
    s.ranges = ((0, 1), (0, 1)) ∧ s.eval 1 1 = .ok ⟨0, 0, 0⟩ ∧ ∀ v, s.eval 1 v = .ok ⟨0, 0, 0⟩ := by
  have h : bsplineSurface [[⟨0, 0, 0⟩, ⟨1, 0, 0⟩], [⟨0, 1, 0⟩, ⟨1, 1, 0⟩]] [0, 0, 1, 1] [0, 0, 1, 1] 1 1 none none none = .ok (.bspline [[⟨0, 0, 0⟩, ⟨1, 0, 0⟩], [⟨0, 1, 0⟩, ⟨1, 1, 0⟩]] [[1, 1], [1, 1]] [0, 0, 1, 1] [0, 0, 1, 1] 1 1 (0, 1) (0, 1)) := by
    unfold bsplineSurface
    simp [List.replicate]
  refine ⟨_, h, rfl, ?_, fun v => ?_⟩
  · exact C244_end h (u := 1) (by intro k hk; simp at hk; rcases hk with rfl | rfl <;> norm_num) rfl rfl 1
  · exact C244_end h (u := 1) (by intro k hk; simp at hk; rcases hk with rfl | rfl <;> norm_num) rfl rfl v

/-- **C244 (weights).** The point for (u, v) is the mean of the control points, that of row j and column i weighted by its weight times the values of the basis functions i and j, if the weights add up to 1e-12 or more. -/
theorem C244_mean {points : List (List (V ℝ))} {weights : List (List ℝ)} {uk vk : List ℝ} {p q : ℕ} {ur vr : Option Range} {s : Surf}
    (hs : bsplineSurface points uk vk p q (some weights) ur vr = .ok s) (u v : ℝ) {W : ℝ}
    (hW : W = ∑ j ∈ Finset.range points.length, ∑ i ∈ Finset.range (points.headD []).length, (weights.getD j []).getD i 0 * basis uk u p i * basis vk v q j) (hp : 1e-12 ≤ W) :
    ∃ P, s.eval u v = .ok P ∧
      W * P.x = (∑ j ∈ Finset.range points.length, ∑ i ∈ Finset.range (points.headD []).length, (weights.getD j []).getD i 0 * basis uk u p i * basis vk v q j * ((points.getD j []).getD i ⟨0, 0, 0⟩).x) ∧
      W * P.y = (∑ j ∈ Finset.range points.length, ∑ i ∈ Finset.range (points.headD []).length, (weights.getD j []).getD i 0 * basis uk u p i * basis vk v q j * ((points.getD j []).getD i ⟨0, 0, 0⟩).y) ∧
      W * P.z = (∑ j ∈ Finset.range points.length, ∑ i ∈ Finset.range (points.headD []).length, (weights.getD j []).getD i 0 * basis uk u p i * basis vk v q j * ((points.getD j []).getD i ⟨0, 0, 0⟩).z) := by
  unfold bsplineSurface at hs
  dsimp only at hs
  by_cases h1 : points.length < 2
  · rw [if_pos h1] at hs; cases hs
  rw [if_neg h1] at hs
  by_cases h2 : (points.headD []).length < 2
  · rw [if_pos h2] at hs; cases hs
  rw [if_neg h2] at hs
  by_cases h3 : (points.any fun r => r.length ≠ (points.headD []).length) = true
  · rw [if_pos h3] at hs; cases hs
  rw [if_neg h3] at hs
  by_cases h4 : uk.length ≠ (points.headD []).length + p + 1
  · rw [if_pos h4] at hs; cases hs
  rw [if_neg h4] at hs
  by_cases h5 : vk.length ≠ points.length + q + 1
  · rw [if_pos h5] at hs; cases hs
  rw [if_neg h5] at hs
  cases hs
  have hf : ∀ j i, factor weights uk vk p q u v j i = (weights.getD j []).getD i 0 * basis uk u p i * basis vk v q j := by
    intro j i; unfold factor entry; ring
  have hT : total points.length (points.headD []).length (factor weights uk vk p q u v) = W := by
    rw [total_eq, hW]
    exact Finset.sum_congr rfl fun j _ => Finset.sum_congr rfl fun i _ => hf j i
  refine ⟨_, rfl, ?_⟩
  unfold evalBspline
  rw [Option.getD_some]
  dsimp only
  have hw : ¬ total points.length (points.headD []).length (factor weights uk vk p q u v) < 1e-12 := by rw [hT]; linarith
  rw [if_neg hw]
  dsimp only
  have h0 : W ≠ 0 := by intro e; rw [e] at hp; norm_num at hp
  rw [hT, mul_div_cancel₀ _ h0, mul_div_cancel₀ _ h0, mul_div_cancel₀ _ h0, total_eq, total_eq, total_eq]
  refine ⟨?_, ?_, ?_⟩ <;> exact Finset.sum_congr rfl fun j _ => Finset.sum_congr rfl fun i _ => by rw [hf]; rfl

/-- the hypotheses of the hull theorem can be met -/
example : ∃ s, bsplineSurface [[⟨0, 0, 0⟩, ⟨1, 0, 0⟩], [⟨0, 1, 0⟩, ⟨1, 1, 0⟩]] [0, 0, 1, 1] [0, 0, 1, 1] 1 1 (some [[1, 1], [1, 2]]) none none = .ok s ∧
    Spec.Weights [[⟨0, 0, 0⟩, ⟨1, 0, 0⟩], [⟨0, 1, 0⟩, ⟨1, 1, 0⟩]] [[1, 1], [1, 2]] ∧ Spec.Knots [0, 0, 1, 1] ∧
    ∃ P, s.eval (1 / 2) (1 / 2) = .ok P ∧ P.x ≤ 1 := by
  have h : bsplineSurface [[⟨0, 0, 0⟩, ⟨1, 0, 0⟩], [⟨0, 1, 0⟩, ⟨1, 1, 0⟩]] [0, 0, 1, 1] [0, 0, 1, 1] 1 1 (some [[1, 1], [1, 2]]) none none = .ok (.bspline [[⟨0, 0, 0⟩, ⟨1, 0, 0⟩], [⟨0, 1, 0⟩, ⟨1, 1, 0⟩]] [[1, 1], [1, 2]] [0, 0, 1, 1] [0, 0, 1, 1] 1 1 (0, 1) (0, 1)) := by
    unfold bsplineSurface
    simp
  have hw : Spec.Weights [[⟨0, 0, 0⟩, ⟨1, 0, 0⟩], [⟨0, 1, 0⟩, ⟨1, 1, 0⟩]] [[1, 1], [1, 2]] := by
    refine ⟨rfl, fun j row wrow h1 h2 => ?_⟩
    rcases j with _ | _ | j
    · simp at h1 h2; subst h1; subst h2; refine ⟨rfl, ?_⟩; intro w hw; simp at hw; rw [hw]; norm_num
    · simp at h1 h2; subst h1; subst h2; refine ⟨rfl, ?_⟩; intro w hw; simp at hw; rcases hw with rfl | rfl <;> norm_num
    · simp at h1
  have hk : Spec.Knots [0, 0, 1, 1] := by
    unfold Spec.Knots Spec.apart
    simp only [List.pairwise_cons, List.mem_cons, List.not_mem_nil, or_false, forall_eq_or_imp, forall_eq, IsEmpty.forall_iff, implies_true, List.Pairwise.nil, and_true]
    norm_num
  refine ⟨_, h, hw, hk, ?_⟩
  obtain ⟨P, h1, h2⟩ := C244_hull_partial h hw hk hk (u := 1 / 2) (v := 1 / 2) (by norm_num) (by norm_num) (by norm_num) (by norm_num)
  refine ⟨P, h1, ?_⟩
  have := h2 1 0 0 1 (by
    intro row hr Q hQ
    simp at hr
    rcases hr with rfl | rfl <;> simp at hQ <;> rcases hQ with rfl | rfl <;> unfold Spec.inHalf <;> norm_num)
  unfold Spec.inHalf at this
  linarith

end Verif.Ana
