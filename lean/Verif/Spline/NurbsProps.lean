import Verif.Spline.BSpline
import Mathlib.Algebra.BigOperators.Field

/-! # NURBS curves (C126) -/

namespace Verif.Spline

open Spec

/-- a knot list as a function, constant beyond its end -/
noncomputable def kfun (k : List ℝ) (i : ℕ) : ℝ := k.getD (min i (k.length - 1)) 0

theorem kfun_of_lt {k : List ℝ} {i : ℕ} (h : i < k.length) : kfun k i = k.getD i 0 := by
  rw [kfun, min_eq_left (by omega)]

theorem kfun_mono {k : List ℝ} (hk : k.Pairwise (· ≤ ·)) : Monotone (kfun k) := by
  intro i j hij
  unfold kfun
  by_cases h0 : k.length = 0
  · simp [h0]
  · have h1 : min i (k.length - 1) < k.length := by omega
    have h2 : min j (k.length - 1) < k.length := by omega
    simp only [List.getD_eq_getElem?_getD, List.getElem?_eq_getElem h1, List.getElem?_eq_getElem h2, Option.getD_some]
    rcases eq_or_lt_of_le (min_le_min_right (k.length - 1) hij) with h | h
    · simp [h]
    · exact List.pairwise_iff_getElem.1 hk _ _ h1 h2 h

open Classical in
/-- the base case of `_nip` on functions -/
noncomputable def nn0 (κ : ℕ → ℝ) (z u : ℝ) (i : ℕ) : ℝ :=
  if (κ i ≤ u ∧ u < κ (i + 1)) ∨ (u = z ∧ κ i < κ (i + 1)) then 1 else 0

theorem nip_eq {k : List ℝ} (hk : k.Pairwise (· ≤ ·)) (u : ℝ) : ∀ p i, i + p + 1 < k.length →
    nip p i u k = .ok (NN 0 (kfun k) (nn0 (kfun k) (kfun k (k.length - 1)) u) u p i)
  | 0, i, h => by
    simp only [nip, nip0]
    rw [knotAt_ok (by omega), knotAt_ok (by omega), knotAt_ok (by omega)]
    simp only [NN, nn0]
    rw [kfun_of_lt (by omega), kfun_of_lt (by omega), kfun_of_lt (by omega)]
    split <;> rfl
  | p + 1, i, h => by
    have t1 : ∀ c d v, 0 ≤ d → nterm c d (.ok v) = .ok (tm 0 c d v) := by
      intro c d v hd
      unfold nterm tm
      rcases eq_or_lt_of_le hd with rfl | hd
      · simp
      · rw [if_pos hd.ne', if_pos hd]
    have hm := kfun_mono hk
    simp only [nip]
    rw [knotAt_ok (by omega), knotAt_ok (by omega), nip_eq hk u p i (by omega), nip_eq hk u p (i + 1) (by omega)]
    simp only
    rw [← kfun_of_lt (k := k) (by omega : i + (p + 1) < k.length), ← kfun_of_lt (k := k) (by omega : i < k.length),
      t1 _ _ _ (sub_nonneg.2 (hm (by omega)))]
    simp only
    rw [knotAt_ok (by omega), knotAt_ok (by omega)]
    simp only
    rw [← kfun_of_lt (k := k) (by omega : i + (p + 1) + 1 < k.length), ← kfun_of_lt (k := k) (by omega : i + 1 < k.length),
      t1 _ _ _ (sub_nonneg.2 (hm (by omega)))]
    simp only [NN]

theorem nurbsSum_eq {d : ℕ} {u : ℝ} {k : List ℝ} {b : ℕ → ℝ} : ∀ {l : List (P3 × ℝ)} {i : ℕ} {num : P3} {den : ℝ},
    (∀ j, i ≤ j → j < i + l.length → nip d j u k = .ok (b j)) →
    nurbsSum d u k i num den l = .ok (num + ∑ j ∈ Finset.range l.length, ((l.getD j 0).2 * b (i + j)) • (l.getD j 0).1,
      den + ∑ j ∈ Finset.range l.length, (l.getD j 0).2 * b (i + j))
  | [], i, num, den, _ => by simp [nurbsSum]
  | (p, w) :: r, i, num, den, h => by
    simp only [nurbsSum, h i le_rfl (by simp)]
    rw [nurbsSum_eq (l := r) (i := i + 1) fun j h1 h2 => h j (by omega) (by simp; omega)]
    congr 1
    rw [List.length_cons, Finset.sum_range_succ', Finset.sum_range_succ']
    simp only [List.getD_cons_succ, List.getD_cons_zero, show ∀ j, i + 1 + j = i + (j + 1) by intro j; omega, add_zero]
    rw [add_comm (∑ j ∈ Finset.range r.length, ((r.getD j 0).2 * b (i + (j + 1))) • (r.getD j 0).1), ← add_assoc,
      add_comm (∑ j ∈ Finset.range r.length, (r.getD j 0).2 * b (i + (j + 1))), ← add_assoc]
    rfl

/-- a proper NURBS definition: as many weights as control points, all positive, and an ascending knot vector of the right
length -/
structure Proper (c : Nurbs) : Prop where
  degree : 1 ≤ c.degree
  points : c.degree + 1 ≤ c.pts.length
  weights : c.weights.length = c.pts.length
  positive : ∀ w ∈ c.weights, 0 < w
  length : c.knots.length = c.pts.length + c.degree + 1
  ascending : c.knots.Pairwise (· ≤ ·)

theorem nn0_lt {κ : ℕ → ℝ} {z u : ℝ} (h : u < z) : nn0 κ z u = half κ u := by
  funext i
  unfold nn0 half
  have : ¬ u = z := by intro h'; linarith
  simp [this]

/-- weights `wᵢ bᵢ / Σ wⱼ bⱼ` -/
noncomputable def rational (w b : ℕ → ℝ) (n i : ℕ) : ℝ := w i * b i / ∑ j ∈ Finset.range n, w j * b j

theorem nurbsPoint_eq {c : Nurbs} (hc : Proper c) (u : ℝ) {b : ℕ → ℝ}
    (hb : ∀ i < c.pts.length, nip c.degree i u c.knots = .ok (b i))
    (hpos : 0 < ∑ j ∈ Finset.range c.pts.length, c.weights.getD j 0 * b j) :
    nurbsPoint c u = .ok (combo (rational (fun i => c.weights.getD i 0) b c.pts.length) c.pts) := by
  have hl : (c.pts.zip c.weights).length = c.pts.length := by simp [hc.weights]
  have hg : ∀ j < c.pts.length, (c.pts.zip c.weights).getD j 0 = (c.pts.getD j 0, c.weights.getD j 0) := by
    intro j hj
    have h2 : j < c.weights.length := by rw [hc.weights]; exact hj
    simp [List.getD_eq_getElem?_getD, List.getElem?_zip_eq_some, List.getElem?_eq_getElem, hj, h2]
  unfold nurbsPoint
  rw [nurbsSum_eq (b := b) fun j _ hj => hb j (by simpa [hl] using hj)]
  simp only [zero_add, hl]
  have e1 : ∑ j ∈ Finset.range c.pts.length, ((c.pts.zip c.weights).getD j 0).2 * b j =
      ∑ j ∈ Finset.range c.pts.length, c.weights.getD j 0 * b j :=
    Finset.sum_congr rfl fun j hj => by rw [hg j (Finset.mem_range.1 hj)]
  have e2 : ∑ j ∈ Finset.range c.pts.length, (((c.pts.zip c.weights).getD j 0).2 * b j) • ((c.pts.zip c.weights).getD j 0).1 =
      ∑ j ∈ Finset.range c.pts.length, (c.weights.getD j 0 * b j) • c.pts.getD j 0 :=
    Finset.sum_congr rfl fun j hj => by rw [hg j (Finset.mem_range.1 hj)]
  rw [e1, e2, if_neg hpos.ne']
  congr 1
  unfold combo rational
  have key : ∀ (D : ℝ) (x : P3), ((0, 0, 0) + x).1 / D = (D⁻¹ • x).1 ∧ ((0, 0, 0) + x).2.1 / D = (D⁻¹ • x).2.1 ∧
      ((0, 0, 0) + x).2.2 / D = (D⁻¹ • x).2.2 := by
    intro D x; simp [div_eq_inv_mul]
  obtain ⟨k1, k2, k3⟩ := key (∑ j ∈ Finset.range c.pts.length, c.weights.getD j 0 * b j)
    (∑ j ∈ Finset.range c.pts.length, (c.weights.getD j 0 * b j) • c.pts.getD j 0)
  rw [k1, k2, k3]
  show (∑ j ∈ Finset.range c.pts.length, c.weights.getD j 0 * b j)⁻¹ •
    (∑ j ∈ Finset.range c.pts.length, (c.weights.getD j 0 * b j) • c.pts.getD j 0) = _
  rw [Finset.smul_sum]
  refine Finset.sum_congr rfl fun j _ => ?_
  rw [smul_smul, div_eq_inv_mul]

theorem weight_pos {c : Nurbs} (hc : Proper c) {i : ℕ} (hi : i < c.pts.length) : 0 < c.weights.getD i 0 := by
  have h : i < c.weights.length := by rw [hc.weights]; exact hi
  refine hc.positive _ ?_
  simp [List.getD_eq_getElem?_getD, List.getElem?_eq_getElem h]

/-- basis values at an interior parameter -/
theorem nip_interior {c : Nurbs} (hc : Proper c) {u : ℝ} (h0 : kfun c.knots c.degree ≤ u)
    (h1 : u < kfun c.knots c.pts.length) : ∃ b : ℕ → ℝ,
    (∀ i < c.pts.length, nip c.degree i u c.knots = .ok (b i)) ∧ (∀ i, 0 ≤ b i) ∧
    ∑ i ∈ Finset.range c.pts.length, b i = 1 ∧
    (∀ i, b i ≠ 0 → kfun c.knots i ≤ u ∧ u < kfun c.knots (i + c.degree + 1)) ∧
    ((∀ i, i ≤ c.degree → kfun c.knots i = u) → u < kfun c.knots (c.degree + 1) → ∀ i, i ≠ 0 → b i = 0) := by
  have hm := kfun_mono hc.ascending
  have hz : u < kfun c.knots (c.knots.length - 1) := lt_of_lt_of_le h1 (hm (by rw [hc.length]; omega))
  refine ⟨NN 0 (kfun c.knots) (half (kfun c.knots) u) u c.degree, fun i hi => ?_, NN_nonneg le_rfl hm c.degree, ?_,
    NN_support hm c.degree, fun hs hl i hi => NN_start hm hs hl c.degree le_rfl i (by omega)⟩
  · rw [nip_eq hc.ascending u c.degree i (by rw [hc.length]; omega), nn0_lt hz]
  · exact NN_sum hm (fun i j h => by linarith [sub_pos.2 h]) c.degree h0 h1

theorem rational_convex {c : Nurbs} (hc : Proper c) {b : ℕ → ℝ} (h0 : ∀ i, 0 ≤ b i)
    (h1 : ∑ i ∈ Finset.range c.pts.length, b i = 1) :
    0 < ∑ j ∈ Finset.range c.pts.length, c.weights.getD j 0 * b j ∧
    ConvexWeights c.pts.length (rational (fun i => c.weights.getD i 0) b c.pts.length) := by
  have hex : ∃ i ∈ Finset.range c.pts.length, 0 < b i := by
    by_contra hcon
    push Not at hcon
    have : ∑ i ∈ Finset.range c.pts.length, b i ≤ 0 := Finset.sum_nonpos hcon
    linarith
  have hpos : 0 < ∑ j ∈ Finset.range c.pts.length, c.weights.getD j 0 * b j := by
    refine Finset.sum_pos' (fun i hi => ?_) ?_
    · exact mul_nonneg (weight_pos hc (Finset.mem_range.1 hi)).le (h0 i)
    · obtain ⟨i, hi, hb⟩ := hex
      exact ⟨i, hi, mul_pos (weight_pos hc (Finset.mem_range.1 hi)) hb⟩
  refine ⟨hpos, ⟨fun i hi => ?_, ?_⟩⟩
  · exact div_nonneg (mul_nonneg (weight_pos hc hi).le (h0 i)) hpos.le
  · unfold rational
    rw [← Finset.sum_div, div_self hpos.ne']

theorem evaluateNurbs_eq {c : Nurbs} (hc : Proper c) (u : ℝ) : evaluateNurbs c u =
    nurbsPoint c (kfun c.knots c.degree + (kfun c.knots c.pts.length - kfun c.knots c.degree) * clamp01 u) := by
  unfold evaluateNurbs
  rw [knotAt_ok (by rw [hc.length]; omega), knotAt_ok (by rw [hc.length]; omega)]
  have : c.knots.length - c.degree - 1 = c.pts.length := by rw [hc.length]; omega
  simp only [this]
  rw [kfun_of_lt (by rw [hc.length]; omega), kfun_of_lt (by rw [hc.length]; omega)]

/-- **C126 (part).** For a proper definition whose parameter interval is not empty, `evaluate_nurbs` at a parameter below 1
returns a convex combination of the control points, with weights proportional to the given weights times non-negative
numbers that do not depend on weights or control points, and control points are used only within their knot interval
(local control). Missing: the end of the curve, see `C126_end_wrong`. -/
theorem C126_convex_partial (n p : ℕ) (k : List ℝ) (u : ℝ) (h0 : 0 ≤ u) (h1 : u < 1) (hne : kfun k p < kfun k n) :
    ∃ b : ℕ → ℝ, (∀ i, 0 ≤ b i) ∧
      (∀ i, b i ≠ 0 → kfun k i ≤ kfun k p + (kfun k n - kfun k p) * u ∧
        kfun k p + (kfun k n - kfun k p) * u < kfun k (i + p + 1)) ∧
      ∀ c : Nurbs, Proper c → c.pts.length = n → c.degree = p → c.knots = k →
        ∃ w, ConvexWeights n w ∧ evaluateNurbs c u = .ok (combo w c.pts) ∧
          ∃ s : ℝ, 0 < s ∧ ∀ i < n, w i = c.weights.getD i 0 * b i / s := by
  by_cases hex : ∃ c : Nurbs, Proper c ∧ c.pts.length = n ∧ c.degree = p ∧ c.knots = k
  · obtain ⟨c, hc, rfl, rfl, rfl⟩ := hex
    have hu1 : kfun c.knots c.degree ≤ kfun c.knots c.degree + (kfun c.knots c.pts.length - kfun c.knots c.degree) * u := by
      have := mul_nonneg (sub_pos.2 hne).le h0; linarith
    have hu2 : kfun c.knots c.degree + (kfun c.knots c.pts.length - kfun c.knots c.degree) * u < kfun c.knots c.pts.length := by
      nlinarith [sub_pos.2 hne]
    obtain ⟨b, hb, hb0, hb1, hbs, -⟩ := nip_interior hc hu1 hu2
    refine ⟨b, hb0, hbs, fun c' hc' hl hd hk => ?_⟩
    have hb' : ∀ i < c'.pts.length, nip c'.degree i
        (kfun c.knots c.degree + (kfun c.knots c.pts.length - kfun c.knots c.degree) * u) c'.knots = .ok (b i) := by
      rw [hl, hd, hk]; exact hb
    obtain ⟨hpos, hconv⟩ := rational_convex hc' hb0 (by rw [hl]; exact hb1)
    rw [hl] at hconv
    refine ⟨_, hconv, ?_, _, hpos, fun i hi => by unfold rational; rw [hl]⟩
    rw [evaluateNurbs_eq hc', clamp01_id h0 h1.le, hl, hd, hk, nurbsPoint_eq hc' _ hb' hpos, hl]
  · exact ⟨fun _ => 0, fun _ => le_rfl, fun i h => absurd rfl h,
      fun c h1 h2 h3 h4 => absurd ⟨c, h1, h2, h3, h4⟩ hex⟩

/-- **C126 (part).** So all of the curve but its end lies in the convex hull of the control points. -/
theorem C126_hull_partial (c : Nurbs) (hc : Proper c) (hne : kfun c.knots c.degree < kfun c.knots c.pts.length) (u : ℝ)
    (h0 : 0 ≤ u) (h1 : u < 1) : ∃ q, evaluateNurbs c u = .ok q ∧ q ∈ convexHull ℝ {x : P3 | x ∈ c.pts} := by
  obtain ⟨b, -, -, h⟩ := C126_convex_partial c.pts.length c.degree c.knots u h0 h1 hne
  obtain ⟨w, hw, he, -⟩ := h c hc rfl rfl rfl
  exact ⟨_, he, combo_hull hw.nonneg hw.sum_one⟩

/-- **C126 (part).** With clamped knots the curve begins at its first control point. -/
theorem C126_start_partial (c : Nurbs) (hc : Proper c) (hclamp : ∀ i ≤ c.degree, kfun c.knots i = kfun c.knots 0)
    (hne : kfun c.knots 0 < kfun c.knots (c.degree + 1)) (u : ℝ) (hu : u ≤ 0) :
    evaluateNurbs c u = .ok (c.pts.getD 0 0) := by
  have hm := kfun_mono hc.ascending
  have hlt : kfun c.knots 0 < kfun c.knots c.pts.length := lt_of_lt_of_le hne (hm hc.points)
  rw [evaluateNurbs_eq hc, show clamp01 u = 0 by unfold clamp01; rw [min_eq_right (by linarith), max_eq_left hu],
    mul_zero, add_zero, hclamp c.degree le_rfl]
  obtain ⟨b, hb, hb0, hb1, -, hst⟩ := nip_interior hc (u := kfun c.knots 0) (by rw [hclamp c.degree le_rfl]) hlt
  have hz := hst hclamp hne
  have hl : 0 < c.pts.length := lt_of_lt_of_le (by omega) hc.points
  have hpick : ∀ (f : ℕ → ℝ), ∑ i ∈ Finset.range c.pts.length, f i * b i = f 0 * b 0 := fun f =>
    Finset.sum_eq_single 0 (fun i _ h => by rw [hz i h, mul_zero]) (fun h => absurd (Finset.mem_range.2 hl) h)
  have hb0' : b 0 = 1 := by
    have h := hpick (fun _ => 1)
    simp only [one_mul] at h
    rw [← h]; exact hb1
  obtain ⟨hpos, -⟩ := rational_convex hc hb0 hb1
  rw [nurbsPoint_eq hc _ hb hpos]
  congr 1
  unfold combo rational
  rw [hpick, hb0', mul_one]
  rw [Finset.sum_eq_single 0 (fun i _ h => by rw [hz i h]; simp) (fun h => absurd (Finset.mem_range.2 hl) h), hb0', mul_one,
    div_self (weight_pos hc hl).ne', one_smul]

/-! ## the default knot vector -/

theorem openKnots_bezier (p : ℕ) : openKnots (p + 1) p = List.replicate (p + 1) 0 ++ List.replicate (p + 1) 1 := by
  unfold openKnots
  rw [show p + 1 - p - 1 = 0 by omega]
  simp only [List.range_zero, List.map_nil, List.append_nil]
  rw [List.take_of_length_le (by simp; omega)]

/-- **C126 (part).** When there are exactly `degree + 1` control points (one span), the default curve ends at its last
control point. -/
theorem C126_single_span_partial (pts : List P3) (p : ℕ) (weights : Option (List ℝ)) (c : Nurbs)
    (hc : nurbs pts p weights none = .ok c) (hpos : ∀ w, weights = some w → ∀ x ∈ w, 0 < x) (hl : pts.length = p + 1) :
    evaluateNurbs c 1 = .ok (pts.getD p 0) ∧ evaluateNurbs c 0 = .ok (pts.getD 0 0) := by
  unfold nurbs at hc
  split at hc
  · cases hc
  split at hc
  · cases hc
  split at hc
  · cases hc
  split at hc
  · cases hc
  split at hc
  · cases hc
  rename_i hn hd hcount hw _
  cases hc
  have hk : (openKnots pts.length p) = List.replicate (p + 1) 0 ++ List.replicate (p + 1) 1 := by rw [hl]; exact openKnots_bezier p
  have hprop : Proper ⟨pts, p, weights.getD (List.replicate pts.length 1), (none : Option (List ℝ)).getD (openKnots pts.length p)⟩ := by
    refine ⟨Nat.not_lt.1 hd, Nat.not_lt.1 hcount, ?_, ?_, ?_, ?_⟩
    · cases weights with
      | none => simp
      | some w => simpa using hw
    · cases weights with
      | none => intro w h; simp at h; rw [h.2]; norm_num
      | some w => exact hpos w rfl
    · simp [hk]; omega
    · simp only [Option.getD_none, hk]
      refine List.pairwise_append.2 ⟨?_, ?_, ?_⟩
      · exact List.pairwise_replicate.2 (Or.inr le_rfl)
      · exact List.pairwise_replicate.2 (Or.inr le_rfl)
      · intro a ha b hb
        rw [List.eq_of_mem_replicate ha, List.eq_of_mem_replicate hb]; norm_num
  have hkf : ∀ i, kfun (openKnots pts.length p) i = if i < p + 1 then 0 else 1 := by
    intro i
    rw [hk]
    unfold kfun
    simp only [List.length_append, List.length_replicate]
    rw [List.getD_eq_getElem?_getD]
    split
    · rename_i h
      rw [List.getElem?_append_left (by simp; omega), List.getElem?_replicate]
      rw [if_pos (by omega)]; rfl
    · rename_i h
      rw [List.getElem?_append_right (by simp; omega), List.getElem?_replicate]
      rw [if_pos (by simp; omega)]; rfl
  constructor
  · rw [evaluateNurbs_eq hprop]
    have ek : kfun (openKnots pts.length p) p = 0 := by rw [hkf, if_pos (by omega)]
    have en : kfun (openKnots pts.length p) pts.length = 1 := by rw [hkf, if_neg (by omega)]
    show nurbsPoint _ (kfun (openKnots pts.length p) p + (kfun (openKnots pts.length p) pts.length -
      kfun (openKnots pts.length p) p) * clamp01 1) = _
    rw [ek, en, show clamp01 (1:ℝ) = 1 by unfold clamp01; simp, show (0:ℝ) + (1 - 0) * 1 = 1 by norm_num]
    -- basis at the end
    let b := NN 0 (kfun (openKnots pts.length p)) (nn0 (kfun (openKnots pts.length p)) 1 1) 1 p
    have hb : ∀ i < pts.length, nip p i 1 (openKnots pts.length p) = .ok (b i) := by
      intro i hi
      have hlen : (openKnots pts.length p).length = pts.length + p + 1 := hprop.length
      have hasc : (openKnots pts.length p).Pairwise (· ≤ ·) := hprop.ascending
      rw [nip_eq hasc 1 p i (by rw [hlen]; omega), hkf, if_neg (by rw [hlen]; omega)]
    obtain ⟨e0, e1⟩ := NN_end (δ := 0) (κ := kfun (openKnots pts.length p)) (u := 1) (n := p + 1)
      (N0 := nn0 (kfun (openKnots pts.length p)) 1 1) (by omega)
      (fun i hi => by rw [hkf, if_neg (by omega)]) (by rw [hkf, if_pos (by omega)]; norm_num)
      (by rw [hkf, if_pos (by omega)]; norm_num) le_rfl
      (fun i hi => by
        have a1 : kfun (openKnots pts.length p) i = 0 := by rw [hkf, if_pos (by omega)]
        have a2 : kfun (openKnots pts.length p) (i + 1) = 0 := by rw [hkf, if_pos (by omega)]
        unfold nn0
        rw [a1, a2]; norm_num)
      (by
        have a2 : kfun (openKnots pts.length p) (p + 1 - 1 + 1) = 1 := by rw [hkf, if_neg (by omega)]
        have a1 : kfun (openKnots pts.length p) (p + 1 - 1) = 0 := by rw [hkf, if_pos (by omega)]
        unfold nn0; rw [a2, a1]; norm_num) p
    have hb0 : ∀ i, i < p + 1 → i ≠ p → b i = 0 := fun i h1 h2 => e0 i (by omega)
    have hbp : b p = 1 := e1
    have hpick : ∀ (f : ℕ → ℝ), ∑ i ∈ Finset.range (p + 1), f i * b i = f p * b p := fun f =>
      Finset.sum_eq_single p (fun i hi h => by rw [hb0 i (Finset.mem_range.1 hi) h, mul_zero])
        (fun h => absurd (Finset.mem_range.2 (by omega)) h)
    have hwp := weight_pos hprop (show p < pts.length by omega)
    have hr : Finset.range pts.length = Finset.range (p + 1) := by rw [hl]
    have hsum : ∑ j ∈ Finset.range pts.length, (weights.getD (List.replicate pts.length 1)).getD j 0 * b j =
        (weights.getD (List.replicate pts.length 1)).getD p 0 := by rw [hr, hpick, hbp, mul_one]
    rw [nurbsPoint_eq hprop 1 hb (lt_of_lt_of_eq hwp hsum.symm)]
    congr 1
    unfold combo rational
    show ∑ i ∈ Finset.range pts.length, ((weights.getD (List.replicate pts.length 1)).getD i 0 * b i /
      ∑ j ∈ Finset.range pts.length, (weights.getD (List.replicate pts.length 1)).getD j 0 * b j) • pts.getD i 0 = _
    rw [hsum, hr, Finset.sum_eq_single p (fun i hi h => by rw [hb0 i (Finset.mem_range.1 hi) h]; simp)
      (fun h => absurd (Finset.mem_range.2 (by omega)) h), hbp, mul_one, div_self hwp.ne', one_smul]
  · refine C126_start_partial _ hprop (fun i hi => ?_) ?_ 0 le_rfl
    · show kfun (openKnots pts.length p) i = kfun (openKnots pts.length p) 0
      have hi : i ≤ p := hi
      rw [hkf, hkf, if_pos (by omega), if_pos (by omega)]
    · show kfun (openKnots pts.length p) 0 < kfun (openKnots pts.length p) (p + 1)
      rw [hkf, hkf, if_pos (by omega), if_neg (by omega)]; norm_num

/-- **C126 (violated).** With more control points the curve does not end at its last control point, although the knot vector
is clamped: the base case of the recursion counts every span as containing the last parameter. The default cubic through
five control points on a zigzag, with unit weights and default knots, ends at height 2 although every control point has a
height between 0 and 1. -/
theorem C126_end_wrong :
    ∃ c, nurbs [(0, 0, 0), (1, 1, 0), (2, 0, 0), (3, 1, 0), (4, 0, 0)] 3 none none = .ok c ∧
      evaluateNurbs c 1 = .ok (4, 2, 0) := by
  refine ⟨⟨[(0, 0, 0), (1, 1, 0), (2, 0, 0), (3, 1, 0), (4, 0, 0)], 3, [1, 1, 1, 1, 1], [0, 0, 0, 0, 1/2, 1, 1, 1, 1]⟩, ?_, ?_⟩
  · norm_num [nurbs, openKnots, List.range_succ, List.replicate]
  · norm_num [evaluateNurbs, knotAt, nurbsPoint, nurbsSum, nip, nip0, nterm, clamp01]

/-- **C126** A curve is made exactly for at least one control point, a degree from 1 to one less than the number of points, one weight
per point and one knot for each point, the degree and one; what is given is stored. -/
theorem C126_accepts_iff (pts : List P3) (degree : ℕ) (weights knots : Option (List ℝ)) (c : Nurbs) :
    nurbs pts degree weights knots = .ok c ↔
      (1 ≤ degree ∧ degree < pts.length ∧ (∀ w, weights = some w → w.length = pts.length) ∧
        (∀ k, knots = some k → k.length = pts.length + degree + 1)) ∧
      c = ⟨pts, degree, weights.getD (List.replicate pts.length 1), knots.getD (openKnots pts.length degree)⟩ := by
  unfold nurbs
  cases weights with
  | none => cases knots with
    | none => simp; grind
    | some k => simp; grind
  | some w => cases knots with
    | none => simp; grind
    | some k => simp; grind

/-- **C126** Fewer than two samples are refused; otherwise the samples are the values of the curve at the equally spaced parameters,
the first and the last at the ends. -/
theorem C126_samples (c : Nurbs) (samples : ℕ) :
    (samples < 2 → sampleNurbs c samples = .error .valueError) ∧
    ∀ ps, sampleNurbs c samples = .ok ps → 2 ≤ samples ∧ ps.length = samples ∧
      ∀ i < samples, ∃ q, ps[i]? = some q ∧ evaluateNurbs c ((i : ℝ) / ((samples - 1 : ℕ) : ℝ)) = .ok q := by
  unfold sampleNurbs
  constructor
  · intro h; rw [if_pos h]
  · intro ps h
    by_cases hc : samples < 2
    · rw [if_pos hc] at h; cases h
    rw [if_neg hc] at h
    unfold evaluateNurbs
    cases h1 : knotAt c.knots c.degree with
    | error e => rw [h1] at h; cases h
    | ok lo =>
      rw [h1] at h
      cases h2 : knotAt c.knots (c.knots.length - c.degree - 1) with
      | error e => rw [h2] at h; cases h
      | ok hi =>
        rw [h2] at h
        simp only at h ⊢
        obtain ⟨hl, hv⟩ := evalAll_length h
        simp only [List.length_map, List.length_range] at hl
        refine ⟨by omega, by omega, fun i hi' => ?_⟩
        obtain ⟨q, hq, hq'⟩ := hv i (by simpa using hi')
        simp only [List.getElem_map, List.getElem_range] at hq'
        refine ⟨q, hq, ?_⟩
        rw [← hq']
        congr 1
        have hpos : (0 : ℝ) < ((samples - 1 : ℕ) : ℝ) := by exact_mod_cast (by omega : 0 < samples - 1)
        rw [clamp01_id (by positivity) (by rw [div_le_one hpos]; exact_mod_cast (by omega : i ≤ samples - 1))]
        split
        · rename_i he
          rw [he, div_self hpos.ne']; ring
        · rfl

end Verif.Spline
