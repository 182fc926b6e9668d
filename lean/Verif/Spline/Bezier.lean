import Verif.Spline.Spec
import Mathlib.Analysis.Convex.Combination
import Mathlib.Analysis.Calculus.Deriv.Mul
import Mathlib.Analysis.Calculus.Deriv.Add
import Mathlib.Analysis.Normed.Module.Convex
import Mathlib.Tactic.Module
import Mathlib.Tactic.Ring
import Mathlib.Tactic.Linarith
import Mathlib.Tactic.FieldSimp

/-! # Bézier curves (C121, C122, C123) -/

namespace Verif.Spline

open Spec

/-! ## De Casteljau's algorithm as a recursion on indices -/

theorem blend_eq (t : ℝ) (a b : P3) : blend t a b = (1 - t) • a + t • b := by
  simp [blend, Prod.ext_iff]

/-- the points of the `k`-th round -/
def dc (t : ℝ) (P : ℕ → P3) : ℕ → ℕ → P3
  | 0, i => P i
  | k + 1, i => (1 - t) • dc t P k i + t • dc t P k (i + 1)

theorem dc_congr {t : ℝ} {P Q : ℕ → P3} : ∀ {k i : ℕ}, (∀ j, i ≤ j → j ≤ i + k → P j = Q j) → dc t P k i = dc t Q k i
  | 0, i, h => h i le_rfl (by omega)
  | k + 1, i, h => by
    simp only [dc]
    rw [dc_congr (k := k) (i := i) fun j h1 h2 => h j h1 (by omega),
      dc_congr (k := k) (i := i + 1) fun j h1 h2 => h j (by omega) (by omega)]

theorem dc_shift (t : ℝ) (P : ℕ → P3) : ∀ k i, dc t (fun j => (1 - t) • P j + t • P (j + 1)) k i = dc t P (k + 1) i
  | 0, _ => rfl
  | k + 1, i => by
    have h1 := dc_shift t P k i
    have h2 := dc_shift t P k (i + 1)
    simp only [dc] at h1 h2 ⊢
    rw [h1, h2]

theorem round_length (t : ℝ) : ∀ l : List P3, (casteljauRound t l).length = l.length - 1
  | [] => rfl
  | [_] => rfl
  | a :: b :: r => by simp [casteljauRound, round_length t (b :: r)]

theorem round_getD (t : ℝ) : ∀ (l : List P3) (i : ℕ), i + 1 < l.length →
    (casteljauRound t l).getD i 0 = (1 - t) • l.getD i 0 + t • l.getD (i + 1) 0
  | [], i, h => by simp at h
  | [_], i, h => by simp at h
  | a :: b :: r, 0, _ => by simp [casteljauRound, blend_eq]
  | a :: b :: r, i + 1, h => by
    simpa [casteljauRound] using round_getD t (b :: r) i (by simpa using h)

theorem casteljau_spec (t : ℝ) : ∀ (k : ℕ) (l : List P3), k < l.length →
    (casteljau t k l).length = l.length - k ∧
    ∀ i, i + k < l.length → (casteljau t k l).getD i 0 = dc t (fun j => l.getD j 0) k i
  | 0, l, _ => ⟨rfl, fun _ _ => rfl⟩
  | k + 1, l, h => by
    obtain ⟨h1, h2⟩ := casteljau_spec t k (casteljauRound t l) (by rw [round_length]; omega)
    refine ⟨?_, fun i hi => ?_⟩
    · show (casteljau t k (casteljauRound t l)).length = _
      rw [h1, round_length]; omega
    · show (casteljau t k (casteljauRound t l)).getD i 0 = _
      rw [h2 i (by rw [round_length]; omega), ← dc_shift]
      exact dc_congr fun j hj1 hj2 => round_getD t l j (by omega)

/-- the value of `bezier_point` -/
theorem bezierPoint_dc (pts : List P3) (hne : pts ≠ []) (t : ℝ) :
    bezierPoint pts t = .ok (dc (clamp01 t) (fun j => pts.getD j 0) (pts.length - 1) 0) := by
  match pts, hne with
  | [p], _ => simp [bezierPoint, dc]
  | p :: q :: r, _ =>
    obtain ⟨h1, h2⟩ := casteljau_spec (clamp01 t) (r.length + 1) (p :: q :: r) (by simp)
    have h3 := h2 0 (by simp)
    rw [bezierPoint]
    cases hc : casteljau (clamp01 t) (r.length + 1) (p :: q :: r) with
    | nil => rw [hc] at h1; simp at h1
    | cons x xs =>
      rw [hc] at h3
      simp only [List.getD_cons_zero] at h3
      simp [h3]

/-! ## Bernstein form -/

theorem weight_zero (n : ℕ) (t : ℝ) : bernsteinWeight n t 0 = (1 - t) ^ n := by simp [bernsteinWeight]

theorem weight_succ (k j : ℕ) (hj : j ≤ k) (t : ℝ) :
    bernsteinWeight (k + 1) t (j + 1) = t * bernsteinWeight k t j + (1 - t) * bernsteinWeight k t (j + 1) := by
  unfold bernsteinWeight
  rw [Nat.choose_succ_succ, Nat.add_sub_add_right]
  rcases eq_or_lt_of_le hj with rfl | hlt
  · simp; ring
  · obtain ⟨m, rfl⟩ := Nat.exists_eq_add_of_lt hlt
    rw [show j + m + 1 - j = m + 1 by omega, show j + m + 1 - (j + 1) = m by omega]
    push_cast; ring

theorem weight_top (k : ℕ) (t : ℝ) : bernsteinWeight k t (k + 1) = 0 := by simp [bernsteinWeight]

theorem dc_bernstein (t : ℝ) (P : ℕ → P3) : ∀ k i,
    dc t P k i = ∑ j ∈ Finset.range (k + 1), bernsteinWeight k t j • P (i + j)
  | 0, i => by simp [dc, bernsteinWeight]
  | k + 1, i => by
    rw [dc, dc_bernstein t P k i, dc_bernstein t P k (i + 1), Finset.sum_range_succ' _ (k + 1)]
    have e1 : ∑ j ∈ Finset.range (k + 1), bernsteinWeight k t j • P (i + j) =
        (∑ j ∈ Finset.range (k + 1), bernsteinWeight k t (j + 1) • P (i + (j + 1))) + bernsteinWeight k t 0 • P (i + 0) := by
      rw [← Finset.sum_range_succ' (fun j => bernsteinWeight k t j • P (i + j)), Finset.sum_range_succ _ (k + 1), weight_top]
      simp
    rw [e1, weight_zero, weight_zero, pow_succ]
    have e2 : ∑ j ∈ Finset.range (k + 1), bernsteinWeight (k + 1) t (j + 1) • P (i + (j + 1)) =
        t • (∑ j ∈ Finset.range (k + 1), bernsteinWeight k t j • P (i + 1 + j)) +
        (1 - t) • ∑ j ∈ Finset.range (k + 1), bernsteinWeight k t (j + 1) • P (i + (j + 1)) := by
      rw [Finset.smul_sum, Finset.smul_sum, ← Finset.sum_add_distrib]
      refine Finset.sum_congr rfl fun j hj => ?_
      rw [weight_succ k j (by simpa [Nat.lt_succ_iff] using hj), show i + 1 + j = i + (j + 1) by omega]
      module
    rw [e2]; module

theorem clamp01_mem (t : ℝ) : 0 ≤ clamp01 t ∧ clamp01 t ≤ 1 := by unfold clamp01; constructor <;> simp
theorem clamp01_id {t : ℝ} (h0 : 0 ≤ t) (h1 : t ≤ 1) : clamp01 t = t := by simp [clamp01, h0, h1]

/-- **C121.** `bezier_point` returns the point of the Bézier curve of its control points: the sum of the control points
weighted by the Bernstein polynomials at the parameter, which is first limited to the unit interval. With no control
point the call raises. -/
theorem C121_bernstein (pts : List P3) (t : ℝ) :
    (pts = [] → bezierPoint pts t = .error .valueError) ∧
    (pts ≠ [] → bezierPoint pts t = .ok (Spec.bezierCurve pts (max 0 (min 1 t)))) := by
  refine ⟨fun h => by subst h; rfl, fun h => ?_⟩
  rw [bezierPoint_dc pts h, dc_bernstein]
  have hl : pts.length - 1 + 1 = pts.length := Nat.succ_pred_eq_of_pos (List.length_pos_iff.2 h)
  simp [Spec.bezierCurve, combo, hl, clamp01]

theorem dc_zero (P : ℕ → P3) : ∀ k i, dc 0 P k i = P i
  | 0, _ => rfl
  | k + 1, i => by simp [dc, dc_zero P k i]

theorem dc_one (P : ℕ → P3) : ∀ k i, dc 1 P k i = P (i + k)
  | 0, _ => rfl
  | k + 1, i => by simp [dc, dc_one P k (i + 1)]; congr 1; omega

/-- **C121.** At parameter 0 and below the curve is at its first control point, at 1 and above at its last. -/
theorem C121_ends (p : P3) (pts : List P3) (t : ℝ) :
    (t ≤ 0 → bezierPoint (p :: pts) t = .ok p) ∧
    (1 ≤ t → bezierPoint (p :: pts) t = .ok ((p :: pts).getLast (by simp))) := by
  constructor
  · intro h
    rw [bezierPoint_dc _ (by simp)]
    rw [show clamp01 t = 0 by unfold clamp01; rw [min_eq_right (by linarith), max_eq_left h], dc_zero]
    rfl
  · intro h
    rw [bezierPoint_dc _ (by simp)]
    rw [show clamp01 t = 1 by unfold clamp01; rw [min_eq_left h]; simp, dc_one, List.getLast_eq_getElem]
    simp [List.getElem?_eq_getElem]

example : bezierPoint [(0, 0, 0), (1, 2, 0), (3, 0, 0)] 0.5 = .ok (5 / 4, 1, 0) := by
  rw [(C121_bernstein _ _).2 (by simp)]
  norm_num [Spec.bezierCurve, combo, bernsteinWeight, Finset.sum_range_succ]

/-- `_binomial` is the binomial coefficient, so `_bernstein` is the Bernstein polynomial -/
theorem C121_bernstein_function (n i : ℕ) (t : ℝ) : bernstein n i t = bernsteinWeight n t i := by
  unfold bernstein bernsteinWeight binomial
  congr 3
  split
  · rename_i h; simp [Nat.choose_eq_zero_of_lt h]
  · rename_i h; rw [Nat.choose_eq_factorial_div_factorial (by omega)]

/-! ## sampling -/

theorem evalAll_eq {f : ℝ → Except Err P3} {g : ℝ → P3} : ∀ {ts : List ℝ}, (∀ t ∈ ts, f t = .ok (g t)) →
    evalAll f ts = .ok (ts.map g)
  | [], _ => rfl
  | t :: ts, h => by
    simp only [evalAll, h t (by simp), evalAll_eq fun s hs => h s (List.mem_cons_of_mem _ hs), List.map_cons]

theorem evalAll_length {f : ℝ → Except Err P3} : ∀ {ts : List ℝ} {ps : List P3}, evalAll f ts = .ok ps →
    ps.length = ts.length ∧ ∀ i (hi : i < ts.length), ∃ p, ps[i]? = some p ∧ f ts[i] = .ok p
  | [], ps, h => by cases h; simp
  | t :: ts, ps, h => by
    simp only [evalAll] at h
    split at h
    · cases h
    · rename_i p hp
      split at h
      · cases h
      · rename_i qs hq
        cases h
        obtain ⟨h1, h2⟩ := evalAll_length hq
        refine ⟨by simp [h1], fun i hi => ?_⟩
        cases i with
        | zero => exact ⟨p, by simp, by simpa using hp⟩
        | succ i => simpa using h2 i (by simpa using hi)

/-- **C121.** `bezier_curve` gives `segments + 1` points, the `i`-th being the curve's point at `i / segments`; so the
polyline begins at the first control point and ends at the last. Fewer than one segment raises. -/
theorem C121_sampling (p : P3) (pts : List P3) (segments : ℕ) :
    (segments = 0 → Verif.Spline.bezierCurve (p :: pts) segments = .error .valueError) ∧
    (0 < segments → ∃ ps, Verif.Spline.bezierCurve (p :: pts) segments = .ok ps ∧ ps.length = segments + 1 ∧
      (∀ i ≤ segments, ps[i]? = some (Spec.bezierCurve (p :: pts) ((i : ℝ) / segments))) ∧
      ps.head? = some p ∧ ps.getLast? = some ((p :: pts).getLast (by simp))) := by
  constructor
  · rintro rfl; simp [Verif.Spline.bezierCurve]
  · intro hs
    have hev : ∀ t, 0 ≤ t → t ≤ 1 → bezierPoint (p :: pts) t = .ok (Spec.bezierCurve (p :: pts) t) := by
      intro t h0 h1
      rw [(C121_bernstein _ _).2 (by simp)]
      simp [h0, h1]
    have hpos : (0 : ℝ) < segments := by exact_mod_cast hs
    have hall := evalAll_eq (f := bezierPoint (p :: pts)) (g := Spec.bezierCurve (p :: pts)) (ts := params segments) (by
      intro t ht
      simp only [params, List.mem_map, List.mem_range] at ht
      obtain ⟨i, hi, rfl⟩ := ht
      refine hev _ (by positivity) ?_
      rw [div_le_one hpos]
      exact_mod_cast Nat.lt_succ_iff.1 hi)
    refine ⟨(params segments).map (Spec.bezierCurve (p :: pts)), ?_, by simp [params], ?_, ?_, ?_⟩
    · rw [Verif.Spline.bezierCurve, if_neg (by omega), hall]
    · intro i hi
      simp [params, hi]
    · have h0 := (C121_ends p pts 0).1 le_rfl
      rw [hev 0 le_rfl (by norm_num)] at h0
      injection h0 with h0
      simp only [params, List.range_succ_eq_map, List.map_cons, List.head?_cons, Nat.cast_zero, zero_div, h0]
    · have h1 := (C121_ends p pts 1).2 le_rfl
      rw [hev 1 (by norm_num) le_rfl] at h1
      injection h1 with h1
      rw [← h1]
      simp [params, List.range_succ, hpos.ne']

/-! ## C122: convex hull and affine invariance -/

theorem weight_nonneg (n i : ℕ) {t : ℝ} (h0 : 0 ≤ t) (h1 : t ≤ 1) : 0 ≤ bernsteinWeight n t i := by
  unfold bernsteinWeight
  have : 0 ≤ 1 - t := by linarith
  positivity

theorem weight_sum (n : ℕ) (t : ℝ) : ∑ i ∈ Finset.range (n + 1), bernsteinWeight n t i = 1 := by
  have h := add_pow t (1 - t) n
  rw [show t + (1 - t) = 1 by ring, one_pow] at h
  rw [h]
  refine Finset.sum_congr rfl fun i _ => ?_
  unfold bernsteinWeight; ring

theorem getD_mem_set {pts : List P3} {i : ℕ} (h : i < pts.length) : pts.getD i 0 ∈ Spec.set pts := by
  simp [Spec.set, List.getD_eq_getElem?_getD, List.getElem?_eq_getElem h]

theorem combo_hull {w : ℕ → ℝ} {pts : List P3} (h0 : ∀ i < pts.length, 0 ≤ w i)
    (h1 : ∑ i ∈ Finset.range pts.length, w i = 1) : combo w pts ∈ convexHull ℝ (Spec.set pts) := by
  unfold combo
  refine (convex_convexHull ℝ _).sum_mem (fun i hi => h0 i (Finset.mem_range.1 hi)) h1 fun i hi => ?_
  exact subset_convexHull ℝ _ (getD_mem_set (Finset.mem_range.1 hi))

/-- **C122.** Every point of a Bézier curve lies in the convex hull of the control points. -/
theorem C122_hull (pts : List P3) (t : ℝ) (q : P3) (h : bezierPoint pts t = .ok q) :
    q ∈ convexHull ℝ {p : P3 | p ∈ pts} := by
  have hne : pts ≠ [] := by rintro rfl; cases h
  rw [(C121_bernstein pts t).2 hne] at h
  cases h
  have hl : pts.length - 1 + 1 = pts.length := Nat.succ_pred_eq_of_pos (List.length_pos_iff.2 hne)
  refine combo_hull (fun i _ => weight_nonneg _ _ (by simp) (by simp)) ?_
  rw [← hl]; exact weight_sum _ _

theorem combo_map {w : ℕ → ℝ} {pts : List P3} (h1 : ∑ i ∈ Finset.range pts.length, w i = 1)
    (A : P3 →ₗ[ℝ] P3) (d : P3) : combo w (pts.map fun p => A p + d) = A (combo w pts) + d := by
  unfold combo
  rw [map_sum, List.length_map]
  have : ∀ i ∈ Finset.range pts.length, w i • (pts.map fun p => A p + d).getD i 0 = A (w i • pts.getD i 0) + w i • d := by
    intro i hi
    have hi := Finset.mem_range.1 hi
    simp [List.getD_eq_getElem?_getD, List.getElem?_eq_getElem hi]
  rw [Finset.sum_congr rfl this, Finset.sum_add_distrib, ← Finset.sum_smul, h1, one_smul]

/-- **C122.** Moving the control points by an affine map (translation, rotation, scaling, mirroring, shearing) moves the
curve by the same map. -/
theorem C122_affine (A : P3 →ₗ[ℝ] P3) (d : P3) (pts : List P3) (t : ℝ) :
    bezierPoint (pts.map fun p => A p + d) t =
      match bezierPoint pts t with
      | .ok q => .ok (A q + d)
      | .error e => .error e := by
  by_cases hne : pts = []
  · subst hne; rfl
  · rw [(C121_bernstein pts t).2 hne, (C121_bernstein _ t).2 (by simpa using hne)]
    simp only [Spec.bezierCurve, List.length_map]
    rw [combo_map]
    have hl : pts.length - 1 + 1 = pts.length := Nat.succ_pred_eq_of_pos (List.length_pos_iff.2 hne)
    rw [← hl]; exact weight_sum _ _

/-- reversing the control points reverses the curve -/
theorem C122_reverse (pts : List P3) (t : ℝ) (h0 : 0 ≤ t) (h1 : t ≤ 1) :
    bezierPoint pts.reverse t = bezierPoint pts (1 - t) := by
  by_cases hne : pts = []
  · subst hne; rfl
  · rw [(C121_bernstein pts _).2 hne, (C121_bernstein _ t).2 (by simpa using hne)]
    have e1 : max 0 (min 1 t) = t := by simp [h0, h1]
    have e2 : max 0 (min 1 (1 - t)) = 1 - t := by simp [h0, h1]
    rw [e1, e2]
    simp only [Spec.bezierCurve, List.length_reverse, combo]
    congr 1
    rw [← Finset.sum_range_reflect]
    refine Finset.sum_congr rfl fun i hi => ?_
    have hi := Finset.mem_range.1 hi
    congr 1
    · unfold bernsteinWeight
      rw [Nat.choose_symm (by omega), show pts.length - 1 - (pts.length - 1 - i) = i by omega]
      ring
    · rw [List.getD_eq_getElem?_getD, List.getD_eq_getElem?_getD, List.getElem?_reverse (by omega)]
      congr 2; omega

/-! ## C123: tangents -/

theorem deriv_length (d : ℝ) : ∀ l : List P3, (derivPoints d l).length = l.length - 1
  | [] => rfl
  | [_] => rfl
  | a :: b :: r => by simp [derivPoints, deriv_length d (b :: r)]

theorem deriv_getD (d : ℝ) : ∀ (l : List P3) (i : ℕ), i + 1 < l.length →
    (derivPoints d l).getD i 0 = d • (l.getD (i + 1) 0 - l.getD i 0)
  | [], i, h => by simp at h
  | [_], i, h => by simp at h
  | a :: b :: r, 0, _ => by simp [derivPoints, Prod.ext_iff]
  | a :: b :: r, i + 1, h => by
    simpa [derivPoints] using deriv_getD d (b :: r) i (by simpa using h)

theorem dc_linear (t d : ℝ) (P : ℕ → P3) : ∀ k i,
    dc t (fun j => d • (P (j + 1) - P j)) k i = d • (dc t P k (i + 1) - dc t P k i)
  | 0, _ => rfl
  | k + 1, i => by
    simp only [dc, dc_linear t d P k i, dc_linear t d P k (i + 1)]
    module

theorem dc_hasDeriv (P : ℕ → P3) : ∀ k i t,
    HasDerivAt (fun s => dc s P k i) ((k : ℝ) • (dc t P (k - 1) (i + 1) - dc t P (k - 1) i)) t
  | 0, i, t => by simpa [dc] using hasDerivAt_const t (P i)
  | k + 1, i, t => by
    have h1 := dc_hasDeriv P k i t
    have h2 := dc_hasDeriv P k (i + 1) t
    have g1 : HasDerivAt (fun s : ℝ => 1 - s) (-1) t := by simpa using (hasDerivAt_id t).const_sub 1
    have h := (g1.smul h1).add ((hasDerivAt_id t).smul h2)
    have e : (fun s => dc s P (k + 1) i) =
        ((fun s : ℝ => 1 - s) • fun s => dc s P k i) + ((id : ℝ → ℝ) • fun s => dc s P k (i + 1)) := by
      funext s; rfl
    have hv : ((k + 1 : ℕ) : ℝ) • (dc t P (k + 1 - 1) (i + 1) - dc t P (k + 1 - 1) i) =
        ((1 - t) • (k : ℝ) • (dc t P (k - 1) (i + 1) - dc t P (k - 1) i) + (-1 : ℝ) • dc t P k i +
        (id t • (k : ℝ) • (dc t P (k - 1) (i + 1 + 1) - dc t P (k - 1) (i + 1)) + (1 : ℝ) • dc t P k (i + 1))) := by
      cases k with
      | zero => simp [dc]; abel
      | succ k =>
        simp only [Nat.add_sub_cancel, dc, id]
        push_cast
        module
    rw [e, hv]
    exact h

/-- **C123.** `bezier_tangent` is the derivative of the curve with respect to its parameter. -/
theorem C123_tangent (pts : List P3) (hne : pts ≠ []) (t : ℝ) (h0 : 0 ≤ t) (h1 : t ≤ 1) :
    ∃ v, bezierTangent pts t = .ok v ∧ HasDerivAt (Spec.bezierCurve pts) v t := by
  have hfun : Spec.bezierCurve pts = fun s => dc s (fun j => pts.getD j 0) (pts.length - 1) 0 := by
    funext s
    rw [dc_bernstein]
    have hl : pts.length - 1 + 1 = pts.length := Nat.succ_pred_eq_of_pos (List.length_pos_iff.2 hne)
    simp [Spec.bezierCurve, combo, hl]
  rw [hfun]
  unfold bezierTangent
  split
  · rename_i hlt
    have hl : pts.length - 1 = 0 := by omega
    refine ⟨_, rfl, ?_⟩
    rw [hl]
    exact hasDerivAt_const t (pts.getD 0 0)
  · rename_i hge
    have hge : 2 ≤ pts.length := by omega
    refine ⟨_, bezierPoint_dc _ ?_ t, ?_⟩
    · intro hnil
      have := deriv_length ((pts.length - 1 : ℕ) : ℝ) pts
      rw [hnil] at this; simp at this; omega
    · rw [clamp01_id h0 h1, deriv_length]
      have e : dc t (fun j => (derivPoints ((pts.length - 1 : ℕ) : ℝ) pts).getD j 0) (pts.length - 1 - 1) 0 =
          dc t (fun j => ((pts.length - 1 : ℕ) : ℝ) • (pts.getD (j + 1) 0 - pts.getD j 0)) (pts.length - 1 - 1) 0 :=
        dc_congr fun j _ hj => deriv_getD _ pts j (by omega)
      rw [e, dc_linear t _ (fun j => pts.getD j 0)]
      exact dc_hasDeriv _ _ _ _

/-- so at the ends the curve is tangent to the control polygon -/
theorem C123_end_tangent (p q : P3) (r : List P3) :
    bezierTangent (p :: q :: r) 0 = .ok (((r.length : ℝ) + 1) • (q - p)) := by
  unfold bezierTangent
  rw [if_neg (by simp)]
  rw [(show derivPoints (((p :: q :: r).length - 1 : ℕ) : ℝ) (p :: q :: r) =
    _ :: derivPoints (((p :: q :: r).length - 1 : ℕ) : ℝ) (q :: r) from rfl), (C121_ends _ _ 0).1 le_rfl]
  simp [Prod.ext_iff]

example : bezierTangent [(0, 0, 0), (1, 2, 0), (3, 0, 0)] 0 = .ok (2, 4, 0) := by
  rw [C123_end_tangent]; norm_num

end Verif.Spline
