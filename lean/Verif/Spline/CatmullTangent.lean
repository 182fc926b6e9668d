import Verif.Spline.CatmullProps
import Mathlib.Analysis.Calculus.Deriv.Add
import Mathlib.Analysis.Calculus.Deriv.Mul
import Mathlib.Analysis.Calculus.Deriv.Comp

/-! # Tangents where the spans of a Catmull-Rom spline meet (C129) -/

namespace Verif.Spline

open Spec

theorem blend_hasDeriv {a b : ℝ → P3} {a' b' : P3} {t0 t1 t : ℝ} (h : 1e-12 ≤ t1 - t0) (ha : HasDerivAt a a' t)
    (hb : HasDerivAt b b' t) : HasDerivAt (fun s => catmullBlend (a s) (b s) t0 t1 s)
      ((1 / (t1 - t0)) • (b t - a t) + ((t1 - t) / (t1 - t0)) • a' + ((t - t0) / (t1 - t0)) • b') t := by
  have hp : (0 : ℝ) < t1 - t0 := lt_of_lt_of_le (by norm_num) h
  have he : (fun s => catmullBlend (a s) (b s) t0 t1 s) =
      fun s => ((t1 - s) / (t1 - t0)) • a s + ((s - t0) / (t1 - t0)) • b s := by
    funext s
    rw [catmullBlend_eq, if_neg (by rw [abs_of_pos hp]; exact not_lt.2 h)]
  rw [he]
  have h1 : HasDerivAt (fun s : ℝ => (t1 - s) / (t1 - t0)) (-1 / (t1 - t0)) t := by
    have := ((hasDerivAt_id t).const_sub t1).div_const (t1 - t0)
    exact this
  have h2 : HasDerivAt (fun s : ℝ => (s - t0) / (t1 - t0)) (1 / (t1 - t0)) t := by
    have := ((hasDerivAt_id t).sub_const t0).div_const (t1 - t0)
    exact this
  have h3 := (h1.smul ha).add (h2.smul hb)
  have hv : ((1 / (t1 - t0)) • (b t - a t) + ((t1 - t) / (t1 - t0)) • a' + ((t - t0) / (t1 - t0)) • b') =
      ((t1 - t) / (t1 - t0)) • a' + (-1 / (t1 - t0)) • a t + (((t - t0) / (t1 - t0)) • b' + (1 / (t1 - t0)) • b t) := by
    rw [smul_sub, neg_div, neg_smul]; abel
  rw [hv]; exact h3

theorem blend_differentiable {a b : ℝ → P3} {a' b' : P3} {t0 t1 t : ℝ} (ha : HasDerivAt a a' t)
    (hb : HasDerivAt b b' t) : ∃ d, HasDerivAt (fun s => catmullBlend (a s) (b s) t0 t1 s) d t := by
  by_cases h : |t1 - t0| < 1e-12
  · refine ⟨b', ?_⟩
    have he : (fun s => catmullBlend (a s) (b s) t0 t1 s) = b := by
      funext s; rw [catmullBlend_eq, if_pos h]
    rw [he]; exact hb
  · have hne : t1 - t0 ≠ 0 := by intro h0; rw [h0] at h; norm_num at h
    have he : (fun s => catmullBlend (a s) (b s) t0 t1 s) =
        fun s => ((t1 - s) / (t1 - t0)) • a s + ((s - t0) / (t1 - t0)) • b s := by
      funext s; rw [catmullBlend_eq, if_neg h]
    rw [he]
    have h1 : HasDerivAt (fun s : ℝ => (t1 - s) / (t1 - t0)) (-1 / (t1 - t0)) t :=
      ((hasDerivAt_id t).const_sub t1).div_const (t1 - t0)
    have h2 : HasDerivAt (fun s : ℝ => (s - t0) / (t1 - t0)) (1 / (t1 - t0)) t :=
      ((hasDerivAt_id t).sub_const t0).div_const (t1 - t0)
    exact ⟨_, (h1.smul ha).add (h2.smul hb)⟩

/-- the pyramid as a function of the knot parameter -/
noncomputable def pyramid (v0 v1 v2 v3 : P3) (t1 t2 t3 t : ℝ) : P3 :=
  catmullBlend (catmullBlend (catmullBlend v0 v1 0 t1 t) (catmullBlend v1 v2 t1 t2 t) 0 t2 t)
    (catmullBlend (catmullBlend v1 v2 t1 t2 t) (catmullBlend v2 v3 t2 t3 t) t1 t3 t) t1 t2 t

theorem catmullAt_pyramid (v0 v1 v2 v3 : P3) {t1 t2 t3 : ℝ} (h2 : 1e-12 ≤ t2 - t1) (τ : ℝ) :
    catmullAt v0 v1 v2 v3 t1 t2 t3 τ = pyramid v0 v1 v2 v3 t1 t2 t3 (t1 + (t2 - t1) * τ) := by
  rw [catmullAt, if_neg (not_lt.2 h2)]; rfl

theorem const_blend_deriv (a b : P3) {t0 t1 : ℝ} (h : 1e-12 ≤ t1 - t0) (t : ℝ) :
    HasDerivAt (fun s => catmullBlend a b t0 t1 s) ((1 / (t1 - t0)) • (b - a)) t := by
  have := blend_hasDeriv h (hasDerivAt_const t a) (hasDerivAt_const t b)
  simpa using this

theorem pyramid_deriv_right (v0 v1 v2 v3 : P3) {t1 t2 t3 : ℝ} (h2 : 1e-12 ≤ t2 - t1) (h3 : 1e-12 ≤ t3 - t2) :
    HasDerivAt (pyramid v0 v1 v2 v3 t1 t2 t3) (joinTangent v1 v2 v3 (t2 - t1) (t3 - t2)) t2 := by
  have h13 : 1e-12 ≤ t3 - t1 := by
    have : (0:ℝ) < 1e-12 := by norm_num
    linarith
  have p2 : t2 - t1 ≠ 0 := by have : (0:ℝ) < 1e-12 := by norm_num
                              linarith
  have p3 : t3 - t1 ≠ 0 := by have : (0:ℝ) < 1e-12 := by norm_num
                              linarith
  obtain ⟨d1, hA1⟩ := blend_differentiable (t0 := 0) (t1 := t1) (hasDerivAt_const t2 v0) (hasDerivAt_const t2 v1)
  have hA2 := const_blend_deriv v1 v2 h2 t2
  have hA3 := const_blend_deriv v2 v3 h3 t2
  obtain ⟨e1, hB1⟩ := blend_differentiable (t0 := 0) (t1 := t2) hA1 hA2
  have hB2 := blend_hasDeriv h13 hA2 hA3
  have hC := blend_hasDeriv h2 hB1 hB2
  simp only [blend_right, blend_left v2 v3 h3, blend_self, sub_self, smul_zero, zero_div, zero_smul, zero_add, add_zero,
    div_self p2, one_smul] at hC
  unfold joinTangent
  rw [show t2 - t1 + (t3 - t2) = t3 - t1 by ring]
  exact hC

theorem pyramid_deriv_left (v0 v1 v2 v3 : P3) {t1 t2 t3 : ℝ} (h1 : 1e-12 ≤ t1) (h2 : 1e-12 ≤ t2 - t1)
    (h3 : t2 ≤ t3) : HasDerivAt (pyramid v0 v1 v2 v3 t1 t2 t3) (joinTangent v0 v1 v2 t1 (t2 - t1)) t1 := by
  have h02 : 1e-12 ≤ t2 - 0 := by
    have : (0:ℝ) < 1e-12 := by norm_num
    linarith
  have p2 : t2 - t1 ≠ 0 := by have : (0:ℝ) < 1e-12 := by norm_num
                              linarith
  have h01 : 1e-12 ≤ t1 - 0 := by rw [sub_zero]; exact h1
  have hA1 := const_blend_deriv v0 v1 h01 t1
  have hA2 := const_blend_deriv v1 v2 h2 t1
  obtain ⟨d3, hA3⟩ := blend_differentiable (t0 := t2) (t1 := t3) (hasDerivAt_const t1 v2) (hasDerivAt_const t1 v3)
  obtain ⟨e2, hB2⟩ := blend_differentiable (t0 := t1) (t1 := t3) hA2 hA3
  have hB1 := blend_hasDeriv h02 hA1 hA2
  have hC := blend_hasDeriv h2 hB1 hB2
  have hB2v : ∀ x, catmullBlend v1 x t1 t3 t1 = v1 := fun x => blend_left _ _ (by linarith)
  simp only [blend_right, blend_left v1 v2 h2, hB2v, blend_self, sub_self, smul_zero, zero_div, zero_smul, zero_add, add_zero,
    div_self p2, one_smul, sub_zero] at hC
  unfold joinTangent
  rw [show t1 + (t2 - t1) = t2 by ring]
  exact hC

theorem value_lt (c : Catmull) {i : ℕ} (hi : i < spans c) {u : ℝ} (h0 : (i : ℝ) / spans c ≤ u)
    (h1 : u < ((i : ℝ) + 1) / spans c) : value c u = spanValue c i ((spans c : ℝ) * u - i) := by
  have hpr : (0 : ℝ) < spans c := by exact_mod_cast Nat.lt_of_le_of_lt (Nat.zero_le _) hi
  have hir : (i : ℝ) + 1 ≤ spans c := by exact_mod_cast hi
  rw [div_le_iff₀ hpr] at h0
  rw [lt_div_iff₀ hpr] at h1
  have hu0 : 0 ≤ u := by
    by_contra hneg
    have : u * spans c < 0 := mul_neg_of_neg_of_pos (not_le.1 hneg) hpr
    have : (0:ℝ) ≤ i := by positivity
    linarith
  have hu1 : u ≤ 1 := by
    by_contra hgt
    have : (spans c : ℝ) < u * spans c := by nlinarith [not_le.1 hgt]
    linarith
  have hf : ⌊u * (spans c : ℝ)⌋₊ = i := by
    rw [Nat.floor_eq_iff (by positivity)]
    exact ⟨h0, h1⟩
  unfold value
  rw [clamp01_id hu0 hu1, hf, if_neg (by omega), mul_comm]

theorem spanValue_hasDeriv_left (c : Catmull) (i : ℕ)
    (h1 : 1e-12 ≤ step c (stop c.pts c.closed i) (stop c.pts c.closed (i + 1)))
    (h2 : 1e-12 ≤ step c (stop c.pts c.closed (i + 1)) (stop c.pts c.closed (i + 2))) :
    HasDerivAt (spanValue c i) (step c (stop c.pts c.closed i) (stop c.pts c.closed (i + 1)) •
      joinTangent (stop c.pts c.closed i) (stop c.pts c.closed (i + 1)) (stop c.pts c.closed (i + 2))
        (step c (stop c.pts c.closed i) (stop c.pts c.closed (i + 1)))
        (step c (stop c.pts c.closed (i + 1)) (stop c.pts c.closed (i + 2)))) 1 := by
  set s := stop c.pts c.closed with hs
  set t1 := step c (before c i) (s i) with ht1
  set h := step c (s i) (s (i + 1))
  set h' := step c (s (i + 1)) (s (i + 2))
  have he : spanValue c i = (pyramid (before c i) (s i) (s (i + 1)) (s (i + 2)) t1 (t1 + h) (t1 + h + h')) ∘ fun τ => t1 + h * τ := by
    funext τ
    show catmullAt _ _ _ _ t1 (t1 + h) (t1 + h + h') τ = _
    rw [catmullAt_pyramid _ _ _ _ (by rw [add_sub_cancel_left]; exact h1), add_sub_cancel_left]
    rfl
  have hd := pyramid_deriv_right (before c i) (s i) (s (i + 1)) (s (i + 2)) (t1 := t1) (t2 := t1 + h) (t3 := t1 + h + h')
    (by rw [add_sub_cancel_left]; exact h1) (by rw [add_sub_cancel_left]; exact h2)
  rw [add_sub_cancel_left, add_sub_cancel_left] at hd
  have hin : HasDerivAt (fun τ : ℝ => t1 + h * τ) h 1 := by
    have := ((hasDerivAt_id (1:ℝ)).const_mul h).const_add t1
    rw [mul_one] at this; exact this
  rw [he]
  refine HasDerivAt.scomp 1 ?_ hin
  rw [mul_one]; exact hd

theorem spanValue_hasDeriv_right (c : Catmull) (i : ℕ)
    (h1 : 1e-12 ≤ step c (before c i) (stop c.pts c.closed i))
    (h2 : 1e-12 ≤ step c (stop c.pts c.closed i) (stop c.pts c.closed (i + 1))) :
    HasDerivAt (spanValue c i) (step c (stop c.pts c.closed i) (stop c.pts c.closed (i + 1)) •
      joinTangent (before c i) (stop c.pts c.closed i) (stop c.pts c.closed (i + 1))
        (step c (before c i) (stop c.pts c.closed i))
        (step c (stop c.pts c.closed i) (stop c.pts c.closed (i + 1)))) 0 := by
  set s := stop c.pts c.closed with hs
  set t1 := step c (before c i) (s i) with ht1
  set h := step c (s i) (s (i + 1))
  set h' := step c (s (i + 1)) (s (i + 2))
  have he : spanValue c i = (pyramid (before c i) (s i) (s (i + 1)) (s (i + 2)) t1 (t1 + h) (t1 + h + h')) ∘ fun τ => t1 + h * τ := by
    funext τ
    show catmullAt _ _ _ _ t1 (t1 + h) (t1 + h + h') τ = _
    rw [catmullAt_pyramid _ _ _ _ (by rw [add_sub_cancel_left]; exact h2), add_sub_cancel_left]
    rfl
  have hd := pyramid_deriv_left (before c i) (s i) (s (i + 1)) (s (i + 2)) (t1 := t1) (t2 := t1 + h) (t3 := t1 + h + h')
    h1 (by rw [add_sub_cancel_left]; exact h2) (by linarith [step_nonneg c (s (i + 1)) (s (i + 2))])
  rw [add_sub_cancel_left] at hd
  have hin : HasDerivAt (fun τ : ℝ => t1 + h * τ) h 0 := by
    have := ((hasDerivAt_id (0:ℝ)).const_mul h).const_add t1
    rw [mul_one] at this; exact this
  rw [he]
  refine HasDerivAt.scomp 0 ?_ hin
  rw [mul_zero, add_zero]; exact hd

theorem inner_deriv (c : Catmull) (i : ℕ) (u : ℝ) : HasDerivAt (fun u : ℝ => (spans c : ℝ) * u - i) (spans c : ℝ) u := by
  have := ((hasDerivAt_id u).const_mul (spans c : ℝ)).sub_const (i : ℝ)
  rw [mul_one] at this; exact this

open Set Filter Topology in
theorem value_right (c : Catmull) {i : ℕ} (hi : i < spans c) (h1 : 1e-12 ≤ step c (before c i) (stop c.pts c.closed i))
    (h2 : 1e-12 ≤ step c (stop c.pts c.closed i) (stop c.pts c.closed (i + 1))) :
    HasDerivWithinAt (value c) (((spans c : ℝ) * step c (stop c.pts c.closed i) (stop c.pts c.closed (i + 1))) •
      joinTangent (before c i) (stop c.pts c.closed i) (stop c.pts c.closed (i + 1))
        (step c (before c i) (stop c.pts c.closed i))
        (step c (stop c.pts c.closed i) (stop c.pts c.closed (i + 1)))) (Ici ((i : ℝ) / spans c)) ((i : ℝ) / spans c) := by
  have hpr : (0 : ℝ) < spans c := by exact_mod_cast Nat.lt_of_le_of_lt (Nat.zero_le _) hi
  have h0 : (spans c : ℝ) * ((i : ℝ) / spans c) - i = 0 := by field_simp; ring
  have hd := spanValue_hasDeriv_right c i h1 h2
  rw [← h0] at hd
  have hc := HasDerivAt.scomp ((i : ℝ) / spans c) hd (inner_deriv c i _)
  rw [smul_smul] at hc
  refine hc.hasDerivWithinAt.congr_of_eventuallyEq ?_ ?_
  · have hlt : (i : ℝ) / spans c < ((i : ℝ) + 1) / spans c := by
      apply div_lt_div_of_pos_right _ hpr; linarith
    filter_upwards [self_mem_nhdsWithin, mem_nhdsWithin_of_mem_nhds (Iio_mem_nhds hlt)] with u hu hu'
    exact value_lt c hi hu hu'
  · exact value_lt c hi le_rfl (by apply div_lt_div_of_pos_right _ hpr; linarith)

open Set Filter Topology in
theorem value_left (c : Catmull) {i : ℕ} (hi : i < spans c)
    (hend : value c (((i : ℝ) + 1) / spans c) = stop c.pts c.closed (i + 1))
    (h1 : 1e-12 ≤ step c (stop c.pts c.closed i) (stop c.pts c.closed (i + 1)))
    (h2 : 1e-12 ≤ step c (stop c.pts c.closed (i + 1)) (stop c.pts c.closed (i + 2))) :
    HasDerivWithinAt (value c) (((spans c : ℝ) * step c (stop c.pts c.closed i) (stop c.pts c.closed (i + 1))) •
      joinTangent (stop c.pts c.closed i) (stop c.pts c.closed (i + 1)) (stop c.pts c.closed (i + 2))
        (step c (stop c.pts c.closed i) (stop c.pts c.closed (i + 1)))
        (step c (stop c.pts c.closed (i + 1)) (stop c.pts c.closed (i + 2))))
      (Iic (((i : ℝ) + 1) / spans c)) (((i : ℝ) + 1) / spans c) := by
  have hpr : (0 : ℝ) < spans c := by exact_mod_cast Nat.lt_of_le_of_lt (Nat.zero_le _) hi
  have h0 : (spans c : ℝ) * (((i : ℝ) + 1) / spans c) - i = 1 := by field_simp; ring
  have hd := spanValue_hasDeriv_left c i h1 h2
  rw [← h0] at hd
  have hc := HasDerivAt.scomp (((i : ℝ) + 1) / spans c) hd (inner_deriv c i _)
  rw [smul_smul] at hc
  have hone : spanValue c i 1 = stop c.pts c.closed (i + 1) := by
    refine catmullAt_one _ _ _ _ (Or.inr ?_)
    rw [add_sub_cancel_left]; exact h2
  have hval : value c (((i : ℝ) + 1) / spans c) = (spanValue c i ∘ fun u => (spans c : ℝ) * u - i) (((i : ℝ) + 1) / spans c) := by
    simp only [Function.comp]
    rw [h0, hone, hend]
  refine hc.hasDerivWithinAt.congr_of_eventuallyEq ?_ hval
  have hlt : (i : ℝ) / spans c < ((i : ℝ) + 1) / spans c := by
    apply div_lt_div_of_pos_right _ hpr; linarith
  filter_upwards [self_mem_nhdsWithin, mem_nhdsWithin_of_mem_nhds (Ioi_mem_nhds hlt)] with u hu hu'
  rcases eq_or_lt_of_le (show u ≤ _ from hu) with rfl | hu
  · exact hval
  · exact value_lt c hi (le_of_lt hu') hu

theorem before_eq (c : Catmull) {k : ℕ} (hk : 1 ≤ k) (hk' : k < spans c) : before c k = stop c.pts c.closed (k - 1) := by
  unfold before stop ctrl
  unfold spans at hk'
  split
  · rename_i h
    rw [if_pos h] at hk'
    rw [show k + c.pts.length - 1 = k - 1 + c.pts.length by omega, Nat.add_mod_right]
    rfl
  · rename_i h
    rw [if_neg h] at hk'
    rw [min_eq_left (by omega)]
    rfl

/-- **C129 (part).** Where two spans meet at an inner control point, the curve has a derivative on each side, both multiples
of the same vector: the direction of the curve is continuous (the mean of the two chord velocities), so there is no
kink. The speeds are `spans * distance ^ alpha` of the span before and after, so the derivative itself is continuous only if
the neighbouring spacings agree. Missing: the documented C1 continuity, see `C129_not_C1`. -/
theorem C129_no_kink_partial (c : Catmull) (ha : 0 ≤ c.alpha) (hl : 2 ≤ c.pts.length) (k n : ℕ)
    (hn : n = if c.closed then c.pts.length else c.pts.length - 1) (hk : 1 ≤ k) (hkn : k < n) (hₗ hᵣ : ℝ)
    (el : hₗ = distance (stop c.pts c.closed (k - 1)) (stop c.pts c.closed k) ^ c.alpha) (h1 : 1e-12 ≤ hₗ)
    (er : hᵣ = distance (stop c.pts c.closed k) (stop c.pts c.closed (k + 1)) ^ c.alpha) (h2 : 1e-12 ≤ hᵣ) :
    ∃ f : ℝ → P3, (∀ u, evaluateCatmull c u = .ok (f u)) ∧
      HasDerivWithinAt f (((n : ℝ) * hₗ) •
        joinTangent (stop c.pts c.closed (k - 1)) (stop c.pts c.closed k) (stop c.pts c.closed (k + 1)) hₗ hᵣ)
        (Set.Iic ((k : ℝ) / n)) ((k : ℝ) / n) ∧
      HasDerivWithinAt f (((n : ℝ) * hᵣ) •
        joinTangent (stop c.pts c.closed (k - 1)) (stop c.pts c.closed k) (stop c.pts c.closed (k + 1)) hₗ hᵣ)
        (Set.Ici ((k : ℝ) / n)) ((k : ℝ) / n) := by
  have hn : n = spans c := hn
  subst hn
  have sl : step c (stop c.pts c.closed (k - 1)) (stop c.pts c.closed k) = hₗ := by rw [step, dist_eq, el]
  have sr : step c (stop c.pts c.closed k) (stop c.pts c.closed (k + 1)) = hᵣ := by rw [step, dist_eq, er]
  have hb := before_eq c hk hkn
  refine ⟨value c, evaluate_eq c ha hl, ?_, ?_⟩
  · obtain ⟨i, rfl⟩ : ∃ i, k = i + 1 := ⟨k - 1, by omega⟩
    simp only [Nat.add_sub_cancel] at sl ⊢
    have hpr : (0 : ℝ) < spans c := by exact_mod_cast Nat.lt_of_le_of_lt (Nat.zero_le _) hkn
    have hend : value c (((i : ℝ) + 1) / spans c) = stop c.pts c.closed (i + 1) := by
      have h0 : (spans c : ℝ) * ((((i + 1 : ℕ) : ℝ)) / spans c) - (i + 1 : ℕ) = 0 := by field_simp; ring
      have := value_lt c hkn (u := ((i + 1 : ℕ) : ℝ) / spans c) le_rfl (by apply div_lt_div_of_pos_right _ hpr; linarith)
      rw [h0] at this
      push_cast at this
      rw [this]
      refine catmullAt_zero _ _ _ _ (step_nonneg _ _ _) (Or.inr ?_)
      rw [add_sub_cancel_left, sr]; exact h2
    have := value_left c (i := i) (by omega) hend (by rw [sl]; exact h1) (by rw [sr]; exact h2)
    rw [sl, sr] at this
    push_cast
    exact this
  · have := value_right c hkn (by rw [hb, sl]; exact h1) (by rw [sr]; exact h2)
    rw [hb, sl, sr] at this
    exact this

/-- **C129 (part).** The same where a closed curve meets itself: at its end and at its beginning it has the same direction. -/
theorem C129_closed_no_kink_partial (c : Catmull) (ha : 0 ≤ c.alpha) (hl : 2 ≤ c.pts.length) (hc : c.closed = true) (n : ℕ)
    (hn : n = c.pts.length) (hs : Spread c.pts c.closed c.alpha) (hₗ hᵣ : ℝ)
    (el : hₗ = distance (stop c.pts true (n - 1)) (stop c.pts true 0) ^ c.alpha) (h1 : 1e-12 ≤ hₗ)
    (er : hᵣ = distance (stop c.pts true 0) (stop c.pts true 1) ^ c.alpha) (h2 : 1e-12 ≤ hᵣ) :
    ∃ f : ℝ → P3, (∀ u, evaluateCatmull c u = .ok (f u)) ∧
      HasDerivWithinAt f (((n : ℝ) * hₗ) •
        joinTangent (stop c.pts true (n - 1)) (stop c.pts true 0) (stop c.pts true 1) hₗ hᵣ) (Set.Iic 1) 1 ∧
      HasDerivWithinAt f (((n : ℝ) * hᵣ) •
        joinTangent (stop c.pts true (n - 1)) (stop c.pts true 0) (stop c.pts true 1) hₗ hᵣ) (Set.Ici 0) 0 := by
  have hsp : n = spans c := by rw [hn, spans, if_pos hc]
  have hpos := spans_pos hl
  have hpr : (0 : ℝ) < spans c := by exact_mod_cast hpos
  have w0 : stop c.pts true (spans c) = stop c.pts true 0 := by
    rw [← hsp, hn]; simp [stop]
  have w1 : stop c.pts true (spans c + 1) = stop c.pts true 1 := by
    rw [← hsp, hn]; simp [stop, Nat.add_mod_left]
  have sl : step c (stop c.pts true (n - 1)) (stop c.pts true 0) = hₗ := by rw [step, dist_eq, el]
  have sr : step c (stop c.pts true 0) (stop c.pts true 1) = hᵣ := by rw [step, dist_eq, er]
  refine ⟨value c, evaluate_eq c ha hl, ?_, ?_⟩
  · obtain ⟨i, hi⟩ : ∃ i, n = i + 1 := ⟨n - 1, by omega⟩
    have hone : ((i : ℝ) + 1) / spans c = 1 := by
      rw [← hsp, hi]; push_cast; exact div_self (by positivity)
    have hend : value c (((i : ℝ) + 1) / spans c) = stop c.pts c.closed (i + 1) := by
      rw [value_at c hs hl (by omega : i < spans c) (by norm_num) le_rfl, spanValue_one c hs]
    have e1 : stop c.pts true (i + 1) = stop c.pts true 0 := by rw [← hi, hsp, w0]
    have e2 : stop c.pts true (i + 2) = stop c.pts true 1 := by
      rw [show i + 2 = spans c + 1 by omega, w1]
    rw [show n - 1 = i by omega] at sl ⊢
    have := value_left c (i := i) (by omega) hend (by rw [hc, e1, sl]; exact h1) (by rw [hc, e1, e2, sr]; exact h2)
    rw [hc, e1, e2, sl, sr, hone, ← hsp] at this
    exact this
  · have hb : before c 0 = stop c.pts true (n - 1) := by
      unfold before stop ctrl
      rw [if_pos hc, hn]; simp; rfl
    have := value_right c hpos (by rw [hb, hc, sl]; exact h1) (by rw [hc, sr]; exact h2)
    rw [hb, hc, sl, Nat.zero_add, sr, Nat.cast_zero, zero_div, ← hsp] at this
    exact this

/-- **C129 (violated).** The documentation promises a continuous first derivative. The open centripetal spline through
`(0,0), (1,0), (5,0)` has different derivatives on the two sides of its middle point. -/
theorem C129_not_C1 : ∃ f : ℝ → P3, (∀ u, evaluateCatmull ⟨[(0, 0, 0), (1, 0, 0), (5, 0, 0)], false, 1/2⟩ u = .ok (f u)) ∧
    ¬ DifferentiableAt ℝ f (1 / 2) := by
  have d1 : distance (0, 0, 0) (1, 0, 0) = 1 := by
    rw [distance, Real.sqrt_eq_iff_mul_self_eq (by norm_num) (by norm_num)]; norm_num
  have d2 : distance (1, 0, 0) (5, 0, 0) = 4 := by
    rw [distance, Real.sqrt_eq_iff_mul_self_eq (by norm_num) (by norm_num)]; norm_num
  have r4 : (4 : ℝ) ^ (1/2 : ℝ) = 2 := by
    rw [← Real.sqrt_eq_rpow, Real.sqrt_eq_iff_mul_self_eq (by norm_num) (by norm_num)]; norm_num
  obtain ⟨f, hf, hL, hR⟩ := C129_no_kink_partial ⟨[(0, 0, 0), (1, 0, 0), (5, 0, 0)], false, 1/2⟩ (by norm_num) (by simp) 1 2
    (by simp) le_rfl (by norm_num) 1 2 (by simp [stop, d1]) (by norm_num) (by simp only [stop]; simp [d2]; rw [← r4]; norm_num) (by norm_num)
  refine ⟨f, hf, fun hd => ?_⟩
  have hd := hd.hasDerivAt
  push_cast at hL hR
  have u1 := (uniqueDiffWithinAt_Iic (1/2 : ℝ)).eq_deriv _ hL hd.hasDerivWithinAt
  have u2 := (uniqueDiffWithinAt_Ici (1/2 : ℝ)).eq_deriv _ hR hd.hasDerivWithinAt
  have := congrArg Prod.fst (u1.trans u2.symm)
  simp [stop, joinTangent] at this
  norm_num at this

end Verif.Spline
