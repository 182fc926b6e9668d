import Verif.Prim.Model

/-!
# C180: adaptive resolution
-/

namespace Verif.Prim
open Verif.Geom Verif.Surf Real

/-- length of the chord of a circle of radius `r` cut into `n` equal segments -/
noncomputable def chord (r : ℝ) (n : ℤ) : ℝ := 2 * r * sin (π / n)

/-- sagitta: distance between the middle of the chord and the circle -/
noncomputable def sagitta (r : ℝ) (n : ℤ) : ℝ := r * (1 - cos (π / n))

theorem clamp_bounds (k : ℤ) (lo hi : ℤ) (h : lo ≤ hi) : lo ≤ clamp lo hi k ∧ clamp lo hi k ≤ hi ∧
    (clamp lo hi k < hi → k ≤ clamp lo hi k) := by
  unfold clamp; omega

theorem defaultChord_pos (r : ℝ) : 0 < defaultChord r := by
  unfold defaultChord
  split
  · norm_num
  split
  · norm_num
  · positivity

theorem pi_div_le {N : ℤ} {a x : ℝ} (hN : 0 < N) (ha : 0 < a) (h : x / a ≤ N) : x / N ≤ a := by
  have : (0 : ℝ) < N := by exact_mod_cast hN
  rw [div_le_iff₀ ha] at h
  rw [div_le_iff₀ this]
  linarith

/-- **C180** for a positive radius and a positive chord limit (or the default one) the segment count is between 16 and
360 and, unless it is 360, the chords are no longer than the limit -/
theorem C180_chord (r : ℝ) (mc : Option ℝ) (hr : 0 < r) (hm : ∀ m, mc = some m → 0 < m) :
    ∃ N, adaptiveArcSegments r none mc = .ok N ∧ 16 ≤ N ∧ N ≤ 360 ∧
      (N < 360 → chord r N ≤ mc.getD (defaultChord r)) := by
  have hL : 0 < mc.getD (defaultChord r) := by
    cases mc with
    | none => exact defaultChord_pos r
    | some m => exact hm m rfl
  unfold adaptiveArcSegments chordSegments
  rw [if_neg (by linarith)]
  simp only
  set L := mc.getD (defaultChord r)
  set s := min L (2 * r * 0.95) / (2 * r) with hs
  have h2r : 0 < 2 * r := by linarith
  have s0 : 0 < s := div_pos (lt_min hL (by linarith)) h2r
  have s1 : s < 1 := by
    rw [hs, div_lt_one h2r]
    exact lt_of_le_of_lt (min_le_right _ _) (by linarith)
  have a0 : 0 < arcsin s := arcsin_pos.mpr s0
  rw [if_neg (by linarith), if_neg (by linarith), if_neg a0.ne']
  obtain ⟨c1, c2, c3⟩ := clamp_bounds ⌈π / arcsin s⌉ 16 360 (by norm_num)
  refine ⟨_, rfl, c1, c2, fun hlt => ?_⟩
  have hk := c3 hlt
  set N := clamp 16 360 ⌈π / arcsin s⌉
  have hN : π / arcsin s ≤ N := le_trans (Int.le_ceil _) (by exact_mod_cast hk)
  have hNp : (0 : ℝ) < N := by exact_mod_cast (show (0 : ℤ) < N by omega)
  have hle : π / N ≤ arcsin s := pi_div_le (by omega) a0 hN
  unfold chord
  have h1 : sin (π / N) ≤ s := by
    rw [← sin_arcsin (x := s) (by linarith) (by linarith)]
    refine sin_le_sin_of_le_of_le_pi_div_two ?_ (arcsin_le_pi_div_two s) hle
    have := div_pos pi_pos hNp
    linarith [pi_pos]
  calc 2 * r * sin (π / N) ≤ 2 * r * s := by nlinarith
    _ = min L (2 * r * 0.95) := by rw [hs]; field_simp
    _ ≤ L := min_le_left _ _

/-- **C180** the same for the chord error: the sagitta is within the limit -/
theorem C180_sagitta (r ce : ℝ) (mc : Option ℝ) (hr : 0 < r) (hce : 0 < ce) :
    ∃ N, adaptiveArcSegments r (some ce) mc = .ok N ∧ 16 ≤ N ∧ N ≤ 360 ∧ (N < 360 → sagitta r N ≤ ce) := by
  unfold adaptiveArcSegments
  rw [if_neg (by linarith)]
  simp only
  rw [if_neg (by linarith)]
  set q := min (ce / r) 0.999999 with hq
  have q0 : 0 < q := lt_min (div_pos hce hr) (by norm_num)
  have q1 : q < 1 := lt_of_le_of_lt (min_le_right _ _) (by norm_num)
  have a0 : 0 < arccos (1 - q) := arccos_pos.mpr (by linarith)
  obtain ⟨c1, c2, c3⟩ := clamp_bounds ⌈2 * π / (2 * arccos (1 - q))⌉ 16 360 (by norm_num)
  refine ⟨_, rfl, c1, c2, fun hlt => ?_⟩
  have hk := c3 hlt
  set N := clamp 16 360 ⌈2 * π / (2 * arccos (1 - q))⌉
  have hN : 2 * π / (2 * arccos (1 - q)) ≤ N := le_trans (Int.le_ceil _) (by exact_mod_cast hk)
  have hNp : (0 : ℝ) < N := by exact_mod_cast (show (0 : ℤ) < N by omega)
  have hle : π / N ≤ arccos (1 - q) := pi_div_le (by omega) a0 (by
    rw [mul_div_mul_left _ _ (by norm_num : (2 : ℝ) ≠ 0)] at hN
    exact hN)
  unfold sagitta
  have h1 : 1 - q ≤ cos (π / N) := by
    rw [← cos_arccos (x := 1 - q) (by linarith) (by linarith)]
    exact cos_le_cos_of_nonneg_of_le_pi (div_pos pi_pos hNp).le (arccos_le_pi _) hle
  have h3 : r * q ≤ ce := by
    have : q ≤ ce / r := min_le_left _ _
    rw [le_div_iff₀ hr] at this
    linarith
  nlinarith

/-- the resolution derived from a count is between 1 and 10 degrees, and 360 divided by it is the count clamped to
[36, 360] -/
theorem adaptiveAngr_ok (r : ℝ) (ce mc : Option ℝ) (N : ℤ) (h : adaptiveArcSegments r ce mc = .ok N) (h1 : 16 ≤ N) (h2 : N ≤ 360) :
    ∃ a, adaptiveAngr r ce mc = .ok a ∧ 1 ≤ a ∧ a ≤ 10 ∧ 360 / a = ((max 36 N : ℤ) : ℝ) := by
  unfold adaptiveAngr
  rw [h]
  simp only
  rw [if_neg (by omega)]
  have hN : (0 : ℝ) < N := by exact_mod_cast (show (0 : ℤ) < N by omega)
  have h2' : (N : ℝ) ≤ 360 := by exact_mod_cast h2
  have e1 : (1 : ℝ) ≤ 360 / N := by rw [le_div_iff₀ hN]; linarith
  refine ⟨_, rfl, le_max_left _ _, ?_, ?_⟩
  · exact max_le (by norm_num) (min_le_left _ _)
  · by_cases h36 : N ≤ 36
    · have h36' : (N : ℝ) ≤ 36 := by exact_mod_cast h36
      have : (10 : ℝ) ≤ 360 / N := by rw [le_div_iff₀ hN]; linarith
      rw [min_eq_left this, max_eq_right (by norm_num), max_eq_left h36]
      norm_num
    · have h36' : (36 : ℝ) ≤ N := by exact_mod_cast (show (36 : ℤ) ≤ N by omega)
      have : 360 / (N : ℝ) ≤ 10 := by rw [div_le_iff₀ hN]; linarith
      rw [min_eq_right this, max_eq_right e1, max_eq_right (by omega : (36 : ℤ) ≤ N)]
      field_simp

/-- the default limit is 1 for radius 50, 0.1 for radius 2.5 -/
example : defaultChord 50 = 1 ∧ defaultChord 2.5 = 0.1 := by
  unfold defaultChord; norm_num

/-- **C180** a chord limit of zero is not rejected: the call raises `ZeroDivisionError` -/
theorem C180_zero_chord (r : ℝ) (hr : 0 < r) : adaptiveArcSegments r none (some 0) = .error .zeroDivision := by
  unfold adaptiveArcSegments chordSegments
  rw [if_neg (by linarith)]
  simp only [Option.getD_some]
  rw [min_eq_left (by linarith), zero_div, arcsin_zero]
  norm_num

end Verif.Prim
