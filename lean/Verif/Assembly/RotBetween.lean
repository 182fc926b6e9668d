import Verif.Assembly.RotLemmas

/-! The two `_rotation_between_vectors` functions. -/

namespace Verif.Assembly
open Verif.Kin (Rigid)
open Verif.Kin.Transform (identity compose transformPoint transformVector)

theorem norm_cross_sq {a b : V3} (ha : dot3 a a = 1) (hb : dot3 b b = 1) :
    norm3 (cross3 a b) ^ 2 = 1 - dot3 a b ^ 2 := by
  rw [norm3_sq, lagrange, ha, hb]; ring

theorem dot_le_one {a b : V3} (ha : dot3 a a = 1) (hb : dot3 b b = 1) :
    -1 ≤ dot3 a b ∧ dot3 a b ≤ 1 := by
  have := norm_cross_sq ha hb
  constructor <;> nlinarith [sq_nonneg (norm3 (cross3 a b))]

theorem eq_of_dot_one {a b : V3} (ha : dot3 a a = 1) (hb : dot3 b b = 1) (h : dot3 a b = 1) : a = b := by
  have h1 : norm3 (a - b) = 0 := by
    have := chord ha hb
    rw [h] at this
    unfold norm3
    rw [this]; norm_num
  exact sub_eq_zero.1 (norm3_eq_zero.1 h1)

theorem norm3_lt {v : V3} {e : ℝ} (he : 0 < e) (h : dot3 v v < e ^ 2) : norm3 v < e := by
  unfold norm3
  rw [Real.sqrt_lt' he]; exact h

theorem norm3_le {v : V3} {e : ℝ} (he : 0 < e) (h : dot3 v v ≤ e ^ 2) : norm3 v ≤ e := by
  unfold norm3
  rw [Real.sqrt_le_left he.le]; exact h

/-- `face_mate._rotation_between_vectors` on unit vectors -/
theorem rotBetween_unit {a b : V3} (ha : dot3 a a = 1) (hb : dot3 b b = 1) :
    ∃ R, rotBetween a b = some R ∧ IsRotation R ∧ norm3 (R.mulVec a - b) < 1.5e-10 ∧
      (norm3 (cross3 a b) ≥ 1e-10 ∨ cross3 a b = 0 → R.mulVec a = b) := by
  have hs := norm_cross_sq ha hb
  have hd := dot_le_one ha hb
  have hn := norm3_nonneg (cross3 a b)
  unfold rotBetween
  simp only [unit3_of_unit ha, unit3_of_unit hb]
  have small (h : norm3 (cross3 a b) < 1e-10) : norm3 (cross3 a b) ^ 2 < 1e-20 := by
    nlinarith [norm3_nonneg (cross3 a b)]
  split_ifs with h1 h2
  · refine ⟨1, rfl, isRotation_one, ?_, ?_⟩
    · rw [mulVec_one3]
      apply norm3_lt (by norm_num)
      rw [chord ha hb]
      have := small h1
      rw [hs] at this
      nlinarith
    · rintro (h | h)
      · exact absurd h1 (not_lt.2 h)
      · rw [mulVec_one3]
        apply eq_of_dot_one ha hb
        have : norm3 (cross3 a b) = 0 := norm3_eq_zero.2 h
        rw [this] at hs
        nlinarith
  · have hp := perpTo_spec ha
    obtain ⟨p, hp'⟩ : ∃ p, unit3 (perpTo a) = some p := by
      cases h : unit3 (perpTo a) with
      | none => exact absurd (unit3_none.1 h) hp.1
      | some p => exact ⟨p, rfl⟩
    have hpp := unit_perp ha hp'
    refine ⟨(2 : ℝ) • outer3 p p - 1, by rw [hp']; rfl, isRotation_flip hpp.1, ?_, ?_⟩
    · rw [flip_mulVec hpp.2]
      apply norm3_lt (by norm_num)
      have hna : dot3 (-a) (-a) = 1 := by rw [← ha]; simp [dot3]
      have hnab : dot3 (-a) b = - dot3 a b := by simp [dot3]; ring
      rw [chord hna hb, hnab]
      have := small h1
      rw [hs] at this
      nlinarith [not_lt.1 h2]
    · rintro (h | h)
      · exact absurd h1 (not_lt.2 h)
      · rw [flip_mulVec hpp.2]
        have hna : dot3 (-a) (-a) = 1 := by rw [← ha]; simp [dot3]
        have hnab : dot3 (-a) b = - dot3 a b := by simp [dot3]; ring
        apply eq_of_dot_one hna hb
        rw [hnab]
        have : norm3 (cross3 a b) = 0 := norm3_eq_zero.2 h
        rw [this] at hs
        nlinarith [not_lt.1 h2]
  · have hne : cross3 a b ≠ 0 := by
      intro h
      rw [norm3_eq_zero.2 h] at h1
      norm_num at h1
    have hu := unit3_of_ne hne
    obtain ⟨w1, w2, w3⟩ := unit_cross hu
    have hmap := rodM_maps (c := dot3 a b) (s := norm3 (cross3 a b)) ha w1 w2 w3 rfl
    refine ⟨_, rfl, isRotation_rodM w1 (by rw [hs]; ring), ?_, fun _ => hmap⟩
    rw [hmap, sub_self]
    exact norm3_lt (by norm_num) (by simp [dot3]; norm_num)

/-- `MateConstraintSolver._rotation_between_vectors` on unit vectors -/
theorem rotBetweenS_unit {a b : V3} (ha : dot3 a a = 1) (hb : dot3 b b = 1) :
    ∃ R, rotBetweenS a b = some R ∧ IsRotation R ∧ norm3 (R.mulVec a - b) < 0.0142 ∧
      (|dot3 a b| ≤ 0.9999 ∨ cross3 a b = 0 → R.mulVec a = b) := by
  have hs := norm_cross_sq ha hb
  have hd := dot_le_one ha hb
  unfold rotBetweenS
  simp only [unit3_of_unit ha, unit3_of_unit hb]
  split_ifs with h1 h2
  · refine ⟨1, rfl, isRotation_one, ?_, ?_⟩
    · rw [mulVec_one3]
      apply norm3_lt (by norm_num)
      rw [chord ha hb]
      norm_num at h1 ⊢
      linarith
    · rintro (h | h)
      · have := (abs_le.1 h).2
        norm_num at this
        linarith
      · rw [mulVec_one3]
        apply eq_of_dot_one ha hb
        have : norm3 (cross3 a b) = 0 := norm3_eq_zero.2 h
        rw [this] at hs
        nlinarith
  · have hp := perpTo_spec ha
    obtain ⟨p, hp'⟩ : ∃ p, unit3 (perpTo a) = some p := by
      cases h : unit3 (perpTo a) with
      | none => exact absurd (unit3_none.1 h) hp.1
      | some p => exact ⟨p, rfl⟩
    have hpp := unit_perp ha hp'
    have hR : rodriguesS p Real.pi = some (rodM p (-1) 0) := by
      simp [rodriguesS, unit3_of_unit hpp.1]
    have hmv : (rodM p (-1) 0).mulVec a = -a := by
      rw [rodM_mulVec, cross_cross, hpp.2, hpp.1]
      ext i; simp; ring
    have hna : dot3 (-a) (-a) = 1 := by rw [← ha]; simp [dot3]
    have hnab : dot3 (-a) b = - dot3 a b := by simp [dot3]; ring
    refine ⟨rodM p (-1) 0, by rw [hp']; exact hR, isRotation_rodM hpp.1 (by norm_num), ?_, ?_⟩
    · rw [hmv]
      apply norm3_lt (by norm_num)
      rw [chord hna hb, hnab]
      norm_num at h2 ⊢
      linarith
    · rw [hmv]
      rintro (h | h)
      · have := (abs_le.1 h).1
        norm_num at this
        linarith
      · apply eq_of_dot_one hna hb
        rw [hnab]
        have : norm3 (cross3 a b) = 0 := norm3_eq_zero.2 h
        rw [this] at hs
        nlinarith
  · have hne : cross3 a b ≠ 0 := by
      intro h
      rw [norm3_eq_zero.2 h] at hs
      nlinarith [not_lt.1 h1, not_lt.1 h2]
    have hu := unit3_of_ne hne
    obtain ⟨w1, w2, w3⟩ := unit_cross hu
    have hclip : max (-1) (min 1 (dot3 a b)) = dot3 a b := by
      rw [min_eq_right hd.2, max_eq_right hd.1]
    have hsin : Real.sin (Real.arccos (dot3 a b)) = norm3 (cross3 a b) := by
      rw [Real.sin_arccos, ← hs, Real.sqrt_sq (norm3_nonneg _)]
    have hmap := rodM_maps (c := dot3 a b) (s := norm3 (cross3 a b)) ha w1 w2 w3 rfl
    refine ⟨_, ?_, isRotation_rodM w1 (c := dot3 a b) (s := norm3 (cross3 a b)) (by rw [hs]; ring), ?_, fun _ => hmap⟩
    · rw [hu, Option.bind_some, hclip]
      simp only [rodriguesS, unit3_of_unit w1, Option.map_some, hsin, Real.cos_arccos hd.1 hd.2]
    · rw [hmap, sub_self]
      exact norm3_lt (by norm_num) (by simp [dot3]; norm_num)

end Verif.Assembly
