import Verif.Gear.Props
import Mathlib.Analysis.Real.Pi.Bounds

/-!
# Teeth of a gear do not overlap

C338, and cases for the theorems on gears.
-/

namespace Verif.Gear

/-- the pressure angle at the tip: the addendum circle -/
noncomputable def Params.tipAngle (p : Params) : ℝ := Real.arccos (p.baseR / p.addendumR)

/-- teeth have a width at the tip: π / (2 z) + inv α - inv α' > 0, where α' is the pressure angle at the tip -/
def Params.Blunt (p : Params) : Prop := p.tipAngle.tan - p.tipAngle < Real.pi / (2 * p.teeth) + (p.alpha.tan - p.alpha)

/-- gaps have a width on the base circle -/
def Params.Apart (p : Params) : Prop := 2 * p.teeth * (p.alpha.tan - p.alpha) < Real.pi

theorem flank1_at (p : Params) (t : ℝ) (i : ℕ) (hi : i < p.segments + 1) : (p.flank1 t)[i]? = some (polar (p.flankR i) (t + inv (Real.arccos (p.baseR / p.flankR i)))) := by
  simp [Params.flank1, hi, Params.involute, turn_polar]

theorem flank2_at (p : Params) (t : ℝ) (i : ℕ) (hi : i < p.segments + 1) : (p.flank2 t)[i]? = some (polar (p.flankR i) (t + p.baseAngle - inv (Real.arccos (p.baseR / p.flankR i)))) := by
  simp only [Params.flank2, List.getElem?_map, List.getElem?_range hi, Option.map_some, Option.some.injEq]
  have : ((p.involute (p.flankR i)).1, -(p.involute (p.flankR i)).2) = polar (p.flankR i) (-inv (Real.arccos (p.baseR / p.flankR i))) := by simp [Params.involute, polar]
  rw [this, turn_polar, sub_eq_add_neg]

theorem inv_le_tip (p : Params) (h : p.Good) (i : ℕ) (hi : i < p.segments + 1) : inv (Real.arccos (p.baseR / p.flankR i)) ≤ inv p.tipAngle := by
  obtain ⟨h1, h2⟩ := flankR_mem h i hi
  rcases h2.lt_or_eq with h2 | h2
  · exact (involute_mono p (base_pos h) h1 h2).le
  · rw [h2]; rfl

theorem inv_nonneg (p : Params) (h : p.Good) (i : ℕ) (hi : i < p.segments + 1) : 0 ≤ inv (Real.arccos (p.baseR / p.flankR i)) := by
  obtain ⟨h1, h2⟩ := flankR_mem h i hi
  have h0 : inv (Real.arccos (p.baseR / p.baseR)) = 0 := by simp [div_self (base_pos h).ne', inv]
  rcases h1.lt_or_eq with h1 | h1
  · rw [← h0]; exact (involute_mono p (base_pos h) le_rfl h1).le
  · rw [← h1, h0]

/-- C338 (the part that holds): if teeth have a width at the tip and gaps have one at the base circle, then at every distance the first flank of a tooth comes before its second, and that before the first flank of the next tooth.
Missing: this is not checked. -/
theorem C338_disjoint_partial (p : Params) (h : p.Good) (hb : p.Blunt) (ha : p.Apart) (t : ℝ) (i : ℕ) (hi : i ≤ p.segments) :
    ∃ r a b, (p.flank1 t)[i]? = some (polar r a) ∧ (p.flank2 t)[i]? = some (polar r b) ∧ (p.flank1 (t + 2 * Real.pi / p.teeth))[i]? = some (polar r (a + 2 * Real.pi / p.teeth)) ∧
      p.baseR ≤ r ∧ a < b ∧ b < a + 2 * Real.pi / p.teeth := by
  have hi' : i < p.segments + 1 := by omega
  have hz := teeth_pos h
  refine ⟨_, _, _, flank1_at p t i hi', flank2_at p t i hi', ?_, (flankR_mem h i hi').1, ?_, ?_⟩
  · rw [flank1_at p _ i hi']
    congr 2
    ring
  · have h1 := inv_le_tip p h i hi'
    have h2 : inv p.tipAngle < Real.pi / (2 * p.teeth) + inv p.alpha := hb
    have h3 : Real.pi / p.teeth = 2 * (Real.pi / (2 * p.teeth)) := by field_simp
    rw [baseAngle_eq h, h3]
    linarith
  · have h1 := inv_nonneg p h i hi'
    have h2 : 2 * inv p.alpha < Real.pi / p.teeth := by
      have : 2 * p.teeth * inv p.alpha < Real.pi := ha
      rw [lt_div_iff₀ hz]
      linarith
    have h3 : 2 * Real.pi / p.teeth = 2 * (Real.pi / p.teeth) := by ring
    rw [baseAngle_eq h, h3]
    linarith

/-- C338 fails: if 2 z inv α > π (106 teeth or more at 20 degrees), each tooth ends, on the base circle, after the next has begun -/
theorem C338_overlap (p : Params) (h : p.Good) (ha : Real.pi < 2 * p.teeth * (p.alpha.tan - p.alpha)) (t : ℝ) :
    ∃ a b, (p.flank2 t).head? = some (polar p.baseR b) ∧ (p.flank1 (t + 2 * Real.pi / p.teeth)).head? = some (polar p.baseR a) ∧ a < b := by
  have hz := teeth_pos h
  have h0 : p.flankR 0 = p.baseR := by rw [flankR_eq h]; simp
  have h1 : inv (Real.arccos (p.baseR / p.baseR)) = 0 := by simp [div_self (base_pos h).ne', inv]
  refine ⟨t + 2 * Real.pi / p.teeth, t + p.baseAngle, ?_, ?_, ?_⟩
  · rw [List.head?_eq_getElem?, flank2_at p t 0 (by omega), h0, h1, sub_zero]
  · rw [List.head?_eq_getElem?, flank1_at p _ 0 (by omega), h0, h1, add_zero]
  · have h2 : Real.pi / p.teeth < 2 * inv p.alpha := by
      rw [div_lt_iff₀ hz]
      have : Real.pi < 2 * p.teeth * inv p.alpha := ha
      linarith
    have h3 : 2 * Real.pi / p.teeth = 2 * (Real.pi / p.teeth) := by ring
    rw [baseAngle_eq h, h3]
    linarith

/-- C338 fails: if teeth would be pointed below the addendum circle, the flanks of a tooth cross: at the tip the second flank comes before the first -/
theorem C338_pointed (p : Params) (h : p.Good) (hb : Real.pi / (2 * p.teeth) + (p.alpha.tan - p.alpha) < p.tipAngle.tan - p.tipAngle) (t : ℝ) :
    ∃ a b, (p.flank1 t).getLast? = some (polar p.addendumR a) ∧ (p.flank2 t).getLast? = some (polar p.addendumR b) ∧ b < a := by
  have hs : (p.segments : ℝ) ≠ 0 := by
    have := segments_ge h
    exact_mod_cast (by omega : p.segments ≠ 0)
  have h0 : p.flankR p.segments = p.addendumR := by
    rw [flankR_eq h, div_self hs]
    ring
  have l1 : (p.flank1 t).length = p.segments + 1 := by simp [Params.flank1]
  have l2 : (p.flank2 t).length = p.segments + 1 := by simp [Params.flank2]
  refine ⟨t + inv p.tipAngle, t + p.baseAngle - inv p.tipAngle, ?_, ?_, ?_⟩
  · rw [List.getLast?_eq_getElem?, l1, Nat.add_sub_cancel, flank1_at p t _ (by omega), h0]
    rfl
  · rw [List.getLast?_eq_getElem?, l2, Nat.add_sub_cancel, flank2_at p t _ (by omega), h0]
    rfl
  · have h2 : Real.pi / (2 * p.teeth) + inv p.alpha < inv p.tipAngle := hb
    have h3 : Real.pi / p.teeth = 2 * (Real.pi / (2 * p.teeth)) := by field_simp
    rw [baseAngle_eq h, h3]
    linarith

/-! ## cases -/

/-- a gear of six teeth, with a pressure angle of 19.47 degrees -/
noncomputable def six : Params := ⟨1, 6, Real.arccos (2 * √2 / 3), false, 0.5, 50⟩

theorem sqrt2 : 1.414 < √2 ∧ √2 < 1.4143 := by
  constructor
  · rw [Real.lt_sqrt (by norm_num)]; norm_num
  · rw [Real.sqrt_lt' (by norm_num)]; norm_num

theorem six_cos : Real.cos six.alpha = 2 * √2 / 3 := Real.cos_arccos (by have := sqrt2; linarith) (by have := sqrt2; linarith)

theorem six_good : six.Good := by
  have hs := sqrt2
  refine ⟨by norm_num [six], by norm_num [six], by norm_num [six], ?_, ?_⟩
  · simp only [six, Real.arccos_pos]; linarith
  · simp only [six, Real.arccos_lt_pi_div_two]; linarith

theorem six_tan : six.alpha.tan = √2 / 4 := by
  have h2 : √2 * √2 = 2 := Real.mul_self_sqrt (by norm_num)
  simp only [six, Real.tan_arccos]
  rw [show 1 - (2 * √2 / 3) ^ 2 = (1 / 3) ^ 2 by nlinarith, Real.sqrt_sq (by norm_num)]
  have : √2 ≠ 0 := by have := sqrt2; positivity
  field_simp
  nlinarith

theorem six_alpha : 0.3 < six.alpha := by
  by_contra hc
  have h1 : Real.cos 0.3 ≤ Real.cos six.alpha := Real.cos_le_cos_of_nonneg_of_le_pi six_good.alpha.1.le (by linarith [Real.pi_gt_three]) (not_lt.mp hc)
  have h2 := Real.one_sub_sq_div_two_le_cos (x := 0.3)
  rw [six_cos] at h1
  have := sqrt2
  norm_num at h2
  linarith

/-- it has six separate, blunt teeth -/
example : six.Good ∧ six.Blunt ∧ six.Apart := by
  have hs := sqrt2
  have hp := Real.pi_gt_three
  refine ⟨six_good, ?_, ?_⟩
  · have h1 : six.tipAngle = Real.pi / 4 := by
      have h2 : √2 * √2 = 2 := Real.mul_self_sqrt (by norm_num)
      have : six.baseR / six.addendumR = Real.cos (Real.pi / 4) := by
        have hc : Real.cos six.alpha = 2 * √2 / 3 := six_cos
        unfold Params.baseR Params.addendumR
        rw [hc, Real.cos_pi_div_four]
        norm_num [six]
        ring
      rw [Params.tipAngle, this, Real.arccos_cos (by linarith) (by linarith)]
    have h3 := six_tan
    have h4 : six.alpha < six.alpha.tan := Real.lt_tan six_good.alpha.1 six_good.alpha.2
    unfold Params.Blunt
    rw [h1, Real.tan_pi_div_four]
    norm_num [six] at h4 ⊢
    linarith
  · have h3 := six_tan
    have h4 := six_alpha
    unfold Params.Apart
    rw [h3]
    norm_num [six] at h4 ⊢
    linarith

/-- eight teeth at 45 degrees overlap -/
example : (⟨1, 8, Real.pi / 4, true, 0.5, 50⟩ : Params).Good ∧ Real.pi < 2 * (8 : ℝ) * ((Real.pi / 4).tan - Real.pi / 4) := by
  have h1 := Real.pi_lt_d2
  have h2 := Real.pi_gt_three
  refine ⟨⟨by norm_num, by norm_num, by norm_num, by constructor <;> simp only <;> linarith⟩, ?_⟩
  rw [Real.tan_pi_div_four]
  linarith

/-- six teeth at 60 degrees have points inside the dedendum circle, and roots by splines of a gear of four teeth at 60 degrees are too deep -/
example : 2.5 < (6 : ℝ) * (1 - Real.cos (Real.pi / 3)) ∧
    (let p : Params := ⟨1, 4, Real.pi / 3, true, 0.5, 50⟩; 0 < p.dedendumR ∧ p.dedendumR < p.baseR ∧ p.baseR ≤ 9 * p.dedendumR ∧ p.division = 2 * (25 : ℕ)) := by
  simp only [Params.dedendumR, Params.baseR, Real.cos_pi_div_three]
  norm_num

/-- a gear of four teeth that would be pointed: at the tip the pressure angle is 60 degrees -/
noncomputable def four : Params := ⟨1, 4, Real.arccos (3 / 4), false, 0.5, 50⟩

example : four.Good ∧ Real.pi / (2 * four.teeth) + (four.alpha.tan - four.alpha) < four.tipAngle.tan - four.tipAngle := by
  have hp := Real.pi_lt_d2
  have hp3 := Real.pi_gt_three
  have hc : Real.cos four.alpha = 3 / 4 := Real.cos_arccos (by norm_num) (by norm_num)
  have hg : four.Good := ⟨by norm_num [four], by norm_num [four], by norm_num [four], by
    constructor
    · simp only [four, Real.arccos_pos]; norm_num
    · simp only [four, Real.arccos_lt_pi_div_two]; norm_num⟩
  refine ⟨hg, ?_⟩
  have h1 : four.tipAngle = Real.pi / 3 := by
    have : four.baseR / four.addendumR = Real.cos (Real.pi / 3) := by
      unfold Params.baseR Params.addendumR
      rw [hc, Real.cos_pi_div_three]
      norm_num [four]
    rw [Params.tipAngle, this, Real.arccos_cos (by linarith) (by linarith)]
  have h2 : 0.7 < four.alpha := by
    by_contra hn
    have h1 : Real.cos 0.7 ≤ Real.cos four.alpha := Real.cos_le_cos_of_nonneg_of_le_pi hg.alpha.1.le (by linarith) (not_lt.mp hn)
    have h2 := Real.one_sub_sq_div_two_le_cos (x := 0.7)
    rw [hc] at h1
    norm_num at h2
    linarith
  have h3 : four.alpha.tan ≤ 0.9 := by
    simp only [four, Real.tan_arccos]
    rw [div_le_iff₀ (by norm_num), Real.sqrt_le_left (by norm_num)]
    norm_num
  have h4 : 1.73 < √3 := by rw [Real.lt_sqrt (by norm_num)]; norm_num
  rw [h1, Real.tan_pi_div_three]
  norm_num [four] at h2 h3 ⊢
  linarith

end Verif.Gear
