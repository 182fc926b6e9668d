import Verif.Gear.Model
import Mathlib.Tactic.LinearCombination
import Mathlib.Tactic.FieldSimp

/-!
# The gear outline

C334: closed, the same for every tooth, each tooth a mirror image of itself. C335: flanks are involutes. C336: teeth and gaps are equally wide at the pitch circle; equal modules and pressure angles mesh. C337: radii. C338: teeth do
not overlap.
-/

namespace Verif.Gear

/-! ## specification -/

/-- arguments for a gear: what is checked, and a pressure angle strictly between 0 and 90 degrees, which is not -/
structure Params.Good (p : Params) : Prop where
  teeth : 0 < p.teeth
  module : 0 < p.module
  step : 0 < p.step
  alpha : 0 < p.alpha ∧ p.alpha < Real.pi / 2

/-- the distance from the centre -/
noncomputable def radius (q : ℝ × ℝ) : ℝ := √(q.1 ^ 2 + q.2 ^ 2)

/-- reflection in the line through the centre at an angle `a` -/
noncomputable def mirror (a : ℝ) (q : ℝ × ℝ) : ℝ × ℝ := (q.1 * Real.cos (2 * a) + q.2 * Real.sin (2 * a), q.1 * Real.sin (2 * a) - q.2 * Real.cos (2 * a))

/-- the end of a taut string unwound by an angle `u` from a circle of radius `b`, where the free end starts at the angle `s` -/
noncomputable def unwound (b s u : ℝ) : ℝ × ℝ := (b * Real.cos (s + u) + b * u * Real.sin (s + u), b * Real.sin (s + u) - b * u * Real.cos (s + u))

/-! ## lemmas -/

theorem turn_turn (a b : ℝ) (q : ℝ × ℝ) : turn a (turn b q) = turn (a + b) q := by
  simp only [turn, Real.cos_add, Real.sin_add, Prod.mk.injEq]
  constructor <;> ring

theorem turn_polar (a r b : ℝ) : turn a (polar r b) = polar r (a + b) := by
  simp only [turn, polar, Real.cos_add, Real.sin_add, Prod.mk.injEq]
  constructor <;> ring

theorem radius_turn (a : ℝ) (q : ℝ × ℝ) : radius (turn a q) = radius q := by
  simp only [radius, turn]
  congr 1
  linear_combination (q.1 ^ 2 + q.2 ^ 2) * Real.sin_sq_add_cos_sq a

theorem radius_polar (r a : ℝ) : radius (polar r a) = |r| := by
  rw [← Real.sqrt_sq_eq_abs]
  simp only [radius, polar]
  congr 1
  linear_combination r ^ 2 * Real.sin_sq_add_cos_sq a

theorem radius_flip (q : ℝ × ℝ) : radius (q.1, -q.2) = radius q := by simp [radius]

theorem turn_spline (a : ℝ) (d c b e : ℝ × ℝ) (t : ℝ) : turn a (catmull d c b e t) = catmull (turn a d) (turn a c) (turn a b) (turn a e) t := by
  simp only [turn, catmull, cubic, Prod.mk.injEq]
  constructor <;> ring

section
variable {p : Params} (h : p.Good)
include h

theorem teeth_pos : (0 : ℝ) < p.teeth := by exact_mod_cast h.teeth

theorem cos_pos : 0 < Real.cos p.alpha := Real.cos_pos_of_mem_Ioo ⟨by linarith [h.alpha.1, Real.pi_pos], h.alpha.2⟩

theorem cos_lt : Real.cos p.alpha < 1 := by
  rw [← Real.cos_zero]
  exact Real.cos_lt_cos_of_nonneg_of_le_pi_div_two le_rfl h.alpha.2.le h.alpha.1

theorem base_pos : 0 < p.baseR := by
  have := mul_pos (mul_pos (teeth_pos h) h.module) (cos_pos h)
  unfold Params.baseR
  linarith

theorem base_lt_pitch : p.baseR < p.pitchR := by
  have := mul_lt_mul_of_pos_left (cos_lt h) (mul_pos (teeth_pos h) h.module)
  unfold Params.baseR Params.pitchR
  linarith

theorem pitch_lt_addendum : p.pitchR < p.addendumR := by
  have := h.module
  unfold Params.addendumR Params.pitchR
  linarith

theorem base_lt_addendum : p.baseR < p.addendumR := (base_lt_pitch h).trans (pitch_lt_addendum h)

theorem arccos_pitch : Real.arccos (p.baseR / p.pitchR) = p.alpha := by
  have : p.baseR / p.pitchR = Real.cos p.alpha := by
    have h1 : p.pitchR ≠ 0 := ((base_pos h).trans (base_lt_pitch h)).ne'
    rw [div_eq_iff h1]
    unfold Params.baseR Params.pitchR
    ring
  rw [this, Real.arccos_cos h.alpha.1.le (by linarith [h.alpha.2, Real.pi_pos])]

theorem baseAngle_eq : p.baseAngle = Real.pi / p.teeth + 2 * inv p.alpha := by
  have h1 := (teeth_pos h).ne'
  have h2 := h.module.ne'
  unfold Params.baseAngle
  rw [arccos_pitch h]
  unfold Params.pitchR
  field_simp

theorem segments_ge : 2 ≤ p.segments := by
  unfold Params.segments
  have : (2 : Int) ≤ max 2 ⌈(p.addendumR - p.baseR) / p.step⌉ := le_max_left _ _
  omega

theorem flankR_eq (i : ℕ) : p.flankR i = p.baseR + (p.addendumR - p.baseR) * (i / p.segments) := by
  unfold Params.flankR
  apply max_eq_left
  have : (0 : ℝ) ≤ i / p.segments := by positivity
  have := mul_nonneg (sub_pos.mpr (base_lt_addendum h)).le this
  linarith

theorem flankR_mem (i : ℕ) (hi : i < p.segments + 1) : p.baseR ≤ p.flankR i ∧ p.flankR i ≤ p.addendumR := by
  rw [flankR_eq h]
  have h0 : (0 : ℝ) < p.segments := by exact_mod_cast (by have := segments_ge h; omega : 0 < p.segments)
  have h1 : (0 : ℝ) ≤ i / p.segments := by positivity
  have h2 : (i : ℝ) / p.segments ≤ 1 := by
    rw [div_le_one h0]
    exact_mod_cast (by omega : i ≤ p.segments)
  have h3 := sub_pos.mpr (base_lt_addendum h)
  constructor <;> nlinarith

end

theorem radius_involute (p : Params) {r : ℝ} (hr : 0 ≤ r) : radius (p.involute r) = r := by
  rw [Params.involute, radius_polar, abs_of_nonneg hr]

theorem unwound_turn (b s u a : ℝ) : turn a (unwound b s u) = unwound b (a + s) u := by
  have h1 : a + s + u = a + (s + u) := by ring
  simp only [unwound, h1, Real.cos_add a, Real.sin_add a]
  simp only [turn, Prod.mk.injEq]
  constructor <;> ring

/-- the point of the model is on the involute -/
theorem involute_unwound (p : Params) {r : ℝ} (hb : 0 < p.baseR) (hr : p.baseR ≤ r) : p.involute r = unwound p.baseR 0 (Real.tan (Real.arccos (p.baseR / r))) := by
  have hr0 : 0 < r := hb.trans_le hr
  have hq : 0 < p.baseR / r := by positivity
  have hc : Real.cos (Real.arccos (p.baseR / r)) = p.baseR / r := Real.cos_arccos (by linarith) ((div_le_one hr0).mpr hr)
  have hc0 : Real.cos (Real.arccos (p.baseR / r)) ≠ 0 := by
    rw [hc]
    positivity
  have hb' : p.baseR = r * Real.cos (Real.arccos (p.baseR / r)) := by rw [hc]; field_simp
  have ht := Real.tan_mul_cos hc0
  simp only [Params.involute, polar, inv, unwound, zero_add, Real.cos_sub, Real.sin_sub, Prod.mk.injEq]
  generalize Real.arccos (p.baseR / r) = a at *
  rw [hb']
  constructor
  · linear_combination (-r * Real.sin (Real.tan a)) * ht
  · linear_combination (r * Real.cos (Real.tan a)) * ht

theorem flip_turn (a : ℝ) (q : ℝ × ℝ) : ((turn a q).1, -(turn a q).2) = turn (-a) (q.1, -q.2) := by
  simp only [turn, Real.cos_neg, Real.sin_neg, Prod.mk.injEq]
  constructor <;> ring

theorem mirror_eq (a : ℝ) (q : ℝ × ℝ) : mirror a q = turn (2 * a) (q.1, -q.2) := by
  simp only [mirror, turn, Prod.mk.injEq]
  constructor <;> ring

theorem turn_full (q : ℝ × ℝ) : turn (2 * Real.pi) q = q := by simp [turn]

theorem tooth_turn (p : Params) (t a : ℝ) : (p.tooth t).map (turn a) = p.tooth (a + t) := by
  have h1 : a + -p.bottomAngle = -p.bottomAngle + a := by ring
  unfold Params.tooth Params.root Params.flank1 Params.flank2
  simp only [List.map_append, List.map_reverse, List.map_map]
  congr 1
  · congr 1
    · split
      · split
        · simp [turn_polar, add_left_comm]
        · rw [List.map_map]
          congr 1
          funext i
          simp only [Function.comp, turn_spline, turn_polar, add_left_comm]
      · simp [turn_polar, add_left_comm]
    · congr 1
      funext i
      simp [turn_turn]
  · congr 2
    funext i
    simp [turn_turn, add_assoc]

theorem tooth_full (p : Params) (t : ℝ) : p.tooth (2 * Real.pi + t) = p.tooth t := by
  rw [← tooth_turn, show turn (2 * Real.pi) = id from funext turn_full, List.map_id]

theorem range_rotate {X : Type} (f : ℕ → List X) (n : ℕ) (hn : 0 < n) (hf : f n = f 0) : (List.range n).flatMap (fun i => f (i + 1)) = ((List.range n).flatMap f).rotate (f 0).length := by
  obtain ⟨k, rfl⟩ : ∃ k, n = k + 1 := ⟨n - 1, by omega⟩
  have h1 : (List.range (k + 1)).flatMap f = f 0 ++ (List.range k).flatMap fun i => f (i + 1) := by
    rw [List.range_succ_eq_map, List.flatMap_cons, List.flatMap_map]
  rw [h1, List.rotate_append_length_eq, List.range_succ, List.flatMap_append]
  simp [hf]

/-! ## C334 -/

/-- C334: the figure ends where it begins -/
theorem C334_closed (p : Params) (known : Bool) (ps : List (ℝ × ℝ)) (h : figure p known = .ok ps) : ps.head? = ps.getLast? := by
  unfold figure at h
  split at h
  · simp at h
  split at h
  · simp at h
  split at h
  · simp at h
  split at h
  · simp at h
  split at h
  · simp at h
  injection h with h
  subst h
  unfold close
  split
  · rfl
  · split
    · rw [List.getLast?_append]; rfl
    · rename_i h
      simpa using (not_ne_iff.mp h)

/-- C334: arguments are refused exactly if the number of teeth, the module, the step or the division is not positive or the kind of root is unknown; otherwise the figure is the outline, with its first point again at the end if it is not there already -/
theorem C334_accepted (p : Params) (known : Bool) : (∃ ps, figure p known = .ok ps ∧ (ps = p.outline ∨ ∃ q, p.outline.head? = some q ∧ ps = p.outline ++ [q])) ↔
    0 < p.teeth ∧ 0 < p.module ∧ known = true ∧ 0 < p.step ∧ 0 < p.division := by
  unfold figure
  constructor
  · rintro ⟨ps, h, -⟩
    split at h
    · simp at h
    split at h
    · simp at h
    split at h
    · simp at h
    split at h
    · simp at h
    split at h
    · simp at h
    simp_all
  · rintro ⟨h1, h2, h3, h4, h5⟩
    rw [if_neg (by omega), if_neg (by linarith), if_neg (by simp [h3]), if_neg (by linarith), if_neg (by omega)]
    refine ⟨_, rfl, ?_⟩
    unfold close
    split
    · rename_i h; left; exact h.symm
    · rename_i q qs h
      split
      · right; exact ⟨q, by rw [h]; rfl, by rw [h]⟩
      · left; exact h.symm

/-- C334: the outline turned by one tooth is the outline again, beginning one tooth later -/
theorem C334_teeth (p : Params) (h : p.Good) : p.outline.map (turn (2 * Real.pi / p.teeth)) = p.outline.rotate (p.tooth 0).length := by
  have hp := (teeth_pos h).ne'
  have hz : ((p.teeth.toNat : ℕ) : ℝ) = p.teeth := by exact_mod_cast Int.toNat_of_nonneg h.teeth.le
  have h0 := range_rotate (fun i : ℕ => p.tooth (p.toothAngle * i)) p.teeth.toNat (by have := h.teeth; omega) (by
    simp only [Nat.cast_zero, mul_zero]
    rw [hz, Params.toothAngle, div_mul_cancel₀ _ hp, ← add_zero (2 * Real.pi), tooth_full])
  simp only [Nat.cast_zero, mul_zero] at h0
  unfold Params.outline
  rw [← h0, List.map_flatMap]
  congr 1
  funext i
  rw [tooth_turn]
  congr 1
  unfold Params.toothAngle
  push_cast
  ring

/-- C334: each tooth is its own mirror image: its second flank is the first flank reflected in the line through the centre and the middle of the tooth -/
theorem C334_mirror (p : Params) (t : ℝ) : p.flank2 t = (p.flank1 t).map (mirror (t + p.baseAngle / 2)) := by
  unfold Params.flank1 Params.flank2
  rw [List.map_map]
  congr 1
  funext i
  simp only [Function.comp]
  rw [mirror_eq, flip_turn, turn_turn]
  congr 1
  ring

/-! ## C335 -/

/-- C335: the points of the first flank of every tooth are on an involute: where the end of a string is that is unwound from the base circle; the angle unwound goes from 0, and the point is the farther from the centre the more is unwound. -/
theorem C335_involute (p : Params) (h : p.Good) (t : ℝ) (q : ℝ × ℝ) (hq : q ∈ p.flank1 t) : ∃ u, 0 ≤ u ∧ q = unwound p.baseR t u ∧ radius q = p.baseR * √(1 + u ^ 2) := by
  simp only [Params.flank1, List.mem_map, List.mem_range] at hq
  obtain ⟨i, hi, rfl⟩ := hq
  obtain ⟨h1, h2⟩ := flankR_mem h i hi
  refine ⟨Real.tan (Real.arccos (p.baseR / p.flankR i)), ?_, ?_, ?_⟩
  · apply Real.tan_nonneg_of_nonneg_of_le_pi_div_two (Real.arccos_nonneg _)
    rw [Real.arccos_le_pi_div_two]
    exact div_nonneg (base_pos h).le ((base_pos h).le.trans h1)
  · rw [involute_unwound p (base_pos h) h1, unwound_turn, add_zero]
  · rw [involute_unwound p (base_pos h) h1, unwound_turn]
    generalize Real.tan (Real.arccos (p.baseR / p.flankR i)) = u
    generalize t + 0 = s
    simp only [radius, unwound]
    rw [show (p.baseR * Real.cos (s + u) + p.baseR * u * Real.sin (s + u)) ^ 2 + (p.baseR * Real.sin (s + u) - p.baseR * u * Real.cos (s + u)) ^ 2 = p.baseR ^ 2 * (1 + u ^ 2) by
      linear_combination (p.baseR ^ 2 * (1 + u ^ 2)) * Real.sin_sq_add_cos_sq (s + u), Real.sqrt_mul (sq_nonneg _), Real.sqrt_sq (base_pos h).le]

/-- C335: the flanks begin on the base circle and end on the addendum circle -/
theorem C335_ends (p : Params) (h : p.Good) (t : ℝ) : (p.flank1 t).head? = some (polar p.baseR t) ∧ (p.flank1 t).getLast?.map radius = some p.addendumR ∧ ∀ q ∈ p.flank1 t ++ p.flank2 t, p.baseR ≤ radius q ∧ radius q ≤ p.addendumR := by
  have hb := base_pos h
  have hs := segments_ge h
  refine ⟨?_, ?_, ?_⟩
  · have h0 : p.flankR 0 = p.baseR := by rw [flankR_eq h]; simp
    simp only [Params.flank1, List.range_succ_eq_map, List.map_cons, List.head?_cons, h0]
    simp [Params.involute, div_self hb.ne', inv, turn_polar]
  · have h1 : p.flankR p.segments = p.addendumR := by
      have : (p.segments : ℝ) ≠ 0 := by exact_mod_cast (by omega : p.segments ≠ 0)
      rw [flankR_eq h, div_self this]
      ring
    simp only [Params.flank1, List.range_succ, List.map_append, List.map_cons, List.map_nil, List.getLast?_append, List.getLast?_singleton, Option.some_or, Option.map_some, h1]
    rw [radius_turn, radius_involute p (hb.trans (base_lt_addendum h)).le]
  · intro q hq
    simp only [Params.flank1, Params.flank2, List.mem_append, List.mem_map, List.mem_range] at hq
    rcases hq with ⟨i, hi, rfl⟩ | ⟨i, hi, rfl⟩
    · have := flankR_mem h i hi
      rw [radius_turn, radius_involute p (hb.le.trans this.1)]
      exact this
    · have := flankR_mem h i hi
      rw [radius_turn, radius_flip, radius_involute p (hb.le.trans this.1)]
      exact this

/-- C335: after the root comes the one flank, outwards from the base circle to the addendum circle, then the other one, inwards to the point of the base circle that is the tooth's width at the base further on -/
theorem C335_order (p : Params) (h : p.Good) (t : ℝ) : ∃ f g : List (ℝ × ℝ), p.tooth t = p.root t ++ f ++ g ∧
    f.head? = some (polar p.baseR t) ∧ (f.map radius).Pairwise (· < ·) ∧ f.getLast?.map radius = some p.addendumR ∧
    g.head?.map radius = some p.addendumR ∧ (g.map radius).Pairwise (· > ·) ∧ g.getLast? = some (polar p.baseR (t + p.baseAngle)) := by
  have hb := base_pos h
  have hs := segments_ge h
  have hl := base_lt_addendum h
  have hn : (0 : ℝ) < p.segments := by exact_mod_cast (by omega : 0 < p.segments)
  obtain ⟨e1, e2, -⟩ := C335_ends p h t
  have r1 : (p.flank1 t).map radius = (List.range (p.segments + 1)).map p.flankR := by
    simp only [Params.flank1, List.map_map]
    refine List.map_congr_left fun i hi => ?_
    simp only [Function.comp]
    rw [radius_turn, radius_involute p (hb.le.trans (flankR_mem h i (List.mem_range.1 hi)).1)]
  have r2 : (p.flank2 t).map radius = (List.range (p.segments + 1)).map p.flankR := by
    simp only [Params.flank2, List.map_map]
    refine List.map_congr_left fun i hi => ?_
    simp only [Function.comp]
    rw [radius_turn, radius_flip, radius_involute p (hb.le.trans (flankR_mem h i (List.mem_range.1 hi)).1)]
  have mono : ((List.range (p.segments + 1)).map p.flankR).Pairwise (· < ·) := by
    rw [List.pairwise_map]
    refine List.pairwise_lt_range.imp fun {i j} hij => ?_
    rw [flankR_eq h, flankR_eq h]
    have : (i : ℝ) / p.segments < j / p.segments := div_lt_div_of_pos_right (by exact_mod_cast hij) hn
    have := mul_lt_mul_of_pos_left this (sub_pos.2 hl)
    linarith
  have h0 : p.flankR 0 = p.baseR := by rw [flankR_eq h]; simp
  have h1 : p.flankR p.segments = p.addendumR := by rw [flankR_eq h, div_self hn.ne']; ring
  refine ⟨p.flank1 t, (p.flank2 t).reverse, rfl, e1, r1 ▸ mono, e2, ?_, ?_, ?_⟩
  · rw [List.head?_reverse, ← List.getLast?_map, r2, List.range_succ]
    simp [h1]
  · rw [List.map_reverse, List.pairwise_reverse, r2]
    exact mono
  · rw [List.getLast?_reverse]
    simp only [Params.flank2, List.range_succ_eq_map, List.map_cons, List.head?_cons, h0]
    simp [Params.involute, div_self hb.ne', inv, polar, turn, mul_comm]

/-! ## C336 -/

/-- the point of the first flank at the pitch circle: the flank is the involute turned, figgear.py:205-211 -/
theorem at_pitch (p : Params) (h : p.Good) : p.involute p.pitchR = polar p.pitchR (inv p.alpha) := by
  rw [Params.involute, arccos_pitch h]

/-- C336: where the pitch circle meets the involutes of a tooth: the second is the first turned by half of the angle of a tooth, and the first of the next tooth is the second turned by the same angle. So teeth and gaps are equally wide: π m / 2. -/
theorem C336_thickness (p : Params) (h : p.Good) (t : ℝ) :
    turn (t + p.baseAngle) ((p.involute p.pitchR).1, -(p.involute p.pitchR).2) = turn (Real.pi / p.teeth) (turn t (p.involute p.pitchR)) ∧
    turn (t + 2 * Real.pi / p.teeth) (p.involute p.pitchR) = turn (Real.pi / p.teeth) (turn (t + p.baseAngle) ((p.involute p.pitchR).1, -(p.involute p.pitchR).2)) ∧
    radius (p.involute p.pitchR) = p.teeth * p.module / 2 ∧ Real.pi / p.teeth * (p.teeth * p.module / 2) = Real.pi * p.module / 2 := by
  have hz := (teeth_pos h).ne'
  have hf : ((p.involute p.pitchR).1, -(p.involute p.pitchR).2) = polar p.pitchR (-inv p.alpha) := by
    rw [at_pitch p h]
    simp [polar]
  rw [hf, at_pitch p h, baseAngle_eq h]
  simp only [turn_polar]
  refine ⟨?_, ?_, ?_, ?_⟩
  · congr 1; ring
  · congr 1; ring
  · rw [radius_polar, abs_of_pos ((base_pos h).trans (base_lt_pitch h))]; rfl
  · field_simp

/-- C336: the involutes of successive teeth are π m cos α apart, measured along any line that touches the base circle: that is the same for all gears of equal module and pressure angle, so that they mesh. -/
theorem C336_mesh (p : Params) (h : p.Good) (t u : ℝ) :
    radius (unwound p.baseR t (u + 2 * Real.pi / p.teeth) - unwound p.baseR (t + 2 * Real.pi / p.teeth) u) = Real.pi * p.module * Real.cos p.alpha ∧
    (unwound p.baseR t (u + 2 * Real.pi / p.teeth) - unwound p.baseR (t + 2 * Real.pi / p.teeth) u).1 * Real.cos (t + 2 * Real.pi / p.teeth + u) +
      (unwound p.baseR t (u + 2 * Real.pi / p.teeth) - unwound p.baseR (t + 2 * Real.pi / p.teeth) u).2 * Real.sin (t + 2 * Real.pi / p.teeth + u) = 0 := by
  have hz := (teeth_pos h).ne'
  have e1 : t + (u + 2 * Real.pi / p.teeth) = t + 2 * Real.pi / p.teeth + u := by ring
  have e2 : p.baseR * (2 * Real.pi / p.teeth) = Real.pi * p.module * Real.cos p.alpha := by
    unfold Params.baseR
    field_simp
  simp only [unwound, e1, radius, Prod.fst_sub, Prod.snd_sub]
  generalize 2 * Real.pi / (p.teeth : ℝ) = d at *
  generalize t + d + u = s
  constructor
  · rw [← Real.sqrt_sq (show 0 ≤ Real.pi * p.module * Real.cos p.alpha from mul_nonneg (mul_nonneg Real.pi_pos.le h.module.le) (cos_pos h).le), ← e2]
    congr 1
    linear_combination (p.baseR ^ 2 * d ^ 2) * Real.sin_sq_add_cos_sq s
  · ring

/-! ## C337 -/

/-- C337 (the part that holds): with straight roots there are two points between teeth, both at the dedendum radius if that is not negative. Missing: splines dig deeper, gears of many teeth have points inside the dedendum circle, and those of one or two teeth have a negative dedendum radius. -/
theorem C337_root_partial (p : Params) (t : ℝ) (hs : p.spline = false) (hd : 0 ≤ p.dedendumR) :
    p.root t = [polar p.dedendumR (t - p.bottomAngle), polar p.dedendumR t] ∧ ∀ q ∈ p.root t, radius q = (p.teeth - 2.5) * p.module / 2 := by
  have h1 : p.root t = [polar p.dedendumR (t - p.bottomAngle), polar p.dedendumR t] := by
    simp only [Params.root, hs, turn_polar]
    simp [sub_eq_neg_add]
  refine ⟨h1, ?_⟩
  have h2 : (p.teeth - 2.5) * p.module / 2 = p.dedendumR := by unfold Params.dedendumR; ring
  rw [h1, h2]
  intro q hq
  simp only [List.mem_cons, List.not_mem_nil, or_false] at hq
  rcases hq with rfl | rfl <;> rw [radius_polar, abs_of_nonneg hd]

/-- C337 fails: if z (1 - cos α) > 2.5 (42 teeth or more at 20 degrees) every tooth has points inside the dedendum circle -/
theorem C337_below (p : Params) (h : p.Good) (hm : 2.5 < p.teeth * (1 - Real.cos p.alpha)) (t : ℝ) : ∃ q ∈ p.tooth t, radius q < p.dedendumR := by
  have h0 := (C335_ends p h t).1
  refine ⟨polar p.baseR t, ?_, ?_⟩
  · unfold Params.tooth
    rw [List.mem_append, List.mem_append]
    exact .inl (.inr (List.mem_of_mem_head? h0))
  · rw [radius_polar, abs_of_pos (base_pos h)]
    unfold Params.baseR Params.dedendumR
    nlinarith [h.module]

/-- C337: straight roots (and splines that are not divided) run from the end of the tooth before, a tooth's share of the circle back and the tooth's width at the base on, to the beginning of the tooth -/
theorem C337_root_place (p : Params) (t : ℝ) (h : p.spline = false ∨ p.division ≤ 1) :
    p.root t = [polar p.dedendumR (t - 2 * Real.pi / p.teeth + p.baseAngle), polar p.dedendumR t] := by
  have e : -p.bottomAngle + t = t - 2 * Real.pi / p.teeth + p.baseAngle := by
    unfold Params.bottomAngle Params.toothAngle; ring
  simp only [Params.root, turn_polar, e]
  rcases h with h | h <;> simp [h]

/-- C337: a spline root of `k + 1` parts has `k` points, those at the fractions `1 / (k + 1)`, ..., `k / (k + 1)` of the spline through the roots' ends with the ends of the flanks at the base circle as outer points -/
theorem C337_spline_points (p : Params) (t : ℝ) (k : ℕ) (hk : 1 ≤ k) (h : p.spline = true) (hd : p.division = (k : ℤ) + 1) :
    (p.root t).length = k ∧ ∀ (i : ℕ) (hi : i < (p.root t).length), (p.root t)[i] =
      catmull (polar p.baseR (t - 2 * Real.pi / p.teeth + p.baseAngle)) (polar p.dedendumR (t - 2 * Real.pi / p.teeth + p.baseAngle))
        (polar p.dedendumR t) (polar p.baseR t) (((i : ℝ) + 1) / ((k : ℝ) + 1)) := by
  have e : -p.bottomAngle + t = t - 2 * Real.pi / p.teeth + p.baseAngle := by
    unfold Params.bottomAngle Params.toothAngle; ring
  have hr : p.root t = (List.range k).map fun i : ℕ => catmull (polar p.baseR (t - 2 * Real.pi / p.teeth + p.baseAngle))
      (polar p.dedendumR (t - 2 * Real.pi / p.teeth + p.baseAngle)) (polar p.dedendumR t) (polar p.baseR t) (((i : ℝ) + 1) / ((k : ℝ) + 1)) := by
    have hn : ((k : ℤ) + 1).toNat - 1 = k := by omega
    simp only [Params.root, turn_polar, e, h, if_true, hd, hn]
    rw [if_neg (by omega)]
    push_cast
    rfl
  rw [hr]
  refine ⟨by simp, fun i hi => ?_⟩
  simp

/-- C337 fails: with one or two teeth the points of the root are on the far side of the centre -/
theorem C337_far (p : Params) (h : p.Good) (hz : p.teeth ≤ 2) (t : ℝ) : polar p.dedendumR t = polar |p.dedendumR| (t + Real.pi) ∧ p.dedendumR < 0 := by
  have h1 : p.dedendumR < 0 := by
    have : (p.teeth : ℝ) ≤ 2 := by exact_mod_cast hz
    have hm := h.module
    unfold Params.dedendumR
    nlinarith
  refine ⟨?_, h1⟩
  rw [abs_of_neg h1]
  simp [polar]

/-- C337 fails: with splines the middle of a root is deeper than the dedendum radius, by an eighth of the distance to the base circle at least -/
theorem C337_spline (p : Params) (h : p.Good) (hs : p.spline = true) (n : ℕ) (hn : 0 < n) (hd : p.division = 2 * n) (h0 : 0 < p.dedendumR) (hb : p.dedendumR < p.baseR) (h9 : p.baseR ≤ 9 * p.dedendumR) (t : ℝ) :
    ∃ q ∈ p.root t, radius q ≤ p.dedendumR - (p.baseR - p.dedendumR) / 8 := by
  refine ⟨catmull (turn (-p.bottomAngle) (polar p.baseR t)) (turn (-p.bottomAngle) (polar p.dedendumR t)) (polar p.dedendumR t) (polar p.baseR t) (1 / 2), ?_, ?_⟩
  · simp only [Params.root, hs, if_true]
    rw [if_neg (by omega), List.mem_map]
    refine ⟨n - 1, ?_, ?_⟩
    · rw [List.mem_range]; omega
    · congr 1
      have : ((n : ℕ) : ℝ) ≠ 0 := by exact_mod_cast hn.ne'
      rw [hd]
      push_cast [Nat.cast_sub (show 1 ≤ n from hn)]
      field_simp
      ring
  · simp only [turn_polar]
    have hm : ∀ a : ℝ, catmull (polar p.baseR (-a + t)) (polar p.dedendumR (-a + t)) (polar p.dedendumR t) (polar p.baseR t) (1 / 2) = polar ((9 * p.dedendumR - p.baseR) / 8 * Real.cos (a / 2)) (t - a / 2) := by
      intro a
      have e1 : -a + t = (t - a / 2) - a / 2 := by ring
      have e2 : t = (t - a / 2) + a / 2 := by ring
      generalize hs : t - a / 2 = s at *
      rw [e1]
      have e3 : t = s + a / 2 := by linarith
      rw [e3]
      simp only [catmull, cubic, polar, Real.cos_add, Real.sin_add, Real.cos_sub, Real.sin_sub, Prod.mk.injEq]
      constructor <;> ring
    rw [hm, radius_polar, abs_mul, abs_of_nonneg (by linarith)]
    have := mul_le_mul_of_nonneg_left (Real.abs_cos_le_one (p.bottomAngle / 2)) (show 0 ≤ (9 * p.dedendumR - p.baseR) / 8 by linarith)
    linarith

/-! ## C338 -/

theorem tan_gap {a b : ℝ} (ha : 0 ≤ a) (hab : a < b) (hb : b < Real.pi / 2) : inv a < inv b := by
  have h1 := Real.lt_tan (sub_pos.mpr hab) (by linarith)
  have ca : 0 < Real.cos a := Real.cos_pos_of_mem_Ioo ⟨by linarith [Real.pi_pos], by linarith⟩
  have cb : 0 < Real.cos b := Real.cos_pos_of_mem_Ioo ⟨by linarith [Real.pi_pos], hb⟩
  have cd : 0 < Real.cos (b - a) := Real.cos_pos_of_mem_Ioo ⟨by linarith [Real.pi_pos], by linarith⟩
  have ta := Real.tan_nonneg_of_nonneg_of_le_pi_div_two ha (by linarith)
  have tb := Real.tan_nonneg_of_nonneg_of_le_pi_div_two (ha.trans hab.le) hb.le
  have h2 : Real.tan b - Real.tan a = Real.tan (b - a) * (1 + Real.tan a * Real.tan b) := by
    have e : Real.sin (b - a) = Real.tan (b - a) * Real.cos (b - a) := (Real.tan_mul_cos cd.ne').symm
    have e' : Real.cos (b - a) = Real.cos a * Real.cos b * (1 + Real.tan a * Real.tan b) := by
      rw [Real.cos_sub, ← Real.tan_mul_cos ca.ne', ← Real.tan_mul_cos cb.ne']
      ring
    have e'' : Real.sin (b - a) = Real.cos a * Real.cos b * (Real.tan b - Real.tan a) := by
      rw [Real.sin_sub, ← Real.tan_mul_cos ca.ne', ← Real.tan_mul_cos cb.ne']
      ring
    have hc : Real.cos a * Real.cos b ≠ 0 := (mul_pos ca cb).ne'
    apply mul_left_cancel₀ hc
    rw [← e'', e, e']
    ring
  have h3 : 0 ≤ Real.tan (b - a) * (Real.tan a * Real.tan b) := mul_nonneg ((sub_pos.mpr hab).le.trans h1.le) (mul_nonneg ta tb)
  unfold inv
  nlinarith

/-- the angle of the involute grows with the distance -/
theorem involute_mono (p : Params) (hb : 0 < p.baseR) {r s : ℝ} (hr : p.baseR ≤ r) (hrs : r < s) : inv (Real.arccos (p.baseR / r)) < inv (Real.arccos (p.baseR / s)) := by
  have hr0 : 0 < r := hb.trans_le hr
  have hs0 : 0 < s := hr0.trans hrs
  apply tan_gap (Real.arccos_nonneg _)
  · apply Real.strictAntiOn_arccos
    · constructor
      · have : 0 < p.baseR / s := by positivity
        linarith
      · rw [div_le_one hs0]; linarith
    · constructor
      · have : 0 < p.baseR / r := by positivity
        linarith
      · rwa [div_le_one hr0]
    · exact div_lt_div_of_pos_left hb hr0 hrs
  · rw [Real.arccos_lt_pi_div_two]
    positivity

end Verif.Gear
