import Verif.Geom.Arc
import Verif.Geom.PolyProps

/-!
# Arcs: sampling, length, unsampling, boxes (C109 – C112)
-/

namespace Verif.Geom
open Real

/-- degrees to radians -/
noncomputable def deg (x : ℝ) : ℝ := x * (2 * π) / 360

theorem mod360_spec (x : ℝ) : 0 ≤ mod360 x ∧ mod360 x < 360 ∧ ∃ k : ℤ, mod360 x = x - 360 * k := by
  unfold mod360
  have h1 := Int.floor_le (x / 360)
  have h2 := Int.lt_floor_add_one (x / 360)
  have e : x / 360 * 360 = x := by ring
  refine ⟨?_, ?_, _, rfl⟩
  · nlinarith
  · nlinarith

theorem mod360_of_mem {x : ℝ} (h0 : 0 ≤ x) (h1 : x < 360) : mod360 x = x := by
  unfold mod360
  have : ⌊x / 360⌋ = 0 := Int.floor_eq_zero_iff.mpr ⟨by positivity, by rw [div_lt_one (by norm_num)]; exact h1⟩
  rw [this]; simp

theorem mod360_unique {x y : ℝ} (k : ℤ) (h0 : 0 ≤ y) (h1 : y < 360) (e : x = y + 360 * k) : mod360 x = y := by
  unfold mod360
  have : ⌊x / 360⌋ = k := by
    rw [Int.floor_eq_iff]
    constructor
    · rw [le_div_iff₀ (by norm_num)]; linarith
    · rw [div_lt_iff₀ (by norm_num)]; linarith
  rw [this]; linarith

theorem cos_deg_shift (x : ℝ) (k : ℤ) : cos (deg (x - 360 * k)) = cos (deg x) := by
  have : deg (x - 360 * k) = deg x - k * (2 * π) := by unfold deg; ring
  rw [this, cos_sub_int_mul_two_pi]

theorem sin_deg_shift (x : ℝ) (k : ℤ) : sin (deg (x - 360 * k)) = sin (deg x) := by
  have : deg (x - 360 * k) = deg x - k * (2 * π) := by unfold deg; ring
  rw [this, sin_sub_int_mul_two_pi]

theorem circlePoint_mod (p : V4) (r x : ℝ) : circlePoint p r (mod360 x) = circlePoint p r x := by
  obtain ⟨_, _, k, hk⟩ := mod360_spec x
  unfold circlePoint
  simp only
  rw [hk]
  have c := cos_deg_shift x k
  have s := sin_deg_shift x k
  unfold deg at c s
  rw [c, s]

/-- the point of the circle around `c` of radius `r` at `x` degrees -/
def AtAngle (c : V4) (r x : ℝ) (p : V4) : Prop :=
  p.x = c.x + r * cos (deg x) ∧ p.y = c.y + r * sin (deg x) ∧ p.z = c.z

theorem circlePoint_spec (c : V4) (r x : ℝ) : AtAngle c r x (circlePoint c r x) := by
  unfold AtAngle circlePoint add scale3 pt deg
  simp only
  exact ⟨by ring, by ring, by ring⟩

theorem span_mod (c : Arc) : ∃ k m : ℤ, (span c).1 = c.s - 360 * k ∧ (span c).2 = c.e - 360 * m := by
  unfold span
  split
  · obtain ⟨_, _, k, hk⟩ := mod360_spec c.s
    obtain ⟨_, _, m, hm⟩ := mod360_spec c.e
    simp only
    split
    · exact ⟨k, m - 1, hk, by rw [hm]; push_cast; ring⟩
    · exact ⟨k, m, hk, hm⟩
  · exact ⟨0, 0, by simp, by simp⟩

/-! ## C109 -/

/-- **C109** every sample of an arc lies on its circle, in the plane of its centre -/
theorem C109_on_circle (c : Arc) (u : ℝ) (p : V4) (h : samplearc c u = .ok p) :
    (p.x - c.c.x) ^ 2 + (p.y - c.c.y) ^ 2 = c.r ^ 2 ∧ p.z = c.c.z ∧ p.w = 1 := by
  unfold samplearc at h
  split at h
  · injection h with h
    subst h
    obtain ⟨h1, h2, h3⟩ := circlePoint_spec c.c c.r (sampleAngle c u)
    refine ⟨?_, h3, rfl⟩
    rw [h1, h2]
    have := sin_sq_add_cos_sq (deg (sampleAngle c u))
    linear_combination c.r ^ 2 * this
  · simp at h

theorem atAngle_congr {c : V4} {r x y : ℝ} {p : V4} (hc : cos (deg x) = cos (deg y)) (hs : sin (deg x) = sin (deg y))
    (h : AtAngle c r x p) : AtAngle c r y p := by
  unfold AtAngle at *
  rwa [← hc, ← hs]

/-- **C109** an arc begins at its start angle and ends at its end angle; a sample-reversed arc the
other way round -/
theorem C109_endpoints (c : Arc) (h : c.normal = none) :
    (∃ p, samplearc c 0 = .ok p ∧ AtAngle c.c c.r (if c.rev then c.e else c.s) p) ∧
    (∃ p, samplearc c 1 = .ok p ∧ AtAngle c.c c.r (if c.rev then c.s else c.e) p) := by
  have hn : normalOk c := by unfold normalOk; rw [h]; simp
  obtain ⟨k, m, hk, hm⟩ := span_mod c
  have key : ∀ v, (v = 0 ∨ v = 1) → AtAngle c.c c.r (if v = 0 then c.s else c.e)
      (circlePoint c.c c.r (mod360 (((span c).2 - (span c).1) * v + (span c).1))) := by
    intro v hv
    rw [circlePoint_mod]
    have := circlePoint_spec c.c c.r (((span c).2 - (span c).1) * v + (span c).1)
    rcases hv with rfl | rfl
    · rw [if_pos rfl]
      have e : ((span c).2 - (span c).1) * 0 + (span c).1 = c.s - 360 * k := by rw [hk]; ring
      rw [e] at this ⊢
      exact atAngle_congr (cos_deg_shift _ _) (sin_deg_shift _ _) this
    · rw [if_neg one_ne_zero]
      have e : ((span c).2 - (span c).1) * 1 + (span c).1 = c.e - 360 * m := by rw [hm]; ring
      rw [e] at this ⊢
      exact atAngle_congr (cos_deg_shift _ _) (sin_deg_shift _ _) this
  have k0 := key 0 (Or.inl rfl)
  have k1 := key 1 (Or.inr rfl)
  simp only [if_true, one_ne_zero, if_false] at k0 k1
  unfold samplearc
  simp only [if_pos hn, Except.ok.injEq, exists_eq_left']
  unfold sampleAngle
  cases hr : c.rev
  · exact ⟨by simpa using k0, by simpa using k1⟩
  · exact ⟨by simpa using k1, by simpa using k0⟩

/-- **C109** sampling a sample-reversed arc at `u` is sampling the arc at `1 - u` -/
theorem C109_reversed (c : Arc) (u : ℝ) (h : c.rev = false) :
    samplearc { c with rev := true } u = samplearc c (1 - u) := by
  unfold samplearc normalOk sampleAngle span
  simp [h]

/-! ## C110: length -/

/-- **C110** (arcs neither of whose special values 0 and 360 is used, and ordinary arcs
`0 ≤ start ≤ end ≤ 360`) sampling is uniform: the sample at `u` is `u` times the reported length
along the circle from the start -/
theorem C110_uniform_partial (c : Arc) (u : ℝ) (hn : c.normal = none) (hr : c.rev = false) (hpos : 0 < c.r)
    (h : (c.s ≠ 0 ∧ c.e ≠ 360) ∨ (0 ≤ c.s ∧ c.s ≤ c.e ∧ c.e ≤ 360)) :
    ∃ p, samplearc c u = .ok p ∧ AtAngle c.c c.r (c.s + u * (arclength c / c.r * 360 / (2 * π))) p := by
  have hno : normalOk c := by unfold normalOk; rw [hn]; simp
  have hlen : arclength c = (2 * π) * c.r * ((span c).2 - (span c).1) / 360 := by
    unfold arclength iscircle span
    by_cases h1 : c.s ≠ 0 ∧ c.e ≠ 360
    · rw [if_neg (by rintro ⟨a, _⟩; exact h1.1 a), if_pos h1]
      simp only
      by_cases h2 : mod360 c.e < mod360 c.s
      · rw [if_pos h2, if_pos h2]
      · rw [if_neg h2, if_neg h2]
    · rw [if_neg h1]
      obtain ⟨h0, hse, h36⟩ : 0 ≤ c.s ∧ c.s ≤ c.e ∧ c.e ≤ 360 := by
        rcases h with h | h
        · exact absurd h h1
        · exact h
      by_cases hc : c.s = 0 ∧ c.e = 360
      · rw [if_pos hc, hc.1, hc.2]; ring
      · rw [if_neg hc]
        simp only
        by_cases he : c.e = 360
        · have e0 : mod360 c.e = 0 := mod360_unique 1 (le_refl _) (by norm_num) (by rw [he]; norm_num)
          by_cases hs : c.s = 360
          · have s0 : mod360 c.s = 0 := mod360_unique 1 (le_refl _) (by norm_num) (by rw [hs]; norm_num)
            rw [e0, s0, hs, he]; simp
          · have hs0 : 0 < c.s := lt_of_le_of_ne h0 (fun h => hc ⟨h.symm, he⟩)
            rw [e0, mod360_of_mem h0 (lt_of_le_of_ne (by linarith) hs), if_pos hs0, he]; ring
        · have hl : c.e < 360 := lt_of_le_of_ne h36 he
          rw [mod360_of_mem h0 (by linarith), mod360_of_mem (by linarith) hl, if_neg (not_lt.mpr hse)]
  have hpi := Real.pi_pos
  have hsw : arclength c / c.r * 360 / (2 * π) = (span c).2 - (span c).1 := by
    rw [hlen]; field_simp
  rw [hsw]
  refine ⟨_, by unfold samplearc; rw [if_pos hno], ?_⟩
  unfold sampleAngle
  simp only [hr, Bool.false_eq_true, if_false]
  rw [circlePoint_mod]
  have := circlePoint_spec c.c c.r (((span c).2 - (span c).1) * u + (span c).1)
  obtain ⟨k, m, hk, hm⟩ := span_mod c
  have e : ((span c).2 - (span c).1) * u + (span c).1 = (c.s + u * ((span c).2 - (span c).1)) - 360 * k := by
    rw [hk]; ring
  rw [e] at this ⊢
  exact atAngle_congr (cos_deg_shift _ _) (sin_deg_shift _ _) this

/-- the hypotheses are met by a quarter circle and by an arc through 0° -/
example : (0 : ℝ) ≤ 0 ∧ (0 : ℝ) ≤ 90 ∧ (90 : ℝ) ≤ 360 ∧ ((350 : ℝ) ≠ 0 ∧ (10 : ℝ) ≠ 360) := by norm_num

/-- **C110 fails** for the arc from 0° to −90°: its reported length is that of 270° counterclockwise,
but it is sampled 90° clockwise -/
theorem C110_negative_end :
    arclength ⟨pt 0 0, 1, 0, -90, false, none⟩ = 3 * π / 2 ∧
    ∀ u, ∃ p, samplearc ⟨pt 0 0, 1, 0, -90, false, none⟩ u = .ok p ∧ AtAngle (pt 0 0) 1 (-90 * u) p := by
  constructor
  · unfold arclength iscircle
    rw [if_neg (by norm_num)]
    have e0 : mod360 0 = 0 := mod360_of_mem (le_refl _) (by norm_num)
    have e1 : mod360 (-90) = 270 := mod360_unique (-1) (by norm_num) (by norm_num) (by norm_num)
    simp only [e0, e1]
    rw [if_neg (by norm_num)]; ring
  · intro u
    refine ⟨_, by unfold samplearc; rw [if_pos (by intro n hn; simp at hn)], ?_⟩
    unfold sampleAngle
    simp only [Bool.false_eq_true, if_false]
    rw [circlePoint_mod]
    have : span ⟨pt 0 0, 1, 0, -90, false, none⟩ = (0, -90) := by
      unfold span; rw [if_neg (by norm_num)]
    rw [this]
    have e : ((-90 : ℝ) - 0) * u + 0 = -90 * u := by ring
    simp only [e]
    exact circlePoint_spec _ _ _

/-! ## C111: unsampling -/

theorem arg_deg (x : ℝ) : ∃ k : ℤ, atan2 (sin (deg x)) (cos (deg x)) = deg x - 2 * π * k := by
  have h : (⟨cos (deg x), sin (deg x)⟩ : ℂ) = Complex.cos (deg x) + Complex.sin (deg x) * Complex.I := by
    apply Complex.ext <;> simp [Complex.cos_ofReal_re, Complex.sin_ofReal_re]
  refine ⟨toIocDiv Real.two_pi_pos (-π) (deg x), ?_⟩
  unfold atan2
  rw [h, Complex.arg_cos_add_sin_mul_I_eq_toIocMod, toIocMod, zsmul_eq_mul]
  ring

theorem modTau_shift (x : ℝ) (k : ℤ) : modTau (x - 2 * π * k) = modTau x := by
  unfold modTau
  have hpi := Real.two_pi_pos
  have : (x - 2 * π * k) / (2 * π) = x / (2 * π) - k := by field_simp
  rw [this, Int.floor_sub_intCast]; push_cast; ring

theorem modTau_deg (x : ℝ) : modTau (deg x) * 360 / (2 * π) = mod360 x := by
  unfold modTau mod360 deg
  have hpi := Real.pi_pos
  have : x * (2 * π) / 360 / (2 * π) = x / 360 := by field_simp
  rw [this]; field_simp

theorem arg_scale (r x : ℝ) (hr : 0 < r) : modTau (atan2 (r * sin (deg x)) (r * cos (deg x))) * 360 / (2 * π) = mod360 x := by
  have : atan2 (r * sin (deg x)) (r * cos (deg x)) = atan2 (sin (deg x)) (cos (deg x)) := by
    unfold atan2
    have e : (⟨r * cos (deg x), r * sin (deg x)⟩ : ℂ) = (r : ℂ) * ⟨cos (deg x), sin (deg x)⟩ := by
      apply Complex.ext <;> simp
    rw [e, Complex.arg_real_mul _ hr]
  rw [this]
  obtain ⟨k, hk⟩ := arg_deg x
  rw [hk, modTau_shift, modTau_deg]

/-- what `unsamplearc` computes at the point of the circle at angle `x` -/
theorem unsample_at (c : Arc) (x : ℝ) (hn : c.normal = none) (hpos : 0 < c.r)
    (hs : eps ≤ |(span c).1 - (span c).2|) :
    unsamplearc c (circlePoint c.c c.r x) = .ok (some (
      let ang := if (span c).2 > 360 ∧ mod360 x ≤ (span c).2 - 360 then mod360 x + 360 else mod360 x
      let u := (ang - (span c).1) / ((span c).2 - (span c).1)
      if c.rev then 1 - u else u)) := by
  have hno : normalOk c := by unfold normalOk; rw [hn]; simp
  obtain ⟨h1, h2, h3⟩ := circlePoint_spec c.c c.r x
  have hx : (sub (circlePoint c.c c.r x) c.c).x = c.r * cos (deg x) := by unfold sub; simp only [h1]; ring
  have hy : (sub (circlePoint c.c c.r x) c.c).y = c.r * sin (deg x) := by unfold sub; simp only [h2]; ring
  have hz : (sub (circlePoint c.c c.r x) c.c).z = 0 := by unfold sub; simp only [h3]; ring
  have hm : mag (sub (circlePoint c.c c.r x) c.c) = c.r := by
    unfold mag
    rw [hx, hy, hz]
    have := sin_sq_add_cos_sq (deg x)
    rw [show c.r * cos (deg x) * (c.r * cos (deg x)) + c.r * sin (deg x) * (c.r * sin (deg x)) + 0 * 0 = c.r ^ 2 by
      linear_combination c.r ^ 2 * this, Real.sqrt_sq hpos.le]
  unfold unsamplearc
  simp only [hm, sub_self, abs_zero]
  rw [if_neg (by unfold close; exact not_lt.mpr hs), if_neg (not_not.mpr hno), if_neg (not_lt.mpr eps_pos.le)]
  rw [hx, hy, arg_scale _ _ hpos]

/-- the normalised angles of an arc that sweeps `w` degrees -/
theorem span_sweep (c : Arc) (w : ℝ) (k : ℤ) (hw0 : 0 ≤ w) (hw1 : w < 360)
    (hsp : (c.s ≠ 0 ∧ c.e ≠ 360) ∨ (c.s = 0 ∧ 0 ≤ c.e ∧ c.e < 360))
    (he : c.e = c.s + w + 360 * k) (hend : ∀ j : ℤ, c.e ≠ 360 * j) :
    span c = (mod360 c.s, mod360 c.s + w) := by
  obtain ⟨a1, a2, m, hm⟩ := mod360_spec c.s
  rcases hsp with h | ⟨h1, h2, h3⟩
  · unfold span
    rw [if_pos h]
    simp only
    by_cases hlt : mod360 c.s + w < 360
    · have e : mod360 c.e = mod360 c.s + w :=
        mod360_unique (k + m) (by linarith) hlt (by rw [he, hm]; push_cast; ring)
      rw [e, if_neg (by linarith)]
    · have hne : mod360 c.s + w ≠ 360 := by
        intro h'
        apply hend (k + m + 1)
        rw [he]; push_cast; linarith
      have hgt : 360 < mod360 c.s + w := lt_of_le_of_ne (not_lt.mp hlt) (Ne.symm hne)
      have e : mod360 c.e = mod360 c.s + w - 360 :=
        mod360_unique (k + m + 1) (by linarith) (by linarith) (by rw [he, hm]; push_cast; ring)
      rw [e, if_pos (by linarith)]
      congr 1; ring
  · unfold span
    rw [if_neg (by rintro ⟨a, _⟩; exact a h1)]
    have e : mod360 c.s = 0 := by rw [h1]; exact mod360_of_mem (le_refl _) (by norm_num)
    rw [e, h1]
    have : k = 0 := by
      rw [h1] at he
      have b1 : (k : ℝ) < 1 := by linarith
      have b2 : (-1 : ℝ) < k := by linarith
      have b1' : k < 1 := by exact_mod_cast b1
      have b2' : -1 < k := by exact_mod_cast b2
      omega
    subst this
    rw [h1] at he
    simp at he
    rw [he]; simp

/-- **C111** (arcs of less than a full turn that do not end at a multiple of 360°) unsampling a
sample gives back the parameter, for parameters in [0,1] -/
theorem C111_unsample_sample_partial (c : Arc) (w u : ℝ) (k : ℤ) (p : V4) (hn : c.normal = none)
    (hpos : 0 < c.r) (h0 : 0 ≤ u) (h1 : u ≤ 1) (hw0 : eps ≤ w) (hw1 : w < 360)
    (hsp : (c.s ≠ 0 ∧ c.e ≠ 360) ∨ (c.s = 0 ∧ 0 ≤ c.e ∧ c.e < 360))
    (he : c.e = c.s + w + 360 * k) (hend : ∀ j : ℤ, c.e ≠ 360 * j)
    (hs : samplearc c u = .ok p) : unsamplearc c p = .ok (some u) := by
  have hwp : 0 < w := lt_of_lt_of_le eps_pos hw0
  have hspan := span_sweep c w k hwp.le hw1 hsp he hend
  obtain ⟨a1, a2, m, hm⟩ := mod360_spec c.s
  have hno : normalOk c := by unfold normalOk; rw [hn]; simp
  unfold samplearc at hs
  rw [if_pos hno] at hs
  injection hs with hs
  subst hs
  have hne : mod360 c.s + w ≠ 360 := by
    intro h'
    apply hend (k + m + 1)
    rw [he]; push_cast; linarith
  -- the angle for an unreversed parameter
  have key : ∀ v, 0 ≤ v → v ≤ 1 →
      ((if (span c).2 > 360 ∧ mod360 (mod360 (((span c).2 - (span c).1) * v + (span c).1)) ≤ (span c).2 - 360
        then mod360 (mod360 (((span c).2 - (span c).1) * v + (span c).1)) + 360
        else mod360 (mod360 (((span c).2 - (span c).1) * v + (span c).1))) - (span c).1) /
        ((span c).2 - (span c).1) = v := by
    intro v hv0 hv1
    rw [hspan]
    simp only [add_sub_cancel_left]
    rw [div_eq_iff hwp.ne']
    have hb : mod360 (mod360 (w * v + mod360 c.s)) = mod360 (w * v + mod360 c.s) := by
      obtain ⟨x1, x2, _⟩ := mod360_spec (w * v + mod360 c.s)
      exact mod360_of_mem x1 x2
    rw [hb]
    have hwv : w * v ≤ w := by nlinarith
    have hwv0 : 0 ≤ w * v := by positivity
    by_cases hlt : w * v + mod360 c.s < 360
    · rw [mod360_of_mem (by linarith) hlt, if_neg]
      · ring
      · rintro ⟨_, h⟩; linarith
    · have hge := not_lt.mp hlt
      have e : mod360 (w * v + mod360 c.s) = w * v + mod360 c.s - 360 :=
        mod360_unique 1 (by linarith) (by linarith) (by push_cast; ring)
      rw [e, if_pos]
      · ring
      · constructor
        · exact lt_of_le_of_ne (by linarith) (Ne.symm hne)
        · linarith
  have hgap : eps ≤ |(span c).1 - (span c).2| := by
    rw [hspan]
    simp only
    rw [show mod360 c.s - (mod360 c.s + w) = -w by ring, abs_neg, abs_of_pos hwp]
    exact hw0
  rw [unsample_at c (sampleAngle c u) hn hpos hgap]
  unfold sampleAngle
  cases hr : c.rev
  · simp only [Bool.false_eq_true, if_false]
    rw [key u h0 h1]
  · simp only [if_true]
    rw [key (1 - u) (by linarith) (by linarith)]
    simp

/-- the hypotheses are met by the arc from 350° to 370° -/
example : ((350 : ℝ) ≠ 0 ∧ (370 : ℝ) ≠ 360) ∧ (370 : ℝ) = 350 + 20 + 360 * ((0 : ℤ) : ℝ) ∧
    ∀ j : ℤ, (370 : ℝ) ≠ 360 * j := by
  refine ⟨by norm_num, by norm_num, fun j h => ?_⟩
  have : (370 : ℤ) = 360 * j := by exact_mod_cast h
  omega

/-- **C111 fails** at the end of an arc that ends at 360°: the parameter of the end point of the
quarter circle from 270° to 360° comes out as −3 instead of 1 -/
theorem C111_end_at_360 : ∃ p, samplearc ⟨pt 0 0, 1, 270, 360, false, none⟩ 1 = .ok p ∧
    unsamplearc ⟨pt 0 0, 1, 270, 360, false, none⟩ p = .ok (some (-3)) := by
  have hsp : span ⟨pt 0 0, 1, 270, 360, false, none⟩ = (270, 360) := by
    unfold span; rw [if_neg (by norm_num)]
  refine ⟨_, by unfold samplearc; rw [if_pos (by intro n hn; simp at hn)], ?_⟩
  have := unsample_at ⟨pt 0 0, 1, 270, 360, false, none⟩
    (sampleAngle ⟨pt 0 0, 1, 270, 360, false, none⟩ 1) rfl (by norm_num)
    (by rw [hsp]; unfold eps; norm_num)
  rw [this, hsp]
  have e : sampleAngle ⟨pt 0 0, 1, 270, 360, false, none⟩ 1 = 0 := by
    unfold sampleAngle
    rw [hsp]
    simp only [Bool.false_eq_true, if_false]
    exact mod360_unique 1 (le_refl _) (by norm_num) (by norm_num)
  rw [e, mod360_of_mem (le_refl _) (by norm_num)]
  norm_num

/-! ## C112: boxes of arcs -/

/-- **C112** (full circles) the box contains every sample -/
theorem C112_circle_box_partial (c : Arc) (hc : iscircle c) (hpos : 0 ≤ c.r) :
    ∃ b, arcbbox c = .ok (some b) ∧ ∀ u p, samplearc c u = .ok p → InBox b.lo b.hi p := by
  refine ⟨_, by unfold arcbbox; rw [if_pos hc], fun u p hp => ?_⟩
  obtain ⟨h1, h2, _⟩ := C109_on_circle c u p hp
  have hx : |p.x - c.c.x| ≤ c.r := abs_le_of_sq_le_sq (by nlinarith [sq_nonneg (p.y - c.c.y)]) hpos
  have hy : |p.y - c.c.y| ≤ c.r := abs_le_of_sq_le_sq (by nlinarith [sq_nonneg (p.x - c.c.x)]) hpos
  rw [abs_le] at hx hy
  unfold InBox sub add pt
  simp only
  exact ⟨by linarith, by linarith, by linarith, by linarith, by linarith, by linarith⟩

/-- **C112 fails** for other arcs: the arc of radius 1 from 30° to 270° passes through (−1, 0), but its
box does not contain that point -/
theorem C112_arc_sticks_out : ∃ b p, arcbbox ⟨pt 0 0, 1, 30, 270, false, none⟩ = .ok (some b) ∧
    samplearc ⟨pt 0 0, 1, 30, 270, false, none⟩ 0.625 = .ok p ∧ Same3 p (pt (-1) 0) ∧
    ¬ isinsidebbox b p := by
  have hsp : span ⟨pt 0 0, 1, 30, 270, false, none⟩ = (30, 270) := by
    unfold span
    rw [if_pos (by norm_num)]
    simp only
    rw [mod360_of_mem (x := 30) (by norm_num) (by norm_num), mod360_of_mem (x := 270) (by norm_num) (by norm_num),
      if_neg (by norm_num)]
  have hang : ∀ u : ℝ, circlePoint (pt 0 0) 1 (sampleAngle ⟨pt 0 0, 1, 30, 270, false, none⟩ u) =
      circlePoint (pt 0 0) 1 (30 + 240 * u) := by
    intro u
    unfold sampleAngle
    rw [hsp]
    simp only [Bool.false_eq_true, if_false]
    rw [circlePoint_mod]; congr 1; ring
  have hb2 : 2 ≤ (List.map (fun i : ℝ => circlePoint (pt 0 0) 1
      (sampleAngle ⟨pt 0 0, 1, 30, 270, false, none⟩ (i / 4))) [0, 1, 2, 3, 4]).length := by simp
  obtain ⟨b, hb, _, _, _, htight⟩ := C40_tight _ hb2
  refine ⟨b, circlePoint (pt 0 0) 1 (30 + 240 * 0.625), ?_, ?_, ?_, ?_⟩
  · unfold arcbbox iscircle
    rw [if_neg (by norm_num), if_pos (by intro n hn; simp at hn)]
    exact congrArg _ hb
  · unfold samplearc
    rw [if_pos (by intro n hn; simp at hn), hang]
  · obtain ⟨h1, h2, h3⟩ := circlePoint_spec (pt 0 0) 1 (30 + 240 * 0.625)
    have e : deg (30 + 240 * 0.625) = π := by unfold deg; ring
    rw [e, cos_pi] at h1
    rw [e, sin_pi] at h2
    unfold Same3 pt at *
    exact ⟨by rw [h1]; norm_num, by rw [h2]; norm_num, by rw [h3]⟩
  · have hx : (circlePoint (pt 0 0) 1 (30 + 240 * 0.625)).x = -1 := by
      obtain ⟨h1, _, _⟩ := circlePoint_spec (pt 0 0) 1 (30 + 240 * 0.625)
      have e : deg (30 + 240 * 0.625) = π := by unfold deg; ring
      rw [e, cos_pi] at h1
      rw [h1]; unfold pt; norm_num
    rintro ⟨hlo, _⟩
    rw [hx] at hlo
    -- all five samples have x ≥ -√3/2
    have h3 : √3 / 2 < 1 := by
      rw [div_lt_one (by norm_num)]
      rw [Real.sqrt_lt' (by norm_num)]; norm_num
    have hc30 : cos (π / 6) = √3 / 2 := cos_pi_div_six
    have key := (htight ⟨-(√3 / 2), -1, 0, 1⟩ ⟨1, 1, 0, 1⟩ (by
      intro q hq
      simp only [List.mem_map, List.mem_cons, List.not_mem_nil, or_false] at hq
      obtain ⟨i, hi, rfl⟩ := hq
      rw [hang]
      obtain ⟨h1, h2, h4⟩ := circlePoint_spec (pt 0 0) 1 (30 + 240 * (i / 4))
      have hxx : -(√3 / 2) ≤ cos (deg (30 + 240 * (i / 4))) := by
        have h30 : 0 ≤ √3 / 2 := by positivity
        rcases hi with rfl | rfl | rfl | rfl | rfl
        · rw [show deg (30 + 240 * (0 / 4)) = π / 6 by unfold deg; ring, hc30]; linarith
        · rw [show deg (30 + 240 * (1 / 4)) = π / 2 by unfold deg; ring, cos_pi_div_two]; linarith
        · rw [show deg (30 + 240 * (2 / 4)) = π - π / 6 by unfold deg; ring, cos_pi_sub, hc30]
        · rw [show deg (30 + 240 * (3 / 4)) = π / 6 + π by unfold deg; ring, cos_add_pi, hc30]
        · rw [show deg (30 + 240 * (4 / 4)) = π / 2 + π by unfold deg; ring, cos_add_pi, cos_pi_div_two]; linarith
      unfold InBox
      rw [h1, h2, h4]
      have c1 := cos_le_one (deg (30 + 240 * (i / 4)))
      have s1 := sin_le_one (deg (30 + 240 * (i / 4)))
      have s2 := neg_one_le_sin (deg (30 + 240 * (i / 4)))
      unfold pt
      simp only
      exact ⟨by linarith, by linarith, by linarith, by linarith, by linarith, by linarith⟩)).1.1
    simp only at key
    linarith

end Verif.Geom
