import Verif.Geom.Spec
import Mathlib.Tactic.Linarith

/-!
# Straight lines: sampling, unsampling, intersection (C39, C41, C105, C106)
-/

namespace Verif.Geom

theorem dist_sq (a b : V4) : dist a b ^ 2 = sqDist a b := by
  unfold dist mag sub sqDist
  rw [Real.sq_sqrt (by nlinarith [mul_self_nonneg (a.x - b.x), mul_self_nonneg (a.y - b.y), mul_self_nonneg (a.z - b.z)])]
  ring

theorem mag_nonneg (a : V4) : 0 ≤ mag a := Real.sqrt_nonneg _
theorem dist_nonneg (a b : V4) : 0 ≤ dist a b := mag_nonneg _

theorem sqDist_nonneg (a b : V4) : 0 ≤ sqDist a b := by
  unfold sqDist; positivity

theorem dist_eq_sqrt (a b : V4) : dist a b = √(sqDist a b) := by
  rw [← dist_sq, Real.sqrt_sq (dist_nonneg a b)]

theorem dist_eq_zero (a b : V4) : dist a b = 0 ↔ Same3 a b := by
  rw [dist_eq_sqrt, Real.sqrt_eq_zero (sqDist_nonneg a b)]
  unfold sqDist Same3
  constructor
  · intro h
    have h1 := sq_nonneg (a.x - b.x)
    have h2 := sq_nonneg (a.y - b.y)
    have h3 := sq_nonneg (a.z - b.z)
    refine ⟨?_, ?_, ?_⟩
    · have : (a.x - b.x) ^ 2 = 0 := by linarith
      have := pow_eq_zero_iff (two_ne_zero) |>.mp this; linarith
    · have : (a.y - b.y) ^ 2 = 0 := by linarith
      have := pow_eq_zero_iff (two_ne_zero) |>.mp this; linarith
    · have : (a.z - b.z) ^ 2 = 0 := by linarith
      have := pow_eq_zero_iff (two_ne_zero) |>.mp this; linarith
  · rintro ⟨h1, h2, h3⟩
    rw [h1, h2, h3]; ring

theorem eps_pos : 0 < eps := by unfold eps; norm_num

theorem mag_scale (v : V4) (c : ℝ) : mag (scale3 v c) = |c| * mag v := by
  unfold mag scale3
  simp only
  rw [← Real.sqrt_sq_eq_abs, ← Real.sqrt_mul (sq_nonneg c)]
  congr 1; ring

/-! ## C39 -/

/-- sampling gives the point with that parameter, for every parameter -/
theorem C39_sample (l : Line) (u : ℝ) :
    AtParam l.a l.b u (sampleline l u) ∧ (sampleline l u).w = 1 := by
  unfold AtParam sampleline add scale3
  simp only
  exact ⟨⟨by ring, by ring, by ring⟩, trivial⟩

theorem sub_sample (l : Line) (u : ℝ) : sub (sampleline l u) l.a = scale3 (sub l.b l.a) u := by
  unfold sub sampleline add scale3
  ext <;> simp only <;> ring

/-- **C39** unsampling a sampled point of a non-degenerate line gives back the parameter, for every
real parameter (inside or outside the segment) -/
theorem C39_unsample_sample (l : Line) (u : ℝ) (hl : ¬ Same3 l.a l.b) :
    unsampleline l (sampleline l u) = .ok (some u) := by
  have hm : mag (sub l.b l.a) ≠ 0 := by
    intro h
    have : dist l.b l.a = 0 := h
    rw [dist_eq_zero] at this
    exact hl ⟨this.1.symm, this.2.1.symm, this.2.2.symm⟩
  have hpos : 0 < mag (sub l.b l.a) := lt_of_le_of_ne (mag_nonneg _) (Ne.symm hm)
  unfold unsampleline
  rw [sub_sample]
  have hc : mag (cross (sub l.b l.a) (scale3 (sub l.b l.a) u)) = 0 := by
    unfold mag cross scale3
    rw [Real.sqrt_eq_zero']
    apply le_of_eq; simp only; ring
  have hd : dot (sub l.b l.a) (scale3 (sub l.b l.a) u) = u * mag (sub l.b l.a) ^ 2 := by
    unfold mag dot scale3
    rw [Real.sq_sqrt (by nlinarith [mul_self_nonneg (sub l.b l.a).x, mul_self_nonneg (sub l.b l.a).y, mul_self_nonneg (sub l.b l.a).z])]
    simp only; ring
  simp only [hc, hd, mag_scale]
  rw [if_neg (not_lt.mpr eps_pos.le), if_neg hm]
  by_cases hu : 0 < u
  · rw [if_pos (by positivity), abs_of_pos hu, mul_div_cancel_right₀ _ hm]
  · rw [if_neg, abs_of_nonpos (not_lt.mp hu), ← neg_mul, neg_neg, mul_div_cancel_right₀ _ hm]
    intro h
    exact hu (pos_of_mul_pos_of_pos_right h (by positivity))
where
  pos_of_mul_pos_of_pos_right {a b : ℝ} (h : a * b > 0) (hb : 0 < b) : 0 < a := by
    by_contra hn
    have := mul_nonpos_of_nonpos_of_nonneg (not_lt.mp hn) hb.le
    linarith

example : ¬ Same3 (⟨pt 0 0, pt 3 4⟩ : Line).a (⟨pt 0 0, pt 3 4⟩ : Line).b := by
  unfold Same3 pt; norm_num

/-- unsampling a degenerate line raises `ZeroDivisionError`, at every point -/
theorem C39_degenerate (l : Line) (p : V4) (hl : Same3 l.a l.b) :
    unsampleline l p = .error .zeroDivision := by
  obtain ⟨h1, h2, h3⟩ := hl
  have hm : mag (sub l.b l.a) = 0 := by
    have := (dist_eq_zero l.b l.a).mpr ⟨h1.symm, h2.symm, h3.symm⟩
    exact this
  have hc : mag (cross (sub l.b l.a) (sub p l.a)) = 0 := by
    unfold mag cross sub
    rw [Real.sqrt_eq_zero']
    apply le_of_eq; simp only [h1, h2, h3]; ring
  unfold unsampleline
  simp only [hc, hm]
  rw [if_neg (not_lt.mpr eps_pos.le)]
  simp

/-- **C39** a segment sampled at `t` is the line sampled at `u1 + t (u2 - u1)` -/
theorem C39_segment (l : Line) (u1 u2 t : ℝ) :
    sampleline (segmentline l u1 u2) t = sampleline l (u1 + t * (u2 - u1)) := by
  unfold sampleline segmentline sampleline add scale3
  ext <;> simp only <;> ring

/-- the endpoints and the midpoint -/
theorem C39_endpoints (l : Line) :
    Same3 (sampleline l 0) l.a ∧ Same3 (sampleline l 1) l.b ∧ linecenter l = sampleline l 0.5 := by
  refine ⟨?_, ?_, ?_⟩
  · unfold Same3 sampleline add scale3; simp
  · unfold Same3 sampleline add scale3; simp
  · unfold linecenter sampleline add scale3
    ext <;> simp only <;> ring

/-- the parameter is proportional to the distance from the start -/
theorem C39_arclength (l : Line) (u v : ℝ) :
    dist (sampleline l u) (sampleline l v) = |u - v| * linelength l := by
  have : sub (sampleline l u) (sampleline l v) = scale3 (sub l.a l.b) (v - u) := by
    unfold sub sampleline add scale3
    ext <;> simp only <;> ring
  unfold dist
  rw [this, mag_scale, abs_sub_comm]
  rfl

/-! ## C105: does unsampling report only points near the line? -/

/-- **C105** (holds when the line is at least one unit long) if `unsampleline` returns a parameter
the point is within `epsilon` of the line -/
theorem C105_unsample_near_partial (l : Line) (p : V4) (u : ℝ) (hlen : 1 ≤ linelength l)
    (h : unsampleline l p = .ok (some u)) :
    ∃ t q, AtParam l.a l.b t q ∧ sqDist p q ≤ eps ^ 2 := by
  -- `q` is the foot of the perpendicular
  set L2 := sqDist l.a l.b with hL2
  have hL : 1 ≤ L2 := by
    have := dist_sq l.a l.b
    have h1 : 1 ≤ dist l.a l.b := hlen
    rw [hL2, ← this]; nlinarith
  have hL0 : L2 ≠ 0 := by linarith
  have hcr : mag (cross (sub l.b l.a) (sub p l.a)) ≤ eps := by
    unfold unsampleline at h
    by_contra hn
    rw [if_pos (not_le.mp hn)] at h
    simp at h
  have hcr2 : mag (cross (sub l.b l.a) (sub p l.a)) ^ 2 ≤ eps ^ 2 :=
    pow_le_pow_left₀ (mag_nonneg _) hcr 2
  rw [mag, Real.sq_sqrt (by
    nlinarith [mul_self_nonneg (cross (sub l.b l.a) (sub p l.a)).x,
      mul_self_nonneg (cross (sub l.b l.a) (sub p l.a)).y,
      mul_self_nonneg (cross (sub l.b l.a) (sub p l.a)).z])] at hcr2
  set t := ((p.x - l.a.x) * (l.b.x - l.a.x) + (p.y - l.a.y) * (l.b.y - l.a.y) +
    (p.z - l.a.z) * (l.b.z - l.a.z)) / L2 with ht
  refine ⟨t, ⟨l.a.x + t * (l.b.x - l.a.x), l.a.y + t * (l.b.y - l.a.y),
    l.a.z + t * (l.b.z - l.a.z), 1⟩, ⟨rfl, rfl, rfl⟩, ?_⟩
  have key : sqDist p ⟨l.a.x + t * (l.b.x - l.a.x), l.a.y + t * (l.b.y - l.a.y),
      l.a.z + t * (l.b.z - l.a.z), 1⟩ * L2 =
      (cross (sub l.b l.a) (sub p l.a)).x * (cross (sub l.b l.a) (sub p l.a)).x +
      (cross (sub l.b l.a) (sub p l.a)).y * (cross (sub l.b l.a) (sub p l.a)).y +
      (cross (sub l.b l.a) (sub p l.a)).z * (cross (sub l.b l.a) (sub p l.a)).z := by
    have htl : t * L2 = (p.x - l.a.x) * (l.b.x - l.a.x) + (p.y - l.a.y) * (l.b.y - l.a.y) +
      (p.z - l.a.z) * (l.b.z - l.a.z) := by rw [ht]; field_simp
    have h2 : L2 = (l.b.x - l.a.x) ^ 2 + (l.b.y - l.a.y) ^ 2 + (l.b.z - l.a.z) ^ 2 := by
      rw [hL2]; unfold sqDist; ring
    unfold sqDist cross sub
    simp only
    generalize l.b.x - l.a.x = bx at *
    generalize l.b.y - l.a.y = by' at *
    generalize l.b.z - l.a.z = bz at *
    have ex : p.x - (l.a.x + t * bx) = (p.x - l.a.x) - t * bx := by ring
    have ey : p.y - (l.a.y + t * by') = (p.y - l.a.y) - t * by' := by ring
    have ez : p.z - (l.a.z + t * bz) = (p.z - l.a.z) - t * bz := by ring
    rw [ex, ey, ez]
    generalize p.x - l.a.x = px at *
    generalize p.y - l.a.y = py at *
    generalize p.z - l.a.z = pz at *
    rw [h2] at htl ⊢
    linear_combination (t * (bx ^ 2 + by' ^ 2 + bz ^ 2) - (px * bx + py * by' + pz * bz)) * htl
  have h0 := sqDist_nonneg p ⟨l.a.x + t * (l.b.x - l.a.x), l.a.y + t * (l.b.y - l.a.y),
      l.a.z + t * (l.b.z - l.a.z), 1⟩
  nlinarith

/-- the hypotheses are met: a point two millionths off a line of length 2 -/
example : 1 ≤ linelength ⟨pt 0 0, pt 2 0⟩ ∧
    ∃ u, unsampleline ⟨pt 0 0, pt 2 0⟩ (pt 1 0.000002) = .ok (some u) := by
  have h2 : mag (sub (pt 2 0) (pt 0 0)) = 2 := by
    unfold mag sub pt
    rw [show ((2 : ℝ) - 0) * (2 - 0) + (0 - 0) * (0 - 0) + (0 - 0) * (0 - 0) = 2 ^ 2 by norm_num,
      Real.sqrt_sq (by norm_num)]
  have hc : mag (cross (sub (pt 2 0) (pt 0 0)) (sub (pt 1 0.000002) (pt 0 0))) = 0.000004 := by
    unfold mag sub pt cross
    simp only
    rw [show ((0:ℝ) - 0) * (0 - 0) - (0 - 0) * (0.000002 - 0) = 0 by norm_num]
    rw [show ((0:ℝ) - 0) * (1 - 0) - (2 - 0) * (0 - 0) = 0 by norm_num]
    rw [show ((2:ℝ) - 0) * (0.000002 - 0) - (0 - 0) * (1 - 0) = 0.000004 by norm_num]
    rw [show (0:ℝ) * 0 + 0 * 0 + 0.000004 * 0.000004 = 0.000004 ^ 2 by norm_num,
      Real.sqrt_sq (by norm_num)]
  constructor
  · unfold linelength
    have : dist (pt 0 0) (pt 2 0) = dist (pt 2 0) (pt 0 0) := by
      unfold dist mag sub; congr 1; ring
    rw [this]; unfold dist; rw [h2]; norm_num
  · unfold unsampleline
    simp only [hc, h2]
    rw [if_neg (by unfold eps; norm_num), if_neg (by norm_num)]
    split
    · exact ⟨_, rfl⟩
    · exact ⟨_, rfl⟩

/-- **C105 fails** for short lines: a point 0.004 away from every point of the line (800 times
`epsilon`) is given a parameter, far outside the segment -/
theorem C105_short_line_accepts_far_point :
    unsampleline ⟨pt 0 0, pt 0.001 0⟩ (pt 0 0.004) = .ok (some (-4)) ∧
    ∀ t q, AtParam (pt 0 0) (pt 0.001 0) t q → (800 * eps) ^ 2 ≤ sqDist (pt 0 0.004) q := by
  constructor
  · have h1 : mag (sub (pt 0.001 0) (pt 0 0)) = 0.001 := by
      unfold mag sub pt
      simp only
      rw [show ((0.001 : ℝ) - 0) * (0.001 - 0) + (0 - 0) * (0 - 0) + (0 - 0) * (0 - 0) = 0.001 ^ 2 by norm_num,
        Real.sqrt_sq (by norm_num)]
    have h2 : mag (sub (pt 0 0.004) (pt 0 0)) = 0.004 := by
      unfold mag sub pt
      simp only
      rw [show ((0 : ℝ) - 0) * (0 - 0) + (0.004 - 0) * (0.004 - 0) + (0 - 0) * (0 - 0) = 0.004 ^ 2 by norm_num,
        Real.sqrt_sq (by norm_num)]
    have hc : mag (cross (sub (pt 0.001 0) (pt 0 0)) (sub (pt 0 0.004) (pt 0 0))) = 0.000004 := by
      unfold mag sub pt cross
      simp only
      rw [show ((0:ℝ) - 0) * (0 - 0) - (0 - 0) * (0.004 - 0) = 0 by norm_num]
      rw [show ((0:ℝ) - 0) * (0 - 0) - (0.001 - 0) * (0 - 0) = 0 by norm_num]
      rw [show ((0.001:ℝ) - 0) * (0.004 - 0) - (0 - 0) * (0 - 0) = 0.000004 by norm_num]
      rw [show (0:ℝ) * 0 + 0 * 0 + 0.000004 * 0.000004 = 0.000004 ^ 2 by norm_num,
        Real.sqrt_sq (by norm_num)]
    unfold unsampleline
    simp only [h1, h2, hc]
    rw [if_neg (by unfold eps; norm_num), if_neg (by norm_num), if_neg (by unfold dot sub pt; norm_num)]
    norm_num
  · rintro t q ⟨hx, hy, _⟩
    unfold sqDist eps
    have : q.y = 0 := by rw [hy]; unfold pt; norm_num
    rw [this]
    unfold pt
    simp only
    nlinarith [sq_nonneg ((0:ℝ) - q.x), sq_nonneg ((0:ℝ) - q.z)]

/-! ## C41 -/

/-- the algebra behind `lineLineIntersectXY` -/
theorem ll_common (l1 l2 : Line) (hd : llDenom l1 l2 ≠ 0) :
    l1.a.x + llT l1 l2 * (l1.b.x - l1.a.x) = l2.a.x + llU l1 l2 * (l2.b.x - l2.a.x) ∧
    l1.a.y + llT l1 l2 * (l1.b.y - l1.a.y) = l2.a.y + llU l1 l2 * (l2.b.y - l2.a.y) := by
  unfold llT llU
  constructor
  · field_simp
    unfold llDenom; ring
  · field_simp
    unfold llDenom; ring

theorem denom_ne {l1 l2 : Line} (h : ¬ llDenom l1 l2 * llDenom l1 l2 < eps) : llDenom l1 l2 ≠ 0 := by
  intro h0; rw [h0] at h; exact h (by simpa using eps_pos)

/-- **C41** a returned point lies on both lines; with `inside=True` it lies on both segments -/
theorem C41_on_both (l1 l2 : Line) (inside : Bool) (p : V4)
    (h : lineLineIntersectXY l1 l2 inside = .ok (some p)) :
    ∃ t u, AtParamXY l1.a l1.b t p ∧ AtParamXY l2.a l2.b u p ∧ p.z = l1.a.z ∧ p.w = 1 ∧
      (inside = true → 0 ≤ t ∧ t ≤ 1 ∧ 0 ≤ u ∧ u ≤ 1) := by
  unfold lineLineIntersectXY at h
  split at h
  · split at h
    · simp at h
    · rename_i hd
      simp only at h
      split at h
      · simp at h
      · rename_i hin
        simp only [Except.ok.injEq, Option.some.injEq] at h
        have hc := ll_common l1 l2 (denom_ne hd)
        refine ⟨llT l1 l2, llU l1 l2, ?_, ?_, ?_, ?_, ?_⟩
        · subst h; exact ⟨rfl, rfl⟩
        · subst h; exact hc
        · subst h; rfl
        · subst h; rfl
        · intro hi
          simp only [hi, true_and] at hin
          push Not at hin
          exact ⟨hin.1, hin.2.1, hin.2.2.1, hin.2.2.2⟩
  · simp at h

/-- **C41** the parameters returned with `params=True` sample, on the two lines, to the same plane
point, which is the point returned with `inside=False` -/
theorem C41_params (l1 l2 : Line) (t u : ℝ) (h : lineLineParams l1 l2 = .ok (some (t, u))) :
    SameXY (sampleline l1 t) (sampleline l2 u) ∧
    ∃ p, lineLineIntersectXY l1 l2 false = .ok (some p) ∧ SameXY p (sampleline l1 t) := by
  unfold lineLineParams at h
  split at h
  · rename_i hp
    split at h
    · simp at h
    · rename_i hd
      simp only [Except.ok.injEq, Option.some.injEq, Prod.mk.injEq] at h
      obtain ⟨rfl, rfl⟩ := h
      have hc := ll_common l1 l2 (denom_ne hd)
      have s1 := (C39_sample l1 (llT l1 l2)).1
      have s2 := (C39_sample l2 (llU l1 l2)).1
      refine ⟨⟨?_, ?_⟩, ?_⟩
      · rw [s1.1, s2.1]; exact hc.1
      · rw [s1.2.1, s2.2.1]; exact hc.2
      · unfold lineLineIntersectXY
        rw [if_pos hp, if_neg hd]
        refine ⟨⟨l1.a.x + llT l1 l2 * (l1.b.x - l1.a.x), l1.a.y + llT l1 l2 * (l1.b.y - l1.a.y),
          l1.a.z, 1⟩, ?_, s1.1.symm, s1.2.1.symm⟩
        simp
  · simp at h

/-- **C41** completeness: when two coplanar lines share the point with parameters `t` and `u` and
the determinant of their directions is at least √epsilon in size, exactly that point is returned
(with `inside=True`, when it lies on both segments) and exactly these parameters -/
theorem C41_complete (l1 l2 : Line) (inside : Bool) (t u : ℝ) (q : V4)
    (hz : |l1.b.z - l1.a.z| ≤ eps ∧ |l2.a.z - l1.a.z| ≤ eps ∧ |l2.b.z - l1.a.z| ≤ eps)
    (hd : eps ≤ ((l1.b.x - l1.a.x) * (l2.b.y - l2.a.y) - (l1.b.y - l1.a.y) * (l2.b.x - l2.a.x)) ^ 2)
    (h1 : AtParamXY l1.a l1.b t q) (h2 : AtParamXY l2.a l2.b u q)
    (hin : inside = true → 0 ≤ t ∧ t ≤ 1 ∧ 0 ≤ u ∧ u ≤ 1) :
    lineLineParams l1 l2 = .ok (some (t, u)) ∧
    lineLineIntersectXY l1 l2 inside = .ok (some ⟨q.x, q.y, l1.a.z, 1⟩) := by
  have hp : llPlanar l1 l2 := by
    unfold llPlanar; push Not; exact hz
  have hde : llDenom l1 l2 =
      (l1.b.x - l1.a.x) * (l2.b.y - l2.a.y) - (l1.b.y - l1.a.y) * (l2.b.x - l2.a.x) := by
    unfold llDenom; ring
  have hnd : ¬ llDenom l1 l2 * llDenom l1 l2 < eps := by
    rw [hde, ← sq]; exact not_lt.mpr hd
  have hne := denom_ne hnd
  have ex : l1.a.x + t * (l1.b.x - l1.a.x) = l2.a.x + u * (l2.b.x - l2.a.x) := by rw [← h1.1, h2.1]
  have ey : l1.a.y + t * (l1.b.y - l1.a.y) = l2.a.y + u * (l2.b.y - l2.a.y) := by rw [← h1.2, h2.2]
  have ht : llT l1 l2 = t := by
    unfold llT
    rw [div_eq_iff hne]
    unfold llDenom
    linear_combination (-(l2.b.y - l2.a.y)) * ex + (l2.b.x - l2.a.x) * ey
  have hu : llU l1 l2 = u := by
    unfold llU
    rw [div_eq_iff hne]
    unfold llDenom
    linear_combination (-(l1.b.y - l1.a.y)) * ex + (l1.b.x - l1.a.x) * ey
  constructor
  · unfold lineLineParams
    rw [if_pos hp, if_neg hnd, ht, hu]
  · unfold lineLineIntersectXY
    rw [if_pos hp, if_neg hnd]
    simp only [ht, hu]
    rw [if_neg]
    · rw [← h1.1, ← h1.2]
    · rintro ⟨hi, hb⟩
      obtain ⟨a, b, c, d⟩ := hin hi
      rcases hb with hb | hb | hb | hb <;> linarith

/-- the hypotheses are met by the diagonals of a square -/
example : ∃ t u q, AtParamXY (pt 0 0) (pt 2 2) t q ∧ AtParamXY (pt 0 2) (pt 2 0) u q ∧
    (0 ≤ t ∧ t ≤ 1 ∧ 0 ≤ u ∧ u ≤ 1) ∧
    lineLineIntersectXY ⟨pt 0 0, pt 2 2⟩ ⟨pt 0 2, pt 2 0⟩ = .ok (some (pt 1 1)) := by
  refine ⟨1/2, 1/2, pt 1 1, ?_, ?_, by norm_num, ?_⟩
  · unfold AtParamXY pt; norm_num
  · unfold AtParamXY pt; norm_num
  · have := (C41_complete ⟨pt 0 0, pt 2 2⟩ ⟨pt 0 2, pt 2 0⟩ true (1/2) (1/2) (pt 1 1)
      (by unfold pt eps; norm_num) (by unfold pt eps; norm_num)
      (by unfold AtParamXY pt; norm_num) (by unfold AtParamXY pt; norm_num) (by norm_num)).2
    simpa [pt] using this

/-- **C41** `False` means there is no common point of the segments, or the determinant of the
directions is below √epsilon -/
theorem C41_none (l1 l2 : Line) (h : lineLineIntersectXY l1 l2 true = .ok none) :
    ((l1.b.x - l1.a.x) * (l2.b.y - l2.a.y) - (l1.b.y - l1.a.y) * (l2.b.x - l2.a.x)) ^ 2 < eps ∨
    ∀ t u q, AtParamXY l1.a l1.b t q → AtParamXY l2.a l2.b u q →
      ¬ (0 ≤ t ∧ t ≤ 1 ∧ 0 ≤ u ∧ u ≤ 1) := by
  by_cases hd : ((l1.b.x - l1.a.x) * (l2.b.y - l2.a.y) - (l1.b.y - l1.a.y) * (l2.b.x - l2.a.x)) ^ 2 < eps
  · exact Or.inl hd
  · right
    intro t u q h1 h2 hin
    have hp : llPlanar l1 l2 := by
      by_contra hn
      unfold lineLineIntersectXY at h
      rw [if_neg hn] at h; simp at h
    have hz := hp
    unfold llPlanar at hz
    push Not at hz
    have := (C41_complete l1 l2 true t u q hz (not_lt.mp hd) h1 h2 (fun _ => hin)).2
    rw [this] at h; simp at h

/-- lines in different planes are rejected -/
theorem C41_not_coplanar (l1 l2 : Line) (inside : Bool) :
    lineLineIntersectXY l1 l2 inside = .error .valueError ↔
    ¬ (|l1.b.z - l1.a.z| ≤ eps ∧ |l2.a.z - l1.a.z| ≤ eps ∧ |l2.b.z - l1.a.z| ≤ eps) := by
  have e : llPlanar l1 l2 ↔ (|l1.b.z - l1.a.z| ≤ eps ∧ |l2.a.z - l1.a.z| ≤ eps ∧ |l2.b.z - l1.a.z| ≤ eps) := by
    unfold llPlanar; push Not; exact Iff.rfl
  rw [← e]
  unfold lineLineIntersectXY
  split
  · rename_i hp
    simp only [hp, not_true, iff_false]
    split
    · simp
    · split <;> simp
  · rename_i hp; simp [hp]

/-- **C106 fails**: two perpendicular segments 0.04 long that cross in their midpoints are reported
as not intersecting -/
theorem C106_small_crossing_missed :
    lineLineIntersectXY ⟨pt (-0.02) 0, pt 0.02 0⟩ ⟨pt 0 (-0.02), pt 0 0.02⟩ = .ok none ∧
    AtParamXY (pt (-0.02) 0) (pt 0.02 0) 0.5 (pt 0 0) ∧
    AtParamXY (pt 0 (-0.02)) (pt 0 0.02) 0.5 (pt 0 0) := by
  refine ⟨?_, ?_, ?_⟩
  · unfold lineLineIntersectXY
    rw [if_pos (by unfold llPlanar pt eps; norm_num), if_pos (by unfold llDenom pt eps; norm_num)]
  · unfold AtParamXY pt; norm_num
  · unfold AtParamXY pt; norm_num

/-- **C106** (partial) crossings are found whenever both segments are perpendicular and their
lengths multiply to at least 0.003 -/
theorem C106_perpendicular_found_partial (l1 l2 : Line) (t u : ℝ) (q : V4)
    (hz : l1.b.z = l1.a.z ∧ l2.a.z = l1.a.z ∧ l2.b.z = l1.a.z)
    (hperp : (l1.b.x - l1.a.x) * (l2.b.x - l2.a.x) + (l1.b.y - l1.a.y) * (l2.b.y - l2.a.y) = 0)
    (hlen : 0.003 ≤ dist l1.a l1.b * dist l2.a l2.b)
    (h1 : AtParamXY l1.a l1.b t q) (h2 : AtParamXY l2.a l2.b u q)
    (hin : 0 ≤ t ∧ t ≤ 1 ∧ 0 ≤ u ∧ u ≤ 1) :
    lineLineIntersectXY l1 l2 true = .ok (some ⟨q.x, q.y, l1.a.z, 1⟩) := by
  have hz1 := hz.1
  have hz2 := hz.2.1
  have hz3 := hz.2.2
  refine (C41_complete l1 l2 true t u q ?_ ?_ h1 h2 (fun _ => hin)).2
  · rw [hz1, hz2, hz3]; simp [eps_pos.le]
  · have e1 := dist_sq l1.a l1.b
    have e2 := dist_sq l2.a l2.b
    have hsq : (0.003 : ℝ) ^ 2 ≤ (dist l1.a l1.b * dist l2.a l2.b) ^ 2 :=
      pow_le_pow_left₀ (by norm_num) hlen 2
    rw [mul_pow, e1, e2] at hsq
    unfold sqDist at hsq
    rw [hz1, hz2, hz3] at hsq
    have : ((l1.b.x - l1.a.x) * (l2.b.y - l2.a.y) - (l1.b.y - l1.a.y) * (l2.b.x - l2.a.x)) ^ 2
        = ((l1.a.x - l1.b.x) ^ 2 + (l1.a.y - l1.b.y) ^ 2 + (l1.a.z - l1.a.z) ^ 2) *
          ((l2.a.x - l2.b.x) ^ 2 + (l2.a.y - l2.b.y) ^ 2 + (l1.a.z - l1.a.z) ^ 2) := by
      linear_combination (-((l1.b.x - l1.a.x) * (l2.b.x - l2.a.x) + (l1.b.y - l1.a.y) * (l2.b.y - l2.a.y))) * hperp
    rw [this]
    unfold eps
    norm_num at hsq ⊢
    linarith

example : 0.003 ≤ dist (pt 0 0) (pt 1 0) * dist (pt 0.5 (-1)) (pt 0.5 1) := by
  have h1 : dist (pt 0 0) (pt 1 0) = 1 := by
    rw [dist_eq_sqrt]; unfold sqDist pt; norm_num
  have h2 : dist (pt 0.5 (-1)) (pt 0.5 1) = 2 := by
    rw [dist_eq_sqrt]; unfold sqDist pt
    rw [show ((0.5:ℝ) - 0.5) ^ 2 + (-1 - 1) ^ 2 + (0 - 0) ^ 2 = 2 ^ 2 by norm_num, Real.sqrt_sq (by norm_num)]
  rw [h1, h2]; norm_num

end Verif.Geom
