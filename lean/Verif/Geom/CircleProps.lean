import Verif.Geom.ArcProps

/-!
# Closest points, line–circle intersection, tangents (C113 – C116)
-/

namespace Verif.Geom
open Real

/-! ## a frame along a line of the plane -/

/-- coordinate of `p` along the line (distance from the start) -/
noncomputable def along (l : Line) (p : V4) : ℝ :=
  ((p.x - l.a.x) * (l.b.x - l.a.x) + (p.y - l.a.y) * (l.b.y - l.a.y)) / dist l.a l.b

/-- signed distance of `p` to the right of the line -/
noncomputable def across (l : Line) (p : V4) : ℝ :=
  ((p.x - l.a.x) * (l.b.y - l.a.y) - (p.y - l.a.y) * (l.b.x - l.a.x)) / dist l.a l.b

/-- both endpoints and the point have the same z -/
def Flat (l : Line) (p : V4) : Prop := l.b.z = l.a.z ∧ p.z = l.a.z

theorem lenSq (l : Line) (p : V4) (h : Flat l p) :
    dist l.a l.b ^ 2 = (l.b.x - l.a.x) ^ 2 + (l.b.y - l.a.y) ^ 2 := by
  rw [dist_sq]; unfold sqDist; rw [h.1]; ring

theorem frame_dist (l : Line) (p q : V4) (hp : Flat l p) (hq : Flat l q) (h0 : dist l.a l.b ≠ 0) :
    sqDist p q = (along l p - along l q) ^ 2 + (across l p - across l q) ^ 2 := by
  have hL := lenSq l p hp
  have hz : p.z - q.z = 0 := by rw [hp.2, hq.2]; ring
  unfold along across sqDist
  rw [hz]
  set L := dist l.a l.b
  field_simp
  rw [hL]
  ring

theorem linedist_eq (l : Line) (p : V4) : linedist l p = |across l p| := by
  unfold linedist across
  congr 2
  ring

theorem mag_dir (l : Line) : mag (sub l.b l.a) = dist l.a l.b := by
  unfold dist mag sub; congr 1; ring

theorem pi1_coords (l : Line) (p : V4) (h0 : dist l.a l.b ≠ 0) :
    (pi1 l p).x = p.x + (l.b.y - l.a.y) / dist l.a l.b * linedist l p ∧
    (pi1 l p).y = p.y - (l.b.x - l.a.x) / dist l.a l.b * linedist l p ∧ (pi1 l p).z = p.z := by
  unfold pi1 ordir1 add scale3 orthoXY
  simp only [mag_dir]
  refine ⟨?_, ?_, by ring⟩
  · unfold sub; simp only; ring
  · unfold sub; simp only; ring

theorem pi2_coords (l : Line) (p : V4) (h0 : dist l.a l.b ≠ 0) :
    (pi2 l p).x = p.x - (l.b.y - l.a.y) / dist l.a l.b * linedist l p ∧
    (pi2 l p).y = p.y + (l.b.x - l.a.x) / dist l.a l.b * linedist l p ∧ (pi2 l p).z = p.z := by
  unfold pi2 ordir1 add scale3 orthoXY
  simp only [mag_dir]
  refine ⟨?_, ?_, by ring⟩
  · unfold sub; simp only; ring
  · unfold sub; simp only; ring

theorem pi1_frame (l : Line) (p : V4) (hp : Flat l p) (h0 : dist l.a l.b ≠ 0) :
    Flat l (pi1 l p) ∧ along l (pi1 l p) = along l p ∧
    across l (pi1 l p) = across l p + |across l p| := by
  obtain ⟨hx, hy, hz⟩ := pi1_coords l p h0
  have hL := lenSq l p hp
  refine ⟨⟨hp.1, by rw [hz, hp.2]⟩, ?_, ?_⟩
  · unfold along; rw [hx, hy]; ring
  · rw [← linedist_eq]
    unfold across; rw [hx, hy]
    generalize linedist l p = D
    field_simp
    linear_combination (-D) * hL

theorem pi2_frame (l : Line) (p : V4) (hp : Flat l p) (h0 : dist l.a l.b ≠ 0) :
    Flat l (pi2 l p) ∧ along l (pi2 l p) = along l p ∧
    across l (pi2 l p) = across l p - |across l p| := by
  obtain ⟨hx, hy, hz⟩ := pi2_coords l p h0
  have hL := lenSq l p hp
  refine ⟨⟨hp.1, by rw [hz, hp.2]⟩, ?_, ?_⟩
  · unfold along; rw [hx, hy]; ring
  · rw [← linedist_eq]
    unfold across; rw [hx, hy]
    generalize linedist l p = D
    field_simp
    linear_combination D * hL

theorem frame_a (l : Line) : along l l.a = 0 ∧ across l l.a = 0 := by
  unfold along across; simp

theorem frame_b (l : Line) (hz : l.b.z = l.a.z) (h0 : dist l.a l.b ≠ 0) :
    along l l.b = dist l.a l.b ∧ across l l.b = 0 := by
  have hL := lenSq l l.a ⟨hz, rfl⟩
  unfold along across
  constructor
  · rw [div_eq_iff h0]
    linear_combination -hL
  · rw [show (l.b.x - l.a.x) * (l.b.y - l.a.y) - (l.b.y - l.a.y) * (l.b.x - l.a.x) = 0 by ring, zero_div]

/-- coordinates in the frame of the point with parameter `t` -/
theorem frame_param (l : Line) (q : V4) (t : ℝ) (hz : l.b.z = l.a.z) (h0 : dist l.a l.b ≠ 0)
    (hq : AtParam l.a l.b t q) :
    Flat l q ∧ along l q = t * dist l.a l.b ∧ across l q = 0 := by
  have hL := lenSq l l.a ⟨hz, rfl⟩
  obtain ⟨h1, h2, h3⟩ := hq
  refine ⟨⟨hz, by rw [h3, hz]; ring⟩, ?_, ?_⟩
  · unfold along
    rw [div_eq_iff h0, h1, h2]
    linear_combination (-t) * hL
  · unfold across
    rw [h1, h2]
    rw [div_eq_zero_iff]; left; ring

theorem dist_ge_of_sq {p q : V4} {d : ℝ} (hd : 0 ≤ d) (h : d ^ 2 ≤ sqDist p q) : d ≤ dist p q := by
  rw [dist_eq_sqrt]; exact Real.le_sqrt_of_sq_le h

theorem dist_le_of_sq {p q : V4} {d : ℝ} (hd : 0 ≤ d) (h : sqDist p q ≤ d ^ 2) : dist p q ≤ d := by
  rw [dist_eq_sqrt]; exact Real.sqrt_le_iff.mpr ⟨hd, h⟩

theorem lp_ok {l : Line} {p : V4} {inside : Bool} {want : Want} {r : LPRes} (hr : r ≠ .none)
    (h : linePointXY l p inside want = .ok r) : eps ≤ dist l.a l.b ∧ lpResult l p inside want = r := by
  unfold linePointXY at h
  by_cases h1 : dist l.a l.b < eps
  · rw [if_pos h1] at h
    injection h with h
    exact absurd h.symm hr
  · rw [if_neg h1] at h
    by_cases h2 : isXYPlanar [p, l.a, l.b]
    · rw [if_neg (not_not.mpr h2)] at h
      injection h with h
      exact ⟨not_lt.mp h1, h⟩
    · rw [if_pos h2] at h; simp at h

/-- `inside=True, distance=True`: the three possible answers -/
theorem lp_distance_cases (l : Line) (p : V4) :
    (lpDist l p = linedist l p ∧ (|lpSum1 l p - dist l.a l.b| < eps ∨ |lpSum2 l p - dist l.a l.b| < eps)) ∨
     (¬ |lpSum1 l p - dist l.a l.b| < eps ∧ ¬ |lpSum2 l p - dist l.a l.b| < eps ∧
      ((lpDist l p = dist l.a p ∧ dist l.a p < dist l.b p) ∨
       (lpDist l p = dist l.b p ∧ dist l.b p ≤ dist l.a p))) := by
  unfold lpDist
  by_cases h1 : |lpSum1 l p - dist l.a l.b| < eps
  · rw [if_pos h1]; exact Or.inl ⟨rfl, Or.inl h1⟩
  · rw [if_neg h1]
    by_cases h2 : |lpSum2 l p - dist l.a l.b| < eps
    · rw [if_pos h2]; exact Or.inl ⟨rfl, Or.inr h2⟩
    · rw [if_neg h2]
      refine Or.inr ⟨h1, h2, ?_⟩
      by_cases h3 : dist l.a p < dist l.b p
      · rw [if_pos h3]; exact Or.inl ⟨rfl, h3⟩
      · rw [if_neg h3]; exact Or.inr ⟨rfl, not_lt.mp h3⟩

/-- distances to the ends of the two candidate points are at least the distances along the line -/
theorem ends_ge (l : Line) (p q : V4) (hp : Flat l p) (hq : Flat l q) (h0 : dist l.a l.b ≠ 0)
    (hal : along l q = along l p) :
    |along l p| ≤ dist l.a q ∧ |along l p - dist l.a l.b| ≤ dist q l.b := by
  have ha : Flat l l.a := ⟨hp.1, rfl⟩
  have hb : Flat l l.b := ⟨hp.1, hp.1⟩
  constructor
  · apply dist_ge_of_sq (abs_nonneg _)
    rw [frame_dist l l.a q ha hq h0, (frame_a l).1, (frame_a l).2, hal, sq_abs]
    nlinarith [sq_nonneg (0 - across l q)]
  · apply dist_ge_of_sq (abs_nonneg _)
    rw [frame_dist l q l.b hq hb h0, (frame_b l hp.1 h0).1, (frame_b l hp.1 h0).2, hal, sq_abs]
    nlinarith [sq_nonneg (across l q - 0)]

/-- one of the candidates is the foot of the perpendicular -/
theorem foot_exists (l : Line) (p : V4) (hp : Flat l p) (h0 : dist l.a l.b ≠ 0) :
    (across l (pi1 l p) = 0) ∨ (across l (pi2 l p) = 0) := by
  rw [(pi1_frame l p hp h0).2.2, (pi2_frame l p hp h0).2.2]
  rcases abs_cases (across l p) with ⟨h, _⟩ | ⟨h, _⟩
  · right; rw [h]; ring
  · left; rw [h]; ring

theorem foot_dists (l : Line) (p q : V4) (hp : Flat l p) (hq : Flat l q) (h0 : dist l.a l.b ≠ 0)
    (hal : along l q = along l p) (hac : across l q = 0) :
    dist l.a q = |along l p| ∧ dist q l.b = |along l p - dist l.a l.b| := by
  have ha : Flat l l.a := ⟨hp.1, rfl⟩
  have hb : Flat l l.b := ⟨hp.1, hp.1⟩
  constructor
  · rw [dist_eq_sqrt, frame_dist l l.a q ha hq h0, (frame_a l).1, (frame_a l).2, hal, hac, sub_zero, zero_sub,
      neg_sq, zero_pow two_ne_zero, add_zero, Real.sqrt_sq_eq_abs]
  · rw [dist_eq_sqrt, frame_dist l q l.b hq hb h0, (frame_b l hp.1 h0).1, (frame_b l hp.1 h0).2, hal, hac, sub_zero,
      zero_pow two_ne_zero, add_zero, Real.sqrt_sq_eq_abs]

/-- a point of the segment with given coordinate along it -/
theorem seg_point (l : Line) (h0 : dist l.a l.b ≠ 0) (s : ℝ) :
    AtParam l.a l.b (s / dist l.a l.b) (sampleline l (s / dist l.a l.b)) := (C39_sample l _).1

/-- **C113** with `distance=True` the answer is the distance to the segment, to within half an
epsilon: it never exceeds the distance to any point of the segment, and some point of the segment is
at most `epsilon/2` further away -/
theorem C113_segment_distance (l : Line) (p : V4) (d : ℝ) (hz : l.b.z = l.a.z ∧ p.z = l.a.z)
    (h : linePointXY l p true .distance = .ok (.num d)) :
    (∀ t q, 0 ≤ t → t ≤ 1 → AtParam l.a l.b t q → d ≤ dist p q) ∧
    ∃ t q, 0 ≤ t ∧ t ≤ 1 ∧ AtParam l.a l.b t q ∧ dist p q ≤ d + eps / 2 := by
  have hp : Flat l p := hz
  obtain ⟨hlen, hres⟩ := lp_ok (by simp) h
  have hcases := lp_distance_cases l p
  injection hres with hres
  rw [hres] at hcases
  clear h
  unfold lpSum1 lpSum2 at hcases
  have hLpos : 0 < dist l.a l.b := lt_of_lt_of_le eps_pos hlen
  have h0 : dist l.a l.b ≠ 0 := hLpos.ne'
  obtain ⟨f1, al1, ac1⟩ := pi1_frame l p hp h0
  obtain ⟨f2, al2, ac2⟩ := pi2_frame l p hp h0
  have haF : Flat l l.a := ⟨hp.1, rfl⟩
  have hbF : Flat l l.b := ⟨hp.1, hp.1⟩
  have e1 := ends_ge l p _ hp f1 h0 al1
  have e2 := ends_ge l p _ hp f2 h0 al2
  -- distance in the frame
  have hdq : ∀ t q, AtParam l.a l.b t q →
      sqDist p q = (along l p - t * dist l.a l.b) ^ 2 + across l p ^ 2 := by
    intro t q hq
    obtain ⟨hf, ha, hc⟩ := frame_param l q t hp.1 h0 hq
    rw [frame_dist l p q hp hf h0, ha, hc]; ring
  rcases hcases with ⟨hd, hclose⟩ | ⟨hn1, hn2, hends⟩
  · -- the answer is the distance to the infinite line
    rw [linedist_eq] at hd
    constructor
    · intro t q _ _ hq
      rw [hd]
      apply dist_ge_of_sq (abs_nonneg _)
      rw [hdq t q hq, sq_abs]; nlinarith [sq_nonneg (along l p - t * dist l.a l.b)]
    · -- how far outside the segment the foot can be
      have hsum : |along l p| + |along l p - dist l.a l.b| - dist l.a l.b < eps := by
        rcases hclose with h | h
        · have := (abs_lt.mp h).2; linarith [e1.1, e1.2]
        · have := (abs_lt.mp h).2; linarith [e2.1, e2.2]
      have hbound : ∀ t, 0 ≤ t → t ≤ 1 → |along l p - t * dist l.a l.b| ≤ eps / 2 →
          ∃ t q, 0 ≤ t ∧ t ≤ 1 ∧ AtParam l.a l.b t q ∧ dist p q ≤ d + eps / 2 := by
        intro t ht0 ht1 hle
        refine ⟨t, _, ht0, ht1, (C39_sample l t).1, ?_⟩
        have hd0 : 0 ≤ d := by rw [hd]; exact abs_nonneg _
        apply dist_le_of_sq (by linarith [eps_pos])
        rw [hdq t _ (C39_sample l t).1]
        have hsq := sq_le_sq' (abs_le.mp hle).1 (abs_le.mp hle).2
        have : across l p ^ 2 = d ^ 2 := by rw [hd, sq_abs]
        rw [this]
        nlinarith [eps_pos]
      by_cases hneg : along l p < 0
      · apply hbound 0 (le_refl _) zero_le_one
        rw [abs_of_neg hneg, abs_of_neg (by linarith)] at hsum
        rw [zero_mul, sub_zero, abs_of_neg hneg]; linarith
      · have hnn := not_lt.mp hneg
        by_cases hgt : dist l.a l.b < along l p
        · apply hbound 1 zero_le_one (le_refl _)
          rw [abs_of_nonneg hnn, abs_of_pos (by linarith)] at hsum
          rw [one_mul, abs_of_pos (by linarith)]; linarith
        · apply hbound (along l p / dist l.a l.b) (by positivity) (by rw [div_le_one hLpos]; exact not_lt.mp hgt)
          rw [div_mul_cancel₀ _ h0, sub_self, abs_zero]; linarith [eps_pos]
  · -- the foot is outside, the nearest point is an end
    have hout : along l p < 0 ∨ dist l.a l.b < along l p := by
      by_contra hcon
      push Not at hcon
      have hsum : ∀ q, Flat l q → along l q = along l p → across l q = 0 →
          |dist l.a q + dist q l.b - dist l.a l.b| < eps := by
        intro q hq ha hc
        obtain ⟨x1, x2⟩ := foot_dists l p q hp hq h0 ha hc
        rw [x1, x2, abs_of_nonneg hcon.1, abs_of_nonpos (a := along l p - dist l.a l.b) (by linarith [hcon.2])]
        rw [show along l p + -(along l p - dist l.a l.b) - dist l.a l.b = 0 by ring, abs_zero]
        exact eps_pos
      rcases foot_exists l p hp h0 with hf | hf
      · exact hn1 (hsum _ f1 al1 hf)
      · exact hn2 (hsum _ f2 al2 hf)
    have hda : sqDist p l.a = along l p ^ 2 + across l p ^ 2 := by
      rw [frame_dist l p l.a hp haF h0, (frame_a l).1, (frame_a l).2]; ring
    have hdb : sqDist p l.b = (along l p - dist l.a l.b) ^ 2 + across l p ^ 2 := by
      rw [frame_dist l p l.b hp hbF h0, (frame_b l hp.1 h0).1, (frame_b l hp.1 h0).2]; ring
    have sym : ∀ x y : V4, dist x y = dist y x := by
      intro x y; rw [dist_eq_sqrt, dist_eq_sqrt]; congr 1; unfold sqDist; ring
    have hmin : d ≤ dist p l.a ∧ d ≤ dist p l.b ∧ (d = dist p l.a ∨ d = dist p l.b) := by
      rcases hends with ⟨rfl, h⟩ | ⟨rfl, h⟩
      · rw [sym l.a p, sym l.b p] at *; exact ⟨le_refl _, h.le, Or.inl rfl⟩
      · rw [sym l.a p, sym l.b p] at *; exact ⟨h, le_refl _, Or.inr rfl⟩
    constructor
    · intro t q ht0 ht1 hq
      have hk : 0 ≤ t * dist l.a l.b := by positivity
      have hk1 : t * dist l.a l.b ≤ dist l.a l.b := by nlinarith
      rcases hout with ho | ho
      · refine le_trans hmin.1 ?_
        apply dist_ge_of_sq (dist_nonneg _ _)
        rw [dist_sq, hda, hdq t q hq]; nlinarith
      · refine le_trans hmin.2.1 ?_
        apply dist_ge_of_sq (dist_nonneg _ _)
        rw [dist_sq, hdb, hdq t q hq]; nlinarith
    · rcases hmin.2.2 with hm | hm
      · refine ⟨0, l.a, le_refl _, zero_le_one, ⟨by ring, by ring, by ring⟩, ?_⟩
        rw [hm]; linarith [eps_pos]
      · refine ⟨1, l.b, zero_le_one, le_refl _, ⟨by ring, by ring, by ring⟩, ?_⟩
        rw [hm]; linarith [eps_pos]

/-- **C113** with `inside=False, distance=True` the answer is exactly the distance to the infinite
line -/
theorem C113_line_distance (l : Line) (p : V4) (d : ℝ) (hz : l.b.z = l.a.z ∧ p.z = l.a.z)
    (h : linePointXY l p false .distance = .ok (.num d)) :
    (∀ t q, AtParam l.a l.b t q → d ≤ dist p q) ∧ ∃ t q, AtParam l.a l.b t q ∧ dist p q = d := by
  have hp : Flat l p := hz
  obtain ⟨hlen, h⟩ := lp_ok (by simp) h
  have hLpos : 0 < dist l.a l.b := lt_of_lt_of_le eps_pos hlen
  have h0 := hLpos.ne'
  injection h with h
  rw [linedist_eq] at h
  have hdq : ∀ t q, AtParam l.a l.b t q →
      sqDist p q = (along l p - t * dist l.a l.b) ^ 2 + across l p ^ 2 := by
    intro t q hq
    obtain ⟨hf, ha, hc⟩ := frame_param l q t hp.1 h0 hq
    rw [frame_dist l p q hp hf h0, ha, hc]; ring
  constructor
  · intro t q hq
    rw [← h]
    apply dist_ge_of_sq (abs_nonneg _)
    rw [hdq t q hq, sq_abs]; nlinarith [sq_nonneg (along l p - t * dist l.a l.b)]
  · refine ⟨along l p / dist l.a l.b, _, (C39_sample l _).1, ?_⟩
    rw [dist_eq_sqrt, hdq _ _ (C39_sample l _).1, div_mul_cancel₀ _ h0, sub_self, zero_pow two_ne_zero, zero_add,
      Real.sqrt_sq_eq_abs, h]

theorem dist_unit : dist (pt 0 0) (pt 1 0) = 1 := by
  rw [dist_eq_sqrt]; unfold sqDist pt; norm_num

/-- the hypotheses of the two theorems are met -/
example : ∃ d, linePointXY ⟨pt 0 0, pt 1 0⟩ (pt 3 2) true .distance = .ok (.num d) := by
  unfold linePointXY
  rw [if_neg (by rw [dist_unit]; unfold eps; norm_num), if_neg (by
    rw [not_not]; intro q hq
    simp only [List.mem_cons, List.not_mem_nil, or_false] at hq
    rcases hq with rfl | rfl <;> simp [pt, eps_pos.le])]
  exact ⟨_, rfl⟩

/-! ## C114: the closest point and its parameter -/

/-- **C114 fails** for the point: for p = (0.5, −0.0005) and the segment from (0,0) to (1,0) the "closest
point on the line" is (0.5, −0.001), which is 200 epsilon off the line and twice as far from it as
`p` itself -/
theorem C114_closest_point_off_line :
    ∃ q, linePointXY ⟨pt 0 0, pt 1 0⟩ (pt 0.5 (-0.0005)) true .point = .ok (.pt q) ∧
      Same3 q (pt 0.5 (-0.001)) ∧
      ∀ t r, AtParam (pt 0 0) (pt 1 0) t r → (200 * eps) ^ 2 ≤ sqDist q r := by
  have hlen : dist (pt 0 0) (pt 1 0) ≠ 0 := by rw [dist_unit]; norm_num
  have hld : linedist ⟨pt 0 0, pt 1 0⟩ (pt 0.5 (-0.0005)) = 0.0005 := by
    unfold linedist
    simp only [dist_unit]
    unfold pt; norm_num [abs_of_pos]
  obtain ⟨hx, hy, hz⟩ := pi1_coords ⟨pt 0 0, pt 1 0⟩ (pt 0.5 (-0.0005)) hlen
  rw [hld] at hx hy
  simp only [dist_unit] at hx hy
  have hx' : (pi1 ⟨pt 0 0, pt 1 0⟩ (pt 0.5 (-0.0005))).x = 0.5 := by rw [hx]; unfold pt; norm_num
  have hy' : (pi1 ⟨pt 0 0, pt 1 0⟩ (pt 0.5 (-0.0005))).y = -0.001 := by rw [hy]; unfold pt; norm_num
  have hz' : (pi1 ⟨pt 0 0, pt 1 0⟩ (pt 0.5 (-0.0005))).z = 0 := by rw [hz]; rfl
  have hda : dist (pt 0 0) (pi1 ⟨pt 0 0, pt 1 0⟩ (pt 0.5 (-0.0005))) = √(0.250001) := by
    rw [dist_eq_sqrt]; unfold sqDist; rw [hx', hy', hz']; unfold pt; norm_num
  have hdb : dist (pi1 ⟨pt 0 0, pt 1 0⟩ (pt 0.5 (-0.0005))) (pt 1 0) = √(0.250001) := by
    rw [dist_eq_sqrt]; unfold sqDist; rw [hx', hy', hz']; unfold pt; norm_num
  have hs1 : √(0.250001) < 0.500002 := by
    rw [Real.sqrt_lt' (by norm_num)]; norm_num
  have hs2 : 0.5 ≤ √(0.250001) := Real.le_sqrt_of_sq_le (by norm_num)
  refine ⟨pi1 ⟨pt 0 0, pt 1 0⟩ (pt 0.5 (-0.0005)), ?_, ?_, ?_⟩
  · unfold linePointXY
    rw [if_neg (by rw [dist_unit]; unfold eps; norm_num), if_neg (by
      rw [not_not]; intro q hq
      simp only [List.mem_cons, List.not_mem_nil, or_false] at hq
      rcases hq with rfl | rfl <;> simp [pt, eps_pos.le])]
    unfold lpResult lpPoint lpSum1
    simp only [hda, hdb, dist_unit]
    rw [if_pos]
    rw [abs_of_nonneg (by linarith)]
    unfold eps; linarith
  · unfold Same3; rw [hx', hy', hz']; unfold pt; norm_num
  · intro t r hr
    have hry : r.y = 0 := by rw [hr.2.1]; unfold pt; norm_num
    unfold sqDist
    rw [hx', hy', hz', hry]
    unfold eps
    nlinarith [sq_nonneg ((0.5 : ℝ) - r.x), sq_nonneg ((0 : ℝ) - r.z)]

/-- **C114 fails** for the parameter, on every line: asked for the parameter of the start of a line
the function answers 1, which is the parameter of its end -/
theorem C114_param_of_start (l : Line) (hz : l.b.z = l.a.z) (hlen : eps ≤ dist l.a l.b) (inside : Bool) :
    linePointXY l l.a inside .params = .ok (.num 1) := by
  have h0 : dist l.a l.b ≠ 0 := by linarith [eps_pos]
  have hld : linedist l l.a = 0 := by rw [linedist_eq, (frame_a l).2, abs_zero]
  obtain ⟨x1, y1, z1⟩ := pi1_coords l l.a h0
  obtain ⟨x2, y2, z2⟩ := pi2_coords l l.a h0
  rw [hld] at x1 y1 x2 y2
  simp only [mul_zero, add_zero, sub_zero] at x1 y1 x2 y2
  have hb1 : dist (pi1 l l.a) l.b = dist l.a l.b := by
    rw [dist_eq_sqrt, dist_eq_sqrt]; unfold sqDist; rw [x1, y1, z1]
  have hb2 : dist (pi2 l l.a) l.b = dist l.a l.b := by
    rw [dist_eq_sqrt, dist_eq_sqrt]; unfold sqDist; rw [x2, y2, z2]
  unfold linePointXY
  rw [if_neg (not_lt.mpr hlen), if_neg (by
    rw [not_not]; intro q hq
    simp only [List.mem_cons, List.not_mem_nil, or_false] at hq
    rcases hq with rfl | rfl
    · simp [eps_pos.le]
    · simp [hz, eps_pos.le])]
  have : lpParam l l.a = 1 := by
    unfold lpParam; rw [hb1, hb2, div_self h0]; split <;> rfl
  cases inside <;> simp [lpResult, this]

/-- **C114** (partial) with `inside=False` the returned point is the foot of the perpendicular: it is on
the line and no point of the line is nearer -/
theorem C114_foot_partial (l : Line) (p q : V4) (hz : l.b.z = l.a.z ∧ p.z = l.a.z)
    (h : linePointXY l p false .point = .ok (.pt q)) :
    (∃ t, AtParam l.a l.b t q) ∧ ∀ t r, AtParam l.a l.b t r → dist p q ≤ dist p r := by
  have hp : Flat l p := hz
  obtain ⟨hlen, h⟩ := lp_ok (by simp) h
  have hLpos : 0 < dist l.a l.b := lt_of_lt_of_le eps_pos hlen
  have h0 := hLpos.ne'
  injection h with h
  unfold lpFree lpSum1 lpSum2 at h
  obtain ⟨f1, al1, ac1⟩ := pi1_frame l p hp h0
  obtain ⟨f2, al2, ac2⟩ := pi2_frame l p hp h0
  have e1 := ends_ge l p _ hp f1 h0 al1
  have e2 := ends_ge l p _ hp f2 h0 al2
  have haF : Flat l l.a := ⟨hp.1, rfl⟩
  -- the chosen candidate has `across = 0`
  have hchosen : Flat l q ∧ along l q = along l p ∧ across l q = 0 := by
    have strict : ∀ x, Flat l x → along l x = along l p → dist l.a x ≤ |along l p| → across l x = 0 := by
      intro x hx hal hle
      have hsq : dist l.a x ^ 2 ≤ |along l p| ^ 2 := pow_le_pow_left₀ (dist_nonneg _ _) hle 2
      rw [dist_sq, frame_dist l l.a x haF hx h0, (frame_a l).1, (frame_a l).2, hal, sq_abs] at hsq
      have : across l x ^ 2 ≤ 0 := by nlinarith
      exact pow_eq_zero_iff two_ne_zero |>.mp (le_antisymm this (sq_nonneg _))
    rcases foot_exists l p hp h0 with hf | hf
    · obtain ⟨d1, d2⟩ := foot_dists l p _ hp f1 h0 al1 hf
      split at h
      · subst h; exact ⟨f1, al1, hf⟩
      · rename_i hgt
        exfalso; apply hgt; linarith [e2.1, e2.2]
    · obtain ⟨d1, d2⟩ := foot_dists l p _ hp f2 h0 al2 hf
      split at h
      · rename_i hle
        subst h
        refine ⟨f1, al1, strict _ f1 al1 ?_⟩
        linarith [e1.1, e1.2]
      · subst h; exact ⟨f2, al2, hf⟩
  obtain ⟨hq, hal, hac⟩ := hchosen
  have hL := lenSq l p hp
  constructor
  · refine ⟨along l q / dist l.a l.b, ?_⟩
    have hx : (q.x - l.a.x) * (l.b.x - l.a.x) + (q.y - l.a.y) * (l.b.y - l.a.y) = along l q * dist l.a l.b := by
      unfold along; field_simp
    have hy : (q.x - l.a.x) * (l.b.y - l.a.y) - (q.y - l.a.y) * (l.b.x - l.a.x) = 0 := by
      have : across l q * dist l.a l.b = 0 := by rw [hac]; ring
      unfold across at this; rwa [div_mul_cancel₀ _ h0] at this
    refine ⟨?_, ?_, by rw [hq.2, hp.1]; ring⟩
    · field_simp
      have : (q.x - l.a.x) * dist l.a l.b ^ 2 = along l q * dist l.a l.b * (l.b.x - l.a.x) := by
        rw [hL]; linear_combination (l.b.x - l.a.x) * hx + (l.b.y - l.a.y) * hy
      apply mul_right_cancel₀ h0
      linear_combination this
    · field_simp
      have : (q.y - l.a.y) * dist l.a l.b ^ 2 = along l q * dist l.a l.b * (l.b.y - l.a.y) := by
        rw [hL]; linear_combination (l.b.y - l.a.y) * hx - (l.b.x - l.a.x) * hy
      apply mul_right_cancel₀ h0
      linear_combination this
  · intro t r hr
    obtain ⟨hf, ha, hc⟩ := frame_param l r t hp.1 h0 hr
    apply dist_le_of_sq (dist_nonneg _ _)
    rw [dist_sq, frame_dist l p q hp hq h0, frame_dist l p r hp hf h0, hal, hac, hc]
    nlinarith [sq_nonneg (along l p - along l r)]

end Verif.Geom
