import Verif.Geom.CircleProps
import Verif.Geom.ArcProps

/-!
# Lines and circles: intersections and tangents (C115, C116)
-/

namespace Verif.Geom
open Real

/-- squared distance in the plane -/
def sqDistXY (p q : V4) : ℝ := (p.x - q.x) ^ 2 + (p.y - q.y) ^ 2

theorem laPoint_param (l : Line) (c : Arc) (b : ℝ) : AtParamXY l.a l.b (1 - b) (laPoint l c b) := by
  unfold AtParamXY laPoint add scale3 sub
  simp only
  constructor <;> ring

theorem laPoint_sq (l : Line) (c : Arc) (b : ℝ) :
    sqDistXY (laPoint l c b) c.c - c.r ^ 2 = laA l * b ^ 2 + laB l c * b + laC l c := by
  unfold sqDistXY laPoint add scale3 sub laA laB laC
  simp only
  ring

theorem laRoots_spec (l : Line) (c : Arc) (bs : List ℝ) (h : laRoots l c = .ok bs) (ha : 0 < laA l) :
    (laD l c ≥ √(laA l) * 2 * eps ∧
      (∀ b ∈ bs, laA l * b ^ 2 + laB l c * b + laC l c = 0) ∧
      (∀ b, laA l * b ^ 2 + laB l c * b + laC l c = 0 → b ≠ 0 → b ∈ bs)) ∨
    (|laD l c| < √(laA l) * 2 * eps ∧ bs = [-laB l c / (2 * laA l)]) := by
  unfold laRoots at h
  simp only at h
  split at h
  · rename_i h1
    injection h with h
    exact Or.inr ⟨h1, h.symm⟩
  · rename_i h1
    left
    split at h
    · cases h
    · rename_i h2
      have hd : 0 ≤ laD l c := not_lt.mp h2
      rw [abs_of_nonneg hd] at h1
      have hs := Real.mul_self_sqrt hd
      have e : √(laD l c) * √(laD l c) = laB l c * laB l c - 4 * laA l * laC l c := hs
      have r0 : laA l * ((-laB l c + √(laD l c)) / (2 * laA l)) ^ 2 +
          laB l c * ((-laB l c + √(laD l c)) / (2 * laA l)) + laC l c = 0 := by
        field_simp
        linear_combination e
      have r1 : laA l * ((-laB l c - √(laD l c)) / (2 * laA l)) ^ 2 +
          laB l c * ((-laB l c - √(laD l c)) / (2 * laA l)) + laC l c = 0 := by
        field_simp
        linear_combination e
      have uniq : ∀ b, laA l * b ^ 2 + laB l c * b + laC l c = 0 →
          b = (-laB l c + √(laD l c)) / (2 * laA l) ∨ b = (-laB l c - √(laD l c)) / (2 * laA l) := by
        intro b hb
        have h3 : (2 * laA l * b + laB l c - √(laD l c)) * (2 * laA l * b + laB l c + √(laD l c)) = 0 := by
          linear_combination 4 * laA l * hb - e
        rcases mul_eq_zero.mp h3 with h3 | h3
        · left; rw [eq_div_iff (by positivity)]; linarith
        · right; rw [eq_div_iff (by positivity)]; linarith
      refine ⟨not_lt.mp h1, ?_, ?_⟩
      · intro b hb
        split at h
        · injection h with h
          subst h
          rw [List.mem_singleton] at hb
          rw [hb]; exact r0
        · injection h with h
          subst h
          simp only [List.mem_cons, List.not_mem_nil, or_false] at hb
          rcases hb with hb | hb
          · rw [hb]; exact r0
          · rw [hb]; exact r1
      · intro b hb hne
        split at h
        · rename_i hz
          injection h with h
          subst h
          rcases uniq b hb with hb | hb
          · rw [hb]; simp
          · rw [hz] at hb; exact absurd hb hne
        · injection h with h
          subst h
          rcases uniq b hb with hb | hb
          · rw [hb]; simp
          · rw [hb]; simp

theorem la_ok {l : Line} {c : Arc} {inside : Bool} {ps : List V4}
    (h : lineArcIntersectXY l c inside = .ok (some ps)) :
    0 < laA l ∧ ∃ bs, laRoots l c = .ok bs ∧ ps = bs.map (laPoint l c) := by
  unfold lineArcIntersectXY at h
  split at h
  · cases h
  · split at h
    · cases h
    · split at h
      · cases h
      · cases h
      · cases h
      · split at h
        · cases h
        · split at h
          · cases h
          · rename_i ha
            have hp : 0 < laA l := by
              have h1 : 0 ≤ laA l := by unfold laA; nlinarith [sq_nonneg (l.a.x - l.b.x), sq_nonneg (l.a.y - l.b.y)]
              rw [abs_of_nonneg h1] at ha
              have := not_lt.mp ha
              have he : 0 < eps * eps := by have := eps_pos; positivity
              linarith
            refine ⟨hp, ?_⟩
            split at h
            · cases h
            · rename_i bs hbs
              split at h
              · injection h with h
                injection h with h
                exact ⟨bs, hbs, h.symm⟩
              · cases h

/-- **C115** (full circles, or `inside=False`) every reported intersection lies on the (infinite) line,
and on the circle: exactly, or – when the line is nearly tangent – with a squared distance from the
centre that differs from r² by less than epsilon/(2·length) -/
theorem C115_on_both_partial (l : Line) (c : Arc) (inside : Bool) (ps : List V4)
    (h : lineArcIntersectXY l c inside = .ok (some ps)) :
    ∀ p ∈ ps, (∃ t, AtParamXY l.a l.b t p) ∧
      (sqDistXY p c.c = c.r ^ 2 ∨ |sqDistXY p c.c - c.r ^ 2| < eps / (2 * √(sqDistXY l.a l.b))) := by
  obtain ⟨ha, bs, hbs, rfl⟩ := la_ok h
  intro p hp
  obtain ⟨b, hb, rfl⟩ := List.mem_map.mp hp
  refine ⟨⟨_, laPoint_param l c b⟩, ?_⟩
  have hA : sqDistXY l.a l.b = laA l := by unfold sqDistXY laA; ring
  rcases laRoots_spec l c bs hbs ha with ⟨-, h1, -⟩ | ⟨h1, h2⟩
  · left
    have := laPoint_sq l c b
    rw [h1 b hb] at this
    linarith
  · right
    subst h2
    rw [List.mem_singleton] at hb
    rw [laPoint_sq, hb, hA]
    have hs : 0 < √(laA l) := Real.sqrt_pos.mpr ha
    have hss : √(laA l) * √(laA l) = laA l := Real.mul_self_sqrt ha.le
    have e : laA l * (-laB l c / (2 * laA l)) ^ 2 + laB l c * (-laB l c / (2 * laA l)) + laC l c =
        -(laD l c) / (4 * laA l) := by
      unfold laD
      field_simp
      ring
    rw [e, abs_div, abs_neg, abs_of_pos (by positivity : (0 : ℝ) < 4 * laA l),
      div_lt_div_iff₀ (by positivity) (by positivity)]
    calc |laD l c| * (2 * √(laA l)) < (√(laA l) * 2 * eps) * (2 * √(laA l)) :=
          mul_lt_mul_of_pos_right h1 (by positivity)
      _ = eps * (4 * (√(laA l) * √(laA l))) := by ring
      _ = eps * (4 * laA l) := by rw [hss]

/-- **C115** (full circles, or `inside=False`) when intersections are reported for a line that is not
nearly tangent, every common point of line and circle is among them – except possibly the end point
of the line -/
theorem C115_complete_partial (l : Line) (c : Arc) (inside : Bool) (ps : List V4) (q : V4) (t : ℝ)
    (h : lineArcIntersectXY l c inside = .ok (some ps)) (hq : AtParamXY l.a l.b t q)
    (hc : sqDistXY q c.c = c.r ^ 2) (ht : t ≠ 1) (hd : √(laA l) * 2 * eps ≤ laD l c) :
    ∃ p ∈ ps, SameXY p q := by
  obtain ⟨ha, bs, hbs, rfl⟩ := la_ok h
  have hp := laPoint_param l c (1 - t)
  have hsame : SameXY (laPoint l c (1 - t)) q := by
    obtain ⟨h1, h2⟩ := hp
    obtain ⟨h3, h4⟩ := hq
    exact ⟨by rw [h1, h3]; ring, by rw [h2, h4]; ring⟩
  rcases laRoots_spec l c bs hbs ha with ⟨-, -, h1⟩ | ⟨h1, -⟩
  · refine ⟨_, List.mem_map.mpr ⟨1 - t, h1 _ ?_ (sub_ne_zero.mpr (Ne.symm ht)), rfl⟩, hsame⟩
    rw [← laPoint_sq]
    unfold sqDistXY at hc ⊢
    rw [hsame.1, hsame.2, hc]; ring
  · have := lt_of_le_of_lt (le_abs_self _) h1
    linarith

/-- **C115 fails** for the end point of a line: the unit circle and the line from (−3,0) to (1,0) meet
at (−1,0) and (1,0), but only the first is reported, because the solution 0 is taken for `False` -/
theorem C115_end_point_dropped :
    ∃ p, lineArcIntersectXY ⟨pt (-3) 0, pt 1 0⟩ ⟨pt 0 0, 1, 0, 360, false, none⟩ false = .ok (some [p]) ∧
      p.x = -1 ∧ sqDistXY (pt 1 0) (pt 0 0) = 1 := by
  have hdist : dist (pt (-3) 0) (pt 1 0) = 4 := by
    unfold dist mag sub pt
    norm_num
    rw [show (16 : ℝ) = 4 ^ 2 by norm_num, Real.sqrt_sq (by norm_num)]
  have hA : laA ⟨pt (-3) 0, pt 1 0⟩ = 16 := by unfold laA pt; norm_num
  have hB : laB ⟨pt (-3) 0, pt 1 0⟩ ⟨pt 0 0, 1, 0, 360, false, none⟩ = -8 := by unfold laB pt; norm_num
  have hC : laC ⟨pt (-3) 0, pt 1 0⟩ ⟨pt 0 0, 1, 0, 360, false, none⟩ = 0 := by unfold laC pt; norm_num
  have hD : laD ⟨pt (-3) 0, pt 1 0⟩ ⟨pt 0 0, 1, 0, 360, false, none⟩ = 64 := by
    unfold laD; rw [hA, hB, hC]; norm_num
  have s16 : √(16 : ℝ) = 4 := by
    rw [show (16 : ℝ) = 4 ^ 2 by norm_num, Real.sqrt_sq (by norm_num)]
  have s64 : √(64 : ℝ) = 8 := by
    rw [show (64 : ℝ) = 8 ^ 2 by norm_num, Real.sqrt_sq (by norm_num)]
  have hroots : laRoots ⟨pt (-3) 0, pt 1 0⟩ ⟨pt 0 0, 1, 0, 360, false, none⟩ = .ok [1 / 2] := by
    unfold laRoots
    simp only
    rw [hA, hB, hD, s16, s64, if_neg (by unfold eps; norm_num), if_neg (by norm_num), if_pos (by norm_num)]
    norm_num
  have hlp : linePointXY ⟨pt (-3) 0, pt 1 0⟩ (pt 0 0) false .distance = .ok (.num 0) := by
    unfold linePointXY
    rw [if_neg (by rw [hdist]; unfold eps; norm_num),
      if_neg (by unfold isXYPlanar pt; have := eps_pos; simp; linarith)]
    unfold lpResult linedist
    simp [pt]
  refine ⟨laPoint ⟨pt (-3) 0, pt 1 0⟩ ⟨pt 0 0, 1, 0, 360, false, none⟩ (1 / 2), ?_, ?_, ?_⟩
  · unfold lineArcIntersectXY
    rw [if_neg (by unfold normalOk; simp), if_neg (by unfold isXYPlanar pt; have := eps_pos; simp; linarith), hlp]
    simp only
    rw [if_neg (by unfold eps; norm_num), if_neg (by rw [hA]; unfold eps; norm_num), hroots]
    simp
  · unfold laPoint add scale3 sub pt
    norm_num
  · unfold sqDistXY pt; norm_num

/-- **C115 fails** for full circles and `inside=True`: points beyond the ends of the segment are
reported too – the segment from (0,0) to (2,0) meets the unit circle at (1,0) only, but (−1,0) is
reported as well -/
theorem C115_outside_segment :
    ∃ p q, lineArcIntersectXY ⟨pt 0 0, pt 2 0⟩ ⟨pt 0 0, 1, 0, 360, false, none⟩ true = .ok (some [p, q]) ∧
      p.x = -1 ∧ q.x = 1 := by
  have hdist : dist (pt 0 0) (pt 2 0) = 2 := by
    unfold dist mag sub pt
    norm_num
    rw [show (4 : ℝ) = 2 ^ 2 by norm_num, Real.sqrt_sq (by norm_num)]
  have hA : laA ⟨pt 0 0, pt 2 0⟩ = 4 := by unfold laA pt; norm_num
  have hB : laB ⟨pt 0 0, pt 2 0⟩ ⟨pt 0 0, 1, 0, 360, false, none⟩ = -8 := by unfold laB pt; norm_num
  have hC : laC ⟨pt 0 0, pt 2 0⟩ ⟨pt 0 0, 1, 0, 360, false, none⟩ = 3 := by unfold laC pt; norm_num
  have hD : laD ⟨pt 0 0, pt 2 0⟩ ⟨pt 0 0, 1, 0, 360, false, none⟩ = 16 := by
    unfold laD; rw [hA, hB, hC]; norm_num
  have s16 : √(16 : ℝ) = 4 := by
    rw [show (16 : ℝ) = 4 ^ 2 by norm_num, Real.sqrt_sq (by norm_num)]
  have s4 : √(4 : ℝ) = 2 := by
    rw [show (4 : ℝ) = 2 ^ 2 by norm_num, Real.sqrt_sq (by norm_num)]
  have hroots : laRoots ⟨pt 0 0, pt 2 0⟩ ⟨pt 0 0, 1, 0, 360, false, none⟩ = .ok [3 / 2, 1 / 2] := by
    unfold laRoots
    simp only
    rw [hA, hB, hD, s16, s4, if_neg (by unfold eps; norm_num), if_neg (by norm_num), if_neg (by norm_num)]
    norm_num
  have hld : linedist ⟨pt 0 0, pt 2 0⟩ (pt 0 0) = 0 := by unfold linedist pt; simp
  have hpi : pi1 ⟨pt 0 0, pt 2 0⟩ (pt 0 0) = pt 0 0 := by
    unfold pi1 ordir1
    rw [hld]
    unfold add scale3 pt
    simp
  have h00 : dist (pt 0 0) (pt 0 0) = 0 := by unfold dist mag sub pt; simp
  have hlp : linePointXY ⟨pt 0 0, pt 2 0⟩ (pt 0 0) true .distance = .ok (.num 0) := by
    unfold linePointXY
    rw [if_neg (by rw [hdist]; unfold eps; norm_num),
      if_neg (by unfold isXYPlanar pt; have := eps_pos; simp; linarith)]
    unfold lpResult lpDist lpSum1
    simp only
    rw [hpi, h00, hdist, if_pos (by simp [eps_pos]), hld]
  refine ⟨laPoint ⟨pt 0 0, pt 2 0⟩ ⟨pt 0 0, 1, 0, 360, false, none⟩ (3 / 2),
    laPoint ⟨pt 0 0, pt 2 0⟩ ⟨pt 0 0, 1, 0, 360, false, none⟩ (1 / 2), ?_, ?_, ?_⟩
  · unfold lineArcIntersectXY
    rw [if_neg (by unfold normalOk; simp), if_neg (by unfold isXYPlanar pt; have := eps_pos; simp; linarith), hlp]
    simp only
    rw [if_neg (by unfold eps; norm_num), if_neg (by rw [hA]; unfold eps; norm_num), hroots]
    simp [iscircle]
  · unfold laPoint add scale3 sub pt
    norm_num
  · unfold laPoint add scale3 sub pt
    norm_num

/-! ## C116: tangents -/

theorem sin_atan2 {y x : ℝ} (h : x ^ 2 + y ^ 2 ≠ 0) : sin (atan2 y x) = y / √(x ^ 2 + y ^ 2) ∧
    cos (atan2 y x) = x / √(x ^ 2 + y ^ 2) := by
  have hz : (⟨x, y⟩ : ℂ) ≠ 0 := by
    intro h0
    have h1 := congrArg Complex.re h0
    have h2 := congrArg Complex.im h0
    simp only [Complex.zero_re, Complex.zero_im] at h1 h2
    rw [h1, h2] at h; simp at h
  have hn : ‖(⟨x, y⟩ : ℂ)‖ = √(x ^ 2 + y ^ 2) := by
    rw [Complex.norm_def, Complex.normSq_mk]
    congr 1; ring
  unfold atan2
  rw [Complex.sin_arg, Complex.cos_arg hz, hn]
  exact ⟨rfl, rfl⟩

/-- `m` touches both circles from outside with unit normal `n`: the ends are at distance `r` from the
centres in the direction `n`, and `m` is perpendicular to `n` -/
def OuterTangent (c1 c2 : Arc) (m : Line) (n : V4) : Prop :=
  n.x ^ 2 + n.y ^ 2 = 1 ∧
  m.a.x = c1.c.x + c1.r * n.x ∧ m.a.y = c1.c.y + c1.r * n.y ∧ m.a.z = c1.c.z ∧
  m.b.x = c2.c.x + c2.r * n.x ∧ m.b.y = c2.c.y + c2.r * n.y ∧ m.b.z = c2.c.z ∧
  (m.b.x - m.a.x) * n.x + (m.b.y - m.a.y) * n.y = 0

theorem tangentsOrdered_spec (sm bg : Arc) (hz : sm.c.z = bg.c.z) (hr : sm.r ≤ bg.r)
    (hd : bg.r - sm.r < dist sm.c bg.c) :
    ∃ t n1 n2, tangentsOrdered sm bg = some t ∧ OuterTangent sm bg ⟨t.1.1, t.1.2⟩ n1 ∧
      OuterTangent sm bg ⟨t.2.1, t.2.2⟩ n2 ∧ (n1.x ≠ n2.x ∨ n1.y ≠ n2.y) := by
  unfold tangentsOrdered
  simp only
  rw [if_neg (not_le.mpr hd)]
  have hd0 : 0 < dist sm.c bg.c := by linarith
  have hds : dist sm.c bg.c * dist sm.c bg.c = (bg.c.x - sm.c.x) ^ 2 + (bg.c.y - sm.c.y) ^ 2 := by
    unfold dist mag sub
    rw [Real.mul_self_sqrt (by nlinarith [sq_nonneg (sm.c.x - bg.c.x), sq_nonneg (sm.c.y - bg.c.y), sq_nonneg (sm.c.z - bg.c.z)])]
    simp only [hz]; ring
  set d := dist sm.c bg.c with hdd
  set dr := bg.r - sm.r with hdr
  have hpos : 0 < d * d - dr * dr := by nlinarith
  have hbeta : √(d * d - dr * dr) ^ 2 = d * d - dr * dr := Real.sq_sqrt hpos.le
  have hbp : 0 < √(d * d - dr * dr) := Real.sqrt_pos.mpr hpos
  have hsum : √(d * d - dr * dr) ^ 2 + dr ^ 2 = d ^ 2 := by rw [hbeta]; ring
  obtain ⟨hs1, hc1⟩ := sin_atan2 (y := dr) (x := √(d * d - dr * dr)) (by rw [hsum]; positivity)
  rw [hsum, Real.sqrt_sq hd0.le] at hs1 hc1
  have hx : (sub bg.c sm.c).x = bg.c.x - sm.c.x := rfl
  have hy : (sub bg.c sm.c).y = bg.c.y - sm.c.y := rfl
  have hxy : (sub bg.c sm.c).x ^ 2 + (sub bg.c sm.c).y ^ 2 = d ^ 2 := by rw [hx, hy]; linarith
  obtain ⟨hs2, hc2⟩ := sin_atan2 (y := (sub bg.c sm.c).y) (x := (sub bg.c sm.c).x) (by rw [hxy]; positivity)
  rw [hxy, Real.sqrt_sq hd0.le] at hs2 hc2
  set th := atan2 dr √(d * d - dr * dr)
  set ph := atan2 (sub bg.c sm.c).y (sub bg.c sm.c).x
  have hdx : bg.c.x - sm.c.x = d * cos ph := by rw [hc2, ← hx]; field_simp
  have hdy : bg.c.y - sm.c.y = d * sin ph := by rw [hs2, ← hy]; field_simp
  have hdr' : dr = d * sin th := by rw [hs1]; field_simp
  have tp := sin_sq_add_cos_sq ph
  have tt := sin_sq_add_cos_sq th
  have e1c : cos (ph + th + π / 2) = -(sin ph * cos th + cos ph * sin th) := by rw [cos_add_pi_div_two, sin_add]
  have e1s : sin (ph + th + π / 2) = cos ph * cos th - sin ph * sin th := by rw [sin_add_pi_div_two, cos_add]
  have e2c : cos (ph - th - π / 2) = sin ph * cos th - cos ph * sin th := by rw [cos_sub_pi_div_two, sin_sub]
  have e2s : sin (ph - th - π / 2) = -(cos ph * cos th + sin ph * sin th) := by rw [sin_sub_pi_div_two, cos_sub]
  refine ⟨_, pt (cos (ph + th + π / 2)) (sin (ph + th + π / 2)), pt (cos (ph - th - π / 2)) (sin (ph - th - π / 2)),
    rfl, ?_, ?_, ?_⟩
  · unfold OuterTangent add scale3 pt
    simp only
    refine ⟨by linarith [sin_sq_add_cos_sq (ph + th + π / 2)], by ring, by ring, by ring, by ring, by ring, by ring, ?_⟩
    rw [e1c, e1s]
    have h1 : bg.r = sm.r + d * sin th := by linarith
    have h2 : bg.c.x = sm.c.x + d * cos ph := by linarith
    have h3 : bg.c.y = sm.c.y + d * sin ph := by linarith
    rw [h1, h2, h3]
    linear_combination (d * sin th * (sin th ^ 2 + cos th ^ 2) - d * sin th) * tp + d * sin th * tt
  · unfold OuterTangent add scale3 pt
    simp only
    refine ⟨by linarith [sin_sq_add_cos_sq (ph - th - π / 2)], by ring, by ring, by ring, by ring, by ring, by ring, ?_⟩
    rw [e2c, e2s]
    have h1 : bg.r = sm.r + d * sin th := by linarith
    have h2 : bg.c.x = sm.c.x + d * cos ph := by linarith
    have h3 : bg.c.y = sm.c.y + d * sin ph := by linarith
    rw [h1, h2, h3]
    linear_combination (d * sin th * (sin th ^ 2 + cos th ^ 2) - d * sin th) * tp + d * sin th * tt
  · by_contra hcon
    push Not at hcon
    simp only [pt] at hcon
    rw [e1c, e1s, e2c, e2s] at hcon
    have hcth : 0 < cos th := by rw [hc1]; positivity
    have h1 : sin ph * cos th = 0 := by linarith [hcon.1]
    have h2 : cos ph * cos th = 0 := by linarith [hcon.2]
    have h3 : sin ph = 0 := by rcases mul_eq_zero.mp h1 with h | h; exact h; exact absurd h hcth.ne'
    have h4 : cos ph = 0 := by rcases mul_eq_zero.mp h2 with h | h; exact h; exact absurd h hcth.ne'
    rw [h3, h4] at tp
    norm_num at tp

/-- **C116** for two circles in a plane, neither of which contains the other, two different lines are
returned, each from the first circle to the second, touching both on the same side and perpendicular to
both radii (the two outer tangents) -/
theorem C116_tangents (c1 c2 : Arc) (hz : c1.c.z = c2.c.z) (hd : |c1.r - c2.r| < dist c1.c c2.c) :
    ∃ m1 m2 n1 n2, circleTangents c1 c2 = some (m1, m2) ∧ OuterTangent c1 c2 m1 n1 ∧
      OuterTangent c1 c2 m2 n2 ∧ (n1.x ≠ n2.x ∨ n1.y ≠ n2.y) := by
  unfold circleTangents
  split
  · rename_i h
    have hsym : dist c2.c c1.c = dist c1.c c2.c := by unfold dist mag sub; congr 1; simp only; ring
    obtain ⟨t, n1, n2, ht, h1, h2, h3⟩ := tangentsOrdered_spec c2 c1 hz.symm (le_of_lt h)
      (by rw [hsym]; exact lt_of_le_of_lt (le_abs_self _) hd)
    rw [ht]
    refine ⟨_, _, n1, n2, rfl, ?_, ?_, h3⟩
    · obtain ⟨a, b, c, d, e, f, g, i⟩ := h1
      exact ⟨a, e, f, g, b, c, d, by simp only at i ⊢; linarith⟩
    · obtain ⟨a, b, c, d, e, f, g, i⟩ := h2
      exact ⟨a, e, f, g, b, c, d, by simp only at i ⊢; linarith⟩
  · rename_i h
    obtain ⟨t, n1, n2, ht, h1, h2, h3⟩ := tangentsOrdered_spec c1 c2 hz (not_lt.mp h)
      (lt_of_le_of_lt (by rw [abs_sub_comm]; exact le_abs_self _) hd)
    rw [ht]
    exact ⟨_, _, n1, n2, rfl, h1, h2, h3⟩

/-- **C116** otherwise the call is rejected -/
theorem C116_rejects (c1 c2 : Arc) (hd : dist c1.c c2.c ≤ |c1.r - c2.r|) : circleTangents c1 c2 = none := by
  have hsym : dist c2.c c1.c = dist c1.c c2.c := by unfold dist mag sub; congr 1; simp only; ring
  unfold circleTangents
  split
  · rename_i h
    have : tangentsOrdered c2 c1 = none := by
      unfold tangentsOrdered
      simp only
      rw [if_pos]
      rw [hsym]
      rw [abs_of_pos (by linarith)] at hd
      exact hd
    rw [this]; rfl
  · rename_i h
    have : tangentsOrdered c1 c2 = none := by
      unfold tangentsOrdered
      simp only
      rw [if_pos]
      rw [abs_of_nonpos (by linarith)] at hd
      linarith
    rw [this]; rfl

/-- the hypotheses are met by circles of radius 3 and 1 with centres 4 apart -/
example : |(⟨pt 0 0, 3, 0, 360, false, none⟩ : Arc).r - (⟨pt 4 0, 1, 0, 360, false, none⟩ : Arc).r| <
    dist (pt 0 0) (pt 4 0) := by
  have hdist : dist (pt 0 0) (pt 4 0) = 4 := by
    unfold dist mag sub pt
    norm_num
    rw [show (16 : ℝ) = 4 ^ 2 by norm_num, Real.sqrt_sq (by norm_num)]
  rw [hdist]; norm_num

end Verif.Geom
