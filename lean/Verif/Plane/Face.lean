import Verif.Plane.Inter
import Verif.Geom.CircleProps

/-!
# C355: signed distance of a point from a triangle
-/

namespace Verif.Plane
open Verif.Geom Verif.Xform
open Verif.Prim (tri2p0n)

/-- the plane coordinates relative to the first corner -/
def loc (o vx vy q : V4) : V4 := pt (Geom.dot (Geom.sub q o) vx) (Geom.dot (Geom.sub q o) vy)

/-- the answer in terms of the plane coordinates -/
noncomputable def faceFrom (m : ℝ) (r : Except Err ℝ) : Except Err ℝ :=
  match r with
  | .error e => .error e
  | .ok ind => .ok (faceTotal m ind)

theorem sfd_frame (t : Tri) (h : eps ≤ √(area2sq t)) : ∃ p0 n vx vy, tri2p0n t.p1 t.p2 t.p3 = .ok (p0, n) ∧ Frame vx vy n ∧
    (Geom.dot (Geom.sub t.p2 t.p1) n = 0 ∧ Geom.dot (Geom.sub t.p3 t.p1) n = 0 ∧ OnPlane t.p1 p0 n) ∧
    ∀ p, signedFaceDistance p t = faceFrom (-Geom.dot (Geom.sub p t.p1) n)
      (inPlaneDist (loc t.p1 vx vy p) (loc t.p1 vx vy t.p1) (loc t.p1 vx vy t.p2) (loc t.p1 vx vy t.p3)) := by
  rcases C349_plane t with ⟨h', _⟩ | ⟨_, p0, n, he, _, _, hu, h1, h2, h3, _⟩
  · exact absurd h' (not_lt.mpr h)
  have hv := mag_pos_of_area t h
  have ho : Geom.dot (Geom.sub t.p2 t.p1) n = 0 := by
    simp only [OnPlane] at h1 h2
    simp only [Geom.dot, Geom.sub]
    linear_combination h2 - h1
  have ho3 : Geom.dot (Geom.sub t.p3 t.p1) n = 0 := by
    simp only [OnPlane] at h1 h3
    simp only [Geom.dot, Geom.sub]
    linear_combination h3 - h1
  have F := frame_of _ n hv hu ho
  refine ⟨p0, n, axisX (Geom.sub t.p2 t.p1), axisY (Geom.sub t.p2 t.p1) n, he, F, ⟨ho, ho3, h1⟩, ?_⟩
  intro p
  unfold signedFaceDistance
  rw [he]
  simp only
  rw [if_neg hv.ne']
  have hk : (1 / Geom.mag (Geom.sub t.p2 t.p1)) * Geom.mag (Geom.sub t.p2 t.p1) ^ 2 = Geom.mag (Geom.sub t.p2 t.p1) := by
    field_simp
  have hsq : Geom.mag (Geom.sub t.p2 t.p1) ^ 2 = Geom.dot (Geom.sub t.p2 t.p1) (Geom.sub t.p2 t.p1) := by
    unfold Geom.mag
    rw [Real.sq_sqrt (by nlinarith [sq_nonneg (Geom.sub t.p2 t.p1).x, sq_nonneg (Geom.sub t.p2 t.p1).y, sq_nonneg (Geom.sub t.p2 t.p1).z])]
    rfl
  have e1 : loc t.p1 (axisX (Geom.sub t.p2 t.p1)) (axisY (Geom.sub t.p2 t.p1) n) t.p1 = pt 0 0 := by
    simp only [loc, Geom.dot, Geom.sub, pt, V4.mk.injEq]
    refine ⟨by ring, by ring, trivial, trivial⟩
  have e2 : loc t.p1 (axisX (Geom.sub t.p2 t.p1)) (axisY (Geom.sub t.p2 t.p1) n) t.p2 = pt (Geom.mag (Geom.sub t.p2 t.p1)) 0 := by
    unfold loc
    congr 1
    · rw [hsq] at hk
      refine Eq.trans ?_ hk
      simp only [axisX, Geom.dot, Geom.scale3]
      ring
    · simp only [axisX, axisY, Geom.dot, Geom.scale3, Geom.cross]
      ring
  have e3 : ∀ q, loc t.p1 (axisX (Geom.sub t.p2 t.p1)) (axisY (Geom.sub t.p2 t.p1) n)
      (Geom.add q (Geom.scale3 n (-Geom.dot (Geom.sub q t.p1) n))) =
      loc t.p1 (axisX (Geom.sub t.p2 t.p1)) (axisY (Geom.sub t.p2 t.p1) n) q := by
    intro q
    have hx := F.xz
    have hy := F.yz
    generalize axisX (Geom.sub t.p2 t.p1) = X at *
    generalize axisY (Geom.sub t.p2 t.p1) n = Y at *
    simp only [Geom.dot] at hx hy
    unfold loc
    congr 1 <;> simp only [Geom.dot, Geom.add, Geom.sub, Geom.scale3]
    · linear_combination (-((q.x - t.p1.x) * n.x + (q.y - t.p1.y) * n.y + (q.z - t.p1.z) * n.z)) * hx
    · linear_combination (-((q.x - t.p1.x) * n.x + (q.y - t.p1.y) * n.y + (q.z - t.p1.z) * n.z)) * hy
  rw [← e3 p, e1, e2]
  unfold faceFrom loc
  rfl

/-! ## the problem in the plane -/

/-- the point with weights `a b c` in the plane triangle -/
def comb (p1 p2 p3 : V4) (a b c : ℝ) : V4 := pt (a * p1.x + b * p2.x + c * p3.x) (a * p1.y + b * p2.y + c * p3.y)

/-- leaving a triangle: between a point with non-negative weights and one with a negative weight there is a point with
non-negative weights, one of them zero -/
theorem exit_point (l1 l2 l3 m1 m2 m3 : ℝ) (hm1 : 0 ≤ m1) (hm2 : 0 ≤ m2) (hm3 : 0 ≤ m3)
    (hneg : l1 < 0 ∨ l2 < 0 ∨ l3 < 0) :
    ∃ s, 0 ≤ s ∧ s ≤ 1 ∧ 0 ≤ m1 + s * (l1 - m1) ∧ 0 ≤ m2 + s * (l2 - m2) ∧ 0 ≤ m3 + s * (l3 - m3) ∧
      (m1 + s * (l1 - m1) = 0 ∨ m2 + s * (l2 - m2) = 0 ∨ m3 + s * (l3 - m3) = 0) := by
  have step : ∀ m l : ℝ, 0 ≤ m → ∃ f, 0 ≤ f ∧ f ≤ 1 ∧ (∀ s, 0 ≤ s → s ≤ f → 0 ≤ m + s * (l - m)) ∧
      ((f = 1 ∧ 0 ≤ l) ∨ (l < 0 ∧ m + f * (l - m) = 0)) := by
    intro m l hm
    rcases lt_or_ge l 0 with hl | hl
    · have hd : 0 < m - l := by linarith
      have e : m / (m - l) * (m - l) = m := by field_simp
      refine ⟨m / (m - l), by positivity, by rw [div_le_one hd]; linarith, ?_, Or.inr ⟨hl, by linear_combination -e⟩⟩
      intro s hs hsf
      have := mul_le_mul_of_nonneg_right hsf hd.le
      rw [e] at this
      linarith
    · refine ⟨1, zero_le_one, le_refl _, ?_, Or.inl ⟨rfl, hl⟩⟩
      intro s hs hsf
      have := mul_nonneg hs hl
      have := mul_nonneg (sub_nonneg.mpr hsf) hm
      linarith
  obtain ⟨f1, a1, b1, c1, d1⟩ := step m1 l1 hm1
  obtain ⟨f2, a2, b2, c2, d2⟩ := step m2 l2 hm2
  obtain ⟨f3, a3, b3, c3, d3⟩ := step m3 l3 hm3
  have s1 : min f1 (min f2 f3) ≤ f1 := min_le_left _ _
  have s2 : min f1 (min f2 f3) ≤ f2 := le_trans (min_le_right _ _) (min_le_left _ _)
  have s3 : min f1 (min f2 f3) ≤ f3 := le_trans (min_le_right _ _) (min_le_right _ _)
  have hs0 : 0 ≤ min f1 (min f2 f3) := le_min a1 (le_min a2 a3)
  have heq : min f1 (min f2 f3) = f1 ∨ min f1 (min f2 f3) = f2 ∨ min f1 (min f2 f3) = f3 := by
    rcases min_choice f1 (min f2 f3) with h | h
    · exact Or.inl h
    · rcases min_choice f2 f3 with h' | h'
      · exact Or.inr (Or.inl (h.trans h'))
      · exact Or.inr (Or.inr (h.trans h'))
  generalize min f1 (min f2 f3) = s at *
  refine ⟨s, hs0, le_trans s1 b1, c1 s hs0 s1, c2 s hs0 s2, c3 s hs0 s3, ?_⟩
  have k1 := c1 s hs0 s1
  have k2 := c2 s hs0 s2
  have k3 := c3 s hs0 s3
  have one : s = 1 → False := by
    intro hs
    subst hs
    rcases hneg with h | h | h <;> linarith
  rcases heq with h | h | h
  · rcases d1 with ⟨e, _⟩ | ⟨_, e⟩
    · exact (one (h.trans e)).elim
    · left; rw [h]; exact e
  · rcases d2 with ⟨e, _⟩ | ⟨_, e⟩
    · exact (one (h.trans e)).elim
    · right; left; rw [h]; exact e
  · rcases d3 with ⟨e, _⟩ | ⟨_, e⟩
    · exact (one (h.trans e)).elim
    · right; right; rw [h]; exact e

theorem lpDist_nonneg (l : Line) (p : V4) : 0 ≤ lpDist l p := by
  unfold lpDist linedist
  split_ifs
  · exact abs_nonneg _
  · exact abs_nonneg _
  · exact Real.sqrt_nonneg _
  · exact Real.sqrt_nonneg _

theorem edgeDist_total (l : Line) (p : V4) (ha : l.a.z = 0) (hb : l.b.z = 0) (hp : p.z = 0) :
    ∃ d, edgeDist l p = .ok d ∧ 0 ≤ d ∧ (dist l.a l.b < eps → d = 0) ∧
      (eps ≤ dist l.a l.b → linePointXY l p true .distance = .ok (.num d)) := by
  have hpl : isXYPlanar [p, l.a, l.b] := by
    simp only [isXYPlanar, List.mem_cons, List.not_mem_nil, or_false]
    rintro q (rfl | rfl) <;> simp [ha, hb, hp, eps_pos.le]
  unfold edgeDist linePointXY
  rcases lt_or_ge (dist l.a l.b) eps with h | h
  · rw [if_pos h]
    exact ⟨0, rfl, le_refl _, fun _ => rfl, fun h' => absurd h (not_lt.mpr h')⟩
  · rw [if_neg (not_lt.mpr h), if_neg (not_not.mpr hpl)]
    exact ⟨lpDist l p, rfl, lpDist_nonneg l p, fun h' => absurd h' (not_lt.mpr h), fun _ => rfl⟩

/-- what the distance along one edge means -/
structure EdgeIs (l : Line) (p : V4) (d : ℝ) : Prop where
  low : ∀ t q, 0 ≤ t → t ≤ 1 → AtParam l.a l.b t q → d ≤ dist p q
  nn : 0 ≤ d
  near : ∃ t q, 0 ≤ t ∧ t ≤ 1 ∧ AtParam l.a l.b t q ∧ dist p q ≤ d + eps / 2

theorem edge_is (l : Line) (p : V4) (ha : l.a.z = 0) (hb : l.b.z = 0) (hp : p.z = 0) (hl : eps ≤ dist l.a l.b) :
    ∃ d, edgeDist l p = .ok d ∧ EdgeIs l p d := by
  obtain ⟨d, e, h0, _, h⟩ := edgeDist_total l p ha hb hp
  have := C113_segment_distance l p d ⟨by rw [ha, hb], by rw [ha, hp]⟩ (h hl)
  exact ⟨d, e, this.1, h0, this.2⟩

theorem dist_sq (p q : V4) : dist p q ^ 2 = sqDist p q := by
  unfold Geom.dist Geom.mag
  rw [Real.sq_sqrt (by nlinarith [sq_nonneg (Geom.sub p q).x, sq_nonneg (Geom.sub p q).y, sq_nonneg (Geom.sub p q).z])]
  simp only [Geom.sub, sqDist]
  ring

theorem dist_nonneg' (p q : V4) : 0 ≤ dist p q := Real.sqrt_nonneg _

theorem inPlane_spec (aa p1 p2 p3 : V4) (z : aa.z = 0) (z1 : p1.z = 0) (z2 : p2.z = 0) (z3 : p3.z = 0)
    (hd : eps ≤ |(p1.x - p3.x) * (p2.y - p3.y) - (p2.x - p3.x) * (p1.y - p3.y)|)
    (e12 : eps ≤ dist p1 p2) (e23 : eps ≤ dist p2 p3) (e31 : eps ≤ dist p3 p1) :
    ∃ ind, inPlaneDist aa p1 p2 p3 = .ok ind ∧
      (∀ a b c, 0 ≤ a → 0 ≤ b → 0 ≤ c → a + b + c = 1 → ind ≤ dist aa (comb p1 p2 p3 a b c)) ∧
      ∃ a b c, 0 ≤ a ∧ 0 ≤ b ∧ 0 ≤ c ∧ a + b + c = 1 ∧ dist aa (comb p1 p2 p3 a b c) ≤ ind + eps / 2 ∧ 0 ≤ ind := by
  have hpl : isXYPlanar [aa, p1, p2, p3] := by
    simp only [isXYPlanar, List.mem_cons, List.not_mem_nil, or_false]
    rintro q (rfl | rfl | rfl) <;> simp [z, z1, z2, z3, eps_pos.le]
  rcases hb : barycentricXY aa p1 p2 p3 with e | ⟨l1, l2, l3⟩
  · exfalso
    have hb' : barycentricXY aa p1 p2 p3 = .error .valueError := by
      unfold barycentricXY barycentric at hb ⊢
      rw [if_pos hpl] at hb ⊢
      simp only at hb ⊢
      split at hb
      · rename_i h; rw [if_pos h]
      · cases hb
    rcases (C42_error aa p1 p2 p3).mp hb' with h | h
    · exact h hpl
    · exact absurd h (not_lt.mpr hd)
  obtain ⟨hs, hx, hy⟩ := C42_reproduces aa p1 p2 p3 l1 l2 l3 hb
  have haa : Same3 aa (comb p1 p2 p3 l1 l2 l3) := ⟨hx, hy, z⟩
  unfold inPlaneDist
  rw [hb]
  simp only
  split
  · rename_i hin
    refine ⟨0, rfl, fun _ _ _ _ _ _ _ => dist_nonneg' _ _, l1, l2, l3, hin.1.1, hin.2.1.1, hin.2.2.1, hs, ?_, le_refl _⟩
    have : sqDist aa (comb p1 p2 p3 l1 l2 l3) = 0 := by
      unfold sqDist; rw [haa.1, haa.2.1, haa.2.2]; ring
    have h2 := dist_sq aa (comb p1 p2 p3 l1 l2 l3)
    rw [this] at h2
    have : dist aa (comb p1 p2 p3 l1 l2 l3) = 0 := by
      exact pow_eq_zero_iff (two_ne_zero) |>.mp h2
    rw [this]; linarith [eps_pos]
  · rename_i hout
    obtain ⟨d1, q1, i1⟩ := edge_is ⟨p1, p2⟩ aa z1 z2 z e12
    obtain ⟨d2, q2, i2⟩ := edge_is ⟨p2, p3⟩ aa z2 z3 z e23
    obtain ⟨d3, q3, i3⟩ := edge_is ⟨p3, p1⟩ aa z3 z1 z e31
    unfold edgesDist
    rw [q1, q2, q3]
    refine ⟨_, rfl, ?_, ?_⟩
    · intro a b c ha hb' hc hsum
      have hneg : l1 < 0 ∨ l2 < 0 ∨ l3 < 0 := by
        by_contra hn
        push Not at hn
        exact hout ⟨⟨hn.1, by linarith⟩, ⟨hn.2.1, by linarith⟩, ⟨hn.2.2, by linarith⟩⟩
      obtain ⟨s, hs0, hs1, k1, k2, k3, hz⟩ := exit_point l1 l2 l3 a b c ha hb' hc hneg
      have hle : dist aa (comb p1 p2 p3 (a + s * (l1 - a)) (b + s * (l2 - b)) (c + s * (l3 - c))) ≤ dist aa (comb p1 p2 p3 a b c) := by
        refine (sq_le_sq₀ (dist_nonneg' _ _) (dist_nonneg' _ _)).mp ?_
        rw [dist_sq, dist_sq]
        have e : sqDist aa (comb p1 p2 p3 (a + s * (l1 - a)) (b + s * (l2 - b)) (c + s * (l3 - c))) =
            (1 - s) ^ 2 * sqDist aa (comb p1 p2 p3 a b c) := by
          simp only [sqDist, comb, pt, hx, hy, z]; ring
        rw [e]
        have : 0 ≤ sqDist aa (comb p1 p2 p3 a b c) := by unfold sqDist; positivity
        exact mul_le_of_le_one_left this (pow_le_one₀ (by linarith) (by linarith))
      have hsum' : (a + s * (l1 - a)) + (b + s * (l2 - b)) + (c + s * (l3 - c)) = 1 := by
        linear_combination (1 - s) * hsum + s * hs
      refine le_trans ?_ hle
      generalize a + s * (l1 - a) = A at *
      generalize b + s * (l2 - b) = B at *
      generalize c + s * (l3 - c) = C at *
      rcases hz with h | h | h
      · subst h
        refine le_trans (min_le_right _ _) (le_trans (min_le_left _ _) (i2.low C _ k3 (by linarith) ?_))
        have : B = 1 - C := by linarith
        subst this
        simp only [AtParam, comb, pt, z2, z3]
        refine ⟨by ring, by ring, by ring⟩
      · subst h
        refine le_trans (min_le_right _ _) (le_trans (min_le_right _ _) (i3.low A _ k1 (by linarith) ?_))
        have : C = 1 - A := by linarith
        subst this
        simp only [AtParam, comb, pt, z1, z3]
        refine ⟨by ring, by ring, by ring⟩
      · subst h
        refine le_trans (min_le_left _ _) (i1.low B _ k2 (by linarith) ?_)
        have : A = 1 - B := by linarith
        subst this
        simp only [AtParam, comb, pt, z1, z2]
        refine ⟨by ring, by ring, by ring⟩
    · have same : ∀ {u v : V4}, Same3 u v → dist aa u = dist aa v := by
        intro u v ⟨a1, a2, a3⟩
        simp only [Geom.dist, Geom.sub, Geom.mag, a1, a2, a3]
      have hmin : min d1 (min d2 d3) = d1 ∨ min d1 (min d2 d3) = d2 ∨ min d1 (min d2 d3) = d3 := by
        rcases min_choice d1 (min d2 d3) with h | h
        · exact Or.inl h
        · rcases min_choice d2 d3 with h' | h'
          · exact Or.inr (Or.inl (h.trans h'))
          · exact Or.inr (Or.inr (h.trans h'))
      rcases hmin with h | h | h <;> rw [h]
      · obtain ⟨u, q, u0, u1, ⟨x1, x2, x3⟩, hq⟩ := i1.near
        refine ⟨1 - u, u, 0, by linarith, u0, le_refl _, by ring, ?_, i1.nn⟩
        rw [← same (u := q)]
        · exact hq
        · refine ⟨?_, ?_, ?_⟩ <;> simp only [comb, pt]
          · rw [x1]; ring
          · rw [x2]; ring
          · rw [x3]; simp only [z1, z2]; ring
      · obtain ⟨u, q, u0, u1, ⟨x1, x2, x3⟩, hq⟩ := i2.near
        refine ⟨0, 1 - u, u, le_refl _, by linarith, u0, by ring, ?_, i2.nn⟩
        rw [← same (u := q)]
        · exact hq
        · refine ⟨?_, ?_, ?_⟩ <;> simp only [comb, pt]
          · rw [x1]; ring
          · rw [x2]; ring
          · rw [x3]; simp only [z3, z2]; ring
      · obtain ⟨u, q, u0, u1, ⟨x1, x2, x3⟩, hq⟩ := i3.near
        refine ⟨u, 0, 1 - u, u0, le_refl _, by linarith, by ring, ?_, i3.nn⟩
        rw [← same (u := q)]
        · exact hq
        · refine ⟨?_, ?_, ?_⟩ <;> simp only [comb, pt]
          · rw [x1]; ring
          · rw [x2]; ring
          · rw [x3]; simp only [z3, z1]; ring

/-! ## the distance in space -/

theorem area_pos_dist (t : Tri) : area2sq t = sqDist t.p1 t.p2 * sqDist t.p1 t.p3 -
    ((sqDist t.p1 t.p2 + sqDist t.p1 t.p3 - sqDist t.p2 t.p3) / 2) ^ 2 := area_dist t

theorem loc_dist {o vx vy n : V4} (F : Frame vx vy n) (p q : V4) :
    sqDist p q = sqDist (loc o vx vy p) (loc o vx vy q) + (Geom.dot (Geom.sub p o) n - Geom.dot (Geom.sub q o) n) ^ 2 := by
  have := frame_norm F (p.x - q.x) (p.y - q.y) (p.z - q.z)
  simp only [sqDist, loc, pt, Geom.dot, Geom.sub]
  rw [← this]
  ring

theorem loc_denom {t : Tri} {vx vy n : V4} (F : Frame vx vy n) (h2 : Geom.dot (Geom.sub t.p2 t.p1) n = 0)
    (h3 : Geom.dot (Geom.sub t.p3 t.p1) n = 0) (h : eps ≤ √(area2sq t)) :
    eps ≤ |((loc t.p1 vx vy t.p1).x - (loc t.p1 vx vy t.p3).x) * ((loc t.p1 vx vy t.p2).y - (loc t.p1 vx vy t.p3).y) -
      ((loc t.p1 vx vy t.p2).x - (loc t.p1 vx vy t.p3).x) * ((loc t.p1 vx vy t.p1).y - (loc t.p1 vx vy t.p3).y)| := by
  have h1 : Geom.dot (Geom.sub t.p1 t.p1) n = 0 := by simp only [Geom.dot, Geom.sub]; ring
  have e : area2sq t = area2sq ⟨loc t.p1 vx vy t.p1, loc t.p1 vx vy t.p2, loc t.p1 vx vy t.p3⟩ := by
    rw [area_dist, area_dist]
    simp only
    rw [loc_dist (o := t.p1) F t.p1 t.p2, loc_dist (o := t.p1) F t.p1 t.p3, loc_dist (o := t.p1) F t.p2 t.p3, h1, h2, h3]
    simp
  rw [e] at h
  have e2 : area2sq ⟨loc t.p1 vx vy t.p1, loc t.p1 vx vy t.p2, loc t.p1 vx vy t.p3⟩ =
      (((loc t.p1 vx vy t.p1).x - (loc t.p1 vx vy t.p3).x) * ((loc t.p1 vx vy t.p2).y - (loc t.p1 vx vy t.p3).y) -
      ((loc t.p1 vx vy t.p2).x - (loc t.p1 vx vy t.p3).x) * ((loc t.p1 vx vy t.p1).y - (loc t.p1 vx vy t.p3).y)) ^ 2 := by
    unfold area2sq
    simp only [loc, pt]
    ring
  rw [e2, Real.sqrt_sq_eq_abs] at h
  exact h

theorem loc_edge {o vx vy n : V4} (F : Frame vx vy n) {p q : V4} (h : Geom.dot (Geom.sub p o) n = Geom.dot (Geom.sub q o) n)
    (hd : eps ^ 2 ≤ sqDist p q) : eps ≤ dist (loc o vx vy p) (loc o vx vy q) := by
  refine (sq_le_sq₀ eps_pos.le (dist_nonneg' _ _)).mp ?_
  rw [dist_sq]
  rw [loc_dist (o := o) F p q, h] at hd
  simpa using hd

/-- **C355** (triangles whose edges are at least epsilon long) the signed distance of a point `p` from a triangle: an answer
always exists; its absolute value never exceeds the distance to any point of the triangle and some point of the triangle is
at most 1.5 epsilon further away; it is negative exactly when the point is at least epsilon below the plane, on the side
away from the normal -/
theorem C355_distance_partial (t : Tri) (p : V4) (ha : eps ≤ √(area2sq t)) (e12 : eps ^ 2 ≤ sqDist t.p1 t.p2)
    (e23 : eps ^ 2 ≤ sqDist t.p2 t.p3) (e31 : eps ^ 2 ≤ sqDist t.p3 t.p1) :
    ∃ d, signedFaceDistance p t = .ok d ∧
      (∀ q, InTri t q → d ^ 2 ≤ sqDist p q) ∧
      (∃ q, InTri t q ∧ sqDist p q ≤ (|d| + 3 / 2 * eps) ^ 2) ∧
      ∀ p0 n, tri2p0n t.p1 t.p2 t.p3 = .ok (p0, n) → (d < 0 ↔ signedPlaneDistance p p0 n ≤ -eps) := by
  obtain ⟨p0, n, vx, vy, hN, F, ⟨h2, h3, hon⟩, hS⟩ := sfd_frame t ha
  have h1 : Geom.dot (Geom.sub t.p1 t.p1) n = 0 := by simp only [Geom.dot, Geom.sub]; ring
  obtain ⟨ind, hi, hlow, a, b, c, ka, kb, kc, ks, hnear, hnn⟩ := inPlane_spec (loc t.p1 vx vy p) (loc t.p1 vx vy t.p1)
    (loc t.p1 vx vy t.p2) (loc t.p1 vx vy t.p3) rfl rfl rfl rfl (loc_denom F h2 h3 ha)
    (loc_edge F (by rw [h1, h2]) e12) (loc_edge F (by rw [h2, h3]) e23) (loc_edge F (by rw [h3, h1]) e31)
  have hS' := hS p
  rw [hi] at hS'
  simp only [faceFrom] at hS'
  -- points of the triangle in the local coordinates
  have hloc : ∀ q a b c, a + b + c = 1 → q.x = a * t.p1.x + b * t.p2.x + c * t.p3.x →
      q.y = a * t.p1.y + b * t.p2.y + c * t.p3.y → q.z = a * t.p1.z + b * t.p2.z + c * t.p3.z →
      sqDist p q = dist (loc t.p1 vx vy p) (comb (loc t.p1 vx vy t.p1) (loc t.p1 vx vy t.p2) (loc t.p1 vx vy t.p3) a b c) ^ 2 +
        Geom.dot (Geom.sub p t.p1) n ^ 2 := by
    intro q a b c hs x1 x2 x3
    rw [dist_sq, loc_dist (o := t.p1) F p q]
    have hc : c = 1 - a - b := by linarith
    have e1 : loc t.p1 vx vy q = comb (loc t.p1 vx vy t.p1) (loc t.p1 vx vy t.p2) (loc t.p1 vx vy t.p3) a b c := by
      unfold loc comb
      simp only [pt, Geom.dot, Geom.sub, x1, x2, x3, hc, V4.mk.injEq]
      refine ⟨by ring, by ring, trivial, trivial⟩
    have e2 : Geom.dot (Geom.sub q t.p1) n = 0 := by
      simp only [Geom.dot, Geom.sub] at h2 h3 ⊢
      rw [x1, x2, x3, hc]
      linear_combination b * h2 + (1 - a - b) * h3
    rw [e1, e2, sub_zero]
  generalize hm : Geom.dot (Geom.sub p t.p1) n = m at *
  have hpl : ∀ p0' n', tri2p0n t.p1 t.p2 t.p3 = .ok (p0', n') → signedPlaneDistance p p0' n' = m := by
    intro p0' n' h'
    rw [hN] at h'
    injection h' with h'
    injection h' with r1 r2
    subst r1; subst r2
    rw [← hm]
    simp only [OnPlane] at hon
    simp only [signedPlaneDistance, Geom.dot, Geom.sub]
    linear_combination hon
  refine ⟨_, hS', ?_, ?_, ?_⟩
  · rintro q ⟨a, b, c, ka, kb, kc, ks, x1, x2, x3⟩
    rw [hloc q a b c ks x1 x2 x3]
    have hl := hlow a b c ka kb kc ks
    have hl2 : ind ^ 2 ≤ dist (loc t.p1 vx vy p)
        (comb (loc t.p1 vx vy t.p1) (loc t.p1 vx vy t.p2) (loc t.p1 vx vy t.p3) a b c) ^ 2 :=
      pow_le_pow_left₀ hnn hl 2
    unfold faceTotal copysign
    split_ifs
    · nlinarith [sq_nonneg m]
    · rw [neg_sq, Real.sq_sqrt (by nlinarith [mul_self_nonneg m, mul_self_nonneg ind])]; nlinarith
    · rw [Real.sq_sqrt (by nlinarith [mul_self_nonneg m, mul_self_nonneg ind])]; nlinarith
  · refine ⟨⟨a * t.p1.x + b * t.p2.x + c * t.p3.x, a * t.p1.y + b * t.p2.y + c * t.p3.y,
      a * t.p1.z + b * t.p2.z + c * t.p3.z, 1⟩, ⟨a, b, c, ka, kb, kc, ks, rfl, rfl, rfl⟩, ?_⟩
    rw [hloc _ a b c ks rfl rfl rfl]
    have hD := dist_nonneg' (loc t.p1 vx vy p)
      (comb (loc t.p1 vx vy t.p1) (loc t.p1 vx vy t.p2) (loc t.p1 vx vy t.p3) a b c)
    generalize dist (loc t.p1 vx vy p)
      (comb (loc t.p1 vx vy t.p1) (loc t.p1 vx vy t.p2) (loc t.p1 vx vy t.p3) a b c) = D at *
    have he := eps_pos
    have hDD : D ^ 2 ≤ (ind + eps / 2) ^ 2 := pow_le_pow_left₀ hD hnear 2
    have far : D ^ 2 + m ^ 2 ≤ (√(-m * -m + ind * ind) + 3 / 2 * eps) ^ 2 := by
      have hs : 0 ≤ √(-m * -m + ind * ind) := Real.sqrt_nonneg _
      have hq : √(-m * -m + ind * ind) ^ 2 = -m * -m + ind * ind :=
        Real.sq_sqrt (by nlinarith [mul_self_nonneg m, mul_self_nonneg ind])
      have hge : ind ≤ √(-m * -m + ind * ind) := by
        apply Real.le_sqrt_of_sq_le
        nlinarith [sq_nonneg m]
      generalize √(-m * -m + ind * ind) = S at *
      have k1 : eps * ind ≤ eps * S := mul_le_mul_of_nonneg_left hge he.le
      have k2 : 0 ≤ eps * S := mul_nonneg he.le hs
      have k3 : (S + 3 / 2 * eps) ^ 2 = S ^ 2 + 3 * (eps * S) + 9 / 4 * eps ^ 2 := by ring
      have k4 : (ind + eps / 2) ^ 2 = ind * ind + eps * ind + eps ^ 2 / 4 := by ring
      have k5 : 0 ≤ eps ^ 2 := sq_nonneg _
      rw [k3, hq]
      rw [k4] at hDD
      have k6 : -m * -m = m ^ 2 := by ring
      rw [k6]
      linarith
    unfold faceTotal copysign
    split_ifs with hcl
    · rw [abs_of_nonneg hnn]
      unfold Geom.close at hcl
      rw [sub_zero, abs_neg] at hcl
      have : m ^ 2 ≤ eps ^ 2 := by
        rw [← sq_abs m]; exact pow_le_pow_left₀ (abs_nonneg _) hcl.le 2
      have k2 : 0 ≤ eps * ind := mul_nonneg he.le hnn
      have k3 : (ind + 3 / 2 * eps) ^ 2 = ind ^ 2 + 3 * (eps * ind) + 9 / 4 * eps ^ 2 := by ring
      have k4 : (ind + eps / 2) ^ 2 = ind ^ 2 + eps * ind + eps ^ 2 / 4 := by ring
      have k5 : 0 ≤ eps ^ 2 := sq_nonneg _
      rw [k3]
      rw [k4] at hDD
      linarith
    · rw [abs_neg, abs_of_nonneg (Real.sqrt_nonneg _)]; exact far
    · rw [abs_of_nonneg (Real.sqrt_nonneg _)]; exact far
  · intro p0' n' h'
    rw [hpl p0' n' h']
    have he := eps_pos
    unfold faceTotal copysign
    split_ifs with hcl hsg
    · unfold Geom.close at hcl
      rw [sub_zero, abs_neg, abs_lt] at hcl
      constructor <;> intro h <;> linarith
    · have hm0 : m < 0 := by linarith
      unfold Geom.close at hcl
      rw [sub_zero, abs_neg, not_lt, abs_of_neg hm0] at hcl
      have : 0 < √(-m * -m + ind * ind) := Real.sqrt_pos.mpr (by
        have h1 := mul_pos_of_neg_of_neg hm0 hm0
        have h2 := mul_self_nonneg ind
        have h3 : -m * -m = m * m := by ring
        rw [h3]; linarith)
      constructor <;> intro h <;> linarith
    · have := Real.sqrt_nonneg (-m * -m + ind * ind)
      constructor <;> intro h <;> linarith

/-- **C355** the call fails exactly for triangles with a doubled area below epsilon -/
theorem C355_error (t : Tri) (p : V4) (h : √(area2sq t) < eps) : signedFaceDistance p t = .error .valueError := by
  rcases C349_plane t with ⟨_, e⟩ | ⟨h', _⟩
  · unfold signedFaceDistance; rw [e]
  · exact absurd h (not_lt.mpr h')

/-- **C355** (the missing case) in a sliver whose first edge is shorter than epsilon, every point of the plane gets an
answer of at most zero, however far it is -/
theorem C355_sliver (t : Tri) (p : V4) (ha : eps ≤ √(area2sq t)) (e12 : sqDist t.p1 t.p2 < eps ^ 2)
    (hp : ∀ p0 n, tri2p0n t.p1 t.p2 t.p3 = .ok (p0, n) → OnPlane p p0 n) :
    ∃ d, signedFaceDistance p t = .ok d ∧ d ≤ 0 := by
  obtain ⟨p0, n, vx, vy, hN, F, ⟨h2, h3, hon⟩, hS⟩ := sfd_frame t ha
  have h1 : Geom.dot (Geom.sub t.p1 t.p1) n = 0 := by simp only [Geom.dot, Geom.sub]; ring
  have hm : -Geom.dot (Geom.sub p t.p1) n = 0 := by
    have := hp p0 n hN
    simp only [OnPlane] at this hon
    simp only [Geom.dot, Geom.sub]
    linear_combination hon - this
  rw [hS p, hm]
  have key : ∃ ind, inPlaneDist (loc t.p1 vx vy p) (loc t.p1 vx vy t.p1) (loc t.p1 vx vy t.p2) (loc t.p1 vx vy t.p3) = .ok ind ∧
      ind ≤ 0 := by
    have hden := loc_denom F h2 h3 ha
    have hshort : dist (loc t.p1 vx vy t.p1) (loc t.p1 vx vy t.p2) < eps := by
      refine lt_of_pow_lt_pow_left₀ 2 eps_pos.le ?_
      rw [dist_sq]
      rw [loc_dist (o := t.p1) F t.p1 t.p2, h1, h2] at e12
      simpa using e12
    obtain ⟨d1, q1, _, i1, _⟩ := edgeDist_total ⟨loc t.p1 vx vy t.p1, loc t.p1 vx vy t.p2⟩ (loc t.p1 vx vy p) rfl rfl rfl
    obtain ⟨d2, q2, _, _, _⟩ := edgeDist_total ⟨loc t.p1 vx vy t.p2, loc t.p1 vx vy t.p3⟩ (loc t.p1 vx vy p) rfl rfl rfl
    obtain ⟨d3, q3, _, _, _⟩ := edgeDist_total ⟨loc t.p1 vx vy t.p3, loc t.p1 vx vy t.p1⟩ (loc t.p1 vx vy p) rfl rfl rfl
    have hd1 := i1 hshort
    have hpl : isXYPlanar [loc t.p1 vx vy p, loc t.p1 vx vy t.p1, loc t.p1 vx vy t.p2, loc t.p1 vx vy t.p3] := by
      simp only [isXYPlanar, List.mem_cons, List.not_mem_nil, or_false]
      rintro q (rfl | rfl | rfl) <;> simp [loc, pt, eps_pos.le]
    unfold inPlaneDist edgesDist
    rw [q1, q2, q3, hd1]
    unfold barycentricXY barycentric
    rw [if_pos hpl]
    have hb : ¬ |baryDenom (loc t.p1 vx vy t.p1) (loc t.p1 vx vy t.p2) (loc t.p1 vx vy t.p3)| < eps := by
      have e : ∀ u v w : V4, baryDenom u v w = (u.x - w.x) * (v.y - w.y) - (v.x - w.x) * (u.y - w.y) := by
        intro u v w; unfold baryDenom; ring
      rw [e]
      exact not_lt.mpr hden
    simp only [if_neg hb]
    split
    · exact ⟨0, rfl, le_refl _⟩
    · exact ⟨_, rfl, min_le_left _ _⟩
  obtain ⟨ind, hi, h0⟩ := key
  rw [hi]
  refine ⟨_, rfl, ?_⟩
  unfold faceTotal
  rw [if_pos (by unfold Geom.close; simp [eps_pos])]
  exact h0

/-- **C355** a sliver with a first edge of a millionth: the point a thousand away in its plane gets at most zero -/
theorem C355_sliver_case : ∃ d, signedFaceDistance (pt 1000 0) ⟨pt 0 0, pt 0.000001 0, pt 0 100⟩ = .ok d ∧ d ≤ 0 := by
  have har : √(area2sq ⟨pt 0 0, pt 0.000001 0, pt 0 100⟩) = 0.0001 := by
    have : area2sq ⟨pt 0 0, pt 0.000001 0, pt 0 100⟩ = 0.0001 ^ 2 := by simp only [area2sq, pt]; norm_num
    rw [this, Real.sqrt_sq (by norm_num)]
  refine C355_sliver _ _ ?_ ?_ ?_
  · rw [har]; unfold eps; norm_num
  · simp only [sqDist, pt]; unfold eps; norm_num
  · intro p0 n h
    rcases C349_plane ⟨pt 0 0, pt 0.000001 0, pt 0 100⟩ with ⟨_, he⟩ | ⟨_, p0', n', he, _, _, _, h1, h2, h3, _⟩
    · rw [he] at h; cases h
    · rw [he] at h
      injection h with h
      injection h with r1 r2
      subst r1; subst r2
      simp only [OnPlane, pt] at *
      linarith

/-- **C355** the hypotheses are met by the unit triangle, and the point 2 below a corner gets -2 to within the tolerance -/
theorem C355_case : ∃ d, signedFaceDistance (pt 0 0 (-2)) unitTri = .ok d ∧ d ^ 2 ≤ 4 ∧ 2 ≤ |d| + 3 / 2 * eps := by
  have ha : eps ≤ √(area2sq unitTri) := by rw [unit_area]; unfold eps; norm_num
  obtain ⟨d, hd, hl, ⟨q, ⟨a, b, c, ka, kb, kc, ks, x1, x2, x3⟩, hq⟩, _⟩ := C355_distance_partial unitTri (pt 0 0 (-2)) ha
    (by simp only [sqDist, unitTri, pt]; unfold eps; norm_num) (by simp only [sqDist, unitTri, pt]; unfold eps; norm_num)
    (by simp only [sqDist, unitTri, pt]; unfold eps; norm_num)
  refine ⟨d, hd, ?_, ?_⟩
  · refine le_of_le_of_eq (hl (pt 0 0) ⟨1, 0, 0, by norm_num, le_refl _, le_refl _, by norm_num, ?_⟩) ?_
    · simp [unitTri, pt]
    · simp only [sqDist, pt]; norm_num
  · have he := eps_pos
    refine (sq_le_sq₀ (by norm_num) (by positivity)).mp (le_trans ?_ hq)
    simp only [sqDist, unitTri, pt] at *
    rw [x3]
    nlinarith [sq_nonneg (0 - q.x), sq_nonneg (0 - q.y)]

end Verif.Plane
