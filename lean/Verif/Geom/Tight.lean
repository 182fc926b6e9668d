import Verif.Geom.FigProps4
import Verif.Geom.LineArcProps

/-!
# C165–C167 and additions to C40, C114: lengths of polylines, segments of arcs, points off an arc, nearest end points
-/

namespace Verif.Geom

open Real

/-! ## C165: the length of a polyline -/

/-- sum of the distances of neighbours -/
noncomputable def neighbourSum : List V4 → ℝ
  | p :: q :: r => dist p q + neighbourSum (q :: r)
  | _ => 0

theorem totalLen_eq : ∀ ps : List V4, totalLen ps = neighbourSum ps
  | [] => by simp [totalLen, neighbourSum]
  | [p] => by simp [totalLen, neighbourSum]
  | p :: q :: r => by rw [totalLen, neighbourSum, totalLen_eq (q :: r)]

/-- **C165** the length of a polyline is the sum of the distances between neighbouring vertices, for every number of vertices -/
theorem C165_length (ps : List V4) : polylength ps = neighbourSum ps := by
  unfold polylength
  split
  next h =>
    match ps, h with
    | [], _ => rfl
    | [p], _ => rfl
    | p :: q :: r, h => simp at h
  · rw [segsLength_eq, totalLen_eq]

theorem dist_tri (p r q : V4) : dist p q ≤ dist p r + dist r q := by
  have h1 := dist_nonneg p r
  have h2 := dist_nonneg r q
  apply dist_le_of_sq (by linarith)
  have e1 := dist_sq p r
  have e2 := dist_sq r q
  have hc : (p.x - r.x) * (r.x - q.x) + (p.y - r.y) * (r.y - q.y) + (p.z - r.z) * (r.z - q.z) ≤ dist p r * dist r q := by
    apply le_of_abs_le
    apply abs_le_of_sq_le_sq _ (mul_nonneg h1 h2)
    rw [mul_pow, e1, e2]
    unfold sqDist
    nlinarith [sq_nonneg ((p.x - r.x) * (r.y - q.y) - (p.y - r.y) * (r.x - q.x)),
      sq_nonneg ((p.x - r.x) * (r.z - q.z) - (p.z - r.z) * (r.x - q.x)),
      sq_nonneg ((p.y - r.y) * (r.z - q.z) - (p.z - r.z) * (r.y - q.y))]
  have : sqDist p q = sqDist p r + sqDist r q +
      2 * ((p.x - r.x) * (r.x - q.x) + (p.y - r.y) * (r.y - q.y) + (p.z - r.z) * (r.z - q.z)) := by unfold sqDist; ring
  rw [this, add_sq, e1, e2]
  linarith

/-- **C165** a polyline is at least as long as the way between its ends -/
theorem C165_at_least (p : V4) (ps : List V4) (q : V4) (h : (p :: ps).getLast? = some q) : dist p q ≤ polylength (p :: ps) := by
  rw [C165_length]
  induction ps generalizing p with
  | nil =>
    simp at h
    subst h
    simp [neighbourSum, dist_eq_sqrt, sqDist]
  | cons r ps ih =>
    have := ih r (by simpa using h)
    rw [neighbourSum]
    have tri := dist_tri p r q
    linarith

/-! ## C166: segments of arcs -/

/-- **C166** the part of an arc between two parameters begins and ends at the points sampled there, in the direction of the arc -
for every arc, also one that is reversed or passes the angle 0, and for all parameters -/
theorem C166_segment_ends (c c' : Arc) (u1 u2 : ℝ) (h : segmentarc c u1 u2 = .ok c') :
    samplearc c' 0 = samplearc c u1 ∧ samplearc c' 1 = samplearc c u2 ∧ c'.rev = c.rev ∧ c'.r = c.r ∧ c'.c = c.c := by
  have key : ∀ (p : V4) (r x y : ℝ) (rev : Bool), (0 ≤ x ∧ x < 360) → (0 ≤ y ∧ y < 360) →
      sampleAngle ⟨p, r, x, y, rev, none⟩ 0 = (if rev then y else x) ∧ sampleAngle ⟨p, r, x, y, rev, none⟩ 1 = (if rev then x else y) := by
    intro p r x y rev hx hy
    have hs : (span ⟨p, r, x, y, rev, none⟩ = (x, y)) ∨ (span ⟨p, r, x, y, rev, none⟩ = (x, y + 360)) := by
      unfold span
      simp only
      split
      · rw [mod360_of_mem hx.1 hx.2, mod360_of_mem hy.1 hy.2]
        split
        · exact .inr rfl
        · exact .inl rfl
      · exact .inl rfl
    have e0 : mod360 x = x := mod360_of_mem hx.1 hx.2
    have e1 : mod360 y = y := mod360_of_mem hy.1 hy.2
    have e2 : mod360 (y + 360) = y := mod360_unique 1 hy.1 hy.2 (by push_cast; ring)
    unfold sampleAngle
    rcases hs with hs | hs <;> rw [hs] <;> cases rev <;> simp [e0, e1, e2]
  unfold segmentarc at h
  by_cases hn : normalOk c
  · rw [if_pos hn] at h
    have b1 : 0 ≤ sampleAngle c u1 ∧ sampleAngle c u1 < 360 := by
      unfold sampleAngle; exact ⟨(mod360_spec _).1, (mod360_spec _).2.1⟩
    have b2 : 0 ≤ sampleAngle c u2 ∧ sampleAngle c u2 < 360 := by
      unfold sampleAngle; exact ⟨(mod360_spec _).1, (mod360_spec _).2.1⟩
    have hno : ∀ (a : Arc), a.normal = none → normalOk a := by
      intro a ha; unfold normalOk; rw [ha]; simp
    cases hr : c.rev
    · rw [hr] at h
      simp only [Bool.false_eq_true, if_false, Except.ok.injEq] at h
      subst h
      obtain ⟨k0, k1⟩ := key c.c c.r (sampleAngle c u1) (sampleAngle c u2) false b1 b2
      unfold samplearc
      rw [if_pos hn, if_pos hn, if_pos (hno ⟨_, _, _, _, _, none⟩ rfl), if_pos (hno ⟨_, _, _, _, _, none⟩ rfl), k0, k1]
      simp
    · rw [hr] at h
      simp only [if_true, Except.ok.injEq] at h
      subst h
      obtain ⟨k0, k1⟩ := key c.c c.r (sampleAngle c u2) (sampleAngle c u1) true b2 b1
      unfold samplearc
      rw [if_pos hn, if_pos hn, if_pos (hno ⟨_, _, _, _, _, none⟩ rfl), if_pos (hno ⟨_, _, _, _, _, none⟩ rfl), k0, k1]
      simp
  · rw [if_neg hn] at h
    cases h

/-- a reversed arc has segments -/
example : ∃ c', segmentarc ⟨pt 0 0, 1, 10, 90, true, none⟩ 0.25 0.5 = .ok c' ∧ c'.rev = true := by
  unfold segmentarc
  rw [if_pos (by intro n hn; simp at hn)]
  exact ⟨_, rfl, rfl⟩

/-! ## C167: points off an arc -/

/-- **C167** only points whose distance from the centre is the radius, up to epsilon, have a parameter on an arc -/
theorem C167_on_circle (c : Arc) (p : V4) (u : ℝ) (h : unsamplearc c p = .ok (some u)) : |dist p c.c - c.r| ≤ eps := by
  unfold unsamplearc at h
  simp only at h
  split at h
  · cases h
  split at h
  · cases h
  split at h
  · cases h
  next hd =>
    have : dist p c.c = mag (sub p c.c) := rfl
    rw [this]
    exact not_lt.mp hd

/-- **C167** fails in the other direction: the parameter of a point on the circle but not on the arc is a number too (not
`False`): 2 for the point at 180° and the arc from 0° to 90° -/
theorem C167_off_arc : ∃ p, Same3 p (pt (-1) 0) ∧ unsamplearc ⟨pt 0 0, 1, 0, 90, false, none⟩ p = .ok (some 2) := by
  have hsp : span ⟨pt 0 0, 1, 0, 90, false, none⟩ = (0, 90) := by
    unfold span; rw [if_neg (by norm_num)]
  refine ⟨circlePoint (pt 0 0) 1 180, ?_, ?_⟩
  · obtain ⟨h1, h2, h3⟩ := circlePoint_spec (pt 0 0) 1 180
    have hd : deg 180 = π := by unfold deg; ring
    rw [hd] at h1 h2
    unfold Same3
    rw [h1, h2, h3]
    simp [pt]
  · have := unsample_at ⟨pt 0 0, 1, 0, 90, false, none⟩ 180 rfl (by norm_num) (by rw [hsp]; unfold eps; norm_num)
    rw [this, hsp, mod360_of_mem (by norm_num) (by norm_num)]
    norm_num

/-! ## C114: beyond the ends -/

/-- **C114** (partial) for a point whose foot is outside the segment by more than epsilon, `linePointXY(l, p)` is an end point, and
no point of the segment is nearer -/
theorem C114_beyond_ends_partial (l : Line) (p q : V4) (hz : l.b.z = l.a.z ∧ p.z = l.a.z)
    (hout : (p.x - l.a.x) * (l.b.x - l.a.x) + (p.y - l.a.y) * (l.b.y - l.a.y) ≤ -eps * dist l.a l.b ∨
      (dist l.a l.b + eps) * dist l.a l.b ≤ (p.x - l.a.x) * (l.b.x - l.a.x) + (p.y - l.a.y) * (l.b.y - l.a.y))
    (h : linePointXY l p true .point = .ok (.pt q)) :
    (q = l.a ∨ q = l.b) ∧ ∀ t r, 0 ≤ t → t ≤ 1 → AtParam l.a l.b t r → dist p q ≤ dist p r := by
  have hp : Flat l p := hz
  obtain ⟨hlen, h⟩ := lp_ok (by simp) h
  have hLpos : 0 < dist l.a l.b := lt_of_lt_of_le eps_pos hlen
  have h0 := hLpos.ne'
  injection h with h
  obtain ⟨f1, al1, ac1⟩ := pi1_frame l p hp h0
  obtain ⟨f2, al2, ac2⟩ := pi2_frame l p hp h0
  have e1 := ends_ge l p _ hp f1 h0 al1
  have e2 := ends_ge l p _ hp f2 h0 al2
  have hout' : along l p ≤ -eps ∨ dist l.a l.b + eps ≤ along l p := by
    unfold along
    rcases hout with h | h
    · left; rw [div_le_iff₀ hLpos]; linarith
    · right; rw [le_div_iff₀ hLpos]; linarith
  have heps := eps_pos
  have hsum : dist l.a l.b + 2 * eps ≤ |along l p| + |along l p - dist l.a l.b| := by
    rcases hout' with h | h
    · rw [abs_of_neg (by linarith), abs_of_neg (by linarith)]; linarith
    · rw [abs_of_pos (by linarith), abs_of_pos (by linarith)]; linarith
  have g1 : ¬ |lpSum1 l p - dist l.a l.b| < eps := by
    unfold lpSum1
    rw [not_lt, abs_of_nonneg (by linarith [e1.1, e1.2])]
    linarith [e1.1, e1.2]
  have g2 : ¬ |lpSum2 l p - dist l.a l.b| < eps := by
    unfold lpSum2
    rw [not_lt, abs_of_nonneg (by linarith [e2.1, e2.2])]
    linarith [e2.1, e2.2]
  unfold lpPoint at h
  rw [if_neg g1, if_neg g2] at h
  have ha : Flat l l.a := ⟨hp.1, rfl⟩
  have hb : Flat l l.b := ⟨hp.1, hp.1⟩
  obtain ⟨ala, aca⟩ := frame_a l
  obtain ⟨alb, acb⟩ := frame_b l hp.1 h0
  have da := frame_dist l p l.a hp ha h0
  have db := frame_dist l p l.b hp hb h0
  rw [ala, aca] at da
  rw [alb, acb] at db
  have mono : ∀ x y : V4, sqDist p x ≤ sqDist p y → dist p x ≤ dist p y := by
    intro x y hxy
    rw [dist_eq_sqrt, dist_eq_sqrt]
    exact Real.sqrt_le_sqrt hxy
  have hlt : (dist l.a p < dist l.b p) ↔ along l p ≤ -eps := by
    have c1 : dist l.a p = √(sqDist p l.a) := by rw [dist_eq_sqrt]; congr 1; unfold sqDist; ring
    have c2 : dist l.b p = √(sqDist p l.b) := by rw [dist_eq_sqrt]; congr 1; unfold sqDist; ring
    rw [c1, c2]
    constructor
    · intro hh
      rcases hout' with h' | h'
      · exact h'
      · exfalso
        have := Real.sqrt_le_sqrt (show sqDist p l.b ≤ sqDist p l.a by rw [da, db]; nlinarith)
        linarith
    · intro hh
      apply Real.sqrt_lt_sqrt (by rw [da]; positivity)
      rw [da, db]; nlinarith
  by_cases hs : along l p ≤ -eps
  · rw [if_pos (hlt.2 hs)] at h
    subst h
    refine ⟨.inl rfl, fun t r ht0 ht1 hr => mono _ _ ?_⟩
    obtain ⟨fr, alr, acr⟩ := frame_param l r t hp.1 h0 hr
    have dr := frame_dist l p r hp fr h0
    rw [da, dr, alr, acr]
    have : 0 ≤ t * dist l.a l.b := by positivity
    nlinarith
  · rw [if_neg (fun hh => hs (hlt.1 hh))] at h
    subst h
    refine ⟨.inr rfl, fun t r ht0 ht1 hr => mono _ _ ?_⟩
    have hs' := hout'.resolve_left hs
    obtain ⟨fr, alr, acr⟩ := frame_param l r t hp.1 h0 hr
    have dr := frame_dist l p r hp fr h0
    rw [db, dr, alr, acr]
    have : t * dist l.a l.b ≤ dist l.a l.b := by nlinarith
    have k1 : 0 ≤ along l p - dist l.a l.b := by linarith
    have k2 : along l p - dist l.a l.b ≤ along l p - t * dist l.a l.b := by linarith
    have := mul_self_le_mul_self k1 k2
    linarith

/-- a point beyond the end of the unit segment -/
example : ∃ q, linePointXY ⟨pt 0 0, pt 1 0⟩ (pt 3 1) true .point = .ok (.pt q) := by
  unfold linePointXY
  rw [if_neg (by rw [dist_unit]; unfold eps; norm_num), if_neg (by
    rw [not_not]; intro q hq
    simp only [List.mem_cons, List.not_mem_nil, or_false] at hq
    rcases hq with rfl | rfl <;> simp [pt, eps_pos.le])]
  exact ⟨_, rfl⟩

/-! ## C40: lists with arcs -/

/-- the points of a member are among the points of the list -/
theorem bboxPts_mem (gs : List Fig) (ps : List V4) (h : bboxPtsList gs = .ok ps) (g : Fig) (hg : g ∈ gs) :
    ∃ xs, g.bboxPts = .ok xs ∧ ∀ p ∈ xs, p ∈ ps := by
  induction gs generalizing ps with
  | nil => simp at hg
  | cons a gs ih =>
    unfold bboxPtsList at h
    split at h
    · cases h
    · rename_i xs hxs
      split at h
      · cases h
      · rename_i ys hys
        injection h with h
        subst h
        rcases List.mem_cons.mp hg with rfl | hg
        · exact ⟨xs, hxs, fun p hp => by simp [hp]⟩
        · obtain ⟨zs, h2, h3⟩ := ih ys hys hg
          exact ⟨zs, h2, fun p hp => by simp [h3 p hp]⟩

/-- **C40** the box of a list of at least two points contains the boxes of its arcs, and so all of its full circles -/
theorem C40_list_arcs (gs : List Fig) (b : Box) (h : geomlistbbox gs = .ok (some b)) (a : Arc) (ha : Fig.arc a ∈ gs) :
    ∃ b', arcbbox a = .ok (some b') ∧ InBox b.lo b.hi b'.lo ∧ InBox b.lo b.hi b'.hi ∧
      (iscircle a → 0 ≤ a.r → ∀ u p, samplearc a u = .ok p → InBox b.lo b.hi p) := by
  unfold geomlistbbox at h
  split at h
  · cases h
  · rename_i ps hps
    injection h with h
    obtain ⟨xs, hx, hsub⟩ := bboxPts_mem gs ps hps _ ha
    unfold Fig.bboxPts at hx
    cases hb : arcbbox a with
    | error e => rw [hb] at hx; cases hx
    | ok ob =>
      rw [hb] at hx
      cases ob with
      | none => cases hx
      | some b' =>
        injection hx with hx
        subst hx
        have hin : ∀ p ∈ ps, InBox b.lo b.hi p := by
          intro p hp
          match ps, h, hp, hsub with
          | [], h, hp, _ => simp at hp
          | [x], h, hp, _ =>
            simp only [polybbox, Option.some.injEq] at h
            simp only [List.mem_singleton] at hp
            subst h
            subst hp
            unfold pointbbox InBox sub add pt
            have := eps_pos
            refine ⟨?_, ?_, ?_, ?_, ?_, ?_⟩ <;> simp only <;> linarith
          | x :: y :: r, h, hp, _ =>
            obtain ⟨b'', e, -, -, hb', -⟩ := C40_tight (x :: y :: r) (by simp)
            rw [e] at h
            injection h with h
            subst h
            exact hb' p hp
        have h1 := hin _ (hsub b'.lo (by simp))
        have h2 := hin _ (hsub b'.hi (by simp))
        refine ⟨b', rfl, h1, h2, fun hc hr u p hp => ?_⟩
        obtain ⟨b2, e2, hall⟩ := C112_circle_box_partial a hc hr
        rw [hb] at e2
        injection e2 with e2
        injection e2 with e2
        subst e2
        obtain ⟨i1, i2, i3, i4, i5, i6⟩ := hall u p hp
        obtain ⟨j1, j2, j3, j4, j5, j6⟩ := h1
        obtain ⟨k1, k2, k3, k4, k5, k6⟩ := h2
        exact ⟨by linarith, by linarith, by linarith, by linarith, by linarith, by linarith⟩

/-- a circle in a list has a box -/
example : ∃ b, geomlistbbox [.arc ⟨pt 0 0, 1, 0, 360, false, none⟩] = .ok (some b) := by
  unfold geomlistbbox
  simp [bboxPtsList, Fig.bboxPts, arcbbox, iscircle, polybbox]

end Verif.Geom
