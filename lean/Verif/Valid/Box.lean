import Verif.Valid.Angle

/-!
# C224-C226: boxes that must stay apart
-/

namespace Verif.Valid
open Real

/-- the points of a part: its box, placed by its transform -/
def Part (t : Tf ℝ) (b : Box ℝ) (p : V ℝ) : Prop := ∃ q, Within b q ∧ place t q = p

/-- the three coordinates -/
def axes : List (V ℝ → ℝ) := [V.x, V.y, V.z]

/-- one set of points lies wholly before the other along one of the axes of the world -/
def Apart (A B : V ℝ → Prop) : Prop := ∃ f ∈ axes, (∀ p q, A p → B q → f p < f q) ∨ (∀ p q, A p → B q → f q < f p)

theorem part_tight (t : Tf ℝ) {b : Box ℝ} (h : Proper b) : Tight (transformBox t b) (Part t b) := C227_transform_box t h

theorem part_within {t : Tf ℝ} {b : Box ℝ} {p : V ℝ} (h : Part t b p) : Within (transformBox t b) p := by
  have hp : Proper b := by
    obtain ⟨q, ⟨⟨x1, x2⟩, ⟨y1, y2⟩, z1, z2⟩, -⟩ := h
    exact ⟨x1.trans x2, y1.trans y2, z1.trans z2⟩
  exact (part_tight t hp).all p h

theorem abs_x_le_norm (v : V ℝ) : |v.x| ≤ norm v := by
  unfold norm
  exact abs_le_sqrt (by nlinarith [mul_self_nonneg v.y, mul_self_nonneg v.z])

theorem abs_y_le_norm (v : V ℝ) : |v.y| ≤ norm v := by
  unfold norm
  exact abs_le_sqrt (by nlinarith [mul_self_nonneg v.x, mul_self_nonneg v.z])

theorem abs_z_le_norm (v : V ℝ) : |v.z| ≤ norm v := by
  unfold norm
  exact abs_le_sqrt (by nlinarith [mul_self_nonneg v.x, mul_self_nonneg v.y])

/-! ## C224: MIN_DISTANCE -/

theorem eval_min {lab : Lab ℝ} {c : Con} {world : World} {ta tb : Tf ℝ} {n : String} {ba bb : Box ℝ} {m : ℝ} (hk : c.kind = .minDistance) (ha : world c.frameA = some ta)
    (hn : c.frameB = some n) (hb : world n = some tb) (hba : c.boundsA = some ba) (hbb : c.boundsB = some bb) (hm : c.radius = some m) :
    evaluate lab c world = some (test (m ≤ separation ta ba tb bb) (max 0 (m - separation ta ba tb bb))) := by
  rw [eval_frames ha hn hb, hk]
  dsimp only
  have : ∃ p, second c (pointB c (some (n, tb)) world) (some tb) = some p := by
    unfold second
    rcases pointB c (some (n, tb)) world with _ | p
    · exact ⟨_, rfl⟩
    · exact ⟨_, rfl⟩
  obtain ⟨p, hp⟩ := this
  rw [hp]
  unfold minDistance
  dsimp only
  rw [hm]
  dsimp only
  rw [hba, hbb]

/-- when the least gap is enough -/
theorem leastGap_iff (dx dy dz m : ℝ) (hm : 0 < m) :
    m ≤ leastGap dx dy dz ↔ (0 < dx ∨ 0 < dy ∨ 0 < dz) ∧ (0 < dx → m ≤ dx) ∧ (0 < dy → m ≤ dy) ∧ (0 < dz → m ≤ dz) := by
  unfold leastGap
  by_cases h1 : 0 < dx <;> by_cases h2 : 0 < dy <;> by_cases h3 : 0 < dz <;>
    simp [h1, h2, h3, List.filter] <;> first | tauto | (constructor <;> intros <;> linarith) | skip
  all_goals
    push Not at h1 h2 h3
    refine ⟨⟨?_, ?_⟩, ?_⟩ <;> linarith

theorem separation_cases (ta : Tf ℝ) (ba : Box ℝ) (tb : Tf ℝ) (bb : Box ℝ) (m : ℝ) (hm : 0 < m) :
    m ≤ separation ta ba tb bb ↔
      (0 < gapX (transformBox ta ba) (transformBox tb bb) ∨ 0 < gapY (transformBox ta ba) (transformBox tb bb) ∨ 0 < gapZ (transformBox ta ba) (transformBox tb bb)) ∧
      (0 < gapX (transformBox ta ba) (transformBox tb bb) → m ≤ gapX (transformBox ta ba) (transformBox tb bb)) ∧
      (0 < gapY (transformBox ta ba) (transformBox tb bb) → m ≤ gapY (transformBox ta ba) (transformBox tb bb)) ∧
      (0 < gapZ (transformBox ta ba) (transformBox tb bb) → m ≤ gapZ (transformBox ta ba) (transformBox tb bb)) :=
  leastGap_iff _ _ _ _ hm

/-- **C224 (soundness).** If MIN_DISTANCE with boxes holds, with a distance above zero, then every point of the one part is at least that far from every point
of the other. What is missing: the converse, which does not hold (`C224_too_strict`). -/
theorem C224_min_distance_partial (lab : Lab ℝ) {c : Con} {world : World} {ta tb : Tf ℝ} {n : String} {ba bb : Box ℝ} {m : ℝ} {r : Res} (hk : c.kind = .minDistance)
    (ha : world c.frameA = some ta) (hn : c.frameB = some n) (hb : world n = some tb) (hba : c.boundsA = some ba) (hbb : c.boundsB = some bb) (hm : c.radius = some m)
    (h0 : 0 < m) (he : evaluate lab c world = some r) (hs : r.satisfied = true) (p q : V ℝ) (hp : Part ta ba p) (hq : Part tb bb q) : m ≤ norm (vsub q p) := by
  rw [eval_min hk ha hn hb hba hbb hm] at he
  cases he
  have h := (separation_cases ta ba tb bb m h0).mp ((test_sat _ _).mp hs)
  obtain ⟨h1, hx, hy, hz⟩ := h
  obtain ⟨⟨p1, p2⟩, ⟨p3, p4⟩, p5, p6⟩ := part_within hp
  obtain ⟨⟨q1, q2⟩, ⟨q3, q4⟩, q5, q6⟩ := part_within hq
  rcases h1 with h1 | h1 | h1
  · refine le_trans ?_ (abs_x_le_norm _)
    have := hx h1
    rcases le_max_iff.mp this with h | h
    · refine le_trans ?_ (neg_le_abs _); unfold vsub; dsimp only; linarith
    · refine le_trans ?_ (le_abs_self _); unfold vsub; dsimp only; linarith
  · refine le_trans ?_ (abs_y_le_norm _)
    have := hy h1
    rcases le_max_iff.mp this with h | h
    · refine le_trans ?_ (neg_le_abs _); unfold vsub; dsimp only; linarith
    · refine le_trans ?_ (le_abs_self _); unfold vsub; dsimp only; linarith
  · refine le_trans ?_ (abs_z_le_norm _)
    have := hz h1
    rcases le_max_iff.mp this with h | h
    · refine le_trans ?_ (neg_le_abs _); unfold vsub; dsimp only; linarith
    · refine le_trans ?_ (le_abs_self _); unfold vsub; dsimp only; linarith

/-- Without boxes (or with only one) it is the distance of the two origins that counts, when there are no faces. -/
theorem C224_origins (lab : Lab ℝ) {c : Con} {world : World} {ta tb : Tf ℝ} {n : String} {m : ℝ} (hk : c.kind = .minDistance)
    (ha : world c.frameA = some ta) (hn : c.frameB = some n) (hb : world n = some tb) (hbs : c.boundsA = none ∨ c.boundsB = none) (hfa : c.faceA = none) (hfb : c.faceB = none)
    (hm : c.radius = some m) :
    ∃ r, evaluate lab c world = some r ∧ (r.satisfied = true ↔ m ≤ norm (vsub tb.o ta.o)) ∧ r.error = max 0 (m - norm (vsub tb.o ta.o)) := by
  refine ⟨test (m ≤ norm (vsub tb.o ta.o)) (max 0 (m - norm (vsub tb.o ta.o))), ?_, test_sat _ _, rfl⟩
  rw [eval_frames ha hn hb, hk]
  dsimp only
  have h1 : pointA c ta world = ta.o := by unfold pointA; rw [hfa]
  have h2 : second c (pointB c (some (n, tb)) world) (some tb) = some tb.o := by unfold second pointB; rw [hfb]
  rw [h1, h2]
  unfold minDistance
  dsimp only
  rw [hm]
  dsimp only
  rcases hbs with h | h
  · rw [h]
  · rw [h]
    rcases c.boundsA with _ | _ <;> rfl

/-- two parts named `a` and `b` -/
def pair (ta tb : Tf ℝ) : World := fun n => if n = "a" then some ta else if n = "b" then some tb else none

/-- a unit cube -/
def unitBox : Box ℝ := (⟨0, 0, 0⟩, ⟨1, 1, 1⟩)

theorem still_box (v : V ℝ) (b : Box ℝ) (h : Proper b) : transformBox { (still : Tf ℝ) with o := v } b = (vadd b.1 v, vadd b.2 v) := by
  obtain ⟨h1, h2, h3⟩ := h
  have t := part_tight { (still : Tf ℝ) with o := v } (b := b) ⟨h1, h2, h3⟩
  have pl : ∀ q, place { (still : Tf ℝ) with o := v } q = vadd q v := by
    intro q; unfold place turn still dot vadd; ext <;> dsimp only <;> ring
  have hlo : Part { (still : Tf ℝ) with o := v } b (vadd b.1 v) := ⟨b.1, ⟨⟨le_refl _, h1⟩, ⟨le_refl _, h2⟩, le_refl _, h3⟩, pl _⟩
  have hhi : Part { (still : Tf ℝ) with o := v } b (vadd b.2 v) := ⟨b.2, ⟨⟨h1, le_refl _⟩, ⟨h2, le_refl _⟩, h3, le_refl _⟩, pl _⟩
  obtain ⟨⟨a1, a2⟩, ⟨a3, a4⟩, a5, a6⟩ := t.all _ hlo
  obtain ⟨⟨b1, b2⟩, ⟨b3, b4⟩, b5, b6⟩ := t.all _ hhi
  have all : ∀ p, Part { (still : Tf ℝ) with o := v } b p → Within (vadd b.1 v, vadd b.2 v) p := by
    rintro p ⟨q, ⟨⟨x1, x2⟩, ⟨y1, y2⟩, z1, z2⟩, rfl⟩
    rw [pl]
    unfold vadd Within
    dsimp only
    refine ⟨⟨?_, ?_⟩, ⟨?_, ?_⟩, ?_, ?_⟩ <;> linarith
  obtain ⟨p1, hp1, e1⟩ := t.loX
  obtain ⟨p2, hp2, e2⟩ := t.loY
  obtain ⟨p3, hp3, e3⟩ := t.loZ
  obtain ⟨p4, hp4, e4⟩ := t.hiX
  obtain ⟨p5, hp5, e5⟩ := t.hiY
  obtain ⟨p6, hp6, e6⟩ := t.hiZ
  refine Prod.ext (V.ext ?_ ?_ ?_) (V.ext ?_ ?_ ?_)
  · exact le_antisymm a1 (e1 ▸ (all _ hp1).1.1)
  · exact le_antisymm a3 (e2 ▸ (all _ hp2).2.1.1)
  · exact le_antisymm a5 (e3 ▸ (all _ hp3).2.2.1)
  · exact le_antisymm (e4 ▸ (all _ hp4).1.2) b2
  · exact le_antisymm (e5 ▸ (all _ hp5).2.1.2) b4
  · exact le_antisymm (e6 ▸ (all _ hp6).2.2.2) b6

/-- **C224, what does not hold.** Two cubes 100 apart along x and 1 apart along y fail a required distance of 5: of the gaps above zero the code takes the least. -/
theorem C224_too_strict (lab : Lab ℝ) : ∃ (c : Con) (world : World) (ta tb : Tf ℝ) (r : Res), c.kind = .minDistance ∧ world c.frameA = some ta ∧ c.frameB = some "b" ∧ world "b" = some tb ∧
    c.boundsA = some unitBox ∧ c.boundsB = some unitBox ∧ c.radius = some 5 ∧ Rigid ta ∧ Rigid tb ∧ evaluate lab c world = some r ∧ r.satisfied = false ∧
    ∀ p q, Part ta unitBox p → Part tb unitBox q → 100 ≤ norm (vsub q p) := by
  let c : Con := { name := "n", kind := .minDistance, frameA := "a", frameB := some "b", boundsA := some unitBox, boundsB := some unitBox, radius := some 5 }
  let ta : Tf ℝ := { (still : Tf ℝ) with o := ⟨0, 0, 0⟩ }
  let tb : Tf ℝ := { (still : Tf ℝ) with o := ⟨101, 2, 0⟩ }
  have hpr : Proper unitBox := by unfold Proper unitBox; norm_num
  refine ⟨c, pair ta tb, ta, tb, _, rfl, rfl, rfl, rfl, rfl, rfl, rfl, ?_, ?_, eval_min (c := c) rfl rfl rfl rfl rfl rfl rfl, ?_, ?_⟩
  · intro v w; simp [ta, still, turn, dot]
  · intro v w; simp [tb, still, turn, dot]
  · rw [Bool.eq_false_iff, ne_eq, test_sat, separation_cases _ _ _ _ _ (by norm_num)]
    rw [still_box _ _ hpr, still_box _ _ hpr]
    norm_num [unitBox, vadd, gapX, gapY, gapZ]
  · intro p q hp hq
    have h1 := (part_within hp).1.2
    have h2 := (part_within hq).1.1
    rw [still_box _ _ hpr] at h1 h2
    refine le_trans ?_ ((le_abs_self _).trans (abs_x_le_norm _))
    norm_num [unitBox, vadd, vsub] at h1 h2 ⊢
    linarith

/-- cubes 9 apart along x keep a distance of 5 -/
example (lab : Lab ℝ) : ∃ (c : Con) (world : World) (r : Res), c.kind = .minDistance ∧ c.boundsA = some unitBox ∧ c.boundsB = some unitBox ∧ c.radius = some 5 ∧
    evaluate lab c world = some r ∧ r.satisfied = true := by
  let c : Con := { name := "n", kind := .minDistance, frameA := "a", frameB := some "b", boundsA := some unitBox, boundsB := some unitBox, radius := some 5 }
  have hpr : Proper unitBox := by unfold Proper unitBox; norm_num
  refine ⟨c, pair { (still : Tf ℝ) with o := ⟨0, 0, 0⟩ } { (still : Tf ℝ) with o := ⟨10, 0, 0⟩ }, _, rfl, rfl, rfl, rfl, eval_min (c := c) rfl rfl rfl rfl rfl rfl rfl, ?_⟩
  rw [test_sat, separation_cases _ _ _ _ _ (by norm_num)]
  rw [still_box _ _ hpr, still_box _ _ hpr]
  norm_num [unitBox, vadd, gapX, gapY, gapZ]

/-! ## C225: Z_STACK_CLEARANCE -/

/-- upright: the z axis of the part is the z axis of the world -/
def Upright (t : Tf ℝ) : Prop := t.r3 = ⟨0, 0, 1⟩

theorem upright_z {t : Tf ℝ} (h : Upright t) (b : Box ℝ) (hp : Proper b) :
    (∀ p, Part t b p → t.o.z + b.1.z ≤ p.z ∧ p.z ≤ t.o.z + b.2.z) ∧ (∃ p, Part t b p ∧ p.z = t.o.z + b.1.z) ∧ ∃ p, Part t b p ∧ p.z = t.o.z + b.2.z := by
  have hz : ∀ q, (place t q).z = t.o.z + q.z := by
    intro q
    unfold place turn vadd
    rw [h]
    unfold dot
    dsimp only
    ring
  obtain ⟨h1, h2, h3⟩ := hp
  refine ⟨?_, ⟨_, ⟨b.1, ⟨⟨le_refl _, h1⟩, ⟨le_refl _, h2⟩, le_refl _, h3⟩, rfl⟩, hz _⟩, ⟨_, ⟨b.2, ⟨⟨h1, le_refl _⟩, ⟨h2, le_refl _⟩, h3, le_refl _⟩, rfl⟩, hz _⟩⟩
  rintro p ⟨q, hq, rfl⟩
  rw [hz]
  obtain ⟨-, -, h4, h5⟩ := hq
  constructor <;> linarith

/-- **C225 (for upright parts).** Z_STACK_CLEARANCE between two upright parts of some height holds exactly if all of the one is above all of the other by the
clearance. What is missing: parts that are not upright, for which it does not hold
(`C225_upside_down`). -/
theorem C225_stack_partial (lab : Lab ℝ) {c : Con} {world : World} {ta tb : Tf ℝ} {n : String} {ba bb : Box ℝ} {m : ℝ} (hk : c.kind = .zStack)
    (ha : world c.frameA = some ta) (hn : c.frameB = some n) (hb : world n = some tb) (hba : c.boundsA = some ba) (hbb : c.boundsB = some bb) (hm : c.radius.getD 0 = m)
    (h0 : 0 ≤ m) (hpa : Proper ba) (hpb : Proper bb) (hha : ba.1.z < ba.2.z) (hhb : bb.1.z < bb.2.z) (hua : Upright ta) (hub : Upright tb) :
    ∃ r, evaluate lab c world = some r ∧
      (r.satisfied = true ↔ (∀ p q, Part ta ba p → Part tb bb q → p.z + m ≤ q.z) ∨ (∀ p q, Part ta ba p → Part tb bb q → q.z + m ≤ p.z)) := by
  have hza : |(turn ta ⟨0, 0, 1⟩).z| = 1 := by unfold turn; rw [hua]; norm_num [dot]
  have hzb : |(turn tb ⟨0, 0, 1⟩).z| = 1 := by unfold turn; rw [hub]; norm_num [dot]
  obtain ⟨A1, ⟨pl, hpl, el⟩, ph, hph, eh⟩ := upright_z hua ba hpa
  obtain ⟨B1, ⟨ql, hql, fl⟩, qh, hqh, fh⟩ := upright_z hub bb hpb
  refine ⟨zStack c ta (some tb), by rw [eval_frames ha hn hb, hk], ?_⟩
  have hspec : ((∀ p q, Part ta ba p → Part tb bb q → p.z + m ≤ q.z) ∨ (∀ p q, Part ta ba p → Part tb bb q → q.z + m ≤ p.z)) ↔
      (ta.o.z + ba.2.z + m ≤ tb.o.z + bb.1.z ∨ tb.o.z + bb.2.z + m ≤ ta.o.z + ba.1.z) := by
    constructor
    · rintro (h | h)
      · left; have := h _ _ hph hql; rw [eh, fl] at this; exact this
      · right; have := h _ _ hpl hqh; rw [el, fh] at this; exact this
    · rintro (h | h)
      · left; intro p q hp hq; have := (A1 p hp).2; have := (B1 q hq).1; linarith
      · right; intro p q hp hq; have := (A1 p hp).1; have := (B1 q hq).2; linarith
  rw [hspec]
  unfold zStack
  dsimp only
  rw [hba, hbb]
  dsimp only
  rw [hm, hza, hzb, mul_one, mul_one, mul_one, mul_one]
  have key : m ≤ -(min (ta.o.z + ba.2.z) (tb.o.z + bb.2.z) - max (ta.o.z + ba.1.z) (tb.o.z + bb.1.z)) ↔
      (ta.o.z + ba.2.z + m ≤ tb.o.z + bb.1.z ∨ tb.o.z + bb.2.z + m ≤ ta.o.z + ba.1.z) := by
    rcases le_total (ta.o.z + ba.2.z) (tb.o.z + bb.2.z) with h1 | h1 <;> rcases le_total (ta.o.z + ba.1.z) (tb.o.z + bb.1.z) with h2 | h2 <;>
      simp only [min_eq_left h1, min_eq_right h1, max_eq_left h2, max_eq_right h2] <;> constructor
    · intro h; left; linarith
    · rintro (h | h) <;> linarith
    · intro h; linarith
    · rintro (h | h) <;> linarith
    · intro h; linarith
    · rintro (h | h) <;> linarith
    · intro h; right; linarith
    · rintro (h | h) <;> linarith
  rw [← key]
  by_cases hv : min (ta.o.z + ba.2.z) (tb.o.z + bb.2.z) - max (ta.o.z + ba.1.z) (tb.o.z + bb.1.z) > 0
  · rw [if_pos hv]
    constructor
    · intro h; cases h
    · intro h; linarith
  · rw [if_neg hv]
    by_cases hs : -(min (ta.o.z + ba.2.z) (tb.o.z + bb.2.z) - max (ta.o.z + ba.1.z) (tb.o.z + bb.1.z)) ≥ m
    · rw [if_pos hs]
      exact ⟨fun _ => hs, fun _ => rfl⟩
    · rw [if_neg hs]
      constructor
      · intro h; cases h
      · intro h; exact absurd h hs

/-- **C225, what does not hold.** Two cubes at the same place pass, if they are one cube upright and one upside down: the code takes the absolute value of the
direction of z. -/
theorem C225_upside_down (lab : Lab ℝ) : ∃ (c : Con) (world : World) (ta tb : Tf ℝ) (r : Res), c.kind = .zStack ∧ world c.frameA = some ta ∧ c.frameB = some "b" ∧ world "b" = some tb ∧
    c.boundsA = some unitBox ∧ c.boundsB = some unitBox ∧ Rigid ta ∧ Rigid tb ∧ evaluate lab c world = some r ∧ r.satisfied = true ∧
    ∀ p, Part ta unitBox p ↔ Part tb unitBox p := by
  let c : Con := { name := "n", kind := .zStack, frameA := "a", frameB := some "b", boundsA := some unitBox, boundsB := some unitBox }
  refine ⟨c, pair still (flip ⟨0, 1, 1⟩), still, flip ⟨0, 1, 1⟩, zStack c still (some (flip ⟨0, 1, 1⟩)), rfl, rfl, rfl, rfl, rfl, rfl, still_rigid, flip_rigid _, ?_, ?_, ?_⟩
  · rw [eval_frames (n := "b") (ta := still) (tb := flip ⟨0, 1, 1⟩) rfl rfl rfl]
  · norm_num [zStack, c, unitBox, still, flip, turn, dot]
  · intro p
    constructor
    · rintro ⟨q, ⟨⟨x1, x2⟩, ⟨y1, y2⟩, z1, z2⟩, rfl⟩
      refine ⟨⟨q.x, 1 - q.y, 1 - q.z⟩, ?_, ?_⟩
      · unfold unitBox at *
        dsimp only at *
        refine ⟨⟨x1, x2⟩, ⟨?_, ?_⟩, ?_, ?_⟩ <;> dsimp only <;> linarith
      · unfold place turn still flip dot vadd; ext <;> dsimp only <;> ring
    · rintro ⟨q, ⟨⟨x1, x2⟩, ⟨y1, y2⟩, z1, z2⟩, rfl⟩
      refine ⟨⟨q.x, 1 - q.y, 1 - q.z⟩, ?_, ?_⟩
      · unfold unitBox at *
        dsimp only at *
        refine ⟨⟨x1, x2⟩, ⟨?_, ?_⟩, ?_, ?_⟩ <;> dsimp only <;> linarith
      · unfold place turn still flip dot vadd; ext <;> dsimp only <;> ring

/-! ## C226: NO_OVERLAP -/

theorem eval_overlap {lab : Lab ℝ} {c : Con} {world : World} {ta tb : Tf ℝ} {n : String} {ba bb : Box ℝ} (hk : c.kind = .noOverlap) (ha : world c.frameA = some ta)
    (hn : c.frameB = some n) (hb : world n = some tb) (hst : c.stlA = none ∨ c.stlB = none) (hba : c.boundsA = some ba) (hbb : c.boundsB = some bb) :
    evaluate lab c world = some (overlap (transformBox ta ba) (transformBox tb bb)) := by
  rw [eval_frames ha hn hb, hk]
  dsimp only
  unfold noOverlap
  dsimp only
  rcases hst with h | h
  · rw [h]
    dsimp only
    rw [hba, hbb]
  · rw [h]
    rcases c.stlA with _ | f <;> dsimp only <;> rw [hba, hbb]

/-- apart along one axis, in terms of tight boxes -/
theorem apart_iff {A B : V ℝ → Prop} {a b : Box ℝ} (hA : Tight a A) (hB : Tight b B) :
    Apart A B ↔ ((a.2.x < b.1.x ∨ b.2.x < a.1.x) ∨ (a.2.y < b.1.y ∨ b.2.y < a.1.y) ∨ (a.2.z < b.1.z ∨ b.2.z < a.1.z)) := by
  obtain ⟨p1, hp1, e1⟩ := hA.loX
  obtain ⟨p2, hp2, e2⟩ := hA.loY
  obtain ⟨p3, hp3, e3⟩ := hA.loZ
  obtain ⟨p4, hp4, e4⟩ := hA.hiX
  obtain ⟨p5, hp5, e5⟩ := hA.hiY
  obtain ⟨p6, hp6, e6⟩ := hA.hiZ
  obtain ⟨q1, hq1, f1⟩ := hB.loX
  obtain ⟨q2, hq2, f2⟩ := hB.loY
  obtain ⟨q3, hq3, f3⟩ := hB.loZ
  obtain ⟨q4, hq4, f4⟩ := hB.hiX
  obtain ⟨q5, hq5, f5⟩ := hB.hiY
  obtain ⟨q6, hq6, f6⟩ := hB.hiZ
  constructor
  · rintro ⟨f, hf, h⟩
    simp only [axes, List.mem_cons, List.not_mem_nil, or_false] at hf
    rcases hf with rfl | rfl | rfl
    · left
      rcases h with h | h
      · left; rw [← e4, ← f1]; exact h _ _ hp4 hq1
      · right; rw [← e1, ← f4]; exact h _ _ hp1 hq4
    · right; left
      rcases h with h | h
      · left; rw [← e5, ← f2]; exact h _ _ hp5 hq2
      · right; rw [← e2, ← f5]; exact h _ _ hp2 hq5
    · right; right
      rcases h with h | h
      · left; rw [← e6, ← f3]; exact h _ _ hp6 hq3
      · right; rw [← e3, ← f6]; exact h _ _ hp3 hq6
  · rintro (h | h | h)
    · refine ⟨V.x, by simp [axes], ?_⟩
      rcases h with h | h
      · left; intro p q hp hq; exact (hA.all p hp).1.2.trans_lt (h.trans_le (hB.all q hq).1.1)
      · right; intro p q hp hq; exact (hB.all q hq).1.2.trans_lt (h.trans_le (hA.all p hp).1.1)
    · refine ⟨V.y, by simp [axes], ?_⟩
      rcases h with h | h
      · left; intro p q hp hq; exact (hA.all p hp).2.1.2.trans_lt (h.trans_le (hB.all q hq).2.1.1)
      · right; intro p q hp hq; exact (hB.all q hq).2.1.2.trans_lt (h.trans_le (hA.all p hp).2.1.1)
    · refine ⟨V.z, by simp [axes], ?_⟩
      rcases h with h | h
      · left; intro p q hp hq; exact (hA.all p hp).2.2.2.trans_lt (h.trans_le (hB.all q hq).2.2.1)
      · right; intro p q hp hq; exact (hB.all q hq).2.2.2.trans_lt (h.trans_le (hA.all p hp).2.2.1)

theorem overlap_sat (a b : Box ℝ) :
    (overlap a b).satisfied = true ↔ ((a.2.x < b.1.x ∨ b.2.x < a.1.x) ∨ (a.2.y < b.1.y ∨ b.2.y < a.1.y) ∨ (a.2.z < b.1.z ∨ b.2.z < a.1.z)) := by
  unfold overlap
  split
  · next h =>
    obtain ⟨⟨h1, h2⟩, ⟨h3, h4⟩, h5, h6⟩ := h
    constructor
    · intro h; cases h
    · rintro ((h | h) | (h | h) | (h | h)) <;> linarith
  · next h =>
    refine ⟨fun _ => ?_, fun _ => rfl⟩
    by_contra hc
    push Not at hc
    exact h ⟨⟨hc.1.2, hc.1.1⟩, ⟨hc.2.1.2, hc.2.1.1⟩, hc.2.2.2, hc.2.2.1⟩

/-- **C226.** NO_OVERLAP with boxes holds exactly if along one of the axes of the world one part lies wholly before the other. -/
theorem C226_no_overlap (lab : Lab ℝ) {c : Con} {world : World} {ta tb : Tf ℝ} {n : String} {ba bb : Box ℝ} (hk : c.kind = .noOverlap) (ha : world c.frameA = some ta)
    (hn : c.frameB = some n) (hb : world n = some tb) (hst : c.stlA = none ∨ c.stlB = none) (hba : c.boundsA = some ba) (hbb : c.boundsB = some bb) (hpa : Proper ba) (hpb : Proper bb) :
    ∃ r, evaluate lab c world = some r ∧ (r.satisfied = true ↔ Apart (Part ta ba) (Part tb bb)) := by
  refine ⟨_, eval_overlap hk ha hn hb hst hba hbb, ?_⟩
  rw [overlap_sat, apart_iff (part_tight ta hpa) (part_tight tb hpb)]

/-- So if it holds, the two parts have no point in common. -/
theorem C226_disjoint (lab : Lab ℝ) {c : Con} {world : World} {ta tb : Tf ℝ} {n : String} {ba bb : Box ℝ} {r : Res} (hk : c.kind = .noOverlap) (ha : world c.frameA = some ta)
    (hn : c.frameB = some n) (hb : world n = some tb) (hst : c.stlA = none ∨ c.stlB = none) (hba : c.boundsA = some ba) (hbb : c.boundsB = some bb)
    (he : evaluate lab c world = some r) (hs : r.satisfied = true) (p : V ℝ) : ¬ (Part ta ba p ∧ Part tb bb p) := by
  rintro ⟨h1, h2⟩
  rw [eval_overlap hk ha hn hb hst hba hbb] at he
  cases he
  have h := (overlap_sat _ _).mp hs
  obtain ⟨⟨p1, p2⟩, ⟨p3, p4⟩, p5, p6⟩ := part_within h1
  obtain ⟨⟨q1, q2⟩, ⟨q3, q4⟩, q5, q6⟩ := part_within h2
  rcases h with (h | h) | (h | h) | (h | h) <;> linarith

/-- not turned: the axes of the part are those of the world -/
def Unturned (t : Tf ℝ) : Prop := t.r1 = ⟨1, 0, 0⟩ ∧ t.r2 = ⟨0, 1, 0⟩ ∧ t.r3 = ⟨0, 0, 1⟩

theorem unturned_part {t : Tf ℝ} (h : Unturned t) (b : Box ℝ) (p : V ℝ) : Part t b p ↔ Within b (vsub p t.o) := by
  have pl : ∀ q, place t q = vadd q t.o := by
    intro q
    obtain ⟨h1, h2, h3⟩ := h
    unfold place turn
    rw [h1, h2, h3]
    unfold dot vadd
    ext <;> dsimp only <;> ring
  constructor
  · rintro ⟨q, hq, rfl⟩
    rw [pl]
    have : vsub (vadd q t.o) t.o = q := by unfold vsub vadd; ext <;> dsimp only <;> ring
    rwa [this]
  · intro hq
    refine ⟨_, hq, ?_⟩
    rw [pl]
    unfold vsub vadd; ext <;> dsimp only <;> ring

/-- For parts that are only moved, not turned, it is exact: it holds if and only if the parts have no point in common. -/
theorem C226_unturned (lab : Lab ℝ) {c : Con} {world : World} {ta tb : Tf ℝ} {n : String} {ba bb : Box ℝ} (hk : c.kind = .noOverlap) (ha : world c.frameA = some ta)
    (hn : c.frameB = some n) (hb : world n = some tb) (hst : c.stlA = none ∨ c.stlB = none) (hba : c.boundsA = some ba) (hbb : c.boundsB = some bb) (hpa : Proper ba) (hpb : Proper bb)
    (hua : Unturned ta) (hub : Unturned tb) :
    ∃ r, evaluate lab c world = some r ∧ (r.satisfied = true ↔ ¬ ∃ p, Part ta ba p ∧ Part tb bb p) := by
  obtain ⟨r, he, hr⟩ := C226_no_overlap lab hk ha hn hb hst hba hbb hpa hpb
  refine ⟨r, he, ⟨fun h => ?_, fun h => ?_⟩⟩
  · rintro ⟨p, hp⟩
    exact C226_disjoint lab hk ha hn hb hst hba hbb he h p hp
  · rw [hr]
    by_contra hc
    apply h
    have tA : Tight (vadd ba.1 ta.o, vadd ba.2 ta.o) (Part ta ba) := by
      have e : ta = { (still : Tf ℝ) with o := ta.o } := by obtain ⟨h1, h2, h3⟩ := hua; exact Tf.ext h1 h2 h3 rfl
      have e2 := still_box ta.o ba hpa
      rw [← e] at e2
      rw [← e2]
      exact part_tight ta hpa
    have tB : Tight (vadd bb.1 tb.o, vadd bb.2 tb.o) (Part tb bb) := by
      have e : tb = { (still : Tf ℝ) with o := tb.o } := by obtain ⟨h1, h2, h3⟩ := hub; exact Tf.ext h1 h2 h3 rfl
      have e2 := still_box tb.o bb hpb
      rw [← e] at e2
      rw [← e2]
      exact part_tight tb hpb
    rw [apart_iff tA tB] at hc
    push Not at hc
    obtain ⟨⟨h1, h2⟩, ⟨h3, h4⟩, h5, h6⟩ := hc
    obtain ⟨a1, a2, a3⟩ := hpa
    obtain ⟨b1, b2, b3⟩ := hpb
    unfold vadd at h1 h2 h3 h4 h5 h6
    dsimp only at h1 h2 h3 h4 h5 h6
    refine ⟨⟨max (ba.1.x + ta.o.x) (bb.1.x + tb.o.x), max (ba.1.y + ta.o.y) (bb.1.y + tb.o.y), max (ba.1.z + ta.o.z) (bb.1.z + tb.o.z)⟩, (unturned_part hua _ _).mpr ?_, (unturned_part hub _ _).mpr ?_⟩
    · unfold Within vsub
      dsimp only
      refine ⟨⟨?_, ?_⟩, ⟨?_, ?_⟩, ?_, ?_⟩
      · linarith [le_max_left (ba.1.x + ta.o.x) (bb.1.x + tb.o.x)]
      · linarith [max_le (show ba.1.x + ta.o.x ≤ ba.2.x + ta.o.x by linarith) h1]
      · linarith [le_max_left (ba.1.y + ta.o.y) (bb.1.y + tb.o.y)]
      · linarith [max_le (show ba.1.y + ta.o.y ≤ ba.2.y + ta.o.y by linarith) h3]
      · linarith [le_max_left (ba.1.z + ta.o.z) (bb.1.z + tb.o.z)]
      · linarith [max_le (show ba.1.z + ta.o.z ≤ ba.2.z + ta.o.z by linarith) h5]
    · unfold Within vsub
      dsimp only
      refine ⟨⟨?_, ?_⟩, ⟨?_, ?_⟩, ?_, ?_⟩
      · linarith [le_max_right (ba.1.x + ta.o.x) (bb.1.x + tb.o.x)]
      · linarith [max_le h2 (show bb.1.x + tb.o.x ≤ bb.2.x + tb.o.x by linarith)]
      · linarith [le_max_right (ba.1.y + ta.o.y) (bb.1.y + tb.o.y)]
      · linarith [max_le h4 (show bb.1.y + tb.o.y ≤ bb.2.y + tb.o.y by linarith)]
      · linarith [le_max_right (ba.1.z + ta.o.z) (bb.1.z + tb.o.z)]
      · linarith [max_le h6 (show bb.1.z + tb.o.z ≤ bb.2.z + tb.o.z by linarith)]

/-- a set of points moved by a vector -/
def Shift (d : V ℝ) (A : V ℝ → Prop) : V ℝ → Prop := fun p => A (vsub p d)

theorem shift_tight {A : V ℝ → Prop} {a : Box ℝ} (h : Tight a A) (d : V ℝ) : Tight (vadd a.1 d, vadd a.2 d) (Shift d A) := by
  have back : ∀ p, A p → Shift d A (vadd p d) := by
    intro p hp
    have : vsub (vadd p d) d = p := by unfold vsub vadd; ext <;> dsimp only <;> ring
    unfold Shift
    rwa [this]
  refine ⟨?_, ?_, ?_, ?_, ?_, ?_, ?_⟩
  · intro p hp
    obtain ⟨⟨h1, h2⟩, ⟨h3, h4⟩, h5, h6⟩ := h.all _ hp
    unfold vsub at h1 h2 h3 h4 h5 h6
    unfold vadd Within
    dsimp only at *
    refine ⟨⟨?_, ?_⟩, ⟨?_, ?_⟩, ?_, ?_⟩ <;> linarith
  · obtain ⟨p, hp, e⟩ := h.loX; exact ⟨_, back p hp, by unfold vadd; dsimp only; rw [e]⟩
  · obtain ⟨p, hp, e⟩ := h.loY; exact ⟨_, back p hp, by unfold vadd; dsimp only; rw [e]⟩
  · obtain ⟨p, hp, e⟩ := h.loZ; exact ⟨_, back p hp, by unfold vadd; dsimp only; rw [e]⟩
  · obtain ⟨p, hp, e⟩ := h.hiX; exact ⟨_, back p hp, by unfold vadd; dsimp only; rw [e]⟩
  · obtain ⟨p, hp, e⟩ := h.hiY; exact ⟨_, back p hp, by unfold vadd; dsimp only; rw [e]⟩
  · obtain ⟨p, hp, e⟩ := h.hiZ; exact ⟨_, back p hp, by unfold vadd; dsimp only; rw [e]⟩

/-- **C226 (depth).** If it does not hold, the error is the depth: no move of the first part along an axis by less than it takes the parts apart (nor does any
move whose three components are all less), and there is an axis and a direction in which every longer move does. -/
theorem C226_depth (lab : Lab ℝ) {c : Con} {world : World} {ta tb : Tf ℝ} {n : String} {ba bb : Box ℝ} {r : Res} (hk : c.kind = .noOverlap) (ha : world c.frameA = some ta)
    (hn : c.frameB = some n) (hb : world n = some tb) (hst : c.stlA = none ∨ c.stlB = none) (hba : c.boundsA = some ba) (hbb : c.boundsB = some bb) (hpa : Proper ba) (hpb : Proper bb)
    (he : evaluate lab c world = some r) (hs : r.satisfied = false) :
    0 ≤ r.error ∧
    (∀ d : V ℝ, |d.x| ≤ r.error → |d.y| ≤ r.error → |d.z| ≤ r.error → ¬ Apart (Shift d (Part ta ba)) (Part tb bb)) ∧
    ∃ e ∈ [(⟨1, 0, 0⟩ : V ℝ), ⟨-1, 0, 0⟩, ⟨0, 1, 0⟩, ⟨0, -1, 0⟩, ⟨0, 0, 1⟩, ⟨0, 0, -1⟩], ∀ s > r.error, Apart (Shift (smul s e) (Part ta ba)) (Part tb bb) := by
  rw [eval_overlap hk ha hn hb hst hba hbb] at he
  cases he
  have tA := part_tight ta hpa
  have tB := part_tight tb hpb
  generalize hA : Part ta ba = A at *
  generalize hB : Part tb bb = B at *
  generalize transformBox ta ba = a at *
  generalize transformBox tb bb = b at *
  unfold overlap at hs ⊢
  by_cases h : (a.1.x ≤ b.2.x ∧ b.1.x ≤ a.2.x) ∧ (a.1.y ≤ b.2.y ∧ b.1.y ≤ a.2.y) ∧ (a.1.z ≤ b.2.z ∧ b.1.z ≤ a.2.z)
  · rw [if_pos h]
    obtain ⟨⟨h1, h2⟩, ⟨h3, h4⟩, h5, h6⟩ := h
    dsimp only
    generalize hm : min (min (min (a.2.x - b.1.x) (b.2.x - a.1.x)) (min (a.2.y - b.1.y) (b.2.y - a.1.y))) (min (a.2.z - b.1.z) (b.2.z - a.1.z)) = m
    have hx1 : m ≤ a.2.x - b.1.x := by rw [← hm]; simp
    have hx2 : m ≤ b.2.x - a.1.x := by rw [← hm]; simp
    have hy1 : m ≤ a.2.y - b.1.y := by rw [← hm]; simp
    have hy2 : m ≤ b.2.y - a.1.y := by rw [← hm]; simp
    have hz1 : m ≤ a.2.z - b.1.z := by rw [← hm]; simp
    have hz2 : m ≤ b.2.z - a.1.z := by rw [← hm]; simp
    refine ⟨?_, ?_, ?_⟩
    · rw [← hm]
      simp only [le_min_iff]
      refine ⟨⟨⟨?_, ?_⟩, ?_, ?_⟩, ?_, ?_⟩ <;> linarith
    · intro d d1 d2 d3
      rw [apart_iff (shift_tight tA d) tB]
      unfold vadd
      dsimp only
      have := abs_le.mp d1
      have := abs_le.mp d2
      have := abs_le.mp d3
      rintro ((h | h) | (h | h) | (h | h)) <;> linarith
    · have hc : m = a.2.x - b.1.x ∨ m = b.2.x - a.1.x ∨ m = a.2.y - b.1.y ∨ m = b.2.y - a.1.y ∨ m = a.2.z - b.1.z ∨ m = b.2.z - a.1.z := by
        rw [← hm]
        rcases min_choice (min (min (a.2.x - b.1.x) (b.2.x - a.1.x)) (min (a.2.y - b.1.y) (b.2.y - a.1.y))) (min (a.2.z - b.1.z) (b.2.z - a.1.z)) with e | e <;> rw [e]
        · rcases min_choice (min (a.2.x - b.1.x) (b.2.x - a.1.x)) (min (a.2.y - b.1.y) (b.2.y - a.1.y)) with e | e <;> rw [e]
          · rcases min_choice (a.2.x - b.1.x) (b.2.x - a.1.x) with e | e <;> rw [e] <;> simp
          · rcases min_choice (a.2.y - b.1.y) (b.2.y - a.1.y) with e | e <;> rw [e] <;> simp
        · rcases min_choice (a.2.z - b.1.z) (b.2.z - a.1.z) with e | e <;> rw [e] <;> simp
      rcases hc with e | e | e | e | e | e
      · refine ⟨⟨-1, 0, 0⟩, by simp, fun s hs => ?_⟩
        rw [apart_iff (shift_tight tA _) tB]; unfold vadd smul; dsimp only; left; left; linarith
      · refine ⟨⟨1, 0, 0⟩, by simp, fun s hs => ?_⟩
        rw [apart_iff (shift_tight tA _) tB]; unfold vadd smul; dsimp only; left; right; linarith
      · refine ⟨⟨0, -1, 0⟩, by simp, fun s hs => ?_⟩
        rw [apart_iff (shift_tight tA _) tB]; unfold vadd smul; dsimp only; right; left; left; linarith
      · refine ⟨⟨0, 1, 0⟩, by simp, fun s hs => ?_⟩
        rw [apart_iff (shift_tight tA _) tB]; unfold vadd smul; dsimp only; right; left; right; linarith
      · refine ⟨⟨0, 0, -1⟩, by simp, fun s hs => ?_⟩
        rw [apart_iff (shift_tight tA _) tB]; unfold vadd smul; dsimp only; right; right; left; linarith
      · refine ⟨⟨0, 0, 1⟩, by simp, fun s hs => ?_⟩
        rw [apart_iff (shift_tight tA _) tB]; unfold vadd smul; dsimp only; right; right; right; linarith
  · rw [if_neg h] at hs
    cases hs

/-- **C226, what does not hold.** Without boxes and without meshes on both sides, nothing is checked: two parts at the same place pass. -/
theorem C226_skipped (lab : Lab ℝ) {c : Con} {world : World} {ta tb : Tf ℝ} {n : String} (hk : c.kind = .noOverlap) (ha : world c.frameA = some ta)
    (hn : c.frameB = some n) (hb : world n = some tb) (hst : c.stlA = none ∨ c.stlB = none) (hbs : c.boundsA = none ∨ c.boundsB = none) :
    ∃ r, evaluate lab c world = some r ∧ r.satisfied = true := by
  refine ⟨{ satisfied := true }, ?_, rfl⟩
  rw [eval_frames ha hn hb, hk]
  dsimp only
  unfold noOverlap
  dsimp only
  rcases hst with h | h <;> rcases hbs with h' | h' <;> rw [h, h'] <;> (try rfl)
  · rcases c.boundsA with _ | _ <;> rfl
  · rcases c.stlA with _ | _ <;> rfl
  · rcases c.stlA with _ | _ <;> rcases c.boundsA with _ | _ <;> rfl

/-- **C226, what does not hold.** Two bars that are turned can be far from each other and still fail: here two bars 10 long and 0 thick that are parallel, in the direction
(3, 4), at a distance of 3. -/
theorem C226_too_strict (lab : Lab ℝ) : ∃ (c : Con) (world : World) (ta tb : Tf ℝ) (b : Box ℝ) (r : Res), c.kind = .noOverlap ∧ world c.frameA = some ta ∧ c.frameB = some "b" ∧ world "b" = some tb ∧
    c.boundsA = some b ∧ c.boundsB = some b ∧ Rigid ta ∧ Rigid tb ∧ evaluate lab c world = some r ∧ r.satisfied = false ∧
    ∀ p q, Part ta b p → Part tb b q → 3 ≤ norm (vsub q p) := by
  let b : Box ℝ := (⟨0, 0, 0⟩, ⟨10, 0, 1⟩)
  let c : Con := { name := "n", kind := .noOverlap, frameA := "a", frameB := some "b", boundsA := some b, boundsB := some b }
  let t (o : V ℝ) : Tf ℝ := ⟨⟨3 / 5, -(4 / 5), 0⟩, ⟨4 / 5, 3 / 5, 0⟩, ⟨0, 0, 1⟩, o⟩
  let ta := t ⟨0, 0, 0⟩
  let tb := t ⟨-(12 / 5), 9 / 5, 0⟩
  have rig : ∀ o, Rigid (t o) := by intro o v w; simp only [t, turn, dot]; ring
  have hpr : Proper b := by unfold Proper; norm_num [b]
  refine ⟨c, pair ta tb, ta, tb, b, _, rfl, rfl, rfl, rfl, rfl, rfl, rig _, rig _, eval_overlap (c := c) rfl rfl rfl rfl (.inl rfl) rfl rfl, ?_, ?_⟩
  · rw [Bool.eq_false_iff, ne_eq, overlap_sat, ← apart_iff (part_tight ta hpr) (part_tight tb hpr)]
    have pa : ∀ x z, 0 ≤ x → x ≤ 10 → 0 ≤ z → z ≤ 1 → Part ta b ⟨3 / 5 * x, 4 / 5 * x, z⟩ := fun x z h1 h2 h3 h4 =>
      ⟨⟨x, 0, z⟩, ⟨⟨h1, h2⟩, ⟨le_refl _, le_refl _⟩, h3, h4⟩, by simp [ta, t, place, turn, dot, vadd]⟩
    have pb : ∀ x z, 0 ≤ x → x ≤ 10 → 0 ≤ z → z ≤ 1 → Part tb b ⟨3 / 5 * x - 12 / 5, 4 / 5 * x + 9 / 5, z⟩ := fun x z h1 h2 h3 h4 =>
      ⟨⟨x, 0, z⟩, ⟨⟨h1, h2⟩, ⟨le_refl _, le_refl _⟩, h3, h4⟩, by simp [tb, t, place, turn, dot, vadd]; ring⟩
    rintro ⟨f, hf, h⟩
    simp only [axes, List.mem_cons, List.not_mem_nil, or_false] at hf
    have a0 := pa 0 0 (by norm_num) (by norm_num) (by norm_num) (by norm_num)
    have a1 := pa 10 1 (by norm_num) (by norm_num) (by norm_num) (by norm_num)
    have b0 := pb 0 0 (by norm_num) (by norm_num) (by norm_num) (by norm_num)
    have b1 := pb 10 1 (by norm_num) (by norm_num) (by norm_num) (by norm_num)
    rcases h with h | h
    · have := h _ _ a1 b0
      rcases hf with rfl | rfl | rfl <;> norm_num at this
    · have := h _ _ a0 b1
      rcases hf with rfl | rfl | rfl <;> norm_num at this
  · rintro p q ⟨p', ⟨-, ⟨y1, y2⟩, -⟩, rfl⟩ ⟨q', ⟨-, ⟨y3, y4⟩, -⟩, rfl⟩
    dsimp only [b] at y1 y2 y3 y4
    have hp : p'.y = 0 := le_antisymm y2 y1
    have hq : q'.y = 0 := le_antisymm y4 y3
    unfold norm
    apply le_sqrt_of_sq_le
    simp only [ta, tb, t, place, turn, dot, vadd, vsub, hp, hq]
    nlinarith [sq_nonneg (q'.x - p'.x), sq_nonneg (q'.z - p'.z)]

end Verif.Valid
