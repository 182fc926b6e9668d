import Verif.Geom.Poly
import Verif.Geom.LineProps
import Mathlib.Tactic.Linarith

/-!
# Triangles, bounding boxes, polylines, knot vectors
(C40, C42, C44, C45, C46, C107, C108)
-/

namespace Verif.Geom

/-! ## C42 -/

/-- `a` is the convex combination of the three points with coefficients `l` (plane coordinates) -/
def IsComb (a p1 p2 p3 : V4) (l1 l2 l3 : ℝ) : Prop :=
  l1 + l2 + l3 = 1 ∧ a.x = l1 * p1.x + l2 * p2.x + l3 * p3.x ∧
    a.y = l1 * p1.y + l2 * p2.y + l3 * p3.y

theorem comb_iff (a p1 p2 p3 : V4) (hd : baryDenom p1 p2 p3 ≠ 0) (l1 l2 l3 : ℝ) :
    IsComb a p1 p2 p3 l1 l2 l3 ↔
    l1 = ((p2.y - p3.y) * (a.x - p3.x) + (p3.x - p2.x) * (a.y - p3.y)) / baryDenom p1 p2 p3 ∧
    l2 = ((p3.y - p1.y) * (a.x - p3.x) + (p1.x - p3.x) * (a.y - p3.y)) / baryDenom p1 p2 p3 ∧
    l3 = 1 - (l1 + l2) := by
  rw [eq_div_iff hd, eq_div_iff hd]
  constructor
  · rintro ⟨h1, h2, h3⟩
    have e3 : l3 = 1 - (l1 + l2) := by linarith
    refine ⟨?_, ?_, e3⟩
    · subst e3; unfold baryDenom
      rw [h2, h3]; ring
    · subst e3; unfold baryDenom
      rw [h2, h3]; ring
  · rintro ⟨h1, h2, h3⟩
    have hD : baryDenom p1 p2 p3 = (p2.y - p3.y) * (p1.x - p3.x) + (p3.x - p2.x) * (p1.y - p3.y) := rfl
    refine ⟨by linarith, ?_, ?_⟩
    · apply mul_right_cancel₀ hd
      rw [h3]
      linear_combination (-(p1.x - p3.x)) * h1 - (p2.x - p3.x) * h2 + (a.x - p3.x) * hD
    · apply mul_right_cancel₀ hd
      rw [h3]
      linear_combination (-(p1.y - p3.y)) * h1 - (p2.y - p3.y) * h2 + (a.y - p3.y) * hD

/-- **C42** the returned coefficients sum to one and combine the vertices to the given point -/
theorem C42_reproduces (a p1 p2 p3 : V4) (l1 l2 l3 : ℝ)
    (h : barycentricXY a p1 p2 p3 = .ok (l1, l2, l3)) :
    l1 + l2 + l3 = 1 ∧ a.x = l1 * p1.x + l2 * p2.x + l3 * p3.x ∧
      a.y = l1 * p1.y + l2 * p2.y + l3 * p3.y := by
  unfold barycentricXY barycentric at h
  split at h
  · simp only at h
    split at h
    · simp at h
    · rename_i hd
      have hd0 : baryDenom p1 p2 p3 ≠ 0 := by
        intro h0; rw [h0] at hd; simp [eps_pos] at hd
      simp only [Except.ok.injEq, Prod.mk.injEq] at h
      exact (comb_iff a p1 p2 p3 hd0 l1 l2 l3).mpr ⟨h.1.symm, h.2.1.symm, by
        rw [← h.1, ← h.2.1]; exact h.2.2.symm⟩
  · simp at h

/-- **C42** the coefficients are unique -/
theorem C42_unique (a p1 p2 p3 : V4) (l1 l2 l3 m1 m2 m3 : ℝ)
    (h : barycentricXY a p1 p2 p3 = .ok (l1, l2, l3)) (hm : IsComb a p1 p2 p3 m1 m2 m3) :
    m1 = l1 ∧ m2 = l2 ∧ m3 = l3 := by
  unfold barycentricXY barycentric at h
  split at h
  · simp only at h
    split at h
    · simp at h
    · rename_i hd
      have hd0 : baryDenom p1 p2 p3 ≠ 0 := by
        intro h0; rw [h0] at hd; simp [eps_pos] at hd
      simp only [Except.ok.injEq, Prod.mk.injEq] at h
      obtain ⟨a1, a2, a3⟩ := (comb_iff a p1 p2 p3 hd0 m1 m2 m3).mp hm
      refine ⟨by rw [a1]; exact h.1, by rw [a2]; exact h.2.1, ?_⟩
      rw [a3, a1, a2]; exact h.2.2
  · simp at h

/-- **C42** it fails exactly for points in different planes or triangles whose doubled area is below
epsilon -/
theorem C42_error (a p1 p2 p3 : V4) :
    barycentricXY a p1 p2 p3 = .error .valueError ↔
    ¬ isXYPlanar [a, p1, p2, p3] ∨
    |(p1.x - p3.x) * (p2.y - p3.y) - (p2.x - p3.x) * (p1.y - p3.y)| < eps := by
  have e : baryDenom p1 p2 p3 = (p1.x - p3.x) * (p2.y - p3.y) - (p2.x - p3.x) * (p1.y - p3.y) := by
    unfold baryDenom; ring
  rw [← e]
  unfold barycentricXY barycentric
  split
  · rename_i hp
    simp only [hp, not_true, false_or]
    split
    · rename_i hd; simp [hd]
    · rename_i hd; simp [hd]
  · rename_i hp; simp [hp]

/-- **C42** a point is reported inside a (non-degenerate) triangle exactly when it is a convex
combination of the vertices -/
theorem C42_inside (a p1 p2 p3 : V4)
    (hd : eps ≤ |(p1.x - p3.x) * (p2.y - p3.y) - (p2.x - p3.x) * (p1.y - p3.y)|) :
    ∃ b, isInsideTriangle a p1 p2 p3 = .ok b ∧
      (b = true ↔ ∃ l1 l2 l3, 0 ≤ l1 ∧ 0 ≤ l2 ∧ 0 ≤ l3 ∧ IsComb a p1 p2 p3 l1 l2 l3) := by
  have e : baryDenom p1 p2 p3 = (p1.x - p3.x) * (p2.y - p3.y) - (p2.x - p3.x) * (p1.y - p3.y) := by
    unfold baryDenom; ring
  rw [← e] at hd
  have hd0 : baryDenom p1 p2 p3 ≠ 0 := by
    intro h0; rw [h0, abs_zero] at hd; linarith [eps_pos]
  unfold isInsideTriangle barycentric
  rw [if_neg (not_lt.mpr hd)]
  refine ⟨_, rfl, ?_⟩
  have hiff := comb_iff a p1 p2 p3 hd0
  generalize ((p2.y - p3.y) * (a.x - p3.x) + (p3.x - p2.x) * (a.y - p3.y)) / baryDenom p1 p2 p3 = b0 at *
  generalize ((p3.y - p1.y) * (a.x - p3.x) + (p1.x - p3.x) * (a.y - p3.y)) / baryDenom p1 p2 p3 = b1 at *
  constructor
  · intro h
    split at h
    · rename_i hb
      exact ⟨b0, b1, 1 - (b0 + b1), hb.1, hb.2.2.1, hb.2.2.2.2.1, (hiff _ _ _).mpr ⟨rfl, rfl, rfl⟩⟩
    · simp at h
  · rintro ⟨l1, l2, l3, h1, h2, h3, hc⟩
    obtain ⟨rfl, rfl, rfl⟩ := (hiff _ _ _).mp hc
    rw [if_pos ⟨h1, by linarith, h2, by linarith, h3, by linarith⟩]

/-- the hypothesis is met by a right triangle -/
example : eps ≤ |((pt 0 0).x - (pt 0 3).x) * ((pt 4 0).y - (pt 0 3).y) -
    ((pt 4 0).x - (pt 0 3).x) * ((pt 0 0).y - (pt 0 3).y)| := by
  unfold pt eps; norm_num

/-! ## C107: convex polygons -/

/-- convex combination of a list of points (plane coordinates) -/
def InHull (ps : List V4) (a : V4) : Prop :=
  ∃ ws : List ℝ, ws.length = ps.length ∧ (∀ w ∈ ws, 0 ≤ w) ∧ ws.sum = 1 ∧
    a.x = (List.zipWith (fun w (p : V4) => w * p.x) ws ps).sum ∧
    a.y = (List.zipWith (fun w (p : V4) => w * p.y) ws ps).sum

theorem hull_cons (p : V4) (ps : List V4) (a : V4) (h : InHull ps a) : InHull (p :: ps) a := by
  obtain ⟨ws, h1, h2, h3, h4, h5⟩ := h
  refine ⟨0 :: ws, by simp [h1], ?_, by simp [h3], by simp [h4], by simp [h5]⟩
  intro w hw
  rcases List.mem_cons.mp hw with rfl | hw
  · exact le_refl _
  · exact h2 w hw

theorem hull_three (p1 p2 p3 : V4) (rest : List V4) (a : V4) (l1 l2 l3 : ℝ) (h1 : 0 ≤ l1) (h2 : 0 ≤ l2)
    (h3 : 0 ≤ l3) (hc : IsComb a p1 p2 p3 l1 l2 l3) : InHull (p1 :: p2 :: p3 :: rest) a := by
  refine ⟨l1 :: l2 :: l3 :: List.replicate rest.length 0, by simp, ?_, ?_, ?_, ?_⟩
  · intro w hw
    simp only [List.mem_cons, List.mem_replicate] at hw
    rcases hw with rfl | rfl | rfl | ⟨_, rfl⟩ <;> first | assumption | exact le_refl _
  · simp only [List.sum_cons, List.sum_replicate, smul_zero]; linarith [hc.1]
  · have : ∀ (l : List V4), (List.zipWith (fun w (p : V4) => w * p.x) (List.replicate l.length 0) l).sum = 0 := by
      intro l; induction l with
      | nil => rfl
      | cons q l ih => simp [List.replicate_succ, ih]
    simp only [List.zipWith_cons_cons, List.sum_cons, this]; linarith [hc.2.1]
  · have : ∀ (l : List V4), (List.zipWith (fun w (p : V4) => w * p.y) (List.replicate l.length 0) l).sum = 0 := by
      intro l; induction l with
      | nil => rfl
      | cons q l ih => simp [List.replicate_succ, ih]
    simp only [List.zipWith_cons_cons, List.sum_cons, this]; linarith [hc.2.2]

theorem triangle_true {a p1 p2 p3 : V4} (h : isInsideTriangle a p1 p2 p3 = .ok true) :
    ∃ l1 l2 l3, 0 ≤ l1 ∧ 0 ≤ l2 ∧ 0 ≤ l3 ∧ IsComb a p1 p2 p3 l1 l2 l3 := by
  by_cases hd : eps ≤ |(p1.x - p3.x) * (p2.y - p3.y) - (p2.x - p3.x) * (p1.y - p3.y)|
  · obtain ⟨b, hb, hiff⟩ := C42_inside a p1 p2 p3 hd
    rw [h] at hb
    injection hb with hb
    exact hiff.mp hb.symm
  · have e : baryDenom p1 p2 p3 = (p1.x - p3.x) * (p2.y - p3.y) - (p2.x - p3.x) * (p1.y - p3.y) := by
      unfold baryDenom; ring
    rw [← e, not_le] at hd
    unfold isInsideTriangle barycentric at h
    rw [if_pos hd] at h
    simp at h

/-- **C107** (one direction) a point reported inside lies in the convex hull of the vertices -/
theorem C107_inside_sound_partial (a : V4) (poly : List V4)
    (h : isInsideConvexPolyXY a poly = .ok true) : InHull poly a := by
  have aux : ∀ (poly : List V4), isInsideConvexPoly a poly = .ok true → InHull poly a := by
    intro poly
    induction poly with
    | nil => intro h; simp [isInsideConvexPoly] at h
    | cons p1 t ih =>
      intro h
      match t, ih, h with
      | [], _, h => simp [isInsideConvexPoly] at h
      | [_], _, h => simp [isInsideConvexPoly] at h
      | [p2, p3], _, h =>
        rw [isInsideConvexPoly] at h
        obtain ⟨l1, l2, l3, a1, a2, a3, hc⟩ := triangle_true h
        exact hull_three p1 p2 p3 [] a l1 l2 l3 a1 a2 a3 hc
      | p2 :: p3 :: p4 :: r, ih, h =>
        rw [isInsideConvexPoly] at h
        split at h
        · simp at h
        · rename_i ht
          obtain ⟨l1, l2, l3, a1, a2, a3, hc⟩ := triangle_true ht
          exact hull_three p1 p2 p3 (p4 :: r) a l1 l2 l3 a1 a2 a3 hc
        · exact hull_cons p1 _ a (ih h)
  unfold isInsideConvexPolyXY at h
  split at h
  · simp at h
  · exact aux poly h

theorem triangle_false (a p1 p2 p3 : V4)
    (hd : eps ≤ |(p1.x - p3.x) * (p2.y - p3.y) - (p2.x - p3.x) * (p1.y - p3.y)|)
    (hn : ∀ l1 l2 l3, 0 ≤ l1 → 0 ≤ l2 → 0 ≤ l3 → ¬ IsComb a p1 p2 p3 l1 l2 l3) :
    isInsideTriangle a p1 p2 p3 = .ok false := by
  obtain ⟨b, hb, hiff⟩ := C42_inside a p1 p2 p3 hd
  cases b with
  | false => exact hb
  | true =>
    obtain ⟨l1, l2, l3, h1, h2, h3, hc⟩ := hiff.mp rfl
    exact absurd hc (hn l1 l2 l3 h1 h2 h3)

/-- **C107 fails**: the point (1,2) is the middle of a regular-looking convex hexagon but is reported
outside, because only triangles of consecutive vertices are tested -/
theorem C107_hexagon_centre_outside :
    isInsideConvexPolyXY (pt 1 2) [pt 0 0, pt 2 0, pt 4 2, pt 2 4, pt 0 4, pt (-2) 2] = .ok false ∧
    InHull [pt 0 0, pt 2 0, pt 4 2, pt 2 4, pt 0 4, pt (-2) 2] (pt 1 2) := by
  constructor
  · unfold isInsideConvexPolyXY
    rw [if_neg (by
      push Not
      refine ⟨by norm_num, ?_⟩
      simp only [isXYPlanar, pt, List.cons_append, List.nil_append, List.mem_cons, List.not_mem_nil,
        or_false]
      rintro q (rfl | rfl | rfl | rfl | rfl | rfl) <;> simp [eps_pos.le])]
    simp only [isInsideConvexPoly]
    rw [triangle_false _ _ _ _ (by unfold pt eps; norm_num) (by
      rintro l1 l2 l3 h1 h2 h3 ⟨a, b, c⟩
      simp only [pt] at b c; linarith)]
    simp only
    rw [triangle_false _ _ _ _ (by unfold pt eps; norm_num) (by
      rintro l1 l2 l3 h1 h2 h3 ⟨a, b, c⟩
      simp only [pt] at b c; linarith)]
    simp only
    rw [triangle_false _ _ _ _ (by unfold pt eps; norm_num) (by
      rintro l1 l2 l3 h1 h2 h3 ⟨a, b, c⟩
      simp only [pt] at b c; linarith)]
    simp only
    rw [triangle_false _ _ _ _ (by unfold pt eps; norm_num) (by
      rintro l1 l2 l3 h1 h2 h3 ⟨a, b, c⟩
      simp only [pt] at b c; linarith)]
  · refine ⟨[1/2, 0, 0, 1/2, 0, 0], rfl, ?_, by norm_num, by norm_num [pt], by norm_num [pt]⟩
    intro w hw
    simp only [List.mem_cons, List.not_mem_nil, or_false] at hw
    rcases hw with rfl | rfl | rfl | rfl | rfl | rfl <;> norm_num

/-! ## C40 -/

theorem updMM_spec (m : ℝ × ℝ) (v : ℝ) (h : m.1 ≤ m.2) :
    updMM m v = (min m.1 v, max m.2 v) := by
  unfold updMM
  split
  · rename_i h1
    rw [min_eq_right h1.le, max_eq_left (by linarith)]
  · split
    · rename_i h1 h2
      rw [min_eq_left (not_lt.mp h1), max_eq_right (le_of_lt h2)]
    · rename_i h1 h2
      rw [min_eq_left (not_lt.mp h1), max_eq_left (not_lt.mp h2)]

/-- one coordinate of the box computed by the loop -/
theorem foldMM (f : V4 → ℝ) (ps : List V4) : ∀ (m : ℝ × ℝ), m.1 ≤ m.2 →
    let r := ps.foldl (fun m p => updMM m (f p)) m
    r.1 ≤ m.1 ∧ m.2 ≤ r.2 ∧ (∀ p ∈ ps, r.1 ≤ f p ∧ f p ≤ r.2) ∧
    (∀ lo hi, lo ≤ m.1 → m.2 ≤ hi → (∀ p ∈ ps, lo ≤ f p ∧ f p ≤ hi) → lo ≤ r.1 ∧ r.2 ≤ hi) := by
  induction ps with
  | nil => intro m h; exact ⟨le_refl _, le_refl _, by simp, fun lo hi h1 h2 _ => ⟨h1, h2⟩⟩
  | cons p ps ih =>
    intro m h
    simp only [List.foldl_cons]
    rw [updMM_spec m (f p) h]
    have hle : (min m.1 (f p), max m.2 (f p)).1 ≤ (min m.1 (f p), max m.2 (f p)).2 :=
      le_trans (min_le_left _ _) (le_trans h (le_max_left _ _))
    obtain ⟨h1, h2, h3, h4⟩ := ih _ hle
    simp only at h1 h2 h3 h4
    refine ⟨le_trans h1 (min_le_left _ _), le_trans (le_max_left _ _) h2, ?_, ?_⟩
    · intro q hq
      rcases List.mem_cons.mp hq with rfl | hq
      · exact ⟨le_trans h1 (min_le_right _ _), le_trans (le_max_right _ _) h2⟩
      · exact h3 q hq
    · intro lo hi hlo hhi hall
      have hp := hall p (by simp)
      exact h4 lo hi (le_min hlo hp.1) (max_le hhi hp.2) (fun q hq => hall q (by simp [hq]))

theorem bboxLoop_eq (ps : List V4) : ∀ s, bboxLoop s ps =
    (ps.foldl (fun m p => updMM m p.x) s.1, ps.foldl (fun m p => updMM m p.y) s.2.1,
      ps.foldl (fun m p => updMM m p.z) s.2.2) := by
  induction ps with
  | nil => intro s; rfl
  | cons p ps ih => intro s; unfold bboxLoop at ih ⊢; simp only [List.foldl_cons]; rw [ih]

/-- **C40** the box of a list of at least two points contains every point and is contained in every
box that contains them all; it is an ordinary pair of points -/
theorem C40_tight (ps : List V4) (h : 2 ≤ ps.length) :
    ∃ b, polybbox ps = some b ∧ b.lo.w = 1 ∧ b.hi.w = 1 ∧ (∀ p ∈ ps, InBox b.lo b.hi p) ∧
      ∀ lo hi, (∀ p ∈ ps, InBox lo hi p) → InBox lo hi b.lo ∧ InBox lo hi b.hi := by
  match ps, h with
  | p :: q :: r, _ =>
    refine ⟨_, rfl, rfl, rfl, ?_, ?_⟩
    all_goals
      simp only [bboxLoop_eq, pt, InBox]
      obtain ⟨x1, x2, x3, x4⟩ := foldMM (·.x) (q :: r) (p.x, p.x) (le_refl _)
      obtain ⟨y1, y2, y3, y4⟩ := foldMM (·.y) (q :: r) (p.y, p.y) (le_refl _)
      obtain ⟨z1, z2, z3, z4⟩ := foldMM (·.z) (q :: r) (p.z, p.z) (le_refl _)
      simp only at x1 x2 x3 x4 y1 y2 y3 y4 z1 z2 z3 z4
    · intro a ha
      rcases List.mem_cons.mp ha with rfl | ha
      · exact ⟨x1, x2, y1, y2, z1, z2⟩
      · exact ⟨(x3 a ha).1, (x3 a ha).2, (y3 a ha).1, (y3 a ha).2, (z3 a ha).1, (z3 a ha).2⟩
    · intro lo hi hall
      have hp := hall p (by simp)
      have hr : ∀ a ∈ q :: r, InBox lo hi a := fun a ha => hall a (by simp [ha])
      have X := x4 lo.x hi.x hp.1 hp.2.1 (fun a ha => ⟨(hr a ha).1, (hr a ha).2.1⟩)
      have Y := y4 lo.y hi.y hp.2.2.1 hp.2.2.2.1 (fun a ha => ⟨(hr a ha).2.2.1, (hr a ha).2.2.2.1⟩)
      have Z := z4 lo.z hi.z hp.2.2.2.2.1 hp.2.2.2.2.2 (fun a ha => ⟨(hr a ha).2.2.2.2.1, (hr a ha).2.2.2.2.2⟩)
      refine ⟨⟨X.1, ?_, Y.1, ?_, Z.1, ?_⟩, ⟨?_, X.2, ?_, Y.2, ?_, Z.2⟩⟩ <;> linarith

/-- no points: no box; one point: a box of half-width epsilon around it -/
theorem C40_small (p : V4) :
    polybbox [] = none ∧ ∃ b, polybbox [p] = some b ∧
      ∀ q, InBox b.lo b.hi q ↔ |q.x - p.x| ≤ eps ∧ |q.y - p.y| ≤ eps ∧ |q.z - p.z| ≤ eps := by
  refine ⟨rfl, _, rfl, fun q => ?_⟩
  unfold pointbbox InBox sub add pt
  simp only [abs_le]
  constructor
  · rintro ⟨a, b, c, d, e, f⟩
    exact ⟨⟨by linarith, by linarith⟩, ⟨by linarith, by linarith⟩, ⟨by linarith, by linarith⟩⟩
  · rintro ⟨⟨a, b⟩, ⟨c, d⟩, ⟨e, f⟩⟩
    exact ⟨by linarith, by linarith, by linarith, by linarith, by linarith, by linarith⟩

theorem inBox_iff (b : Box) (p : V4) : isinsidebbox b p ↔ InBox b.lo b.hi p := Iff.rfl

theorem param_in_box {a b lo hi p : V4} {u : ℝ} (ha : InBox lo hi a) (hb : InBox lo hi b) (h0 : 0 ≤ u)
    (h1 : u ≤ 1) (hp : AtParam a b u p) : InBox lo hi p := by
  obtain ⟨px, py, pz⟩ := hp
  obtain ⟨a1, a2, a3, a4, a5, a6⟩ := ha
  obtain ⟨b1, b2, b3, b4, b5, b6⟩ := hb
  refine ⟨?_, ?_, ?_, ?_, ?_, ?_⟩ <;> simp only [px, py, pz] <;> nlinarith

/-- **C40** the box of a line is the box of its endpoints, and contains every sample of the segment -/
theorem C40_line (l : Line) :
    InBox (linebbox l).lo (linebbox l).hi l.a ∧ InBox (linebbox l).lo (linebbox l).hi l.b ∧
    (∀ lo hi, InBox lo hi l.a → InBox lo hi l.b →
      InBox lo hi (linebbox l).lo ∧ InBox lo hi (linebbox l).hi) ∧
    ∀ u, 0 ≤ u → u ≤ 1 → isinsidebbox (linebbox l) (sampleline l u) := by
  have ha : InBox (linebbox l).lo (linebbox l).hi l.a := by
    unfold linebbox InBox pt; simp
  have hb : InBox (linebbox l).lo (linebbox l).hi l.b := by
    unfold linebbox InBox pt; simp
  refine ⟨ha, hb, ?_, fun u h0 h1 => param_in_box ha hb h0 h1 (C39_sample l u).1⟩
  rintro lo hi ⟨a1, a2, a3, a4, a5, a6⟩ ⟨b1, b2, b3, b4, b5, b6⟩
  unfold linebbox InBox pt
  simp only [le_min_iff, max_le_iff, min_le_iff, le_max_iff]
  exact ⟨⟨⟨a1, b1⟩, Or.inl a2, ⟨a3, b3⟩, Or.inl a4, ⟨a5, b5⟩, Or.inl a6⟩,
    ⟨Or.inl a1, ⟨a2, b2⟩, Or.inl a3, ⟨a4, b4⟩, Or.inl a5, ⟨a6, b6⟩⟩⟩

/-! ## C45 -/

/-- `p` is the point at arc length `s` along the polyline with the given vertices -/
inductive AtArc : List V4 → ℝ → V4 → Prop
  | here (a b : V4) (rest : List V4) (t : ℝ) (p : V4) (h0 : 0 ≤ t) (h1 : t ≤ 1)
      (hp : AtParam a b t p) : AtArc (a :: b :: rest) (t * dist a b) p
  | later (a b : V4) (rest : List V4) (s : ℝ) (p : V4) (h : AtArc (b :: rest) s p) :
      AtArc (a :: b :: rest) (dist a b + s) p

/-- total length of a polyline -/
noncomputable def totalLen : List V4 → ℝ
  | a :: b :: r => dist a b + totalLen (b :: r)
  | _ => 0

/-- no two consecutive vertices coincide -/
def NoZeroSeg : List V4 → Prop
  | a :: b :: r => ¬ Same3 a b ∧ NoZeroSeg (b :: r)
  | _ => True

theorem foldl_add (l : List ℝ) : ∀ c, l.foldl (· + ·) c = c + l.foldl (· + ·) 0 := by
  induction l with
  | nil => intro c; simp
  | cons x l ih => intro c; simp only [List.foldl_cons]; rw [ih (c + x), ih (0 + x)]; ring

theorem segsLength_eq (a : List V4) : segsLength a = totalLen a := by
  induction a with
  | nil => rfl
  | cons p t ih =>
    match t, ih with
    | [], _ => rfl
    | q :: r, ih =>
      unfold segsLength at ih ⊢
      rw [segs, List.map_cons, List.foldl_cons, foldl_add, ih, totalLen]
      ring

theorem totalLen_nonneg (a : List V4) : 0 ≤ totalLen a := by
  induction a with
  | nil => exact le_refl _
  | cons p t ih =>
    match t, ih with
    | [], _ => exact le_refl _
    | q :: r, ih => rw [totalLen]; linarith [dist_nonneg p q]

theorem dist_pos_of {a b : V4} (h : ¬ Same3 a b) : 0 < dist a b :=
  lt_of_le_of_ne (dist_nonneg a b) (fun h0 => h ((dist_eq_zero a b).mp h0.symm))

theorem sampleLoop_spec (a : List V4) (hn : NoZeroSeg a) (ha : 2 ≤ a.length) : ∀ (dst d : ℝ), d ≤ dst →
    dst ≤ d + totalLen a → ∃ p, sampleLoop dst (segs a) d = .ok (some p) ∧ p.w = 1 ∧ AtArc a (dst - d) p := by
  induction a with
  | nil => simp at ha
  | cons p t ih =>
    match t, ih, hn, ha with
    | [], _, _, ha => simp at ha
    | q :: r, ih, hn, _ =>
      intro dst d hd hle
      rw [NoZeroSeg] at hn
      have hpos := dist_pos_of hn.1
      rw [segs, sampleLoop]
      by_cases hc : dst ≤ d + dist p q
      · rw [if_pos hc, if_neg hpos.ne']
        refine ⟨_, rfl, rfl, ?_⟩
        have ht : 1 - (d + dist p q - dst) / dist p q = (dst - d) / dist p q := by
          field_simp; ring
        have := AtArc.here p q r ((dst - d) / dist p q)
          (sampleline ⟨p, q⟩ (1 - (d + dist p q - dst) / dist p q))
          (div_nonneg (by linarith) hpos.le) (by rw [div_le_one hpos]; linarith)
          (by rw [ht]; exact (C39_sample ⟨p, q⟩ _).1)
        rwa [div_mul_cancel₀ _ hpos.ne'] at this
      · rw [if_neg hc]
        have hr : 2 ≤ (q :: r).length := by
          by_contra h2
          have : r = [] := by
            cases r with
            | nil => rfl
            | cons _ _ => simp at h2
          subst this
          have h0 : totalLen [q] = 0 := by simp [totalLen]
          rw [totalLen, h0, add_zero] at hle
          exact hc hle
        rw [totalLen] at hle
        obtain ⟨x, hx, hw, harc⟩ := ih hn.2 hr dst (d + dist p q) (le_of_lt (not_le.mp hc)) (by linarith)
        refine ⟨x, hx, hw, ?_⟩
        have := AtArc.later p q r _ x harc
        have e : dist p q + (dst - (d + dist p q)) = dst - d := by ring
        rwa [e] at this

theorem segs_getLast (a : List V4) (h : 2 ≤ a.length) :
    ∃ p q pre, a = pre ++ [p, q] ∧ (segs a).getLast? = some (⟨p, q⟩, dist p q) := by
  induction a with
  | nil => simp at h
  | cons x t ih =>
    match t, ih, h with
    | [], _, h => simp at h
    | [y], _, _ => exact ⟨x, y, [], rfl, rfl⟩
    | y :: z :: r, ih, _ =>
      obtain ⟨p, q, pre, h1, h2⟩ := ih (by simp)
      refine ⟨p, q, x :: pre, by rw [h1]; rfl, ?_⟩
      rw [segs]
      rw [segs] at h2 ⊢
      rw [List.getLast?_cons_cons]
      exact h2

theorem noZero_last (pre : List V4) (p q : V4) : NoZeroSeg (pre ++ [p, q]) → ¬ Same3 p q := by
  induction pre with
  | nil => intro h; exact h.1
  | cons x pre ih =>
    intro h
    apply ih
    cases pre with
    | nil => exact h.2
    | cons y pre => exact h.2

theorem atArc_end (pre : List V4) (p q : V4) (r : V4) (hr : AtParam p q 1 r) :
    AtArc (pre ++ [p, q]) (totalLen (pre ++ [p, q])) r := by
  induction pre with
  | nil =>
    have := AtArc.here p q [] 1 r zero_le_one (le_refl _) hr
    simpa [totalLen] using this
  | cons x pre ih =>
    cases pre with
    | nil => exact AtArc.later x p [q] _ r ih
    | cons y pre => exact AtArc.later x y (pre ++ [p, q]) _ r ih

/-- **C45** for `u` in [0,1] the sample is the point of the polyline at arc length `u` times the
total length; on a closed polyline `u = 1` wraps to the start -/
theorem C45_arclength (a : List V4) (u : ℝ) (hp : ispoly a) (hn : NoZeroSeg a) (h0 : 0 ≤ u)
    (h1 : u ≤ 1) :
    ∃ p, samplepoly a u = .ok (some p) ∧ p.w = 1 ∧
      (¬ (polyClosed a ∧ u = 1) → AtArc a (u * totalLen a) p) ∧
      (polyClosed a ∧ u = 1 → AtArc a 0 p) := by
  have hlen : 2 ≤ a.length := by have := hp.1; omega
  have hT := totalLen_nonneg a
  have main : ∀ v, 0 ≤ v → v < 1 → ∃ p, sampleLoop (v * totalLen a) (segs a) 0 = .ok (some p) ∧ p.w = 1 ∧
      AtArc a (v * totalLen a) p := by
    intro v hv0 hv1
    obtain ⟨p, e1, e2, e3⟩ := sampleLoop_spec a hn hlen (v * totalLen a) 0 (by positivity) (by nlinarith)
    exact ⟨p, e1, e2, by simpa using e3⟩
  unfold samplepoly polyParam
  rw [if_pos hp]
  simp only [segsLength_eq]
  by_cases hc : polyClosed a
  · rw [if_pos hc]
    by_cases hu : u = 1
    · subst hu
      have hm : mod1 1 = 0 := by unfold mod1; norm_num
      rw [hm, if_pos (by norm_num)]
      obtain ⟨p, e1, e2, e3⟩ := main 0 (le_refl _) (by norm_num)
      refine ⟨p, e1, e2, fun h => absurd ⟨hc, rfl⟩ h, fun _ => by simpa using e3⟩
    · have hm : mod1 u = u := by
        unfold mod1
        have : ⌊u⌋ = 0 := Int.floor_eq_zero_iff.mpr ⟨h0, lt_of_le_of_ne h1 hu⟩
        rw [this]; simp
      rw [hm, if_pos (lt_of_le_of_ne h1 hu)]
      obtain ⟨p, e1, e2, e3⟩ := main u h0 (lt_of_le_of_ne h1 hu)
      exact ⟨p, e1, e2, fun _ => e3, fun h => absurd h.2 hu⟩
  · rw [if_neg hc]
    by_cases hu : u < 1
    · rw [if_pos hu]
      obtain ⟨p, e1, e2, e3⟩ := main u h0 hu
      exact ⟨p, e1, e2, fun _ => e3, fun h => absurd h.1 hc⟩
    · have hu1 : u = 1 := le_antisymm h1 (not_lt.mp hu)
      subst hu1
      rw [if_neg hu]
      obtain ⟨x, y, pre, hpre, hl⟩ := segs_getLast a hlen
      rw [hl]
      subst hpre
      have hpos := dist_pos_of (noZero_last pre x y hn)
      simp only [if_neg hpos.ne']
      refine ⟨_, rfl, rfl, fun _ => ?_, fun h => absurd h.1 hc⟩
      have e : (1 * totalLen (pre ++ [x, y]) - totalLen (pre ++ [x, y]) + dist x y) / dist x y = 1 := by
        rw [one_mul, sub_self, zero_add, div_self hpos.ne']
      rw [e, one_mul]
      exact atArc_end pre x y _ (C39_sample ⟨x, y⟩ 1).1

/-- a point of the arc lies on one of the segments -/
theorem C45_on_segment {a : List V4} {s : ℝ} {p : V4} (h : AtArc a s p) :
    ∃ (i : Nat) (hi : i + 1 < a.length) (t : ℝ), 0 ≤ t ∧ t ≤ 1 ∧ AtParam a[i] a[i + 1] t p := by
  induction h with
  | here a b rest t p h0 h1 hp => exact ⟨0, by simp, t, h0, h1, hp⟩
  | later a b rest s p h ih =>
    obtain ⟨i, hi, t, h0, h1, hp⟩ := ih
    exact ⟨i + 1, by simpa using hi, t, h0, h1, hp⟩

theorem atArc_zero {a : List V4} {s : ℝ} {p : V4} (h : AtArc a s p) (hn : NoZeroSeg a) :
    0 ≤ s ∧ (s = 0 → ∀ x r, a = x :: r → Same3 p x) := by
  induction h with
  | here a b rest t p h0 h1 hp =>
    have hpos := dist_pos_of hn.1
    refine ⟨by positivity, fun hs x r hx => ?_⟩
    have ht : t = 0 := by
      rcases mul_eq_zero.mp hs with h | h
      · exact h
      · exact absurd h hpos.ne'
    injection hx with hx _
    subst hx ht
    obtain ⟨e1, e2, e3⟩ := hp
    exact ⟨by linarith, by linarith, by linarith⟩
  | later a b rest s p h ih =>
    have hpos := dist_pos_of hn.1
    obtain ⟨ih, _⟩ := ih hn.2
    exact ⟨by linarith, fun hs => by linarith⟩

theorem atArc_total {a : List V4} {s : ℝ} {p : V4} (h : AtArc a s p) (hn : NoZeroSeg a) :
    s ≤ totalLen a ∧ (s = totalLen a → ∀ r y, a = r ++ [y] → Same3 p y) := by
  induction h with
  | here a b rest t p h0 h1 hp =>
    have hpos := dist_pos_of hn.1
    have hr := totalLen_nonneg (b :: rest)
    rw [totalLen]
    refine ⟨by nlinarith, fun hs r y hy => ?_⟩
    have hz : totalLen (b :: rest) = 0 ∧ t = 1 := by
      constructor
      · nlinarith
      · by_contra hne
        have : t < 1 := lt_of_le_of_ne h1 hne
        nlinarith
    have hrest : rest = [] := by
      cases rest with
      | nil => rfl
      | cons c rest =>
        exfalso
        have := dist_pos_of hn.2.1
        have h2 := totalLen_nonneg (c :: rest)
        rw [totalLen] at hz
        linarith [hz.1]
    subst hrest
    have hb : b = y := by
      have h1 : (r ++ [y]).getLast? = some y := by simp
      rw [← hy] at h1
      simpa using h1
    obtain ⟨e1, e2, e3⟩ := hp
    rw [hz.2] at e1 e2 e3
    rw [← hb]
    exact ⟨by linarith, by linarith, by linarith⟩
  | later a b rest s p h ih =>
    obtain ⟨ih1, ih2⟩ := ih hn.2
    rw [totalLen]
    refine ⟨by linarith, fun hs r y hy => ?_⟩
    cases r with
    | nil => simp at hy
    | cons c r =>
      simp only [List.cons_append, List.cons.injEq] at hy
      exact ih2 (by linarith) r y hy.2

/-- **C45** `sample(0)` is the first vertex; `sample(1)` is the last one, or for a closed polyline the
first one (which is within epsilon of the last one) -/
theorem C45_endpoints (a : List V4) (x y : V4) (r m : List V4) (hx : a = x :: r) (hy : a = m ++ [y])
    (hp : ispoly a) (hn : NoZeroSeg a) :
    (∃ p, samplepoly a 0 = .ok (some p) ∧ Same3 p x) ∧
    (∃ p, samplepoly a 1 = .ok (some p) ∧
      (¬ polyClosed a → Same3 p y) ∧ (polyClosed a → Same3 p x ∧ dist x y < eps)) := by
  constructor
  · obtain ⟨p, e1, _, e3, _⟩ := C45_arclength a 0 hp hn (le_refl _) zero_le_one
    refine ⟨p, e1, ?_⟩
    have := e3 (by rintro ⟨_, h⟩; norm_num at h)
    rw [zero_mul] at this
    exact (atArc_zero this hn).2 rfl x r hx
  · obtain ⟨p, e1, _, e3, e4⟩ := C45_arclength a 1 hp hn zero_le_one (le_refl _)
    refine ⟨p, e1, fun hc => ?_, fun hc => ⟨?_, ?_⟩⟩
    · have := e3 (by rintro ⟨h, _⟩; exact hc h)
      rw [one_mul] at this
      exact (atArc_total this hn).2 rfl m y hy
    · exact (atArc_zero (e4 ⟨hc, rfl⟩) hn).2 rfl x r hx
    · subst hx
      have := hc.2
      have e : (x :: r).getLast (by simp) = y := by
        have h1 : (m ++ [y]).getLast? = some y := by simp
        rw [← hy, List.getLast?_eq_some_getLast (by simp)] at h1
        injection h1
      rwa [e] at this

/-- the hypotheses are met by a triangle path -/
example : ispoly [pt 0 0, pt 3 0, pt 3 4] ∧ NoZeroSeg [pt 0 0, pt 3 0, pt 3 4] ∧
    [pt 0 0, pt 3 0, pt 3 4] = [pt 0 0, pt 3 0] ++ [pt 3 4] := by
  refine ⟨⟨by simp, ?_⟩, ?_, rfl⟩
  · intro p hp
    simp only [List.mem_cons, List.not_mem_nil, or_false] at hp
    rcases hp with rfl | rfl | rfl <;> simp [ispoint, pt]
  · simp [NoZeroSeg, Same3, pt]

/-- **C45** without the hypothesis on zero-length segments sampling can fail: a polyline that starts
with a repeated vertex cannot be sampled at its start -/
theorem C45_repeated_first_vertex (p q : V4) (r : List V4) (hp : ispoly (p :: q :: r)) (h : Same3 p q)
    (hc : ¬ polyClosed (p :: q :: r)) : samplepoly (p :: q :: r) 0 = .error .zeroDivision := by
  unfold samplepoly polyParam
  rw [if_pos hp]
  simp only [if_neg hc]
  have h0 : dist p q = 0 := (dist_eq_zero p q).mpr h
  rw [if_pos zero_lt_one, segs, sampleLoop, h0]
  simp

/-! ## C44 -/

theorem ispoly_three (a b c : V4) (r : List V4) (h : ∀ p ∈ a :: b :: c :: r, p.w = 1) :
    ispoly (a :: b :: c :: r) := by
  refine ⟨by simp, fun p hp => ?_⟩
  unfold ispoint; rw [h p hp]; norm_num

/-- **C44 fails** for every polyline with exactly two segments: no intersection is ever reported -/
theorem C44_two_segments_never (g : Line) (a b c : V4) (inside : Bool) (hp : ispoly [a, b, c])
    (hz : isXYPlanar [a, b, c]) : intersectLinePoly g [a, b, c] inside = .ok none := by
  unfold intersectLinePoly
  rw [if_pos ⟨hp, hz⟩]
  simp [segs]

/-- a witness: the vertical line x=1 crosses the first segment of this polyline in the middle -/
theorem C44_two_segments_witness :
    intersectLinePoly ⟨pt 1 (-1), pt 1 1⟩ [pt 0 0, pt 2 0, pt 2 2] = .ok none ∧
    AtParamXY (pt 0 0) (pt 2 0) 0.5 (pt 1 0) ∧ AtParamXY (pt 1 (-1)) (pt 1 1) 0.5 (pt 1 0) := by
  refine ⟨C44_two_segments_never _ _ _ _ _ ?_ ?_, ?_, ?_⟩
  · apply ispoly_three
    intro p hp
    simp only [List.mem_cons, List.not_mem_nil, or_false] at hp
    rcases hp with rfl | rfl | rfl <;> rfl
  · intro q hq
    simp only [List.mem_cons, List.not_mem_nil, or_false] at hq
    rcases hq with rfl | rfl <;> simp [pt, eps_pos.le]
  · unfold AtParamXY pt; norm_num
  · unfold AtParamXY pt; norm_num

/-- what the loop returns with `inside=True` -/
theorem loop_mem (g : Line) (closed : Prop) (n : Nat) (ls : List (Line × ℝ)) : ∀ (i : Nat) (ps : List V4),
    i + ls.length = n →
    polyIsectLoop g true closed n ls i = .ok ps →
    (∀ q ∈ ps, ∃ s ∈ ls, ∃ t u, lineLineParams s.1 g = .ok (some (t, u)) ∧ 0 ≤ t ∧ t ≤ 1 ∧ 0 ≤ u ∧ u ≤ 1 ∧
      q = sampleline g u) ∧
    (∀ s ∈ ls, ∀ t u, lineLineParams s.1 g = .ok (some (t, u)) → 0 ≤ t → t ≤ 1 → 0 ≤ u → u ≤ 1 →
      sampleline g u ∈ ps) := by
  induction ls with
  | nil =>
    intro i ps _ h
    simp only [polyIsectLoop, Except.ok.injEq] at h
    subst h; simp
  | cons s ls ih =>
    intro i ps hi h
    obtain ⟨ln, len⟩ := s
    have hi' : i + 1 + ls.length = n := by simp only [List.length_cons] at hi; omega
    have hlt : i < n := by simp only [List.length_cons] at hi; omega
    rw [polyIsectLoop] at h
    split at h
    · simp at h
    · rename_i hnone
      obtain ⟨h1, h2⟩ := ih (i + 1) ps hi' h
      refine ⟨fun q hq => ?_, fun s' hs' t u ht => ?_⟩
      · obtain ⟨s', hs', hr⟩ := h1 q hq
        exact ⟨s', by simp [hs'], hr⟩
      · rcases List.mem_cons.mp hs' with rfl | hs'
        · rw [hnone] at ht; simp at ht
        · exact h2 s' hs' t u ht
    · rename_i t0 u0 hsome
      split at h
      · simp at h
      · rename_i ps' hrec
        obtain ⟨h1, h2⟩ := ih (i + 1) ps' hi' hrec
        split at h
        · rename_i hacc
          simp only [Except.ok.injEq] at h
          subst h
          refine ⟨fun q hq => ?_, fun s' hs' t u ht => ?_⟩
          · rcases List.mem_cons.mp hq with rfl | hq
            · rcases hacc.2 with hf | ⟨⟨a1, a2⟩, b1, b2⟩
              · simp at hf
              · exact ⟨(ln, len), by simp, t0, u0, hsome, a1, a2, b1, b2, rfl⟩
            · obtain ⟨s', hs', hr⟩ := h1 q hq
              exact ⟨s', by simp [hs'], hr⟩
          · rcases List.mem_cons.mp hs' with rfl | hs'
            · rw [hsome] at ht
              simp only [Except.ok.injEq, Option.some.injEq, Prod.mk.injEq] at ht
              intro _ _ _ _; rw [← ht.2]; simp
            · intro a1 a2 b1 b2
              exact List.mem_cons_of_mem _ (h2 s' hs' t u ht a1 a2 b1 b2)
        · rename_i hacc
          simp only [Except.ok.injEq] at h
          subst h
          refine ⟨fun q hq => ?_, fun s' hs' t u ht a1 a2 b1 b2 => ?_⟩
          · obtain ⟨s', hs', hr⟩ := h1 q hq
            exact ⟨s', by simp [hs'], hr⟩
          · rcases List.mem_cons.mp hs' with rfl | hs'
            · rw [hsome] at ht
              simp only [Except.ok.injEq, Option.some.injEq, Prod.mk.injEq] at ht
              obtain ⟨rfl, rfl⟩ := ht
              exfalso
              apply hacc
              refine ⟨?_, Or.inr ⟨⟨a1, a2⟩, b1, b2⟩⟩
              unfold segAccepts
              by_cases hc : closed
              · exact Or.inl ⟨Or.inl hc, a1, a2⟩
              · by_cases h0 : i = 0
                · exact Or.inr (Or.inl ⟨hc, h0, a2⟩)
                · by_cases hl : i = n - 1
                  · exact Or.inr (Or.inr ⟨hc, hl, a1⟩)
                  · exact Or.inl ⟨Or.inr ⟨by omega, by omega⟩, a1, a2⟩
            · exact h2 s' hs' t u ht a1 a2 b1 b2

theorem mem_segs {a : List V4} {s : Line × ℝ} : s ∈ segs a ↔
    ∃ (i : Nat) (hi : i + 1 < a.length), s = (⟨a[i], a[i + 1]⟩, dist a[i] a[i + 1]) := by
  induction a with
  | nil => simp [segs]
  | cons p t ih =>
    match t, ih with
    | [], _ => simp [segs]
    | q :: r, ih =>
      rw [segs, List.mem_cons, ih]
      constructor
      · rintro (rfl | ⟨i, hi, rfl⟩)
        · exact ⟨0, by simp, rfl⟩
        · exact ⟨i + 1, by simpa using hi, rfl⟩
      · rintro ⟨i, hi, rfl⟩
        cases i with
        | zero => exact Or.inl rfl
        | succ i => exact Or.inr ⟨i, by simpa using hi, rfl⟩

/-- **C44** (at least three segments) the reported points are exactly the common points of the line
segment `g` and some segment of the polyline, up to pairs whose direction determinant is below
√epsilon -/
theorem C44_all_crossings_partial (g : Line) (a : List V4) (ps : List V4)
    (h4 : 4 ≤ a.length) (h : intersectLinePoly g a = .ok (some ps)) :
    (∀ q ∈ ps, ∃ (i : Nat) (hi : i + 1 < a.length) (t u : ℝ), 0 ≤ t ∧ t ≤ 1 ∧ 0 ≤ u ∧ u ≤ 1 ∧
      AtParamXY a[i] a[i + 1] t q ∧ AtParam g.a g.b u q) ∧
    (∀ (i : Nat) (hi : i + 1 < a.length) (t u : ℝ) (q : V4), 0 ≤ t → t ≤ 1 → 0 ≤ u → u ≤ 1 →
      AtParamXY a[i] a[i + 1] t q → AtParamXY g.a g.b u q →
      eps ≤ ((a[i + 1].x - a[i].x) * (g.b.y - g.a.y) - (a[i + 1].y - a[i].y) * (g.b.x - g.a.x)) ^ 2 →
      (|a[i + 1].z - a[i].z| ≤ eps ∧ |g.a.z - a[i].z| ≤ eps ∧ |g.b.z - a[i].z| ≤ eps) →
      ∃ q' ∈ ps, SameXY q' q) := by
  unfold intersectLinePoly at h
  split at h
  · have hl : (segs a).length > 2 := by
      have : ∀ (a : List V4), (segs a).length = a.length - 1 := by
        intro a; induction a with
        | nil => rfl
        | cons p t ih =>
          match t, ih with
          | [], _ => rfl
          | q :: r, ih => rw [segs, List.length_cons, ih]; simp
      rw [this]; omega
    simp only [if_pos hl] at h
    split at h
    · simp at h
    · simp at h
    · rename_i p0 ps0 hloop
      simp only [Except.ok.injEq, Option.some.injEq] at h
      subst h
      obtain ⟨h1, h2⟩ := loop_mem g (polyClosed a) _ (segs a) 0 _ (by simp) hloop
      constructor
      · intro q hq
        obtain ⟨s, hs, t, u, hlp, a1, a2, b1, b2, rfl⟩ := h1 q hq
        obtain ⟨i, hi, rfl⟩ := mem_segs.mp hs
        have hpar := (C41_params _ _ t u hlp).1
        have s1 := (C39_sample ⟨a[i], a[i + 1]⟩ t).1
        refine ⟨i, hi, t, u, a1, a2, b1, b2, ⟨?_, ?_⟩, (C39_sample g u).1⟩
        · rw [← hpar.1]; exact s1.1
        · rw [← hpar.2]; exact s1.2.1
      · intro i hi t u q a1 a2 b1 b2 hq1 hq2 hd hz
        have hc := (C41_complete ⟨a[i], a[i + 1]⟩ g false t u q hz hd hq1 hq2 (by simp)).1
        refine ⟨_, h2 _ (mem_segs.mpr ⟨i, hi, rfl⟩) t u hc a1 a2 b1 b2, ?_⟩
        have s1 := (C39_sample g u).1
        exact ⟨by rw [s1.1, hq2.1], by rw [s1.2.1, hq2.2]⟩
  · simp at h

/-! ## C108: point in polygon -/

theorem params_of (l1 l2 : Line) (t u : ℝ)
    (hz : |l1.b.z - l1.a.z| ≤ eps ∧ |l2.a.z - l1.a.z| ≤ eps ∧ |l2.b.z - l1.a.z| ≤ eps)
    (hd : eps ≤ ((l1.b.x - l1.a.x) * (l2.b.y - l2.a.y) - (l1.b.y - l1.a.y) * (l2.b.x - l2.a.x)) ^ 2)
    (ex : l1.a.x + t * (l1.b.x - l1.a.x) = l2.a.x + u * (l2.b.x - l2.a.x))
    (ey : l1.a.y + t * (l1.b.y - l1.a.y) = l2.a.y + u * (l2.b.y - l2.a.y)) :
    lineLineParams l1 l2 = .ok (some (t, u)) :=
  (C41_complete l1 l2 false t u
    ⟨l1.a.x + t * (l1.b.x - l1.a.x), l1.a.y + t * (l1.b.y - l1.a.y), 0, 1⟩ hz hd ⟨rfl, rfl⟩ ⟨ex, ey⟩
    (by simp)).1

/-- the unit square, closed -/
def unitSquare : List V4 := [pt 0 0, pt 1 0, pt 1 1, pt 0 1, pt 0 0]

/-- **C108 fails**: the centre of the unit square is reported to be outside it, because the test ray
leaves through the corner (1,1), which is counted once for each of the two edges that meet there -/
theorem C108_square_centre_outside :
    isinsidepolyXY unitSquare (pt 0.5 0.5) = .ok false := by
  have hclosed : polyClosed unitSquare := by
    unfold unitSquare polyClosed
    refine ⟨by simp, ?_⟩
    have : dist (pt 0 0) (([pt 0 0, pt 1 0, pt 1 1, pt 0 1, pt 0 0] : List V4).getLast (by simp)) = 0 := by
      rw [dist_eq_zero]; simp [Same3]
    rw [this]; exact eps_pos
  have hbb : polybbox unitSquare = some ⟨pt 0 0, pt 1 1⟩ := by
    unfold unitSquare polybbox bboxLoop
    simp [List.foldl, updMM, pt]
    norm_num
  have hpoly : ispoly unitSquare := by
    apply ispoly_three
    intro p hp
    simp only [List.mem_cons, List.not_mem_nil, or_false] at hp
    rcases hp with rfl | rfl | rfl | rfl | rfl <;> rfl
  have hplanar : isXYPlanar unitSquare := by
    intro q hq
    simp only [List.mem_cons, List.not_mem_nil, or_false] at hq
    rcases hq with rfl | rfl | rfl | rfl <;> simp [pt, eps_pos.le]
  have e0 : lineLineParams ⟨pt 0 0, pt 1 0⟩ ⟨pt 0.5 0.5, pt 1.01 1.01⟩ = .ok (some (0, -(0.5/0.51))) :=
    params_of _ _ _ _ (by unfold pt eps; norm_num) (by unfold pt eps; norm_num) (by unfold pt; norm_num)
      (by unfold pt; norm_num)
  have e1 : lineLineParams ⟨pt 1 0, pt 1 1⟩ ⟨pt 0.5 0.5, pt 1.01 1.01⟩ = .ok (some (1, 0.5/0.51)) :=
    params_of _ _ _ _ (by unfold pt eps; norm_num) (by unfold pt eps; norm_num) (by unfold pt; norm_num)
      (by unfold pt; norm_num)
  have e2 : lineLineParams ⟨pt 1 1, pt 0 1⟩ ⟨pt 0.5 0.5, pt 1.01 1.01⟩ = .ok (some (0, 0.5/0.51)) :=
    params_of _ _ _ _ (by unfold pt eps; norm_num) (by unfold pt eps; norm_num) (by unfold pt; norm_num)
      (by unfold pt; norm_num)
  have e3 : lineLineParams ⟨pt 0 1, pt 0 0⟩ ⟨pt 0.5 0.5, pt 1.01 1.01⟩ = .ok (some (1, -(0.5/0.51))) :=
    params_of _ _ _ _ (by unfold pt eps; norm_num) (by unfold pt eps; norm_num) (by unfold pt; norm_num)
      (by unfold pt; norm_num)
  have hp2 : add ⟨0.01, 0.01, 0, 1⟩ (pt 1 1) = pt 1.01 1.01 := by
    unfold add pt; ext <;> norm_num
  have hloop : polyIsectLoop ⟨pt 0.5 0.5, pt 1.01 1.01⟩ true (polyClosed unitSquare) 4 (segs unitSquare) 0 =
      .ok [sampleline ⟨pt 0.5 0.5, pt 1.01 1.01⟩ (0.5/0.51), sampleline ⟨pt 0.5 0.5, pt 1.01 1.01⟩ (0.5/0.51)] := by
    unfold unitSquare
    simp only [segs, polyIsectLoop, e0, e1, e2, e3]
    rw [if_neg (by norm_num)]
    simp only
    rw [if_pos ⟨Or.inl ⟨Or.inl hclosed, by norm_num, by norm_num⟩, Or.inr (by norm_num)⟩]
    simp only
    rw [if_pos ⟨Or.inl ⟨Or.inl hclosed, by norm_num, by norm_num⟩, Or.inr (by norm_num)⟩]
    simp only
    rw [if_neg (by norm_num)]
  unfold isinsidepolyXY
  rw [if_neg (not_not.mpr hclosed), hbb]
  simp only
  rw [if_neg (by rw [not_not]; unfold isinsidebbox pt; norm_num), hp2, if_neg]
  · unfold intersectLinePoly
    rw [if_pos ⟨hpoly, hplanar⟩]
    have hl : (segs unitSquare).length = 4 := rfl
    simp only [hl]
    rw [if_pos (by norm_num), hloop]
    rfl
  · unfold vclose close
    rw [sub_zero, abs_of_nonneg (mag_nonneg _), not_lt]
    unfold eps mag sub pt
    apply Real.le_sqrt_of_sq_le
    norm_num

theorem segs_length (a : List V4) : (segs a).length = a.length - 1 := by
  induction a with
  | nil => rfl
  | cons p t ih =>
    match t, ih with
    | [], _ => rfl
    | q :: r, ih => rw [segs, List.length_cons, ih]; simp

/-- **C108** (partial) a point reported inside a polygon lies in the polygon's bounding box, and the
segment from it to the outside point meets an odd number of edges (counted with the edges' end
points) -/
theorem C108_inside_sound_partial (a : List V4) (p : V4) (h : isinsidepolyXY a p = .ok true) :
    ∃ bb, polybbox a = some bb ∧ InBox bb.lo bb.hi p ∧
    ∃ ps, intersectLinePoly ⟨p, ⟨0.01 + bb.hi.x, 0.01 + bb.hi.y, 0 + bb.hi.z, 1⟩⟩ a = .ok (some ps) ∧
      ps.length % 2 = 1 := by
  unfold isinsidepolyXY at h
  split at h
  · simp at h
  · split at h
    · simp at h
    · rename_i bb hbb
      refine ⟨bb, hbb, ?_⟩
      split at h
      · simp at h
      · rename_i hin
        refine ⟨not_not.mp hin, ?_⟩
        simp only at h
        split at h
        · simp at h
        · split at h
          · simp at h
          · simp at h
          · rename_i pp hpp
            refine ⟨pp, hpp, ?_⟩
            simpa using h

/-! ## C46 -/

/-- **C46** the knot vector has the right length, starts with `degree+1` zeros, ends with
`degree+1` ones, lies in [0,1] and never decreases -/
theorem C46_knots (count degree : Nat) (h : degree + 1 ≤ count) :
    (knots count degree).length = count + degree + 1 ∧
    (knots count degree).take (degree + 1) = List.replicate (degree + 1) 0 ∧
    (knots count degree).drop count = List.replicate (degree + 1) 1 ∧
    (∀ k ∈ knots count degree, 0 ≤ k ∧ k ≤ 1) ∧
    (knots count degree).Pairwise (· ≤ ·) ∧
    (∀ j, degree < j → j < count →
      (knots count degree)[j]? = some (((j : ℚ) - degree) / ((count : ℚ) - degree))) := by
  obtain ⟨m, rfl⟩ := Nat.exists_eq_add_of_le h
  have hform : knots (degree + 1 + m) degree = List.replicate (degree + 1) (0 : ℚ) ++
      (List.range m).map (fun j : Nat => ((j : ℚ) + 1) / ((m : ℚ) + 1)) ++ List.replicate (degree + 1) 1 := by
    unfold knots
    simp only
    have hi : (((degree + 1 + m : Nat) : Int) - degree - 1) = m := by push_cast; ring
    have hc : (((degree + 1 + m : Nat) : ℚ) - degree) = (m : ℚ) + 1 := by push_cast; ring
    rw [hi, hc]
    have e : (if (m : Int) > 0 then List.replicate (degree + 1) (0 : ℚ) ++
        (List.range (m : Int).toNat).map (fun j : Nat => ((j : ℚ) + 1) / ((m : ℚ) + 1))
        else List.replicate (degree + 1) (0 : ℚ)) = List.replicate (degree + 1) (0 : ℚ) ++
        (List.range m).map (fun j : Nat => ((j : ℚ) + 1) / ((m : ℚ) + 1)) := by
      by_cases h0 : (m : Int) > 0
      · rw [if_pos h0]; rfl
      · have : m = 0 := by omega
        subst this; simp
    rw [e, List.take_of_length_le]
    simp; omega
  have hm1 : (0 : ℚ) < (m : ℚ) + 1 := by positivity
  have hmem : ∀ j < m, (0 : ℚ) ≤ ((j : ℚ) + 1) / ((m : ℚ) + 1) ∧ ((j : ℚ) + 1) / ((m : ℚ) + 1) ≤ 1 := by
    intro j hj
    constructor
    · positivity
    · rw [div_le_one hm1]
      have : (j : ℚ) ≤ m := by exact_mod_cast hj.le
      linarith
  rw [hform]
  refine ⟨?_, ?_, ?_, ?_, ?_, ?_⟩
  · simp; omega
  · rw [List.append_assoc, List.take_left' (by simp)]
  · rw [List.drop_left' (by simp)]
  · intro k hk
    simp only [List.mem_append, List.mem_replicate, List.mem_map, List.mem_range] at hk
    rcases hk with (⟨_, rfl⟩ | ⟨j, hj, rfl⟩) | ⟨_, rfl⟩
    · norm_num
    · exact hmem j hj
    · norm_num
  · rw [List.pairwise_append, List.pairwise_append]
    refine ⟨⟨?_, ?_, ?_⟩, ?_, ?_⟩
    · exact List.pairwise_replicate.mpr (Or.inr (le_refl _))
    · rw [List.pairwise_map]
      refine List.pairwise_lt_range.imp ?_
      intro a b hab
      apply div_le_div_of_nonneg_right _ hm1.le
      have : (a : ℚ) ≤ b := by exact_mod_cast hab.le
      linarith
    · intro x hx y hy
      rw [List.mem_replicate] at hx
      simp only [List.mem_map, List.mem_range] at hy
      obtain ⟨j, hj, rfl⟩ := hy
      rw [hx.2]; exact (hmem j hj).1
    · exact List.pairwise_replicate.mpr (Or.inr (le_refl _))
    · intro x hx y hy
      rw [List.mem_replicate] at hy
      rw [hy.2]
      simp only [List.mem_append, List.mem_replicate, List.mem_map, List.mem_range] at hx
      rcases hx with ⟨_, rfl⟩ | ⟨j, hj, rfl⟩
      · norm_num
      · exact (hmem j hj).2
  · intro j hj1 hj2
    obtain ⟨i, rfl⟩ := Nat.exists_eq_add_of_le (Nat.succ_le_of_lt hj1)
    have him : i < m := by omega
    rw [List.append_assoc, List.getElem?_append_right (by simp)]
    rw [List.getElem?_append_left (by simp; omega)]
    simp only [List.length_replicate]
    rw [show degree.succ + i - (degree + 1) = i by omega]
    rw [List.getElem?_map, List.getElem?_range him]
    simp only [Option.map_some, Option.some.injEq]
    push_cast
    congr 1 <;> ring

example : knots 5 2 = [0, 0, 0, 1/3, 2/3, 1, 1, 1] := by decide +kernel

end Verif.Geom
