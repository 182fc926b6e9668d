import Verif.Plane.Basis
import Verif.Geom.PolyProps

/-!
# C352-C353: lines and planes
-/

namespace Verif.Plane
open Verif.Geom Verif.Xform
open Verif.Prim (tri2p0n)

/-- the coordinate that vanishes on a coordinate plane: z on xy, x on yz, y on xz -/
def height : Card → V4 → ℝ
  | .xy, p => p.z
  | .yz, p => p.x
  | .xz, p => p.y

theorem coord_height (c : Card) (p : V4) : c.coord p = height c p := by cases c <;> rfl

theorem height_at (c : Card) {a b : V4} {u : ℝ} {p : V4} (h : AtParam a b u p) :
    height c p = height c a + u * (height c b - height c a) := by
  obtain ⟨h1, h2, h3⟩ := h
  cases c <;> simp only [height] <;> assumption

theorem sample_at (l : Line) (u : ℝ) : AtParam l.a l.b u (sampleline l u) := by
  simp only [AtParam, sampleline, Geom.add, Geom.scale3]
  refine ⟨by ring, by ring, by ring⟩

theorem at_unique {a b : V4} {u : ℝ} {p q : V4} (h : AtParam a b u p) (h' : AtParam a b u q) : Same3 p q := by
  obtain ⟨h1, h2, h3⟩ := h
  obtain ⟨g1, g2, g3⟩ := h'
  exact ⟨by rw [h1, g1], by rw [h2, g2], by rw [h3, g3]⟩

theorem cardinal_cases (l : Line) (c : Card) (i : Bool) :
    (|height c l.a - height c l.b| < eps ∧ lineCardinal l c i = none) ∨
    (eps ≤ |height c l.a - height c l.b| ∧
      ∃ u, u * (height c l.a - height c l.b) = height c l.a ∧
        ((i = true ∧ ¬ (0 ≤ u ∧ u ≤ 1) ∧ lineCardinal l c i = none) ∨
         ((i = true → 0 ≤ u ∧ u ≤ 1) ∧ lineCardinal l c i = some (sampleline l u)))) := by
  unfold lineCardinal close
  rw [coord_height, coord_height, sub_zero]
  split
  · rename_i h; exact Or.inl ⟨h, rfl⟩
  · rename_i h
    right
    have h' := not_lt.mp h
    have hne : height c l.a - height c l.b ≠ 0 := by
      intro h0; rw [h0, abs_zero] at h'; linarith [eps_pos]
    refine ⟨h', height c l.a / (height c l.a - height c l.b), by field_simp, ?_⟩
    simp only
    split
    · rename_i hc
      left
      exact ⟨hc.1, by rcases hc.2 with h | h <;> intro ⟨a, b⟩ <;> linarith, rfl⟩
    · rename_i hc
      right
      refine ⟨fun hi => ?_, rfl⟩
      push Not at hc
      exact hc hi

/-- **C352** a point returned for a coordinate plane lies on that plane and on the line, and between the two ends when
`inside` is set -/
theorem C352_hit (l : Line) (c : Card) (i : Bool) (p : V4) (h : linePlaneIntersect l (.card c) i = .ok (some p)) :
    height c p = 0 ∧ p.w = 1 ∧ ∃ u, AtParam l.a l.b u p ∧ (i = true → 0 ≤ u ∧ u ≤ 1) := by
  injection h with h
  rcases cardinal_cases l c i with ⟨_, e⟩ | ⟨_, u, hu, ⟨_, _, e⟩ | ⟨hi, e⟩⟩
  · rw [e] at h; cases h
  · rw [e] at h; cases h
  · rw [e] at h
    injection h with h
    subst h
    refine ⟨?_, rfl, u, sample_at l u, hi⟩
    rw [height_at c (sample_at l u)]
    linarith

/-- **C352** a line that rises by at least epsilon across the plane: every point where the line (the segment, when `inside`
is set) meets the plane is the answer, and there is an answer exactly when there is such a point -/
theorem C352_complete_partial (l : Line) (c : Card) (i : Bool) (hs : eps ≤ |height c l.a - height c l.b|) :
    (∀ u q, AtParam l.a l.b u q → height c q = 0 → (i = true → 0 ≤ u ∧ u ≤ 1) →
      ∃ p, linePlaneIntersect l (.card c) i = .ok (some p) ∧ Same3 p q) ∧
    (i = false → ∃ p, linePlaneIntersect l (.card c) i = .ok (some p)) := by
  have hne : height c l.a - height c l.b ≠ 0 := by
    intro h0; rw [h0, abs_zero] at hs; linarith [eps_pos]
  rcases cardinal_cases l c i with ⟨h, _⟩ | ⟨_, u, hu, ⟨hi, hb, e⟩ | ⟨hi, e⟩⟩
  · exact absurd h (not_lt.mpr hs)
  · refine ⟨?_, fun h => by rw [hi] at h; cases h⟩
    intro v q hq h0 hv
    rw [height_at c hq] at h0
    have : v = u := mul_right_cancel₀ hne (by linarith)
    subst this
    exact absurd (hv hi) hb
  · refine ⟨?_, fun _ => ⟨_, congrArg Except.ok e⟩⟩
    intro v q hq h0 hv
    rw [height_at c hq] at h0
    have : v = u := mul_right_cancel₀ hne (by linarith)
    subst this
    exact ⟨_, congrArg Except.ok e, at_unique (sample_at l v) hq⟩

/-- **C352** (the missing case) a line that crosses the plane with a rise below epsilon is said to miss it -/
theorem C352_shallow : linePlaneIntersect ⟨pt 0 0 (-0.000001), pt 100 0 0.000001⟩ (.card .xy) true = .ok none ∧
    ∃ q, AtParam (pt 0 0 (-0.000001)) (pt 100 0 0.000001) (1 / 2) q ∧ height .xy q = 0 := by
  constructor
  · rcases cardinal_cases ⟨pt 0 0 (-0.000001), pt 100 0 0.000001⟩ .xy true with ⟨_, e⟩ | ⟨h, _⟩
    · exact congrArg Except.ok e
    · exfalso
      simp only [height, pt, eps] at h
      norm_num [abs_le] at h
  · refine ⟨pt 50 0 0, ?_, rfl⟩
    simp only [AtParam, pt]
    norm_num

/-- **C353** the documented planar basis `[p0, n, forward, reverse]` is never accepted as the plane -/
theorem C353_basis_refused (l : Line) (b : Basis) (i : Bool) : linePlaneIntersect l (.basis b) i = .error .valueError := rfl

/-! ## triangles -/

/-- `q` is the combination of the three corners with non-negative weights -/
def InTri (t : Tri) (q : V4) : Prop :=
  ∃ a b c : ℝ, 0 ≤ a ∧ 0 ≤ b ∧ 0 ≤ c ∧ a + b + c = 1 ∧ q.x = a * t.p1.x + b * t.p2.x + c * t.p3.x ∧
    q.y = a * t.p1.y + b * t.p2.y + c * t.p3.y ∧ q.z = a * t.p1.z + b * t.p2.z + c * t.p3.z

/-- the corners are points with `w = 1` -/
def Corners (t : Tri) : Prop := t.p1.w = 1 ∧ t.p2.w = 1 ∧ t.p3.w = 1

theorem fwd_at {b : Basis} {x y : V4} (hb : IsBasis b x y) {p q r : V4} {u : ℝ} (hp : p.w = 1) (hq : q.w = 1) (hr : r.w = 1)
    (h : AtParam p q u r) : app b.fwd r = sampleline ⟨app b.fwd p, app b.fwd q⟩ u := by
  obtain ⟨h1, h2, h3⟩ := h
  rw [app_fwd hb p hp, app_fwd hb q hq, app_fwd hb r hr]
  simp only [sampleline, Geom.add, Geom.scale3, V4.mk.injEq]
  rw [h1, h2, h3]
  refine ⟨by ring, by ring, by ring, trivial⟩

theorem inv_at {t : Tri} {b : Basis} (h : tri2basis t = .ok b) {p q : V4} (u : ℝ) (hp : p.w = 1) (hq : q.w = 1) :
    app b.inv (sampleline ⟨app b.fwd p, app b.fwd q⟩ u) = sampleline ⟨p, q⟩ u := by
  obtain ⟨_, _, hb⟩ := basis_is h
  rw [← fwd_at hb hp hq rfl (sample_at ⟨p, q⟩ u)]
  exact (C350_inverse t b h _).1

theorem area_dist (t : Tri) : area2sq t = sqDist t.p1 t.p2 * sqDist t.p1 t.p3 -
    ((sqDist t.p1 t.p2 + sqDist t.p1 t.p3 - sqDist t.p2 t.p3) / 2) ^ 2 := by
  unfold area2sq sqDist; ring

theorem fwd_flat {t : Tri} {b : Basis} (h : tri2basis t = .ok b) (hc : Corners t) :
    (app b.fwd t.p1).z = 0 ∧ (app b.fwd t.p2).z = 0 ∧ (app b.fwd t.p3).z = 0 := by
  obtain ⟨_, _, f, _⟩ := C350_forward t b h
  obtain ⟨ha, hpn, _⟩ := basis_is h
  rcases C349_plane t with ⟨h', _⟩ | ⟨_, p0, n, he, _, _, _, h1, h2, h3, _⟩
  · exact absurd h' (not_lt.mpr ha)
  rw [hpn] at he
  injection he with he
  injection he with he1 he2
  subst he1; subst he2
  exact ⟨(f _ hc.1).2.2.mpr h1, (f _ hc.2.1).2.2.mpr h2, (f _ hc.2.2).2.2.mpr h3⟩

theorem fwd_denom {t : Tri} {b : Basis} (h : tri2basis t = .ok b) (hc : Corners t) :
    eps ≤ |((app b.fwd t.p1).x - (app b.fwd t.p3).x) * ((app b.fwd t.p2).y - (app b.fwd t.p3).y) -
      ((app b.fwd t.p2).x - (app b.fwd t.p3).x) * ((app b.fwd t.p1).y - (app b.fwd t.p3).y)| := by
  obtain ⟨d, _⟩ := C350_forward t b h
  obtain ⟨z1, z2, z3⟩ := fwd_flat h hc
  obtain ⟨ha, _, _⟩ := basis_is h
  have e : area2sq t = area2sq (mapTri b.fwd t) := by
    rw [area_dist, area_dist]
    simp only [mapTri]
    rw [d _ _ hc.1 hc.2.1, d _ _ hc.1 hc.2.2, d _ _ hc.2.1 hc.2.2]
  rw [e] at ha
  have e2 : area2sq (mapTri b.fwd t) = (((app b.fwd t.p1).x - (app b.fwd t.p3).x) * ((app b.fwd t.p2).y - (app b.fwd t.p3).y) -
      ((app b.fwd t.p2).x - (app b.fwd t.p3).x) * ((app b.fwd t.p1).y - (app b.fwd t.p3).y)) ^ 2 := by
    unfold area2sq mapTri
    simp only [z1, z2, z3]
    ring
  rw [e2, Real.sqrt_sq_eq_abs] at ha
  exact ha

theorem inTri_local {t : Tri} {b : Basis} (h : tri2basis t = .ok b) (hc : Corners t) (q : V4) (hq : q.w = 1)
    (hz : (app b.fwd q).z = 0) :
    InTri t q ↔ ∃ l1 l2 l3, 0 ≤ l1 ∧ 0 ≤ l2 ∧ 0 ≤ l3 ∧
      IsComb (app b.fwd q) (app b.fwd t.p1) (app b.fwd t.p2) (app b.fwd t.p3) l1 l2 l3 := by
  obtain ⟨_, _, hb⟩ := basis_is h
  obtain ⟨z1, z2, z3⟩ := fwd_flat h hc
  constructor
  · rintro ⟨a, b', c, ha, hb', hc', hs, h1, h2, h3⟩
    refine ⟨a, b', c, ha, hb', hc', hs, ?_, ?_⟩
    all_goals
      rw [app_fwd hb q hq, app_fwd hb _ hc.1, app_fwd hb _ hc.2.1, app_fwd hb _ hc.2.2]
      simp only [h1, h2, h3]
      have hs' : c = 1 - a - b' := by linarith
      subst hs'
      ring
  · rintro ⟨a, b', c, ha, hb', hc', hs, h1, h2⟩
    let r : V4 := ⟨a * t.p1.x + b' * t.p2.x + c * t.p3.x, a * t.p1.y + b' * t.p2.y + c * t.p3.y,
      a * t.p1.z + b' * t.p2.z + c * t.p3.z, 1⟩
    have hs' : c = 1 - a - b' := by linarith
    have e : app b.fwd r = app b.fwd q := by
      have x1 : (app b.fwd r).x = (app b.fwd q).x := by
        rw [h1, app_fwd hb r rfl, app_fwd hb _ hc.1, app_fwd hb _ hc.2.1, app_fwd hb _ hc.2.2]
        simp only [r, hs']; ring
      have x2 : (app b.fwd r).y = (app b.fwd q).y := by
        rw [h2, app_fwd hb r rfl, app_fwd hb _ hc.1, app_fwd hb _ hc.2.1, app_fwd hb _ hc.2.2]
        simp only [r, hs']; ring
      have x3 : (app b.fwd r).z = (app b.fwd q).z := by
        have : (app b.fwd r).z = a * (app b.fwd t.p1).z + b' * (app b.fwd t.p2).z + c * (app b.fwd t.p3).z := by
          rw [app_fwd hb r rfl, app_fwd hb _ hc.1, app_fwd hb _ hc.2.1, app_fwd hb _ hc.2.2]
          simp only [r, hs']; ring
        rw [this, z1, z2, z3, hz]; ring
      have x4 : (app b.fwd r).w = (app b.fwd q).w := by
        rw [app_fwd hb r rfl, app_fwd hb q hq]
      exact V4.ext x1 x2 x3 x4
    have e2 : r = q := by
      rw [← (C350_inverse t b h r).1, e, (C350_inverse t b h q).1]
    refine ⟨a, b', c, ha, hb', hc', hs, ?_, ?_, ?_⟩ <;> rw [← e2]

/-- `isInsideTriangleXY` on the local corners never fails and decides membership -/
theorem inside_local {t : Tri} {b : Basis} (h : tri2basis t = .ok b) (hc : Corners t) (q : V4) (hq : q.w = 1)
    (hz : (app b.fwd q).z = 0) :
    ∃ k, isInsideTriangleXY (app b.fwd q) (app b.fwd t.p1) (app b.fwd t.p2) (app b.fwd t.p3) = .ok k ∧
      (k = true ↔ InTri t q) := by
  obtain ⟨z1, z2, z3⟩ := fwd_flat h hc
  obtain ⟨k, hk, hk2⟩ := C42_inside (app b.fwd q) _ _ _ (fwd_denom h hc)
  refine ⟨k, ?_, hk2.trans (inTri_local h hc q hq hz).symm⟩
  unfold isInsideTriangleXY
  rw [if_pos, hk]
  simp only [isXYPlanar, List.mem_cons, List.not_mem_nil, or_false]
  rintro q' (rfl | rfl | rfl) <;> simp [z1, z2, z3, hz, eps_pos.le]

theorem linePlane_cases (l : Line) (t : Tri) (i : Bool) (hc : Corners t) (ha : l.a.w = 1) (hb : l.b.w = 1) (b : Basis)
    (h : tri2basis t = .ok b) :
    (|signedPlaneDistance l.a b.p0 b.n - signedPlaneDistance l.b b.p0 b.n| < eps ∧ linePlaneIntersect l (.tri t) i = .ok none) ∨
    (eps ≤ |signedPlaneDistance l.a b.p0 b.n - signedPlaneDistance l.b b.p0 b.n| ∧
      ∃ u, OnPlane (sampleline l u) b.p0 b.n ∧
        (∀ v q, AtParam l.a l.b v q → OnPlane q b.p0 b.n → v = u) ∧
        (((i = true ∧ ¬ (0 ≤ u ∧ u ≤ 1) ∨ ¬ InTri t (sampleline l u)) ∧ linePlaneIntersect l (.tri t) i = .ok none) ∨
         (((i = true → 0 ≤ u ∧ u ≤ 1) ∧ InTri t (sampleline l u)) ∧
            linePlaneIntersect l (.tri t) i = .ok (some (sampleline l u))))) := by
  obtain ⟨_, _, fz, _⟩ := C350_forward t b h
  have e : linePlaneIntersect l (.tri t) i = linePlaneTri l t b i := by
    unfold linePlaneIntersect; simp only; rw [h]
  rw [e]
  unfold linePlaneTri
  have hc' := cardinal_cases ⟨app b.fwd l.a, app b.fwd l.b⟩ .xy i
  simp only [height] at hc'
  rw [(fz _ ha).2.1, (fz _ hb).2.1] at hc'
  rcases hc' with ⟨hs, e1⟩ | ⟨hs, u, hu, hrest⟩
  · left; exact ⟨hs, by rw [e1]⟩
  · right
    refine ⟨hs, u, ?_⟩
    have hf : app b.fwd (sampleline l u) = sampleline ⟨app b.fwd l.a, app b.fwd l.b⟩ u :=
      fwd_at (basis_is h).2.2 ha hb rfl (sample_at l u)
    have hz : (app b.fwd (sampleline l u)).z = 0 := by
      rw [hf, (sample_at ⟨app b.fwd l.a, app b.fwd l.b⟩ u).2.2, (fz _ ha).2.1, (fz _ hb).2.1]
      linarith
    obtain ⟨k, hk, hkk⟩ := inside_local h hc (sampleline l u) rfl hz
    have hne : signedPlaneDistance l.a b.p0 b.n - signedPlaneDistance l.b b.p0 b.n ≠ 0 := by
      intro h0; rw [h0, abs_zero] at hs; linarith [eps_pos]
    refine ⟨(fz _ rfl).2.2.mp hz, ?_, ?_⟩
    · intro v q ⟨q1, q2, q3⟩ hq
      apply mul_right_cancel₀ hne
      rw [hu]
      simp only [OnPlane] at hq
      rw [q1, q2, q3] at hq
      simp only [signedPlaneDistance, Geom.dot, Geom.sub]
      linear_combination -hq
    · rcases hrest with ⟨hi, hb', e1⟩ | ⟨hi, e1⟩
      · left; exact ⟨Or.inl ⟨hi, hb'⟩, by rw [e1]⟩
      · rw [e1]
        simp only
        rw [← hf, hk]
        cases k
        · left; exact ⟨Or.inr (fun hh => by have := hkk.mpr hh; cases this), rfl⟩
        · right
          refine ⟨⟨hi, hkk.mp rfl⟩, ?_⟩
          simp only
          rw [(C350_inverse t b h _).1]

/-- **C353** a point returned for a triangle lies in the triangle and on the line, and between its ends when `inside` is
set -/
theorem C353_hit (l : Line) (t : Tri) (i : Bool) (p : V4) (hc : Corners t) (ha : l.a.w = 1) (hb : l.b.w = 1)
    (h : linePlaneIntersect l (.tri t) i = .ok (some p)) :
    InTri t p ∧ p.w = 1 ∧ ∃ u, AtParam l.a l.b u p ∧ (i = true → 0 ≤ u ∧ u ≤ 1) := by
  rcases lt_or_ge (√(area2sq t)) eps with hd | hd
  · unfold linePlaneIntersect at h
    simp only at h
    rw [(C350_exists t).1 hd] at h
    cases h
  · obtain ⟨b, hbs, _⟩ := (C350_exists t).2 hd
    rcases linePlane_cases l t i hc ha hb b hbs with ⟨_, e⟩ | ⟨_, u, _, _, ⟨_, e⟩ | ⟨hi, e⟩⟩
    · rw [e] at h; cases h
    · rw [e] at h; cases h
    · rw [e] at h
      injection h with h
      injection h with h
      subst h
      exact ⟨hi.2, rfl, u, sample_at l u, hi.1⟩

theorem inTri_onPlane {t : Tri} {b : Basis} (h : tri2basis t = .ok b) {q : V4} (hq : InTri t q) : OnPlane q b.p0 b.n := by
  obtain ⟨ha, hpn, _⟩ := basis_is h
  rcases C349_plane t with ⟨h', _⟩ | ⟨_, p0, n, he, _, _, _, h1, h2, h3, _⟩
  · exact absurd h' (not_lt.mpr ha)
  rw [hpn] at he
  injection he with he
  injection he with he1 he2
  subst he1; subst he2
  obtain ⟨a, b', c, _, _, _, hs, e1, e2, e3⟩ := hq
  simp only [OnPlane] at *
  rw [e1, e2, e3]
  have hs' : c = 1 - a - b' := by linarith
  subst hs'
  linear_combination a * h1 + b' * h2 + (1 - a - b') * h3

/-- **C353** a triangle with doubled area of at least epsilon never gives an error, and when the ends of the line differ in
height over its plane by at least epsilon every common point of the line (the segment, when `inside` is set) and the
triangle is the answer -/
theorem C353_complete_partial (l : Line) (t : Tri) (i : Bool) (hc : Corners t) (ha : l.a.w = 1) (hb : l.b.w = 1)
    (hd : eps ≤ √(area2sq t)) :
    (∃ r, linePlaneIntersect l (.tri t) i = .ok r) ∧
    ∀ p0 n, tri2p0n t.p1 t.p2 t.p3 = .ok (p0, n) →
      eps ≤ |signedPlaneDistance l.a p0 n - signedPlaneDistance l.b p0 n| →
      ∀ u q, AtParam l.a l.b u q → InTri t q → (i = true → 0 ≤ u ∧ u ≤ 1) →
        ∃ p, linePlaneIntersect l (.tri t) i = .ok (some p) ∧ Same3 p q := by
  obtain ⟨b, hbs, hpn⟩ := (C350_exists t).2 hd
  have hcases := linePlane_cases l t i hc ha hb b hbs
  constructor
  · rcases hcases with ⟨_, e⟩ | ⟨_, u, _, _, ⟨_, e⟩ | ⟨hi, e⟩⟩ <;> exact ⟨_, e⟩
  · intro p0 n he hs v q hv hq hi
    rw [hpn] at he
    injection he with he
    injection he with he1 he2
    subst he1; subst he2
    rcases hcases with ⟨h', _⟩ | ⟨_, u, _, huniq, hrest⟩
    · exact absurd h' (not_lt.mpr hs)
    · have := huniq v q hv (inTri_onPlane hbs hq)
      subst this
      have hsame := at_unique (sample_at l v) hv
      rcases hrest with ⟨hbad, _⟩ | ⟨_, e⟩
      · exfalso
        rcases hbad with ⟨h1, h2⟩ | h2
        · exact h2 (hi h1)
        · apply h2
          obtain ⟨a, b', c, k1, k2, k3, k4, e1, e2, e3⟩ := hq
          exact ⟨a, b', c, k1, k2, k3, k4, by rw [hsame.1, e1], by rw [hsame.2.1, e2], by rw [hsame.2.2, e3]⟩
      · exact ⟨_, e, hsame⟩

/-- **C353** the triangle bounds the answer also without `inside`, contrary to the documentation: a line that meets the
plane outside the triangle gives no point -/
theorem C353_outside (l : Line) (t : Tri) (i : Bool) (hc : Corners t) (ha : l.a.w = 1) (hb : l.b.w = 1)
    (hd : eps ≤ √(area2sq t)) (hout : ∀ u q, AtParam l.a l.b u q → ¬ InTri t q) :
    linePlaneIntersect l (.tri t) i = .ok none := by
  obtain ⟨r, hr⟩ := (C353_complete_partial l t i hc ha hb hd).1
  cases r with
  | none => exact hr
  | some p =>
    obtain ⟨h1, _, u, h2, _⟩ := C353_hit l t i p hc ha hb hr
    exact absurd h1 (hout u p h2)

/-- the unit right triangle in the plane `z = 0` -/
def unitTri : Tri := ⟨pt 0 0, pt 1 0, pt 0 1⟩

theorem unit_area : √(area2sq unitTri) = 1 := by
  have : area2sq unitTri = 1 := by simp [area2sq, unitTri, pt]
  rw [this, Real.sqrt_one]

/-- **C353** the hypotheses are met: a vertical line through the unit triangle hits it, a parallel one outside does not,
with `inside` or without -/
theorem C353_case :
    (∃ p, linePlaneIntersect ⟨pt 0.25 0.25 1, pt 0.25 0.25 (-1)⟩ (.tri unitTri) true = .ok (some p) ∧ Same3 p (pt 0.25 0.25 0)) ∧
    linePlaneIntersect ⟨pt 2 2 1, pt 2 2 (-1)⟩ (.tri unitTri) false = .ok none := by
  have hd : eps ≤ √(area2sq unitTri) := by rw [unit_area]; unfold eps; norm_num
  have hc : Corners unitTri := ⟨rfl, rfl, rfl⟩
  constructor
  · rcases C349_plane unitTri with ⟨h', _⟩ | ⟨_, p0, n, he, h0, _, hu, h1, h2, h3, _⟩
    · exact absurd h' (not_lt.mpr hd)
    · refine (C353_complete_partial _ unitTri true hc rfl rfl hd).2 p0 n he ?_ (1 / 2) (pt 0.25 0.25 0) ?_ ?_ ?_
      · simp only [OnPlane, unitTri, pt] at h1 h2 h3
        have nx : n.x = 0 := by linarith
        have ny : n.y = 0 := by linarith
        rw [nx, ny] at hu
        have hz : n.z ^ 2 = 1 := by linarith
        have e : signedPlaneDistance (pt 0.25 0.25 1) p0 n - signedPlaneDistance (pt 0.25 0.25 (-1)) p0 n = 2 * n.z := by
          simp only [signedPlaneDistance, Geom.dot, Geom.sub, pt]; ring
        have hz1 : |n.z| = 1 := by rw [← Real.sqrt_sq_eq_abs, hz, Real.sqrt_one]
        have e' : |signedPlaneDistance (pt 0.25 0.25 1) p0 n - signedPlaneDistance (pt 0.25 0.25 (-1)) p0 n| = 2 := by
          rw [e, abs_mul, hz1]; norm_num
        rw [e']; unfold eps; norm_num
      · simp only [AtParam, pt]; norm_num
      · refine ⟨1 / 2, 1 / 4, 1 / 4, by norm_num, by norm_num, by norm_num, by norm_num, ?_⟩
        simp only [unitTri, pt]; norm_num
      · intro _; norm_num
  · apply C353_outside _ _ _ hc rfl rfl hd
    rintro u q ⟨e1, _, _⟩ ⟨a, b, c, ha, hb, hc, hs, x1, _, _⟩
    simp only [unitTri, pt] at e1 x1
    linarith

end Verif.Plane
