import Verif.Plane.Inter

/-!
# C354: the intersection of two triangles

`combine` and `back` (the in-plane boolean and the transformation of its result) only matter for coplanar triangles; every
statement here is about all of them.
-/

namespace Verif.Plane
open Verif.Geom Verif.Xform
open Verif.Prim (tri2p0n)

variable (combine : Tri → Tri → List V4) (back : Mat ℝ → List V4 → List V4)

/-- `p` is on the straight line through two different corners of the triangle, not necessarily between them -/
def OnEdgeLine (t : Tri) (p : V4) : Prop :=
  ∃ u, AtParam t.p1 t.p2 u p ∨ AtParam t.p2 t.p3 u p ∨ AtParam t.p3 t.p1 u p

theorem card_free {l : Line} {p : V4} (h : lineCardinal l .xy false = some p) :
    p.z = 0 ∧ p.w = 1 ∧ ∃ u, p = sampleline l u := by
  have e : linePlaneIntersect l (.card .xy) false = .ok (some p) := congrArg Except.ok h
  obtain ⟨h0, hw, _⟩ := C352_hit l .xy false p e
  refine ⟨h0, hw, ?_⟩
  rcases cardinal_cases l .xy false with ⟨_, e⟩ | ⟨_, u, _, ⟨hi, _, _⟩ | ⟨_, e⟩⟩
  · rw [e] at h; cases h
  · cases hi
  · rw [e] at h
    injection h with h
    exact ⟨u, h.symm⟩

theorem orElse_some {a c : Option V4} {p : V4} (h : orElse a c = some p) : a = some p ∨ c = some p := by
  cases a with
  | none => exact Or.inr h
  | some q => exact Or.inl h

theorem ttLine_seg {t2p : Tri} {inv : Mat ℝ} {k : Bool} {a b : V4} (h : ttLine t2p inv k = .ok (.seg a b)) :
    ∃ a' b', orElse (lineCardinal ⟨t2p.p1, t2p.p2⟩ .xy false) (lineCardinal ⟨t2p.p3, t2p.p1⟩ .xy false) = some a' ∧
      orElse (lineCardinal ⟨t2p.p2, t2p.p3⟩ .xy false) (lineCardinal ⟨t2p.p3, t2p.p1⟩ .xy false) = some b' ∧
      a = (if k then a' else app inv a') ∧ b = (if k then b' else app inv b') := by
  unfold ttLine at h
  simp only at h
  generalize orElse (lineCardinal ⟨t2p.p1, t2p.p2⟩ .xy false) (lineCardinal ⟨t2p.p3, t2p.p1⟩ .xy false) = A at *
  generalize orElse (lineCardinal ⟨t2p.p2, t2p.p3⟩ .xy false) (lineCardinal ⟨t2p.p3, t2p.p1⟩ .xy false) = B at *
  rcases A with _ | a'
  · rcases B with _ | b' <;> cases k <;> simp at h
  · rcases B with _ | b'
    · cases k <;> simp at h
    · refine ⟨a', b', rfl, rfl, ?_⟩
      cases k
      · simp only [Bool.false_eq_true, if_false, Except.ok.injEq, TT.seg.injEq] at h
        exact ⟨h.1.symm, h.2.symm⟩
      · simp only [if_true, Except.ok.injEq, TT.seg.injEq] at h
        exact ⟨h.1.symm, h.2.symm⟩

/-- the body of `triTriIntersect` when the basis is that of the first triangle -/
theorem tt_eq (t1 t2 : Tri) (i k : Bool) (b : Basis) (hb : tri2basis t1 = .ok b) (q n2 : V4)
    (h2 : tri2p0n t2.p1 t2.p2 t2.p3 = .ok (q, n2)) :
    triTriIntersect combine back t1 t2 i k none =
      (open Classical in
       if all3 (fun z => |z| ≤ eps) (mapTri b.fwd t2) then
        .ok (ttFlat combine back (mapTri b.fwd t1) (mapTri b.fwd t2) t2 b.inv i k)
      else if vclose b.n n2 then .ok .no
      else if i = true ∧ (all3 (fun z => z > eps) (mapTri b.fwd t2) ∨ all3 (fun z => z < -eps) (mapTri b.fwd t2)) then .ok .no
      else ttLine (mapTri b.fwd t2) b.inv k) := by
  unfold triTriIntersect
  simp only [hb, h2]

theorem flat_not_seg {t1p t2p t2 : Tri} {inv : Mat ℝ} {i k : Bool} {a b : V4} :
    ttFlat combine back t1p t2p t2 inv i k ≠ .seg a b := by
  unfold ttFlat
  split
  · simp
  · split <;> simp

theorem plane_facts {t : Tri} {p0 n : V4} (h : tri2p0n t.p1 t.p2 t.p3 = .ok (p0, n)) :
    eps ≤ √(area2sq t) ∧ n.w = 0 ∧ n.x ^ 2 + n.y ^ 2 + n.z ^ 2 = 1 ∧
      OnPlane t.p1 p0 n ∧ OnPlane t.p2 p0 n ∧ OnPlane t.p3 p0 n ∧ turn t n = √(area2sq t) ∧
      (p0.x = (t.p1.x + t.p2.x + t.p3.x) / 3 ∧ p0.y = (t.p1.y + t.p2.y + t.p3.y) / 3 ∧
        p0.z = (t.p1.z + t.p2.z + t.p3.z) / 3 ∧ p0.w = 1) := by
  rcases C349_plane t with ⟨_, he⟩ | ⟨ha, p0', n', he, h0, hw, hu, h1, h2, h3, ht⟩
  · rw [h] at he; cases he
  · rw [h] at he
    injection he with he
    injection he with he1 he2
    subst he1; subst he2
    exact ⟨ha, hw, hu, h1, h2, h3, ht, h0⟩

theorem onPlane_at {a b p0 n q : V4} {u : ℝ} (ha : OnPlane a p0 n) (hb : OnPlane b p0 n) (h : AtParam a b u q) :
    OnPlane q p0 n := by
  obtain ⟨h1, h2, h3⟩ := h
  simp only [OnPlane] at *
  rw [h1, h2, h3]
  linear_combination (1 - u) * ha + u * hb

/-- **C354** (one half) both ends of a returned segment lie on the planes of both triangles, and each on the line of an edge
of the second triangle. That they lie in the triangles is false, see `C354_disjoint` and `C354_sticks_out`. -/
theorem C354_on_planes_partial (t1 t2 : Tri) (i : Bool) (h1 : Corners t1) (h2 : Corners t2) (a b : V4)
    (h : triTriIntersect combine back t1 t2 i false none = .ok (.seg a b)) (p : V4) (hp : p = a ∨ p = b) :
    ∃ p1 n1 p2 n2, tri2p0n t1.p1 t1.p2 t1.p3 = .ok (p1, n1) ∧ tri2p0n t2.p1 t2.p2 t2.p3 = .ok (p2, n2) ∧
      OnPlane p p1 n1 ∧ OnPlane p p2 n2 ∧ OnEdgeLine t2 p := by
  rcases hB : tri2basis t1 with e | B
  · unfold triTriIntersect at h
    simp [hB] at h
  rcases hN : tri2p0n t2.p1 t2.p2 t2.p3 with e | ⟨p2, n2⟩
  · unfold triTriIntersect at h
    simp [hB, hN] at h
  rw [tt_eq combine back t1 t2 i false B hB p2 n2 hN] at h
  obtain ⟨_, hpn, hbas⟩ := basis_is hB
  refine ⟨B.p0, B.n, p2, n2, hpn, rfl, ?_⟩
  split at h
  · injection h with h
    exact absurd h (flat_not_seg combine back)
  split at h
  · simp at h
  split at h
  · simp at h
  obtain ⟨a', b', ea, eb, ha, hb⟩ := ttLine_seg h
  simp only [Bool.false_eq_true, if_false] at ha hb
  obtain ⟨_, _, _, q1, q2, q3, _⟩ := plane_facts hN
  obtain ⟨_, _, fz, _⟩ := C350_forward t1 B hB
  have key : ∀ (c d p' : V4), c.w = 1 → d.w = 1 → lineCardinal ⟨app B.fwd c, app B.fwd d⟩ .xy false = some p' →
      ∃ u, app B.inv p' = sampleline ⟨c, d⟩ u ∧ OnPlane (app B.inv p') B.p0 B.n := by
    intro c d p' hc hd hcard
    obtain ⟨z0, _, u, hu⟩ := card_free hcard
    refine ⟨u, by rw [hu, inv_at hB u hc hd], ?_⟩
    have hw : (app B.inv p').w = 1 := by rw [hu, inv_at hB u hc hd]; rfl
    rw [← (fz _ hw).2.2, (C350_inverse t1 B hB p').2]
    exact z0
  have edge : ∀ p', (lineCardinal ⟨(mapTri B.fwd t2).p1, (mapTri B.fwd t2).p2⟩ .xy false = some p' ∨
      lineCardinal ⟨(mapTri B.fwd t2).p2, (mapTri B.fwd t2).p3⟩ .xy false = some p' ∨
      lineCardinal ⟨(mapTri B.fwd t2).p3, (mapTri B.fwd t2).p1⟩ .xy false = some p') →
      OnPlane (app B.inv p') B.p0 B.n ∧ OnPlane (app B.inv p') p2 n2 ∧ OnEdgeLine t2 (app B.inv p') := by
    intro p' hh
    rcases hh with hh | hh | hh
    · obtain ⟨u, e, ho⟩ := key _ _ p' h2.1 h2.2.1 hh
      exact ⟨ho, by rw [e]; exact onPlane_at q1 q2 (sample_at ⟨t2.p1, t2.p2⟩ u), u, Or.inl (by rw [e]; exact sample_at ⟨t2.p1, t2.p2⟩ u)⟩
    · obtain ⟨u, e, ho⟩ := key _ _ p' h2.2.1 h2.2.2 hh
      exact ⟨ho, by rw [e]; exact onPlane_at q2 q3 (sample_at ⟨t2.p2, t2.p3⟩ u), u, Or.inr (Or.inl (by rw [e]; exact sample_at ⟨t2.p2, t2.p3⟩ u))⟩
    · obtain ⟨u, e, ho⟩ := key _ _ p' h2.2.2 h2.1 hh
      exact ⟨ho, by rw [e]; exact onPlane_at q3 q1 (sample_at ⟨t2.p3, t2.p1⟩ u), u, Or.inr (Or.inr (by rw [e]; exact sample_at ⟨t2.p3, t2.p1⟩ u))⟩
  rcases hp with rfl | rfl
  · rw [ha]
    rcases orElse_some ea with hh | hh
    · exact edge a' (Or.inl hh)
    · exact edge a' (Or.inr (Or.inr hh))
  · rw [hb]
    rcases orElse_some eb with hh | hh
    · exact edge b' (Or.inr (Or.inl hh))
    · exact edge b' (Or.inr (Or.inr hh))

theorem no_zero {a b c h1 h2 h3 e : ℝ} (ka : 0 ≤ a) (kb : 0 ≤ b) (kc : 0 ≤ c) (ks : a + b + c = 1) (he : 0 < e)
    (h : a * h1 + b * h2 + c * h3 = 0) (c1 : e < h1) (c2 : e < h2) (c3 : e < h3) : False := by
  have m1 := mul_nonneg ka (sub_nonneg.mpr c1.le)
  have m2 := mul_nonneg kb (sub_nonneg.mpr c2.le)
  have m3 := mul_nonneg kc (sub_nonneg.mpr c3.le)
  have m4 : a * (h1 - e) + b * (h2 - e) + c * (h3 - e) = -e := by linear_combination h - e * ks
  linarith

/-- **C354** the answer `False` is right for triangles that are not near-coplanar and whose normals differ by at least
epsilon: no point of the second triangle is on the plane of the first, so the triangles have no common point -/
theorem C354_false_partial (t1 t2 : Tri) (k : Bool) (h2 : Corners t2)
    (h : triTriIntersect combine back t1 t2 true k none = .ok .no) (p1 n1 p2 n2 : V4)
    (e1 : tri2p0n t1.p1 t1.p2 t1.p3 = .ok (p1, n1)) (e2 : tri2p0n t2.p1 t2.p2 t2.p3 = .ok (p2, n2))
    (hn : eps ^ 2 ≤ (n1.x - n2.x) ^ 2 + (n1.y - n2.y) ^ 2 + (n1.z - n2.z) ^ 2)
    (hfar : ∃ q, (q = t2.p1 ∨ q = t2.p2 ∨ q = t2.p3) ∧ eps < |signedPlaneDistance q p1 n1|) :
    (∀ q, InTri t2 q → ¬ OnPlane q p1 n1) ∧ ∀ q, InTri t2 q → ¬ InTri t1 q := by
  obtain ⟨ha, _⟩ := plane_facts e1
  obtain ⟨B, hB, hpn⟩ := (C350_exists t1).2 ha
  rw [e1] at hpn
  injection hpn with hpn
  injection hpn with r1 r2
  subst r1; subst r2
  rw [tt_eq combine back t1 t2 true k B hB p2 n2 e2] at h
  obtain ⟨_, _, fz, _⟩ := C350_forward t1 B hB
  have z1 := (fz _ h2.1).2.1
  have z2 := (fz _ h2.2.1).2.1
  have z3 := (fz _ h2.2.2).2.1
  have main : ∀ q, InTri t2 q → ¬ OnPlane q B.p0 B.n := by
    split at h
    · rename_i hflat
      exfalso
      obtain ⟨c1, c2, c3⟩ := hflat
      simp only [mapTri, z1, z2, z3] at c1 c2 c3
      obtain ⟨q, hq, hq'⟩ := hfar
      rcases hq with rfl | rfl | rfl <;> linarith
    split at h
    · rename_i hv
      exfalso
      simp only [vclose, Geom.close, Geom.mag, Geom.sub, sub_zero] at hv
      rw [abs_of_nonneg (Real.sqrt_nonneg _)] at hv
      have : eps ≤ √((B.n.x - n2.x) * (B.n.x - n2.x) + (B.n.y - n2.y) * (B.n.y - n2.y) + (B.n.z - n2.z) * (B.n.z - n2.z)) := by
        apply Real.le_sqrt_of_sq_le
        linarith
      linarith
    split at h
    · rename_i hside
      rintro q ⟨a, b, c, ka, kb, kc, ks, x1, x2, x3⟩ hq
      have lin : a * signedPlaneDistance t2.p1 B.p0 B.n + b * signedPlaneDistance t2.p2 B.p0 B.n +
          c * signedPlaneDistance t2.p3 B.p0 B.n = 0 := by
        simp only [OnPlane] at hq
        rw [x1, x2, x3] at hq
        simp only [signedPlaneDistance, Geom.dot, Geom.sub]
        have ks' : c = 1 - a - b := by linarith
        subst ks'
        linear_combination hq
      rcases hside.2 with ⟨c1, c2, c3⟩ | ⟨c1, c2, c3⟩
      · simp only [mapTri, z1, z2, z3] at c1 c2 c3
        exact no_zero ka kb kc ks eps_pos lin c1 c2 c3
      · simp only [mapTri, z1, z2, z3] at c1 c2 c3
        exact no_zero ka kb kc ks eps_pos
          (h1 := -signedPlaneDistance t2.p1 B.p0 B.n) (h2 := -signedPlaneDistance t2.p2 B.p0 B.n)
          (h3 := -signedPlaneDistance t2.p3 B.p0 B.n) (by linear_combination -lin) (by linarith) (by linarith) (by linarith)
    · exfalso
      unfold ttLine at h
      simp only at h
      split at h
      · cases k <;> simp at h
      · cases k <;> simp at h
  refine ⟨main, fun q hq hq1 => main q hq (inTri_onPlane hB hq1)⟩

/-! ## wrong answers -/

/-- an upright triangle in the plane `x = X`: it stands on the point `(X, 0, -1)` -/
def upright (X : ℝ) : Tri := ⟨pt X 0 1, pt X 1 2, pt X 0 (-1)⟩

theorem unit_basis : ∃ B, tri2basis unitTri = .ok B ∧ B.n = ⟨0, 0, 1, 0⟩ ∧
    (∀ x y z, (app B.fwd (pt x y z)).z = z) := by
  have ha : eps ≤ √(area2sq unitTri) := by rw [unit_area]; unfold eps; norm_num
  obtain ⟨B, hB, hpn⟩ := (C350_exists unitTri).2 ha
  obtain ⟨_, hw, hu, h1, h2, h3, ht, h0⟩ := plane_facts hpn
  simp only [OnPlane, unitTri, pt] at h1 h2 h3
  have nx : B.n.x = 0 := by linarith
  have ny : B.n.y = 0 := by linarith
  have nz : B.n.z = 1 := by
    rw [unit_area] at ht
    simp only [turn, unitTri, pt] at ht
    linarith
  refine ⟨B, hB, V4.ext nx ny nz hw, ?_⟩
  intro x y z
  obtain ⟨_, _, fz, _⟩ := C350_forward unitTri B hB
  rw [(fz (pt x y z) rfl).2.1]
  simp only [signedPlaneDistance, Geom.dot, Geom.sub, pt, nx, ny, nz, h0.2.2.1, unitTri]
  ring

theorem upright_plane (X : ℝ) : ∃ q n, tri2p0n (upright X).p1 (upright X).p2 (upright X).p3 = .ok (q, n) ∧ n.z = 0 := by
  rcases C349_plane (upright X) with ⟨h', _⟩ | ⟨_, p0, n, he, h0, _, hu, h1, h2, h3, _⟩
  · exfalso
    have : area2sq (upright X) = 2 ^ 2 := by simp only [area2sq, upright, pt]; norm_num
    rw [this, Real.sqrt_sq (by norm_num)] at h'
    unfold eps at h'; norm_num at h'
  · refine ⟨p0, n, he, ?_⟩
    simp only [OnPlane, upright, pt] at h1 h3
    linarith

theorem card_at (l : Line) (u : ℝ) (h : eps ≤ |l.a.z - l.b.z|) (hu : u * (l.a.z - l.b.z) = l.a.z) :
    lineCardinal l .xy false = some (sampleline l u) := by
  rcases cardinal_cases l .xy false with ⟨h', _⟩ | ⟨_, v, hv, ⟨hi, _, _⟩ | ⟨_, e⟩⟩
  · exact absurd h' (not_lt.mpr h)
  · cases hi
  · rw [e]
    have hne : l.a.z - l.b.z ≠ 0 := by
      intro h0; rw [h0, abs_zero] at h; linarith [eps_pos]
    have : v = u := mul_right_cancel₀ hne (by rw [hu]; exact hv)
    rw [this]

/-- the answer for the unit triangle and an upright one: from the point `(X, -1, 0)` of an extended edge to `(X, 1/3, 0)`,
wherever the second triangle stands -/
theorem upright_answer (X : ℝ) :
    triTriIntersect combine back unitTri (upright X) true false none = .ok (.seg (pt X (-1)) (pt X (1 / 3))) := by
  obtain ⟨B, hB, hn, hz⟩ := unit_basis
  obtain ⟨q, n, hN, hnz⟩ := upright_plane X
  rw [tt_eq combine back unitTri (upright X) true false B hB q n hN]
  have z1 : (app B.fwd (upright X).p1).z = 1 := hz X 0 1
  have z2 : (app B.fwd (upright X).p2).z = 2 := hz X 1 2
  have z3 : (app B.fwd (upright X).p3).z = -1 := hz X 0 (-1)
  have he : eps < 1 := by unfold eps; norm_num
  have hp := eps_pos
  rw [if_neg, if_neg, if_neg]
  · have c1 : lineCardinal ⟨(mapTri B.fwd (upright X)).p1, (mapTri B.fwd (upright X)).p2⟩ .xy false =
        some (sampleline ⟨app B.fwd (upright X).p1, app B.fwd (upright X).p2⟩ (-1)) := by
      apply card_at
      · simp only [mapTri, z1, z2]; norm_num; exact he.le
      · simp only [mapTri, z1, z2]; norm_num
    have c2 : lineCardinal ⟨(mapTri B.fwd (upright X)).p2, (mapTri B.fwd (upright X)).p3⟩ .xy false =
        some (sampleline ⟨app B.fwd (upright X).p2, app B.fwd (upright X).p3⟩ (2 / 3)) := by
      apply card_at
      · simp only [mapTri, z2, z3]; norm_num; linarith
      · simp only [mapTri, z2, z3]; norm_num
    unfold ttLine
    simp only [c1, c2, orElse, Bool.false_eq_true, if_false]
    rw [inv_at hB _ rfl rfl, inv_at hB _ rfl rfl]
    simp only [sampleline, upright, pt, Geom.add, Geom.scale3]
    norm_num
    exact ⟨by ring, by ring⟩
  · rintro ⟨_, ⟨_, _, c⟩ | ⟨c, _, _⟩⟩
    · simp only [mapTri, z3] at c; linarith
    · simp only [mapTri, z1] at c; linarith
  · intro hv
    simp only [vclose, Geom.close, Geom.mag, Geom.sub, sub_zero, hn, hnz] at hv
    rw [abs_of_nonneg (Real.sqrt_nonneg _)] at hv
    have : (1 : ℝ) ≤ √((0 - n.x) * (0 - n.x) + (0 - n.y) * (0 - n.y) + 1 * 1) := by
      apply Real.le_sqrt_of_sq_le
      nlinarith [mul_self_nonneg (0 - n.x), mul_self_nonneg (0 - n.y)]
    linarith
  · rintro ⟨c, _, _⟩
    simp only [mapTri, z1] at c
    norm_num at c
    linarith

/-- **C354** (violated) two triangles at a distance of at least 9 are reported to intersect -/
theorem C354_disjoint : triTriIntersect combine back unitTri (upright 10) true false none =
      .ok (.seg (pt 10 (-1)) (pt 10 (1 / 3))) ∧
    ∀ p q, InTri unitTri p → InTri (upright 10) q → 9 ^ 2 ≤ sqDist p q := by
  refine ⟨upright_answer combine back 10, ?_⟩
  rintro p q ⟨a, b, c, ka, kb, kc, ks, x1, _, _⟩ ⟨a', b', c', _, _, _, ks', y1, _, _⟩
  simp only [unitTri, upright, pt] at x1 y1
  have hp : p.x ≤ 1 := by linarith
  have hq : q.x = 10 := by rw [y1]; linear_combination 10 * ks'
  unfold sqDist
  nlinarith [sq_nonneg (p.y - q.y), sq_nonneg (p.z - q.z)]

/-- **C354** (violated) the returned segment sticks out of both triangles although they do intersect -/
theorem C354_sticks_out : triTriIntersect combine back unitTri (upright 0.25) true false none =
      .ok (.seg (pt 0.25 (-1)) (pt 0.25 (1 / 3))) ∧
    (∃ q, InTri unitTri q ∧ InTri (upright 0.25) q) ∧
    ¬ InTri unitTri (pt 0.25 (-1)) ∧ ¬ InTri (upright 0.25) (pt 0.25 (-1)) := by
  refine ⟨upright_answer combine back 0.25, ⟨pt 0.25 0, ?_, ?_⟩, ?_, ?_⟩
  · exact ⟨0.75, 0.25, 0, by norm_num, by norm_num, by norm_num, by norm_num, by simp [unitTri, pt], by simp [unitTri, pt], by simp [unitTri, pt]⟩
  · refine ⟨1 / 2, 0, 1 / 2, by norm_num, by norm_num, by norm_num, by norm_num, ?_⟩
    simp only [upright, pt]; norm_num
  · rintro ⟨a, b, c, _, _, _, _, _, h, _⟩
    simp only [unitTri, pt] at h
    linarith
  · rintro ⟨a, b, c, _, _, _, _, _, h, _⟩
    simp only [upright, pt] at h
    linarith

/-- the unit triangle raised by 1 and turned over -/
def flipped : Tri := ⟨pt 0 0 1, pt 0 1 1, pt 1 0 1⟩

/-- **C354** (violated) parallel planes are only recognised when the normals agree: with opposite normals and
`inside=False` the call raises instead of answering `False` -/
theorem C354_opposite : triTriIntersect combine back unitTri flipped false false none = .error .valueError := by
  obtain ⟨B, hB, hn, hz⟩ := unit_basis
  rcases C349_plane flipped with ⟨h', _⟩ | ⟨_, q, n, hN, h0, _, hu, h1, h2, h3, ht⟩
  · exfalso
    have : area2sq flipped = 1 ^ 2 := by simp only [area2sq, flipped, pt]; norm_num
    rw [this, Real.sqrt_sq (by norm_num)] at h'
    unfold eps at h'; norm_num at h'
  have har : √(area2sq flipped) = 1 := by
    have : area2sq flipped = 1 ^ 2 := by simp only [area2sq, flipped, pt]; norm_num
    rw [this, Real.sqrt_sq (by norm_num)]
  rw [har] at ht
  simp only [turn, flipped, pt] at ht
  have hnz : n.z = -1 := by linarith
  rw [tt_eq combine back unitTri flipped false false B hB q n hN]
  have z1 : (app B.fwd flipped.p1).z = 1 := hz 0 0 1
  have z2 : (app B.fwd flipped.p2).z = 1 := hz 0 1 1
  have z3 : (app B.fwd flipped.p3).z = 1 := hz 1 0 1
  have he : eps < 1 := by unfold eps; norm_num
  rw [if_neg, if_neg, if_neg]
  · have none_of : ∀ a b : V4, a.z = 1 → b.z = 1 → lineCardinal ⟨a, b⟩ .xy false = none := by
      intro a b h1 h2
      rcases cardinal_cases ⟨a, b⟩ .xy false with ⟨_, e⟩ | ⟨h', _⟩
      · exact e
      · simp only [height, h1, h2, sub_self, abs_zero] at h'
        linarith [eps_pos]
    unfold ttLine
    simp only [mapTri, none_of _ _ z1 z2, none_of _ _ z2 z3, none_of _ _ z3 z1, orElse, Bool.false_eq_true, if_false]
  · rintro ⟨h, _⟩; cases h
  · intro hv
    simp only [vclose, Geom.close, Geom.mag, Geom.sub, sub_zero, hn, hnz] at hv
    rw [abs_of_nonneg (Real.sqrt_nonneg _)] at hv
    have : (1 : ℝ) ≤ √((0 - n.x) * (0 - n.x) + (0 - n.y) * (0 - n.y) + (1 - -1) * (1 - -1)) := by
      apply Real.le_sqrt_of_sq_le
      nlinarith [mul_self_nonneg (0 - n.x), mul_self_nonneg (0 - n.y)]
    linarith
  · rintro ⟨c, _, _⟩
    simp only [mapTri, z1] at c
    norm_num at c
    linarith

/-- **C354** the hypotheses of `C354_false_partial` are met: an upright triangle lifted above the unit triangle -/
theorem C354_case : ∃ p1 n1 p2 n2, tri2p0n unitTri.p1 unitTri.p2 unitTri.p3 = .ok (p1, n1) ∧
    tri2p0n (pt 0 0 3) (pt 0 1 4) (pt 0 0 1) = .ok (p2, n2) ∧
    eps ^ 2 ≤ (n1.x - n2.x) ^ 2 + (n1.y - n2.y) ^ 2 + (n1.z - n2.z) ^ 2 ∧ eps < |signedPlaneDistance (pt 0 0 3) p1 n1| ∧
    triTriIntersect combine back unitTri ⟨pt 0 0 3, pt 0 1 4, pt 0 0 1⟩ true false none = .ok .no := by
  obtain ⟨B, hB, hn, hz⟩ := unit_basis
  obtain ⟨_, hpn, _⟩ := basis_is hB
  rcases C349_plane ⟨pt 0 0 3, pt 0 1 4, pt 0 0 1⟩ with ⟨h', _⟩ | ⟨_, q, n, hN, h0, _, hu, h1, h2, h3, ht⟩
  · exfalso
    have : area2sq ⟨pt 0 0 3, pt 0 1 4, pt 0 0 1⟩ = 2 ^ 2 := by simp only [area2sq, pt]; norm_num
    rw [this, Real.sqrt_sq (by norm_num)] at h'
    unfold eps at h'; norm_num at h'
  have hnz : n.z = 0 := by
    simp only [OnPlane, pt] at h1 h3
    linarith
  have he : eps < 1 := by unfold eps; norm_num
  have hp := eps_pos
  obtain ⟨_, _, fz, _⟩ := C350_forward unitTri B hB
  have z1 : (app B.fwd (pt 0 0 3)).z = 3 := hz 0 0 3
  have z2 : (app B.fwd (pt 0 1 4)).z = 4 := hz 0 1 4
  have z3 : (app B.fwd (pt 0 0 1)).z = 1 := hz 0 0 1
  have hsq : eps ^ 2 ≤ (B.n.x - n.x) ^ 2 + (B.n.y - n.y) ^ 2 + (B.n.z - n.z) ^ 2 := by
    rw [hn, hnz]
    simp only
    have : eps ^ 2 ≤ 1 := by nlinarith
    nlinarith [sq_nonneg (0 - n.x), sq_nonneg (0 - n.y)]
  refine ⟨B.p0, B.n, q, n, hpn, hN, hsq, ?_, ?_⟩
  · rw [← (fz (pt 0 0 3) rfl).2.1, z1]; norm_num; linarith
  · rw [tt_eq combine back unitTri _ true false B hB q n hN, if_neg, if_neg, if_pos]
    · refine ⟨rfl, Or.inl ⟨?_, ?_, ?_⟩⟩ <;> simp only [mapTri, z1, z2, z3] <;> linarith
    · intro hv
      simp only [vclose, Geom.close, Geom.mag, Geom.sub, sub_zero] at hv
      rw [abs_of_nonneg (Real.sqrt_nonneg _)] at hv
      have : eps ≤ √((B.n.x - n.x) * (B.n.x - n.x) + (B.n.y - n.y) * (B.n.y - n.y) + (B.n.z - n.z) * (B.n.z - n.z)) := by
        apply Real.le_sqrt_of_sq_le
        linarith
      linarith
    · rintro ⟨c, _, _⟩
      simp only [mapTri, z1] at c
      norm_num at c
      linarith

/-- **C354** a second triangle whose corners are all within epsilon of the plane of the first: without `inside` the answer is the second triangle itself, or with `inPlane` its corners in the basis of the first; with `inside`
it is `False` just when the combination of the two triangles in the basis of the first is empty, and otherwise that combination, taken back to the world unless `inPlane` is given -/
theorem C354_coplanar (t1 t2 : Tri) (h2 : Corners t2) (p1 n1 p2 n2 : V4)
    (e1 : tri2p0n t1.p1 t1.p2 t1.p3 = .ok (p1, n1)) (e2 : tri2p0n t2.p1 t2.p2 t2.p3 = .ok (p2, n2))
    (hnear : ∀ q, (q = t2.p1 ∨ q = t2.p2 ∨ q = t2.p3) → |signedPlaneDistance q p1 n1| ≤ eps) :
    triTriIntersect combine back t1 t2 false false none = .ok (.tri t2) ∧
    ∃ B, tri2basis t1 = .ok B ∧
      triTriIntersect combine back t1 t2 false true none = .ok (.tri ⟨app B.fwd t2.p1, app B.fwd t2.p2, app B.fwd t2.p3⟩) ∧
      ∀ g, g = combine ⟨app B.fwd t1.p1, app B.fwd t1.p2, app B.fwd t1.p3⟩ ⟨app B.fwd t2.p1, app B.fwd t2.p2, app B.fwd t2.p3⟩ →
        (g = [] → ∀ k, triTriIntersect combine back t1 t2 true k none = .ok .no) ∧
        (g ≠ [] → triTriIntersect combine back t1 t2 true true none = .ok (.area g) ∧
          triTriIntersect combine back t1 t2 true false none = .ok (.area (back B.inv g))) := by
  obtain ⟨ha, _⟩ := plane_facts e1
  obtain ⟨B, hB, hpn⟩ := (C350_exists t1).2 ha
  rw [e1] at hpn
  injection hpn with hpn
  injection hpn with r1 r2
  subst r1; subst r2
  obtain ⟨_, _, fz, _⟩ := C350_forward t1 B hB
  have z1 := (fz _ h2.1).2.1
  have z2 := (fz _ h2.2.1).2.1
  have z3 := (fz _ h2.2.2).2.1
  have key : ∀ i k, triTriIntersect combine back t1 t2 i k none = .ok (ttFlat combine back (mapTri B.fwd t1) (mapTri B.fwd t2) t2 B.inv i k) := by
    intro i k
    rw [tt_eq combine back t1 t2 i k B hB p2 n2 e2, if_pos]
    refine ⟨?_, ?_, ?_⟩
    · simp only [mapTri, z1]; exact hnear _ (.inl rfl)
    · simp only [mapTri, z2]; exact hnear _ (.inr (.inl rfl))
    · simp only [mapTri, z3]; exact hnear _ (.inr (.inr rfl))
  refine ⟨key false false, B, hB, key false true, ?_⟩
  intro g hg
  change g = combine (mapTri B.fwd t1) (mapTri B.fwd t2) at hg
  constructor
  · intro h k
    rw [key]
    rw [h] at hg
    unfold ttFlat
    rw [if_neg (by simp), ← hg]
  · intro h
    obtain ⟨a, l, rfl⟩ := List.exists_cons_of_ne_nil h
    constructor
    · rw [key]
      unfold ttFlat
      rw [if_neg (by simp), ← hg]
      rfl
    · rw [key]
      unfold ttFlat
      rw [if_neg (by simp), ← hg]
      rfl

/-- **C354** the unit triangle and itself -/
theorem C354_coplanar_case : ∃ p1 n1, tri2p0n unitTri.p1 unitTri.p2 unitTri.p3 = .ok (p1, n1) ∧ Corners unitTri ∧
    ∀ q, (q = unitTri.p1 ∨ q = unitTri.p2 ∨ q = unitTri.p3) → |signedPlaneDistance q p1 n1| ≤ eps := by
  have ha : eps ≤ √(area2sq unitTri) := by rw [unit_area]; unfold eps; norm_num
  obtain ⟨B, hB, hpn⟩ := (C350_exists unitTri).2 ha
  have hc : Corners unitTri := ⟨rfl, rfl, rfl⟩
  obtain ⟨B', hB', _, hz⟩ := unit_basis
  rw [hB] at hB'
  injection hB' with hB'
  subst hB'
  obtain ⟨_, _, fz, _⟩ := C350_forward unitTri B hB
  refine ⟨_, _, hpn, hc, ?_⟩
  have he := eps_pos
  rintro q (rfl | rfl | rfl)
  · rw [← (fz _ hc.1).2.1]
    show |(app B.fwd (pt _ _ _)).z| ≤ eps
    rw [hz]; simpa using he.le
  · rw [← (fz _ hc.2.1).2.1]
    show |(app B.fwd (pt _ _ _)).z| ≤ eps
    rw [hz]; simpa using he.le
  · rw [← (fz _ hc.2.2).2.1]
    show |(app B.fwd (pt _ _ _)).z| ≤ eps
    rw [hz]; simpa using he.le

end Verif.Plane
