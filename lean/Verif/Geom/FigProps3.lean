import Verif.Geom.FigProps2

/-!
# Mirroring and reversing figures, boxes of geometry lists (C119, C43, C40)
-/

namespace Verif.Geom
open Real

/-! ## C119: mirror -/

theorem mirror_rigid (pl : Plane) : Rigid ispoint (fun p => mul4 p (flip pl)) where
  dist_eq p q _ _ := by
    unfold dist mag sub mul4 flip
    cases pl <;> simp only <;> congr 1 <;> ring
  point p h := by
    unfold ispoint mul4 flip at *
    cases pl <;> simpa using h
  line p q u _ _ := by
    unfold sampleline mul4 add scale3 flip
    cases pl <;> ext <;> simp <;> ring

mutual
theorem mirror_map (pl : Plane) : ∀ f : Fig, f.mirror pl = f.mapPts (fun p => mul4 p (flip pl)) (mirrorArc pl)
  | .point p => rfl
  | .line l => rfl
  | .arc a => rfl
  | .poly ps => rfl
  | .list gs => by simp only [Fig.mirror, Fig.mapPts, mirrorList_map pl gs]
theorem mirrorList_map (pl : Plane) : ∀ gs : List Fig,
    mirrorList pl gs = mapPtsList (fun p => mul4 p (flip pl)) (mirrorArc pl) gs
  | [] => rfl
  | g :: gs => by simp only [mirrorList, mapPtsList, mirror_map pl g, mirrorList_map pl gs]
end

/-- `q` is the mirror image of `p` in the coordinate plane -/
def Mirrored (pl : Plane) (p q : V4) : Prop :=
  match pl with
  | .xz => q.x = p.x ∧ q.y = -p.y ∧ q.z = p.z
  | .yz => q.x = -p.x ∧ q.y = p.y ∧ q.z = p.z
  | .xy => q.x = p.x ∧ q.y = p.y ∧ q.z = -p.z

theorem mul4_flip (pl : Plane) (p : V4) : Mirrored pl p (mul4 p (flip pl)) := by
  unfold Mirrored mul4 flip
  cases pl <;> simp

/-- no arcs -/
def NoArc (_ : Arc) : Prop := False

/-- **C119** (figures without arcs) mirroring keeps the length and mirrors every sampled point; doing
it twice gives back the figure -/
theorem C119_mirror_straight_partial (f : Fig) (pl : Plane) (hf : f.Wf) (ha : f.AllArcs NoArc) :
    (f.mirror pl).length = f.length ∧
    (∃ T : V4 → V4, (∀ p, Mirrored pl p (T p)) ∧ ∀ u, (f.mirror pl).sample u = (f.sample u).map (Option.map T)) ∧
    (f.mirror pl).mirror pl = f := by
  have hok : f.AllArcs (ArcOk (fun p => mul4 p (flip pl)) (mirrorArc pl)) := allArcs_mono (fun _ h => h.elim) f ha
  refine ⟨?_, ⟨fun p => mul4 p (flip pl), mul4_flip pl, fun u => ?_⟩, ?_⟩
  · rw [mirror_map]
    exact length_map _ _ (mirror_rigid pl) f hf (allPts_of_wf f hf) hok
  · rw [mirror_map]
    exact sample_map _ _ (mirror_rigid pl) f hf (allPts_of_wf f hf) hok u
  · exact mm pl f ha
where
  mul4_twice (pl : Plane) (p : V4) : mul4 (mul4 p (flip pl)) (flip pl) = p := by
    unfold mul4 flip
    cases pl <;> ext <;> simp
  mm (pl : Plane) : ∀ f : Fig, f.AllArcs NoArc → (f.mirror pl).mirror pl = f
    | .point p, _ => by simp only [Fig.mirror, mul4_twice]
    | .line l, _ => by simp only [Fig.mirror, mul4_twice]
    | .arc a, h => h.elim
    | .poly ps, _ => by
      simp only [Fig.mirror, List.map_map]
      congr 1
      rw [List.map_congr_left (g := id)]
      · simp
      · intro p _
        exact mul4_twice pl p
    | .list gs, h => by
      simp only [Fig.AllArcs] at h
      simp only [Fig.mirror, mml pl gs h]
  mml (pl : Plane) : ∀ gs : List Fig, AllArcsList NoArc gs → mirrorList pl (mirrorList pl gs) = gs
    | [], _ => rfl
    | g :: gs, h => by
      simp only [AllArcsList] at h
      simp only [mirrorList, mm pl g h.1, mml pl gs h.2]

/-- the angle a direction is mirrored about -/
noncomputable def mirrorSum : Plane → ℝ
  | .xz => 0
  | .yz => 180
  | .xy => 0

theorem mirrorAngle_eq (pl : Plane) (hp : pl ≠ .xy) (x : ℝ) : mirrorAngle pl x = mod360 (mirrorSum pl - x) := by
  have h : (mul (dirAt x) (flip pl)).y = sin (deg (mirrorSum pl - x)) ∧
      (mul (dirAt x) (flip pl)).x = cos (deg (mirrorSum pl - x)) := by
    unfold mul dirAt flip pt mirrorSum
    cases pl
    · have e : deg (0 - x) = -(x * (2 * π) / 360) := by unfold deg; ring
      simp only [e, sin_neg, cos_neg]
      constructor <;> ring
    · have e : deg (180 - x) = π - x * (2 * π) / 360 := by unfold deg; ring
      simp only [e, sin_pi_sub, cos_pi_sub]
      constructor <;> ring
    · exact absurd rfl hp
  unfold mirrorAngle
  simp only [h.1, h.2]
  obtain ⟨k, hk⟩ := arg_deg (mirrorSum pl - x)
  rw [hk, modTau_shift, modTau_deg]

theorem wrap_diff {x y D : ℝ} (j : ℤ) (hx : 0 ≤ x ∧ x < 360) (hy : 0 ≤ y ∧ y < 360) (hD : 0 ≤ D ∧ D < 360)
    (h : y - x = D + 360 * j) : (if y < x then y + 360 else y) - x = D := by
  have b1 : (j : ℝ) < 1 := by linarith [hx.1, hy.2, hD.1]
  have b2 : (-2 : ℝ) < j := by linarith [hx.2, hy.1, hD.2]
  have b1' : j < 1 := by exact_mod_cast b1
  have b2' : -2 < j := by exact_mod_cast b2
  have hj : j = 0 ∨ j = -1 := by omega
  split
  · rcases hj with rfl | rfl
    · norm_num at h; linarith [hD.1]
    · push_cast at h; linarith
  · rcases hj with rfl | rfl
    · norm_num at h; linarith
    · push_cast at h; linarith [hD.2]

theorem span_mirror (pl : Plane) (hp : pl ≠ .xy) (a : Arc) (ha : Proper a) :
    (span (mirrorArc pl a)).2 - (span (mirrorArc pl a)).1 = a.e - a.s ∧
    ∃ k : ℤ, (span (mirrorArc pl a)).1 = mirrorSum pl - a.e - 360 * k := by
  have e : mirrorArc pl a = ⟨mul a.c (flip pl), a.r, mod360 (mirrorSum pl - a.e),
      mod360 (mirrorSum pl - a.s), a.rev, a.normal⟩ := by
    unfold mirrorArc
    rw [if_neg (by exact not_circle ha), mirrorAngle_eq pl hp, mirrorAngle_eq pl hp]
  rw [e]
  obtain ⟨x0, x1, k, hk⟩ := mod360_spec (mirrorSum pl - a.e)
  obtain ⟨y0, y1, m, hm⟩ := mod360_spec (mirrorSum pl - a.s)
  have hD : 0 ≤ a.e - a.s ∧ a.e - a.s < 360 := ⟨by linarith [ha.1], ha.2⟩
  unfold span
  simp only
  split
  · rw [mod360_of_mem x0 x1, mod360_of_mem y0 y1]
    have := wrap_diff (k - m) ⟨x0, x1⟩ ⟨y0, y1⟩ hD (by rw [hk, hm]; push_cast; ring)
    split
    · rename_i h
      rw [if_pos h] at this
      exact ⟨this, k, hk⟩
    · rename_i h
      rw [if_neg h] at this
      exact ⟨this, k, hk⟩
  · rename_i h
    have hs : mod360 (mirrorSum pl - a.e) = 0 := by
      by_contra h0
      exact h ⟨h0, by linarith⟩
    refine ⟨?_, k, hk⟩
    simp only [hs, sub_zero]
    rw [hs] at hk
    exact mod360_unique k hD.1 hD.2 (by linarith)

theorem circlePoint_mirror (pl : Plane) (hp : pl ≠ .xy) (c : V4) (r x : ℝ) :
    circlePoint (mul c (flip pl)) r (mirrorSum pl - x) = mul4 (circlePoint c r x) (flip pl) := by
  unfold circlePoint mirrorSum
  cases pl
  · have e : (0 - x) * (2 * π) / 360 = -(x * (2 * π) / 360) := by ring
    simp only [e, sin_neg, cos_neg]
    unfold mul mul4 add scale3 pt flip
    ext <;> simp <;> ring
  · have e : (180 - x) * (2 * π) / 360 = π - x * (2 * π) / 360 := by ring
    simp only [e, sin_pi_sub, cos_pi_sub]
    unfold mul mul4 add scale3 pt flip
    ext <;> simp <;> ring
  · exact absurd rfl hp

/-- **C119** (arcs, mirrored in the xz or yz plane) the mirrored arc consists of the mirror images of
the samples of the arc, traversed in the opposite direction -/
theorem C119_mirror_arc_partial (a : Arc) (pl : Plane) (hp : pl ≠ .xy) (ha : Proper a) (u : ℝ) :
    ∃ T : V4 → V4, (∀ p, Mirrored pl p (T p)) ∧
      (Fig.mirror pl (.arc a)).sample u = ((Fig.arc a).sample (1 - u)).map (Option.map T) := by
  refine ⟨fun p => mul4 p (flip pl), mul4_flip pl, ?_⟩
  obtain ⟨hD, k, hk⟩ := span_mirror pl hp a ha
  simp only [Fig.mirror, Fig.sample]
  obtain ⟨j, hj⟩ := sample_angle_proper a ha (1 - u)
  have hr : (mirrorArc pl a).rev = a.rev ∧ (mirrorArc pl a).c = mul a.c (flip pl) ∧ (mirrorArc pl a).r = a.r ∧
      (mirrorArc pl a).normal = a.normal := by unfold mirrorArc; split <;> exact ⟨rfl, rfl, rfl, rfl⟩
  have hn : normalOk (mirrorArc pl a) ↔ normalOk a := by unfold normalOk; rw [hr.2.2.2]
  unfold samplearc
  by_cases h : normalOk a
  · rw [if_pos h, if_pos (hn.mpr h)]
    simp only [Except.map, Option.map_some, Except.ok.injEq, Option.some.injEq]
    rw [hj, circlePoint_shift, ← circlePoint_mirror pl hp, hr.2.1, hr.2.2.1]
    unfold sampleAngle
    simp only
    rw [circlePoint_mod, hr.1, hD, hk]
    rw [← circlePoint_shift _ _ (mirrorSum pl - _) k]
    congr 1
    cases a.rev
    · simp only [Bool.false_eq_true, if_false]; ring
    · simp only [if_true]; ring
  · rw [if_neg h, if_neg (fun h' => h (hn.mp h'))]
    rfl

example : Proper ⟨pt 1 2, 3, 10, 80, true, none⟩ ∧ Plane.yz ≠ .xy := by
  refine ⟨by unfold Proper; norm_num, by decide⟩

/-- **C119 fails** for arcs mirrored in the xy plane: start and end are exchanged although nothing
changes in the plane, so the quarter circle from 10° to 100° becomes the other three quarters: its
middle goes from 55° to 235° -/
theorem C119_xy_complement : ∃ p q,
    (Fig.arc ⟨pt 0 0, 1, 10, 100, false, none⟩).sample (1 / 2) = .ok (some p) ∧ AtAngle (pt 0 0) 1 55 p ∧
    ((Fig.arc ⟨pt 0 0, 1, 10, 100, false, none⟩).mirror .xy).sample (1 / 2) = .ok (some q) ∧
      AtAngle (pt 0 0) 1 235 q := by
  have ang : ∀ x, mirrorAngle .xy x = mod360 x := by
    intro x
    unfold mirrorAngle mul dirAt flip pt
    simp only [mul_one]
    have := arg_deg x
    obtain ⟨k, hk⟩ := this
    unfold deg at hk
    rw [hk]
    have h2 := modTau_shift (deg x) k
    unfold deg at h2
    rw [h2]
    exact modTau_deg x
  have hc : mul (pt 0 0) (flip .xy) = pt 0 0 := by unfold mul flip pt; simp
  have e : mirrorArc .xy ⟨pt 0 0, 1, 10, 100, false, none⟩ = ⟨pt 0 0, 1, 100, 10, false, none⟩ := by
    unfold mirrorArc
    rw [if_neg (by norm_num), hc, ang, ang, mod360_of_mem (by norm_num) (by norm_num),
      mod360_of_mem (by norm_num) (by norm_num)]
  have hn : ∀ s e, normalOk ⟨pt 0 0, 1, s, e, false, none⟩ := by intro s e; unfold normalOk; simp
  have s1 : span ⟨pt 0 0, 1, 10, 100, false, none⟩ = (10, 100) := by
    unfold span
    rw [if_pos (by norm_num)]
    simp only
    rw [mod360_of_mem (by norm_num) (by norm_num), mod360_of_mem (by norm_num) (by norm_num), if_neg (by norm_num)]
  have s2 : span ⟨pt 0 0, 1, 100, 10, false, none⟩ = (100, 370) := by
    unfold span
    rw [if_pos (by norm_num)]
    simp only
    rw [mod360_of_mem (by norm_num) (by norm_num), mod360_of_mem (by norm_num) (by norm_num), if_pos (by norm_num)]
    norm_num
  refine ⟨circlePoint (pt 0 0) 1 (mod360 55), circlePoint (pt 0 0) 1 (mod360 235), ?_, ?_, ?_, ?_⟩
  · simp only [Fig.sample]
    unfold samplearc
    rw [if_pos (hn _ _)]
    unfold sampleAngle
    rw [s1]; norm_num
  · rw [circlePoint_mod]; exact circlePoint_spec _ _ _
  · simp only [Fig.mirror, Fig.sample, e]
    unfold samplearc
    rw [if_pos (hn _ _)]
    unfold sampleAngle
    rw [s2]; norm_num
  · rw [circlePoint_mod]; exact circlePoint_spec _ _ _

/-- consecutive members meet: `sample` of one at 1 is `sample` of the next at 0 -/
def Joined (f g : Fig) : Prop := ∃ p q, f.sample 1 = .ok (some p) ∧ g.sample 0 = .ok (some q) ∧ Same3 p q

/-- **C119 fails** for contours: mirroring reverses the direction of arcs but not of lines, so a line
followed by an arc that starts where the line ends is torn apart -/
theorem C119_contour_torn :
    Joined (.line ⟨pt 2 0, pt 1 0⟩) (.arc ⟨pt 0 0, 1, 0, 90, false, none⟩) ∧
    ¬ Joined ((Fig.line ⟨pt 2 0, pt 1 0⟩).mirror .xz) ((Fig.arc ⟨pt 0 0, 1, 0, 90, false, none⟩).mirror .xz) := by
  have hpr : Proper ⟨pt 0 0, 1, 0, 90, false, none⟩ := by unfold Proper; norm_num
  have hn : normalOk ⟨pt 0 0, 1, 0, 90, false, none⟩ := by unfold normalOk; simp
  obtain ⟨⟨p0, h0, a0⟩, ⟨p1, h1, a1⟩⟩ := C109_endpoints ⟨pt 0 0, 1, 0, 90, false, none⟩ rfl
  simp only [Bool.false_eq_true, if_false] at a0 a1
  constructor
  · refine ⟨_, p0, rfl, ?_, ?_⟩
    · simp only [Fig.sample, h0]
    · obtain ⟨x, y, z⟩ := a0
      have e : deg 0 = 0 := by unfold deg; ring
      rw [e] at x y
      simp only [pt, cos_zero, sin_zero] at x y z
      unfold sampleline add scale3 pt Same3
      simp only
      refine ⟨by rw [x]; norm_num, by rw [y]; norm_num, by rw [z]; norm_num⟩
  · rintro ⟨p, q, hp, hq, hs⟩
    obtain ⟨T, hT, hm⟩ := C119_mirror_arc_partial ⟨pt 0 0, 1, 0, 90, false, none⟩ .xz (by simp) hpr 0
    rw [hm] at hq
    simp only [Fig.sample, sub_zero, h1, Except.map, Option.map_some, Except.ok.injEq, Option.some.injEq] at hq
    simp only [Fig.mirror, Fig.sample, Except.ok.injEq, Option.some.injEq] at hp
    have hx := (hT p1).1
    rw [hq, a1.1] at hx
    have e : deg 90 = π / 2 := by unfold deg; ring
    rw [e, cos_pi_div_two] at hx
    have h2 := hs.1
    rw [hx, ← hp] at h2
    unfold sampleline add scale3 mul4 flip pt at h2
    norm_num at h2

end Verif.Geom
