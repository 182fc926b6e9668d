import Verif.Geom.FigProps

/-!
# Rotating and mirroring whole figures (C118, C119)
-/

namespace Verif.Geom
open Real

/-- a point in the plane `w = 1` -/
def W1 (p : V4) : Prop := p.w = 1

theorem dist_sqrt (p q : V4) : dist p q = √(sqDist p q) := by
  unfold dist mag sub sqDist
  congr 1; simp only; ring

theorem rotMap_rigid (c u : V4) (r : ℝ) (hu : UnitV u) : Rigid W1 (rotMap c u r) where
  dist_eq p q hp hq := by rw [dist_sqrt, dist_sqrt, rotMap_dist c u r p q hp hq hu]
  point p hp := by
    have : (rotMap c u r p).w = p.w := rfl
    unfold ispoint; rw [this, hp]; norm_num
  line p q t hp hq := by
    unfold W1 at hp hq
    unfold sampleline rotMap rotCoord add scale3
    simp only [hp, hq]
    ext <;> simp <;> ring

/-- the change of an arc under `rotate` -/
noncomputable def rotArc (M : Xform.Mat ℝ) (ang : ℝ) (a : Arc) : Arc :=
  { a with c := mulP M a.c, s := a.s + ang, e := a.e + ang }

/-- an arc that sweeps at most one turn counter-clockwise from start to end as given, and is not a
full circle -/
def Proper (a : Arc) : Prop := a.s ≤ a.e ∧ a.e - a.s < 360

theorem not_circle {a : Arc} (h : Proper a) : ¬ iscircle a := by
  rintro ⟨h1, h2⟩
  unfold Proper at h
  rw [h1, h2] at h
  linarith [h.2]

theorem mod360_shift (x : ℝ) (k : ℤ) : mod360 (x + 360 * k) = mod360 x := by
  obtain ⟨h0, h1, m, hm⟩ := mod360_spec x
  exact mod360_unique (m + k) h0 h1 (by rw [hm]; push_cast; ring)

/-- the extent of a proper arc after normalisation is its extent as given -/
theorem span_proper (a : Arc) (h : Proper a) : (span a).2 - (span a).1 = a.e - a.s := by
  obtain ⟨h1, h2⟩ := h
  unfold span
  split
  · obtain ⟨s0, s1, k, hk⟩ := mod360_spec a.s
    obtain ⟨e0, e1, m, hm⟩ := mod360_spec a.e
    simp only
    have key : ∀ j : ℤ, mod360 a.e - mod360 a.s = a.e - a.s + 360 * (j : ℝ) → -360 < mod360 a.e - mod360 a.s →
        mod360 a.e - mod360 a.s < 360 → j = 0 ∨ j = -1 := by
      intro j hj l1 l2
      have b1 : (j : ℝ) < 1 := by linarith
      have b2 : (-2 : ℝ) < j := by linarith
      have b1' : j < 1 := by exact_mod_cast b1
      have b2' : -2 < j := by exact_mod_cast b2
      omega
    have hj := key (k - m) (by rw [hk, hm]; push_cast; ring) (by linarith) (by linarith)
    have he : mod360 a.e - mod360 a.s = a.e - a.s + 360 * ((k - m : ℤ) : ℝ) := by rw [hk, hm]; push_cast; ring
    split
    · rename_i hlt
      simp only
      rcases hj with hj | hj
      · rw [hj] at he; norm_num at he; linarith
      · rw [hj] at he; push_cast at he; linarith
    · rename_i hlt
      simp only
      rcases hj with hj | hj
      · rw [hj] at he; norm_num at he; linarith
      · rw [hj] at he; push_cast at he; linarith
  · rfl

theorem sample_angle_proper (a : Arc) (h : Proper a) (u : ℝ) : ∃ k : ℤ,
    sampleAngle a u = (a.e - a.s) * (if a.rev then 1 - u else u) + a.s - 360 * k := by
  obtain ⟨k, m, hk, -⟩ := span_mod a
  obtain ⟨-, -, j, hj⟩ := mod360_spec (((span a).2 - (span a).1) * (if a.rev then 1 - u else u) + (span a).1)
  refine ⟨j + k, ?_⟩
  unfold sampleAngle
  simp only
  rw [hj, span_proper a h, hk]
  push_cast; ring

theorem circlePoint_shift (p : V4) (r x : ℝ) (k : ℤ) : circlePoint p r (x - 360 * k) = circlePoint p r x := by
  rw [← circlePoint_mod p r x, ← circlePoint_mod p r (x - 360 * k)]
  congr 1
  have := mod360_shift (x - 360 * k) k
  rw [← this]; congr 1; ring

theorem rotMap_circle (c p : V4) (r ang x : ℝ) (hp : p.w = 1) :
    circlePoint (rotMap c (pt 0 0 1) (deg ang) p) r (x + ang) =
      rotMap c (pt 0 0 1) (deg ang) (circlePoint p r x) := by
  have e : (x + ang) * (2 * π) / 360 = x * (2 * π) / 360 + deg ang := by unfold deg; ring
  unfold circlePoint
  simp only [e, cos_add, sin_add]
  unfold rotMap rotCoord add scale3 pt
  simp only [hp]
  ext <;> simp <;> ring

/-- proper arcs whose centre is in the plane `w = 1` -/
def Proper1 (a : Arc) : Prop := Proper a ∧ a.c.w = 1

theorem rotArc_ok (c : V4) (M : Xform.Mat ℝ) (ang : ℝ) (hm : ∀ p, mulP M p = rotMap c (pt 0 0 1) (deg ang) p)
    (a : Arc) (ha : Proper1 a) : ArcOk (rotMap c (pt 0 0 1) (deg ang)) (rotArc M ang) a := by
  have hp' : Proper (rotArc M ang a) := by
    obtain ⟨h1, h2⟩ := ha.1
    unfold rotArc Proper
    simp only
    exact ⟨by linarith, by linarith⟩
  constructor
  · have key : ∀ b : Arc, Proper b → arclength b = 2 * π * b.r * (b.e - b.s) / 360 := by
      intro b hb
      unfold arclength
      rw [if_neg (not_circle hb)]
      simp only
      have := span_proper b hb
      congr 2
      obtain ⟨s0, s1, k, hk⟩ := mod360_spec b.s
      obtain ⟨e0, e1, m, hm⟩ := mod360_spec b.e
      obtain ⟨h1, h2⟩ := hb
      have he : mod360 b.e - mod360 b.s = b.e - b.s + 360 * ((k - m : ℤ) : ℝ) := by rw [hk, hm]; push_cast; ring
      have b1 : ((k - m : ℤ) : ℝ) < 1 := by linarith
      have b2 : (-2 : ℝ) < ((k - m : ℤ) : ℝ) := by linarith
      have b1' : k - m < 1 := by exact_mod_cast b1
      have b2' : -2 < k - m := by exact_mod_cast b2
      have hj : k - m = 0 ∨ k - m = -1 := by omega
      split
      · rcases hj with hj | hj
        · rw [hj] at he; norm_num at he; linarith
        · rw [hj] at he; push_cast at he; linarith
      · rcases hj with hj | hj
        · rw [hj] at he; norm_num at he; linarith
        · rw [hj] at he; push_cast at he; linarith
    rw [key a ha.1, key _ hp']
    unfold rotArc
    simp only
    ring
  · intro u
    obtain ⟨k, hk⟩ := sample_angle_proper a ha.1 u
    obtain ⟨j, hj⟩ := sample_angle_proper (rotArc M ang a) hp' u
    unfold samplearc
    by_cases hn : normalOk a
    · rw [if_pos hn, if_pos (by exact hn)]
      simp only [Except.map, Except.ok.injEq]
      rw [hk, hj, circlePoint_shift, circlePoint_shift, ← rotMap_circle c _ _ ang _ ha.2, ← hm]
      unfold rotArc
      simp only
      congr 1; ring
    · rw [if_neg hn, if_neg (by exact hn)]
      rfl

mutual
theorem rotateWith_map (M : Xform.Mat ℝ) (ang : ℝ) : ∀ f : Fig, f.AllArcs Proper1 →
    f.rotateWith M ang (pt 0 0 1) = .ok (f.mapPts (mulP M) (rotArc M ang))
  | .point p, _ => rfl
  | .line l, _ => rfl
  | .arc a, h => by
    simp only [Fig.AllArcs] at h
    simp only [Fig.rotateWith]
    rw [if_neg (not_not.mpr (vclose_self ⟨rfl, rfl, rfl⟩)), if_neg (not_circle h.1)]
    rfl
  | .poly ps, _ => rfl
  | .list gs, h => by
    simp only [Fig.AllArcs] at h
    simp only [Fig.rotateWith, rotateList_map M ang gs h, Fig.mapPts]
theorem rotateList_map (M : Xform.Mat ℝ) (ang : ℝ) : ∀ gs : List Fig, AllArcsList Proper1 gs →
    rotateList M ang (pt 0 0 1) gs = .ok (mapPtsList (mulP M) (rotArc M ang) gs)
  | [], _ => rfl
  | g :: gs, h => by
    simp only [AllArcsList] at h
    simp only [rotateList, rotateWith_map M ang g h.1, rotateList_map M ang gs h.2, mapPtsList]
end

mutual
theorem allArcs_mono {P Q : Arc → Prop} (h : ∀ a, P a → Q a) : ∀ f : Fig, f.AllArcs P → f.AllArcs Q
  | .point _, _ => trivial
  | .line _, _ => trivial
  | .arc a, hw => h a hw
  | .poly _, _ => trivial
  | .list gs, hw => by
    simp only [Fig.AllArcs] at hw ⊢
    exact allArcsList_mono h gs hw
theorem allArcsList_mono {P Q : Arc → Prop} (h : ∀ a, P a → Q a) : ∀ gs : List Fig, AllArcsList P gs → AllArcsList Q gs
  | [], _ => trivial
  | g :: gs, hw => by
    simp only [AllArcsList] at hw ⊢
    exact ⟨allArcs_mono h g hw.1, allArcsList_mono h gs hw.2⟩
end

/-- **C118** (figures whose arcs are given with start ≤ end < start+360) rotating about the z axis
through a centre succeeds, keeps the length, and turns every sampled point about that centre by the
given angle: sampling the rotated figure at `u` is rotating the sample at `u` -/
theorem C118_rotate_figure_partial (f : Fig) (ang : ℝ) (c : V4) (hf : f.Wf) (hw : f.AllPts W1)
    (ha : f.AllArcs Proper1) (hc : GoodCentre c) (hang : ¬ close ang 0) :
    ∃ (g : Fig) (T : V4 → V4), f.rotate ang c = .ok g ∧ g.length = f.length ∧
      (∀ p, p.w = 1 → Turned c (pt 0 0 1) (deg ang) p (T p)) ∧
      ∀ u, g.sample u = (f.sample u).map (Option.map T) := by
  have hu : UnitV (pt 0 0 1) := by unfold UnitV pt; norm_num
  obtain ⟨M, hM, hm⟩ := rotateMat_ok (pt 0 0 1) c hu hc ang
  have hfun : mulP M = rotMap c (pt 0 0 1) (deg ang) := funext hm
  have hok := allArcs_mono (rotArc_ok c M ang hm) f ha
  have hr := rotMap_rigid c (pt 0 0 1) (deg ang) hu
  refine ⟨f.mapPts (mulP M) (rotArc M ang), rotMap c (pt 0 0 1) (deg ang), ?_, ?_, ?_, fun u => ?_⟩
  · unfold Fig.rotate
    rw [if_neg hang, hM]
    exact rotateWith_map M ang f ha
  · rw [hfun]
    exact length_map _ _ hr f hf hw hok
  · exact fun p hp => rotMap_turned c (pt 0 0 1) (deg ang) p hp hu
  · rw [hfun]
    exact sample_map _ _ hr f hf hw hok u

/-- a figure with a line, a polyline and an arc meeting the hypotheses of C118 -/
example : (Fig.list [.line ⟨pt 0 0, pt 1 0⟩, .poly [pt 0 0, pt 1 0, pt 1 1], .arc ⟨pt 0 0, 1, 350, 370, true, none⟩]).Wf ∧
    (Fig.list [.line ⟨pt 0 0, pt 1 0⟩, .poly [pt 0 0, pt 1 0, pt 1 1], .arc ⟨pt 0 0, 1, 350, 370, true, none⟩]).AllPts W1 ∧
    (Fig.list [.line ⟨pt 0 0, pt 1 0⟩, .poly [pt 0 0, pt 1 0, pt 1 1],
      .arc ⟨pt 0 0, 1, 350, 370, true, none⟩]).AllArcs Proper1 := by
  refine ⟨?_, ?_, ?_⟩
  · simp [Fig.Wf, WfList, Fig.isPoint, ispoint, pt, isarc, ispoly]
  · simp [Fig.AllPts, AllPtsList, pt, W1]
  · simp [Fig.AllArcs, AllArcsList, Proper1, Proper, pt]
    norm_num

/-- **C118 fails** for an arc through the zero direction given as 350° → 10°: rotated by −350° it
becomes 0° → −340°, which is sampled clockwise over 340° instead of counter-clockwise over 20°: the
middle of the arc, at 10° after the rotation, is at −170° -/
theorem C118_wrapped_arc : ∃ g p q,
    (Fig.arc ⟨pt 0 0, 1, 350, 10, false, none⟩).rotate (-350) = .ok g ∧
    (Fig.arc ⟨pt 0 0, 1, 350, 10, false, none⟩).sample (1 / 2) = .ok (some p) ∧ AtAngle (pt 0 0) 1 0 p ∧
    g.sample (1 / 2) = .ok (some q) ∧ AtAngle (pt 0 0) 1 (-170) q ∧ ¬ AtAngle (pt 0 0) 1 10 q := by
  have hu : UnitV (pt 0 0 1) := by unfold UnitV pt; norm_num
  obtain ⟨M, hM, hm⟩ := rotateMat_ok (pt 0 0 1) (pt 0 0) hu (Or.inl ⟨rfl, rfl, rfl⟩) (-350)
  have hc : mulP M (pt 0 0) = pt 0 0 := by
    rw [hm]
    unfold rotMap rotCoord pt
    simp
  have hn : ∀ s e, normalOk ⟨pt 0 0, 1, s, e, false, none⟩ := by intro s e; unfold normalOk; simp
  have hspan : span ⟨pt 0 0, 1, 350, 10, false, none⟩ = (350, 370) := by
    unfold span
    rw [if_pos (by norm_num)]
    simp only
    rw [mod360_of_mem (by norm_num) (by norm_num), mod360_of_mem (by norm_num) (by norm_num), if_pos (by norm_num)]
    norm_num
  have hspan' : span ⟨pt 0 0, 1, 0, -340, false, none⟩ = (0, -340) := by
    unfold span
    rw [if_neg (by norm_num)]
  have hq : AtAngle (pt 0 0) 1 (-170) (circlePoint (pt 0 0) 1 (mod360 (-170))) := by
    rw [circlePoint_mod]; exact circlePoint_spec _ _ _
  refine ⟨.arc ⟨pt 0 0, 1, 0, -340, false, none⟩, circlePoint (pt 0 0) 1 (mod360 360),
    circlePoint (pt 0 0) 1 (mod360 (-170)), ?_, ?_, ?_, ?_, hq, ?_⟩
  · unfold Fig.rotate
    rw [if_neg (by unfold close eps; norm_num), hM]
    simp only [Fig.rotateWith]
    rw [if_neg (not_not.mpr (vclose_self ⟨rfl, rfl, rfl⟩)), if_neg (by unfold iscircle; norm_num)]
    rw [hc]
    norm_num
  · simp only [Fig.sample]
    unfold samplearc
    rw [if_pos (hn _ _)]
    unfold sampleAngle
    rw [hspan]
    norm_num
  · rw [circlePoint_mod]
    have := circlePoint_shift (pt 0 0) 1 360 1
    norm_num at this
    rw [← this]
    exact circlePoint_spec _ _ _
  · simp only [Fig.sample]
    unfold samplearc
    rw [if_pos (hn _ _)]
    unfold sampleAngle
    rw [hspan']
    norm_num
  · intro h
    have h1 := h.1
    rw [hq.1] at h1
    have e : deg (-170) = deg 10 - π := by unfold deg; ring
    rw [e, cos_sub_pi] at h1
    have : cos (deg 10) = 0 := by simp only [pt] at h1; linarith
    have pos : 0 < cos (deg 10) := by
      apply cos_pos_of_mem_Ioo
      unfold deg
      constructor <;> nlinarith [pi_pos]
    linarith

end Verif.Geom
