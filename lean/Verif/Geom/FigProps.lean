import Verif.Geom.FigMap
import Verif.Xform.Props

/-!
# Moving figures: translate, rotate, scale, mirror (C38, C117 – C120)
-/

namespace Verif.Geom
open Real

/-! ## coordinates of matrix products -/

theorem mulP_mul (A B : Xform.Mat ℝ) (p : V4) : mulP (A.mul B) p = mulP A (mulP B p) := by
  unfold mulP
  rw [(Xform.C37_laws A B A (toVec p)).1]
  congr 2
  funext i
  fin_cases i <;> rfl

theorem mulP_trans (c p : V4) : mulP (Xform.translation (toVec c)) p =
    ⟨p.x + c.x * p.w, p.y + c.y * p.w, p.z + c.z * p.w, p.w⟩ := by
  unfold mulP
  rw [(Xform.C37_translation (toVec c) (toVec p)).1]
  rfl

theorem mulP_trans_inv (c p : V4) : mulP (Xform.translation (toVec c) true) p =
    ⟨p.x - c.x * p.w, p.y - c.y * p.w, p.z - c.z * p.w, p.w⟩ := by
  have h : Xform.translation (toVec c) true = Xform.translation (toVec ⟨-c.x, -c.y, -c.z, 1⟩) := by
    unfold Xform.translation Xform.scale3 toVec
    simp
  rw [h, mulP_trans]
  ext <;> simp <;> ring

/-- the rotation about the origin by `r` radians around the axis `u`, in coordinates -/
noncomputable def rotCoord (u : V4) (r : ℝ) (p : V4) : V4 :=
  ⟨(cos r + u.x * u.x * (1 - cos r)) * p.x + (u.x * u.y * (1 - cos r) - u.z * sin r) * p.y +
      (u.x * u.z * (1 - cos r) + u.y * sin r) * p.z,
   (u.y * u.x * (1 - cos r) + u.z * sin r) * p.x + (cos r + u.y * u.y * (1 - cos r)) * p.y +
      (u.y * u.z * (1 - cos r) - u.x * sin r) * p.z,
   (u.z * u.x * (1 - cos r) - u.y * sin r) * p.x + (u.z * u.y * (1 - cos r) + u.x * sin r) * p.y +
      (cos r + u.z * u.z * (1 - cos r)) * p.z,
   p.w⟩

theorem mulP_rot (u : V4) (r : ℝ) (p : V4) : mulP (Xform.rotMat (toVec u) r) p = rotCoord u r p := by
  unfold mulP ofVec rotCoord
  simp only [Xform.mulVec_get, Xform.dot4, Xform.getrow_eq]
  ext <;> simp [Xform.rotMat, Xform.Mat.get, Xform.Mat.ofRows, toVec]

theorem mulP_scale (sx sy sz : ℝ) (S : Xform.Mat ℝ) (h : Xform.scale (.nums sx (some sy) (some sz)) = some S)
    (p : V4) : mulP S p = ⟨sx * p.x, sy * p.y, sz * p.z, p.w⟩ := by
  obtain ⟨S', h1, h2⟩ := (Xform.C37_scale (.nums sx (some sy) (some sz)) (toVec p)).1
  rw [h1] at h
  injection h with h
  subst h
  unfold mulP
  rw [h2]
  rfl

/-! ## C38: rotation about a centre -/

/-- the vector product -/
def crossV (a b : V4) : V4 := ⟨a.y * b.z - a.z * b.y, a.z * b.x - a.x * b.z, a.x * b.y - a.y * b.x, 1⟩

/-- `q` is `p` turned by `r` radians about the axis through `c` with unit direction `u`
(Rodrigues' formula for the displacement from `c`) -/
def Turned (c u : V4) (r : ℝ) (p q : V4) : Prop :=
  let d := sub p c
  let k := dot u d * (1 - cos r)
  q.x - c.x = d.x * cos r + (crossV u d).x * sin r + u.x * k ∧
  q.y - c.y = d.y * cos r + (crossV u d).y * sin r + u.y * k ∧
  q.z - c.z = d.z * cos r + (crossV u d).z * sin r + u.z * k

/-- unit vector -/
def UnitV (u : V4) : Prop := u.x * u.x + u.y * u.y + u.z * u.z = 1

theorem rotation_ok (u : V4) (hu : UnitV u) (ang : ℝ) :
    Xform.rotation (toVec u) ang = .ok (Xform.rotMat (toVec u) (deg ang)) := by
  obtain ⟨R, h1, h2, -⟩ := Xform.C37_rotation_unit (toVec u) hu ang
  rw [h1, h2]; rfl

/-- the map applied by `rotate` to each point -/
noncomputable def rotMap (c u : V4) (r : ℝ) (p : V4) : V4 :=
  let q := rotCoord u r ⟨p.x - c.x * p.w, p.y - c.y * p.w, p.z - c.z * p.w, p.w⟩
  ⟨q.x + c.x * q.w, q.y + c.y * q.w, q.z + c.z * q.w, q.w⟩

theorem rotMap_origin (u : V4) (r : ℝ) (c p : V4) (h : Same3 c (pt 0 0)) : rotMap c u r p = rotCoord u r p := by
  obtain ⟨h1, h2, h3⟩ := h
  simp only [pt] at h1 h2 h3
  unfold rotMap
  simp only [h1, h2, h3, zero_mul, sub_zero, add_zero]

/-- a centre `rotate` treats correctly: the origin or at least epsilon away from it -/
def GoodCentre (c : V4) : Prop := Same3 c (pt 0 0) ∨ ¬ vclose c (pt 0 0)

theorem vclose_self {c d : V4} (h : Same3 c d) : vclose c d := by
  unfold vclose close mag sub
  obtain ⟨h1, h2, h3⟩ := h
  simp only [h1, h2, h3, sub_self]
  simp [eps_pos]

theorem rotateMat_ok (u c : V4) (hu : UnitV u) (hc : GoodCentre c) (ang : ℝ) :
    ∃ M, rotateMat ang c u = .ok M ∧ ∀ p, mulP M p = rotMap c u (deg ang) p := by
  unfold rotateMat
  rw [rotation_ok u hu]
  simp only
  rcases hc with h | h
  · rw [if_pos (vclose_self h)]
    refine ⟨_, rfl, fun p => ?_⟩
    rw [mulP_rot, rotMap_origin u _ c p h]
  · rw [if_neg h]
    refine ⟨_, rfl, fun p => ?_⟩
    rw [mulP_mul, mulP_mul, mulP_trans_inv, mulP_rot, mulP_trans]
    rfl

theorem rotMap_turned (c u : V4) (r : ℝ) (p : V4) (hp : p.w = 1) (hu : UnitV u) : Turned c u r p (rotMap c u r p) := by
  unfold UnitV at hu
  unfold Turned rotMap rotCoord crossV dot sub
  simp only [hp]
  refine ⟨?_, ?_, ?_⟩ <;> ring

theorem rotMap_dist (c u : V4) (r : ℝ) (p q : V4) (hp : p.w = 1) (hq : q.w = 1) (hu : UnitV u) :
    sqDist (rotMap c u r p) (rotMap c u r q) = sqDist p q := by
  obtain ⟨a1, a2, a3⟩ := rotMap_turned c u r p hp hu
  obtain ⟨b1, b2, b3⟩ := rotMap_turned c u r q hq hu
  unfold UnitV at hu
  have cs := sin_sq_add_cos_sq r
  unfold sqDist
  have e1 : (rotMap c u r p).x - (rotMap c u r q).x = (p.x - q.x) * cos r +
      (u.y * (p.z - q.z) - u.z * (p.y - q.y)) * sin r +
      u.x * ((u.x * (p.x - q.x) + u.y * (p.y - q.y) + u.z * (p.z - q.z)) * (1 - cos r)) := by
    rw [show (rotMap c u r p).x - (rotMap c u r q).x =
      ((rotMap c u r p).x - c.x) - ((rotMap c u r q).x - c.x) by ring, a1, b1]
    unfold sub crossV dot; ring
  have e2 : (rotMap c u r p).y - (rotMap c u r q).y = (p.y - q.y) * cos r +
      (u.z * (p.x - q.x) - u.x * (p.z - q.z)) * sin r +
      u.y * ((u.x * (p.x - q.x) + u.y * (p.y - q.y) + u.z * (p.z - q.z)) * (1 - cos r)) := by
    rw [show (rotMap c u r p).y - (rotMap c u r q).y =
      ((rotMap c u r p).y - c.y) - ((rotMap c u r q).y - c.y) by ring, a2, b2]
    unfold sub crossV dot; ring
  have e3 : (rotMap c u r p).z - (rotMap c u r q).z = (p.z - q.z) * cos r +
      (u.x * (p.y - q.y) - u.y * (p.x - q.x)) * sin r +
      u.z * ((u.x * (p.x - q.x) + u.y * (p.y - q.y) + u.z * (p.z - q.z)) * (1 - cos r)) := by
    rw [show (rotMap c u r p).z - (rotMap c u r q).z =
      ((rotMap c u r p).z - c.z) - ((rotMap c u r q).z - c.z) by ring, a3, b3]
    unfold sub crossV dot; ring
  rw [e1, e2, e3]
  generalize p.x - q.x = x
  generalize p.y - q.y = y
  generalize p.z - q.z = z
  generalize hC : cos r = C at *
  generalize hS : sin r = S at *
  generalize hx : u.x = a at *
  generalize hy : u.y = b at *
  generalize hz : u.z = d at *
  have hS2 : S ^ 2 = 1 - C ^ 2 := by linarith
  have ha : a ^ 2 = 1 - b * b - d * d := by linarith
  linear_combination (x ^ 2 + y ^ 2 + z ^ 2 - (a * x + b * y + d * z) ^ 2) * cs +
    ((a * x + b * y + d * z) ^ 2 * (1 - C) ^ 2 + S ^ 2 * (x ^ 2 + y ^ 2 + z ^ 2)) * hu

/-- **C38** (rotation) `rotate` about a centre turns every point about the axis through that centre by
the given angle in degrees; the centre stays where it is and all distances are preserved -/
theorem C38_rotate (c u : V4) (ang : ℝ) (hu : UnitV u) (hc : GoodCentre c) (hang : ¬ close ang 0) :
    (∀ p, p.w = 1 → ∃ q, (Fig.point p).rotate ang c u = .ok (.point q) ∧ Turned c u (deg ang) p q) ∧
    (∀ p, p.w = 1 → Same3 p c → ∃ q, (Fig.point p).rotate ang c u = .ok (.point q) ∧ Same3 q c) ∧
    (∀ p p' q q', p.w = 1 → p'.w = 1 → (Fig.point p).rotate ang c u = .ok (.point q) →
      (Fig.point p').rotate ang c u = .ok (.point q') → sqDist q q' = sqDist p p') := by
  obtain ⟨M, hM, hm⟩ := rotateMat_ok u c hu hc ang
  have key : ∀ p, (Fig.point p).rotate ang c u = .ok (.point (rotMap c u (deg ang) p)) := by
    intro p
    unfold Fig.rotate
    rw [if_neg hang, hM]
    simp only [Fig.rotateWith, hm]
  refine ⟨fun p hp => ⟨_, key p, rotMap_turned c u _ p hp hu⟩, fun p hp hs => ⟨_, key p, ?_⟩, ?_⟩
  · obtain ⟨h1, h2, h3⟩ := rotMap_turned c u (deg ang) p hp hu
    obtain ⟨s1, s2, s3⟩ := hs
    unfold sub crossV dot at h1 h2 h3
    simp only [s1, s2, s3] at h1 h2 h3
    refine ⟨?_, ?_, ?_⟩ <;> nlinarith
  · intro p p' q q' hp hp' hq hq'
    rw [key] at hq hq'
    injection hq with hq
    injection hq with hq
    injection hq' with hq'
    injection hq' with hq'
    subst hq hq'
    exact rotMap_dist c u _ p p' hp hp' hu

/-- the hypotheses are met by a quarter turn about the vertical axis through (1,2) -/
example : UnitV (pt 0 0 1) ∧ GoodCentre (pt 1 2) ∧ ¬ close 90 0 := by
  refine ⟨by unfold UnitV pt; norm_num, Or.inr ?_, by unfold close eps; norm_num⟩
  unfold vclose close
  have : (1 : ℝ) ≤ mag (sub (pt 1 2) (pt 0 0)) := by
    unfold mag sub pt
    rw [Real.one_le_sqrt]; norm_num
  rw [sub_zero, abs_of_nonneg (by linarith)]
  unfold eps
  norm_num
  linarith

/-! ## C38: scaling about a centre -/

theorem scaleMat_coord (sx sy sz : ℝ) (c : V4) : ∃ M, scaleMat sx (some sy) (some sz) c = some M ∧
    (vclose c (pt 0 0) → ∀ p, mulP M p = ⟨sx * p.x, sy * p.y, sz * p.z, p.w⟩) ∧
    (¬ vclose c (pt 0 0) → ∀ p, mulP M p =
      ⟨sx * (p.x + c.x * p.w) - c.x * p.w, sy * (p.y + c.y * p.w) - c.y * p.w,
        sz * (p.z + c.z * p.w) - c.z * p.w, p.w⟩) := by
  obtain ⟨S, hS, -⟩ := (Xform.C37_scale (.nums sx (some sy) (some sz)) (toVec c)).1
  unfold scaleMat
  rw [hS]
  simp only
  by_cases h : vclose c (pt 0 0)
  · rw [if_pos h]
    exact ⟨_, rfl, fun _ p => mulP_scale sx sy sz S hS p, fun h' => absurd h h'⟩
  · rw [if_neg h]
    refine ⟨_, rfl, fun h' => absurd h' h, fun _ p => ?_⟩
    rw [mulP_mul, mulP_mul, mulP_trans, mulP_scale sx sy sz S hS, mulP_trans_inv]

/-- `q` is `p` scaled by `s` about `c` -/
def ScaledAbout (c : V4) (s : ℝ) (p q : V4) : Prop :=
  q.x - c.x = s * (p.x - c.x) ∧ q.y - c.y = s * (p.y - c.y) ∧ q.z - c.z = s * (p.z - c.z)

theorem scale_eq (f : Fig) (sx : ℝ) (sy sz sy' sz' : Option ℝ) (c : V4) (M : Xform.Mat ℝ)
    (h : scaleArgs sx sy sz = (sy', sz')) (hf : ¬ vclose (factorPoint sx sy' sz') (pt 1 1 1))
    (hM : scaleMat sx sy' sz' c = some M) : f.scale sx sy sz c = f.scaleWith M sx (sy'.getD 0) := by
  unfold Fig.scale
  have h1 : (scaleArgs sx sy sz).1 = sy' := by rw [h]
  have h2 : (scaleArgs sx sy sz).2 = sz' := by rw [h]
  rw [← h1, ← h2] at hf hM
  rw [← h1]
  simp only
  rw [if_neg hf, hM]

theorem scaleArgs_none (s : ℝ) : scaleArgs s none none = (some s, some s) := by
  unfold scaleArgs; simp

theorem scale_point (s : ℝ) (c p : V4) (hs : ¬ vclose (pt s s s) (pt 1 1 1)) :
    ∃ M, scaleMat s (some s) (some s) c = some M ∧ (Fig.point p).scale s none none c = .ok (.point (mulP M p)) := by
  obtain ⟨M, hM, -⟩ := scaleMat_coord s s s c
  refine ⟨M, hM, ?_⟩
  rw [scale_eq _ s none none _ _ c M (scaleArgs_none s) hs hM]
  rfl

/-- **C38** (scaling about the origin) coordinates are multiplied by the factor -/
theorem C38_scale_origin_partial (s : ℝ) (p : V4) (hs : ¬ vclose (pt s s s) (pt 1 1 1)) :
    ∃ q, (Fig.point p).scale s none none (pt 0 0) = .ok (.point q) ∧ ScaledAbout (pt 0 0) s p q := by
  obtain ⟨M, hM, h⟩ := scale_point s (pt 0 0) p hs
  refine ⟨_, h, ?_⟩
  obtain ⟨M', hM', h1, -⟩ := scaleMat_coord s s s (pt 0 0)
  rw [hM] at hM'
  injection hM' with e
  subst e
  rw [h1 (vclose_self ⟨rfl, rfl, rfl⟩)]
  unfold ScaledAbout pt
  simp

/-- **C38 fails** for scaling about any other centre: the figure is scaled about the *opposite* point
`-c`, for every centre and factor -/
theorem C38_scale_about_opposite (s : ℝ) (c p : V4) (hs : ¬ vclose (pt s s s) (pt 1 1 1))
    (hc : ¬ vclose c (pt 0 0)) (hp : p.w = 1) :
    ∃ q, (Fig.point p).scale s none none c = .ok (.point q) ∧ ScaledAbout ⟨-c.x, -c.y, -c.z, 1⟩ s p q := by
  obtain ⟨M, hM, h⟩ := scale_point s c p hs
  refine ⟨_, h, ?_⟩
  obtain ⟨M', hM', -, h2⟩ := scaleMat_coord s s s c
  rw [hM] at hM'
  injection hM' with e
  subst e
  rw [h2 hc]
  unfold ScaledAbout
  simp only [hp]
  refine ⟨?_, ?_, ?_⟩ <;> ring

theorem far_of_le {p q : V4} (h : 1 ≤ |p.x - q.x|) : ¬ vclose p q := by
  unfold vclose close
  have : (1 : ℝ) ≤ mag (sub p q) := by
    unfold mag sub
    rw [Real.one_le_sqrt]
    nlinarith [sq_abs (p.x - q.x), sq_nonneg (p.y - q.y), sq_nonneg (p.z - q.z), abs_nonneg (p.x - q.x)]
  rw [sub_zero, abs_of_nonneg (by linarith)]
  unfold eps
  norm_num
  linarith

/-- e.g. doubling about (1,0) moves (1,0) to (3,0) -/
theorem C38_scale_moves_centre :
    ∃ q, (Fig.point (pt 1 0)).scale 2 none none (pt 1 0) = .ok (.point q) ∧ q.x = 3 := by
  obtain ⟨q, h1, h2, -⟩ := C38_scale_about_opposite 2 (pt 1 0) (pt 1 0)
    (far_of_le (by unfold pt; norm_num)) (far_of_le (by unfold pt; norm_num)) rfl
  refine ⟨q, h1, ?_⟩
  unfold pt at h2
  norm_num at h2
  linarith

/-! ## C120: factors of `scale` -/

/-- **C120** with all three factors given, not all 1 and not both last ones 0, each coordinate of a
point is multiplied by its factor (about the origin) -/
theorem C120_factors_partial (sx sy sz : ℝ) (p : V4) (hs : ¬ vclose (pt sx sy sz) (pt 1 1 1))
    (h0 : sy ≠ 0 ∨ sz ≠ 0) :
    (Fig.point p).scale sx (some sy) (some sz) (pt 0 0) =
      .ok (.point ⟨sx * p.x, sy * p.y, sz * p.z, p.w⟩) := by
  obtain ⟨M, hM, h1, -⟩ := scaleMat_coord sx sy sz (pt 0 0)
  have ha : scaleArgs sx (some sy) (some sz) = (some sy, some sz) := by
    unfold scaleArgs
    simp only [Option.getD_some]
    rw [if_neg (by tauto)]
  rw [scale_eq _ sx _ _ _ _ _ M ha hs hM]
  simp only [Fig.scaleWith, h1 (vclose_self ⟨rfl, rfl, rfl⟩) p]

/-- **C120 fails** when only `sy` is given: `scale(p, 2, 3)` doubles *all* coordinates, the factor 3 is
ignored -/
theorem C120_second_factor_ignored (p : V4) :
    (Fig.point p).scale 2 (some 3) none (pt 0 0) = .ok (.point ⟨2 * p.x, 2 * p.y, 2 * p.z, p.w⟩) := by
  have e : scaleMat 2 (some 3) none (pt 0 0) = scaleMat 2 (some 2) (some 2) (pt 0 0) := rfl
  obtain ⟨M, hM, h1, -⟩ := scaleMat_coord 2 2 2 (pt 0 0)
  have ha : scaleArgs 2 (some 3) none = (some 3, none) := by unfold scaleArgs; simp
  rw [scale_eq _ 2 _ _ _ _ _ M ha (far_of_le (by simp only [factorPoint]; unfold pt; norm_num)) (e.trans hM)]
  simp only [Fig.scaleWith, h1 (vclose_self ⟨rfl, rfl, rfl⟩) p]

/-- **C120 fails** for the projection onto the x axis: `scale(p, 2, 0, 0)` doubles all coordinates,
because `0 == False` -/
theorem C120_zero_factors_ignored (p : V4) :
    (Fig.point p).scale 2 (some 0) (some 0) (pt 0 0) = .ok (.point ⟨2 * p.x, 2 * p.y, 2 * p.z, p.w⟩) := by
  obtain ⟨M, hM, h1, -⟩ := scaleMat_coord 2 2 2 (pt 0 0)
  have ha : scaleArgs 2 (some 0) (some 0) = (some 2, some 2) := by unfold scaleArgs; simp
  rw [scale_eq _ 2 _ _ _ _ _ M ha (far_of_le (by simp only [factorPoint]; unfold pt; norm_num)) hM]
  simp only [Fig.scaleWith, h1 (vclose_self ⟨rfl, rfl, rfl⟩) p]

/-- **C120 fails** for arcs and negative factors: the result has a negative radius and is not an arc
any more -/
theorem C120_negative_factor_breaks_arc (a : Arc) (hr : 0 < a.r) :
    ∃ b, (Fig.arc a).scale (-1) none none (pt 0 0) = .ok (.arc b) ∧ ¬ isarc b := by
  obtain ⟨M, hM, -⟩ := scaleMat_coord (-1) (-1) (-1) (pt 0 0)
  rw [scale_eq _ (-1) _ _ _ _ _ M (scaleArgs_none _)
    (far_of_le (by simp only [factorPoint]; unfold pt; norm_num)) hM]
  simp only [Fig.scaleWith, Option.getD_some]
  rw [if_pos (by unfold close; simp [eps_pos])]
  refine ⟨_, rfl, fun h => h.2.1 ?_⟩
  simp only
  linarith

/-! ## C117: translation -/

mutual
theorem translate_map (δ : V4) : ∀ f : Fig,
    f.translate δ = f.mapPts (fun p => add p δ) (fun a => { a with c := add a.c δ })
  | .point p => rfl
  | .line l => rfl
  | .arc a => rfl
  | .poly ps => rfl
  | .list gs => by simp only [Fig.translate, Fig.mapPts, translateList_map δ gs]
theorem translateList_map (δ : V4) : ∀ gs : List Fig,
    translateList δ gs = mapPtsList (fun p => add p δ) (fun a => { a with c := add a.c δ }) gs
  | [] => rfl
  | g :: gs => by simp only [translateList, mapPtsList, translate_map δ g, translateList_map δ gs]
end

theorem translate_rigid (δ : V4) : Rigid ispoint (fun p => add p δ) where
  dist_eq p q _ _ := by unfold dist mag sub add; simp only; congr 1; ring
  point p _ := by unfold ispoint add; norm_num
  line p q u _ _ := by
    unfold sampleline add scale3
    ext <;> simp <;> ring

mutual
theorem allArcs_of {P : Arc → Prop} (h : ∀ a, isarc a → P a) : ∀ f : Fig, f.Wf → f.AllArcs P
  | .point _, _ => trivial
  | .line _, _ => trivial
  | .arc a, hw => h a hw
  | .poly _, _ => trivial
  | .list gs, hw => by
    simp only [Fig.Wf] at hw
    simp only [Fig.AllArcs]
    exact allArcsList_of h gs hw.2
theorem allArcsList_of {P : Arc → Prop} (h : ∀ a, isarc a → P a) : ∀ gs : List Fig, WfList gs → AllArcsList P gs
  | [], _ => trivial
  | g :: gs, hw => by
    simp only [WfList] at hw
    simp only [AllArcsList]
    exact ⟨allArcs_of h g hw.1, allArcsList_of h gs hw.2⟩
end

/-- **C117** translating any figure – nested lists, arcs and polylines included – keeps its length and
moves every sampled point by exactly the offset; where sampling raises it still raises -/
theorem C117_translate (f : Fig) (δ : V4) (hf : f.Wf) (u : ℝ) :
    (f.translate δ).length = f.length ∧
    (f.translate δ).sample u = (f.sample u).map (Option.map fun p => add p δ) := by
  have ha : f.AllArcs (ArcOk (fun p => add p δ) (fun a => { a with c := add a.c δ })) := by
    apply allArcs_of _ f hf
    intro a _
    refine ⟨rfl, fun u => ?_⟩
    unfold samplearc
    by_cases h : normalOk a
    · rw [if_pos h, if_pos (by exact h)]
      have e : sampleAngle { a with c := add a.c δ } u = sampleAngle a u := rfl
      rw [e]
      simp only [Except.map, Except.ok.injEq]
      unfold circlePoint add scale3 pt
      ext <;> simp <;> ring
    · rw [if_neg h, if_neg (by exact h)]
      rfl
  rw [translate_map]
  exact ⟨length_map _ _ (translate_rigid δ) f hf (allPts_of_wf f hf) ha, sample_map _ _ (translate_rigid δ) f hf (allPts_of_wf f hf) ha u⟩

mutual
theorem translate_translate (δ ε : V4) : ∀ f : Fig,
    (f.translate δ).translate ε = f.translate (add δ ε)
  | .point p => by simp only [Fig.translate, add]; congr 2 <;> ring
  | .line l => by simp only [Fig.translate, add]; congr 3 <;> ring
  | .arc a => by simp only [Fig.translate, add]; congr 3 <;> ring
  | .poly ps => by
    simp only [Fig.translate, List.map_map]
    congr 2
    funext p
    simp only [Function.comp, add]
    congr 1 <;> ring
  | .list gs => by simp only [Fig.translate, translateList_translate δ ε gs]
theorem translateList_translate (δ ε : V4) : ∀ gs : List Fig,
    translateList ε (translateList δ gs) = translateList (add δ ε) gs
  | [] => rfl
  | g :: gs => by simp only [translateList, translate_translate δ ε g, translateList_translate δ ε gs]
end

/-- **C117** two translations make one, by the sum of the offsets -/
theorem C117_compose (f : Fig) (δ ε : V4) : (f.translate δ).translate ε = f.translate (add δ ε) :=
  translate_translate δ ε f

/-- a nested list with an arc that meets the hypothesis of C117 -/
example : (Fig.list [.point (pt 1 1), .list [.line ⟨pt 0 0, pt 1 0⟩, .arc ⟨pt 0 0, 1, 0, 90, false, none⟩]]).Wf := by
  simp [Fig.Wf, WfList, Fig.isPoint, ispoint, pt, isarc]

end Verif.Geom
