import Verif.Geom.ArcProps
import Verif.Geom.Tight

/-!
# Spirals: `makeLineSpiral` and `makeArcSpiral`, geom_util.py:518-575
-/

namespace Verif.Loops

open Verif.Geom Real

/-! ## the model -/

/-- sample number `i`, geom_util.py:539-542 -/
noncomputable def spiralPoint (center : V4) (turnRad dstep : ℝ) (i : ℕ) : V4 :=
  let ang := i * dstep * (2 * π) / 360
  let r := i * (turnRad * dstep / 360)
  add center (pt (cos ang * r) (sin ang * r))

open Classical in
/-- `addpoint`, geom_util.py:532-536, over all the samples; `last` is the last point kept -/
noncomputable def keepFar (minlen : ℝ) : Option V4 → List V4 → List V4
  | _, [] => []
  | none, p :: ps => p :: keepFar minlen (some p) ps
  | some q, p :: ps => if Geom.dist p q > minlen then p :: keepFar minlen (some p) ps else keepFar minlen (some q) ps

/-- `makeLineSpiral`, geom_util.py:518-544; `n` is `round(360*turns/dstep)` -/
noncomputable def lineSpiral (center : V4) (turnRad dstep minlen : ℝ) (n : ℕ) : List V4 :=
  keepFar minlen none ((List.range n).map (spiralPoint center turnRad dstep))

/-- the centre of the arc between two points, geom_util.py:562-565 -/
noncomputable def arcCentre (p0 p1 : V4) : V4 :=
  add (scale3 (add p0 p1) (1 / 2)) (scale3 (orthoXY (sub p1 p0)) (-11 / 10))

open Classical in
/-- one arc, geom_util.py:562-573; `typeError` stands for the failed assertion and for `segmentarc` with `False` -/
noncomputable def spiralArc (p0 p1 : V4) : Except Err Arc :=
  let cent := arcCentre p0 p1
  let r := Geom.dist cent p0
  if ¬ close r (Geom.dist cent p1) then .error .typeError
  else
    let circ : Arc := ⟨cent, r, 0, 360, false, none⟩
    match unsamplearc circ p0, unsamplearc circ p1 with
    | .ok (some u1), .ok (some u2) => segmentarc circ u1 u2
    | .error e, _ => .error e
    | _, .error e => .error e
    | _, _ => .error .typeError

/-- the loop of `makeArcSpiral`, geom_util.py:559-574, over pairs of points -/
noncomputable def spiralArcs : List V4 → Except Err (List Arc)
  | p :: q :: l =>
    match spiralArc p q with
    | .error e => .error e
    | .ok a => match spiralArcs (q :: l) with
      | .error e => .error e
      | .ok as => .ok (a :: as)
  | _ => .ok []

/-- `makeArcSpiral`, geom_util.py:547-575 (minlen is its default 0.25) -/
noncomputable def arcSpiral (center : V4) (turnRad dstep : ℝ) (n : ℕ) : Except Err (List Arc) :=
  spiralArcs (lineSpiral center turnRad dstep (1 / 4) n)

/-! ## spirals of lines -/

/-- Sample number `i` of the spiral is at the angle `i * dstep` degrees and at the distance of the radius after one turn times the number of turns so far. -/
theorem C285_samples (c : V4) (turnRad dstep : ℝ) (i : ℕ) : AtAngle c (turnRad * (i * dstep / 360)) (i * dstep) (spiralPoint c turnRad dstep i) := by
  unfold AtAngle spiralPoint add pt deg
  dsimp only
  refine ⟨?_, ?_, ?_⟩ <;> ring

theorem keepFar_sub (m : ℝ) : ∀ (l : List V4) (o : Option V4), List.Sublist (keepFar m o l) l
  | [], o => by cases o <;> simp [keepFar]
  | p :: l, none => by rw [keepFar]; exact (keepFar_sub m l _).cons_cons p
  | p :: l, some q => by
    rw [keepFar]
    split
    · exact (keepFar_sub m l _).cons_cons p
    · exact (keepFar_sub m l _).cons p

theorem keepFar_chain (m : ℝ) : ∀ (l : List V4) (q : V4), List.IsChain (fun p q => m < Geom.dist q p) (q :: keepFar m (some q) l)
  | [], q => by simp [keepFar]
  | p :: l, q => by
    rw [keepFar]
    split
    · rename_i h
      exact .cons_cons h (keepFar_chain m l p)
    · exact keepFar_chain m l q

theorem dist_self' (p : V4) : Geom.dist p p = 0 := by unfold Geom.dist Geom.mag Geom.sub; simp

theorem keepFar_near (m : ℝ) (h0 : 0 ≤ m) : ∀ (l : List V4) (q p : V4), p ∈ l → ∃ r ∈ q :: keepFar m (some q) l, Geom.dist p r ≤ m
  | p :: l, q, x, hx => by
    rw [keepFar]
    rcases List.mem_cons.1 hx with rfl | hx
    · split
      · exact ⟨x, by simp, by rw [dist_self']; exact h0⟩
      · rename_i h; exact ⟨q, by simp, not_lt.1 h⟩
    · split
      · obtain ⟨r, h1, h2⟩ := keepFar_near m h0 l p x hx
        exact ⟨r, .tail _ h1, h2⟩
      · exact keepFar_near m h0 l q x hx

/-- `makeLineSpiral` begins at the centre, keeps some of the samples in their order, those kept next to each other farther apart than `minlen`, and each sample left out is within `minlen` of
one that is kept. -/
theorem C285_line (c : V4) (turnRad dstep minlen : ℝ) (h0 : 0 ≤ minlen) (n : ℕ) (hn : 0 < n) :
    (∃ p, (lineSpiral c turnRad dstep minlen n).head? = some p ∧ Same3 p c) ∧
      List.Sublist (lineSpiral c turnRad dstep minlen n) ((List.range n).map (spiralPoint c turnRad dstep)) ∧
      List.IsChain (fun p q => minlen < Geom.dist q p) (lineSpiral c turnRad dstep minlen n) ∧
      ∀ i < n, ∃ r ∈ lineSpiral c turnRad dstep minlen n, Geom.dist (spiralPoint c turnRad dstep i) r ≤ minlen := by
  have hs := keepFar_sub minlen ((List.range n).map (spiralPoint c turnRad dstep)) none
  obtain ⟨m, rfl⟩ := Nat.exists_eq_succ_of_ne_zero hn.ne'
  have e : (List.range (m + 1)).map (spiralPoint c turnRad dstep) = spiralPoint c turnRad dstep 0 :: (List.range m).map (fun i => spiralPoint c turnRad dstep (i + 1)) := by
    rw [List.range_succ_eq_map, List.map_cons, List.map_map]; rfl
  have e' : lineSpiral c turnRad dstep minlen (m + 1) = spiralPoint c turnRad dstep 0 :: keepFar minlen (some (spiralPoint c turnRad dstep 0)) ((List.range m).map (fun i => spiralPoint c turnRad dstep (i + 1))) := by
    unfold lineSpiral
    rw [e, keepFar]
  refine ⟨⟨spiralPoint c turnRad dstep 0, by rw [e']; rfl, ?_⟩, hs, ?_, ?_⟩
  · unfold Same3 spiralPoint add pt; simp
  · rw [e']; exact keepFar_chain _ _ _
  · intro i hi
    rw [e']
    cases i with
    | zero => exact ⟨_, List.mem_cons_self .., by rw [dist_self']; exact h0⟩
    | succ i => exact keepFar_near minlen h0 _ _ _ (List.mem_map.2 ⟨i, List.mem_range.2 (by omega), rfl⟩)

/-! ## spirals of arcs -/

theorem centre_dist (p0 p1 : V4) (hz : p0.z = p1.z) : Geom.dist (arcCentre p0 p1) p0 = Geom.dist (arcCentre p0 p1) p1 := by
  unfold Geom.dist Geom.mag Geom.sub arcCentre add scale3 orthoXY Geom.sub
  dsimp only
  rw [hz]
  congr 1
  ring

/-- on a full circle, sampling at the parameter of a point gives the point -/
theorem circle_unsample (c p : V4) (hz : p.z = c.z) (hpos : 0 < Geom.dist c p) :
    ∃ u q, unsamplearc ⟨c, Geom.dist c p, 0, 360, false, none⟩ p = .ok (some u) ∧ samplearc ⟨c, Geom.dist c p, 0, 360, false, none⟩ u = .ok q ∧ Same3 q p := by
  have hn : normalOk ⟨c, Geom.dist c p, 0, 360, false, none⟩ := by unfold normalOk; simp
  have hsp : span ⟨c, Geom.dist c p, 0, 360, false, none⟩ = (0, 360) := by
    unfold span; rw [if_neg (by simp)]
  have hd : Geom.dist c p = ‖(⟨p.x - c.x, p.y - c.y⟩ : ℂ)‖ := by
    unfold Geom.dist Geom.mag Geom.sub
    rw [Complex.norm_eq_sqrt_sq_add_sq]
    dsimp only
    rw [hz]
    congr 1
    ring
  have hm : Geom.mag (Geom.sub p c) = Geom.dist c p := by
    unfold Geom.dist Geom.mag Geom.sub; congr 1; dsimp only; ring
  set ang := modTau (atan2 (p.y - c.y) (p.x - c.x)) * 360 / (2 * π) with hang
  have hpi := pi_pos
  have hmod : 0 ≤ modTau (atan2 (p.y - c.y) (p.x - c.x)) ∧ modTau (atan2 (p.y - c.y) (p.x - c.x)) < 2 * π := by
    unfold modTau
    generalize atan2 _ _ = x
    have h1 := Int.floor_le (x / (2 * π))
    have h2 := Int.lt_floor_add_one (x / (2 * π))
    rw [le_div_iff₀ (by positivity)] at h1
    rw [div_lt_iff₀ (by positivity)] at h2
    constructor <;> nlinarith
  have ha : 0 ≤ ang ∧ ang < 360 := by
    rw [hang]
    constructor
    · have := hmod.1; positivity
    · rw [div_lt_iff₀ (by positivity)]; nlinarith [hmod.2]
  have hsa : sampleAngle ⟨c, Geom.dist c p, 0, 360, false, none⟩ (ang / 360) = ang := by
    unfold sampleAngle
    rw [hsp]
    dsimp only
    rw [if_neg (by simp), show (360 - 0) * (ang / 360) + 0 = ang by ring]
    exact mod360_of_mem ha.1 ha.2
  refine ⟨ang / 360, _, ?_, by unfold samplearc; rw [if_pos hn], ?_⟩
  · unfold unsamplearc
    rw [hsp]
    dsimp only
    rw [if_neg (by unfold close eps; norm_num), if_neg (not_not.2 hn), hm, sub_self, abs_zero, if_neg (not_lt.2 eps_pos.le), if_neg (by simp), if_neg (by simp)]
    simp only [sub_zero]
    rfl
  · rw [hsa]
    obtain ⟨e1, e2, e3⟩ := circlePoint_spec c (Geom.dist c p) ang
    dsimp only
    have hdeg : deg ang = modTau (atan2 (p.y - c.y) (p.x - c.x)) := by
      unfold deg; rw [hang]; field_simp
    have hcos : cos (deg ang) = cos (atan2 (p.y - c.y) (p.x - c.x)) := by
      rw [hdeg]; unfold modTau
      rw [show ∀ x y : ℝ, x - 2 * π * y = x - y * (2 * π) from fun x y => by ring, cos_sub_int_mul_two_pi]
    have hsin : sin (deg ang) = sin (atan2 (p.y - c.y) (p.x - c.x)) := by
      rw [hdeg]; unfold modTau
      rw [show ∀ x y : ℝ, x - 2 * π * y = x - y * (2 * π) from fun x y => by ring, sin_sub_int_mul_two_pi]
    have g1 := Complex.norm_mul_cos_arg ⟨p.x - c.x, p.y - c.y⟩
    have g2 := Complex.norm_mul_sin_arg ⟨p.x - c.x, p.y - c.y⟩
    rw [← hd] at g1 g2
    dsimp only at g1 g2
    refine ⟨?_, ?_, by rw [e3, hz]⟩
    · rw [e1, hcos]; unfold atan2; rw [g1]; ring
    · rw [e2, hsin]; unfold atan2; rw [g2]; ring

theorem spiralArc_spec (p0 p1 : V4) (hz : p0.z = p1.z) (hpos : 0 < Geom.dist p1 p0) :
    ∃ a q0 q1, spiralArc p0 p1 = .ok a ∧ samplearc a 0 = .ok q0 ∧ samplearc a 1 = .ok q1 ∧ Same3 q0 p0 ∧ Same3 q1 p1 := by
  have hc : (arcCentre p0 p1).z = p0.z := by
    unfold arcCentre add scale3 orthoXY; dsimp only; rw [hz]; ring
  have hp : 0 < Geom.dist (arcCentre p0 p1) p0 := by
    unfold Geom.dist Geom.mag Geom.sub at hpos ⊢
    rw [sqrt_pos] at hpos ⊢
    unfold arcCentre add scale3 orthoXY Geom.sub
    dsimp only at hpos ⊢
    rw [hz] at hpos ⊢
    nlinarith
  have hp1 : 0 < Geom.dist (arcCentre p0 p1) p1 := by rw [← centre_dist p0 p1 hz]; exact hp
  obtain ⟨u, q, h1, h2, h3⟩ := circle_unsample _ p0 hc.symm hp
  obtain ⟨u', q', h1', h2', h3'⟩ := circle_unsample _ p1 (by rw [hc, hz]) hp1
  rw [← centre_dist p0 p1 hz] at h1' h2'
  have hn : normalOk ⟨arcCentre p0 p1, Geom.dist (arcCentre p0 p1) p0, 0, 360, false, none⟩ := by unfold normalOk; simp
  have hseg : ∃ a, segmentarc ⟨arcCentre p0 p1, Geom.dist (arcCentre p0 p1) p0, 0, 360, false, none⟩ u u' = .ok a := by
    unfold segmentarc; rw [if_pos hn, if_neg (by simp)]; exact ⟨_, rfl⟩
  obtain ⟨a, ha⟩ := hseg
  obtain ⟨s0, s1, -⟩ := C166_segment_ends _ _ _ _ ha
  refine ⟨a, q, q', ?_, by rw [s0, h2], by rw [s1, h2'], h3, h3'⟩
  unfold spiralArc
  dsimp only
  rw [if_neg (not_not.2 (by rw [← centre_dist p0 p1 hz]; unfold close; simp [eps_pos])), h1, h1']
  exact ha

theorem spiralArcs_spec : ∀ (l : List V4), (∀ p ∈ l, ∀ q ∈ l, p.z = q.z) → List.IsChain (fun p q => 0 < Geom.dist q p) l →
    ∃ as, spiralArcs l = .ok as ∧ as.length = l.length - 1 ∧ ∀ (i : ℕ) (a : Arc) (p q : V4), as[i]? = some a → l[i]? = some p → l[i + 1]? = some q →
      ∃ q0 q1, samplearc a 0 = .ok q0 ∧ samplearc a 1 = .ok q1 ∧ Same3 q0 p ∧ Same3 q1 q
  | [], _, _ => ⟨[], rfl, rfl, by simp⟩
  | [p], _, _ => ⟨[], rfl, rfl, by simp⟩
  | p :: q :: l, hz, hc => by
    cases hc with
    | cons_cons h hc =>
      obtain ⟨a, q0, q1, h1, h2, h3, h4, h5⟩ := spiralArc_spec p q (hz p (by simp) q (by simp)) h
      obtain ⟨as, g1, g2, g3⟩ := spiralArcs_spec (q :: l) (fun x hx y hy => hz x (.tail _ hx) y (.tail _ hy)) hc
      refine ⟨a :: as, by rw [spiralArcs, h1]; dsimp only; rw [g1], by simp [g2], ?_⟩
      intro i b x y hb hx hy
      cases i with
      | zero =>
        simp only [List.getElem?_cons_zero, Option.some.injEq] at hb hx
        simp only [List.getElem?_cons_succ, List.getElem?_cons_zero, Option.some.injEq] at hy
        subst hb hx hy
        exact ⟨q0, q1, h2, h3, h4, h5⟩
      | succ i =>
        rw [List.getElem?_cons_succ] at hb hx hy
        exact g3 i b x y hb hx hy

/-- `makeArcSpiral` never fails: it joins the points of `makeLineSpiral` (with the default minimal distance) by arcs, one less than points, arc number `i` from point `i` to the next one. -/
theorem C285_arcs (c : V4) (turnRad dstep : ℝ) (n : ℕ) (hn : 0 < n) :
    ∃ as, arcSpiral c turnRad dstep n = .ok as ∧ as.length = (lineSpiral c turnRad dstep (1 / 4) n).length - 1 ∧
      ∀ (i : ℕ) (a : Arc) (p q : V4), as[i]? = some a → (lineSpiral c turnRad dstep (1 / 4) n)[i]? = some p → (lineSpiral c turnRad dstep (1 / 4) n)[i + 1]? = some q →
        ∃ q0 q1, samplearc a 0 = .ok q0 ∧ samplearc a 1 = .ok q1 ∧ Same3 q0 p ∧ Same3 q1 q := by
  obtain ⟨-, hs, hc, -⟩ := C285_line c turnRad dstep (1 / 4) (by norm_num) n hn
  apply spiralArcs_spec
  · intro p hp q hq
    obtain ⟨i, -, rfl⟩ := List.mem_map.1 (hs.subset hp)
    obtain ⟨j, -, rfl⟩ := List.mem_map.1 (hs.subset hq)
    rfl
  · exact hc.imp fun p q h => lt_trans (by norm_num) h

/-- The arc between two points lies on a circle whose centre is as far from one as from the other and to the left of the way from the first to the second, at a distance of 1.1 times theirs from their line. -/
theorem C285_centre (p q : V4) (a : Arc) (ha : spiralArc p q = .ok a) (hz : p.z = q.z) :
    Geom.dist a.c p = a.r ∧ Geom.dist a.c q = a.r ∧
      (q.x - p.x) * (a.c.y - p.y) - (q.y - p.y) * (a.c.x - p.x) = 11 / 10 * ((q.x - p.x) ^ 2 + (q.y - p.y) ^ 2) := by
  have hc : a.c = arcCentre p q ∧ a.r = Geom.dist (arcCentre p q) p := by
    unfold spiralArc at ha
    dsimp only at ha
    split at ha
    · cases ha
    · split at ha
      · unfold segmentarc at ha
        dsimp only at ha
        repeat' split at ha
        all_goals first | (cases ha; done) | (cases ha; exact ⟨rfl, rfl⟩)
      · cases ha
      · cases ha
      · cases ha
  rw [hc.1, hc.2]
  refine ⟨rfl, (centre_dist p q hz).symm, ?_⟩
  unfold arcCentre add scale3 orthoXY Geom.sub
  dsimp only
  ring

/-- two turns in steps of 10° are 72 samples -/
example : (0 : ℕ) < 72 ∧ (0 : ℝ) ≤ 1 / 4 := by norm_num

end Verif.Loops
