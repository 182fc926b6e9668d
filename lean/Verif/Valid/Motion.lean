import Verif.Valid.Angle

/-!
# C220-C223: moving the whole assembly; concentric axes; tangents; bolt patterns
-/

namespace Verif.Valid
open Real

/-! ## C220: constraints do not depend on where the assembly stands -/

/-- the assembly moved by `g` -/
noncomputable def moved (g : Tf ℝ) (world : World) : World := fun n => (world n).map (after g)

theorem facePosition_moved {g : Tf ℝ} {part face : String} {t : Tf ℝ} {bounds : Option (Box ℝ)} {world : World} :
    (facePosition part (after g t) face bounds (moved g world)).1 = place g (facePosition part t face bounds world).1 := by
  unfold facePosition moved
  rcases faceOffset face bounds with _ | v
  · dsimp only
    rcases world (part ++ "." ++ face) with _ | u
    · dsimp only [Option.map_none]
      rcases world face with _ | u <;> rfl
    · rfl
  · exact place_after g t v

theorem pointA_moved {g : Tf ℝ} {c : Con} {t : Tf ℝ} {world : World} : pointA c (after g t) (moved g world) = place g (pointA c t world) := by
  unfold pointA
  rcases c.faceA with _ | f
  · rfl
  · exact facePosition_moved

theorem second_moved {g : Tf ℝ} {c : Con} {t : Tf ℝ} {n : String} {world : World} :
    second c (pointB c (some (n, after g t)) (moved g world)) (some (after g t)) = (second c (pointB c (some (n, t)) world) (some t)).map (place g) := by
  unfold second pointB
  rcases c.faceB with _ | f
  · rfl
  · dsimp only
    rw [facePosition_moved]
    rfl

theorem dist_moved {g : Tf ℝ} (h : Rigid g) (p q : V ℝ) : norm (vsub (place g q) (place g p)) = norm (vsub q p) := by
  rw [place_sub, norm_turn h]

theorem offLine_moved {g : Tf ℝ} (h : Rigid g) (o a p : V ℝ) : offLine (place g o) (turn g a) (place g p) = offLine o a p := by
  unfold offLine
  dsimp only
  rw [place_sub, h, ← turn_smul, ← turn_sub, norm_turn h]

/-- **C220.** Moving the whole assembly rigidly changes neither verdict nor error of any positional or directional constraint between two parts (COINCIDENT,
AT_DISTANCE, CONCENTRIC, PARALLEL, PERPENDICULAR, BOLT_PATTERN, and MIN_DISTANCE without boxes). -/
theorem C220_motion (lab : Lab ℝ) {g : Tf ℝ} (hg : Rigid g) {c : Con} {world : World} {ta tb : Tf ℝ} {n : String} (ha : world c.frameA = some ta) (hn : c.frameB = some n)
    (hb : world n = some tb)
    (hk : c.kind ∈ [Kind.coincident, .atDistance, .concentric, .parallel, .perpendicular, .boltPattern] ∨ (c.kind = .minDistance ∧ c.boundsA = none)) :
    evaluate lab c (moved g world) = evaluate lab c world := by
  have ha' : moved g world c.frameA = some (after g ta) := by unfold moved; rw [ha]; rfl
  have hb' : moved g world n = some (after g tb) := by unfold moved; rw [hb]; rfl
  have hdot : ∀ (v w : V ℝ), dot (turn (after g ta) v) (turn (after g tb) w) = dot (turn ta v) (turn tb w) := fun v w => by rw [turn_after, turn_after, hg]
  have hab : ∀ v w, absDot (turn (after g ta) v) (some (turn (after g tb) w)) = absDot (turn ta v) (some (turn tb w)) := fun v w => by
    unfold absDot; dsimp only; rw [hdot]
  have hang : ∀ v w, angleTo (turn (after g ta) v) (some (turn (after g tb) w)) = angleTo (turn ta v) (some (turn tb w)) := fun v w => by
    unfold angleTo; rw [hab]
  have ho : ∀ t : Tf ℝ, (after g t).o = place g t.o := fun t => rfl
  have hsa : ∀ ref, secondAxis c (some (after g tb)) ref = (localAxis c.axisB).map fun b => some (some (turn (after g tb) b)) := fun ref => by
    unfold secondAxis
    rcases localAxis c.axisB with _ | b <;> rfl
  have hsb : ∀ ref, secondAxis c (some tb) ref = (localAxis c.axisB).map fun b => some (some (turn tb b)) := fun ref => by
    unfold secondAxis
    rcases localAxis c.axisB with _ | b <;> rfl
  rw [eval_frames ha' hn hb', eval_frames ha hn hb, pointA_moved, second_moved]
  rcases hk with hk | ⟨hk, hbd⟩
  · simp only [List.mem_cons, List.not_mem_nil, or_false] at hk
    rcases hk with hk | hk | hk | hk | hk | hk <;> rw [hk] <;> dsimp only
    · unfold coincident
      rcases second c (pointB c (some (n, tb)) world) (some tb) with _ | q
      · rfl
      · dsimp only [Option.map_some]
        rw [dist_moved hg]
    · unfold atDistance
      rcases second c (pointB c (some (n, tb)) world) (some tb) with _ | q
      · rfl
      · dsimp only [Option.map_some]
        rw [dist_moved hg]
    · unfold concentric
      rcases localAxis c.axisA with _ | la
      · rfl
      dsimp only
      rw [hsa, hsb]
      rcases localAxis c.axisB with _ | lb
      · rfl
      dsimp only [Option.map_some, second]
      rw [hang, ho, ho, turn_after, offLine_moved hg]
    · unfold parallel
      rcases localAxis c.axisA with _ | la
      · rfl
      dsimp only
      rw [hsa, hsb]
      rcases localAxis c.axisB with _ | lb
      · rfl
      dsimp only [Option.map_some]
      rw [hang]
    · unfold perpendicular
      rcases localAxis c.axisA with _ | la
      · rfl
      dsimp only
      rw [hsa, hsb]
      rcases localAxis c.axisB with _ | lb
      · rfl
      dsimp only [Option.map_some]
      rw [hab]
    · unfold boltPattern
      split_ifs
      · rfl
      · rfl
      all_goals
        rcases localAxis c.axisA with _ | la
        · rfl
        dsimp only
        rw [hsa, hsb]
        rcases localAxis c.axisB with _ | lb
        · rfl
        dsimp only [Option.map_some, second]
        rw [hang, ho, ho, dist_moved hg]
  · rw [hk]
    dsimp only
    unfold minDistance
    rw [hbd]
    rcases second c (pointB c (some (n, tb)) world) (some tb) with _ | q
    · rfl
    · dsimp only [Option.map_some]
      rw [dist_moved hg]

example : ∃ g : Tf ℝ, Rigid g ∧ g.o = ⟨1, 2, 3⟩ ∧ turn g ⟨1, 0, 0⟩ ≠ ⟨1, 0, 0⟩ :=
  ⟨quarter ⟨1, 2, 3⟩, quarter_rigid _, rfl, by intro h; have := congrArg V.x h; norm_num [turn, quarter, dot] at this⟩

/-! ## C221: concentric axes -/

/-- the distance measured is the least distance of the point from a point of the line -/
theorem offLine_least {o a p : V ℝ} (ha : norm a = 1) : (∀ s, offLine o a p ≤ norm (vsub p (vadd o (smul s a)))) ∧ ∃ s, offLine o a p = norm (vsub p (vadd o (smul s a))) := by
  have h1 := norm_one.mp ha
  have key : ∀ s, vsub p (vadd o (smul s a)) = vsub (vsub p o) (smul s a) := fun s => by unfold vsub vadd smul; ext <;> dsimp only <;> ring
  constructor
  · intro s
    unfold offLine
    dsimp only
    rw [key, norm_eq, norm_eq]
    refine sqrt_le_sqrt ?_
    have : dot (vsub (vsub p o) (smul s a)) (vsub (vsub p o) (smul s a)) =
        dot (vsub (vsub p o) (smul (dot (vsub p o) a) a)) (vsub (vsub p o) (smul (dot (vsub p o) a) a)) + (s - dot (vsub p o) a) ^ 2 := by
      generalize vsub p o = v
      unfold dot vsub smul at *
      dsimp only
      linear_combination (s ^ 2 - (v.x * a.x + v.y * a.y + v.z * a.z) ^ 2) * h1
    rw [this]
    linarith [sq_nonneg (s - dot (vsub p o) a)]
  · exact ⟨dot (vsub p o) a, by unfold offLine; dsimp only; rw [key]⟩

/-- **C221, the part that holds.** CONCENTRIC is satisfied exactly if the angle between the axes is at most the angular tolerance and the origin of the second part is at most the
linear tolerance from the first axis: some point of the axis is that near to it. -/
theorem C221_concentric_partial (lab : Lab ℝ) {c : Con} {world : World} {n : String} {ta tb : Tf ℝ} {la lb : V ℝ} (hk : c.kind = .concentric) (hn : c.frameB = some n)
    (ha : world c.frameA = some ta) (hb : world n = some tb) (hra : Rigid ta) (hrb : Rigid tb) (hla : localAxis c.axisA = some la) (hlb : localAxis c.axisB = some lb) :
    ∃ r θ, evaluate lab c world = some r ∧ 0 ≤ θ ∧ θ ≤ π ∧ dot (turn ta la) (turn tb lb) = cos θ ∧
      (r.satisfied = true ↔ degrees (min θ (π - θ)) ≤ c.tolDeg ∧ ∃ s, norm (vsub tb.o (vadd ta.o (smul s (turn ta la)))) ≤ c.tolMm) := by
  have hua : norm (turn ta la) = 1 := by rw [norm_turn hra, localAxis_unit hla]
  obtain ⟨θ, h0, h1, h2⟩ := exists_angle (a := turn ta la) (b := turn tb lb) hua (by rw [norm_turn hrb, localAxis_unit hlb])
  refine ⟨test (angleTo (turn ta la) (some (turn tb lb)) ≤ c.tolDeg ∧ offLine ta.o (turn ta la) tb.o ≤ c.tolMm) (max (angleTo (turn ta la) (some (turn tb lb))) (offLine ta.o (turn ta la) tb.o)), θ, ?_, h0, h1, h2, ?_⟩
  · rw [eval_frames ha hn hb, hk]
    dsimp only
    unfold concentric secondAxis
    rw [hla]
    dsimp only
    rw [hlb]
    dsimp only [second]
  · rw [test_sat]
    refine and_congr ?_ ?_
    · unfold angleTo absDot
      dsimp only
      rw [h2, arccos_abs_cos h0 h1]
    · obtain ⟨l1, s, l2⟩ := offLine_least (o := ta.o) (p := tb.o) hua
      constructor
      · intro h; exact ⟨s, by rw [← l2]; exact h⟩
      · rintro ⟨s, h⟩; exact (l1 s).trans h

/-- the constraint with the two parts exchanged -/
def swap (c : Con) (n : String) : Con := { c with frameA := n, frameB := some c.frameA, axisA := c.axisB, axisB := c.axisA }

/-- If the axes are exactly parallel it does not matter which part comes first. -/
theorem C221_symmetric_partial (lab : Lab ℝ) {c : Con} {world : World} {n : String} {ta tb : Tf ℝ} {la lb : V ℝ} (hk : c.kind = .concentric) (hn : c.frameB = some n)
    (ha : world c.frameA = some ta) (hb : world n = some tb) (hla : localAxis c.axisA = some la) (hlb : localAxis c.axisB = some lb)
    (hpar : turn tb lb = turn ta la ∨ turn tb lb = smul (-1) (turn ta la)) :
    evaluate lab (swap c n) world = evaluate lab c world := by
  have hoff : offLine tb.o (turn tb lb) ta.o = offLine ta.o (turn ta la) tb.o := by
    unfold offLine
    dsimp only
    generalize turn ta la = a at *
    rw [norm_eq, norm_eq]
    congr 1
    rcases hpar with h | h <;> rw [h] <;> unfold dot vsub smul <;> dsimp only <;> ring
  have hdot : dot (turn tb lb) (turn ta la) = dot (turn ta la) (turn tb lb) := by unfold dot; ring
  rw [eval_frames ha hn hb, eval_frames (c := swap c n) (n := c.frameA) hb rfl ha]
  show (match c.kind with | _ => _) = _
  rw [show (swap c n).kind = .concentric from hk, hk]
  dsimp only
  unfold concentric secondAxis
  rw [show localAxis (swap c n).axisA = some lb from hlb, show localAxis (swap c n).axisB = some la from hla, hla, hlb]
  dsimp only [second]
  unfold angleTo absDot
  dsimp only
  rw [hdot, hoff]
  rfl

/-- a part whose z axis points to (3/5, 0, 4/5) -/
noncomputable def leaning (o : V ℝ) : Tf ℝ := ⟨⟨4 / 5, 0, 3 / 5⟩, ⟨0, 1, 0⟩, ⟨-3 / 5, 0, 4 / 5⟩, o⟩

theorem leaning_rigid (o : V ℝ) : Rigid (leaning o) := by
  intro v w
  simp only [leaning, turn, dot]
  ring

/-- two axes, and a part 100 along the first one that leans to the side -/
noncomputable def lean : World := fun n => if n = "a" then some still else if n = "b" then some (leaning ⟨0, 0, 100⟩) else none

/-- **C221, what does not.** With a tolerance of 60 degrees and 0.1 mm, "a" is concentric with "b" but "b" is not concentric with "a" (whose axis passes it at a distance of 60): only the distance
of the second origin from the first axis is measured. -/
theorem C221_not_symmetric (lab : Lab ℝ) : ∃ (c : Con) (r r' : Res), c.frameA = "a" ∧ c.frameB = some "b" ∧ evaluate lab c lean = some r ∧ r.satisfied = true ∧
    evaluate lab (swap c "b") lean = some r' ∧ r'.satisfied = false := by
  let c : Con := { name := "n", kind := .concentric, frameA := "a", frameB := some "b", tolDeg := 60 }
  obtain ⟨r, θ, h1, h2, h3, h4, h5⟩ := C221_concentric_partial lab (c := c) (world := lean) (n := "b") (ta := still) (tb := leaning ⟨0, 0, 100⟩) (la := ⟨0, 0, 1⟩) (lb := ⟨0, 0, 1⟩)
    rfl rfl (by simp [lean, c]) (by simp [lean]) still_rigid (leaning_rigid _) (by simp [c, localAxis]) (by simp [c, localAxis])
  obtain ⟨r', θ', k1, k2, k3, k4, k5⟩ := C221_concentric_partial lab (c := swap c "b") (world := lean) (n := "a") (ta := leaning ⟨0, 0, 100⟩) (tb := still) (la := ⟨0, 0, 1⟩) (lb := ⟨0, 0, 1⟩)
    rfl rfl (by simp [lean, c, swap]) (by simp [lean]) (leaning_rigid _) still_rigid (by simp [c, swap, localAxis]) (by simp [c, swap, localAxis])
  refine ⟨c, r, r', rfl, rfl, h1, ?_, k1, ?_⟩
  · rw [h5]
    constructor
    · have hc : cos (π / 3) ≤ cos θ := by rw [cos_pi_div_three, ← h4]; norm_num [dot, turn, still, leaning]
      have : θ ≤ π / 3 := by
        by_contra hlt
        have := cos_lt_cos_of_nonneg_of_le_pi (by positivity) h3 (not_le.mp hlt)
        linarith
      show degrees (min θ (π - θ)) ≤ 60
      unfold degrees
      rw [div_le_iff₀ pi_pos]
      nlinarith [min_le_left θ (π - θ)]
    · refine ⟨100, ?_⟩
      show _ ≤ (0.1 : ℝ)
      norm_num [norm, vsub, vadd, smul, turn, still, leaning, dot]
  · rw [← Bool.not_eq_true, k5]
    rintro ⟨-, s, hs⟩
    have hs : norm (vsub (still : Tf ℝ).o (vadd (leaning ⟨0, 0, 100⟩).o (smul s (turn (leaning ⟨0, 0, 100⟩) ⟨0, 0, 1⟩)))) ≤ 0.1 := hs
    unfold norm at hs
    rw [sqrt_le_left (by norm_num)] at hs
    norm_num [vsub, vadd, smul, turn, still, leaning, dot] at hs
    nlinarith [sq_nonneg (s + 80)]

/-! ## C222: tangents -/

/-- **C222.** TANGENT measures, in the horizontal plane, how far the angle between the axis and the direction from the centre to the part is from 90 degrees. -/
theorem C222_tangent (lab : Lab ℝ) {c : Con} {world : World} {ta : Tf ℝ} {la m : V ℝ} (hk : c.kind = .tangent) (hn : c.frameB = none)
    (ha : world c.frameA = some ta) (hla : localAxis c.axisA = some la) (hm : c.center = some m)
    (hr : 1e-10 ≤ norm ⟨ta.o.x - m.x, ta.o.y - m.y, 0⟩) (hh : 1e-10 ≤ norm ⟨(turn ta la).x, (turn ta la).y, 0⟩) :
    ∃ r θ, evaluate lab c world = some r ∧ 0 ≤ θ ∧ θ ≤ π ∧
      (ta.o.x - m.x) * (turn ta la).x + (ta.o.y - m.y) * (turn ta la).y = norm ⟨ta.o.x - m.x, ta.o.y - m.y, 0⟩ * norm ⟨(turn ta la).x, (turn ta la).y, 0⟩ * cos θ ∧
      r.error = degrees |π / 2 - θ| ∧ (r.satisfied = true ↔ degrees |π / 2 - θ| ≤ c.tolDeg) := by
  have r0 : norm ⟨ta.o.x - m.x, ta.o.y - m.y, 0⟩ ≠ 0 := by intro h; rw [h] at hr; norm_num at hr
  have h0 : norm ⟨(turn ta la).x, (turn ta la).y, 0⟩ ≠ 0 := by intro h; rw [h] at hh; norm_num at hh
  obtain ⟨θ, g0, g1, g2⟩ := exists_angle (unit_norm r0) (unit_norm h0)
  refine ⟨test (degrees |π / 2 - θ| ≤ c.tolDeg) (degrees |π / 2 - θ|), θ, ?_, g0, g1, ?_, rfl, test_sat _ _⟩
  · rw [(eval_alone ha hn).2.2 hk]
    unfold tangent
    rw [hm]
    dsimp only
    rw [hla]
    dsimp only
    rw [if_neg (not_lt.mpr hr), if_neg (not_lt.mpr hh), g2, arcsin_abs_cos g0 g1]
  · rw [dot_smul] at g2
    rw [← g2]
    unfold dot
    dsimp only
    field_simp
    ring

/-- So without an error the axis is perpendicular to the radius. -/
theorem C222_exact (lab : Lab ℝ) {c : Con} {world : World} {ta : Tf ℝ} {la m : V ℝ} (hk : c.kind = .tangent) (hn : c.frameB = none)
    (ha : world c.frameA = some ta) (hla : localAxis c.axisA = some la) (hm : c.center = some m)
    (hr : 1e-10 ≤ norm ⟨ta.o.x - m.x, ta.o.y - m.y, 0⟩) (hh : 1e-10 ≤ norm ⟨(turn ta la).x, (turn ta la).y, 0⟩) :
    ∃ r, evaluate lab c world = some r ∧ (r.error = 0 ↔ (ta.o.x - m.x) * (turn ta la).x + (ta.o.y - m.y) * (turn ta la).y = 0) := by
  obtain ⟨r, θ, h1, h2, h3, h4, h5, _⟩ := C222_tangent lab hk hn ha hla hm hr hh
  refine ⟨r, h1, ?_⟩
  have r0 : norm ⟨ta.o.x - m.x, ta.o.y - m.y, 0⟩ ≠ 0 := by intro h; rw [h] at hr; norm_num at hr
  have h0 : norm ⟨(turn ta la).x, (turn ta la).y, 0⟩ ≠ 0 := by intro h; rw [h] at hh; norm_num at hh
  rw [h4, h5, mul_eq_zero, or_iff_right (mul_ne_zero r0 h0)]
  unfold degrees
  rw [div_eq_zero_iff, or_iff_left pi_ne_zero, mul_eq_zero, or_iff_left (by norm_num), abs_eq_zero, sub_eq_zero]
  constructor
  · intro h; rw [← h, cos_pi_div_two]
  · intro h
    have := arccos_cos h2 h3
    rw [h, arccos_zero] at this
    exact this

/-- A part on the axis of the circle fails, a vertical axis passes; the radius of the circle does not matter. -/
theorem C222_cases (lab : Lab ℝ) {c : Con} {world : World} {ta : Tf ℝ} {la m : V ℝ} (hk : c.kind = .tangent) (hn : c.frameB = none)
    (ha : world c.frameA = some ta) (hla : localAxis c.axisA = some la) (hm : c.center = some m) :
    (ta.o.x = m.x → ta.o.y = m.y → ∃ r, evaluate lab c world = some r ∧ r.satisfied = false) ∧
    (1e-10 ≤ norm ⟨ta.o.x - m.x, ta.o.y - m.y, 0⟩ → (turn ta la).x = 0 → (turn ta la).y = 0 → ∃ r, evaluate lab c world = some r ∧ r.satisfied = true) ∧
    ∀ d, evaluate lab { c with radius := d } world = evaluate lab c world := by
  refine ⟨fun hx hy => ⟨cannot, ?_, rfl⟩, fun hr hx hy => ⟨{ satisfied := true }, ?_, rfl⟩, fun d => ?_⟩
  · rw [(eval_alone ha hn).2.2 hk]
    unfold tangent
    rw [hm]
    dsimp only
    rw [hla]
    dsimp only
    rw [if_pos (by rw [hx, hy]; norm_num [norm])]
  · rw [(eval_alone ha hn).2.2 hk]
    unfold tangent
    rw [hm]
    dsimp only
    rw [hla]
    dsimp only
    rw [if_neg (not_lt.mpr hr), if_pos (by rw [hx, hy]; norm_num [norm])]
  · rw [(eval_alone (c := { c with radius := d }) ha hn).2.2 hk, (eval_alone ha hn).2.2 hk]
    rfl

/-- the y axis of a part at (3, 0, 7) is tangent to circles around the z axis -/
example (lab : Lab ℝ) : ∃ (c : Con) (world : World) (r : Res), evaluate lab c world = some r ∧ r.error = 0 := by
  let c : Con := { name := "n", kind := .tangent, frameA := "a", axisA := .name "y", center := some ⟨0, 0, 0⟩ }
  let t : Tf ℝ := ⟨⟨1, 0, 0⟩, ⟨0, 1, 0⟩, ⟨0, 0, 1⟩, ⟨3, 0, 7⟩⟩
  obtain ⟨r, h1, h2⟩ := C222_exact lab (c := c) (world := fun _ => some t) (ta := t) (la := ⟨0, 1, 0⟩) (m := ⟨0, 0, 0⟩) rfl rfl rfl (by simp [c, localAxis]) rfl
    (by
      show (1e-10 : ℝ) ≤ norm ⟨3 - 0, 0 - 0, 0⟩
      rw [norm, show ((3 - 0 : ℝ) ^ 2 + (0 - 0) ^ 2 + 0 ^ 2) = 3 ^ 2 by norm_num, sqrt_sq (by norm_num)]; norm_num)
    (by
      have : norm ⟨(turn t ⟨0, 1, 0⟩).x, (turn t ⟨0, 1, 0⟩).y, 0⟩ = 1 := by rw [norm_one]; norm_num [dot, turn, t]
      rw [this]; norm_num)
  exact ⟨c, _, r, h1, h2.mpr (by norm_num [turn, dot, t])⟩

/-! ## C223: bolt patterns -/

/-- **C223, the part that holds.** BOLT_PATTERN is satisfied exactly if the centres are at most the linear and the normals at most the angular tolerance apart. -/
theorem C223_bolt_partial (lab : Lab ℝ) {c : Con} {world : World} {n : String} {ta tb : Tf ℝ} {la lb : V ℝ} (hk : c.kind = .boltPattern) (hn : c.frameB = some n)
    (ha : world c.frameA = some ta) (hb : world n = some tb) (hra : Rigid ta) (hrb : Rigid tb) (hla : localAxis c.axisA = some la) (hlb : localAxis c.axisB = some lb)
    (hc : 2 ≤ c.count) (hp : 0 < c.patternRadius) :
    ∃ r θ, evaluate lab c world = some r ∧ 0 ≤ θ ∧ θ ≤ π ∧ dot (turn ta la) (turn tb lb) = cos θ ∧
      (r.satisfied = true ↔ norm (vsub tb.o ta.o) ≤ c.tolMm ∧ degrees (min θ (π - θ)) ≤ c.tolDeg) := by
  obtain ⟨θ, h0, h1, h2⟩ := exists_angle (a := turn ta la) (b := turn tb lb) (by rw [norm_turn hra, localAxis_unit hla]) (by rw [norm_turn hrb, localAxis_unit hlb])
  refine ⟨test (norm (vsub tb.o ta.o) ≤ c.tolMm ∧ angleTo (turn ta la) (some (turn tb lb)) ≤ c.tolDeg) (max (norm (vsub tb.o ta.o)) (angleTo (turn ta la) (some (turn tb lb)))), θ, ?_, h0, h1, h2, ?_⟩
  · rw [eval_frames ha hn hb, hk]
    dsimp only
    unfold boltPattern secondAxis
    rw [if_neg (by omega), if_neg (not_le.mpr hp), hla]
    dsimp only
    rw [hlb]
    dsimp only [second]
  · rw [test_sat]
    refine and_congr Iff.rfl ?_
    unfold angleTo absDot
    dsimp only
    rw [h2, arccos_abs_cos h0 h1]

/-- Fewer than two holes, or a radius that is not positive, are never satisfied. -/
theorem C223_degenerate (lab : Lab ℝ) {c : Con} {world : World} {n : String} {ta tb : Tf ℝ} (hk : c.kind = .boltPattern) (hn : c.frameB = some n)
    (ha : world c.frameA = some ta) (hb : world n = some tb) (h : c.count < 2 ∨ c.patternRadius ≤ 0) : ∃ r, evaluate lab c world = some r ∧ r.satisfied = false := by
  rw [eval_frames ha hn hb, hk]
  refine ⟨cannot, ?_, rfl⟩
  dsimp only
  unfold boltPattern
  rcases h with h | h
  · rw [if_pos h]
  · split_ifs <;> rfl

/-- **C223, what does not.** The holes are never compared: a part that is turned about the axis of the pattern, by any angle, gives the same result, as does any number of holes (2 or
more), any positive radius and any offset. -/
theorem C223_blind (lab : Lab ℝ) {c : Con} {world world' : World} {n : String} {ta tb tb' : Tf ℝ} {lb : V ℝ} (hk : c.kind = .boltPattern) (hn : c.frameB = some n)
    (ha : world c.frameA = some ta) (hb : world n = some tb) (ha' : world' c.frameA = some ta) (hb' : world' n = some tb') (hlb : localAxis c.axisB = some lb)
    (ho : tb'.o = tb.o) (hax : turn tb' lb = turn tb lb) (hc : 2 ≤ c.count) (hp : 0 < c.patternRadius) (k : ℤ) (R o : ℝ) (hk2 : 2 ≤ k) (hR : 0 < R) :
    evaluate lab { c with count := k, patternRadius := R, offset := o } world' = evaluate lab c world := by
  rw [eval_frames ha hn hb, eval_frames (c := { c with count := k, patternRadius := R, offset := o }) ha' hn hb']
  dsimp only
  rw [hk]
  dsimp only
  unfold boltPattern secondAxis
  dsimp only
  rw [if_neg (by omega), if_neg (not_le.mpr hR), if_neg (by omega), if_neg (not_le.mpr hp), hlb]
  dsimp only [second]
  rw [hax, ho]

/-- a part turned about the z axis by the angle with the cosine 3/5 -/
noncomputable def turned : Tf ℝ := ⟨⟨3 / 5, -4 / 5, 0⟩, ⟨4 / 5, 3 / 5, 0⟩, ⟨0, 0, 1⟩, ⟨0, 0, 0⟩⟩

/-- the four holes of a pattern with the radius 10 on a part -/
noncomputable def holes (t : Tf ℝ) : List (V ℝ) := [place t ⟨10, 0, 0⟩, place t ⟨0, 10, 0⟩, place t ⟨-10, 0, 0⟩, place t ⟨0, -10, 0⟩]

/-- For example: four holes on a circle of radius 10, one part turned: satisfied, although every hole of the one part is farther than 6 from every hole of the other. -/
theorem C223_misaligned (lab : Lab ℝ) : ∃ (c : Con) (world : World) (r : Res), c.kind = .boltPattern ∧ c.count = 4 ∧ c.patternRadius = 10 ∧
    world "a" = some still ∧ world "b" = some turned ∧ evaluate lab c world = some r ∧ r.satisfied = true ∧
    ∀ p ∈ holes still, ∀ q ∈ holes turned, 6 < norm (vsub q p) := by
  let c : Con := { name := "n", kind := .boltPattern, frameA := "a", frameB := some "b", count := 4, patternRadius := 10 }
  let w : World := fun n => if n = "a" then some still else if n = "b" then some turned else none
  have hrig : Rigid turned := by intro v u; simp only [turned, turn, dot]; ring
  obtain ⟨r, θ, h1, h2, h3, h4, h5⟩ := C223_bolt_partial lab (c := c) (world := w) (n := "b") (ta := still) (tb := turned) (la := ⟨0, 0, 1⟩) (lb := ⟨0, 0, 1⟩)
    rfl rfl (by simp [w, c]) (by simp [w]) still_rigid hrig (by simp [c, localAxis]) (by simp [c, localAxis]) (by simp [c]) (by simp [c])
  refine ⟨c, w, r, rfl, rfl, rfl, by simp [w], by simp [w], h1, ?_, ?_⟩
  · rw [h5]
    have hc : cos θ = 1 := by rw [← h4]; norm_num [dot, turn, still, turned]
    have ht : θ = 0 := by
      have := arccos_cos h2 h3
      rw [hc, arccos_one] at this
      exact this.symm
    constructor
    · show _ ≤ (0.1 : ℝ)
      norm_num [norm, vsub, still, turned]
    · rw [ht, min_eq_left (by linarith [pi_pos]), degrees]
      show _ ≤ (1 : ℝ)
      norm_num
  · intro p hp q hq
    simp only [holes, List.mem_cons, List.not_mem_nil, or_false] at hp hq
    unfold norm
    rw [lt_sqrt (by norm_num)]
    rcases hp with rfl | rfl | rfl | rfl <;> rcases hq with rfl | rfl | rfl | rfl <;> norm_num [vsub, place, turn, vadd, dot, still, turned]

end Verif.Valid
