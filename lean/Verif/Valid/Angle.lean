import Verif.Valid.Report

/-!
# C216-C223: constraints on positions and directions
-/

namespace Verif.Valid
open Real

theorem norm_eq (v : V ℝ) : norm v = √(dot v v) := by
  unfold norm dot
  congr 1
  ring

theorem norm_nonneg (v : V ℝ) : 0 ≤ norm v := sqrt_nonneg _

theorem dot_self_nonneg (v : V ℝ) : 0 ≤ dot v v := by
  unfold dot
  nlinarith [mul_self_nonneg v.x, mul_self_nonneg v.y, mul_self_nonneg v.z]

theorem norm_sq (v : V ℝ) : norm v * norm v = dot v v := by
  rw [norm_eq, mul_self_sqrt (dot_self_nonneg v)]

theorem norm_one {v : V ℝ} : norm v = 1 ↔ dot v v = 1 := by
  rw [norm_eq, sqrt_eq_one]

theorem norm_turn {g : Tf ℝ} (h : Rigid g) (v : V ℝ) : norm (turn g v) = norm v := by
  rw [norm_eq, norm_eq, h]

theorem test_sat (p : Prop) (e : ℝ) : (test p e).satisfied = true ↔ p := by
  unfold test
  simp

theorem test_error (p : Prop) (e : ℝ) : (test p e).error = e := rfl

/-- Cauchy and Schwarz -/
theorem abs_dot_le (a b : V ℝ) : |dot a b| ≤ norm a * norm b := by
  refine abs_le_of_sq_le_sq ?_ (mul_nonneg (norm_nonneg a) (norm_nonneg b))
  have h : (norm a * norm b) ^ 2 = dot a a * dot b b := by
    rw [← norm_sq a, ← norm_sq b]; ring
  rw [h]
  unfold dot
  nlinarith [sq_nonneg (a.x * b.y - a.y * b.x), sq_nonneg (a.y * b.z - a.z * b.y), sq_nonneg (a.x * b.z - a.z * b.x)]

theorem dot_smul (a b : V ℝ) (s t : ℝ) : dot (smul s a) (smul t b) = s * t * dot a b := by
  unfold dot smul
  ring

theorem unit_norm {v : V ℝ} (h : norm v ≠ 0) : norm (smul (1 / norm v) v) = 1 := by
  rw [norm_one, dot_smul, ← norm_sq]
  field_simp

/-- Axes are unit vectors: the named ones are those of the coordinates, and a vector is shortened or lengthened. -/
theorem localAxis_unit {a : Axis} {v : V ℝ} (h : localAxis a = some v) : norm v = 1 := by
  unfold localAxis at h
  split at h
  · split_ifs at h <;> injection h with h <;> rw [norm_one, ← h] <;> norm_num [dot]
  · split_ifs at h with hn
    injection h with h
    rw [← h]
    refine unit_norm fun h0 => hn ?_
    rw [h0]
    norm_num

/-- the angle between two unit vectors -/
theorem exists_angle {a b : V ℝ} (ha : norm a = 1) (hb : norm b = 1) : ∃ θ, 0 ≤ θ ∧ θ ≤ π ∧ dot a b = cos θ := by
  have h := abs_dot_le a b
  rw [ha, hb, mul_one, abs_le] at h
  exact ⟨arccos (dot a b), arccos_nonneg _, arccos_le_pi _, (cos_arccos h.1 h.2).symm⟩

theorem arccos_abs_cos {θ : ℝ} (h0 : 0 ≤ θ) (h1 : θ ≤ π) : arccos (min 1 |cos θ|) = min θ (π - θ) := by
  rw [min_eq_right (abs_cos_le_one θ)]
  rcases le_total θ (π / 2) with h | h
  · rw [abs_of_nonneg (cos_nonneg_of_neg_pi_div_two_le_of_le (by linarith [pi_pos]) h), arccos_cos h0 h1, min_eq_left (by linarith)]
  · rw [abs_of_nonpos (cos_nonpos_of_pi_div_two_le_of_le h (by linarith [pi_pos])), ← cos_pi_sub, arccos_cos (by linarith) (by linarith), min_eq_right (by linarith)]

theorem arcsin_abs_cos {θ : ℝ} (h0 : 0 ≤ θ) (h1 : θ ≤ π) : arcsin (min 1 |cos θ|) = |π / 2 - θ| := by
  have h := arccos_abs_cos h0 h1
  rw [arccos] at h
  have h2 : arcsin (min 1 |cos θ|) = π / 2 - min θ (π - θ) := by linarith
  rw [h2]
  rcases le_total θ (π / 2) with h | h
  · rw [min_eq_left (by linarith), abs_of_nonneg (by linarith)]
  · rw [min_eq_right (by linarith), abs_of_nonpos (by linarith)]
    ring

/-! ## C216, C217: places -/

/-- where a face of a part is: the origin of the part if no face is named, the middle of a side of its box, or the origin of a frame
`part.face` -/
inductive At (world : World) (part : String) (bounds : Option (Box ℝ)) : Option String → V ℝ → Prop
  | origin {t : Tf ℝ} : world part = some t → At world part bounds none t.o
  | top {t : Tf ℝ} {lo hi : V ℝ} : world part = some t → bounds = some (lo, hi) →
      At world part bounds (some "TOP") (place t ⟨(lo.x + hi.x) / 2, (lo.y + hi.y) / 2, hi.z⟩)
  | bottom {t : Tf ℝ} {lo hi : V ℝ} : world part = some t → bounds = some (lo, hi) →
      At world part bounds (some "BOTTOM") (place t ⟨(lo.x + hi.x) / 2, (lo.y + hi.y) / 2, lo.z⟩)
  | front {t : Tf ℝ} {lo hi : V ℝ} : world part = some t → bounds = some (lo, hi) →
      At world part bounds (some "FRONT") (place t ⟨(lo.x + hi.x) / 2, hi.y, (lo.z + hi.z) / 2⟩)
  | back {t : Tf ℝ} {lo hi : V ℝ} : world part = some t → bounds = some (lo, hi) →
      At world part bounds (some "BACK") (place t ⟨(lo.x + hi.x) / 2, lo.y, (lo.z + hi.z) / 2⟩)
  | right {t : Tf ℝ} {lo hi : V ℝ} : world part = some t → bounds = some (lo, hi) →
      At world part bounds (some "RIGHT") (place t ⟨hi.x, (lo.y + hi.y) / 2, (lo.z + hi.z) / 2⟩)
  | left {t : Tf ℝ} {lo hi : V ℝ} : world part = some t → bounds = some (lo, hi) →
      At world part bounds (some "LEFT") (place t ⟨lo.x, (lo.y + hi.y) / 2, (lo.z + hi.z) / 2⟩)
  | frame {t u : Tf ℝ} {face : String} : world part = some t → face ∉ ["TOP", "BOTTOM", "FRONT", "BACK", "RIGHT", "LEFT"] →
      world (part ++ "." ++ face) = some u → At world part bounds (some face) u.o

/-- **C217, the part that holds.** The six standard faces are the middles of the sides of the part's box, moved with the part, and other names are the
origins of the frames of the part. -/
theorem C217_face_partial {world : World} {part face : String} {bounds : Option (Box ℝ)} {p : V ℝ} (h : At world part bounds (some face) p) {t : Tf ℝ}
    (ht : world part = some t) : facePosition part t face bounds world = (p, false) := by
  have key : ∀ {t'}, world part = some t' → t' = t := fun h' => by rw [ht] at h'; exact (Option.some.inj h').symm
  cases h
  case frame t' u h' hf hu =>
    have : faceOffset face bounds = none := by
      simp only [List.mem_cons, List.not_mem_nil, or_false, not_or] at hf
      unfold faceOffset
      rcases bounds with _ | ⟨lo, hi⟩
      · rfl
      · simp [hf]
    unfold facePosition
    rw [this]
    dsimp only
    rw [hu]
  all_goals
    rename_i h' hb
    rw [key h', hb]
    simp [facePosition, faceOffset]

/-- There is a message about a face exactly if it is neither a standard face of a part with a box nor a frame, of the part or of the world. -/
theorem C217_message (part : String) (t : Tf ℝ) (face : String) (bounds : Option (Box ℝ)) (world : World) :
    (facePosition part t face bounds world).2 = true ↔
      ¬ (face ∈ ["TOP", "BOTTOM", "FRONT", "BACK", "RIGHT", "LEFT"] ∧ bounds ≠ none) ∧ world (part ++ "." ++ face) = none ∧ world face = none := by
  have hoff : faceOffset face bounds = none ↔ ¬ (face ∈ ["TOP", "BOTTOM", "FRONT", "BACK", "RIGHT", "LEFT"] ∧ bounds ≠ none) := by
    unfold faceOffset
    rcases bounds with _ | ⟨lo, hi⟩
    · simp
    · simp only [List.mem_cons, List.not_mem_nil, or_false, ne_eq, reduceCtorEq, not_false_eq_true, and_true]
      split_ifs <;> simp_all
  rw [← hoff]
  unfold facePosition
  cases h1 : faceOffset face bounds with
  | some v => simp
  | none =>
    cases h2 : world (part ++ "." ++ face) with
    | some u => simp
    | none => cases h3 : world face <;> simp

/-- **C217, what does not.** A name that is no frame (and no standard face with a box) is taken as the part's origin: the result is the same as without naming a face. -/
theorem C217_unknown_face (lab : Lab ℝ) (c : Con) (world : World) {face : String} (hf : c.faceA = some face) (h1 : faceOffset face c.boundsA = none)
    (h2 : world (c.frameA ++ "." ++ face) = none) (h3 : world face = none) : evaluate lab c world = evaluate lab { c with faceA := none } world := by
  unfold evaluate
  dsimp only
  rcases ha : world c.frameA with _ | ta
  · rfl
  dsimp only
  have : pointA c ta world = pointA { c with faceA := none } ta world := by
    unfold pointA
    rw [hf]
    dsimp only
    unfold facePosition
    rw [h1]
    dsimp only
    rw [h2]
    dsimp only
    rw [h3]
  rw [this]
  rfl

example : ∃ (c : Con) (world : World) (r : Res), c.faceA = some "OUTPUT_SHAFFT" ∧ (∀ lab, evaluate lab c world = some r) ∧ r.satisfied = true := by
  refine ⟨{ name := "n", kind := .coincident, frameA := "a", frameB := some "b", faceA := some "OUTPUT_SHAFFT" },
    fun n => if n = "a" ∨ n = "b" then some still else none, test ((0 : ℝ) ≤ 0.1) 0, rfl, fun lab => ?_, ?_⟩
  · simp [evaluate, lookB, coincident, second, pointB, pointA, facePosition, faceOffset, norm, vsub]
  · rw [test_sat]
    norm_num

theorem pointA_at {c : Con} {world : World} {ta : Tf ℝ} {p : V ℝ} (ha : world c.frameA = some ta) (h : At world c.frameA c.boundsA c.faceA p) :
    pointA c ta world = p := by
  unfold pointA
  rcases hf : c.faceA with _ | f
  · rw [hf] at h
    cases h
    rename_i h'
    rw [ha] at h'
    injection h' with h'
    rw [h']
  · rw [hf] at h
    dsimp only
    rw [C217_face_partial h ha]

theorem second_at {c : Con} {world : World} {n : String} {tb : Tf ℝ} {q : V ℝ} (hb : world n = some tb) (h : At world n c.boundsB c.faceB q) :
    second c (pointB c (some (n, tb)) world) (some tb) = some q := by
  unfold second pointB
  rcases hf : c.faceB with _ | f
  · rw [hf] at h
    cases h
    rename_i h'
    rw [hb] at h'
    injection h' with h'
    rw [h']
  · rw [hf] at h
    dsimp only
    rw [C217_face_partial h hb]

theorem At.part {world : World} {n : String} {b : Option (Box ℝ)} {f : Option String} {p : V ℝ} (h : At world n b f p) : ∃ t, world n = some t := by
  cases h <;> exact ⟨_, by assumption⟩

/-- **C216.** COINCIDENT is satisfied exactly if the two places (origins, faces or frames) are at most the tolerance apart, and the error is
their distance. -/
theorem C216_coincident (lab : Lab ℝ) {c : Con} {world : World} {n : String} {p q : V ℝ} (hk : c.kind = .coincident) (hn : c.frameB = some n)
    (hp : At world c.frameA c.boundsA c.faceA p) (hq : At world n c.boundsB c.faceB q) :
    ∃ r, evaluate lab c world = some r ∧ r.error = norm (vsub q p) ∧ (r.satisfied = true ↔ norm (vsub q p) ≤ c.tolMm) := by
  obtain ⟨ta, ha⟩ := hp.part
  obtain ⟨tb, hb⟩ := hq.part
  refine ⟨test (norm (vsub q p) ≤ c.tolMm) (norm (vsub q p)), ?_, rfl, test_sat _ _⟩
  unfold evaluate
  rw [ha]
  dsimp only
  unfold lookB
  rw [hn]
  dsimp only
  rw [hb]
  dsimp only
  rw [hk]
  dsimp only
  rw [pointA_at ha hp, Option.map_some, second_at hb hq]
  rfl

/-- AT_DISTANCE is satisfied exactly if the distance of the two places differs by at most the tolerance from the one asked. -/
theorem C216_at_distance (lab : Lab ℝ) {c : Con} {world : World} {n : String} {p q : V ℝ} {d : ℝ} (hk : c.kind = .atDistance) (hn : c.frameB = some n)
    (hd : c.radius = some d) (hp : At world c.frameA c.boundsA c.faceA p) (hq : At world n c.boundsB c.faceB q) :
    ∃ r, evaluate lab c world = some r ∧ r.error = |norm (vsub q p) - d| ∧ (r.satisfied = true ↔ |norm (vsub q p) - d| ≤ c.tolMm) := by
  obtain ⟨ta, ha⟩ := hp.part
  obtain ⟨tb, hb⟩ := hq.part
  refine ⟨test (|norm (vsub q p) - d| ≤ c.tolMm) |norm (vsub q p) - d|, ?_, rfl, test_sat _ _⟩
  unfold evaluate
  rw [ha]
  dsimp only
  unfold lookB
  rw [hn]
  dsimp only
  rw [hb]
  dsimp only
  rw [hk]
  dsimp only
  rw [pointA_at ha hp, Option.map_some, second_at hb hq]
  unfold atDistance
  rw [hd]

/-- Without a second part the place is compared with the reference point; a face named for the second part is ignored. -/
theorem C216_reference (lab : Lab ℝ) {c : Con} {world : World} {p m : V ℝ} (hk : c.kind = .coincident) (hn : c.frameB = none) (hm : c.center = some m)
    (hp : At world c.frameA c.boundsA c.faceA p) :
    ∃ r, evaluate lab c world = some r ∧ r.error = norm (vsub m p) ∧ (r.satisfied = true ↔ norm (vsub m p) ≤ c.tolMm) := by
  obtain ⟨ta, ha⟩ := hp.part
  refine ⟨test (norm (vsub m p) ≤ c.tolMm) (norm (vsub m p)), ?_, rfl, test_sat _ _⟩
  unfold evaluate
  rw [ha]
  dsimp only
  unfold lookB
  rw [hn]
  dsimp only
  rw [hk]
  dsimp only
  rw [pointA_at ha hp]
  have : second c (pointB c none world) (Option.map (fun x : String × Tf ℝ => x.2) none) = some m := by
    unfold second pointB
    rcases c.faceB with _ | f <;> exact hm
  rw [this]
  rfl

/-- two stacked boxes: the top of the lower one is at the bottom of the upper one -/
example (lab : Lab ℝ) : ∃ (c : Con) (world : World) (r : Res), c.faceA = some "TOP" ∧ c.faceB = some "BOTTOM" ∧ evaluate lab c world = some r ∧ r.error = 0 ∧ r.satisfied = true := by
  let w : World := fun n => if n = "a" then some still else if n = "b" then some ⟨⟨1, 0, 0⟩, ⟨0, 1, 0⟩, ⟨0, 0, 1⟩, ⟨0, 0, 30⟩⟩ else none
  let c : Con := { name := "n", kind := .coincident, frameA := "a", frameB := some "b", faceA := some "TOP", faceB := some "BOTTOM",
                   boundsA := some (⟨-5, -5, 0⟩, ⟨5, 5, 30⟩), boundsB := some (⟨-5, -5, 0⟩, ⟨5, 5, 40⟩) }
  obtain ⟨r, h1, h2, h3⟩ := C216_coincident lab (c := c) (world := w) (n := "b") rfl rfl (.top (t := still) (lo := ⟨-5, -5, 0⟩) (hi := ⟨5, 5, 30⟩) (by simp [w, c]) rfl)
    (.bottom (t := ⟨⟨1, 0, 0⟩, ⟨0, 1, 0⟩, ⟨0, 0, 1⟩, ⟨0, 0, 30⟩⟩) (lo := ⟨-5, -5, 0⟩) (hi := ⟨5, 5, 40⟩) (by simp [w]) rfl)
  have hz : norm (vsub (place ⟨⟨1, 0, 0⟩, ⟨0, 1, 0⟩, ⟨0, 0, 1⟩, ⟨0, 0, 30⟩⟩ ⟨(-5 + 5) / 2, (-5 + 5) / 2, 0⟩) (place still ⟨(-5 + 5) / 2, (-5 + 5) / 2, 30⟩)) = 0 := by
    norm_num [norm, vsub, place, turn, still, dot, vadd]
  refine ⟨c, w, r, rfl, rfl, h1, ?_, ?_⟩
  · rw [h2]; exact hz
  · rw [h3]
    refine le_of_eq_of_le hz ?_
    show (0 : ℝ) ≤ 0.1
    norm_num

/-! ## C218, C219: directions -/

/-- the result of a directional constraint between two frames -/
theorem eval_frames {lab : Lab ℝ} {c : Con} {world : World} {ta tb : Tf ℝ} {n : String} (ha : world c.frameA = some ta) (hn : c.frameB = some n)
    (hb : world n = some tb) : evaluate lab c world = (match c.kind with
      | .coincident => some (coincident c (pointA c ta world) (second c (pointB c (some (n, tb)) world) (some tb)))
      | .concentric => concentric c ta (some tb)
      | .parallel => parallel c ta (some tb)
      | .perpendicular => perpendicular c ta (some tb)
      | .tangent => some (tangent c ta)
      | .atDistance => some (atDistance c (pointA c ta world) (second c (pointB c (some (n, tb)) world) (some tb)))
      | .boltPattern => boltPattern c ta (some tb)
      | .minDistance => minDistance c (pointA c ta world) (second c (pointB c (some (n, tb)) world) (some tb)) ta (some tb)
      | .zStack => some (zStack c ta (some tb))
      | .noOverlap => noOverlap lab c ta (some tb)
      | .custom =>
        match c.validator with
        | none => some cannot
        | some f =>
          match f world with
          | some r => some r
          | none => some cannot) := by
  unfold evaluate lookB
  rw [ha]
  dsimp only
  rw [hn]
  dsimp only
  rw [hb]
  rfl

/-- **C218, for two parts.** PARALLEL measures the angle between the lines of the two axes (0 to 90 degrees, whichever way they point), for parts placed by rotations and
translations; it is satisfied exactly if the angle is at most the tolerance. -/
theorem C218_parallel_partial (lab : Lab ℝ) {c : Con} {world : World} {n : String} {ta tb : Tf ℝ} {la lb : V ℝ} (hk : c.kind = .parallel) (hn : c.frameB = some n)
    (ha : world c.frameA = some ta) (hb : world n = some tb) (hra : Rigid ta) (hrb : Rigid tb) (hla : localAxis c.axisA = some la) (hlb : localAxis c.axisB = some lb) :
    ∃ r θ, evaluate lab c world = some r ∧ 0 ≤ θ ∧ θ ≤ π ∧ dot (turn ta la) (turn tb lb) = cos θ ∧
      r.error = degrees (min θ (π - θ)) ∧ (r.satisfied = true ↔ degrees (min θ (π - θ)) ≤ c.tolDeg) := by
  obtain ⟨θ, h0, h1, h2⟩ := exists_angle (a := turn ta la) (b := turn tb lb) (by rw [norm_turn hra, localAxis_unit hla]) (by rw [norm_turn hrb, localAxis_unit hlb])
  refine ⟨test (degrees (min θ (π - θ)) ≤ c.tolDeg) (degrees (min θ (π - θ))), θ, ?_, h0, h1, h2, rfl, test_sat _ _⟩
  rw [eval_frames ha hn hb, hk]
  dsimp only
  unfold parallel secondAxis
  rw [hla]
  dsimp only
  rw [hlb]
  dsimp only
  unfold angleTo absDot
  dsimp only
  rw [h2, arccos_abs_cos h0 h1]

theorem eval_alone {lab : Lab ℝ} {c : Con} {world : World} {ta : Tf ℝ} (ha : world c.frameA = some ta) (hn : c.frameB = none) :
    (c.kind = .parallel → evaluate lab c world = parallel c ta none) ∧ (c.kind = .perpendicular → evaluate lab c world = perpendicular c ta none) ∧
    (c.kind = .tangent → evaluate lab c world = some (tangent c ta)) := by
  unfold evaluate lookB
  rw [ha, hn]
  refine ⟨fun h => ?_, fun h => ?_, fun h => ?_⟩ <;> rw [h] <;> rfl

/-- With a reference axis that is not zero, the same for the angle to it. -/
theorem C218_reference_partial (lab : Lab ℝ) {c : Con} {world : World} {ta : Tf ℝ} {la v : V ℝ} (hk : c.kind = .parallel) (hn : c.frameB = none)
    (ha : world c.frameA = some ta) (hra : Rigid ta) (hla : localAxis c.axisA = some la) (hv : c.axis = some v) (h0 : norm v ≠ 0) :
    ∃ r θ, evaluate lab c world = some r ∧ 0 ≤ θ ∧ θ ≤ π ∧ dot (turn ta la) v = norm v * cos θ ∧
      r.error = degrees (min θ (π - θ)) ∧ (r.satisfied = true ↔ degrees (min θ (π - θ)) ≤ c.tolDeg) := by
  obtain ⟨θ, g0, g1, g2⟩ := exists_angle (a := turn ta la) (b := smul (1 / norm v) v) (by rw [norm_turn hra, localAxis_unit hla]) (unit_norm h0)
  refine ⟨test (degrees (min θ (π - θ)) ≤ c.tolDeg) (degrees (min θ (π - θ))), θ, ?_, g0, g1, ?_, rfl, test_sat _ _⟩
  · rw [(eval_alone ha hn).1 hk]
    unfold parallel secondAxis
    rw [hla]
    dsimp only
    rw [hv]
    dsimp only
    unfold unit
    rw [if_neg h0]
    unfold angleTo absDot
    dsimp only
    rw [g2, arccos_abs_cos g0 g1]
  · rw [← g2]
    unfold dot smul
    field_simp

/-- **C218, what does not hold.** A reference axis of zero is parallel to everything: the division gives NaN, and `min(1.0, NaN)` is 1.0. -/
theorem C218_zero_reference (lab : Lab ℝ) {c : Con} {world : World} {ta : Tf ℝ} {la : V ℝ} (hk : c.kind = .parallel) (hn : c.frameB = none)
    (ha : world c.frameA = some ta) (hla : localAxis c.axisA = some la) (hv : c.axis = some ⟨0, 0, 0⟩) (ht : 0 ≤ c.tolDeg) :
    ∃ r, evaluate lab c world = some r ∧ r.satisfied = true ∧ r.error = 0 := by
  refine ⟨test ((0 : ℝ) ≤ c.tolDeg) 0, ?_, (test_sat _ _).mpr ht, rfl⟩
  rw [(eval_alone ha hn).1 hk]
  unfold parallel secondAxis
  rw [hla]
  dsimp only
  rw [hv]
  dsimp only
  unfold unit
  rw [if_pos (by norm_num [norm])]
  unfold angleTo absDot
  dsimp only
  rw [arccos_one]
  unfold degrees
  rw [zero_mul, zero_div]

/-- two parts, one turned by 90 degrees: x of the one is parallel to y of the other -/
example (lab : Lab ℝ) : ∃ (c : Con) (world : World) (r : Res), evaluate lab c world = some r ∧ r.satisfied = true ∧ c.axisA = .name "x" ∧ c.axisB = .name "-y" := by
  let c : Con := { name := "n", kind := .parallel, frameA := "a", frameB := some "b", axisA := .name "x", axisB := .name "-y" }
  let w : World := fun n => if n = "a" then some still else if n = "b" then some (quarter ⟨1, 2, 3⟩) else none
  obtain ⟨r, θ, h1, h2, h3, h4, h5, h6⟩ := C218_parallel_partial lab (c := c) (world := w) (n := "b") (ta := still) (tb := quarter ⟨1, 2, 3⟩) (la := ⟨1, 0, 0⟩) (lb := ⟨0, -1, 0⟩)
    rfl rfl (by simp [w, c]) (by simp [w]) still_rigid (quarter_rigid _) (by simp [c, localAxis]) (by simp [c, localAxis])
  refine ⟨c, w, r, h1, ?_, rfl, rfl⟩
  rw [h6]
  have : cos θ = 1 := by rw [← h4]; norm_num [dot, turn, still, quarter]
  have ht : θ = 0 := by
    have := arccos_cos h2 h3
    rw [‹cos θ = 1›, arccos_one] at this
    exact this.symm
  rw [ht, min_eq_left (by linarith [pi_pos]), degrees]
  show _ ≤ (1 : ℝ)
  norm_num

/-- **C219.** PERPENDICULAR measures how far the angle between the two axes is from 90 degrees. -/
theorem C219_perpendicular (lab : Lab ℝ) {c : Con} {world : World} {n : String} {ta tb : Tf ℝ} {la lb : V ℝ} (hk : c.kind = .perpendicular) (hn : c.frameB = some n)
    (ha : world c.frameA = some ta) (hb : world n = some tb) (hra : Rigid ta) (hrb : Rigid tb) (hla : localAxis c.axisA = some la) (hlb : localAxis c.axisB = some lb) :
    ∃ r θ, evaluate lab c world = some r ∧ 0 ≤ θ ∧ θ ≤ π ∧ dot (turn ta la) (turn tb lb) = cos θ ∧
      r.error = degrees |π / 2 - θ| ∧ (r.satisfied = true ↔ degrees |π / 2 - θ| ≤ c.tolDeg) := by
  obtain ⟨θ, h0, h1, h2⟩ := exists_angle (a := turn ta la) (b := turn tb lb) (by rw [norm_turn hra, localAxis_unit hla]) (by rw [norm_turn hrb, localAxis_unit hlb])
  refine ⟨test (degrees |π / 2 - θ| ≤ c.tolDeg) (degrees |π / 2 - θ|), θ, ?_, h0, h1, h2, rfl, test_sat _ _⟩
  rw [eval_frames ha hn hb, hk]
  dsimp only
  unfold perpendicular secondAxis
  rw [hla]
  dsimp only
  rw [hlb]
  dsimp only
  unfold absDot
  dsimp only
  rw [h2, arcsin_abs_cos h0 h1]

/-- With a reference axis, too; a zero reference axis is 90 degrees off. -/
theorem C219_reference (lab : Lab ℝ) {c : Con} {world : World} {ta : Tf ℝ} {la v : V ℝ} (hk : c.kind = .perpendicular) (hn : c.frameB = none)
    (ha : world c.frameA = some ta) (hra : Rigid ta) (hla : localAxis c.axisA = some la) (hv : c.axis = some v) :
    (norm v ≠ 0 → ∃ r θ, evaluate lab c world = some r ∧ 0 ≤ θ ∧ θ ≤ π ∧ dot (turn ta la) v = norm v * cos θ ∧
      r.error = degrees |π / 2 - θ| ∧ (r.satisfied = true ↔ degrees |π / 2 - θ| ≤ c.tolDeg)) ∧
    (norm v = 0 → ∃ r, evaluate lab c world = some r ∧ r.error = 90 ∧ (r.satisfied = true ↔ 90 ≤ c.tolDeg)) := by
  constructor
  · intro h0
    obtain ⟨θ, g0, g1, g2⟩ := exists_angle (a := turn ta la) (b := smul (1 / norm v) v) (by rw [norm_turn hra, localAxis_unit hla]) (unit_norm h0)
    refine ⟨test (degrees |π / 2 - θ| ≤ c.tolDeg) (degrees |π / 2 - θ|), θ, ?_, g0, g1, ?_, rfl, test_sat _ _⟩
    · rw [(eval_alone ha hn).2.1 hk]
      unfold perpendicular secondAxis
      rw [hla]
      dsimp only
      rw [hv]
      dsimp only
      unfold unit
      rw [if_neg h0]
      unfold absDot
      dsimp only
      rw [g2, arcsin_abs_cos g0 g1]
    · rw [← g2]
      unfold dot smul
      field_simp
  · intro h0
    have h90 : degrees (π / 2) = 90 := by
      unfold degrees
      field_simp
      norm_num
    refine ⟨test ((90 : ℝ) ≤ c.tolDeg) 90, ?_, rfl, test_sat _ _⟩
    rw [(eval_alone ha hn).2.1 hk]
    unfold perpendicular secondAxis
    rw [hla]
    dsimp only
    rw [hv]
    dsimp only
    unfold unit
    rw [if_pos h0]
    unfold absDot
    dsimp only
    rw [arcsin_one, h90]

end Verif.Valid
