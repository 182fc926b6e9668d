import Verif.Ring.Cuts
import Verif.Segment.Examples
import Mathlib.Analysis.SpecialFunctions.Trigonometric.Bounds

/-!
# C209-C212: ring spines, attachment points, profiles and holes
-/

namespace Verif.Ring
open Verif.Path (Seg Vec sub add scale dot len pathLength segLength)
open Verif.Segment (Err connectorProfile Even)
open Real

theorem rotate_sub (a : String) (c s : ℝ) (v w : Vec) : rotate a c s (sub v w) = sub (rotate a c s v) (rotate a c s w) := by
  unfold rotate sub
  split_ifs <;> (ext <;> dsimp only <;> ring)

theorem rotate_dot (a : String) (t : ℝ) (v w : Vec) : dot (rotate a (cos t) (sin t) v) (rotate a (cos t) (sin t) w) = dot v w := by
  have h := sin_sq_add_cos_sq t
  unfold rotate dot
  split_ifs <;> dsimp only
  · linear_combination (v.y * w.y + v.z * w.z) * h
  · linear_combination (v.x * w.x + v.z * w.z) * h
  · linear_combination (v.x * w.x + v.y * w.y) * h

theorem tilt_sub (deg : ℝ) (a : String) (v w : Vec) : tilt deg a (sub v w) = sub (tilt deg a v) (tilt deg a w) := by
  unfold tilt
  split
  · exact rotate_sub ..
  · rfl

theorem tilt_dot (deg : ℝ) (a : String) (v w : Vec) : dot (tilt deg a v) (tilt deg a w) = dot v w := by
  unfold tilt
  split
  · exact rotate_dot ..
  · rfl

theorem len_eq (v : Vec) : len v = √(dot v v) := by
  unfold len dot
  congr 1
  ring

theorem tilt_len (deg : ℝ) (a : String) (v : Vec) : len (tilt deg a v) = len v := by
  rw [len_eq, tilt_dot, ← len_eq]

theorem shift_sub (o v : Vec) : sub (shift o v) o = v := by
  unfold shift sub
  ext <;> dsimp only <;> ring

theorem shift_sub_shift (o v w : Vec) : sub (shift o v) (shift o w) = sub v w := by
  unfold shift sub
  ext <;> dsimp only <;> ring

theorem onCircle_len (r a : ℝ) : len (onCircle r a) = |r| := by
  have h := sin_sq_add_cos_sq a
  unfold onCircle len
  dsimp only
  rw [← sqrt_sq_eq_abs]
  congr 1
  linear_combination r ^ 2 * h

/-- the chord between two points of a circle -/
theorem onCircle_chord (r a b : ℝ) : len (sub (onCircle r a) (onCircle r b)) = 2 * |r| * |sin ((a - b) / 2)| := by
  have h1 := sin_sq_add_cos_sq a
  have h2 := sin_sq_add_cos_sq b
  have h3 : cos (a - b) = 1 - 2 * sin ((a - b) / 2) ^ 2 := by
    have h5 := cos_two_mul ((a - b) / 2)
    have h4 := sin_sq_add_cos_sq ((a - b) / 2)
    rw [show 2 * ((a - b) / 2) = a - b by ring] at h5
    linarith
  rw [cos_sub] at h3
  unfold onCircle sub len
  dsimp only
  rw [show 2 * |r| * |sin ((a - b) / 2)| = |2 * r * sin ((a - b) / 2)| by rw [abs_mul, abs_mul, abs_two], ← sqrt_sq_eq_abs]
  congr 1
  linear_combination r ^ 2 * h1 + r ^ 2 * h2 - 2 * r ^ 2 * h3

/-- the place of the corner `i` of a ring: the centre plus the tilted point of the circle at `i` out of `n` full turns -/
noncomputable def corner (r : ℝ) (center : Vec) (deg : ℝ) (axis : String) (n i : ℕ) : Vec :=
  shift center (tilt deg axis (onCircle r (2 * π * i / n)))

theorem spine_eq {r : ℝ} {center : Vec} {deg : ℝ} {axis : String} {n : ℕ} (hn : n ≠ 0) :
    ringSpine r center deg axis n = .ok ((List.range n).map fun i : ℕ => Seg.line (corner r center deg axis n i) (corner r center deg axis n (i + 1))) := by
  unfold ringSpine corner
  rw [if_neg hn]
  dsimp only
  congr 1
  refine List.map_congr_left fun i _ => ?_
  push_cast
  rw [show (i : ℝ) * (2 * π / n) = 2 * π * i / n by ring, show ((i : ℝ) + 1) * (2 * π / n) = 2 * π * (i + 1) / n by ring]

theorem corner_len (r : ℝ) (center : Vec) (deg : ℝ) (axis : String) (n i : ℕ) : len (sub (corner r center deg axis n i) center) = |r| := by
  unfold corner
  rw [shift_sub, tilt_len, onCircle_len]

theorem corner_chord (r : ℝ) (center : Vec) (deg : ℝ) (axis : String) (n i : ℕ) :
    len (sub (corner r center deg axis n (i + 1)) (corner r center deg axis n i)) = 2 * |r| * |sin (π / n)| := by
  unfold corner
  rw [shift_sub_shift, ← tilt_sub, tilt_len, onCircle_chord]
  congr 3
  push_cast
  ring

theorem corner_plane (r : ℝ) (center : Vec) (deg : ℝ) (axis : String) (n i : ℕ) :
    dot (sub (corner r center deg axis n i) center) (tilt deg axis ⟨0, 0, 1⟩) = 0 := by
  unfold corner
  rw [shift_sub, tilt_dot]
  simp [onCircle, dot]

/-- **C209.** The spine of a ring is a closed polygon of `n` straight segments; all corners are at the distance of the radius from the
centre and in the tilted plane through it; neighbouring corners are equally far apart. -/
theorem C209_spine (r : ℝ) (center : Vec) (deg : ℝ) (axis : String) {n : ℕ} (hn : n ≠ 0) :
    ∃ (p : List Seg) (v : ℕ → Vec), ringSpine r center deg axis n = .ok p ∧ p.length = n ∧
      (∀ i, i < n → p[i]? = some (.line (v i) (v (i + 1)))) ∧ v n = v 0 ∧
      (∀ i, len (sub (v i) center) = |r| ∧ dot (sub (v i) center) (tilt deg axis ⟨0, 0, 1⟩) = 0) ∧
      ∀ i, len (sub (v (i + 1)) (v i)) = 2 * |r| * sin (π / n) := by
  refine ⟨_, corner r center deg axis n, spine_eq hn, by simp, fun i hi => ?_, ?_, fun i => ⟨corner_len .., corner_plane ..⟩, fun i => ?_⟩
  · rw [List.getElem?_map, List.getElem?_range hi]
    rfl
  · have : (n : ℝ) ≠ 0 := by exact_mod_cast hn
    unfold corner
    rw [mul_div_cancel_right₀ _ this]
    simp [onCircle]
  · have h1 : (1 : ℝ) ≤ n := by exact_mod_cast Nat.one_le_iff_ne_zero.mpr hn
    rw [corner_chord, abs_of_nonneg (a := sin (π / n)) (sin_nonneg_of_nonneg_of_le_pi (by positivity) (div_le_self pi_pos.le h1))]

theorem pathLength_const {α : Type} (f : α → Seg) (L : ℝ) (h : ∀ a, segLength (f a) = L) (l : List α) : pathLength (l.map f) = l.length * L := by
  induction l with
  | nil => rw [List.map_nil, Verif.Path.pathLength_nil]; simp
  | cons a l ih =>
    rw [List.map_cons, Verif.Path.pathLength_cons, h, ih, List.length_cons]
    push_cast
    ring

/-- Its length is that of a regular polygon, at most the circumference. -/
theorem C209_length (r : ℝ) (center : Vec) (deg : ℝ) (axis : String) {n : ℕ} (hn : n ≠ 0) :
    ∃ p, ringSpine r center deg axis n = .ok p ∧ pathLength p = n * (2 * |r| * sin (π / n)) ∧ pathLength p ≤ 2 * π * |r| := by
  have h1 : (1 : ℝ) ≤ n := by exact_mod_cast Nat.one_le_iff_ne_zero.mpr hn
  have h0 : (0 : ℝ) < n := by linarith
  have hs : 0 ≤ sin (π / n) := sin_nonneg_of_nonneg_of_le_pi (by positivity) (div_le_self pi_pos.le h1)
  have hl : ∀ i : ℕ, segLength (Seg.line (corner r center deg axis n i) (corner r center deg axis n (i + 1))) = 2 * |r| * sin (π / n) := fun i => by
    show len _ = _
    rw [corner_chord, abs_of_nonneg hs]
  refine ⟨_, spine_eq hn, ?_, ?_⟩
  · rw [pathLength_const _ _ hl, List.length_range]
  · rw [pathLength_const _ _ hl, List.length_range]
    have h2 : sin (π / n) ≤ π / n := (Real.sin_lt (by positivity)).le
    calc (n : ℝ) * (2 * |r| * sin (π / n)) = n * sin (π / n) * (2 * |r|) := by ring
      _ ≤ n * (π / n) * (2 * |r|) := by gcongr
      _ = 2 * π * |r| := by field_simp

/-- So the results on cuts and connectors for evenly divided spines hold on rings. -/
theorem C209_even {r : ℝ} {center : Vec} {deg : ℝ} {axis : String} {n : ℕ} (hn : n ≠ 0) (hlong : 1e-10 ≤ n * (2 * |r| * sin (π / n))) :
    ∃ p, ringSpine r center deg axis n = .ok p ∧ Even p (2 * |r| * sin (π / n)) := by
  obtain ⟨p, e1, e2, e3⟩ := C209_length r center deg axis hn
  refine ⟨p, e1, ?_, ?_, by rw [e2]; exact hlong⟩
  · rw [spine_eq hn] at e1
    injection e1 with e1
    subst e1
    intro g hg
    obtain ⟨i, _, rfl⟩ := List.mem_map.mp hg
    trivial
  · rw [spine_eq hn] at e1
    injection e1 with e1
    subst e1
    intro g hg
    obtain ⟨i, _, rfl⟩ := List.mem_map.mp hg
    have h1 : (1 : ℝ) ≤ n := by exact_mod_cast Nat.one_le_iff_ne_zero.mpr hn
    show len _ = _
    rw [corner_chord, abs_of_nonneg (sin_nonneg_of_nonneg_of_le_pi (by positivity) (div_le_self pi_pos.le h1))]

example : ∃ p, ringSpine 1 ⟨0, 0, 5⟩ 30 "y" 6 = .ok p ∧ pathLength p = 6 ∧ Even p 1 := by
  have h : ((6 : ℕ) : ℝ) * (2 * |1| * sin (π / (6 : ℕ))) = 6 := by push_cast; rw [sin_pi_div_six]; norm_num
  obtain ⟨p, h1, h2⟩ := C209_even (r := 1) (center := ⟨0, 0, 5⟩) (deg := 30) (axis := "y") (n := 6) (by norm_num) (by rw [h]; norm_num)
  obtain ⟨q, h3, h4, _⟩ := C209_length 1 ⟨0, 0, 5⟩ 30 "y" (n := 6) (by norm_num)
  rw [h1] at h3
  injection h3 with h3
  subst h3
  refine ⟨p, h1, by rw [h4, h], ?_⟩
  rw [show 2 * |(1 : ℝ)| * sin (π / (6 : ℕ)) = 1 by push_cast; rw [sin_pi_div_six]; norm_num] at h2
  exact h2

/-- No segments: division by zero. -/
theorem C209_zero (r : ℝ) (center : Vec) (deg : ℝ) (axis : String) : ringSpine r center deg axis 0 = .error .zeroDivision := if_pos rfl

/-- the axis of a tilt -/
def axisOf (axis : String) : Vec := if axis = "x" then ⟨1, 0, 0⟩ else if axis = "y" then ⟨0, 1, 0⟩ else ⟨0, 0, 1⟩

/-- The tilt is the right-handed rotation about the axis by the angle, in degrees (Rodrigues' formula); up to 0.001 degrees it is left out. -/
theorem C209_tilt (deg : ℝ) (axis : String) (v : Vec) :
    (0.001 < |deg| → tilt deg axis v = add (add (scale v (cos (deg * π / 180)))
        (scale ⟨(axisOf axis).y * v.z - (axisOf axis).z * v.y, (axisOf axis).z * v.x - (axisOf axis).x * v.z, (axisOf axis).x * v.y - (axisOf axis).y * v.x⟩ (sin (deg * π / 180))))
        (scale (axisOf axis) (dot (axisOf axis) v * (1 - cos (deg * π / 180))))) ∧
    (|deg| ≤ 0.001 → tilt deg axis v = v) := by
  constructor
  · intro h
    unfold tilt
    rw [if_pos h]
    unfold rotate axisOf radians add scale dot
    split_ifs <;> (ext <;> dsimp only <;> ring)
  · intro h
    unfold tilt
    rw [if_neg (not_lt.2 h)]

/-- a tilt by 90 degrees about the x axis turns the plane of the ring, whose normal was the z axis, to one with the normal −y -/
example : tilt 90 "x" ⟨0, 0, 1⟩ = ⟨0, -1, 0⟩ := by
  unfold tilt rotate radians
  rw [if_pos (by norm_num), if_pos rfl, show (90 : ℝ) * π / 180 = π / 2 by ring, cos_pi_div_two, sin_pi_div_two]
  ext <;> norm_num

/-- **C210.** An attachment point is on the circle of the ring, in its plane; the direction is a unit vector, and going the radius along
it from the point leads to the centre. -/
theorem C210_attachment (r angle : ℝ) (center : Vec) (deg : ℝ) (axis : String) :
    ∃ p d, attachment r angle center deg axis = (p, d) ∧ len (sub p center) = |r| ∧ len d = 1 ∧ add p (scale d r) = center ∧
      dot (sub p center) (tilt deg axis ⟨0, 0, 1⟩) = 0 := by
  refine ⟨_, _, rfl, ?_, ?_, ?_, ?_⟩
  · rw [shift_sub, tilt_len, onCircle_len]
  · rw [tilt_len]
    have h := sin_sq_add_cos_sq (radians angle)
    unfold len
    rw [show (-cos (radians angle)) ^ 2 + (-sin (radians angle)) ^ 2 + (0 : ℝ) ^ 2 = 1 by linear_combination h, sqrt_one]
  · unfold tilt rotate onCircle shift add scale
    split_ifs <;> (ext <;> dsimp only <;> ring)
  · rw [shift_sub, tilt_dot]
    simp [onCircle, dot]

/-- The attachment point at `i` out of `n` full turns is where the segment `i` of the spine begins. -/
theorem C210_on_spine (r : ℝ) (center : Vec) (deg : ℝ) (axis : String) {n i : ℕ} (hi : i < n) :
    ∃ p e, ringSpine r center deg axis n = .ok p ∧ p[i]? = some (.line (attachment r (360 * i / n) center deg axis).1 e) := by
  refine ⟨_, corner r center deg axis n (i + 1), spine_eq (by omega), ?_⟩
  rw [List.getElem?_map, List.getElem?_range hi]
  show some (Seg.line _ _) = _
  unfold attachment corner radians
  dsimp only
  rw [show 360 * (i : ℝ) / n * π / 180 = 2 * π * i / n by ring]

/-- twice the signed area of a polygon: positive if it runs counterclockwise -/
def area2 (l : List (ℝ × ℝ)) : ℝ := ((l.zip (l.rotate 1)).map fun ab => ab.1.1 * ab.2.2 - ab.2.1 * ab.1.2).sum

/-- **C211.** A wall thinner than half of both dimensions gives the outline, counterclockwise, and a hole, clockwise, that is smaller by the
wall on all sides. -/
theorem C211_profile_partial {w h t : ℝ} (t0 : 0 < t) (tw : 2 * t < w) (th : 2 * t < h) :
    ∃ outer inner, ringProfile w h t = [outer, inner] ∧
      (∀ q : ℝ × ℝ, q ∈ outer ↔ |q.1| = w / 2 ∧ |q.2| = h / 2) ∧ (∀ q : ℝ × ℝ, q ∈ inner ↔ |q.1| = w / 2 - t ∧ |q.2| = h / 2 - t) ∧
      area2 outer = 2 * (w * h) ∧ area2 inner = -(2 * ((w - 2 * t) * (h - 2 * t))) ∧ 0 < area2 outer ∧ area2 inner < 0 := by
  have hpt : ∀ (a b : ℝ), 0 < a → 0 < b → ∀ q : ℝ × ℝ, (|q.1| = a ∧ |q.2| = b) ↔ (q = (-a, -b) ∨ q = (a, -b) ∨ q = (a, b) ∨ q = (-a, b)) := by
    intro a b ha hb q
    rw [abs_eq ha.le, abs_eq hb.le]
    rcases q with ⟨x, y⟩
    simp only [Prod.mk.injEq]
    tauto
  refine ⟨[(-(w / 2), -(h / 2)), (w / 2, -(h / 2)), (w / 2, h / 2), (-(w / 2), h / 2)],
    [(-(w / 2 - t), -(h / 2 - t)), (-(w / 2 - t), h / 2 - t), (w / 2 - t, h / 2 - t), (w / 2 - t, -(h / 2 - t))], ?_, ?_, ?_, ?_, ?_, ?_⟩
  · unfold ringProfile
    dsimp only
    rw [if_neg (by rw [not_or]; exact ⟨by linarith, by linarith⟩)]
  · intro q
    rw [hpt _ _ (by linarith) (by linarith)]
    simp
  · intro q
    rw [hpt _ _ (by linarith) (by linarith)]
    simp only [List.mem_cons, List.not_mem_nil, or_false]
    tauto
  · simp [area2]
    ring
  · simp [area2]
    ring
  · have a1 : 0 < (w - 2 * t) * (h - 2 * t) := mul_pos (by linarith) (by linarith)
    have a2 : 0 < w * h := mul_pos (by linarith) (by linarith)
    constructor
    · simp [area2]; nlinarith
    · simp [area2]; nlinarith

/-- A wall of half a dimension or more gives a solid profile without an error, where the connector of the same beam is refused. -/
theorem C211_thick {w h t : ℝ} (ht : w ≤ 2 * t ∨ h ≤ 2 * t) (f : ℝ) : (ringProfile w h t).length = 1 ∧ connectorProfile w h t f = .error .valueError := by
  constructor
  · unfold ringProfile
    dsimp only
    rw [if_pos (by rcases ht with h | h; exacts [.inl (by linarith), .inr (by linarith)])]
    rfl
  · unfold connectorProfile Verif.Segment.innerProfile
    dsimp only
    rw [if_pos (by rcases ht with h | h; exacts [.inl (by linarith), .inr (by linarith)])]

/-- A negative wall is accepted, and the hole is larger than the outline. -/
theorem C211_negative : ∃ outer inner, ringProfile 2 2 (-1) = [outer, inner] ∧ (1, 1) ∈ outer ∧ (2, 2) ∈ inner := by
  unfold ringProfile
  dsimp only
  rw [if_neg (by norm_num)]
  exact ⟨_, _, rfl, by norm_num, by norm_num⟩

example : ∃ outer inner, ringProfile 20 10 2 = [outer, inner] ∧ area2 inner = -192 := by
  obtain ⟨o, i, h1, _, _, _, h2, _⟩ := C211_profile_partial (w := 20) (h := 10) (t := 2) (by norm_num) (by norm_num) (by norm_num)
  exact ⟨o, i, h1, by rw [h2]; norm_num⟩

/-- **C212.** The hole for a connector is wider and higher than the connector by the clearance and smaller than the inside of the beam by the
clearance; it starts at the position given and goes `depth` along the direction, whatever the direction's length. -/
theorem C212_hole {p d : Vec} {w h t depth f : ℝ} (f0 : 0 < f) (hw : 2 * t + 2 * f < w) (hh : 2 * t + 2 * f < h) (hd : d ≠ ⟨0, 0, 0⟩) :
    ∃ cw ch q, connectorProfile w h t f = .ok (cw, ch) ∧ femaleHole p d w h t depth f = .ok ((cw + f, ch + f), p, q) ∧
      cw + f = w - 2 * t - f ∧ ch + f = h - 2 * t - f ∧ len (sub q p) = |depth| ∧ ∃ k, 0 < k ∧ sub q p = scale d (k * depth) := by
  have hp : connectorProfile w h t f = .ok (w - 2 * t - 2 * f, h - 2 * t - 2 * f) := by
    unfold connectorProfile Verif.Segment.innerProfile
    dsimp only
    rw [if_neg (by rw [not_or]; exact ⟨by linarith, by linarith⟩)]
    unfold Verif.Segment.offsetProfile
    dsimp only
    rw [if_neg (by rw [not_or]; exact ⟨by linarith, by linarith⟩)]
  have hpos : 0 < d.x * d.x + d.y * d.y + d.z * d.z := by
    rcases eq_or_ne d.x 0 with hx | hx
    · rcases eq_or_ne d.y 0 with hy | hy
      · rcases eq_or_ne d.z 0 with hz | hz
        · exact absurd (Vec.ext hx hy hz) hd
        · have := mul_self_pos.mpr hz; nlinarith [mul_self_nonneg d.x, mul_self_nonneg d.y]
      · have := mul_self_pos.mpr hy; nlinarith [mul_self_nonneg d.x, mul_self_nonneg d.z]
    · have := mul_self_pos.mpr hx; nlinarith [mul_self_nonneg d.y, mul_self_nonneg d.z]
  have hm := sqrt_pos.mpr hpos
  have hsq := sq_sqrt hpos.le
  refine ⟨_, _, ⟨p.x + d.x / √(d.x * d.x + d.y * d.y + d.z * d.z) * depth, p.y + d.y / √(d.x * d.x + d.y * d.y + d.z * d.z) * depth, p.z + d.z / √(d.x * d.x + d.y * d.y + d.z * d.z) * depth⟩, hp, ?_, by ring, by ring, ?_, 1 / √(d.x * d.x + d.y * d.y + d.z * d.z), by positivity, ?_⟩
  · unfold femaleHole
    rw [hp]
    dsimp only
    rw [if_pos hm]
    congr 3
    · ring
    · ring
  · unfold sub len
    dsimp only
    rw [← sqrt_sq_eq_abs]
    congr 1
    generalize √(d.x * d.x + d.y * d.y + d.z * d.z) = m at *
    field_simp
    linear_combination (-depth ^ 2) * hsq
  · unfold sub scale
    ext <;> dsimp only <;> ring

/-- A direction of 0 gives a hole of no depth without an error. -/
theorem C212_zero_direction (p : Vec) {w h t depth f cw ch : ℝ} (hp : connectorProfile w h t f = .ok (cw, ch)) :
    ∃ wh, femaleHole p ⟨0, 0, 0⟩ w h t depth f = .ok (wh, p, p) := by
  unfold femaleHole
  rw [hp]
  refine ⟨(cw + 2 * (f / 2), ch + 2 * (f / 2)), ?_⟩
  dsimp only
  rw [if_neg (by norm_num)]
  simp

/-- A beam too small for a connector has no hole. -/
theorem C212_small (p d : Vec) {w h t f : ℝ} (depth : ℝ) (hs : w ≤ 2 * t + 2 * f ∨ h ≤ 2 * t + 2 * f) :
    femaleHole p d w h t depth f = .error .valueError := by
  have hp : connectorProfile w h t f = .error .valueError := by
    unfold connectorProfile Verif.Segment.innerProfile
    dsimp only
    split_ifs with h1
    · rfl
    unfold Verif.Segment.offsetProfile
    dsimp only
    rw [if_pos (by rcases hs with h | h; exacts [.inl (by linarith), .inr (by linarith)])]
  unfold femaleHole
  rw [hp]

example : ∃ q, femaleHole ⟨0, 0, 0⟩ ⟨0, 0, 2⟩ 20 20 2 10 1 = .ok ((15, 15), ⟨0, 0, 0⟩, q) := by
  obtain ⟨cw, ch, q, _, h2, h3, h4, _⟩ := C212_hole (p := ⟨0, 0, 0⟩) (d := ⟨0, 0, 2⟩) (w := 20) (h := 20) (t := 2) (depth := 10) (f := 1)
    (by norm_num) (by norm_num) (by norm_num) (by intro h; have := congrArg Vec.z h; norm_num at this)
  refine ⟨q, ?_⟩
  rw [h2, h3, h4]
  norm_num

end Verif.Ring
