import Verif.Path.Spec
import Mathlib.Analysis.SpecialFunctions.Trigonometric.Deriv
import Mathlib.Tactic.LinearCombination

/-!
# Lines and arcs
-/

namespace Verif.Path
open Real

theorem len_sq (v : Vec) : len v ^ 2 = dot v v := by
  unfold len dot
  rw [sq_sqrt (by positivity)]
  ring

theorem len_nonneg (v : Vec) : 0 ≤ len v := sqrt_nonneg _

theorem len_of_sq {v : Vec} {r : ℝ} (hr : 0 ≤ r) (h : dot v v = r ^ 2) : len v = r := by
  have := len_sq v
  rw [h] at this
  exact (pow_left_inj₀ (len_nonneg v) hr two_ne_zero).mp this

/-- the result of normalizing has length 1, whatever the vector -/
theorem normalize_unit (v : Vec) : dot (normalize v) (normalize v) = 1 := by
  unfold normalize
  split
  · simp [dot]
  · rename_i h
    have h0 : 0 < len v := by
      rw [not_lt] at h
      exact lt_of_lt_of_le (by norm_num) h
    have := len_sq v
    unfold dot at *
    simp only
    field_simp
    linarith

theorem normalize_scale {v : Vec} (h : 1e-10 ≤ len v) : scale (normalize v) (len v) = v := by
  have h0 : 0 < len v := lt_of_lt_of_le (by norm_num) h
  unfold normalize scale
  rw [if_neg (not_lt.mpr h)]
  ext <;> simp only <;> field_simp

/-- normalizing a multiple of a unit vector -/
theorem normalize_of_scale {u : Vec} {r : ℝ} (hu : dot u u = 1) (hr : 1e-10 ≤ r) : normalize (scale u r) = u := by
  have h0 : 0 < r := lt_of_lt_of_le (by norm_num) hr
  have hl : len (scale u r) = r := by
    refine len_of_sq h0.le ?_
    unfold scale
    unfold dot at *
    simp only
    linear_combination r ^ 2 * hu
  unfold normalize
  rw [hl, if_neg (not_lt.mpr hr)]
  unfold scale
  ext <;> simp only <;> field_simp

theorem normalize_of_unit {u : Vec} (hu : dot u u = 1) : normalize u = u := by
  have := normalize_of_scale hu (r := 1) (by norm_num)
  have e : scale u 1 = u := by unfold scale; ext <;> simp
  rwa [e] at this

theorem dot_comm (a b : Vec) : dot a b = dot b a := by unfold dot; ring

/-! ## rotation about an axis perpendicular to the vector -/

/-- a frame: unit axis, unit vector perpendicular to it -/
structure Perp (k r : Vec) : Prop where
  axis : dot k k = 1
  unit : dot r r = 1
  perp : dot k r = 0

theorem rod_perp {k r : Vec} (h : Perp k r) (a : ℝ) : rodrigues k r a = add (scale r (cos a)) (scale (cross k r) (sin a)) := by
  unfold rodrigues add scale
  have := h.perp
  ext <;> simp only [this] <;> ring

theorem cross_sq (k r : Vec) : dot (cross k r) (cross k r) = dot k k * dot r r - dot k r ^ 2 := by
  unfold dot cross; ring

/-- the rotated vector has length 1, for every axis and vector of length 1 -/
theorem rod_unit {k r : Vec} (hk : dot k k = 1) (hr : dot r r = 1) (a : ℝ) : dot (rodrigues k r a) (rodrigues k r a) = 1 := by
  have e : dot (rodrigues k r a) (rodrigues k r a) =
      cos a ^ 2 * dot r r + sin a ^ 2 * (dot k k * dot r r - dot k r ^ 2) + dot k k * dot k r ^ 2 * (1 - cos a) ^ 2 +
        2 * cos a * (1 - cos a) * dot k r ^ 2 := by
    unfold rodrigues dot cross; simp only; ring
  rw [e, hk, hr]
  linear_combination (1 - dot k r ^ 2) * sin_sq_add_cos_sq a

theorem rod_height {k r : Vec} (hk : dot k k = 1) (a : ℝ) : dot k (rodrigues k r a) = dot k r := by
  have e : dot k (rodrigues k r a) = dot k r * cos a + dot k k * dot k r * (1 - cos a) := by
    unfold rodrigues dot cross; simp only; ring
  rw [e, hk]; ring

theorem perp_rod {k r : Vec} (h : Perp k r) (a : ℝ) : Perp k (rodrigues k r a) :=
  ⟨h.axis, rod_unit h.axis h.unit a, by rw [rod_height h.axis, h.perp]⟩

theorem cross_rod {k r : Vec} (h : Perp k r) (a : ℝ) : cross k (rodrigues k r a) = add (scale r (-sin a)) (scale (cross k r) (cos a)) := by
  rw [rod_perp h]
  have e : cross k (cross k r) = scale r (-1) := by
    have h1 := h.axis
    have h2 := h.perp
    unfold dot at h1 h2
    unfold cross scale
    ext <;> simp only
    · linear_combination k.x * h2 - r.x * h1
    · linear_combination k.y * h2 - r.y * h1
    · linear_combination k.z * h2 - r.z * h1
  have e' : cross k (add (scale r (cos a)) (scale (cross k r) (sin a))) = add (scale (cross k r) (cos a)) (scale (cross k (cross k r)) (sin a)) := by
    unfold cross add scale; ext <;> simp only <;> ring
  rw [e', e]
  unfold add scale; ext <;> simp only <;> ring

theorem rod_add {k r : Vec} (h : Perp k r) (a b : ℝ) : rodrigues k (rodrigues k r a) b = rodrigues k r (a + b) := by
  rw [rod_perp (perp_rod h a), cross_rod h, rod_perp h, rod_perp h, cos_add, sin_add]
  unfold add scale; ext <;> simp only <;> ring

theorem rod_zero (k r : Vec) : rodrigues k r 0 = r := by unfold rodrigues; ext <;> simp

/-- cosine and sine of the angle between two rotated vectors -/
theorem rod_dot {k r : Vec} (h : Perp k r) (a b : ℝ) : dot (rodrigues k r a) (rodrigues k r b) = cos (b - a) ∧
    dot (cross (rodrigues k r a) (rodrigues k r b)) k = sin (b - a) := by
  have h1 := h.axis
  have h2 := h.unit
  have h3 := h.perp
  have w : dot (cross k r) (cross k r) = 1 := by rw [cross_sq, h1, h2, h3]; norm_num
  have rw0 : dot r (cross k r) = 0 := by unfold dot cross; ring
  constructor
  · rw [rod_perp h, rod_perp h]
    have e : dot (add (scale r (cos a)) (scale (cross k r) (sin a))) (add (scale r (cos b)) (scale (cross k r) (sin b))) =
        cos a * cos b * dot r r + (cos a * sin b + sin a * cos b) * dot r (cross k r) + sin a * sin b * dot (cross k r) (cross k r) := by
      unfold dot add scale; ring
    rw [e, h2, w, rw0, cos_sub]; ring
  · rw [rod_perp h, rod_perp h]
    have e : dot (cross (add (scale r (cos a)) (scale (cross k r) (sin a))) (add (scale r (cos b)) (scale (cross k r) (sin b)))) k =
        (cos a * sin b - sin a * cos b) * (dot k k * dot r r - dot k r ^ 2) := by
      unfold dot add scale cross; ring
    rw [e, h1, h2, h3, sin_sub]; ring

/-- the angle the program computes is the angle from 0 to 2π with the right cosine and sine -/
theorem angle_of {x y φ : ℝ} (hx : x = cos φ) (hy : y = sin φ) (h0 : 0 ≤ φ) (h1 : φ < 2 * π) :
    (if y < 0 then 2 * π - arccos (max (-1) (min 1 x)) else arccos (max (-1) (min 1 x))) = φ := by
  have c1 := cos_le_one φ
  have c2 := neg_one_le_cos φ
  rw [hx, min_eq_right c1, max_eq_right c2, hy]
  by_cases h : φ ≤ π
  · rw [if_neg (not_lt.mpr (sin_nonneg_of_nonneg_of_le_pi h0 h)), arccos_cos h0 h]
  · rw [not_le] at h
    have hs : sin φ < 0 := by
      have : sin (φ - π) = - sin φ := by rw [sin_sub]; simp
      have := sin_pos_of_pos_of_lt_pi (x := φ - π) (by linarith) (by linarith)
      linarith
    rw [if_pos hs]
    have : cos φ = cos (2 * π - φ) := by rw [cos_two_pi_sub]
    rw [this, arccos_cos (by linarith) (by linarith)]
    ring

/-- an angle with a given cosine and sine -/
theorem angle_exists {x y : ℝ} (h : x ^ 2 + y ^ 2 = 1) : ∃ φ, 0 ≤ φ ∧ φ < 2 * π ∧ x = cos φ ∧ y = sin φ := by
  have hx1 : -1 ≤ x := by nlinarith [sq_nonneg y]
  have hx2 : x ≤ 1 := by nlinarith [sq_nonneg y]
  have hc := cos_arccos hx1 hx2
  have hsq : sin (arccos x) ^ 2 = y ^ 2 := by
    have := sin_sq_add_cos_sq (arccos x)
    rw [hc] at this; linarith
  have hs0 : 0 ≤ sin (arccos x) := sin_nonneg_of_nonneg_of_le_pi (arccos_nonneg x) (arccos_le_pi x)
  by_cases hy : 0 ≤ y
  · refine ⟨arccos x, arccos_nonneg x, lt_of_le_of_lt (arccos_le_pi x) (by linarith [pi_pos]), hc.symm, ?_⟩
    exact ((pow_left_inj₀ hs0 hy two_ne_zero).mp hsq).symm
  · rw [not_le] at hy
    have hxm : x ≠ 1 := by rintro rfl; nlinarith
    have hp : 0 < arccos x := arccos_pos.mpr (lt_of_le_of_ne hx2 hxm)
    refine ⟨2 * π - arccos x, by linarith [arccos_le_pi x, pi_pos], by linarith, ?_, ?_⟩
    · rw [cos_two_pi_sub, hc]
    · rw [sin_two_pi_sub]
      have : sin (arccos x) = -y := (pow_left_inj₀ hs0 (by linarith) two_ne_zero).mp (by rw [hsq]; ring)
      rw [this]; ring

/-! ## arcs -/

theorem normal_perp {n v : Vec} (hn : 1e-10 ≤ len n) (hv : 1e-10 ≤ len v) (h : dot n v = 0) : Perp (normalize n) (normalize v) := by
  refine ⟨normalize_unit n, normalize_unit v, ?_⟩
  have h1 := normalize_scale hn
  have h2 := normalize_scale hv
  rw [← h1, ← h2] at h
  have n0 : len n ≠ 0 := (lt_of_lt_of_le (by norm_num) hn).ne'
  have v0 : len v ≠ 0 := (lt_of_lt_of_le (by norm_num) hv).ne'
  have e : dot (scale (normalize n) (len n)) (scale (normalize v) (len v)) = len n * len v * dot (normalize n) (normalize v) := by
    unfold dot scale; ring
  rw [e] at h
  rcases mul_eq_zero.mp h with h | h
  · rcases mul_eq_zero.mp h with h | h
    · exact absurd h n0
    · exact absurd h v0
  · exact h

/-- the end of the arc is the start turned by the angle -/
theorem arc_turn {c s e n : Vec} (h : IsArc c s e n) : 0 ≤ arcAngle c s e n ∧ arcAngle c s e n < 2 * π ∧
    normalize (sub e c) = rodrigues (normalize n) (normalize (sub s c)) (arcAngle c s e n) := by
  have he : 1e-10 ≤ len (sub e c) := by rw [h.same]; exact h.radius
  have P := normal_perp h.normal h.radius h.perp_s
  have Q := normal_perp h.normal he h.perp_e
  set k := normalize n with hk
  set r := normalize (sub s c) with hr
  set q := normalize (sub e c) with hq
  have e1 : dot (cross r q) k = dot q (cross k r) := by unfold dot cross; ring
  -- q in the frame r, k × r
  have exp : q = add (scale r (dot r q)) (scale (cross k r) (dot (cross r q) k)) := by
    have a := P.axis
    have b := P.unit
    have cc := P.perp
    have d := Q.perp
    rw [e1]
    -- Gram: q - (q·r) r - (q·w) w - (q·k) k = 0 in an orthonormal frame
    have g : ∀ (k r q : Vec), scale q (dot k k * dot r r - dot k r ^ 2) =
        add (add (scale r (dot r q * dot k k - dot k q * dot k r)) (scale k (dot k q * dot r r - dot r q * dot k r)))
          (scale (cross k r) (dot q (cross k r))) := by
      intro k r q
      unfold scale add dot cross
      ext <;> simp only <;> ring
    have := g k r q
    rw [a, b, cc, d] at this
    have e2 : scale q (1 * 1 - 0 ^ 2) = q := by unfold scale; ext <;> simp
    rw [e2] at this
    conv_lhs => rw [this]
    unfold add scale
    ext <;> simp
  have len1 : dot r q ^ 2 + dot (cross r q) k ^ 2 = 1 := by
    have w : dot (cross k r) (cross k r) = 1 := by rw [cross_sq, P.axis, P.unit, P.perp]; norm_num
    have rw0 : dot r (cross k r) = 0 := by unfold dot cross; ring
    have u := Q.unit
    have g : ∀ (x y : ℝ), dot (add (scale r x) (scale (cross k r) y)) (add (scale r x) (scale (cross k r) y)) =
        x ^ 2 * dot r r + 2 * x * y * dot r (cross k r) + y ^ 2 * dot (cross k r) (cross k r) := by
      intro x y; unfold dot add scale; ring
    have g' := g (dot r q) (dot (cross r q) k)
    rw [← exp, u, w, rw0, P.unit] at g'
    linarith
  obtain ⟨φ, p0, p1, hx, hy⟩ := angle_exists len1
  have ha : arcAngle c s e n = φ := by
    unfold arcAngle
    simp only
    exact angle_of hx hy p0 p1
  rw [ha]
  refine ⟨p0, p1, ?_⟩
  rw [rod_perp P, ← hx, ← hy]
  exact exp

/-- the parts of the arc's evaluation -/
theorem arc_eval (c s e n : Vec) (t : ℝ) : sub (evalArc c s e n t).1 c =
    scale (rodrigues (normalize n) (normalize (sub s c)) (t * arcAngle c s e n)) (len (sub s c)) := by
  unfold evalArc sub add scale; ext <;> simp

theorem sub_add (c v : Vec) : add c (sub v c) = v := by unfold add sub; ext <;> simp

theorem sub_inj {a b c : Vec} (h : sub a c = sub b c) : a = b := by rw [← sub_add c a, h, sub_add]

theorem arc_start {c s e n : Vec} (h : 1e-10 ≤ len (sub s c)) : (evalArc c s e n 0).1 = s := by
  refine sub_inj (c := c) ?_
  rw [arc_eval, zero_mul, rod_zero, normalize_scale h]

theorem arc_end {c s e n : Vec} (h : IsArc c s e n) : (evalArc c s e n 1).1 = e := by
  refine sub_inj (c := c) ?_
  rw [arc_eval, one_mul, ← (arc_turn h).2.2, ← h.same]
  exact normalize_scale (by rw [h.same]; exact h.radius)

/-- every point of every arc has the distance of the start from the centre -/
theorem arc_radius (c s e n : Vec) (t : ℝ) : len (sub (evalArc c s e n t).1 c) = len (sub s c) := by
  refine len_of_sq (len_nonneg _) ?_
  rw [arc_eval]
  have u := rod_unit (normalize_unit n) (normalize_unit (sub s c)) (t * arcAngle c s e n)
  have e1 : ∀ (v : Vec) (r : ℝ), dot (scale v r) (scale v r) = r ^ 2 * dot v v := by intro v r; unfold dot scale; ring
  rw [e1, u, mul_one]

/-- every point of the arc is in the plane through the centre perpendicular to the normal -/
theorem arc_plane {c s e n : Vec} (h : IsArc c s e n) (t : ℝ) : dot n (sub (evalArc c s e n t).1 c) = 0 := by
  have P := normal_perp h.normal h.radius h.perp_s
  have q := (perp_rod P (t * arcAngle c s e n)).perp
  rw [arc_eval]
  have e1 : dot n (scale (rodrigues (normalize n) (normalize (sub s c)) (t * arcAngle c s e n)) (len (sub s c))) =
      len n * len (sub s c) * dot (normalize n) (rodrigues (normalize n) (normalize (sub s c)) (t * arcAngle c s e n)) := by
    have g : ∀ v w : Vec, ∀ a b : ℝ, dot (scale v a) (scale w b) = a * b * dot v w := by
      intro v w a b; unfold dot scale; ring
    have g' := g (normalize n) (rodrigues (normalize n) (normalize (sub s c)) (t * arcAngle c s e n)) (len n) (len (sub s c))
    rw [normalize_scale h.normal] at g'
    exact g'
  rw [e1, q, mul_zero]

/-- the tangent of an arc is the axis times the radius, a unit vector -/
theorem arc_tangent {c s e n : Vec} (h : IsArc c s e n) (t : ℝ) :
    scale (evalArc c s e n t).2 (len (sub s c)) = cross (normalize n) (sub (evalArc c s e n t).1 c) := by
  have P := perp_rod (normal_perp h.normal h.radius h.perp_s) (t * arcAngle c s e n)
  rw [arc_eval]
  unfold evalArc
  simp only
  rw [normalize_of_unit (by rw [cross_sq, P.axis, P.unit, P.perp]; norm_num)]
  unfold scale cross; ext <;> simp only <;> ring

/-- the speed along the arc -/
theorem arc_deriv {c s e n : Vec} (h : IsArc c s e n) (t : ℝ) :
    HasDerivAt (fun t => (evalArc c s e n t).1.x) (arcAngle c s e n * (cross (normalize n) (sub (evalArc c s e n t).1 c)).x) t ∧
    HasDerivAt (fun t => (evalArc c s e n t).1.y) (arcAngle c s e n * (cross (normalize n) (sub (evalArc c s e n t).1 c)).y) t ∧
    HasDerivAt (fun t => (evalArc c s e n t).1.z) (arcAngle c s e n * (cross (normalize n) (sub (evalArc c s e n t).1 c)).z) t := by
  have P := normal_perp h.normal h.radius h.perp_s
  set θ := arcAngle c s e n with hθ
  set k := normalize n
  set r := normalize (sub s c)
  set R := len (sub s c)
  have pt : ∀ t, (evalArc c s e n t).1 = add c (scale (add (scale r (cos (t * θ))) (scale (cross k r) (sin (t * θ)))) R) := by
    intro t; unfold evalArc; simp only; rw [rod_perp P]
  have dv : cross k (sub (evalArc c s e n t).1 c) = scale (add (scale r (-sin (t * θ))) (scale (cross k r) (cos (t * θ)))) R := by
    rw [arc_eval]
    have := cross_rod P (t * θ)
    have e1 : ∀ v, cross k (scale v R) = scale (cross k v) R := by intro v; unfold cross scale; ext <;> simp only <;> ring
    rw [e1, this]
  rw [dv]
  have lin : HasDerivAt (fun t : ℝ => t * θ) θ t := by simpa using (hasDerivAt_id t).mul_const θ
  have gen : ∀ (c0 a b : ℝ), HasDerivAt (fun t => c0 + (a * cos (t * θ) + b * sin (t * θ)) * R) (θ * ((a * -sin (t * θ) + b * cos (t * θ)) * R)) t := by
    intro c0 a b
    have h1 := ((lin.cos.const_mul a).add (lin.sin.const_mul b)).mul_const R
    have h2 := h1.const_add c0
    refine h2.congr_deriv ?_
    ring
  refine ⟨?_, ?_, ?_⟩
  · simp only [pt]; exact gen c.x r.x (cross k r).x
  · simp only [pt]; exact gen c.y r.y (cross k r).y
  · simp only [pt]; exact gen c.z r.z (cross k r).z

/-- the part of an arc between two parameters is an arc, with the same points and the proportional angle -/
theorem arc_sub {c s e n : Vec} (h : IsArc c s e n) {a b : ℝ} (h0 : 0 ≤ a) (hab : a ≤ b) (h1 : b ≤ 1) :
    IsArc c (evalArc c s e n a).1 (evalArc c s e n b).1 n ∧
    arcAngle c (evalArc c s e n a).1 (evalArc c s e n b).1 n = (b - a) * arcAngle c s e n ∧
    ∀ t, evalArc c (evalArc c s e n a).1 (evalArc c s e n b).1 n t = evalArc c s e n (a + t * (b - a)) := by
  obtain ⟨t0, t1, -⟩ := arc_turn h
  have P := normal_perp h.normal h.radius h.perp_s
  have na : normalize (sub (evalArc c s e n a).1 c) = rodrigues (normalize n) (normalize (sub s c)) (a * arcAngle c s e n) := by
    rw [arc_eval, normalize_of_scale (perp_rod P _).unit h.radius]
  have nb : normalize (sub (evalArc c s e n b).1 c) = rodrigues (normalize n) (normalize (sub s c)) (b * arcAngle c s e n) := by
    rw [arc_eval, normalize_of_scale (perp_rod P _).unit h.radius]
  have ang : arcAngle c (evalArc c s e n a).1 (evalArc c s e n b).1 n = (b - a) * arcAngle c s e n := by
    conv_lhs => unfold arcAngle
    simp only
    rw [na, nb]
    obtain ⟨d1, d2⟩ := rod_dot P (a * arcAngle c s e n) (b * arcAngle c s e n)
    refine angle_of (φ := (b - a) * arcAngle c s e n) ?_ ?_ (mul_nonneg (by linarith) t0) ?_
    · rw [d1]; congr 1; ring
    · rw [d2]; congr 1; ring
    · have : (b - a) * arcAngle c s e n ≤ 1 * arcAngle c s e n := mul_le_mul_of_nonneg_right (by linarith) t0
      linarith
  refine ⟨⟨h.normal, by rw [arc_radius]; exact h.radius, by rw [arc_radius, arc_radius], arc_plane h a, arc_plane h b⟩, ang, ?_⟩
  intro t
  unfold evalArc
  have e1 := arc_radius c s e n a
  have na' := na
  rw [arc_eval] at na'
  simp only
  have hl : len (sub (add c (scale (rodrigues (normalize n) (normalize (sub s c)) (a * arcAngle c s e n)) (len (sub s c)))) c) = len (sub s c) := e1
  have hn : normalize (sub (add c (scale (rodrigues (normalize n) (normalize (sub s c)) (a * arcAngle c s e n)) (len (sub s c)))) c) =
      rodrigues (normalize n) (normalize (sub s c)) (a * arcAngle c s e n) := na
  have ha : arcAngle c (add c (scale (rodrigues (normalize n) (normalize (sub s c)) (a * arcAngle c s e n)) (len (sub s c))))
      (add c (scale (rodrigues (normalize n) (normalize (sub s c)) (b * arcAngle c s e n)) (len (sub s c)))) n = (b - a) * arcAngle c s e n := ang
  rw [hl, hn, ha, rod_add P]
  have : a * arcAngle c s e n + t * ((b - a) * arcAngle c s e n) = (a + t * (b - a)) * arcAngle c s e n := by ring
  rw [this]

theorem lerp_sub (s e : Vec) (a b t : ℝ) : lerp (lerp s e a) (lerp s e b) t = lerp s e (a + t * (b - a)) := by
  unfold lerp; ext <;> simp only <;> ring

theorem lerp_zero (s e : Vec) : lerp s e 0 = s := by unfold lerp; ext <;> simp
theorem lerp_one (s e : Vec) : lerp s e 1 = e := by unfold lerp; ext <;> simp

theorem lerp_len (s e : Vec) {a b : ℝ} (h : a ≤ b) : len (sub (lerp s e b) (lerp s e a)) = (b - a) * len (sub e s) := by
  refine len_of_sq (mul_nonneg (by linarith) (len_nonneg _)) ?_
  rw [mul_pow, len_sq]
  unfold dot lerp sub; ring

end Verif.Path
