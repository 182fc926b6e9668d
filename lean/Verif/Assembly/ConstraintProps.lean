import Verif.Assembly.Constraint
import Mathlib.Geometry.Euclidean.Angle.Unoriented.Basic
import Mathlib.Analysis.InnerProductSpace.PiL2

/-! # C58: constraint checks measure the geometric angle / distance they are named after -/

namespace Verif.Assembly
open Verif.Xform

/-- Specification: the vector as an element of Euclidean 3-space (Mathlib). -/
noncomputable def vec (a : V3) : EuclideanSpace ℝ (Fin 3) := WithLp.toLp 2 a

/-- Specification: Mathlib's (unoriented) angle between two vectors, in degrees. -/
noncomputable def angleDeg (a b : V3) : ℝ := InnerProductGeometry.angle (vec a) (vec b) * 180 / Real.pi

theorem inner_vec (a b : V3) : inner ℝ (vec a) (vec b) = dot3 a b := by
  simp [vec, PiLp.inner_apply, Fin.sum_univ_three, dot3]; ring

theorem norm_vec (a : V3) : ‖vec a‖ = norm3 a := by
  rw [norm3, ← inner_vec, real_inner_self_eq_norm_sq, Real.sqrt_sq (norm_nonneg _)]

theorem vec_eq_zero {a : V3} : vec a = 0 ↔ a = 0 := by simp [vec]

theorem norm3_eq_zero {a : V3} : norm3 a = 0 ↔ a = 0 := by
  rw [← norm_vec, norm_eq_zero, vec_eq_zero]

theorem cos_angleDeg (a b : V3) :
    Real.cos (InnerProductGeometry.angle (vec a) (vec b)) = dot3 a b / (norm3 a * norm3 b) := by
  rw [InnerProductGeometry.cos_angle, inner_vec, norm_vec, norm_vec]

theorem dotN_unit {a b : V3} (ha : a ≠ 0) (hb : b ≠ 0) :
    dotN (unit3 a) (unit3 b) = some (Real.cos (InnerProductGeometry.angle (vec a) (vec b))) := by
  have h1 : norm3 a ≠ 0 := fun h => ha (norm3_eq_zero.mp h)
  have h2 : norm3 b ≠ 0 := fun h => hb (norm3_eq_zero.mp h)
  rw [cos_angleDeg]
  simp only [unit3, h1, h2, if_false, dotN, Option.some.injEq]
  simp [dot3]
  field_simp

theorem le_deg {x t : ℝ} : degrees x ≤ t ↔ x ≤ radians t := by
  unfold degrees radians
  rw [div_le_iff₀ Real.pi_pos, le_div_iff₀ (by norm_num : (0:ℝ) < 180)]

theorem lt_deg {x t : ℝ} : degrees x < t ↔ x < radians t := by
  unfold degrees radians
  rw [div_lt_iff₀ Real.pi_pos, lt_div_iff₀ (by norm_num : (0:ℝ) < 180)]

theorem degrees_pi_sub (x : ℝ) : degrees (Real.pi - x) = 180 - degrees x := by
  unfold degrees
  have := Real.pi_ne_zero
  field_simp

theorem degrees_half_sub (x : ℝ) : degrees |Real.pi / 2 - x| = |90 - degrees x| := by
  unfold degrees
  have h : 90 - x * 180 / Real.pi = (Real.pi / 2 - x) * (180 / Real.pi) := by
    have := Real.pi_ne_zero
    field_simp; ring
  rw [h, abs_mul, abs_of_pos (by have := Real.pi_pos; positivity : (0:ℝ) < 180 / Real.pi)]
  ring

theorem degrees_mono {x y : ℝ} : degrees x ≤ degrees y ↔ x ≤ y := by
  unfold degrees
  rw [div_le_div_iff_of_pos_right Real.pi_pos]
  constructor <;> intro h <;> linarith

theorem arccos_abs_cos {x : ℝ} (h0 : 0 ≤ x) (h1 : x ≤ Real.pi) :
    Real.arccos (min 1 |Real.cos x|) = min x (Real.pi - x) := by
  rw [min_eq_right (Real.abs_cos_le_one x)]
  by_cases h : x ≤ Real.pi / 2
  · rw [abs_of_nonneg (Real.cos_nonneg_of_mem_Icc ⟨by linarith [Real.pi_pos], h⟩),
      Real.arccos_cos h0 h1, min_eq_left (by linarith)]
  · have h : Real.pi / 2 < x := not_le.mp h
    rw [abs_of_nonpos (Real.cos_nonpos_of_pi_div_two_le_of_le h.le (by linarith)), ← Real.cos_pi_sub,
      Real.arccos_cos (by linarith) (by linarith), min_eq_right (by linarith)]

theorem arcsin_abs_cos {x : ℝ} (h0 : 0 ≤ x) (h1 : x ≤ Real.pi) :
    Real.arcsin (min 1 |Real.cos x|) = |Real.pi / 2 - x| := by
  have h := arccos_abs_cos h0 h1
  rw [Real.arccos] at h
  have h2 : Real.arcsin (min 1 |Real.cos x|) = Real.pi / 2 - min x (Real.pi - x) := by linarith
  rw [h2]
  by_cases h : x ≤ Real.pi / 2
  · rw [min_eq_left (by linarith), abs_of_nonneg (by linarith)]
  · rw [min_eq_right (by linarith), abs_of_nonpos (by linarith)]; ring

/-- C58 (FACING): passes exactly when the angle between the normal and the named direction is at most
the tolerance; the reported error is that angle. -/
theorem C58_facing (c : Constraint) (hc : c.ctype = .facing) (d : Datum) (n : Vec4 ℝ)
    (hn : d.normal = some n) (hn0 : first3 n ≠ 0) (t : V3) (ht : parseDirection c.direction = some t) :
    ((c.evaluate d).passed = true ↔ angleDeg (first3 n) t ≤ c.toleranceDeg) ∧
    (c.evaluate d).errorValue = angleDeg (first3 n) t := by
  have htn : norm3 t = 1 := by
    unfold parseDirection at ht
    cases hd : c.direction with
    | none => simp [hd] at ht
    | some s =>
      simp only [hd] at ht
      split_ifs at ht <;> simp only [Option.some.injEq] at ht <;> subst ht <;> simp [norm3, dot3]
  have ht0 : t ≠ 0 := fun h => by rw [norm3_eq_zero.mpr h] at htn; norm_num at htn
  have hu : unit3 t = some t := by
    unfold unit3
    rw [htn]
    simp only [one_ne_zero, if_false, div_one, Option.some.injEq]
    funext i; fin_cases i <;> rfl
  have hd := dotN_unit hn0 ht0
  rw [hu] at hd
  have h1 := Real.neg_one_le_cos (InnerProductGeometry.angle (vec (first3 n)) (vec t))
  have h2 := Real.cos_le_one (InnerProductGeometry.angle (vec (first3 n)) (vec t))
  have h3 : Real.arccos (min 1 (maxm1 (dotN (unit3 (first3 n)) (some t)))) =
      InnerProductGeometry.angle (vec (first3 n)) (vec t) := by
    rw [hd]
    simp only [maxm1]
    rw [max_eq_right h1, min_eq_right h2, Real.arccos_cos (InnerProductGeometry.angle_nonneg _ _)
      (InnerProductGeometry.angle_le_pi _ _)]
  simp only [Constraint.evaluate, hc, Constraint.checkFacing, hn, ht, h3, decide_eq_true_eq]
  exact ⟨Iff.rfl, rfl⟩

/-- C58 (PARALLEL_TO): passes exactly when the direction is within tolerance of the axis or of its
opposite; the reported error is the smaller of the two angles. -/
theorem C58_parallel (c : Constraint) (hc : c.ctype = .parallelTo) (d : Datum) (v a : V3)
    (hv : dirOrNormal d = some v) (hv0 : v ≠ 0) (ha : c.axis = some a) (ha0 : a ≠ 0) :
    ((c.evaluate d).passed = true ↔ angleDeg a v ≤ c.toleranceDeg ∨ 180 - angleDeg a v ≤ c.toleranceDeg) ∧
    (c.evaluate d).errorValue = min (angleDeg a v) (180 - angleDeg a v) := by
  have h3 : degrees (Real.arccos (min1 (absN (dotN (unit3 a) (unit3 v))))) =
      min (angleDeg a v) (180 - angleDeg a v) := by
    rw [dotN_unit ha0 hv0]
    simp only [absN, Option.map_some, min1]
    rw [arccos_abs_cos (InnerProductGeometry.angle_nonneg _ _) (InnerProductGeometry.angle_le_pi _ _)]
    show _ = min (degrees _) (180 - degrees _)
    rw [← degrees_pi_sub]
    have hm : Monotone degrees := fun x y h => degrees_mono.mpr h
    exact hm.map_min
  simp only [Constraint.evaluate, hc, Constraint.checkParallel, hv, ha, h3, decide_eq_true_eq]
  exact ⟨min_le_iff, trivial⟩

/-- C58 (PERPENDICULAR_TO): passes exactly when the angle differs from 90 degrees by at most the
tolerance; the reported error is that difference. -/
theorem C58_perpendicular (c : Constraint) (hc : c.ctype = .perpendicularTo) (d : Datum) (v a : V3)
    (hv : dirOrNormal d = some v) (hv0 : v ≠ 0) (ha : c.axis = some a) (ha0 : a ≠ 0) :
    ((c.evaluate d).passed = true ↔ |90 - angleDeg a v| ≤ c.toleranceDeg) ∧
    (c.evaluate d).errorValue = |90 - angleDeg a v| := by
  have h3 : degrees (Real.arcsin (min1 (absN (dotN (unit3 a) (unit3 v))))) = |90 - angleDeg a v| := by
    rw [dotN_unit ha0 hv0]
    simp only [absN, Option.map_some, min1]
    rw [arcsin_abs_cos (InnerProductGeometry.angle_nonneg _ _) (InnerProductGeometry.angle_le_pi _ _),
      degrees_half_sub]
    rfl
  simp only [Constraint.evaluate, hc, Constraint.checkPerpendicular, hv, ha, h3, decide_eq_true_eq]
  exact ⟨trivial, trivial⟩

theorem norm3_big {r : V3} (hr : ¬ norm3 r < 1e-10) : r ≠ 0 := by
  intro h
  rw [norm3_eq_zero.mpr h] at hr
  norm_num at hr

/-- C58 (RADIAL_FROM_CENTER): with a tolerance in [0,180], passes exactly when the normal (or
direction) makes an angle strictly below the tolerance with the horizontal outward radius
(`outward`), respectively with its opposite (`inward`). -/
theorem C58_radial (c : Constraint) (hc : c.ctype = .radialFromCenter) (d : Datum) (v ctr : V3)
    (hv : normalOrDir d = some v) (hv0 : v ≠ 0) (hctr : c.center = some ctr)
    (hr : ¬ norm3 (flat (first3 d.origin - ctr)) < 1e-10)
    (h0 : 0 ≤ c.toleranceDeg) (h180 : c.toleranceDeg ≤ 180) :
    (c.direction = some "outward" →
      ((c.evaluate d).passed = true ↔
        angleDeg (flat (first3 d.origin - ctr)) v < c.toleranceDeg)) ∧
    (c.direction = some "inward" →
      ((c.evaluate d).passed = true ↔
        180 - angleDeg (flat (first3 d.origin - ctr)) v < c.toleranceDeg)) := by
  have hr0 := norm3_big hr
  set r := flat (first3 d.origin - ctr) with hrdef
  have hdot := dotN_unit hr0 hv0
  set θ := InnerProductGeometry.angle (vec r) (vec v) with hθ
  have t0 : 0 ≤ radians c.toleranceDeg := by unfold radians; have := Real.pi_pos; positivity
  have t1 : radians c.toleranceDeg ≤ Real.pi := by
    unfold radians
    rw [div_le_iff₀ (by norm_num : (0:ℝ) < 180)]
    nlinarith [Real.pi_pos]
  have a0 : 0 ≤ θ := InnerProductGeometry.angle_nonneg _ _
  have a1 : θ ≤ Real.pi := InnerProductGeometry.angle_le_pi _ _
  constructor
  · intro hdir
    simp only [Constraint.evaluate, hc, Constraint.checkRadial, hctr, hdir, hv, ← hrdef, hr, hdot]
    simp only [or_true, not_true, if_false, if_true, decide_eq_true_eq]
    show Real.cos θ > _ ↔ degrees θ < _
    rw [lt_deg, gt_iff_lt, Real.strictAntiOn_cos.lt_iff_gt ⟨t0, t1⟩ ⟨a0, a1⟩]
  · intro hdir
    simp only [Constraint.evaluate, hc, Constraint.checkRadial, hctr, hdir, hv, ← hrdef, hr, hdot]
    have hne : ¬ ((some "inward" : Option String) = some "outward") := by decide
    simp only [true_or, not_true, if_false, hne, decide_eq_true_eq]
    show Real.cos θ < _ ↔ 180 - degrees θ < _
    rw [← degrees_pi_sub, lt_deg, ← Real.cos_pi_sub,
      Real.strictAntiOn_cos.lt_iff_gt ⟨a0, a1⟩ ⟨by linarith, by linarith⟩]
    constructor <;> intro h <;> linarith

/-- C58 (AT_RADIUS): passes exactly when the horizontal distance of the origin from the centre differs
from the radius by at most the tolerance. -/
theorem C58_at_radius (c : Constraint) (hc : c.ctype = .atRadius) (d : Datum) (ctr : V3) (r : ℝ)
    (hctr : c.center = some ctr) (hr : c.radius = some r) :
    ((c.evaluate d).passed = true ↔
      |Real.sqrt ((d.origin 0 - ctr 0) ^ 2 + (d.origin 1 - ctr 1) ^ 2) - r| ≤ c.toleranceMm) := by
  simp only [Constraint.evaluate, hc, Constraint.checkAtRadius, hctr, hr, decide_eq_true_eq]
  have : norm3 (flat (first3 d.origin - ctr)) =
      Real.sqrt ((d.origin 0 - ctr 0) ^ 2 + (d.origin 1 - ctr 1) ^ 2) := by
    unfold norm3 dot3 flat first3
    congr 1
    simp; ring
  rw [this]

/-- C58 (TANGENT_TO_CIRCLE): passes exactly when the horizontal part of the direction is within
tolerance of perpendicular to the horizontal radius. -/
theorem C58_tangent (c : Constraint) (hc : c.ctype = .tangentToCircle) (d : Datum) (v ctr : V3) (r : ℝ)
    (hv : dirOrNormal d = some v) (hctr : c.center = some ctr) (hr : c.radius = some r)
    (hn : ¬ norm3 (flat (first3 d.origin - ctr)) < 1e-10) (hf : ¬ norm3 (flat v) < 1e-10) :
    ((c.evaluate d).passed = true ↔
      |90 - angleDeg (flat (first3 d.origin - ctr)) (flat v)| ≤ c.toleranceDeg) := by
  have h3 : degrees (Real.arcsin (min1 (absN (dotN (unit3 (flat (first3 d.origin - ctr))) (unit3 (flat v)))))) =
      |90 - angleDeg (flat (first3 d.origin - ctr)) (flat v)| := by
    rw [dotN_unit (norm3_big hn) (norm3_big hf)]
    simp only [absN, Option.map_some, min1]
    rw [arcsin_abs_cos (InnerProductGeometry.angle_nonneg _ _) (InnerProductGeometry.angle_le_pi _ _),
      degrees_half_sub]
    rfl
  simp only [Constraint.evaluate, hc, Constraint.checkTangent, hv, hctr, hr, hn, hf, if_false, h3,
    decide_eq_true_eq]

/-- TANGENT_TO_CIRCLE never looks at the circle's radius: an axis at any distance from the centre
gets the same verdict whatever radius the constraint names. -/
theorem C58_tangent_ignores_radius (c : Constraint) (hc : c.ctype = .tangentToCircle) (d : Datum) (r r' : ℝ) :
    ({ c with radius := some r }).evaluate d = ({ c with radius := some r' }).evaluate d := by
  simp only [Constraint.evaluate, hc, Constraint.checkTangent]
  cases c.center <;> rfl

/-- C58 fails for the declared types ON_CIRCLE, IN_PLANE, MIN_DISTANCE, NO_INTERFERENCE: no datum ever
satisfies them. -/
theorem C58_unimplemented_types_always_fail (c : Constraint)
    (h : c.ctype = .onCircle ∨ c.ctype = .inPlane ∨ c.ctype = .minDistance ∨ c.ctype = .noInterference)
    (d : Datum) : (c.evaluate d).passed = false := by
  rcases h with h | h | h | h <;> simp [Constraint.evaluate, h]

/-- C58 fails for a zero reference axis: PARALLEL_TO passes for every datum with a direction
(NaN is turned into a perfect match by `min(1.0, nan)`). -/
theorem C58_parallel_zero_axis_passes (c : Constraint) (hc : c.ctype = .parallelTo)
    (ha : c.axis = some 0) (ht : 0 ≤ c.toleranceDeg) (d : Datum) (v : V3) (hv : dirOrNormal d = some v) :
    (c.evaluate d).passed = true ∧ (c.evaluate d).errorValue = 0 := by
  have : unit3 (0 : V3) = none := by simp [unit3, norm3_eq_zero]
  simp [Constraint.evaluate, hc, Constraint.checkParallel, hv, ha, this, dotN, absN, min1, degrees, ht]

/-- a concrete instance meeting the hypotheses: a plane facing up passes FACING +z with tolerance 1
and fails FACING +x -/
example :
    let d : Datum := { name := "p", dtype := .plane, origin := ![0, 0, 5, 1], normal := some ![0, 0, 2, 0] }
    let c : Constraint := { name := "up", ctype := .facing, part := "a", datum := "p", direction := some "+z" }
    let c' : Constraint := { c with direction := some "+X" }
    (c.evaluate d).passed = true ∧ (c'.evaluate d).passed = false := by
  intro d c c'
  have hn : first3 ![0, 0, 2, 0] ≠ 0 := by
    intro h; have := congrFun h 2; simp [first3] at this
  constructor
  · rw [(C58_facing c rfl d _ rfl hn ![0, 0, 1] (by simp [c, parseDirection])).1]
    have : angleDeg (first3 ![0, 0, 2, 0]) ![0, 0, 1] = 0 := by
      have : InnerProductGeometry.angle (vec (first3 ![0, 0, 2, 0])) (vec ![0, 0, 1]) = 0 := by
        rw [InnerProductGeometry.angle_eq_zero_iff]
        refine ⟨fun h => hn (vec_eq_zero.mp h), 1 / 2, by norm_num, ?_⟩
        ext i; fin_cases i <;> simp [vec, first3]
      simp [angleDeg, this]
    rw [this]; simp [c]
  · rw [Bool.eq_false_iff, ne_eq, (C58_facing c' rfl d _ rfl hn ![1, 0, 0] (by simp [c', parseDirection])).1]
    have : angleDeg (first3 ![0, 0, 2, 0]) ![1, 0, 0] = 90 := by
      have : InnerProductGeometry.angle (vec (first3 ![0, 0, 2, 0])) (vec ![1, 0, 0]) = Real.pi / 2 := by
        rw [← InnerProductGeometry.inner_eq_zero_iff_angle_eq_pi_div_two, inner_vec]
        simp [dot3, first3]
      rw [angleDeg, this]; have := Real.pi_ne_zero; field_simp; norm_num
    rw [this]; simp [c', c]


/-- C58: the six direction names (either case) denote the six coordinate directions; with the name given,
a FACING constraint compares the normal with exactly that direction. -/
theorem C58_facing_names (c : Constraint) (hc : c.ctype = .facing) (d : Datum) (n : Vec4 ℝ)
    (hn : d.normal = some n) (hn0 : first3 n ≠ 0) (s : String) (t : V3) (hs : c.direction = some s)
    (ht : (s, t) ∈ [("+x", ![1, 0, 0]), ("+X", ![1, 0, 0]), ("-x", ![-1, 0, 0]), ("-X", ![-1, 0, 0]),
      ("+y", ![0, 1, 0]), ("+Y", ![0, 1, 0]), ("-y", ![0, -1, 0]), ("-Y", ![0, -1, 0]),
      ("+z", ![0, 0, 1]), ("+Z", ![0, 0, 1]), ("-z", ![0, 0, -1]), ("-Z", ![0, 0, -1])]) :
    ((c.evaluate d).passed = true ↔ angleDeg (first3 n) t ≤ c.toleranceDeg) ∧
    (c.evaluate d).errorValue = angleDeg (first3 n) t := by
  apply C58_facing c hc d n hn hn0 t
  rw [hs]
  simp only [List.mem_cons, Prod.mk.injEq, List.not_mem_nil, or_false] at ht
  rcases ht with ⟨rfl, rfl⟩ | ⟨rfl, rfl⟩ | ⟨rfl, rfl⟩ | ⟨rfl, rfl⟩ | ⟨rfl, rfl⟩ | ⟨rfl, rfl⟩ | ⟨rfl, rfl⟩ |
    ⟨rfl, rfl⟩ | ⟨rfl, rfl⟩ | ⟨rfl, rfl⟩ | ⟨rfl, rfl⟩ | ⟨rfl, rfl⟩ <;> simp [parseDirection]

/-- C58: any other direction name makes the FACING constraint fail. -/
theorem C58_facing_unknown_name (c : Constraint) (hc : c.ctype = .facing) (d : Datum) (s : String)
    (hs : c.direction = some s)
    (ht : s ∉ ["+x", "+X", "-x", "-X", "+y", "+Y", "-y", "-Y", "+z", "+Z", "-z", "-Z"]) :
    (c.evaluate d).passed = false := by
  simp only [List.mem_cons, List.not_mem_nil, or_false, not_or] at ht
  have hp : parseDirection c.direction = none := by
    rw [hs]
    obtain ⟨h1, h2, h3, h4, h5, h6, h7, h8, h9, h10, h11, h12⟩ := ht
    simp only [parseDirection, h1, h2, h3, h4, h5, h6, h7, h8, h9, h10, h11, h12, or_self, if_false]
  simp only [Constraint.evaluate, hc, Constraint.checkFacing, hp]
  cases d.normal <;> rfl

/-- C58 (CUSTOM): passes exactly when a validator is given and returns true; a validator that raises,
returns false or is missing makes it fail. -/
theorem C58_custom (c : Constraint) (hc : c.ctype = .custom) (d : Datum) :
    (c.evaluate d).passed = true ↔ ∃ f, c.validator = some f ∧ f d = some true := by
  simp only [Constraint.evaluate, hc]
  cases hv : c.validator with
  | none => simp
  | some f =>
    cases hf : f d with
    | none => simp [hf]
    | some b => simp [hf]

/-- Non-vacuity: a plane facing -y, and a custom constraint whose validator raises. -/
example : (∃ (c : Constraint) (d : Datum) (n : Vec4 ℝ), c.ctype = .facing ∧ d.normal = some n ∧
      first3 n ≠ 0 ∧ c.direction = some "-y") ∧
    ∃ (c : Constraint), c.ctype = .custom ∧ ∃ f, c.validator = some f ∧ ∀ d, f d = none :=
  ⟨⟨{ name := "c", ctype := .facing, part := "p", datum := "d", direction := some "-y" },
    { name := "d", dtype := .plane, origin := ![0, 0, 0, 1], normal := some ![0, -1, 0, 0], direction := none,
      xAxis := none, yAxis := none, radius := none }, ![0, -1, 0, 0], rfl, rfl, by
        intro h; have := congrFun h 1; simp [first3] at this, rfl⟩,
   ⟨{ name := "c", ctype := .custom, part := "p", datum := "d", validator := some fun _ => none }, rfl, _, rfl,
     fun _ => rfl⟩⟩

end Verif.Assembly
