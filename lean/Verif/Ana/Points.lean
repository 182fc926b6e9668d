import Verif.Ana.Model
import Mathlib.Analysis.SpecialFunctions.Complex.Arg
import Mathlib.Tactic.LinearCombination
import Mathlib.Tactic.Linarith
import Mathlib.Tactic.FieldSimp
import Mathlib.Tactic.Positivity

/-!
# C241: the points of the surfaces

## Specification
-/

namespace Verif.Ana
open Real

/-- the scalar product -/
def dot (a b : V ℝ) : ℝ := a.x * b.x + a.y * b.y + a.z * b.z

/-- the vector from `b` to `a` -/
def sub (a b : V ℝ) : V ℝ := ⟨a.x - b.x, a.y - b.y, a.z - b.z⟩

/-- the surface `s` has the point `p` for some parameters in the given sets -/
def Surf.Has (s : Surf) (U W : Set ℝ) (p : V ℝ) : Prop := ∃ u ∈ U, ∃ v ∈ W, s.eval u v = .ok p

/-! ## frames -/

/-- `a` and `r` are unit vectors at a right angle -/
structure Frame (a r : V ℝ) : Prop where
  aa : dot a a = 1
  rr : dot r r = 1
  ar : dot a r = 0

theorem mag_sq (a : V ℝ) : mag a ^ 2 = dot a a := by
  unfold mag dot
  rw [sq_sqrt]
  nlinarith [mul_self_nonneg a.x, mul_self_nonneg a.y, mul_self_nonneg a.z]

theorem mag_eq (a : V ℝ) : mag a = √(dot a a) := rfl

theorem dot_over {a : V ℝ} (h : 0 < mag a) : dot (over a (mag a)) (over a (mag a)) = 1 := by
  have := mag_sq a
  unfold dot at this ⊢
  unfold over
  dsimp only
  field_simp
  linarith

theorem eps_pos : 0 < eps := by unfold eps; norm_num

theorem ref_frame {n : V ℝ} (h : dot n n = 1) : Frame n (refDirection n) := by
  unfold refDirection
  have hd : n.x * n.x + n.y * n.y + n.z * n.z = 1 := h
  by_cases hz : |n.z| < 0.9
  · rw [if_pos hz]
    dsimp only
    have hz2 : n.z * n.z < 0.81 := by
      have h1 := abs_lt.mp hz
      nlinarith [h1.1, h1.2]
    set r : V ℝ := ⟨n.y, -n.x, 0⟩ with hr
    have hp : 0 < mag r := by
      unfold mag
      apply sqrt_pos.mpr
      rw [hr]
      dsimp only
      nlinarith
    refine ⟨h, dot_over hp, ?_⟩
    unfold dot over
    rw [hr]
    dsimp only
    field_simp
    ring
  · rw [if_neg hz]
    dsimp only
    have hz2 : 0.81 ≤ n.z * n.z := by
      have h1 : 0.9 ≤ |n.z| := not_lt.mp hz
      have := abs_mul_abs_self n.z
      nlinarith
    set r : V ℝ := ⟨0, n.z, -n.y⟩ with hr
    have hp : 0 < mag r := by
      unfold mag
      apply sqrt_pos.mpr
      rw [hr]
      dsimp only
      nlinarith
    refine ⟨h, dot_over hp, ?_⟩
    unfold dot over
    rw [hr]
    dsimp only
    field_simp
    ring

section
variable {a r : V ℝ} (f : Frame a r)
include f

theorem Frame.ac : dot a (cross a r) = 0 := by unfold dot cross; dsimp only; ring
theorem Frame.rc : dot r (cross a r) = 0 := by unfold dot cross; dsimp only; ring

theorem Frame.c : dot (cross a r) (cross a r) = 1 := by
  have ha := f.aa; have hr := f.rr; have hd := f.ar
  unfold dot at ha hr hd
  unfold dot cross
  dsimp only
  linear_combination (r.x * r.x + r.y * r.y + r.z * r.z) * ha + hr - (a.x * r.x + a.y * r.y + a.z * r.z) * hd

/-- every vector is the sum of its parts along the frame -/
theorem Frame.expand (q : V ℝ) :
    q.x = dot q a * a.x + dot q r * r.x + dot q (cross a r) * (cross a r).x ∧
    q.y = dot q a * a.y + dot q r * r.y + dot q (cross a r) * (cross a r).y ∧
    q.z = dot q a * a.z + dot q r * r.z + dot q (cross a r) * (cross a r).z := by
  have ha := f.aa; have hr := f.rr; have hd := f.ar
  unfold dot at ha hr hd
  have dg : ∀ a1 a2 a3 r1 r2 r3 : ℝ, a1 * a1 + a2 * a2 + a3 * a3 = 1 → r1 * r1 + r2 * r2 + r3 * r3 = 1 → a1 * r1 + a2 * r2 + a3 * r3 = 0 →
      (a2 * r3 - a3 * r2) * (a2 * r3 - a3 * r2) + a1 * a1 + r1 * r1 = 1 := by
    intro a1 a2 a3 r1 r2 r3 hA hR hD
    linear_combination (r2 * r2 + r3 * r3) * hA + (1 - a1 * a1) * hR + (-(a1 * r1 + a2 * r2 + a3 * r3) + 2 * a1 * r1) * hD
  have od : ∀ a1 a2 a3 r1 r2 r3 : ℝ, a1 * a1 + a2 * a2 + a3 * a3 = 1 → r1 * r1 + r2 * r2 + r3 * r3 = 1 → a1 * r1 + a2 * r2 + a3 * r3 = 0 →
      (a2 * r3 - a3 * r2) * (a3 * r1 - a1 * r3) + a1 * a2 + r1 * r2 = 0 := by
    intro a1 a2 a3 r1 r2 r3 hA hR hD
    linear_combination (-a1 * a2) * hR + (-r1 * r2) * hA + (a2 * r1 + a1 * r2) * hD
  have xx := dg a.x a.y a.z r.x r.y r.z ha hr hd
  have yy := dg a.y a.z a.x r.y r.z r.x (by linarith) (by linarith) (by linarith)
  have zz := dg a.z a.x a.y r.z r.x r.y (by linarith) (by linarith) (by linarith)
  have xy := od a.x a.y a.z r.x r.y r.z ha hr hd
  have yz := od a.y a.z a.x r.y r.z r.x (by linarith) (by linarith) (by linarith)
  have zx := od a.z a.x a.y r.z r.x r.y (by linarith) (by linarith) (by linarith)
  unfold dot cross
  dsimp only
  refine ⟨?_, ?_, ?_⟩
  · linear_combination -q.x * xx - q.y * xy - q.z * zx
  · linear_combination -q.x * xy - q.y * yy - q.z * yz
  · linear_combination -q.x * zx - q.y * yz - q.z * zz

theorem Frame.norm (q : V ℝ) : dot q q = dot q a ^ 2 + dot q r ^ 2 + dot q (cross a r) ^ 2 := by
  obtain ⟨hx, hy, hz⟩ := f.expand q
  generalize hA : dot q a = A at *
  generalize hB : dot q r = B at *
  generalize hC : dot q (cross a r) = C at *
  have : dot q q = A * dot q a + B * dot q r + C * dot q (cross a r) := by
    unfold dot
    generalize cross a r = c at *
    linear_combination q.x * hx + q.y * hy + q.z * hz
  rw [this, hA, hB, hC]
  ring

end

/-- polar coordinates -/
theorem polar {x y ρ : ℝ} (h : x ^ 2 + y ^ 2 = ρ ^ 2) (hρ : 0 ≤ ρ) : ∃ t ∈ Set.Icc 0 (2 * π), x = ρ * cos t ∧ y = ρ * sin t := by
  have hn : ‖(⟨x, y⟩ : ℂ)‖ = ρ := by
    rw [Complex.norm_eq_sqrt_sq_add_sq]
    dsimp only
    rw [h, sqrt_sq hρ]
  have hc := Complex.norm_mul_cos_arg ⟨x, y⟩
  have hs := Complex.norm_mul_sin_arg ⟨x, y⟩
  rw [hn] at hc hs
  dsimp only at hc hs
  have h1 := Complex.neg_pi_lt_arg ⟨x, y⟩
  have h2 := Complex.arg_le_pi ⟨x, y⟩
  have hp := pi_pos
  by_cases h0 : 0 ≤ Complex.arg ⟨x, y⟩
  · exact ⟨_, ⟨h0, by linarith⟩, hc.symm, hs.symm⟩
  · refine ⟨Complex.arg ⟨x, y⟩ + 2 * π, ⟨by linarith, by linarith [not_le.mp h0]⟩, ?_, ?_⟩
    · rw [cos_add_two_pi, hc]
    · rw [sin_add_two_pi, hs]

theorem frame_of {d : V ℝ} (h : ¬ mag d < eps) : Frame (over d (mag d)) (refDirection (over d (mag d))) :=
  ref_frame (dot_over (lt_of_lt_of_le eps_pos (not_lt.mp h)))

theorem dot_over_right (q d : V ℝ) : dot q (over d (mag d)) = dot q d / mag d := by
  unfold dot over
  dsimp only
  ring

/-! ## the theorems -/

/-- **C241 (plane).** A plane surface has exactly the points p with (p - origin) · normal = 0. -/
theorem C241_plane {o n : V ℝ} {ur vr : Range} {s : Surf} (h : planeSurface o n ur vr = .ok s) (p : V ℝ) :
    s.Has Set.univ Set.univ p ↔ dot (sub p o) n = 0 := by
  unfold planeSurface at h
  by_cases hm : mag n < eps
  · rw [if_pos hm] at h; cases h
  rw [if_neg hm] at h
  cases h
  have f := frame_of hm
  have hp : 0 < mag n := lt_of_lt_of_le eps_pos (not_lt.mp hm)
  have hq := dot_over_right (sub p o) n
  generalize hN : over n (mag n) = N at *
  generalize refDirection N = r at *
  have key : dot (sub p o) n = 0 ↔ dot (sub p o) N = 0 := by
    rw [hq, div_eq_zero_iff]
    exact ⟨Or.inl, fun h => h.resolve_right hp.ne'⟩
  rw [key]
  constructor
  · rintro ⟨u, -, v, -, e⟩
    have e' := Except.ok.inj e
    subst e'
    have h1 := f.ar; have h2 := f.ac
    unfold dot at h1 h2 ⊢
    unfold sub comb
    dsimp only
    linear_combination u * h1 + v * h2
  · intro h0
    obtain ⟨hx, hy, hz⟩ := f.expand (sub p o)
    refine ⟨dot (sub p o) r, trivial, dot (sub p o) (cross N r), trivial, ?_⟩
    show Except.ok _ = _
    congr 1
    rw [h0] at hx hy hz
    generalize hA : dot (sub p o) r = A at *
    generalize hB : dot (sub p o) (cross N r) = B at *
    unfold sub at hx hy hz
    unfold comb
    ext <;> dsimp only at * <;> linarith

/-- **C241 (sphere).** A sphere surface with its default ranges has exactly the points at distance r from the centre. -/
theorem C241_sphere {c : V ℝ} {r : ℝ} {ur vr : Range} {s : Surf} (h : sphereSurface c r ur vr = .ok s) (p : V ℝ) :
    s.Has (Set.Icc 0 (2 * π)) (Set.Icc (-(π / 2)) (π / 2)) p ↔ dot (sub p c) (sub p c) = r ^ 2 := by
  unfold sphereSurface at h
  by_cases hr : r ≤ 0
  · rw [if_pos hr] at h; cases h
  rw [if_neg hr] at h
  cases h
  have hr := not_le.mp hr
  constructor
  · rintro ⟨u, -, v, -, e⟩
    have e' := Except.ok.inj e
    subst e'
    unfold dot sub
    dsimp only
    have h1 := cos_sq_add_sin_sq u
    have h2 := cos_sq_add_sin_sq v
    linear_combination r ^ 2 * cos v ^ 2 * h1 + r ^ 2 * h2
  · intro h
    unfold dot sub at h
    dsimp only at h
    have hz : |(p.z - c.z) / r| ≤ 1 := by
      rw [abs_le]
      constructor
      · rw [le_div_iff₀ hr]; nlinarith
      · rw [div_le_iff₀ hr]; nlinarith
    obtain ⟨z1, z2⟩ := abs_le.mp hz
    have hs : r * sin (arcsin ((p.z - c.z) / r)) = p.z - c.z := by
      rw [sin_arcsin z1 z2]; field_simp
    have hcv : 0 ≤ cos (arcsin ((p.z - c.z) / r)) := cos_arcsin_nonneg _
    obtain ⟨u, hu, ex, ey⟩ := polar (x := p.x - c.x) (y := p.y - c.y) (ρ := r * cos (arcsin ((p.z - c.z) / r))) (by
      have := cos_sq_add_sin_sq (arcsin ((p.z - c.z) / r))
      generalize hC : cos (arcsin ((p.z - c.z) / r)) = C at *
      generalize hS : sin (arcsin ((p.z - c.z) / r)) = S at *
      have : (r * C) ^ 2 = r ^ 2 - (p.z - c.z) ^ 2 := by rw [← hs]; linear_combination r ^ 2 * this
      rw [this]; linarith) (by positivity)
    refine ⟨u, hu, arcsin ((p.z - c.z) / r), ⟨neg_pi_div_two_le_arcsin _, arcsin_le_pi_div_two _⟩, ?_⟩
    show Except.ok _ = _
    congr 1
    ext <;> dsimp only <;> linarith

/-- **C241 (cylinder).** A cylinder surface has, for the full turn and the heights from a to b, exactly the points at distance r from the axis whose height over the axis point is between a and b
(for a direction d of length 1; the height is (p - point) · d). -/
theorem C241_cylinder {o d : V ℝ} {r a b : ℝ} {ur vr : Range} {s : Surf} (h : cylinderSurface o d r ur vr = .ok s) (p : V ℝ) :
    s.Has (Set.Icc 0 (2 * π)) (Set.Icc a b) p ↔
      dot (sub p o) (sub p o) - (dot (sub p o) d / mag d) ^ 2 = r ^ 2 ∧ a ≤ dot (sub p o) d / mag d ∧ dot (sub p o) d / mag d ≤ b := by
  unfold cylinderSurface at h
  by_cases hm : mag d < eps
  · rw [if_pos hm] at h; cases h
  rw [if_neg hm] at h
  by_cases hr : r ≤ 0
  · rw [if_pos hr] at h; cases h
  rw [if_neg hr] at h
  cases h
  have hr := not_le.mp hr
  have f := frame_of hm
  rw [← dot_over_right]
  generalize over d (mag d) = N at *
  generalize refDirection N = e at *
  constructor
  · rintro ⟨u, -, v, hv, e'⟩
    have e' := Except.ok.inj e'
    have hA : dot (sub p o) N = v := by
      subst e'
      have h1 := f.ar; have h2 := f.ac; have h3 := f.aa
      unfold dot at h1 h2 h3 ⊢
      generalize cross N e = c at *
      unfold sub comb turn
      dsimp only
      linear_combination v * h3 + r * cos u * h1 + r * sin u * h2
    have hn := f.norm (sub p o)
    have hB : dot (sub p o) e = r * cos u := by
      subst e'
      have h1 := f.ar; have h2 := f.rc; have h3 := f.rr
      unfold dot at h1 h2 h3 ⊢
      generalize cross N e = c at *
      unfold sub comb turn
      dsimp only
      linear_combination v * h1 + r * cos u * h3 + r * sin u * h2
    have hC : dot (sub p o) (cross N e) = r * sin u := by
      subst e'
      have h1 := f.ac; have h2 := f.rc; have h3 := f.c
      unfold dot at h1 h2 h3 ⊢
      generalize cross N e = c at *
      unfold sub comb turn
      dsimp only
      linear_combination v * h1 + r * cos u * h2 + r * sin u * h3
    refine ⟨?_, by rw [hA]; exact hv.1, by rw [hA]; exact hv.2⟩
    rw [hn, hB, hC]
    linear_combination r ^ 2 * cos_sq_add_sin_sq u
  · rintro ⟨h1, h2, h3⟩
    obtain ⟨hx, hy, hz⟩ := f.expand (sub p o)
    rw [f.norm (sub p o)] at h1
    obtain ⟨u, hu, ex, ey⟩ := polar (x := dot (sub p o) e) (y := dot (sub p o) (cross N e)) (ρ := r) (by linarith) hr.le
    refine ⟨u, hu, dot (sub p o) N, ⟨h2, h3⟩, ?_⟩
    show Except.ok _ = _
    congr 1
    rw [ex, ey] at hx hy hz
    generalize dot (sub p o) N = A at *
    unfold sub at hx hy hz
    unfold comb turn
    ext <;> dsimp only at * <;> linarith

/-- **C241 (cone).** A cone surface has, for the full turn and the distances from 0 to L, exactly the points within distance L of the apex whose direction makes the half angle with the axis. -/
theorem C241_cone {o d : V ℝ} {hf L : ℝ} {ur vr : Range} {s : Surf} (h : coneSurface o d hf ur vr = .ok s) (p : V ℝ) :
    s.Has (Set.Icc 0 (2 * π)) (Set.Icc 0 L) p ↔ dot (sub p o) d = mag (sub p o) * mag d * cos hf ∧ mag (sub p o) ≤ L := by
  unfold coneSurface at h
  by_cases hm : mag d < eps
  · rw [if_pos hm] at h; cases h
  rw [if_neg hm] at h
  by_cases hh : hf ≤ 0 ∨ hf ≥ π / 2
  · rw [if_pos hh] at h; cases h
  rw [if_neg hh] at h
  cases h
  rw [not_or, not_le, not_le] at hh
  have f := frame_of hm
  have hp : 0 < mag d := lt_of_lt_of_le eps_pos (not_lt.mp hm)
  have hq := dot_over_right (sub p o) d
  generalize over d (mag d) = N at *
  generalize refDirection N = e at *
  have key : dot (sub p o) d = mag (sub p o) * mag d * cos hf ↔ dot (sub p o) N = mag (sub p o) * cos hf := by
    rw [hq, div_eq_iff hp.ne']
    constructor <;> intro h <;> linarith
  rw [key]
  have hsin : 0 < sin hf := sin_pos_of_pos_of_lt_pi hh.1 (by linarith [pi_pos])
  have hcs := cos_sq_add_sin_sq hf
  constructor
  · rintro ⟨u, -, v, hv, e'⟩
    have e' := Except.ok.inj e'
    have hA : dot (sub p o) N = v * cos hf := by
      subst e'
      have h1 := f.ar; have h2 := f.ac; have h3 := f.aa
      unfold dot at h1 h2 h3 ⊢
      generalize cross N e = c at *
      unfold sub turn
      dsimp only
      linear_combination v * cos hf * h3 + v * sin hf * cos u * h1 + v * sin hf * sin u * h2
    have hn := f.norm (sub p o)
    have hB : dot (sub p o) e = v * sin hf * cos u := by
      subst e'
      have h1 := f.ar; have h2 := f.rc; have h3 := f.rr
      unfold dot at h1 h2 h3 ⊢
      generalize cross N e = c at *
      unfold sub turn
      dsimp only
      linear_combination v * cos hf * h1 + v * sin hf * cos u * h3 + v * sin hf * sin u * h2
    have hC : dot (sub p o) (cross N e) = v * sin hf * sin u := by
      subst e'
      have h1 := f.ac; have h2 := f.rc; have h3 := f.c
      unfold dot at h1 h2 h3 ⊢
      generalize cross N e = c at *
      unfold sub turn
      dsimp only
      linear_combination v * cos hf * h1 + v * sin hf * cos u * h2 + v * sin hf * sin u * h3
    have hmag : mag (sub p o) = v := by
      rw [mag_eq, hn, hA, hB, hC, show (v * cos hf) ^ 2 + (v * sin hf * cos u) ^ 2 + (v * sin hf * sin u) ^ 2 = v ^ 2 by
        linear_combination v ^ 2 * sin hf ^ 2 * cos_sq_add_sin_sq u + v ^ 2 * hcs]
      exact sqrt_sq hv.1
    rw [hmag]
    exact ⟨hA, hv.2⟩
  · rintro ⟨h1, h2⟩
    obtain ⟨hx, hy, hz⟩ := f.expand (sub p o)
    have hn := f.norm (sub p o)
    rw [← mag_sq, h1] at hn
    have h0 : 0 ≤ mag (sub p o) := sqrt_nonneg _
    obtain ⟨u, hu, ex, ey⟩ := polar (x := dot (sub p o) e) (y := dot (sub p o) (cross N e)) (ρ := mag (sub p o) * sin hf)
      (by linear_combination -hn - mag (sub p o) ^ 2 * hcs) (by positivity)
    refine ⟨u, hu, mag (sub p o), ⟨h0, h2⟩, ?_⟩
    show Except.ok _ = _
    congr 1
    rw [ex, ey, h1] at hx hy hz
    generalize mag (sub p o) = A at *
    unfold sub at hx hy hz
    unfold turn
    ext <;> dsimp only at * <;> linarith

/-- **C241 (torus).** A torus surface has for full turns exactly the points at distance r from the circle of radius R: with q = p - center, height s = q · d (d of length 1) and distance t from the axis,
(t - R)² + s² = r². -/
theorem C241_torus {o d : V ℝ} {R r : ℝ} {ur vr : Range} {s : Surf} (h : torusSurface o d R r ur vr = .ok s) (p : V ℝ) :
    s.Has (Set.Icc 0 (2 * π)) (Set.Icc 0 (2 * π)) p ↔
      (√(dot (sub p o) (sub p o) - (dot (sub p o) d / mag d) ^ 2) - R) ^ 2 + (dot (sub p o) d / mag d) ^ 2 = r ^ 2 := by
  unfold torusSurface at h
  by_cases hm : mag d < eps
  · rw [if_pos hm] at h; cases h
  rw [if_neg hm] at h
  by_cases hr : R ≤ 0 ∨ r ≤ 0
  · rw [if_pos hr] at h; cases h
  rw [if_neg hr] at h
  by_cases hR : r ≥ R
  · rw [if_pos hR] at h; cases h
  rw [if_neg hR] at h
  cases h
  rw [not_or, not_le, not_le] at hr
  have hR := not_le.mp hR
  have f := frame_of hm
  rw [← dot_over_right]
  generalize over d (mag d) = N at *
  generalize refDirection N = e at *
  have hn := f.norm (sub p o)
  constructor
  · rintro ⟨u, -, v, -, e'⟩
    have e' := Except.ok.inj e'
    have hA : dot (sub p o) N = r * sin v := by
      subst e'
      have h1 := f.ar; have h2 := f.ac; have h3 := f.aa
      unfold dot at h1 h2 h3 ⊢
      generalize cross N e = c at *
      unfold sub comb turn
      dsimp only
      linear_combination r * sin v * h3 + (R + r * cos v) * cos u * h1 + (R + r * cos v) * sin u * h2
    have hB : dot (sub p o) e = (R + r * cos v) * cos u := by
      subst e'
      have h1 := f.ar; have h2 := f.rc; have h3 := f.rr
      unfold dot at h1 h2 h3 ⊢
      generalize cross N e = c at *
      unfold sub comb turn
      dsimp only
      linear_combination r * sin v * h1 + (R + r * cos v) * cos u * h3 + (R + r * cos v) * sin u * h2
    have hC : dot (sub p o) (cross N e) = (R + r * cos v) * sin u := by
      subst e'
      have h1 := f.ac; have h2 := f.rc; have h3 := f.c
      unfold dot at h1 h2 h3 ⊢
      generalize cross N e = c at *
      unfold sub comb turn
      dsimp only
      linear_combination r * sin v * h1 + (R + r * cos v) * cos u * h2 + (R + r * cos v) * sin u * h3
    have hpos : 0 ≤ R + r * cos v := by nlinarith [neg_one_le_cos v]
    rw [hn, hA, hB, hC, show (r * sin v) ^ 2 + ((R + r * cos v) * cos u) ^ 2 + ((R + r * cos v) * sin u) ^ 2 - (r * sin v) ^ 2 = (R + r * cos v) ^ 2 by
      linear_combination (R + r * cos v) ^ 2 * cos_sq_add_sin_sq u, sqrt_sq hpos]
    linear_combination r ^ 2 * cos_sq_add_sin_sq v
  · intro h1
    obtain ⟨hx, hy, hz⟩ := f.expand (sub p o)
    rw [hn, show dot (sub p o) N ^ 2 + dot (sub p o) e ^ 2 + dot (sub p o) (cross N e) ^ 2 - dot (sub p o) N ^ 2 = dot (sub p o) e ^ 2 + dot (sub p o) (cross N e) ^ 2 by ring] at h1
    have hsq := sq_sqrt (show 0 ≤ dot (sub p o) e ^ 2 + dot (sub p o) (cross N e) ^ 2 by positivity)
    have hs0 := sqrt_nonneg (dot (sub p o) e ^ 2 + dot (sub p o) (cross N e) ^ 2)
    generalize √(dot (sub p o) e ^ 2 + dot (sub p o) (cross N e) ^ 2) = t at *
    obtain ⟨u, hu, ex, ey⟩ := polar (x := dot (sub p o) e) (y := dot (sub p o) (cross N e)) (ρ := t) (by linarith) hs0
    obtain ⟨v, hv, fx, fy⟩ := polar (x := t - R) (y := dot (sub p o) N) (ρ := r) h1 hr.2.le
    refine ⟨u, hu, v, hv, ?_⟩
    show Except.ok _ = _
    congr 1
    have ht : t = R + r * cos v := by linarith
    rw [ex, ey, fy, ht] at hx hy hz
    unfold sub at hx hy hz
    unfold comb turn
    ext <;> dsimp only at * <;> linarith

/-- the hypotheses can be met -/
example : ∃ s, coneSurface ⟨0, 0, 0⟩ ⟨0, 0, 2⟩ (π / 4) (0, 2 * π) (0, 1) = .ok s := by
  unfold coneSurface
  have h1 : mag ⟨0, 0, 2⟩ = 2 := by
    unfold mag
    dsimp only
    rw [show (0 : ℝ) * 0 + 0 * 0 + 2 * 2 = 2 ^ 2 by norm_num]
    exact sqrt_sq (by norm_num)
  rw [h1, if_neg (by unfold eps; norm_num), if_neg]
  · exact ⟨_, rfl⟩
  · have := pi_pos
    rintro (h | h) <;> linarith

end Verif.Ana
