import Verif.Ana.Points
import Mathlib.Analysis.SpecialFunctions.Trigonometric.Deriv

/-!
# C242: the normals of the surfaces

## Specification
-/

namespace Verif.Ana
open Real

/-- The vector `n` is at a right angle to the surface at the parameters `u`, `v`: the surface is a function `f` of the parameters, and moving along either parameter does not change the component along `n`
(to first order). -/
def Surf.Perp (s : Surf) (u v : ℝ) (n : V ℝ) : Prop :=
  ∃ f : ℝ → ℝ → V ℝ, (∀ a b, s.eval a b = .ok (f a b)) ∧ HasDerivAt (fun a => dot (f a v) n) 0 u ∧ HasDerivAt (fun b => dot (f u b) n) 0 v

/-! ## the theorems -/

/-- **C242 (plane).** The normal has length 1, is perpendicular to the plane, and has the direction of the given normal; the axes of the parameters are unit vectors that make a right-handed frame with it. -/
theorem C242_plane {o m : V ℝ} {ur vr : Range} {s : Surf} (h : planeSurface o m ur vr = .ok s) (u v : ℝ) :
    ∃ n, s.normal u v = .ok n ∧ dot n n = 1 ∧ s.Perp u v n ∧ dot n m = mag m ∧
      ∃ e f, s = .plane o n e f ur vr ∧ dot e e = 1 ∧ dot f f = 1 ∧ dot e f = 0 ∧ cross e f = n := by
  unfold planeSurface at h
  by_cases hm : mag m < eps
  · rw [if_pos hm] at h; cases h
  rw [if_neg hm] at h
  cases h
  have f := frame_of hm
  have hp : 0 < mag m := lt_of_lt_of_le eps_pos (not_lt.mp hm)
  have hmm : dot (over m (mag m)) m = mag m := by
    have := mag_sq m
    unfold dot at this ⊢
    unfold over
    dsimp only
    field_simp
    linarith
  generalize over m (mag m) = N at *
  generalize refDirection N = e at *
  refine ⟨N, rfl, f.aa, ⟨fun a b => comb o a e b (cross N e), fun _ _ => rfl, ?_, ?_⟩, hmm, e, cross N e, rfl, f.rr, f.c, f.rc, ?_⟩
  · have : (fun a => dot (comb o a e v (cross N e)) N) = fun _ => dot o N := by
      funext a
      have h1 := f.ar; have h2 := f.ac
      unfold dot at h1 h2 ⊢
      unfold comb
      dsimp only
      linear_combination a * h1 + v * h2
    rw [this]
    exact hasDerivAt_const _ _
  · have : (fun b => dot (comb o u e b (cross N e)) N) = fun _ => dot o N := by
      funext b
      have h1 := f.ar; have h2 := f.ac
      unfold dot at h1 h2 ⊢
      unfold comb
      dsimp only
      linear_combination u * h1 + b * h2
    rw [this]
    exact hasDerivAt_const _ _
  · have h1 := f.ar; have h2 := f.rr
    unfold dot at h1 h2
    unfold cross
    ext <;> dsimp only
    · linear_combination N.x * h2 - e.x * h1
    · linear_combination N.y * h2 - e.y * h1
    · linear_combination N.z * h2 - e.z * h1

/-- **C242 (sphere).** The normal has length 1, is perpendicular to the sphere, and points away from the centre. -/
theorem C242_sphere {c : V ℝ} {r : ℝ} {ur vr : Range} {s : Surf} (h : sphereSurface c r ur vr = .ok s) (u v : ℝ) :
    ∃ n p, s.normal u v = .ok n ∧ s.eval u v = .ok p ∧ dot n n = 1 ∧ s.Perp u v n ∧ dot n (sub p c) = r ∧ 0 < r := by
  unfold sphereSurface at h
  by_cases hr : r ≤ 0
  · rw [if_pos hr] at h; cases h
  rw [if_neg hr] at h
  cases h
  have hu := cos_sq_add_sin_sq u
  have hv := cos_sq_add_sin_sq v
  refine ⟨_, _, rfl, rfl, ?_, ⟨fun a b => ⟨c.x + r * cos b * cos a, c.y + r * cos b * sin a, c.z + r * sin b⟩, fun _ _ => rfl, ?_, ?_⟩, ?_, not_le.mp hr⟩
  · unfold dot
    linear_combination cos v ^ 2 * hu + hv
  · have := (((hasDerivAt_cos u).const_mul (r * cos v)).mul_const (cos v * cos u)).add (((hasDerivAt_sin u).const_mul (r * cos v)).mul_const (cos v * sin u))
    have h2 := this.add_const (c.x * (cos v * cos u) + c.y * (cos v * sin u) + (c.z + r * sin v) * sin v)
    refine HasDerivAt.congr_deriv (h2.congr_of_eventuallyEq (Filter.Eventually.of_forall fun a => ?_)) ?_
    · unfold dot
      simp only [Pi.add_apply]
      ring
    · ring
  · have := (((hasDerivAt_cos v).const_mul r).mul_const (cos u * (cos v * cos u) + sin u * (cos v * sin u))).add (((hasDerivAt_sin v).const_mul r).mul_const (sin v))
    have h2 := this.add_const (c.x * (cos v * cos u) + c.y * (cos v * sin u) + c.z * sin v)
    refine HasDerivAt.congr_deriv (h2.congr_of_eventuallyEq (Filter.Eventually.of_forall fun a => ?_)) ?_
    · unfold dot
      simp only [Pi.add_apply]
      ring
    · linear_combination -(r * sin v * cos v) * hu
  · unfold dot sub
    dsimp only
    linear_combination r * cos v ^ 2 * hu + r * hv

/-- the derivative of `A cos + B sin + C` -/
theorem deriv_trig (A B C t : ℝ) : HasDerivAt (fun a => A * cos a + B * sin a + C) (-(A * sin t) + B * cos t) t := by
  have := (((hasDerivAt_cos t).const_mul A).add ((hasDerivAt_sin t).const_mul B)).add_const C
  refine HasDerivAt.congr_deriv (this.congr_of_eventuallyEq (Filter.Eventually.of_forall fun a => rfl)) ?_
  ring

theorem deriv_line (A B t : ℝ) : HasDerivAt (fun a => A * a + B) A t := by
  have := ((hasDerivAt_id t).const_mul A).add_const B
  refine HasDerivAt.congr_deriv (this.congr_of_eventuallyEq (Filter.Eventually.of_forall fun a => rfl)) ?_
  ring

theorem dot_comm (a b : V ℝ) : dot a b = dot b a := by unfold dot; ring
theorem dot_turn (a b n : V ℝ) (c s : ℝ) : dot (turn a c b s) n = dot a n * c + dot b n * s := by unfold dot turn; dsimp only; ring
theorem dot_comb (o a b n : V ℝ) (s t : ℝ) : dot (comb o s a t b) n = dot o n + s * dot a n + t * dot b n := by unfold dot comb; dsimp only; ring
theorem dot_sub (a b n : V ℝ) : dot (sub a b) n = dot a n - dot b n := by unfold dot sub; dsimp only; ring

/-- **C242 (cylinder).** The normal has length 1, is perpendicular to the cylinder, and points away from the axis: it has no component along the axis, and going back along it by the radius one is on the axis. -/
theorem C242_cylinder {o d : V ℝ} {r : ℝ} {ur vr : Range} {s : Surf} (h : cylinderSurface o d r ur vr = .ok s) (u v : ℝ) :
    ∃ n p, s.normal u v = .ok n ∧ s.eval u v = .ok p ∧ dot n n = 1 ∧ s.Perp u v n ∧ dot n d = 0 ∧ 0 < r ∧
      ∃ t, p = comb o t d r n := by
  unfold cylinderSurface at h
  by_cases hm : mag d < eps
  · rw [if_pos hm] at h; cases h
  rw [if_neg hm] at h
  by_cases hr : r ≤ 0
  · rw [if_pos hr] at h; cases h
  rw [if_neg hr] at h
  cases h
  have f := frame_of hm
  have hp : 0 < mag d := lt_of_lt_of_le eps_pos (not_lt.mp hm)
  have hq : ∀ q, dot q d = mag d * dot q (over d (mag d)) := fun q => by rw [dot_over_right]; field_simp
  have hN : ∀ t : ℝ, ∀ n, comb o t (over d (mag d)) r n = comb o (t / mag d) d r n := by
    intro t n; unfold comb over; ext <;> dsimp only <;> field_simp
  generalize over d (mag d) = N at *
  generalize refDirection N = e at *
  have hu := cos_sq_add_sin_sq u
  have h1 := f.ar; have h2 := f.ac; have h3 := f.rc; have h4 := f.rr; have h5 := f.c
  have h1' : dot e N = 0 := by rw [dot_comm]; exact h1
  have h2' : dot (cross N e) N = 0 := by rw [dot_comm]; exact h2
  have h3' : dot (cross N e) e = 0 := by rw [dot_comm]; exact h3
  have d1 : dot (turn e (cos u) (cross N e) (sin u)) e = cos u := by rw [dot_turn, h4, h3']; ring
  have d2 : dot (turn e (cos u) (cross N e) (sin u)) (cross N e) = sin u := by rw [dot_turn, h3, h5]; ring
  have d3 : dot (turn e (cos u) (cross N e) (sin u)) N = 0 := by rw [dot_turn, h1', h2']; ring
  have d4 : dot (turn e (cos u) (cross N e) (sin u)) (turn e (cos u) (cross N e) (sin u)) = 1 := by
    rw [dot_turn, dot_comm e, dot_comm (cross N e), d1, d2]; linarith
  refine ⟨_, _, rfl, rfl, d4, ⟨fun a b => comb o b N r (turn e (cos a) (cross N e) (sin a)), fun _ _ => rfl, ?_, ?_⟩, ?_, not_le.mp hr, v / mag d, hN _ _⟩
  · have := deriv_trig (r * cos u) (r * sin u) (dot o (turn e (cos u) (cross N e) (sin u))) u
    refine HasDerivAt.congr_deriv (this.congr_of_eventuallyEq (Filter.Eventually.of_forall fun a => ?_)) (by ring)
    show dot _ _ = _
    rw [dot_comb, dot_turn e (cross N e) _ (cos a) (sin a), dot_comm N, d3, dot_comm e, d1, dot_comm (cross N e), d2]
    ring
  · have : (fun b => dot (comb o b N r (turn e (cos u) (cross N e) (sin u))) (turn e (cos u) (cross N e) (sin u))) = fun _ => dot o (turn e (cos u) (cross N e) (sin u)) + r := by
      funext b
      rw [dot_comb, dot_comm N, d3, d4]
      ring
    rw [this]
    exact hasDerivAt_const _ _
  · rw [hq, d3, mul_zero]

/-- **C242 (torus).** The normal has length 1, is perpendicular to the torus, and points out of the tube: going back along it by the minor radius one is on the centre circle. -/
theorem C242_torus {o d : V ℝ} {R r : ℝ} {ur vr : Range} {s : Surf} (h : torusSurface o d R r ur vr = .ok s) (u v : ℝ) :
    ∃ n p, s.normal u v = .ok n ∧ s.eval u v = .ok p ∧ dot n n = 1 ∧ s.Perp u v n ∧ 0 < r ∧
      ∃ m : V ℝ, dot (sub m o) d = 0 ∧ mag (sub m o) = R ∧ sub p m = ⟨r * n.x, r * n.y, r * n.z⟩ := by
  unfold torusSurface at h
  by_cases hm : mag d < eps
  · rw [if_pos hm] at h; cases h
  rw [if_neg hm] at h
  by_cases hr : R ≤ 0 ∨ r ≤ 0
  · rw [if_pos hr] at h; cases h
  rw [if_neg hr] at h
  by_cases hR : r ≥ R
  · rw [if_pos hR] at h; cases h
  rw [if_neg hR] at h
  cases h
  rw [not_or, not_le, not_le] at hr
  have f := frame_of hm
  have hp : 0 < mag d := lt_of_lt_of_le eps_pos (not_lt.mp hm)
  have hq : ∀ q, dot q d = mag d * dot q (over d (mag d)) := fun q => by rw [dot_over_right]; field_simp
  generalize over d (mag d) = N at *
  generalize refDirection N = e at *
  have hu := cos_sq_add_sin_sq u
  have hv := cos_sq_add_sin_sq v
  have h1 := f.ar; have h2 := f.ac; have h3 := f.rc; have h4 := f.rr; have h5 := f.c; have h6 := f.aa
  have h1' : dot e N = 0 := by rw [dot_comm]; exact h1
  have h2' : dot (cross N e) N = 0 := by rw [dot_comm]; exact h2
  have h3' : dot (cross N e) e = 0 := by rw [dot_comm]; exact h3
  set D := turn e (cos u) (cross N e) (sin u) with hD
  have d1 : dot D e = cos u := by rw [hD, dot_turn, h4, h3']; ring
  have d2 : dot D (cross N e) = sin u := by rw [hD, dot_turn, h3, h5]; ring
  have d3 : dot D N = 0 := by rw [hD, dot_turn, h1', h2']; ring
  have d4 : dot D D = 1 := by
    nth_rw 1 [hD]
    rw [dot_turn, dot_comm e, dot_comm (cross N e), d1, d2]; linarith
  let n : V ℝ := ⟨cos v * D.x + sin v * N.x, cos v * D.y + sin v * N.y, cos v * D.z + sin v * N.z⟩
  have hn : ∀ q, dot q n = cos v * dot q D + sin v * dot q N := by intro q; unfold dot; simp only [n]; ring
  have nD : dot D n = cos v := by rw [hn, d4, d3]; ring
  have nN : dot N n = sin v := by rw [hn, dot_comm N D, d3, h6]; ring
  have nn : dot n n = 1 := by rw [hn, dot_comm n D, dot_comm n N, nD, nN]; linarith
  refine ⟨n, _, rfl, rfl, nn, ⟨fun a b => comb o (R + r * cos b) (turn e (cos a) (cross N e) (sin a)) (r * sin b) N, fun _ _ => rfl, ?_, ?_⟩, hr.2, comb o R D 0 N, ?_, ?_, ?_⟩
  · have := deriv_trig ((R + r * cos v) * cos v * cos u) ((R + r * cos v) * cos v * sin u) (dot o n + r * sin v * dot N n) u
    refine HasDerivAt.congr_deriv (this.congr_of_eventuallyEq (Filter.Eventually.of_forall fun a => ?_)) (by ring)
    show dot _ _ = _
    rw [dot_comb, dot_turn e (cross N e) _ (cos a) (sin a)]
    have e1 : dot e n = cos v * cos u := by rw [hn, dot_comm e D, d1, h1']; ring
    have e2 : dot (cross N e) n = cos v * sin u := by rw [hn, dot_comm _ D, d2, h2']; ring
    rw [e1, e2]
    ring
  · have := deriv_trig (r * cos v) (r * sin v) (dot o n + R * cos v) v
    refine HasDerivAt.congr_deriv (this.congr_of_eventuallyEq (Filter.Eventually.of_forall fun b => ?_)) (by ring)
    show dot (comb o (R + r * cos b) D (r * sin b) N) n = _
    rw [dot_comb, nD, nN]
    ring
  · rw [hq, dot_sub, dot_comb, d3, h6]
    ring
  · have : dot (sub (comb o R D 0 N) o) (sub (comb o R D 0 N) o) = R ^ 2 := by
      have e1 : sub (comb o R D 0 N) o = ⟨R * D.x, R * D.y, R * D.z⟩ := by unfold sub comb; ext <;> dsimp only <;> ring
      rw [e1]
      unfold dot at d4 ⊢
      dsimp only
      linear_combination R ^ 2 * d4
    rw [mag_eq, this, sqrt_sq hr.1.le]
  · show sub (comb o (R + r * cos v) D (r * sin v) N) (comb o R D 0 N) = _
    unfold sub comb
    simp only [n]
    ext <;> dsimp only <;> ring

/-- **C242 (cone), the part that holds.** The normal has length 1 and is perpendicular to the cone. -/
theorem C242_cone_partial {o d : V ℝ} {hf : ℝ} {ur vr : Range} {s : Surf} (h : coneSurface o d hf ur vr = .ok s) (u v : ℝ) :
    ∃ n, s.normal u v = .ok n ∧ dot n n = 1 ∧ s.Perp u v n := by
  unfold coneSurface at h
  by_cases hm : mag d < eps
  · rw [if_pos hm] at h; cases h
  rw [if_neg hm] at h
  by_cases hh : hf ≤ 0 ∨ hf ≥ π / 2
  · rw [if_pos hh] at h; cases h
  rw [if_neg hh] at h
  cases h
  have f := frame_of hm
  generalize over d (mag d) = N at *
  generalize refDirection N = e at *
  have hu := cos_sq_add_sin_sq u
  have hcs := cos_sq_add_sin_sq hf
  have h1 := f.ar; have h2 := f.ac; have h3 := f.rc; have h4 := f.rr; have h5 := f.c; have h6 := f.aa
  have h1' : dot e N = 0 := by rw [dot_comm]; exact h1
  have h2' : dot (cross N e) N = 0 := by rw [dot_comm]; exact h2
  have h3' : dot (cross N e) e = 0 := by rw [dot_comm]; exact h3
  set D := turn e (cos u) (cross N e) (sin u) with hD
  have d1 : dot D e = cos u := by rw [hD, dot_turn, h4, h3']; ring
  have d2 : dot D (cross N e) = sin u := by rw [hD, dot_turn, h3, h5]; ring
  have d3 : dot D N = 0 := by rw [hD, dot_turn, h1', h2']; ring
  have d4 : dot D D = 1 := by
    nth_rw 1 [hD]
    rw [dot_turn, dot_comm e, dot_comm (cross N e), d1, d2]; linarith
  let n : V ℝ := ⟨sin hf * N.x - cos hf * D.x, sin hf * N.y - cos hf * D.y, sin hf * N.z - cos hf * D.z⟩
  have hn : ∀ q, dot q n = sin hf * dot q N - cos hf * dot q D := by intro q; unfold dot; simp only [n]; ring
  have nD : dot D n = -cos hf := by rw [hn, d4, d3]; ring
  have nN : dot N n = sin hf := by rw [hn, dot_comm N D, d3, h6]; ring
  have nn : dot n n = 1 := by rw [hn, dot_comm n D, dot_comm n N, nD, nN]; linarith
  let p : ℝ → ℝ → V ℝ := fun a b =>
    ⟨o.x + b * (cos hf * N.x + sin hf * (turn e (cos a) (cross N e) (sin a)).x), o.y + b * (cos hf * N.y + sin hf * (turn e (cos a) (cross N e) (sin a)).y),
      o.z + b * (cos hf * N.z + sin hf * (turn e (cos a) (cross N e) (sin a)).z)⟩
  have hp : ∀ a b, dot (p a b) n = dot o n + b * (cos hf * dot N n + sin hf * dot (turn e (cos a) (cross N e) (sin a)) n) := by
    intro a b; unfold dot; simp only [p]; ring
  refine ⟨n, rfl, nn, p, fun _ _ => rfl, ?_, ?_⟩
  · have := deriv_trig (v * sin hf * -(cos hf * cos u)) (v * sin hf * -(cos hf * sin u)) (dot o n + v * cos hf * dot N n) u
    refine HasDerivAt.congr_deriv (this.congr_of_eventuallyEq (Filter.Eventually.of_forall fun a => ?_)) (by ring)
    show dot _ _ = _
    rw [hp, dot_turn e (cross N e) _ (cos a) (sin a)]
    have e1 : dot e n = -(cos hf * cos u) := by rw [hn, dot_comm e D, d1, h1']; ring
    have e2 : dot (cross N e) n = -(cos hf * sin u) := by rw [hn, dot_comm _ D, d2, h2']; ring
    rw [e1, e2]
    ring
  · have : (fun b => dot (p u b) n) = fun _ => dot o n := by
      funext b
      rw [hp, ← hD, nD, nN]
      ring
    rw [this]
    exact hasDerivAt_const _ _

/-- **C242 (cone), what does not.** The normal of every cone, documented as the outward one, points to the axis: for a point p of the cone other than the apex and the point q of the axis at its height,
the normal has an obtuse angle with the vector from q to p. -/
theorem C242_cone_inward {o d : V ℝ} {hf : ℝ} {ur vr : Range} {s : Surf} (h : coneSurface o d hf ur vr = .ok s) (u v : ℝ) (hv : 0 < v) :
    ∃ n p t, s.normal u v = .ok n ∧ s.eval u v = .ok p ∧ dot (sub p (comb o t d 0 d)) d = 0 ∧ dot n (sub p (comb o t d 0 d)) < 0 := by
  unfold coneSurface at h
  by_cases hm : mag d < eps
  · rw [if_pos hm] at h; cases h
  rw [if_neg hm] at h
  by_cases hh : hf ≤ 0 ∨ hf ≥ π / 2
  · rw [if_pos hh] at h; cases h
  rw [if_neg hh] at h
  cases h
  rw [not_or, not_le, not_le] at hh
  have f := frame_of hm
  have hp : 0 < mag d := lt_of_lt_of_le eps_pos (not_lt.mp hm)
  have hq : ∀ q, dot q d = mag d * dot q (over d (mag d)) := fun q => by rw [dot_over_right]; field_simp
  have hN : ∀ t : ℝ, comb o (t / mag d) d 0 d = comb o t (over d (mag d)) 0 d := by
    intro t; unfold comb over; ext <;> dsimp only <;> field_simp
  have hsin : 0 < sin hf := sin_pos_of_pos_of_lt_pi hh.1 (by linarith [pi_pos])
  have hcos : 0 < cos hf := cos_pos_of_mem_Ioo ⟨by linarith [pi_pos], hh.2⟩
  generalize over d (mag d) = N at *
  generalize refDirection N = e at *
  have hu := cos_sq_add_sin_sq u
  have h1 := f.ar; have h2 := f.ac; have h3 := f.rc; have h4 := f.rr; have h5 := f.c; have h6 := f.aa
  have h1' : dot e N = 0 := by rw [dot_comm]; exact h1
  have h2' : dot (cross N e) N = 0 := by rw [dot_comm]; exact h2
  have h3' : dot (cross N e) e = 0 := by rw [dot_comm]; exact h3
  set D := turn e (cos u) (cross N e) (sin u) with hD
  have d1 : dot D e = cos u := by rw [hD, dot_turn, h4, h3']; ring
  have d2 : dot D (cross N e) = sin u := by rw [hD, dot_turn, h3, h5]; ring
  have d3 : dot D N = 0 := by rw [hD, dot_turn, h1', h2']; ring
  have d4 : dot D D = 1 := by
    nth_rw 1 [hD]
    rw [dot_turn, dot_comm e, dot_comm (cross N e), d1, d2]; linarith
  refine ⟨_, _, v * cos hf / mag d, rfl, rfl, ?_, ?_⟩
  · rw [hN, hq]
    rw [← hD]
    have : sub ⟨o.x + v * (cos hf * N.x + sin hf * D.x), o.y + v * (cos hf * N.y + sin hf * D.y), o.z + v * (cos hf * N.z + sin hf * D.z)⟩ (comb o (v * cos hf) N 0 d)
        = ⟨v * sin hf * D.x, v * sin hf * D.y, v * sin hf * D.z⟩ := by
      unfold sub comb; ext <;> dsimp only <;> ring
    rw [this]
    unfold dot at d3 ⊢
    dsimp only
    linear_combination mag d * v * sin hf * d3
  · rw [hN, ← hD]
    have : sub ⟨o.x + v * (cos hf * N.x + sin hf * D.x), o.y + v * (cos hf * N.y + sin hf * D.y), o.z + v * (cos hf * N.z + sin hf * D.z)⟩ (comb o (v * cos hf) N 0 d)
        = ⟨v * sin hf * D.x, v * sin hf * D.y, v * sin hf * D.z⟩ := by
      unfold sub comb; ext <;> dsimp only <;> ring
    rw [this]
    have : dot ⟨sin hf * N.x - cos hf * D.x, sin hf * N.y - cos hf * D.y, sin hf * N.z - cos hf * D.z⟩ ⟨v * sin hf * D.x, v * sin hf * D.y, v * sin hf * D.z⟩ = -(v * sin hf * cos hf) := by
      unfold dot at d3 d4 ⊢
      dsimp only
      linear_combination v * sin hf * sin hf * d3 - v * sin hf * cos hf * d4
    rw [this]
    have : 0 < v * sin hf * cos hf := by positivity
    linarith

end Verif.Ana
