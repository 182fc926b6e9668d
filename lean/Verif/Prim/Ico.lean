import Verif.Prim.SphereCount
import Mathlib.Analysis.SpecialFunctions.Trigonometric.Bounds

/-!
# The icosahedron the sphere starts from
-/

namespace Verif.Prim
open Verif.Geom Verif.Surf Real

/-- cosine of the latitude of the rings -/
noncomputable def CL : ℝ := cos (arctan 0.5)

/-- point `k` of the two rings: even numbers are below the equator -/
noncomputable def ringP (r : ℝ) (k : Nat) : V4 :=
  pt (cos (k * (π / 5)) * (CL * r)) (sin (k * (π / 5)) * (CL * r)) ((if k % 2 = 0 then -1 else 1) * (CL / 2) * r)

noncomputable def ico (r : ℝ) : List V4 := pt 0 0 r :: (List.range 10).map (ringP r) ++ [pt 0 0 (-r)]

theorem CL_sq : CL ^ 2 = 4 / 5 := by
  unfold CL
  rw [cos_arctan, div_pow, sq_sqrt (by norm_num)]
  norm_num

theorem CL_pos : 0 < CL := by unfold CL; exact cos_arctan_pos _

theorem SL_eq : sin (arctan 0.5) = CL / 2 := by
  unfold CL
  rw [sin_arctan, cos_arctan]
  ring

theorem pymod_of {x m : ℝ} (hm : 0 < m) (h0 : 0 ≤ x) (h1 : x < m) : pymod x m = x := by
  unfold pymod
  have : ⌊x / m⌋ = 0 := by
    rw [Int.floor_eq_zero_iff]
    exact ⟨div_nonneg h0 hm.le, (div_lt_one hm).mpr h1⟩
  rw [this]; simp

theorem ico_point (r : ℝ) {k : Nat} (hk : k < 10) :
    sphere2cartesian (arctan 0.5 * 360 * (if k % 2 = 0 then -1 else 1) / (2 * π)) (k * 36) r = ringP r k := by
  have hp := pi_pos
  have a0 : 0 < arctan (0.5 : ℝ) := by rw [← arctan_zero]; exact arctan_strictMono (by norm_num)
  have a1 : arctan (0.5 : ℝ) < π / 2 := arctan_lt_pi_div_two _
  set a := arctan (0.5 : ℝ) with ha
  have b0 : 0 < a * 360 / (2 * π) := by positivity
  have b1 : a * 360 / (2 * π) < 90 := by rw [div_lt_iff₀ (by linarith)]; linarith
  have lonr : pymod ((k : ℝ) * 36) 360 * (2 * π) / 360 = k * (π / 5) := by
    rw [pymod_of (by norm_num) (by positivity)]
    · ring
    · have : (k : ℝ) < 10 := by exact_mod_cast hk
      linarith
  have key : ∀ s : ℝ, (s = -1 ∨ s = 1) → sphere2cartesian (a * 360 * s / (2 * π)) (k * 36) r =
      pt (cos (k * (π / 5)) * (CL * r)) (sin (k * (π / 5)) * (CL * r)) (s * (CL / 2) * r) := by
    intro s hs
    have e : a * 360 * s / (2 * π) = s * (a * 360 / (2 * π)) := by ring
    have l1 : -90 < s * (a * 360 / (2 * π)) ∧ s * (a * 360 / (2 * π)) < 90 := by
      rcases hs with rfl | rfl <;> constructor <;> linarith
    have latr : (pymod (a * 360 * s / (2 * π) + 90) 180 - 90) * (2 * π) / 360 = s * a := by
      rw [e, pymod_of (by norm_num) (by linarith [l1.1]) (by linarith [l1.2])]
      field_simp
      ring
    unfold sphere2cartesian
    rw [if_neg (by rw [e]; linarith [l1.2]), if_neg (by rw [e]; linarith [l1.1])]
    simp only
    rw [latr, lonr]
    have c1 : cos (s * a) = CL := by
      rcases hs with rfl | rfl
      · rw [neg_one_mul, cos_neg]; rfl
      · rw [one_mul]; rfl
    have c2 : sin (s * a) = s * (CL / 2) := by
      rcases hs with rfl | rfl
      · rw [neg_one_mul, sin_neg, SL_eq]; ring
      · rw [one_mul, SL_eq]; ring
    rw [c1, c2]
    rfl
  unfold ringP
  apply key
  split <;> simp

theorem icoPoints_eq (r : ℝ) : icoPoints r = ico r := by
  unfold icoPoints ico
  have h1 : sphere2cartesian 90 0 r = pt 0 0 r := by unfold sphere2cartesian; rw [if_pos rfl]; rfl
  have h2 : sphere2cartesian (-90) 0 r = pt 0 0 (-r) := by
    unfold sphere2cartesian; rw [if_neg (by norm_num), if_pos rfl]; rfl
  rw [h1, h2]
  congr 2
  refine List.map_congr_left fun k hk => ?_
  exact ico_point r (by simpa using hk)

theorem ico_w {r : ℝ} : ∀ p ∈ ico r, p.w = 1 := by
  intro p hp
  simp only [ico, List.cons_append, List.mem_cons, List.mem_append, List.mem_map, List.not_mem_nil, or_false] at hp
  rcases hp with rfl | ⟨k, -, rfl⟩ | rfl <;> rfl

theorem ico_moved (r : ℝ) : (icoPoints r).map (fun p => add p (pt 0 0)) = ico r := by
  rw [icoPoints_eq]
  conv_rhs => rw [← List.map_id (ico r)]
  refine List.map_congr_left fun p hp => ?_
  have := ico_w p hp
  unfold add pt
  ext <;> simp [this]

theorem sign_sq (k : Nat) : ((if k % 2 = 0 then -1 else 1 : ℝ)) ^ 2 = 1 := by split <;> norm_num

theorem ring_on (r : ℝ) (k : Nat) : OnBall r (ringP r k) := by
  refine ⟨?_, rfl⟩
  have h := CL_sq
  have hs := sign_sq k
  have ht := sin_sq_add_cos_sq (k * (π / 5))
  simp only [ringP, pt]
  have : (cos (k * (π / 5)) * (CL * r)) ^ 2 + (sin (k * (π / 5)) * (CL * r)) ^ 2 + ((if k % 2 = 0 then -1 else 1) * (CL / 2) * r) ^ 2 =
      (sin (k * (π / 5)) ^ 2 + cos (k * (π / 5)) ^ 2) * (CL ^ 2 * r ^ 2) + ((if k % 2 = 0 then -1 else 1 : ℝ)) ^ 2 * (CL ^ 2 * r ^ 2) / 4 := by ring
  rw [this, ht, hs, h]
  ring

theorem ico_on (r : ℝ) : ∀ p ∈ ico r, OnBall r p := by
  intro p hp
  simp only [ico, List.cons_append, List.mem_cons, List.mem_append, List.mem_map, List.not_mem_nil, or_false] at hp
  rcases hp with rfl | ⟨k, -, rfl⟩ | rfl
  · simp [OnBall, pt]
  · exact ring_on r k
  · simp [OnBall, pt]

theorem unitOf_on {r : ℝ} (hr : 0 < r) {p : V4} (h : OnBall r p) : unitOf p = radial r p := by
  have hm : mag p = r := by
    have := mag_sq p
    rw [h.1] at this
    exact (pow_left_inj₀ (mag_nonneg _) hr.le two_ne_zero).mp this
  unfold unitOf radial scale3
  simp only [hm]
  ext <;> simp only <;> ring

theorem ico_normals {r : ℝ} (hr : 0 < r) : (icoPoints r).map unitOf = (ico r).map (radial r) := by
  rw [icoPoints_eq]
  exact List.map_congr_left fun p hp => unitOf_on hr (ico_on r p hp)

/-! ## the twenty faces -/

theorem cos_one_fifth : (3 : ℝ) / 4 < cos (π / 5) ∧ cos (π / 5) < 13 / 16 := by
  rw [cos_pi_div_five]
  have h := sq_sqrt (show (0 : ℝ) ≤ 5 by norm_num)
  have h0 := sqrt_nonneg (5 : ℝ)
  constructor <;> nlinarith

theorem cos_two_fifth : (1 : ℝ) / 8 < cos (2 * (π / 5)) ∧ cos (2 * (π / 5)) < 3 / 8 := by
  rw [cos_two_mul, cos_pi_div_five]
  have h := sq_sqrt (show (0 : ℝ) ≤ 5 by norm_num)
  have h0 := sqrt_nonneg (5 : ℝ)
  constructor <;> nlinarith

theorem sin_fifths : 0 < sin (π / 5) ∧ 0 < sin (2 * (π / 5)) := by
  have hp := pi_pos
  exact ⟨sin_pos_of_pos_of_lt_pi (by linarith) (by linarith), sin_pos_of_pos_of_lt_pi (by linarith) (by linarith)⟩

theorem ring_ten (r : ℝ) (k : Nat) : ringP r (k + 10) = ringP r k := by
  unfold ringP
  have e : ((k + 10 : ℕ) : ℝ) * (π / 5) = k * (π / 5) + 2 * π := by push_cast; ring
  rw [e, cos_add_two_pi, sin_add_two_pi, Nat.add_mod]
  simp

theorem ring_dot (r : ℝ) (k d : Nat) : dot (ringP r k) (ringP r (k + d)) =
    r ^ 2 * (4 / 5 * cos (d * (π / 5)) + (if d % 2 = 0 then 1 else -1) / 5) := by
  have e : ((k + d : ℕ) : ℝ) * (π / 5) = k * (π / 5) + d * (π / 5) := by push_cast; ring
  have hs : ((if k % 2 = 0 then -1 else 1 : ℝ)) * (if (k + d) % 2 = 0 then -1 else 1) = if d % 2 = 0 then 1 else -1 := by
    rcases Nat.mod_two_eq_zero_or_one k with h1 | h1 <;> rcases Nat.mod_two_eq_zero_or_one d with h2 | h2 <;>
      simp [Nat.add_mod, h1, h2]
  have ht := sin_sq_add_cos_sq (k * (π / 5))
  have hc := CL_sq
  unfold dot ringP pt
  simp only
  rw [e, cos_add, sin_add]
  generalize (if k % 2 = 0 then (-1 : ℝ) else 1) = s at *
  generalize (if (k + d) % 2 = 0 then (-1 : ℝ) else 1) = t at *
  rw [← hs]
  linear_combination (CL ^ 2 * r ^ 2 * cos (d * (π / 5))) * ht + (r ^ 2 * cos (d * (π / 5)) + s * t * r ^ 2 / 4) * hc

theorem ring_dot_one (r : ℝ) (hr : 0 < r) (k : Nat) : 0 < dot (ringP r k) (ringP r (k + 1)) := by
  rw [ring_dot]
  have := cos_one_fifth.1
  have e : (((1 : ℕ) : ℝ)) * (π / 5) = π / 5 := by push_cast; ring
  rw [e]
  have : 0 < r ^ 2 := by positivity
  simp only [Nat.one_mod, one_ne_zero, if_false]
  apply mul_pos this
  linarith

theorem ring_dot_two (r : ℝ) (hr : 0 < r) (k : Nat) : 0 < dot (ringP r k) (ringP r (k + 2)) := by
  rw [ring_dot]
  have := cos_two_fifth.1
  have : 0 < r ^ 2 := by positivity
  simp only [Nat.mod_self, if_true]
  push_cast
  apply mul_pos this
  linarith

theorem pole_dot (r : ℝ) (hr : 0 < r) (k : Nat) : (k % 2 = 0 → 0 < dot (ringP r k) (pt 0 0 (-r))) ∧ (k % 2 = 1 → 0 < dot (ringP r k) (pt 0 0 r)) := by
  have hc := CL_pos
  have hp : 0 < CL / 2 * r * r := by positivity
  constructor <;> intro h <;> (unfold dot ringP pt; simp [h]; linarith)

/-- the determinant of three points at given heights -/
theorem ring_cross (r : ℝ) (k d : Nat) :
    (ringP r k).x * (ringP r (k + d)).y - (ringP r k).y * (ringP r (k + d)).x = 4 / 5 * r ^ 2 * sin (d * (π / 5)) := by
  have e : ((k + d : ℕ) : ℝ) * (π / 5) = k * (π / 5) + d * (π / 5) := by push_cast; ring
  have ht := sin_sq_add_cos_sq (k * (π / 5))
  have hc := CL_sq
  unfold ringP pt
  simp only
  rw [e, cos_add, sin_add]
  linear_combination (CL ^ 2 * r ^ 2 * sin (d * (π / 5))) * ht + (r ^ 2 * sin (d * (π / 5))) * hc

/-- what is needed of a face -/
def Fine (u v w : V4) : Prop := 0 < dot u v ∧ 0 < dot v w ∧ 0 < dot w u ∧ 0 < det3 u v w

theorem det_flat (u v w : V4) : det3 u v w = w.z * (u.x * v.y - u.y * v.x) + u.z * (v.x * w.y - v.y * w.x) - v.z * (u.x * w.y - u.y * w.x) := by
  unfold det3; ring

theorem cap_south (r : ℝ) (hr : 0 < r) (k : Nat) (hk : k % 2 = 0) : Fine (ringP r k) (pt 0 0 (-r)) (ringP r (k + 2)) := by
  refine ⟨(pole_dot r hr k).1 hk, ?_, ?_, ?_⟩
  · rw [dot_comm]; exact (pole_dot r hr (k + 2)).1 (by omega)
  · rw [dot_comm]; exact ring_dot_two r hr k
  · rw [det_flat]
    have h := ring_cross r k 2
    have hs := sin_fifths.2
    simp only [pt]
    push_cast at h
    rw [h]
    have : 0 < r * (4 / 5 * r ^ 2 * sin (2 * (π / 5))) := by positivity
    linarith

theorem cap_north (r : ℝ) (hr : 0 < r) (k : Nat) (hk : k % 2 = 1) : Fine (pt 0 0 r) (ringP r k) (ringP r (k + 2)) := by
  refine ⟨?_, ring_dot_two r hr k, (pole_dot r hr (k + 2)).2 (by omega), ?_⟩
  · rw [dot_comm]; exact (pole_dot r hr k).2 hk
  · rw [det_flat]
    have h := ring_cross r k 2
    have hs := sin_fifths.2
    simp only [pt]
    push_cast at h
    rw [h]
    have : 0 < r * (4 / 5 * r ^ 2 * sin (2 * (π / 5))) := by positivity
    linarith

theorem side_up (r : ℝ) (hr : 0 < r) (k : Nat) (hk : k % 2 = 0) : Fine (ringP r (k + 1)) (ringP r k) (ringP r (k + 2)) := by
  refine ⟨?_, ring_dot_two r hr k, ?_, ?_⟩
  · rw [dot_comm]; exact ring_dot_one r hr k
  · rw [dot_comm]; exact ring_dot_one r hr (k + 1)
  · have h2 := ring_cross r k 2
    have h1 := ring_cross r k 1
    have h3 := ring_cross r (k + 1) 1
    have hs := sin_fifths
    have z0 : (ringP r k).z = - (CL / 2 * r) := by unfold ringP pt; simp [hk]
    have z1 : (ringP r (k + 1)).z = CL / 2 * r := by
      have : (k + 1) % 2 = 1 := by omega
      unfold ringP pt; simp [this]
    have z2 : (ringP r (k + 2)).z = - (CL / 2 * r) := by
      have : (k + 2) % 2 = 0 := by omega
      unfold ringP pt; simp [this]
    have hc := CL_pos
    rw [det_flat, z0, z1, z2]
    push_cast at h1 h2 h3
    rw [one_mul] at h1 h3
    rw [h2, h3]
    have e : (ringP r (k + 1)).x * (ringP r k).y - (ringP r (k + 1)).y * (ringP r k).x = - (4 / 5 * r ^ 2 * sin (π / 5)) := by linarith
    rw [e]
    have p1 : 0 < CL / 2 * r * (4 / 5 * r ^ 2 * sin (π / 5)) := mul_pos (by positivity) (mul_pos (by positivity) hs.1)
    have p2 : 0 < CL / 2 * r * (4 / 5 * r ^ 2 * sin (2 * (π / 5))) := mul_pos (by positivity) (mul_pos (by positivity) hs.2)
    linarith

theorem side_down (r : ℝ) (hr : 0 < r) (k : Nat) (hk : k % 2 = 1) : Fine (ringP r k) (ringP r (k + 1)) (ringP r (k + 2)) := by
  refine ⟨ring_dot_one r hr k, ring_dot_one r hr (k + 1), ?_, ?_⟩
  · rw [dot_comm]; exact ring_dot_two r hr k
  · have h2 := ring_cross r k 2
    have h1 := ring_cross r k 1
    have h3 := ring_cross r (k + 1) 1
    have hs := sin_fifths
    have z0 : (ringP r k).z = CL / 2 * r := by unfold ringP pt; simp [hk]
    have z1 : (ringP r (k + 1)).z = - (CL / 2 * r) := by
      have : (k + 1) % 2 = 0 := by omega
      unfold ringP pt; simp [this]
    have z2 : (ringP r (k + 2)).z = CL / 2 * r := by
      have : (k + 2) % 2 = 1 := by omega
      unfold ringP pt; simp [this]
    have hc := CL_pos
    rw [det_flat, z0, z1, z2]
    push_cast at h1 h2 h3
    rw [one_mul] at h1 h3
    rw [h2, h3, h1]
    have p1 : 0 < CL / 2 * r * (4 / 5 * r ^ 2 * sin (π / 5)) := mul_pos (by positivity) (mul_pos (by positivity) hs.1)
    have p2 : 0 < CL / 2 * r * (4 / 5 * r ^ 2 * sin (2 * (π / 5))) := mul_pos (by positivity) (mul_pos (by positivity) hs.2)
    linarith

theorem ico_fine (r : ℝ) (hr : 0 < r) : ∀ f ∈ icoFaces, ∃ u v w, (ico r)[f.1]? = some u ∧ (ico r)[f.2.1]? = some v ∧ (ico r)[f.2.2]? = some w ∧ Fine u v w := by
  have n : (ico r)[0]? = some (pt 0 0 r) := rfl
  have s : (ico r)[11]? = some (pt 0 0 (-r)) := rfl
  have g : ∀ k < 10, (ico r)[k + 1]? = some (ringP r k) := by
    intro k hk
    unfold ico
    rw [List.cons_append, List.getElem?_cons_succ, List.getElem?_append_left (by simpa using hk)]
    simp [hk]
  have t0 : ringP r 0 = ringP r 10 := (ring_ten r 0).symm
  have t1 : ringP r 1 = ringP r 11 := (ring_ten r 1).symm
  have S := cap_south r hr
  have N := cap_north r hr
  have U := side_up r hr
  have D := side_down r hr
  intro f hf
  simp only [icoFaces, List.mem_cons, List.not_mem_nil, or_false] at hf
  rcases hf with rfl | rfl | rfl | rfl | rfl | rfl | rfl | rfl | rfl | rfl | rfl | rfl | rfl | rfl | rfl | rfl | rfl | rfl | rfl | rfl
  · exact ⟨_, _, _, g 0 (by norm_num), s, g 2 (by norm_num), S 0 rfl⟩
  · exact ⟨_, _, _, g 2 (by norm_num), s, g 4 (by norm_num), S 2 rfl⟩
  · exact ⟨_, _, _, g 4 (by norm_num), s, g 6 (by norm_num), S 4 rfl⟩
  · exact ⟨_, _, _, g 6 (by norm_num), s, g 8 (by norm_num), S 6 rfl⟩
  · exact ⟨_, _, _, g 8 (by norm_num), s, g 0 (by norm_num), by rw [t0]; exact S 8 rfl⟩
  · exact ⟨_, _, _, g 1 (by norm_num), g 0 (by norm_num), g 2 (by norm_num), U 0 rfl⟩
  · exact ⟨_, _, _, g 1 (by norm_num), g 2 (by norm_num), g 3 (by norm_num), D 1 rfl⟩
  · exact ⟨_, _, _, g 3 (by norm_num), g 2 (by norm_num), g 4 (by norm_num), U 2 rfl⟩
  · exact ⟨_, _, _, g 3 (by norm_num), g 4 (by norm_num), g 5 (by norm_num), D 3 rfl⟩
  · exact ⟨_, _, _, g 5 (by norm_num), g 4 (by norm_num), g 6 (by norm_num), U 4 rfl⟩
  · exact ⟨_, _, _, g 5 (by norm_num), g 6 (by norm_num), g 7 (by norm_num), D 5 rfl⟩
  · exact ⟨_, _, _, g 7 (by norm_num), g 6 (by norm_num), g 8 (by norm_num), U 6 rfl⟩
  · exact ⟨_, _, _, g 7 (by norm_num), g 8 (by norm_num), g 9 (by norm_num), D 7 rfl⟩
  · exact ⟨_, _, _, g 9 (by norm_num), g 8 (by norm_num), g 0 (by norm_num), by rw [t0]; exact U 8 rfl⟩
  · exact ⟨_, _, _, g 9 (by norm_num), g 0 (by norm_num), g 1 (by norm_num), by rw [t0, t1]; exact D 9 rfl⟩
  · exact ⟨_, _, _, n, g 1 (by norm_num), g 3 (by norm_num), N 1 rfl⟩
  · exact ⟨_, _, _, n, g 3 (by norm_num), g 5 (by norm_num), N 3 rfl⟩
  · exact ⟨_, _, _, n, g 5 (by norm_num), g 7 (by norm_num), N 5 rfl⟩
  · exact ⟨_, _, _, n, g 7 (by norm_num), g 9 (by norm_num), N 7 rfl⟩
  · exact ⟨_, _, _, n, g 9 (by norm_num), g 1 (by norm_num), by rw [t1]; exact N 9 rfl⟩

theorem ico_ok (r : ℝ) (hr : 0 < r) : ∀ f ∈ icoFaces, FaceOk (ico r) f := by
  intro f hf
  obtain ⟨u, v, w, h1, h2, h3, h4, h5, h6, -⟩ := ico_fine r hr f hf
  exact ⟨u, v, w, h1, h2, h3, h4, h5, h6⟩

theorem ico_swap : ((lSides icoFaces).map Prod.swap).Perm (lSides icoFaces) := by
  apply swap_perm
  · decide
  · decide

theorem ico_shell (r : ℝ) (hr : 0 < r) : Shell (ico r) icoFaces := by
  refine ⟨by decide, ico_swap, fun f hf => ?_⟩
  obtain ⟨u, v, w, h1, h2, h3, -, -, -, h4⟩ := ico_fine r hr f hf
  exact ⟨u, v, w, h1, h2, h3, h4⟩

theorem ico_loops : LateLoops icoFaces := by
  have : ∀ s ∈ lSides icoFaces, s.1 ≠ s.2 := by decide
  intro s hs e
  exact absurd e (this s hs)

theorem ico_length (r : ℝ) : (ico r).length = 12 := by simp [ico]

end Verif.Prim
