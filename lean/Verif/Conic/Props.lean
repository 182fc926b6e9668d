import Verif.Conic.Model
import Verif.Conic.Spec
import Mathlib.Analysis.SpecialFunctions.Trigonometric.Deriv
import Mathlib.Analysis.Calculus.Deriv.Prod
import Mathlib.Analysis.Calculus.Deriv.Comp

/-! # Conic sections (C130-C133) -/

namespace Verif.Conic

open Spec

/-! ## the plane -/

theorem rod_frame {n : P3} (hn : dot n n = 1) {m : ℝ} (hm : m = √((-n.2.1) ^ 2 + n.1 ^ 2 + 0 ^ 2)) (hpos : 0 < m) :
    ∃ e₁ e₂, Axes e₁ e₂ ∧ cross e₁ e₂ = n ∧ ∀ c x y,
      rodrigues c (-n.2.1 / m, n.1 / m, 0 / m) (Real.arccos (max (-1) (min 1 n.2.2))) x y = c + x • e₁ + y • e₂ := by
  obtain ⟨a, b, z⟩ := n
  simp only [dot] at hn
  have hm2 : m ^ 2 = a ^ 2 + b ^ 2 := by
    rw [hm, Real.sq_sqrt (by positivity)]; ring
  have hz1 : z ≤ 1 := by nlinarith [sq_nonneg a, sq_nonneg b, sq_nonneg (z - 1)]
  have hz2 : -1 ≤ z := by nlinarith [sq_nonneg a, sq_nonneg b, sq_nonneg (z + 1)]
  have hcl : max (-1) (min 1 z) = z := by rw [min_eq_right hz1, max_eq_right hz2]
  have hc : Real.cos (Real.arccos z) = z := Real.cos_arccos hz2 hz1
  have hs : Real.sin (Real.arccos z) = m := by
    rw [Real.sin_arccos, Real.sqrt_eq_iff_mul_self_eq (by nlinarith) hpos.le]
    nlinarith
  set k1 := -b / m with hk1
  set k2 := a / m with hk2
  have hkk : k1 ^ 2 + k2 ^ 2 = 1 := by
    rw [hk1, hk2]; field_simp; linarith
  have hkm1 : k1 * m = -b := by rw [hk1]; field_simp
  have hkm2 : k2 * m = a := by rw [hk2]; field_simp
  have hzz : z ^ 2 + m ^ 2 = 1 := by nlinarith
  refine ⟨(z + k1 * k1 * (1 - z), k2 * k1 * (1 - z), -k2 * m), (k1 * k2 * (1 - z), z + k2 * k2 * (1 - z), k1 * m), ⟨?_, ?_, ?_⟩, ?_, ?_⟩
  · simp only [dot]
    have : (z + k1 * k1 * (1 - z)) * (z + k1 * k1 * (1 - z)) + k2 * k1 * (1 - z) * (k2 * k1 * (1 - z)) + -k2 * m * (-k2 * m) =
      z ^ 2 + 2 * z * k1 ^ 2 * (1 - z) + k1 ^ 2 * (1 - z) ^ 2 * (k1 ^ 2 + k2 ^ 2) + k2 ^ 2 * m ^ 2 := by ring
    rw [this, hkk, show k2 ^ 2 = 1 - k1 ^ 2 by linarith, show m ^ 2 = 1 - z ^ 2 by linarith]; ring
  · simp only [dot]
    have : k1 * k2 * (1 - z) * (k1 * k2 * (1 - z)) + (z + k2 * k2 * (1 - z)) * (z + k2 * k2 * (1 - z)) + k1 * m * (k1 * m) =
      z ^ 2 + 2 * z * k2 ^ 2 * (1 - z) + k2 ^ 2 * (1 - z) ^ 2 * (k1 ^ 2 + k2 ^ 2) + k1 ^ 2 * m ^ 2 := by ring
    rw [this, hkk, show k2 ^ 2 = 1 - k1 ^ 2 by linarith, show m ^ 2 = 1 - z ^ 2 by linarith]; ring
  · simp only [dot]
    have : (z + k1 * k1 * (1 - z)) * (k1 * k2 * (1 - z)) + k2 * k1 * (1 - z) * (z + k2 * k2 * (1 - z)) + -k2 * m * (k1 * m) =
      k1 * k2 * (1 - z) * (2 * z + (1 - z) * (k1 ^ 2 + k2 ^ 2)) - k1 * k2 * m ^ 2 := by ring
    rw [this, hkk, show m ^ 2 = 1 - z ^ 2 by linarith]; ring
  · simp only [cross]
    ext
    · have : k2 * k1 * (1 - z) * (k1 * m) - -k2 * m * (z + k2 * k2 * (1 - z)) =
        k2 * m * ((1 - z) * (k1 ^ 2 + k2 ^ 2) + z) := by ring
      simp only; rw [this, hkk, hkm2]; ring
    · have : -k2 * m * (k1 * k2 * (1 - z)) - (z + k1 * k1 * (1 - z)) * (k1 * m) =
        -(k1 * m) * ((1 - z) * (k1 ^ 2 + k2 ^ 2) + z) := by ring
      simp only; rw [this, hkk, hkm1]; ring
    · have : (z + k1 * k1 * (1 - z)) * (z + k2 * k2 * (1 - z)) - k2 * k1 * (1 - z) * (k1 * k2 * (1 - z)) =
        z ^ 2 + z * (1 - z) * (k1 ^ 2 + k2 ^ 2) := by ring
      simp only; rw [this, hkk]; ring
  · intro c x y
    simp only [rodrigues]
    rw [hcl, hc, hs]
    ext <;> simp <;> ring

theorem flat_frame (c : P3) (x y : ℝ) : ((c.1 + x, c.2.1 + y, c.2.2) : P3) = c + x • ((1, 0, 0) : P3) + y • ((0, 1, 0) : P3) := by
  ext <;> simp

theorem flip_frame (c : P3) (x y : ℝ) : ((c.1 + x, c.2.1 - y, c.2.2) : P3) = c + x • ((1, 0, 0) : P3) + y • ((0, -1, 0) : P3) := by
  ext <;> simp; ring

/-- For a unit normal, local coordinates are laid out along two perpendicular unit vectors, the x and y axes for the
default normal. The plane they span is perpendicular to the normal up to 1.5e-5, and exactly (with the right orientation:
their vector product is the normal) unless the normal is within tolerance of the z axis without being on it. -/
theorem place_frame (n : P3) (hn : dot n n = 1) : ∃ e₁ e₂ : P3, Axes e₁ e₂ ∧ (∀ c x y, place c n x y = c + x • e₁ + y • e₂) ∧
    (n = (0, 0, 1) → e₁ = (1, 0, 0) ∧ e₂ = (0, 1, 0)) ∧ (Clear n → cross e₁ e₂ = n) ∧
    |dot n e₁| ≤ 1.5e-5 ∧ |dot n e₂| ≤ 1.5e-5 := by
  have a1 : Axes ((1, 0, 0) : P3) (0, 1, 0) := ⟨by simp [dot], by simp [dot], by simp [dot]⟩
  have a2 : Axes ((1, 0, 0) : P3) (0, -1, 0) := ⟨by simp [dot], by simp [dot], by simp [dot]⟩
  have hd : n.1 ^ 2 + n.2.1 ^ 2 + n.2.2 ^ 2 = 1 := by simp only [dot] at hn; linarith
  have habs : ∀ t : ℝ, t ^ 2 ≤ 2.25e-10 → |t| ≤ 1.5e-5 := fun t ht => abs_le_of_sq_le_sq (by norm_num at ht ⊢; linarith) (by norm_num)
  by_cases h1 : |n.2.2 - 1| < 1e-10
  · have hz := abs_lt.1 h1
    refine ⟨(1, 0, 0), (0, 1, 0), a1, fun c x y => by rw [place, if_pos h1]; exact flat_frame c x y, fun _ => ⟨rfl, rfl⟩, ?_, ?_, ?_⟩
    · rintro (rfl | rfl | ⟨h, -⟩)
      · simp [cross]
      · norm_num at h1
      · linarith [hz.1]
    · refine habs _ ?_
      simp only [dot]; norm_num; nlinarith [sq_nonneg n.2.1, hz.1, hz.2]
    · refine habs _ ?_
      simp only [dot]; norm_num; nlinarith [sq_nonneg n.1, hz.1, hz.2]
  · by_cases h2 : √((-n.2.1) ^ 2 + n.1 ^ 2 + 0 ^ 2) < 1e-10
    · have hsq : n.2.1 ^ 2 + n.1 ^ 2 < 1e-20 := by
        have := Real.lt_sq_of_sqrt_lt h2
        norm_num at this ⊢; linarith
      have hcl2 : ¬ 1e-10 ≤ √(n.1 ^ 2 + n.2.1 ^ 2) := by
        rw [not_le]
        have e : (-n.2.1) ^ 2 + n.1 ^ 2 + 0 ^ 2 = n.1 ^ 2 + n.2.1 ^ 2 := by ring
        rwa [e] at h2
      have ha : |n.1| ≤ 1.5e-5 := habs _ (by norm_num at hsq ⊢; nlinarith [sq_nonneg n.2.1])
      have hb : |n.2.1| ≤ 1.5e-5 := habs _ (by norm_num at hsq ⊢; nlinarith [sq_nonneg n.1])
      by_cases h3 : n.2.2 > 0
      · exfalso
        apply h1
        rw [abs_lt]
        norm_num at hsq
        constructor <;> norm_num <;> nlinarith [sq_nonneg n.1, sq_nonneg n.2.1]
      · refine ⟨(1, 0, 0), (0, -1, 0), a2, fun c x y => ?_, fun h => ?_, ?_, ?_, ?_⟩
        · simp only [place]; rw [if_neg h1, if_pos h2, if_neg h3]; exact flip_frame c x y
        · rw [h] at h3; norm_num at h3
        · rintro (rfl | rfl | ⟨-, h⟩)
          · norm_num at h3
          · simp [cross]
          · exact absurd h hcl2
        · simpa [dot] using ha
        · simpa [dot] using hb
    · obtain ⟨e₁, e₂, hA, hc, hp⟩ := rod_frame hn rfl (lt_of_lt_of_le (by norm_num) (not_lt.1 h2))
      refine ⟨e₁, e₂, hA, fun c x y => ?_, fun h => ?_, fun _ => hc, ?_, ?_⟩
      · simp only [place]; rw [if_neg h1, if_neg h2]; exact hp c x y
      · rw [h] at h1; norm_num at h1
      · rw [← hc]
        have : dot (cross e₁ e₂) e₁ = 0 := by simp only [dot, cross]; ring
        rw [this]; norm_num
      · rw [← hc]
        have : dot (cross e₁ e₂) e₂ = 0 := by simp only [dot, cross]; ring
        rw [this]; norm_num

/-- **C130.** The stored normal has length one; a (nearly) zero normal is refused. -/
theorem C130_normal (n : Option P3) :
    (∀ m, normalOf n = .ok m → dot m m = 1) ∧
    (n = none → normalOf n = .ok (0, 0, 1)) ∧
    (∀ v, n = some v → (√(dot v v) < 1e-10 → normalOf n = .error .valueError) ∧
      (1e-10 ≤ √(dot v v) → normalOf n = .ok ((1 / √(dot v v)) • v))) := by
  have hs : ∀ v : P3, √(v.1 ^ 2 + v.2.1 ^ 2 + v.2.2 ^ 2) = √(dot v v) := by
    intro v; congr 1; simp only [dot]; ring
  refine ⟨?_, ?_, ?_⟩
  · intro m h
    cases n with
    | none => cases h; simp [dot]
    | some v =>
      simp only [normalOf] at h
      split at h
      · cases h
      · rename_i hlt
        cases h
        have hpos : 0 < √(v.1 ^ 2 + v.2.1 ^ 2 + v.2.2 ^ 2) := lt_of_lt_of_le (by norm_num) (not_lt.1 hlt)
        have hsq := Real.sq_sqrt (show 0 ≤ v.1 ^ 2 + v.2.1 ^ 2 + v.2.2 ^ 2 by positivity)
        simp only [dot]
        field_simp
        rw [hsq]
  · rintro rfl; rfl
  · rintro v rfl
    refine ⟨fun h => ?_, fun h => ?_⟩
    · simp only [normalOf]; rw [hs, if_pos h]
    · simp only [normalOf]; rw [hs, if_neg (not_lt.2 h)]
      congr 1
      ext <;> simp [div_eq_inv_mul]

/-! ## frames -/

theorem axes_turned {e₁ e₂ : P3} (h : Axes e₁ e₂) (φ : ℝ) : Axes (turned e₁ e₂ φ) (turned e₁ e₂ (φ + 90)) := by
  have hcs : (φ + 90) * Real.pi / 180 = φ * Real.pi / 180 + Real.pi / 2 := by ring
  have h1 := h.unit₁
  have h2 := h.unit₂
  have h3 := h.perp
  have hp := Real.sin_sq_add_cos_sq (φ * Real.pi / 180)
  set s := Real.sin (φ * Real.pi / 180)
  set c := Real.cos (φ * Real.pi / 180)
  have e1 : turned e₁ e₂ φ = c • e₁ + s • e₂ := rfl
  have e2 : turned e₁ e₂ (φ + 90) = (-s) • e₁ + c • e₂ := by
    unfold turned; rw [hcs, Real.cos_add_pi_div_two, Real.sin_add_pi_div_two]
  have bil : ∀ p q r t : ℝ, dot (p • e₁ + q • e₂) (r • e₁ + t • e₂) = p * r * dot e₁ e₁ + (p * t + q * r) * dot e₁ e₂ + q * t * dot e₂ e₂ := by
    intro p q r t; simp only [dot, Prod.fst_add, Prod.snd_add, Prod.smul_fst, Prod.smul_snd, smul_eq_mul]; ring
  rw [e1, e2]
  refine ⟨?_, ?_, ?_⟩
  · rw [bil, h1, h2, h3]; nlinarith
  · rw [bil, h1, h2, h3]; nlinarith
  · rw [bil, h1, h2, h3]; ring

theorem turn_frame (e₁ e₂ : P3) (c : P3) (φ x y : ℝ) :
    c + (turn (radians φ) x y).1 • e₁ + (turn (radians φ) x y).2 • e₂ = c + x • turned e₁ e₂ φ + y • turned e₁ e₂ (φ + 90) := by
  have hcs : (φ + 90) * Real.pi / 180 = φ * Real.pi / 180 + Real.pi / 2 := by ring
  unfold turn turned radians
  rw [hcs, Real.cos_add_pi_div_two, Real.sin_add_pi_div_two]
  ext <;> simp <;> ring

theorem turned_add (e₁ e₂ : P3) (φ : ℝ) : turned e₁ e₂ (φ + 90 + 90) = -turned e₁ e₂ φ := by
  unfold turned
  rw [show (φ + 90 + 90) * Real.pi / 180 = φ * Real.pi / 180 + Real.pi by ring, Real.cos_add_pi, Real.sin_add_pi]
  ext <;> simp <;> ring

/-- distance in the frame -/
theorem distance_frame {f₁ f₂ : P3} (h : Axes f₁ f₂) (c : P3) (x y d : ℝ) :
    distance (c + x • f₁ + y • f₂) (c + d • f₁) = √((x - d) ^ 2 + y ^ 2) := by
  unfold distance
  congr 1
  have : dot (c + x • f₁ + y • f₂ - (c + d • f₁)) (c + x • f₁ + y • f₂ - (c + d • f₁)) =
      (x - d) ^ 2 * dot f₁ f₁ + 2 * (x - d) * y * dot f₁ f₂ + y ^ 2 * dot f₂ f₂ := by
    simp only [dot, Prod.fst_add, Prod.snd_add, Prod.fst_sub, Prod.snd_sub, Prod.smul_fst, Prod.smul_snd, smul_eq_mul]; ring
  rw [this, h.unit₁, h.unit₂, h.perp]; ring

/-! ## ellipse -/

theorem theta_eq (e : Ellipse) (u : ℝ) : e.theta u =
    radians e.start + u * ((if e.stop < e.start then radians e.stop + 2 * Real.pi else radians e.stop) - radians e.start) := by
  unfold Ellipse.theta
  split
  · rename_i h
    rw [h.1, h.2, if_neg (by norm_num)]
    unfold radians; ring
  · have : radians e.stop < radians e.start ↔ e.stop < e.start := by
      unfold radians
      constructor
      · intro h
        by_contra hle
        have := mul_le_mul_of_nonneg_right (not_lt.1 hle) Real.pi_pos.le
        linarith
      · intro h
        have := mul_lt_mul_of_pos_right h Real.pi_pos
        linarith
    simp only [this]

/-- Each sample of an ellipse is centre + A cos θ · f₁ + B sin θ · f₂, where f₁ and f₂ are the (perpendicular, unit)
axes at angles `rotation` and `rotation + 90` in the plane, and θ runs linearly from the start angle to the end angle, going
round once more if the end angle is smaller. -/
theorem ellipse_points (c : P3) (A B φ s t : ℝ) (n : Option P3) (e : Ellipse) (he : ellipse c A B φ s t n = .ok e) (hAB : B ≤ A)
    (m : P3) (hm : normalOf n = .ok m) (e₁ e₂ : P3) (hp : ∀ c x y, place c m x y = c + x • e₁ + y • e₂) (u : ℝ) :
    let α := s * Real.pi / 180
    let β := endAngle s t
    e.sample u = c + (A * Real.cos (α + u * (β - α))) • turned e₁ e₂ φ + (B * Real.sin (α + u * (β - α))) • turned e₁ e₂ (φ + 90) := by
  intro α β
  have hA : 0 < A := by
    by_contra h; simp [ellipse, h] at he
  have hB : 0 < B := by
    by_contra h; simp [ellipse, h, hA] at he
  simp only [ellipse, not_not] at he
  rw [if_neg (by simpa using hA), if_neg (by simpa using hB), hm] at he
  simp only at he
  rw [if_neg (by simpa using hAB)] at he
  cases he
  simp only [Ellipse.sample]
  rw [theta_eq, hp, turn_frame]
  rfl

/-- Whichever semi-axis is the larger, every sample lies on the ellipse `(X/A)² + (Y/B)² = 1` in the coordinates
along the axes at `rotation` and `rotation + 90`. -/
theorem ellipse_on_ellipse (c : P3) (A B φ s t : ℝ) (n : Option P3) (e : Ellipse) (he : ellipse c A B φ s t n = .ok e)
    (m : P3) (hm : normalOf n = .ok m) (e₁ e₂ : P3) (hp : ∀ c x y, place c m x y = c + x • e₁ + y • e₂) (u : ℝ) :
    ∃ X Y, e.sample u = c + X • turned e₁ e₂ φ + Y • turned e₁ e₂ (φ + 90) ∧ (X / A) ^ 2 + (Y / B) ^ 2 = 1 := by
  have hA : 0 < A := by
    by_contra h; simp [ellipse, h] at he
  have hB : 0 < B := by
    by_contra h; simp [ellipse, h, hA] at he
  by_cases hAB : B ≤ A
  · refine ⟨_, _, ellipse_points c A B φ s t n e he hAB m hm e₁ e₂ hp u, ?_⟩
    field_simp
    rw [add_comm]; exact Real.sin_sq_add_cos_sq _
  · simp only [ellipse] at he
    rw [if_neg (by simpa using hA), if_neg (by simpa using hB), hm] at he
    simp only at he
    rw [if_pos (by simpa using hAB)] at he
    cases he
    simp only [Ellipse.sample]
    rw [hp, turn_frame, turned_add]
    refine ⟨-(A * Real.sin (Ellipse.theta ⟨c, B, A, φ + 90, s, t, m⟩ u)), B * Real.cos (Ellipse.theta ⟨c, B, A, φ + 90, s, t, m⟩ u), ?_, ?_⟩
    · rw [neg_smul, smul_neg]; abel
    · field_simp
      nlinarith [Real.sin_sq_add_cos_sq (Ellipse.theta ⟨c, B, A, φ + 90, s, t, m⟩ u)]

/-- The gardener's construction: the distances of a sample from the two foci add up to the major axis. -/
theorem ellipse_foci (c : P3) (A B φ s t : ℝ) (n : Option P3) (e : Ellipse) (he : ellipse c A B φ s t n = .ok e) (hAB : B ≤ A)
    (m : P3) (hm : normalOf n = .ok m) (e₁ e₂ : P3) (hax : Axes e₁ e₂) (hp : ∀ c x y, place c m x y = c + x • e₁ + y • e₂) (u : ℝ) :
    let d := √(A ^ 2 - B ^ 2)
    distance (e.sample u) (c + d • turned e₁ e₂ φ) + distance (e.sample u) (c + (-d) • turned e₁ e₂ φ) = 2 * A := by
  intro d
  have hA : 0 < A := by
    by_contra h; simp [ellipse, h] at he
  have hB : 0 < B := by
    by_contra h; simp [ellipse, h, hA] at he
  have hs := ellipse_points c A B φ s t n e he hAB m hm e₁ e₂ hp u
  simp only at hs
  rw [hs, distance_frame (axes_turned hax φ), distance_frame (axes_turned hax φ)]
  generalize s * Real.pi / 180 + u * _ = θ
  have hd2 : d ^ 2 = A ^ 2 - B ^ 2 := Real.sq_sqrt (by nlinarith)
  have hd0 : 0 ≤ d := Real.sqrt_nonneg _
  have hdA : d ≤ A := by
    apply le_of_sq_le_sq _ hA.le; nlinarith
  have hcs := Real.sin_sq_add_cos_sq θ
  have h1 := Real.cos_le_one θ
  have h2 := Real.neg_one_le_cos θ
  have k1 : (A * Real.cos θ - d) ^ 2 + (B * Real.sin θ) ^ 2 = (A - d * Real.cos θ) ^ 2 := by
    have : Real.sin θ ^ 2 = 1 - Real.cos θ ^ 2 := by linarith
    have hb : B ^ 2 = A ^ 2 - d ^ 2 := by linarith
    rw [mul_pow B, this, hb]; ring
  have k2 : (A * Real.cos θ - -d) ^ 2 + (B * Real.sin θ) ^ 2 = (A + d * Real.cos θ) ^ 2 := by
    have : Real.sin θ ^ 2 = 1 - Real.cos θ ^ 2 := by linarith
    have hb : B ^ 2 = A ^ 2 - d ^ 2 := by linarith
    rw [mul_pow B, this, hb]; ring
  rw [k1, k2, Real.sqrt_sq (by nlinarith), Real.sqrt_sq (by nlinarith)]
  ring

/-- A full ellipse is closed and reaches each of its points. -/
theorem ellipse_full (c : P3) (A B φ : ℝ) (n : Option P3) (e : Ellipse) (he : ellipse c A B φ 0 360 n = .ok e) (hAB : B ≤ A)
    (m : P3) (hm : normalOf n = .ok m) (e₁ e₂ : P3) (hp : ∀ c x y, place c m x y = c + x • e₁ + y • e₂) :
    e.sample 0 = e.sample 1 ∧ e.sample 0 = c + A • turned e₁ e₂ φ ∧
    ∀ X Y : ℝ, (X / A) ^ 2 + (Y / B) ^ 2 = 1 → ∃ u, 0 ≤ u ∧ u ≤ 1 ∧
      e.sample u = c + X • turned e₁ e₂ φ + Y • turned e₁ e₂ (φ + 90) := by
  have hA : 0 < A := by
    by_contra h; simp [ellipse, h] at he
  have hB : 0 < B := by
    by_contra h; simp [ellipse, h, hA] at he
  have hs : ∀ u, e.sample u = c + (A * Real.cos (u * (2 * Real.pi))) • turned e₁ e₂ φ +
      (B * Real.sin (u * (2 * Real.pi))) • turned e₁ e₂ (φ + 90) := by
    intro u
    have := ellipse_points c A B φ 0 360 n e he hAB m hm e₁ e₂ hp u
    simp only at this
    rw [endAngle, if_neg (by norm_num)] at this
    rw [this, show (0:ℝ) * Real.pi / 180 + u * (360 * Real.pi / 180 - 0 * Real.pi / 180) = u * (2 * Real.pi) by ring]
  refine ⟨?_, ?_, ?_⟩
  · rw [hs, hs]; simp
  · rw [hs]; simp
  · intro X Y hXY
    obtain ⟨θ, h0, h1, hc, hsn⟩ : ∃ θ, 0 ≤ θ ∧ θ ≤ 2 * Real.pi ∧ Real.cos θ = X / A ∧ Real.sin θ = Y / B := by
      have hx1 : X / A ≤ 1 := by nlinarith [sq_nonneg (Y / B), sq_nonneg (X / A - 1)]
      have hx2 : -1 ≤ X / A := by nlinarith [sq_nonneg (Y / B), sq_nonneg (X / A + 1)]
      have hsq : √(1 - (X / A) ^ 2) = |Y / B| := by rw [show 1 - (X / A) ^ 2 = (Y / B) ^ 2 by linarith, Real.sqrt_sq_eq_abs]
      rcases le_total 0 (Y / B) with hy | hy
      · refine ⟨Real.arccos (X / A), Real.arccos_nonneg _, by linarith [Real.arccos_le_pi (X / A), Real.pi_pos], Real.cos_arccos hx2 hx1, ?_⟩
        rw [Real.sin_arccos, hsq, abs_of_nonneg hy]
      · refine ⟨2 * Real.pi - Real.arccos (X / A), by linarith [Real.arccos_le_pi (X / A), Real.pi_pos],
          by linarith [Real.arccos_nonneg (X / A)], ?_, ?_⟩
        · rw [Real.cos_two_pi_sub, Real.cos_arccos hx2 hx1]
        · rw [Real.sin_two_pi_sub, Real.sin_arccos, hsq, abs_of_nonpos hy, neg_neg]
    have hpi := Real.pi_pos
    refine ⟨θ / (2 * Real.pi), by positivity, by rw [div_le_one (by positivity)]; exact h1, ?_⟩
    rw [hs, div_mul_cancel₀ _ (by positivity), hc, hsn, mul_div_cancel₀ _ hA.ne', mul_div_cancel₀ _ hB.ne']

/-- every accepted normal has axes -/
theorem exists_plane (n : Option P3) (m : P3) (hm : normalOf n = .ok m) :
    ∃ e₁ e₂, PlaneOf n e₁ e₂ ∧ ∀ c x y, place c m x y = c + x • e₁ + y • e₂ := by
  obtain ⟨h1, h2, h3⟩ := C130_normal n
  obtain ⟨e₁, e₂, hax, hp, hdef, hex, n1, n2⟩ := place_frame m (h1 m hm)
  have key : ∀ v, n = some v → m = (1 / √(dot v v)) • v ∧ 0 < √(dot v v) := by
    intro v hv
    by_cases hlt : √(dot v v) < 1e-10
    · rw [(h3 v hv).1 hlt] at hm; cases hm
    · rw [(h3 v hv).2 (not_lt.1 hlt)] at hm
      injection hm with hm
      exact ⟨hm.symm, lt_of_lt_of_le (by norm_num) (not_lt.1 hlt)⟩
  have hdot : ∀ v (r : ℝ) e, dot (r • v) e = r * dot v e := by
    intro v r e; simp only [dot, Prod.smul_fst, Prod.smul_snd, smul_eq_mul]; ring
  refine ⟨e₁, e₂, ⟨hax, fun h => ?_, fun v hv => ?_, fun v hv hcl => ?_⟩, hp⟩
  · rw [h2 h] at hm; injection hm with hm; exact hdef hm.symm
  · obtain ⟨hmv, hpos⟩ := key v hv
    rw [hmv, hdot, abs_mul, abs_of_pos (by positivity), one_div, inv_mul_le_iff₀ hpos] at n1 n2
    rw [mul_comm] at n1 n2
    exact ⟨n1, n2⟩
  · rw [← (key v hv).1] at hcl ⊢
    exact hex hcl

/-- **C130.** An ellipse with positive semi-axes is refused only for a (nearly) zero normal. Its samples lie in the plane
through the centre with the given normal: with axes `f₁` at `rotation` and `f₂` at `rotation + 90` degrees, and whichever of
the semi-axes `A` (along `f₁`) and `B` (along `f₂`) is the larger, each sample is on the ellipse `(X/A)² + (Y/B)² = 1`. -/
theorem C130_ellipse (c : P3) (A B φ s t : ℝ) (n : Option P3) :
    ((∃ e, ellipse c A B φ s t n = .ok e) ↔ 0 < A ∧ 0 < B ∧ ∀ v, n = some v → 1e-10 ≤ √(dot v v)) ∧
    ∀ e, ellipse c A B φ s t n = .ok e → ∃ e₁ e₂, PlaneOf n e₁ e₂ ∧ ∀ u, ∃ X Y,
      e.sample u = c + X • turned e₁ e₂ φ + Y • turned e₁ e₂ (φ + 90) ∧ (X / A) ^ 2 + (Y / B) ^ 2 = 1 := by
  obtain ⟨h1, h2, h3⟩ := C130_normal n
  constructor
  · constructor
    · rintro ⟨e, he⟩
      have hA : 0 < A := by by_contra h; simp [ellipse, h] at he
      have hB : 0 < B := by by_contra h; simp [ellipse, h, hA] at he
      refine ⟨hA, hB, fun v hv => ?_⟩
      by_contra hlt
      simp [ellipse, hA, hB, (h3 v hv).1 (not_le.1 hlt)] at he
    · rintro ⟨hA, hB, hv⟩
      have : ∃ m, normalOf n = .ok m := by
        cases hn : n with
        | none => exact ⟨_, rfl⟩
        | some v => rw [← hn]; exact ⟨_, (h3 v hn).2 (hv v hn)⟩
      obtain ⟨m, hm⟩ := this
      unfold ellipse
      rw [if_neg (by simpa using hA), if_neg (by simpa using hB), hm]
      simp only
      split
      · exact ⟨_, rfl⟩
      · exact ⟨_, rfl⟩
  · intro e he
    have : ∃ m, normalOf n = .ok m := by
      cases hm : normalOf n with
      | ok m => exact ⟨m, rfl⟩
      | error r => simp only [ellipse, hm] at he; split at he <;> try split at he
                   all_goals cases he
    obtain ⟨m, hm⟩ := this
    obtain ⟨e₁, e₂, hpl, hp⟩ := exists_plane n m hm
    exact ⟨e₁, e₂, hpl, fun u => ellipse_on_ellipse c A B φ s t n e he m hm e₁ e₂ hp u⟩

/-- **C131.** If the first semi-axis is not the smaller one: the sample at `u` is centre + A cos θ · f₁ + B sin θ · f₂ with
θ running linearly from the start angle to the end angle, counter-clockwise (going past 360° when the end angle is smaller);
its distances from the two foci add up to the major axis `2A`; and a full ellipse is closed and reaches each of its points. -/
theorem C131_ellipse_arc_partial (c : P3) (A B φ s t : ℝ) (n : Option P3) (e : Ellipse) (he : ellipse c A B φ s t n = .ok e)
    (hAB : B ≤ A) : ∃ e₁ e₂, PlaneOf n e₁ e₂ ∧
      (∀ u, let α := s * Real.pi / 180
        let β := endAngle s t
        e.sample u = c + (A * Real.cos (α + u * (β - α))) • turned e₁ e₂ φ +
          (B * Real.sin (α + u * (β - α))) • turned e₁ e₂ (φ + 90)) ∧
      (∀ u, distance (e.sample u) (c + √(A ^ 2 - B ^ 2) • turned e₁ e₂ φ) +
        distance (e.sample u) (c + (-√(A ^ 2 - B ^ 2)) • turned e₁ e₂ φ) = 2 * A) ∧
      (s = 0 → t = 360 → e.sample 0 = e.sample 1 ∧ ∀ X Y : ℝ, (X / A) ^ 2 + (Y / B) ^ 2 = 1 →
        ∃ u, 0 ≤ u ∧ u ≤ 1 ∧ e.sample u = c + X • turned e₁ e₂ φ + Y • turned e₁ e₂ (φ + 90)) := by
  have : ∃ m, normalOf n = .ok m := by
    cases hm : normalOf n with
    | ok m => exact ⟨m, rfl⟩
    | error r => simp only [ellipse, hm] at he; split at he <;> try split at he
                 all_goals cases he
  obtain ⟨m, hm⟩ := this
  obtain ⟨e₁, e₂, hpl, hp⟩ := exists_plane n m hm
  refine ⟨e₁, e₂, hpl, fun u => ellipse_points c A B φ s t n e he hAB m hm e₁ e₂ hp u,
    fun u => ellipse_foci c A B φ s t n e he hAB m hm e₁ e₂ hpl.axes hp u, ?_⟩
  rintro rfl rfl
  obtain ⟨h1, -, h2⟩ := ellipse_full c A B φ n e he hAB m hm e₁ e₂ hp
  exact ⟨h1, h2⟩

/-- **C131 (violated for arcs).** When the first semi-axis is the smaller, the angles of an arc are no longer measured from the
axis at `rotation`: the quarter from 0° to 90° of the ellipse with semi-axes 1 along x and 2 along y begins at (0, 2). -/
theorem C131_swapped_arc : ∃ e, ellipse (0, 0, 0) 1 2 0 0 90 none = .ok e ∧ e.sample 0 = (0, 2, 0) ∧ e.sample 1 = (-1, 0, 0) := by
  refine ⟨⟨(0, 0, 0), 2, 1, 0 + 90, 0, 90, (0, 0, 1)⟩, ?_, ?_, ?_⟩
  · norm_num [ellipse, normalOf]
  · simp only [Ellipse.sample, theta_eq, turn, place, radians]
    rw [show (0 + 90 : ℝ) * Real.pi / 180 = Real.pi / 2 by ring]
    norm_num
  · simp only [Ellipse.sample, theta_eq, turn, place, radians]
    rw [show (0 + 90 : ℝ) * Real.pi / 180 = Real.pi / 2 by ring, show (90 : ℝ) * Real.pi / 180 = Real.pi / 2 by ring]
    norm_num

/-- the hypotheses are met: a tilted ellipse -/
example : ∃ e, ellipse (1, 2, 3) 5 3 30 0 360 (some (0, 1, 1)) = .ok e := by
  have : ¬ √((0:ℝ) ^ 2 + 1 ^ 2 + 1 ^ 2) < 1e-10 := by
    rw [not_lt]; apply Real.le_sqrt_of_sq_le; norm_num
  norm_num [ellipse, normalOf] at this ⊢
  rw [if_neg (not_lt.2 this)]
  simp

end Verif.Conic
