import Verif.Conic.Props
import Mathlib.Analysis.InnerProductSpace.PiL2

/-! # Parabolas and hyperbolas (C132), tangents (C133), lengths and boxes (C134) -/

namespace Verif.Conic

open Spec

/-! ## parabola -/

/-- distance of a point from the line through `q` perpendicular to the unit vector `f` in the plane -/
theorem dot_frame {f₁ f₂ : P3} (h : Axes f₁ f₂) (c : P3) (x y d : ℝ) :
    dot (c + x • f₁ + y • f₂ - (c + d • f₁)) f₁ = x - d := by
  have : dot (c + x • f₁ + y • f₂ - (c + d • f₁)) f₁ = (x - d) * dot f₁ f₁ + y * dot f₁ f₂ := by
    simp only [dot, Prod.fst_add, Prod.snd_add, Prod.fst_sub, Prod.snd_sub, Prod.smul_fst, Prod.smul_snd, smul_eq_mul]; ring
  rw [this, h.unit₁, h.perp]; ring

/-- **C132.** A parabola with positive focal length `f` and a normal that is not (nearly) zero: its samples lie in the plane
through the vertex with the given normal, at vertex + t²/(4f) · f₁ + t · f₂ with t going linearly from start to end; each is
as far from the focus (at distance `f` from the vertex) as from the directrix (the line at distance `f` on the other side). -/
theorem C132_parabola (v : P3) (f φ s t : ℝ) (n : Option P3) :
    ((∃ p, parabola v f φ s t n = .ok p) ↔ 0 < f ∧ ∀ w, n = some w → 1e-10 ≤ √(dot w w)) ∧
    ∀ p, parabola v f φ s t n = .ok p → ∃ e₁ e₂, PlaneOf n e₁ e₂ ∧
      (∀ u, p.sample u = v + ((s + u * (t - s)) ^ 2 / (4 * f)) • turned e₁ e₂ φ + (s + u * (t - s)) • turned e₁ e₂ (φ + 90)) ∧
      ∀ u, distance (p.sample u) (v + f • turned e₁ e₂ φ) = dot (p.sample u - (v + (-f) • turned e₁ e₂ φ)) (turned e₁ e₂ φ) := by
  obtain ⟨h1, h2, h3⟩ := C130_normal n
  constructor
  · constructor
    · rintro ⟨e, he⟩
      have hf : 0 < f := by by_contra h; simp [parabola, h] at he
      refine ⟨hf, fun w hw => ?_⟩
      by_contra hlt
      simp [parabola, hf, (h3 w hw).1 (not_le.1 hlt)] at he
    · rintro ⟨hf, hv⟩
      have : ∃ m, normalOf n = .ok m := by
        cases hn : n with
        | none => exact ⟨_, rfl⟩
        | some v => rw [← hn]; exact ⟨_, (h3 v hn).2 (hv v hn)⟩
      obtain ⟨m, hm⟩ := this
      unfold parabola
      rw [if_neg (by simpa using hf), hm]
      exact ⟨_, rfl⟩
  · intro p hp
    have hf : 0 < f := by by_contra h; simp [parabola, h] at hp
    rw [parabola, if_neg (by simpa using hf)] at hp
    split at hp
    · cases hp
    · rename_i m hm
      cases hp
      obtain ⟨e₁, e₂, hpl, hpm⟩ := exists_plane n m hm
      have hs : ∀ u, (⟨v, f, φ, s, t, m⟩ : Parabola).sample u =
          v + ((s + u * (t - s)) ^ 2 / (4 * f)) • turned e₁ e₂ φ + (s + u * (t - s)) • turned e₁ e₂ (φ + 90) := by
        intro u
        simp only [Parabola.sample]
        rw [hpm, turn_frame]
        simp only [Parabola.param, sq]
      refine ⟨e₁, e₂, hpl, hs, fun u => ?_⟩
      rw [hs, distance_frame (axes_turned hpl.axes φ), dot_frame (axes_turned hpl.axes φ)]
      set r := s + u * (t - s)
      rw [show (r ^ 2 / (4 * f) - f) ^ 2 + r ^ 2 = (r ^ 2 / (4 * f) - -f) ^ 2 by field_simp; ring]
      exact Real.sqrt_sq (by have : 0 ≤ r ^ 2 / (4 * f) := by positivity
                             linarith)

/-! ## hyperbola -/

/-- **C132.** A hyperbola with positive semi-axes, a branch of ±1 and a normal that is not (nearly) zero: its samples lie in
the plane through the centre with the given normal, at centre ± A cosh t · f₁ + B sinh t · f₂ with t going linearly from
start to end: on the chosen branch of `(X/A)² - (Y/B)² = 1`. The distances from the two foci differ by `2A`. -/
theorem C132_hyperbola (c : P3) (A B φ s t : ℝ) (br : ℤ) (n : Option P3) :
    ((∃ h, hyperbola c A B φ s t br n = .ok h) ↔
      0 < A ∧ 0 < B ∧ (br = 1 ∨ br = -1) ∧ ∀ w, n = some w → 1e-10 ≤ √(dot w w)) ∧
    ∀ h, hyperbola c A B φ s t br n = .ok h → ∃ e₁ e₂, PlaneOf n e₁ e₂ ∧
      (∀ u, h.sample u = c + ((br : ℝ) * A * Real.cosh (s + u * (t - s))) • turned e₁ e₂ φ +
        (B * Real.sinh (s + u * (t - s))) • turned e₁ e₂ (φ + 90)) ∧
      (∀ u, ∃ X Y, h.sample u = c + X • turned e₁ e₂ φ + Y • turned e₁ e₂ (φ + 90) ∧
        (X / A) ^ 2 - (Y / B) ^ 2 = 1 ∧ A ≤ br * X) ∧
      ∀ u, distance (h.sample u) (c + (-√(A ^ 2 + B ^ 2)) • turned e₁ e₂ φ) -
        distance (h.sample u) (c + √(A ^ 2 + B ^ 2) • turned e₁ e₂ φ) = 2 * A * br := by
  obtain ⟨h1, h2, h3⟩ := C130_normal n
  constructor
  · constructor
    · rintro ⟨e, he⟩
      have hA : 0 < A := by by_contra h; simp [hyperbola, h] at he
      have hB : 0 < B := by by_contra h; simp [hyperbola, h, hA] at he
      have hbr : br = 1 ∨ br = -1 := by
        by_contra h; rw [hyperbola, if_neg (by simpa using hA), if_neg (by simpa using hB), if_pos h] at he; cases he
      refine ⟨hA, hB, hbr, fun w hw => ?_⟩
      by_contra hlt
      rw [hyperbola, if_neg (by simpa using hA), if_neg (by simpa using hB), if_neg (not_not.2 hbr),
        (h3 w hw).1 (not_le.1 hlt)] at he
      cases he
    · rintro ⟨hA, hB, hbr, hv⟩
      have : ∃ m, normalOf n = .ok m := by
        cases hn : n with
        | none => exact ⟨_, rfl⟩
        | some v => rw [← hn]; exact ⟨_, (h3 v hn).2 (hv v hn)⟩
      obtain ⟨m, hm⟩ := this
      rw [hyperbola, if_neg (by simpa using hA), if_neg (by simpa using hB), if_neg (not_not.2 hbr), hm]
      exact ⟨_, rfl⟩
  · intro h hh
    have hA : 0 < A := by by_contra h; simp [hyperbola, h] at hh
    have hB : 0 < B := by by_contra h; simp [hyperbola, h, hA] at hh
    have hbr : br = 1 ∨ br = -1 := by
      by_contra h; rw [hyperbola, if_neg (by simpa using hA), if_neg (by simpa using hB), if_pos h] at hh; cases hh
    rw [hyperbola, if_neg (by simpa using hA), if_neg (by simpa using hB), if_neg (not_not.2 hbr)] at hh
    split at hh
    · cases hh
    · rename_i m hm
      cases hh
      obtain ⟨e₁, e₂, hpl, hpm⟩ := exists_plane n m hm
      have hs : ∀ u, (⟨c, A, B, φ, s, t, br, m⟩ : Hyperbola).sample u =
          c + ((br : ℝ) * A * Real.cosh (s + u * (t - s))) • turned e₁ e₂ φ +
            (B * Real.sinh (s + u * (t - s))) • turned e₁ e₂ (φ + 90) := by
        intro u
        simp only [Hyperbola.sample]
        rw [hpm, turn_frame]
        simp only [Hyperbola.param]
      have hb2 : (br : ℝ) ^ 2 = 1 := by rcases hbr with rfl | rfl <;> norm_num
      refine ⟨e₁, e₂, hpl, hs, fun u => ⟨_, _, hs u, ?_, ?_⟩, fun u => ?_⟩
      · have := Real.cosh_sq (s + u * (t - s))
        field_simp
        rw [hb2]; linarith
      · have := Real.one_le_cosh (s + u * (t - s))
        rw [← mul_assoc, ← mul_assoc, ← sq, hb2]
        nlinarith
      · rw [hs, distance_frame (axes_turned hpl.axes φ), distance_frame (axes_turned hpl.axes φ)]
        set r := s + u * (t - s)
        set d := √(A ^ 2 + B ^ 2)
        have hd2 : d ^ 2 = A ^ 2 + B ^ 2 := Real.sq_sqrt (by positivity)
        have hd0 : 0 ≤ d := Real.sqrt_nonneg _
        have hdA : A ≤ d := Real.le_sqrt_of_sq_le (by nlinarith)
        have hc1 := Real.one_le_cosh r
        have hsq := Real.cosh_sq r
        have key : ∀ ε : ℝ, ε ^ 2 = 1 → √((br * A * Real.cosh r - ε * d) ^ 2 + (B * Real.sinh r) ^ 2) =
            |d * Real.cosh r - ε * br * A| := by
          intro ε hε
          rw [← Real.sqrt_sq_eq_abs]
          congr 1
          have hb : B ^ 2 = d ^ 2 - A ^ 2 := by linarith
          have hsh : Real.sinh r ^ 2 = Real.cosh r ^ 2 - 1 := by linarith
          have e1 : (br * A * Real.cosh r - ε * d) ^ 2 + (B * Real.sinh r) ^ 2 =
              (br:ℝ) ^ 2 * A ^ 2 * Real.cosh r ^ 2 - 2 * ε * br * A * d * Real.cosh r + ε ^ 2 * d ^ 2 + B ^ 2 * Real.sinh r ^ 2 := by ring
          have e2 : (d * Real.cosh r - ε * br * A) ^ 2 =
              d ^ 2 * Real.cosh r ^ 2 - 2 * ε * br * A * d * Real.cosh r + ε ^ 2 * (br:ℝ) ^ 2 * A ^ 2 := by ring
          rw [e1, e2, hε, hb2, hb, hsh]; ring
        have k1 := key 1 (by norm_num)
        have k2 := key (-1) (by norm_num)
        rw [show (br:ℝ) * A * Real.cosh r - 1 * d = br * A * Real.cosh r - d by ring] at k1
        rw [show (br:ℝ) * A * Real.cosh r - -1 * d = br * A * Real.cosh r - -d by ring] at k2
        rw [k1, k2]
        have hdc : A ≤ d * Real.cosh r := by nlinarith
        rcases hbr with rfl | rfl
        · push_cast
          rw [abs_of_nonneg (by linarith), abs_of_nonneg (by linarith)]; ring
        · push_cast
          rw [abs_of_nonneg (by linarith), abs_of_nonneg (by linarith)]; ring

/-! ## tangents -/

theorem unitOrX_unit {d : ℝ × ℝ} (h : 1e-10 ≤ √(d.1 ^ 2 + d.2 ^ 2)) :
    dot (unitOrX d) (unitOrX d) = 1 ∧ ((d.1, d.2, 0) : P3) = √(d.1 ^ 2 + d.2 ^ 2) • unitOrX d := by
  have hpos : 0 < √(d.1 ^ 2 + d.2 ^ 2) := lt_of_lt_of_le (by norm_num) h
  have hsq := Real.sq_sqrt (show 0 ≤ d.1 ^ 2 + d.2 ^ 2 by positivity)
  simp only [unitOrX]
  rw [if_neg (not_lt.2 h)]
  constructor
  · simp only [dot]
    field_simp
    rw [hsq]; ring
  · ext
    · simp only [Prod.smul_fst, smul_eq_mul]; field_simp
    · simp only [Prod.smul_snd, Prod.smul_fst, smul_eq_mul]; field_simp
    · simp

theorem turn_norm (φ x y : ℝ) : (turn φ x y).1 ^ 2 + (turn φ x y).2 ^ 2 = x ^ 2 + y ^ 2 := by
  unfold turn
  have := Real.sin_sq_add_cos_sq φ
  have e : (x * Real.cos φ - y * Real.sin φ) ^ 2 + (x * Real.sin φ + y * Real.cos φ) ^ 2 =
    (x ^ 2 + y ^ 2) * (Real.sin φ ^ 2 + Real.cos φ ^ 2) := by ring
  simp only; rw [e, this, mul_one]

theorem place_flat (c : P3) (x y : ℝ) : place c (0, 0, 1) x y = (c.1 + x, c.2.1 + y, c.2.2) := by
  rw [place, if_pos (by norm_num)]

/-- the derivative of a curve given in local coordinates in the xy plane -/
theorem flat_hasDeriv {x y : ℝ → ℝ} {x' y' u : ℝ} (hx : HasDerivAt x x' u) (hy : HasDerivAt y y' u) (c : P3) (φ : ℝ) :
    HasDerivAt (fun u => place c (0, 0, 1) (turn φ (x u) (y u)).1 (turn φ (x u) (y u)).2)
      ((turn φ x' y').1, (turn φ x' y').2, 0) u := by
  simp only [place_flat]
  unfold turn
  have a := ((hx.mul_const (Real.cos φ)).sub (hy.mul_const (Real.sin φ))).const_add c.1
  have b := ((hx.mul_const (Real.sin φ)).add (hy.mul_const (Real.cos φ))).const_add c.2.1
  exact a.prodMk (b.prodMk (hasDerivAt_const u c.2.2))

theorem scale_turn (k φ x y : ℝ) : (((turn φ (k * x) (k * y)).1, (turn φ (k * x) (k * y)).2, 0) : P3) =
    k • ((turn φ x y).1, (turn φ x y).2, 0) := by
  unfold turn; ext <;> simp <;> ring

/-- **C133 (part).** In the default plane, the tangent of an ellipse whose semi-axes are at least 1e-10 is a unit vector and
points where the curve goes: the derivative of the sample is a non-negative multiple of it, positive unless the arc has no
extent. (The end angle is less than a full turn behind the start angle.) Missing: other planes, see `C133_ignores_normal`. -/
theorem C133_ellipse_partial (c : P3) (A B φ s t : ℝ) (e : Ellipse) (he : ellipse c A B φ s t none = .ok e) (hA : 1e-10 ≤ A)
    (hB : 1e-10 ≤ B) (hst : s - 360 < t) (u : ℝ) : dot (e.tangent u) (e.tangent u) = 1 ∧
      ∃ k : ℝ, 0 ≤ k ∧ (s ≠ t → 0 < k) ∧ HasDerivAt e.sample (k • e.tangent u) u := by
  have hz : (0:ℝ) < 1e-10 := by norm_num
  have hform : ∃ a b φ', 1e-10 ≤ a ∧ 1e-10 ≤ b ∧ e = ⟨c, a, b, φ', s, t, (0, 0, 1)⟩ := by
    rw [ellipse, if_neg (by have : 0 < A := by linarith
                            simpa using this), if_neg (by have : 0 < B := by linarith
                                                          simpa using this)] at he
    simp only [normalOf] at he
    split at he
    · cases he; exact ⟨B, A, _, hB, hA, rfl⟩
    · cases he; exact ⟨A, B, _, hA, hB, rfl⟩
  obtain ⟨a, b, φ', ha, hb, rfl⟩ := hform
  set e : Ellipse := ⟨c, a, b, φ', s, t, (0, 0, 1)⟩ with hedef
  set κ := (if t < s then radians t + 2 * Real.pi else radians t) - radians s with hκ
  have hth : e.theta = fun u => radians s + u * κ := by funext u; exact theta_eq e u
  have hthd : HasDerivAt e.theta κ u := by
    rw [hth]
    have := ((hasDerivAt_id u).mul_const κ).const_add (radians s)
    rw [one_mul] at this; exact this
  have hbig : 1e-10 ≤ √((turn (radians φ') (-a * Real.sin (e.theta u)) (b * Real.cos (e.theta u))).1 ^ 2 +
      (turn (radians φ') (-a * Real.sin (e.theta u)) (b * Real.cos (e.theta u))).2 ^ 2) := by
    rw [turn_norm]
    apply Real.le_sqrt_of_sq_le
    have h1 := Real.sin_sq_add_cos_sq (e.theta u)
    have ha2 : (1e-10:ℝ) ^ 2 ≤ a ^ 2 := by nlinarith
    have hb2 : (1e-10:ℝ) ^ 2 ≤ b ^ 2 := by nlinarith
    have e1 : (-a * Real.sin (e.theta u)) ^ 2 + (b * Real.cos (e.theta u)) ^ 2 = a ^ 2 * Real.sin (e.theta u) ^ 2 + b ^ 2 * Real.cos (e.theta u) ^ 2 := by ring
    rw [e1]
    have g1 := mul_le_mul_of_nonneg_right ha2 (sq_nonneg (Real.sin (e.theta u)))
    have g2 := mul_le_mul_of_nonneg_right hb2 (sq_nonneg (Real.cos (e.theta u)))
    calc (1e-10:ℝ) ^ 2 = (1e-10:ℝ) ^ 2 * (Real.sin (e.theta u) ^ 2 + Real.cos (e.theta u) ^ 2) := by rw [h1, mul_one]
      _ ≤ _ := by rw [mul_add]; exact add_le_add g1 g2
  obtain ⟨hu, hsc⟩ := unitOrX_unit hbig
  have hx : HasDerivAt (fun u => a * Real.cos (e.theta u)) (κ * (-a * Real.sin (e.theta u))) u := by
    have := (hthd.cos).const_mul a
    rw [show κ * (-a * Real.sin (e.theta u)) = a * (-Real.sin (e.theta u) * κ) by ring]
    exact this
  have hy : HasDerivAt (fun u => b * Real.sin (e.theta u)) (κ * (b * Real.cos (e.theta u))) u := by
    have := (hthd.sin).const_mul b
    rw [show κ * (b * Real.cos (e.theta u)) = b * (Real.cos (e.theta u) * κ) by ring]
    exact this
  have hd := flat_hasDeriv hx hy c (radians φ')
  rw [scale_turn, hsc, smul_smul] at hd
  have hκpos : 0 ≤ κ ∧ (s ≠ t → 0 < κ) := by
    have hpi := Real.pi_pos
    rw [hκ]
    unfold radians
    split
    · have := mul_lt_mul_of_pos_right hst hpi
      refine ⟨by linarith, fun _ => by linarith⟩
    · rename_i hle
      have hle := not_lt.1 hle
      refine ⟨?_, fun hne => ?_⟩
      · have := mul_le_mul_of_nonneg_right hle hpi.le; linarith
      · have := mul_lt_mul_of_pos_right (lt_of_le_of_ne hle hne) hpi; linarith
  refine ⟨hu, _, mul_nonneg hκpos.1 (Real.sqrt_nonneg _), fun hne => mul_pos (hκpos.2 hne) (lt_of_lt_of_le hz hbig), hd⟩

/-- **C133 (part).** The same for a parabola: the derivative of the sample is `end - start` times a positive multiple of the
tangent. So the tangent points along the curve when the end parameter is the larger, and backwards when it is the smaller. -/
theorem C133_parabola_partial (v : P3) (f φ s t : ℝ) (p : Parabola) (hp : parabola v f φ s t none = .ok p) (u : ℝ) :
    dot (p.tangent u) (p.tangent u) = 1 ∧
      ∃ k : ℝ, 0 < k ∧ HasDerivAt p.sample (((t - s) * k) • p.tangent u) u := by
  have hf : 0 < f := by by_contra h; simp [parabola, h] at hp
  rw [parabola, if_neg (by simpa using hf)] at hp
  simp only [normalOf] at hp
  cases hp
  set p : Parabola := ⟨v, f, φ, s, t, (0, 0, 1)⟩ with hpdef
  have hpar : HasDerivAt p.param (t - s) u := by
    have := ((hasDerivAt_id u).mul_const (t - s)).const_add s
    rw [one_mul] at this; exact this
  have hbig : 1e-10 ≤ √((turn (radians φ) (p.param u / (2 * f)) 1).1 ^ 2 + (turn (radians φ) (p.param u / (2 * f)) 1).2 ^ 2) := by
    rw [turn_norm]
    apply Real.le_sqrt_of_sq_le
    have := sq_nonneg (p.param u / (2 * f))
    norm_num at this ⊢
    linarith
  obtain ⟨hu, hsc⟩ := unitOrX_unit hbig
  have hx : HasDerivAt (fun u => p.param u * p.param u / (4 * f)) ((t - s) * (p.param u / (2 * f))) u := by
    have := (hpar.mul hpar).div_const (4 * f)
    rw [show (t - s) * (p.param u / (2 * f)) = ((t - s) * p.param u + p.param u * (t - s)) / (4 * f) by field_simp; ring]
    exact this
  have hy : HasDerivAt (fun u => p.param u) ((t - s) * 1) u := by rw [mul_one]; exact hpar
  have hd := flat_hasDeriv hx hy v (radians φ)
  rw [scale_turn, hsc, smul_smul] at hd
  exact ⟨hu, _, lt_of_lt_of_le (by norm_num) hbig, hd⟩

/-- **C133 (part).** The same for a hyperbola with second semi-axis at least 1e-10. -/
theorem C133_hyperbola_partial (c : P3) (A B φ s t : ℝ) (br : ℤ) (h : Hyperbola) (hh : hyperbola c A B φ s t br none = .ok h)
    (hB : 1e-10 ≤ B) (u : ℝ) : dot (h.tangent u) (h.tangent u) = 1 ∧
      ∃ k : ℝ, 0 < k ∧ HasDerivAt h.sample (((t - s) * k) • h.tangent u) u := by
  unfold hyperbola at hh
  split at hh
  · cases hh
  split at hh
  · cases hh
  split at hh
  · cases hh
  simp only [normalOf] at hh
  cases hh
  set h : Hyperbola := ⟨c, A, B, φ, s, t, br, (0, 0, 1)⟩ with hhdef
  have hpar : HasDerivAt h.param (t - s) u := by
    have := ((hasDerivAt_id u).mul_const (t - s)).const_add s
    rw [one_mul] at this; exact this
  have hbig : 1e-10 ≤ √((turn (radians φ) (br * A * Real.sinh (h.param u)) (B * Real.cosh (h.param u))).1 ^ 2 +
      (turn (radians φ) (br * A * Real.sinh (h.param u)) (B * Real.cosh (h.param u))).2 ^ 2) := by
    rw [turn_norm]
    apply Real.le_sqrt_of_sq_le
    have h1 := Real.one_le_cosh (h.param u)
    have h2 : 1e-10 ≤ B * Real.cosh (h.param u) := by
      have : (0:ℝ) < 1e-10 := by norm_num
      nlinarith
    have h3 : (1e-10 : ℝ) ^ 2 ≤ (B * Real.cosh (h.param u)) ^ 2 := pow_le_pow_left₀ (by norm_num) h2 2
    have := sq_nonneg ((br:ℝ) * A * Real.sinh (h.param u))
    linarith
  obtain ⟨hu, hsc⟩ := unitOrX_unit hbig
  have hx : HasDerivAt (fun u => (br:ℝ) * A * Real.cosh (h.param u)) ((t - s) * (br * A * Real.sinh (h.param u))) u := by
    have := (hpar.cosh).const_mul ((br:ℝ) * A)
    rw [show (t - s) * (br * A * Real.sinh (h.param u)) = br * A * (Real.sinh (h.param u) * (t - s)) by ring]
    exact this
  have hy : HasDerivAt (fun u => B * Real.sinh (h.param u)) ((t - s) * (B * Real.cosh (h.param u))) u := by
    have := (hpar.sinh).const_mul B
    rw [show (t - s) * (B * Real.cosh (h.param u)) = B * (Real.cosh (h.param u) * (t - s)) by ring]
    exact this
  have hd := flat_hasDeriv hx hy c (radians φ)
  rw [scale_turn, hsc, smul_smul] at hd
  exact ⟨hu, _, lt_of_lt_of_le (by norm_num) hbig, hd⟩

/-- **C133 (violated).** The tangent ignores the plane of the curve: an ellipse with normal (1, 0, 0) lies in a plane x =
const, but its tangent a quarter round is the x direction. -/
theorem C133_ignores_normal : ∃ e, ellipse (0, 0, 0) 2 1 0 0 360 (some (1, 0, 0)) = .ok e ∧
    (∀ u, (e.sample u).1 = 0) ∧ e.tangent (1 / 4) = (-1, 0, 0) := by
  refine ⟨⟨(0, 0, 0), 2, 1, 0, 0, 360, (1, 0, 0)⟩, ?_, ?_, ?_⟩
  · norm_num [ellipse, normalOf]
  · intro u
    simp only [Ellipse.sample, place, rodrigues]
    norm_num
  · simp only [Ellipse.tangent, turn, unitOrX]
    have : Ellipse.theta ⟨(0, 0, 0), 2, 1, 0, 0, 360, (1, 0, 0)⟩ (1/4) = Real.pi / 2 := by
      unfold Ellipse.theta; rw [if_pos ⟨rfl, rfl⟩]; ring
    rw [this]
    have h4 : √(4:ℝ) = 2 := by rw [show (4:ℝ) = 2 ^ 2 by norm_num]; exact Real.sqrt_sq (by norm_num)
    norm_num [radians, h4]

/-! ## bounding boxes and lengths -/

theorem minOf_le (g : P3 → ℝ) : ∀ (ps : List P3), ∀ p ∈ ps, minOf g ps ≤ g p
  | [q], p, h => by simp at h; subst h; exact le_rfl
  | q :: q' :: r, p, h => by
    rcases List.mem_cons.1 h with rfl | h
    · exact min_le_left _ _
    · exact (min_le_right _ _).trans (minOf_le g (q' :: r) p h)

theorem minOf_mem (g : P3 → ℝ) : ∀ (ps : List P3), ps ≠ [] → ∃ p ∈ ps, minOf g ps = g p
  | [q], _ => ⟨q, by simp, rfl⟩
  | q :: q' :: r, _ => by
    obtain ⟨p, hp, he⟩ := minOf_mem g (q' :: r) (by simp)
    rcases min_choice (g q) (minOf g (q' :: r)) with h | h
    · exact ⟨q, by simp, h⟩
    · exact ⟨p, List.mem_cons_of_mem _ hp, h.trans he⟩

theorem le_maxOf (g : P3 → ℝ) : ∀ (ps : List P3), ∀ p ∈ ps, g p ≤ maxOf g ps
  | [q], p, h => by simp at h; subst h; exact le_rfl
  | q :: q' :: r, p, h => by
    rcases List.mem_cons.1 h with rfl | h
    · exact le_max_left _ _
    · exact (le_maxOf g (q' :: r) p h).trans (le_max_right _ _)

theorem maxOf_mem (g : P3 → ℝ) : ∀ (ps : List P3), ps ≠ [] → ∃ p ∈ ps, maxOf g ps = g p
  | [q], _ => ⟨q, by simp, rfl⟩
  | q :: q' :: r, _ => by
    obtain ⟨p, hp, he⟩ := maxOf_mem g (q' :: r) (by simp)
    rcases max_choice (g q) (maxOf g (q' :: r)) with h | h
    · exact ⟨q, by simp, h⟩
    · exact ⟨p, List.mem_cons_of_mem _ hp, h.trans he⟩

/-- **C134 (part).** The bounding box of an ellipse, parabola or hyperbola (`f` is its sample function) contains the two ends
of the curve and all the sampled points, and each of its six sides touches the curve, so it is never too large. Missing: it
may be too small, see `C134_box_misses`. Zero segments raise. -/
theorem C134_box_partial (f : ℝ → P3) (segments : ℕ) :
    (segments = 0 → sampledBox f segments = .error .zeroDivision) ∧
    (0 < segments → ∃ lo hi, sampledBox f segments = .ok (lo, hi) ∧
      (∀ i ≤ segments, ∀ p, p = f ((i : ℝ) / segments) →
        lo.1 ≤ p.1 ∧ p.1 ≤ hi.1 ∧ lo.2.1 ≤ p.2.1 ∧ p.2.1 ≤ hi.2.1 ∧ lo.2.2 ≤ p.2.2 ∧ p.2.2 ≤ hi.2.2) ∧
      (∃ u, 0 ≤ u ∧ u ≤ 1 ∧ (f u).1 = lo.1) ∧ (∃ u, 0 ≤ u ∧ u ≤ 1 ∧ (f u).1 = hi.1) ∧
      (∃ u, 0 ≤ u ∧ u ≤ 1 ∧ (f u).2.1 = lo.2.1) ∧ (∃ u, 0 ≤ u ∧ u ≤ 1 ∧ (f u).2.1 = hi.2.1) ∧
      (∃ u, 0 ≤ u ∧ u ≤ 1 ∧ (f u).2.2 = lo.2.2) ∧ (∃ u, 0 ≤ u ∧ u ≤ 1 ∧ (f u).2.2 = hi.2.2)) := by
  constructor
  · rintro rfl; rfl
  · intro hs
    have hsr : (0:ℝ) < segments := by exact_mod_cast hs
    have hne : bboxPoints f segments ≠ [] := by simp [bboxPoints]
    have hmem : ∀ i ≤ segments, f ((i : ℝ) / segments) ∈ bboxPoints f segments := by
      intro i hi
      simp only [bboxPoints, List.mem_map, List.mem_range]
      exact ⟨i, by omega, rfl⟩
    have hpar : ∀ p ∈ bboxPoints f segments, ∃ u, 0 ≤ u ∧ u ≤ 1 ∧ f u = p := by
      intro p hp
      simp only [bboxPoints, List.mem_map, List.mem_range] at hp
      obtain ⟨i, hi, rfl⟩ := hp
      refine ⟨_, by positivity, ?_, rfl⟩
      rw [div_le_one hsr]; exact_mod_cast Nat.lt_succ_iff.1 hi
    have hlo : ∀ g : P3 → ℝ, ∃ u, 0 ≤ u ∧ u ≤ 1 ∧ g (f u) = minOf g (bboxPoints f segments) := by
      intro g
      obtain ⟨p, hp, he⟩ := minOf_mem g _ hne
      obtain ⟨u, h0, h1, rfl⟩ := hpar p hp
      exact ⟨u, h0, h1, he.symm⟩
    have hhi : ∀ g : P3 → ℝ, ∃ u, 0 ≤ u ∧ u ≤ 1 ∧ g (f u) = maxOf g (bboxPoints f segments) := by
      intro g
      obtain ⟨p, hp, he⟩ := maxOf_mem g _ hne
      obtain ⟨u, h0, h1, rfl⟩ := hpar p hp
      exact ⟨u, h0, h1, he.symm⟩
    refine ⟨_, _, by rw [sampledBox, if_neg (by omega)], ?_, hlo (·.1), hhi (·.1), hlo (·.2.1), hhi (·.2.1), hlo (·.2.2), hhi (·.2.2)⟩
    rintro i hi p rfl
    have hm := hmem i hi
    exact ⟨minOf_le (·.1) _ _ hm, le_maxOf (·.1) _ _ hm, minOf_le (·.2.1) _ _ hm, le_maxOf (·.2.1) _ _ hm,
      minOf_le (·.2.2) _ _ hm, le_maxOf (·.2.2) _ _ hm⟩

/-- **C134 (violated).** The bounding box need not contain the curve: a parabola from -1 to 2 has its vertex at x = 0, outside
its (50 segment) box. -/
theorem C134_box_misses : ∃ p lo hi, parabola (0, 0, 0) 1 0 (-1) 2 none = .ok p ∧ sampledBox p.sample 50 = .ok (lo, hi) ∧
    (p.sample (1 / 3)).1 = 0 ∧ 0 < lo.1 := by
  obtain ⟨lo, hi, hbox, -⟩ := (C134_box_partial (Parabola.sample ⟨(0, 0, 0), 1, 0, -1, 2, (0, 0, 1)⟩) 50).2 (by norm_num)
  refine ⟨⟨(0, 0, 0), 1, 0, -1, 2, (0, 0, 1)⟩, lo, hi, ?_, hbox, ?_, ?_⟩
  · norm_num [parabola, normalOf]
  · simp only [Parabola.sample, place_flat, turn, Parabola.param, radians]; norm_num
  · rw [sampledBox, if_neg (by norm_num)] at hbox
    injection hbox with hbox
    have hlo := (Prod.mk.inj hbox).1
    rw [← hlo]
    simp only
    obtain ⟨q, hq, he⟩ := minOf_mem (·.1) (bboxPoints (Parabola.sample ⟨(0, 0, 0), 1, 0, -1, 2, (0, 0, 1)⟩) 50) (by simp [bboxPoints])
    rw [he]
    simp only [bboxPoints, List.mem_map, List.mem_range] at hq
    obtain ⟨i, -, rfl⟩ := hq
    simp only [Parabola.sample, place_flat, turn, Parabola.param, radians]
    have hne : (-1 + (i:ℝ) / ((50:ℕ):ℝ) * (2 - -1)) ≠ 0 := by
      intro h0
      have h1 : (3 : ℝ) * i = 50 := by push_cast at h0; linarith
      have h2 : 3 * i = 50 := by exact_mod_cast h1
      omega
    have hsq : 0 < (-1 + (i:ℝ) / ((50:ℕ):ℝ) * (2 - -1)) * (-1 + (i:ℝ) / ((50:ℕ):ℝ) * (2 - -1)) := mul_self_pos.2 hne
    rw [zero_mul, zero_div, Real.cos_zero, Real.sin_zero, mul_one, mul_zero, sub_zero, zero_add, mul_one]
    exact div_pos hsq (by norm_num)

theorem stepLength_eq (p q : P3) : stepLength p q = distance p q := by
  unfold stepLength distance
  congr 1; simp only [dot, Prod.fst_sub, Prod.snd_sub]; ring

/-- a point as an element of Euclidean space -/
def toE (p : P3) : EuclideanSpace ℝ (Fin 3) := !₂[p.1, p.2.1, p.2.2]

theorem distance_toE (p q : P3) : distance p q = dist (toE p) (toE q) := by
  rw [EuclideanSpace.dist_eq, Fin.sum_univ_three]
  unfold distance
  congr 1
  simp [toE, dot, Real.dist_eq, sq_abs]
  ring

theorem list_sum_range (g : ℕ → ℝ) : ∀ n : ℕ, ((List.range n).map g).sum = ∑ i ∈ Finset.range n, g i
  | 0 => by simp
  | n + 1 => by rw [List.range_succ, List.map_append, List.sum_append, list_sum_range g n, Finset.sum_range_succ]; simp

theorem sum_pairs (g : ℕ → ℝ) : ∀ n : ℕ, ∑ j ∈ Finset.range (2 * n), g j = ∑ i ∈ Finset.range n, (g (2 * i) + g (2 * i + 1))
  | 0 => by simp
  | n + 1 => by rw [show 2 * (n + 1) = 2 * n + 1 + 1 by ring, Finset.sum_range_succ, Finset.sum_range_succ, sum_pairs g n,
      Finset.sum_range_succ]; ring

/-- **C134 (part).** The length reported for a conic is the length of a polyline inscribed in it, from its start to its end:
at least the distance of the two ends, and doubling the number of segments never decreases it. Missing: how close it is to the
arc length. -/
theorem C134_length_partial (f : ℝ → P3) (segments : ℕ) (hs : 0 < segments) :
    distance (f 0) (f 1) ≤ sampledLength f segments ∧ sampledLength f segments ≤ sampledLength f (2 * segments) := by
  have hsr : (0:ℝ) < segments := by exact_mod_cast hs
  have hsum : ∀ n : ℕ, sampledLength f n = ∑ i ∈ Finset.range n, dist (toE (f ((i:ℝ) / n))) (toE (f (((i + 1 : ℕ) : ℝ) / n))) := by
    intro n
    unfold sampledLength
    rw [list_sum_range]
    refine Finset.sum_congr rfl fun i _ => ?_
    rw [stepLength_eq, distance_toE]; push_cast; rfl
  constructor
  · rw [hsum, distance_toE]
    have := dist_le_range_sum_dist (fun i : ℕ => toE (f ((i:ℝ) / segments))) segments
    simpa [hsr.ne'] using this
  · rw [hsum, hsum, sum_pairs]
    refine Finset.sum_le_sum fun i _ => ?_
    have e1 : ((2 * i : ℕ) : ℝ) / ((2 * segments : ℕ) : ℝ) = (i:ℝ) / segments := by push_cast; field_simp
    have e2 : ((2 * i + 1 + 1 : ℕ) : ℝ) / ((2 * segments : ℕ) : ℝ) = ((i + 1 : ℕ) : ℝ) / segments := by push_cast; field_simp; ring
    rw [← e1, ← e2]
    exact dist_triangle _ _ _

end Verif.Conic
