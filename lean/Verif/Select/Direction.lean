import Verif.Select.Position
import Mathlib.Analysis.Real.Pi.Bounds

/-! # Selection by direction -/

namespace Verif.Select

noncomputable section

/-! ## specification -/

/-- an edge taken for straight, with the vector from its first to its last point: the point with the middle parameter is in the middle of the chord up to 1e-6, and the chord is not shorter than 1e-12 -/
def Chord (e : Edge) (d : V3) : Prop :=
  ∃ c, e.curve = some c ∧ d = minus (c.value c.last) (c.value c.first) ∧ 1 / 1000000000000 ≤ norm d ∧
    |(c.value ((c.first + c.last) / 2)).1 - ((c.value c.first).1 + (c.value c.last).1) / 2| ≤ 1 / 1000000 ∧
    |(c.value ((c.first + c.last) / 2)).2.1 - ((c.value c.first).2.1 + (c.value c.last).2.1) / 2| ≤ 1 / 1000000 ∧
    |(c.value ((c.first + c.last) / 2)).2.2 - ((c.value c.first).2.2 + (c.value c.last).2.2) / 2| ≤ 1 / 1000000

/-- the angle of two vectors -/
def angle (u v : V3) : ℝ := Real.arccos (dot u v / (norm u * norm v))

/-- the vector the other way -/
def opposite (v : V3) : V3 := (-v.1, -v.2.1, -v.2.2)

theorem direction_some {e : Edge} {x : V3} : direction e = some x ↔ ∃ d, Chord e d ∧ x = over d (norm d) := by
  unfold direction Chord
  cases e.curve with
  | none => simp
  | some c =>
    dsimp only
    constructor
    · intro h
      split at h
      · exact nomatch h
      · rename_i h1
        split at h
        · exact nomatch h
        · rename_i h2
          rw [Option.some.injEq] at h
          push Not at h1
          exact ⟨_, ⟨c, rfl, rfl, not_lt.1 h2, h1.1, h1.2.1, h1.2.2⟩, h.symm⟩
    · rintro ⟨d, ⟨c', hc, rfl, h1, h2, h3, h4⟩, rfl⟩
      rw [Option.some.injEq] at hc
      subst hc
      rw [if_neg (by push Not; exact ⟨h2, h3, h4⟩), if_neg (not_lt.2 h1)]

theorem chord_unique {e : Edge} {d d' : V3} (h : Chord e d) (h' : Chord e d') : d = d' := by
  obtain ⟨c, hc, rfl, -⟩ := h
  obtain ⟨c', hc', rfl, -⟩ := h'
  rw [hc, Option.some.injEq] at hc'
  subst hc'
  rfl

theorem dot_over {d u : V3} (hd : 0 < norm d) (hu : 0 < norm u) : dot (over d (norm d)) (over u (norm u)) = dot d u / (norm d * norm u) := by
  unfold dot over
  dsimp only
  field_simp

/-- Cauchy's inequality -/
theorem cauchy {d u : V3} (hd : 0 < norm d) (hu : 0 < norm u) : -1 ≤ dot d u / (norm d * norm u) ∧ dot d u / (norm d * norm u) ≤ 1 := by
  have h1 := norm_sq d
  have h2 := norm_sq u
  have h3 : dot d u * dot d u ≤ (norm d * norm u) * (norm d * norm u) := by
    have : (norm d * norm u) * (norm d * norm u) = (norm d * norm d) * (norm u * norm u) := by ring
    rw [this, h1, h2]
    unfold dot
    nlinarith [sq_nonneg (d.1 * u.2.1 - d.2.1 * u.1), sq_nonneg (d.1 * u.2.2 - d.2.2 * u.1), sq_nonneg (d.2.1 * u.2.2 - d.2.2 * u.2.1)]
  have h4 : 0 < norm d * norm u := mul_pos hd hu
  have h5 : |dot d u| ≤ norm d * norm u := abs_le_of_sq_le_sq (by nlinarith) h4.le
  rw [abs_le] at h5
  constructor
  · rw [le_div_iff₀ h4]; linarith
  · rw [div_le_iff₀ h4]; linarith

theorem norm_opposite (v : V3) : norm (opposite v) = norm v := by
  unfold norm opposite
  congr 1
  ring

theorem dot_opposite (u v : V3) : dot u (opposite v) = -dot u v := by
  unfold dot opposite
  ring

theorem cos_le_iff {x t : ℝ} (hx : -1 ≤ x) (hx' : x ≤ 1) (ht : 0 ≤ t) (ht' : t ≤ Real.pi) : Real.cos t ≤ x ↔ Real.arccos x ≤ t := by
  constructor
  · intro h
    have := Real.arccos_le_arccos h
    rwa [Real.arccos_cos ht ht'] at this
  · intro h
    have := Real.cos_le_cos_of_nonneg_of_le_pi (Real.arccos_nonneg x) ht' h
    rwa [Real.cos_arccos hx hx'] at this

/-- C315: by direction: an edge is selected exactly if it is taken for straight and the angle between its chord and the direction, or the direction the other way, is at most the tolerance -/
theorem C315_direction (edges : List Edge) (dir : V3) (hd : 1 / 1000000000000 ≤ norm dir) (tolerance : ℝ) (h0 : 0 ≤ tolerance) (h1 : tolerance ≤ 180) (e : Edge) :
    e ∈ byDirection edges dir tolerance ↔ e ∈ edges ∧ ∃ d, Chord e d ∧ (angle d dir ≤ tolerance * Real.pi / 180 ∨ angle d (opposite dir) ≤ tolerance * Real.pi / 180) := by
  have hdir : 0 < norm dir := lt_of_lt_of_le (by norm_num) hd
  have ht0 : 0 ≤ radians tolerance := by unfold radians; have := Real.pi_pos; positivity
  have ht1 : radians tolerance ≤ Real.pi := by unfold radians; have := Real.pi_pos; nlinarith
  have key : ∀ d, Chord e d → (Real.cos (radians tolerance) ≤ |dot (over d (norm d)) (over dir (norm dir))| ↔
      angle d dir ≤ tolerance * Real.pi / 180 ∨ angle d (opposite dir) ≤ tolerance * Real.pi / 180) := by
    intro d hc
    have hdn : 0 < norm d := by obtain ⟨c, -, -, h, -⟩ := hc; exact lt_of_lt_of_le (by norm_num) h
    obtain ⟨c1, c2⟩ := cauchy hdn hdir
    unfold angle
    rw [norm_opposite, dot_opposite, neg_div, dot_over hdn hdir, le_abs]
    generalize dot d dir / (norm d * norm dir) = x at *
    rw [cos_le_iff c1 c2 ht0 ht1, cos_le_iff (by linarith) (by linarith) ht0 ht1]
    rfl
  unfold byDirection
  rw [if_neg (not_lt.2 hd), List.mem_filter]
  cases hdr : direction e with
  | none =>
    dsimp only
    constructor
    · rintro ⟨-, h⟩; exact nomatch h
    · rintro ⟨-, d, hc, -⟩
      rw [direction_some.2 ⟨d, hc, rfl⟩] at hdr
      exact nomatch hdr
  | some x =>
    obtain ⟨d, hc, rfl⟩ := direction_some.1 hdr
    dsimp only
    rw [decide_eq_true_eq, key d hc]
    constructor
    · rintro ⟨a, b⟩; exact ⟨a, d, hc, b⟩
    · rintro ⟨a, d', hc', b⟩
      rw [chord_unique hc' hc] at b
      exact ⟨a, b⟩

/-- C315: horizontal edges: an edge is selected exactly if it is taken for straight and the angle between its chord and the Z axis differs from a right angle by at most the tolerance -/
theorem C315_horizontal (edges : List Edge) (tolerance : ℝ) (h0 : 0 ≤ tolerance) (h1 : tolerance ≤ 90) (e : Edge) :
    e ∈ horizontal edges tolerance ↔ e ∈ edges ∧ ∃ d, Chord e d ∧ |angle d (0, 0, 1) - Real.pi / 2| ≤ tolerance * Real.pi / 180 := by
  have hz : norm ((0, 0, 1) : V3) = 1 := by unfold norm; norm_num
  have ht0 : 0 ≤ radians tolerance := by unfold radians; have := Real.pi_pos; positivity
  have ht1 : radians tolerance ≤ Real.pi / 2 := by unfold radians; have := Real.pi_pos; nlinarith
  have key : ∀ d, Chord e d → (|dot (over d (norm d)) (0, 0, 1)| ≤ Real.sin (radians tolerance) ↔ |angle d (0, 0, 1) - Real.pi / 2| ≤ tolerance * Real.pi / 180) := by
    intro d hc
    have hdn : 0 < norm d := by obtain ⟨c, -, -, h, -⟩ := hc; exact lt_of_lt_of_le (by norm_num) h
    have hone : over ((0, 0, 1) : V3) (norm ((0, 0, 1) : V3)) = (0, 0, 1) := by rw [hz]; unfold over; norm_num
    have hx := dot_over (u := (0, 0, 1)) hdn (by rw [hz]; norm_num)
    rw [hone] at hx
    obtain ⟨c1, c2⟩ := cauchy (u := (0, 0, 1)) hdn (by rw [hz]; norm_num)
    unfold angle
    rw [hx]
    generalize dot d (0, 0, 1) / (norm d * norm ((0, 0, 1) : V3)) = x at *
    rw [Real.arccos_eq_pi_div_two_sub_arcsin, show Real.pi / 2 - Real.arcsin x - Real.pi / 2 = -Real.arcsin x by ring, abs_neg, abs_le, abs_le]
    change _ ↔ -radians tolerance ≤ _ ∧ _ ≤ radians tolerance
    rw [Real.arcsin_le_iff_le_sin ⟨c1, c2⟩ ⟨by linarith, ht1⟩, Real.le_arcsin_iff_sin_le ⟨by linarith, by linarith⟩ ⟨c1, c2⟩, Real.sin_neg]
  unfold horizontal
  rw [List.mem_filter]
  cases hdr : direction e with
  | none =>
    dsimp only
    constructor
    · rintro ⟨-, h⟩; exact nomatch h
    · rintro ⟨-, d, hc, -⟩
      rw [direction_some.2 ⟨d, hc, rfl⟩] at hdr
      exact nomatch hdr
  | some x =>
    obtain ⟨d, hc, rfl⟩ := direction_some.1 hdr
    dsimp only
    rw [decide_eq_true_eq, key d hc]
    constructor
    · rintro ⟨a, b⟩; exact ⟨a, d, hc, b⟩
    · rintro ⟨a, d', hc', b⟩
      rw [chord_unique hc' hc] at b
      exact ⟨a, b⟩

/-! ## `edge_info` -/

theorem cos_one : 9998 / 10000 < Real.cos (radians 1) := by
  have h := Real.one_sub_sq_div_two_le_cos (x := radians 1)
  have hp := Real.pi_lt_d2
  have hp0 := Real.pi_pos
  have : radians 1 < 175 / 10000 := by unfold radians; linarith
  have h0 : 0 ≤ radians 1 := by unfold radians; linarith
  nlinarith

theorem sin_one : Real.sin (radians 1) ≤ 175 / 10000 := by
  have hp := Real.pi_lt_d2
  have hp0 := Real.pi_pos
  have h0 : 0 ≤ radians 1 := by unfold radians; linarith
  have h1 : radians 1 ≤ 175 / 10000 := by unfold radians; linarith
  exact (Real.sin_le h0).trans h1

theorem zdir : over ((0, 0, 1) : V3) (norm ((0, 0, 1) : V3)) = (0, 0, 1) ∧ ¬ norm ((0, 0, 1) : V3) < 1 / 1000000000000 := by
  have hz : norm ((0, 0, 1) : V3) = 1 := by unfold norm; norm_num
  rw [hz]
  exact ⟨by unfold over; norm_num, by norm_num⟩

theorem dot_z (d : V3) : dot d (0, 0, 1) = d.2.2 := by unfold dot; ring

/-- C316: what the selections of vertical and horizontal edges select with the tolerance of one degree, `edge_info` reports as vertical and horizontal; and it reports no edge as both -/
theorem C316_info_partial (edges : List Edge) (e : Edge) : (e ∈ vertical edges 1 → isVertical e = true) ∧ (e ∈ horizontal edges 1 → isHorizontal e = true) ∧ ¬ (isVertical e = true ∧ isHorizontal e = true) := by
  refine ⟨fun h => ?_, fun h => ?_, fun h => ?_⟩
  · unfold vertical byDirection at h
    rw [if_neg zdir.2, zdir.1, List.mem_filter] at h
    unfold isVertical
    cases hd : direction e with
    | none => rw [hd] at h; exact nomatch h.2
    | some d =>
      rw [hd] at h
      have := h.2
      dsimp only at this ⊢
      rw [decide_eq_true_eq, dot_z] at this
      rw [decide_eq_true_eq]
      exact (cos_one.le.trans this)
  · unfold horizontal at h
    rw [List.mem_filter] at h
    unfold isHorizontal
    cases hd : direction e with
    | none => rw [hd] at h; exact nomatch h.2
    | some d =>
      rw [hd] at h
      have := h.2
      dsimp only at this ⊢
      rw [decide_eq_true_eq, dot_z] at this
      rw [decide_eq_true_eq]
      exact this.trans sin_one
  · obtain ⟨h1, h2⟩ := h
    unfold isVertical at h1
    unfold isHorizontal at h2
    cases hd : direction e with
    | none => rw [hd] at h1; exact nomatch h1
    | some d =>
      rw [hd] at h1 h2
      dsimp only at h1 h2
      rw [decide_eq_true_eq] at h1 h2
      linarith

/-- a straight edge between two points -/
def segment (p q : V3) : Edge := ⟨1, some ⟨0, 1, fun t => (p.1 + t * (q.1 - p.1), p.2.1 + t * (q.2.1 - p.2.1), p.2.2 + t * (q.2.2 - p.2.2))⟩, none, 1⟩

/-- C316: a straight edge is taken for straight, with the direction from its first point to its last, whatever its points, if they are not nearer than 1e-12 -/
theorem C316_straight (p q : V3) (h : 1 / 1000000000000 ≤ norm (minus q p)) : direction (segment p q) = some (over (minus q p) (norm (minus q p))) := by
  rw [direction_some]
  refine ⟨minus q p, ⟨_, rfl, ?_, h, ?_, ?_, ?_⟩, rfl⟩
  · unfold minus; ext <;> dsimp only <;> ring
  all_goals
    dsimp only
    rw [abs_le]
    constructor <;> ring_nf <;> norm_num

/-- C316: but an edge is not straight because its middle is: this one, which leaves its chord by more than 4 times its length, is taken for straight, and kept by the filter for linear edges -/
theorem C316_bent : ∃ (e : Edge) (c : Curve), e.curve = some c ∧ c.first = 0 ∧ c.last = 1 ∧ norm (minus (c.value 1) (c.value 0)) = 1 ∧ (c.value (1 / 4)).2.1 > 4 ∧ e ∈ linear [e] ∧ e ∉ curved [e] := by
  have hd : Chord ⟨1, some ⟨0, 1, fun t => (t, 100 * (t * (t - 1 / 2) * (t - 1)), 0)⟩, none, 1⟩ (1, 0, 0) := by
    refine ⟨_, rfl, ?_, ?_, ?_, ?_, ?_⟩
    · unfold minus; ext <;> norm_num
    · unfold norm; norm_num
    all_goals norm_num
  have hdir := direction_some.2 ⟨_, hd, rfl⟩
  refine ⟨⟨1, some ⟨0, 1, fun t => (t, 100 * (t * (t - 1 / 2) * (t - 1)), 0)⟩, none, 1⟩, ⟨0, 1, fun t => (t, 100 * (t * (t - 1 / 2) * (t - 1)), 0)⟩, rfl, rfl, rfl, ?_, ?_, ?_, ?_⟩
  · unfold norm minus; norm_num
  · norm_num
  · unfold linear
    rw [List.mem_filter, hdir]
    simp
  · unfold curved
    rw [List.mem_filter, hdir]
    simp

/-- C316: every edge is kept by exactly one of the two filters -/
theorem C316_filters (edges : List Edge) (e : Edge) : (e ∈ edges ↔ e ∈ linear edges ∨ e ∈ curved edges) ∧ ¬ (e ∈ linear edges ∧ e ∈ curved edges) := by
  unfold linear curved
  rw [List.mem_filter, List.mem_filter]
  cases direction e <;> simp

/-- a vertical edge of length 5 -/
example : (segment (0, 0, 0) (0, 0, 5)) ∈ byDirection [segment (0, 0, 0) (0, 0, 5)] (0, 0, -2) 1 := by
  unfold byDirection
  have h1 : norm ((0, 0, -2) : V3) = 2 := by unfold norm; rw [show ((0:ℝ) * 0 + 0 * 0 + -2 * -2) = 2 ^ 2 by norm_num, Real.sqrt_sq (by norm_num)]
  have h2 : norm (minus ((0, 0, 5) : V3) (0, 0, 0)) = 5 := by
    unfold norm minus; dsimp only; rw [show (((0:ℝ) - 0) * (0 - 0) + (0 - 0) * (0 - 0) + (5 - 0) * (5 - 0)) = 5 ^ 2 by norm_num, Real.sqrt_sq (by norm_num)]
  rw [h1, if_neg (by norm_num), List.mem_filter, C316_straight _ _ (by rw [h2]; norm_num), h2]
  refine ⟨by simp, ?_⟩
  dsimp only
  rw [decide_eq_true_eq]
  refine (Real.cos_le_one _).trans ?_
  unfold dot over minus
  norm_num

/-- the hypotheses of C315 and C316 hold of the edge from the origin to the height 2, which is vertical -/
example : 1 / 1000000000000 ≤ norm ((0, 0, 1) : V3) ∧ 1 / 1000000000000 ≤ norm (minus ((0, 0, 2) : V3) (0, 0, 0)) ∧ segment (0, 0, 0) (0, 0, 2) ∈ vertical [segment (0, 0, 0) (0, 0, 2)] 1 := by
  have h1 : norm ((0, 0, 1) : V3) = 1 := by unfold norm; norm_num
  have h2 : norm (minus ((0, 0, 2) : V3) (0, 0, 0)) = 2 := by
    unfold norm minus
    rw [show ((0 : ℝ) - 0) * (0 - 0) + (0 - 0) * (0 - 0) + (2 - 0) * (2 - 0) = 2 * 2 by norm_num]
    exact Real.sqrt_mul_self (by norm_num)
  refine ⟨by rw [h1]; norm_num, by rw [h2]; norm_num, ?_⟩
  have hs := C316_straight (0, 0, 0) (0, 0, 2) (by rw [h2]; norm_num)
  unfold vertical byDirection
  rw [if_neg (by rw [h1]; norm_num), List.mem_filter, hs]
  refine ⟨by simp, ?_⟩
  dsimp only
  rw [decide_eq_true_eq, h1, h2]
  refine (Real.cos_le_one _).trans ?_
  unfold dot over minus
  norm_num

end
end Verif.Select
