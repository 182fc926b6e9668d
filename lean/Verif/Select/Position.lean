import Verif.Select.Model
import Mathlib.Tactic.Positivity
import Mathlib.Tactic.FieldSimp
import Mathlib.Tactic.Linarith
import Mathlib.Tactic.LinearCombination

/-! # Selection by position and length -/

namespace Verif.Select

noncomputable section

/-- the heights of the ends of an edge, if the kernel knows them -/
def heights (e : Edge) : List ℝ := match e.curve with
  | none => []
  | some c => [(c.value c.first).2.2, (c.value c.last).2.2]

/-- the distance of two points -/
def dist3 (p q : V3) : ℝ := Real.sqrt ((p.1 - q.1) ^ 2 + (p.2.1 - q.2.1) ^ 2 + (p.2.2 - q.2.2) ^ 2)

/-- C311: by height: an edge is selected exactly if both ends are in the range, up to the tolerance; selecting at one height is selecting in the range from this height to itself -/
theorem C311_range (edges : List Edge) (lo hi tolerance : ℝ) :
    (∀ e, e ∈ inRange edges lo hi tolerance ↔ e ∈ edges ∧ e.curve.isSome ∧ ∀ h ∈ heights e, lo - tolerance ≤ h ∧ h ≤ hi + tolerance) ∧
    ∀ z, atZ edges z tolerance = inRange edges z z tolerance := by
  constructor
  · intro e
    unfold inRange endpoints heights
    rw [List.mem_filter]
    cases e.curve with
    | none => simp
    | some c => simp [and_assoc]
  · intro z
    unfold atZ inRange
    refine List.filter_congr fun e _ => ?_
    cases endpoints e with
    | none => rfl
    | some pq =>
      dsimp only
      rw [decide_eq_decide, abs_le, abs_le]
      constructor
      · rintro ⟨⟨a, b⟩, c, d⟩; exact ⟨⟨by linarith, by linarith⟩, by linarith, by linarith⟩
      · rintro ⟨⟨a, b⟩, c, d⟩; exact ⟨⟨by linarith, by linarith⟩, by linarith, by linarith⟩

theorem topZ_spec : ∀ (edges : List Edge) (m : Option ℝ),
    (topZ edges m = none → m = none ∧ ∀ e ∈ edges, heights e = []) ∧
      ∀ z, topZ edges m = some z → (m = some z ∨ ∃ e ∈ edges, z ∈ heights e) ∧ (∀ y, m = some y → y ≤ z) ∧ ∀ e ∈ edges, ∀ h ∈ heights e, h ≤ z
  | [], m => by
    refine ⟨fun h => ⟨h, by simp⟩, fun z h => ?_⟩
    rw [topZ] at h
    subst h
    exact ⟨.inl rfl, fun y hy => by rw [Option.some.injEq] at hy; exact hy.ge, by simp⟩
  | e :: es, m => by
    rw [topZ.eq_def]
    dsimp only
    cases hc : e.curve with
    | none =>
      have hE : endpoints e = none := by unfold endpoints; rw [hc]; rfl
      have hh : heights e = [] := by unfold heights; rw [hc]
      rw [hE]
      dsimp only
      obtain ⟨h1, h2⟩ := topZ_spec es m
      refine ⟨fun h => ⟨(h1 h).1, fun x hx => ?_⟩, fun z h => ?_⟩
      · rcases List.mem_cons.1 hx with rfl | hx
        · exact hh
        · exact (h1 h).2 x hx
      · obtain ⟨a, b, c⟩ := h2 z h
        refine ⟨a.imp id fun ⟨x, hx, hz⟩ => ⟨x, by simp [hx], hz⟩, b, fun x hx => ?_⟩
        rcases List.mem_cons.1 hx with rfl | hx
        · rw [hh]; simp
        · exact c x hx
    | some c =>
      have hE : endpoints e = some (c.value c.first, c.value c.last) := by unfold endpoints; rw [hc]; rfl
      have hh : heights e = [(c.value c.first).2.2, (c.value c.last).2.2] := by unfold heights; rw [hc]
      rw [hE]
      dsimp only
      generalize (c.value c.first).2.2 = p at *
      generalize (c.value c.last).2.2 = q at *
      have hmax : max p q = p ∨ max p q = q := max_choice p q
      have hn : ∃ n, higher m (max p q) = some n ∧ (m = some n ∨ n = max p q) ∧ max p q ≤ n ∧ ∀ y, m = some y → y ≤ n := by
        cases m with
        | none => exact ⟨_, rfl, .inr rfl, le_refl _, nofun⟩
        | some y =>
          unfold higher
          dsimp only
          by_cases h : max p q > y
          · rw [if_pos h]
            exact ⟨_, rfl, .inr rfl, le_refl _, fun y' hy' => by rw [Option.some.injEq] at hy'; rw [← hy']; exact h.le⟩
          · rw [if_neg h]
            exact ⟨_, rfl, .inl rfl, not_lt.1 h, fun y' hy' => by rw [Option.some.injEq] at hy'; exact hy'.ge⟩
      obtain ⟨n, hn1, hn2, hn3, hn4⟩ := hn
      rw [hn1]
      obtain ⟨h1, h2⟩ := topZ_spec es (some n)
      refine ⟨fun h => (nomatch (h1 h).1), fun z h => ?_⟩
      obtain ⟨a, b, d⟩ := h2 z h
      have hnz := b n rfl
      refine ⟨?_, fun y hy => (hn4 y hy).trans hnz, fun x hx => ?_⟩
      · rcases a with a | ⟨x, hx, hz⟩
        · rw [Option.some.injEq] at a
          subst a
          rcases hn2 with h' | h'
          · exact .inl h'
          · refine .inr ⟨e, by simp, ?_⟩
            rw [hh, h']
            rcases hmax with h'' | h'' <;> rw [h''] <;> simp
        · exact .inr ⟨x, by simp [hx], hz⟩
      · rcases List.mem_cons.1 hx with rfl | hx
        · rw [hh]
          intro y hy
          simp only [List.mem_cons, List.not_mem_nil, or_false] at hy
          rcases hy with rfl | rfl
          · exact (le_max_left _ _).trans (hn3.trans hnz)
          · exact (le_max_right _ _).trans (hn3.trans hnz)
        · exact d x hx

/-- the greatest height of an end of an edge -/
def IsTop (edges : List Edge) (z : ℝ) : Prop := (∃ e ∈ edges, z ∈ heights e) ∧ ∀ e ∈ edges, ∀ h ∈ heights e, h ≤ z

/-- the least height of an end of an edge -/
def IsBottom (edges : List Edge) (z : ℝ) : Prop := (∃ e ∈ edges, z ∈ heights e) ∧ ∀ e ∈ edges, ∀ h ∈ heights e, z ≤ h

/-- C311: the top edges are those with both ends at the greatest height of an end, up to the tolerance -/
theorem C311_top {edges : List Edge} {z : ℝ} (h : IsTop edges z) (tolerance : ℝ) : top edges tolerance = atZ edges z tolerance := by
  unfold top
  obtain ⟨h1, h2⟩ := topZ_spec edges none
  cases ht : topZ edges none with
  | none =>
    obtain ⟨e, he, hz⟩ := h.1
    rw [(h1 ht).2 e he] at hz
    simp at hz
  | some y =>
    obtain ⟨a, -, c⟩ := h2 y ht
    rcases a with a | ⟨e, he, hy⟩
    · exact nomatch a
    · have : y = z := le_antisymm (h.2 e he y hy) (by obtain ⟨e', he', hz'⟩ := h.1; exact c e' he' z hz')
      rw [this]

theorem bottomZ_spec : ∀ (edges : List Edge) (m : Option ℝ),
    (bottomZ edges m = none → m = none ∧ ∀ e ∈ edges, heights e = []) ∧
      ∀ z, bottomZ edges m = some z → (m = some z ∨ ∃ e ∈ edges, z ∈ heights e) ∧ (∀ y, m = some y → z ≤ y) ∧ ∀ e ∈ edges, ∀ h ∈ heights e, z ≤ h
  | [], m => by
    refine ⟨fun h => ⟨h, by simp⟩, fun z h => ?_⟩
    rw [bottomZ] at h
    subst h
    exact ⟨.inl rfl, fun y hy => by rw [Option.some.injEq] at hy; exact hy.le, by simp⟩
  | e :: es, m => by
    rw [bottomZ.eq_def]
    dsimp only
    cases hc : e.curve with
    | none =>
      have hE : endpoints e = none := by unfold endpoints; rw [hc]; rfl
      have hh : heights e = [] := by unfold heights; rw [hc]
      rw [hE]
      dsimp only
      obtain ⟨h1, h2⟩ := bottomZ_spec es m
      refine ⟨fun h => ⟨(h1 h).1, fun x hx => ?_⟩, fun z h => ?_⟩
      · rcases List.mem_cons.1 hx with rfl | hx
        · exact hh
        · exact (h1 h).2 x hx
      · obtain ⟨a, b, c⟩ := h2 z h
        refine ⟨a.imp id fun ⟨x, hx, hz⟩ => ⟨x, by simp [hx], hz⟩, b, fun x hx => ?_⟩
        rcases List.mem_cons.1 hx with rfl | hx
        · rw [hh]; simp
        · exact c x hx
    | some c =>
      have hE : endpoints e = some (c.value c.first, c.value c.last) := by unfold endpoints; rw [hc]; rfl
      have hh : heights e = [(c.value c.first).2.2, (c.value c.last).2.2] := by unfold heights; rw [hc]
      rw [hE]
      dsimp only
      generalize (c.value c.first).2.2 = p at *
      generalize (c.value c.last).2.2 = q at *
      have hmin : min p q = p ∨ min p q = q := min_choice p q
      have hn : ∃ n, lower m (min p q) = some n ∧ (m = some n ∨ n = min p q) ∧ n ≤ min p q ∧ ∀ y, m = some y → n ≤ y := by
        cases m with
        | none => exact ⟨_, rfl, .inr rfl, le_refl _, nofun⟩
        | some y =>
          unfold lower
          dsimp only
          by_cases h : min p q < y
          · rw [if_pos h]
            exact ⟨_, rfl, .inr rfl, le_refl _, fun y' hy' => by rw [Option.some.injEq] at hy'; rw [← hy']; exact h.le⟩
          · rw [if_neg h]
            exact ⟨_, rfl, .inl rfl, not_lt.1 h, fun y' hy' => by rw [Option.some.injEq] at hy'; exact hy'.le⟩
      obtain ⟨n, hn1, hn2, hn3, hn4⟩ := hn
      rw [hn1]
      obtain ⟨h1, h2⟩ := bottomZ_spec es (some n)
      refine ⟨fun h => (nomatch (h1 h).1), fun z h => ?_⟩
      obtain ⟨a, b, d⟩ := h2 z h
      have hnz := b n rfl
      refine ⟨?_, fun y hy => hnz.trans (hn4 y hy), fun x hx => ?_⟩
      · rcases a with a | ⟨x, hx, hz⟩
        · rw [Option.some.injEq] at a
          subst a
          rcases hn2 with h' | h'
          · exact .inl h'
          · refine .inr ⟨e, by simp, ?_⟩
            rw [hh, h']
            rcases hmin with h'' | h'' <;> rw [h''] <;> simp
        · exact .inr ⟨x, by simp [hx], hz⟩
      · rcases List.mem_cons.1 hx with rfl | hx
        · rw [hh]
          intro y hy
          simp only [List.mem_cons, List.not_mem_nil, or_false] at hy
          rcases hy with rfl | rfl
          · exact (hnz.trans hn3).trans (min_le_left _ _)
          · exact (hnz.trans hn3).trans (min_le_right _ _)
        · exact d x hx

/-- C311: the bottom edges are those with both ends at the least height of an end, up to the tolerance -/
theorem C311_bottom {edges : List Edge} {z : ℝ} (h : IsBottom edges z) (tolerance : ℝ) : bottom edges tolerance = atZ edges z tolerance := by
  unfold bottom
  obtain ⟨h1, h2⟩ := bottomZ_spec edges none
  cases ht : bottomZ edges none with
  | none =>
    obtain ⟨e, he, hz⟩ := h.1
    rw [(h1 ht).2 e he] at hz
    simp at hz
  | some y =>
    obtain ⟨a, -, c⟩ := h2 y ht
    rcases a with a | ⟨e, he, hy⟩
    · exact nomatch a
    · have : y = z := le_antisymm (by obtain ⟨e', he', hz'⟩ := h.1; exact c e' he' z hz') (h.2 e he y hy)
      rw [this]

/-! ## crossing a height -/

/-- C312: every edge with ends on both sides of a height is selected, and every edge selected has ends on both sides or an end nearer to the height than the tolerance -/
theorem C312_crossing_partial {edges : List Edge} {z tolerance : ℝ} (ht : 0 < tolerance) {e : Edge} {c : Curve} (he : e ∈ edges) (hc : e.curve = some c) :
    ((∃ a ∈ heights e, ∃ b ∈ heights e, a ≤ z ∧ z ≤ b) → e ∈ crossing edges z tolerance) ∧
      (e ∈ crossing edges z tolerance → (∃ a ∈ heights e, ∃ b ∈ heights e, a ≤ z ∧ z ≤ b) ∨ ∃ a ∈ heights e, |a - z| < tolerance) := by
  have hE : endpoints e = some (c.value c.first, c.value c.last) := by unfold endpoints; rw [hc]; rfl
  have hh : heights e = [(c.value c.first).2.2, (c.value c.last).2.2] := by unfold heights; rw [hc]
  unfold crossing
  rw [List.mem_filter, hE, hh]
  dsimp only
  rw [decide_eq_true_eq]
  generalize (c.value c.first).2.2 = p at *
  generalize (c.value c.last).2.2 = q at *
  simp only [List.mem_cons, List.not_mem_nil, or_false, exists_eq_or_imp, exists_eq_left]
  constructor
  · intro h
    have h1 : min p q ≤ z ∧ z ≤ max p q := by
      rw [min_le_iff, le_max_iff]
      rcases h with (h | h) | h | h <;> exact ⟨by tauto, by tauto⟩
    exact ⟨he, by linarith [h1.1], by linarith [h1.2]⟩
  · rintro ⟨-, h1, h2⟩
    rcases le_total p q with hpq | hpq
    · rw [min_eq_left hpq] at h1
      rw [max_eq_right hpq] at h2
      by_cases h3 : p ≤ z
      · by_cases h4 : z ≤ q
        · left; left; right; exact ⟨h3, h4⟩
        · right; right; rw [abs_lt]; constructor <;> linarith
      · right; left; rw [abs_lt]; constructor <;> linarith
    · rw [min_eq_right hpq] at h1
      rw [max_eq_left hpq] at h2
      by_cases h3 : q ≤ z
      · by_cases h4 : z ≤ p
        · left; right; left; exact ⟨h3, h4⟩
        · right; left; rw [abs_lt]; constructor <;> linarith
      · right; right; rw [abs_lt]; constructor <;> linarith

/-- C312: so an edge that lies at the height is selected as one that crosses it: with a positive tolerance everything selected at a height is selected as crossing too, if the tolerance is the same and
    the edge is within less than it -/
theorem C312_flat {edges : List Edge} {z tolerance : ℝ} (ht : 0 < tolerance) {e : Edge} {c : Curve} (he : e ∈ edges) (hc : e.curve = some c) (hz : ∀ h ∈ heights e, h = z) :
    e ∈ atZ edges z tolerance ∧ e ∈ crossing edges z tolerance := by
  have hh : heights e = [(c.value c.first).2.2, (c.value c.last).2.2] := by unfold heights; rw [hc]
  constructor
  · rw [(C311_range edges z z tolerance).2 z, (C311_range edges z z tolerance).1]
    refine ⟨he, by rw [hc]; rfl, fun h hh => ?_⟩
    rw [hz h hh]
    constructor <;> linarith
  · refine (C312_crossing_partial ht he hc).1 ⟨(c.value c.first).2.2, by rw [hh]; simp, (c.value c.first).2.2, by rw [hh]; simp, (hz _ (by rw [hh]; simp)).le, (hz _ (by rw [hh]; simp)).ge⟩

/-! ## regions -/

theorem norm_sq (v : V3) : norm v * norm v = v.1 * v.1 + v.2.1 * v.2.1 + v.2.2 * v.2.2 :=
  Real.mul_self_sqrt (by nlinarith [mul_self_nonneg v.1, mul_self_nonneg v.2.1, mul_self_nonneg v.2.2])

/-- C313: by distance from a point: the middle of the edge is that near -/
theorem C313_near (edges : List Edge) (t : V3) (r : ℝ) (e : Edge) :
    e ∈ near edges t r ↔ e ∈ edges ∧ ∃ c, e.curve = some c ∧ dist3 (c.value ((c.first + c.last) / 2)) t ≤ r := by
  unfold near midpoint dist3
  rw [List.mem_filter]
  cases e.curve <;> simp

theorem norm_le_sq {v : V3} {r : ℝ} (hr : 0 ≤ r) : norm v ≤ r ↔ v.1 * v.1 + v.2.1 * v.2.1 + v.2.2 * v.2.2 ≤ r * r := by
  unfold norm
  rw [Real.sqrt_le_left hr, sq]

/-- C313: by a cylinder: some point of the axis is that near to the middle of the edge; neither the length of the axis vector nor the place of the center on the axis matters -/
theorem C313_cylinder (edges : List Edge) (center : V3) (r : ℝ) (hr : 0 ≤ r) (axis : V3) (ha : 1 / 1000000000000 ≤ norm axis) (e : Edge) :
    e ∈ inCylinder edges center r axis ↔ e ∈ edges ∧ ∃ c, e.curve = some c ∧
      ∃ t, dist3 (c.value ((c.first + c.last) / 2)) (center.1 + t * axis.1, center.2.1 + t * axis.2.1, center.2.2 + t * axis.2.2) ≤ r := by
  unfold inCylinder
  rw [if_neg (not_lt.2 ha)]
  dsimp only
  rw [List.mem_filter]
  unfold midpoint
  cases e.curve with
  | none => simp
  | some c =>
    dsimp only [Option.map_some]
    rw [decide_eq_true_eq]
    simp only [Option.some.injEq, exists_eq_left', and_congr_right_iff]
    generalize c.value ((c.first + c.last) / 2) = m
    intro _
    have hn : 0 < norm axis := lt_of_lt_of_le (by norm_num) ha
    have hs := norm_sq axis
    have key : ∀ t : ℝ, dist3 m (center.1 + t * axis.1, center.2.1 + t * axis.2.1, center.2.2 + t * axis.2.2) ≤ r ↔
        ((minus m center).1 - t * axis.1) ^ 2 + ((minus m center).2.1 - t * axis.2.1) ^ 2 + ((minus m center).2.2 - t * axis.2.2) ^ 2 ≤ r * r := by
      intro t
      unfold dist3 minus
      rw [Real.sqrt_le_left hr, sq r]
      constructor <;> intro h <;> linarith
    simp only [key]
    rw [norm_le_sq hr]
    generalize minus m center = v
    obtain ⟨v1, v2, v3⟩ := v
    obtain ⟨a1, a2, a3⟩ := axis
    generalize norm (a1, a2, a3) = n at *
    dsimp only at hs ⊢
    unfold dot over
    dsimp only
    have e1 : a1 = a1 / n * n := (div_mul_cancel₀ _ hn.ne').symm
    have e2 : a2 = a2 / n * n := (div_mul_cancel₀ _ hn.ne').symm
    have e3 : a3 = a3 / n * n := (div_mul_cancel₀ _ hn.ne').symm
    generalize a1 / n = u1 at *
    generalize a2 / n = u2 at *
    generalize a3 / n = u3 at *
    subst e1 e2 e3
    have hu : u1 * u1 + u2 * u2 + u3 * u3 = 1 := by
      have : n * n * (u1 * u1 + u2 * u2 + u3 * u3) = n * n * 1 := by linarith
      exact mul_left_cancel₀ (mul_pos hn hn).ne' this
    have hid : ∀ t : ℝ, (v1 - t * (u1 * n)) ^ 2 + (v2 - t * (u2 * n)) ^ 2 + (v3 - t * (u3 * n)) ^ 2 =
        (v1 - (v1 * u1 + v2 * u2 + v3 * u3) * u1) * (v1 - (v1 * u1 + v2 * u2 + v3 * u3) * u1) + (v2 - (v1 * u1 + v2 * u2 + v3 * u3) * u2) * (v2 - (v1 * u1 + v2 * u2 + v3 * u3) * u2) +
          (v3 - (v1 * u1 + v2 * u2 + v3 * u3) * u3) * (v3 - (v1 * u1 + v2 * u2 + v3 * u3) * u3) + (t * n - (v1 * u1 + v2 * u2 + v3 * u3)) ^ 2 := by
      intro t
      linear_combination (t ^ 2 * n ^ 2 - (v1 * u1 + v2 * u2 + v3 * u3) ^ 2) * hu
    simp only [hid]
    constructor
    · intro h
      refine ⟨(v1 * u1 + v2 * u2 + v3 * u3) / n, ?_⟩
      rw [div_mul_cancel₀ _ hn.ne', sub_self]
      linarith
    · rintro ⟨t, h⟩
      linarith [sq_nonneg (t * n - (v1 * u1 + v2 * u2 + v3 * u3))]

/-! ## length -/

/-- C314: by length: an edge is selected exactly if its length is between the bounds given -/
theorem C314_length (edges : List Edge) (lo hi : Option ℝ) (e : Edge) :
    e ∈ byLength edges lo hi ↔ e ∈ edges ∧ (∀ m, lo = some m → m ≤ e.length.getD 0) ∧ ∀ m, hi = some m → e.length.getD 0 ≤ m := by
  unfold byLength lengthOf
  rw [List.mem_filter]
  cases lo <;> cases hi <;> simp

/-- the edges of the examples: from the origin up to the height 2, and at the height 2 -/
def upright : Edge := ⟨1, some ⟨0, 1, fun t => (0, 0, 2 * t)⟩, some 2, 1⟩
@[inherit_doc upright] def level : Edge := ⟨2, some ⟨0, 1, fun t => (t, 0, 2)⟩, some 1, 2⟩

/-- the hypotheses of C311 hold of these edges, and one more whose curve the kernel does not know; the edge at the top is selected -/
example : IsTop [⟨0, none, none, 0⟩, upright, level] 2 ∧ IsBottom [⟨0, none, none, 0⟩, upright, level] 0 ∧ level ∈ top [⟨0, none, none, 0⟩, upright, level] 0 ∧
    upright ∉ top [⟨0, none, none, 0⟩, upright, level] 0 := by
  have ht : IsTop [⟨0, none, none, 0⟩, upright, level] 2 := by
    constructor
    · exact ⟨level, by simp, by simp [heights, level]⟩
    · intro e he h hh
      simp only [List.mem_cons, List.not_mem_nil, or_false] at he
      rcases he with rfl | rfl | rfl
      · simp [heights] at hh
      · simp [heights, upright] at hh; rcases hh with rfl | rfl <;> norm_num
      · simp [heights, level] at hh; subst hh; norm_num
  refine ⟨ht, ⟨⟨upright, by simp, by simp [heights, upright]⟩, ?_⟩, ?_, ?_⟩
  · intro e he h hh
    simp only [List.mem_cons, List.not_mem_nil, or_false] at he
    rcases he with rfl | rfl | rfl
    · simp [heights] at hh
    · simp [heights, upright] at hh; rcases hh with rfl | rfl <;> norm_num
    · simp [heights, level] at hh; subst hh; norm_num
  · rw [C311_top ht, (C311_range _ 2 2 0).2 2, (C311_range _ 2 2 0).1]
    refine ⟨by simp, by simp [level], ?_⟩
    simp [heights, level]
  · rw [C311_top ht, (C311_range _ 2 2 0).2 2, (C311_range _ 2 2 0).1]
    rintro ⟨-, -, h⟩
    have := (h 0 (by simp [heights, upright])).1
    norm_num at this

/-- the hypotheses of C312 hold of these edges -/
example : (upright ∈ [upright, level] ∧ upright.curve = some ⟨0, 1, fun t => (0, 0, 2 * t)⟩ ∧ ∃ a ∈ heights upright, ∃ b ∈ heights upright, a ≤ 1 ∧ 1 ≤ b) ∧ ∀ h ∈ heights level, h = 2 := by
  refine ⟨⟨by simp, rfl, 0, by simp [heights, upright], 2, by simp [heights, upright], by norm_num, by norm_num⟩, ?_⟩
  simp [heights, level]

end
end Verif.Select
