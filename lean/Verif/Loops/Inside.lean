import Verif.Loops.Region
import Mathlib.Tactic.FieldSimp

/-!
# Model of `_point_in_polygon_xy` (C277), and what goes wrong with centroids (C276)
-/

namespace Verif.Loops

section field
variable {K : Type} [Field K] [LinearOrder K]

/-- the constant of `_point_in_polygon_xy`, geom_util.py:420 -/
def tiny : K := 1 / 10 ^ 16

/-- `intersects`, geom_util.py:419-420, for the side from `q` (number `j`) to `p` (number `i`); `none` is a `ZeroDivisionError` -/
def intersects (x y : K) (p q : Pt K) : Option Bool :=
  if decide (p.2 > y) = decide (q.2 > y) then some false
  else if q.2 - p.2 + tiny = 0 then none
  else some (decide (x < (q.1 - p.1) * (y - p.2) / (q.2 - p.2 + tiny) + p.1))

/-- the loop of `_point_in_polygon_xy`, geom_util.py:416-423: `q` is the point before -/
def flips (x y : K) : Pt K → List (Pt K) → Bool → Option Bool
  | _, [], inside => some inside
  | q, p :: l, inside =>
    match intersects x y p q with
    | none => none
    | some b => flips x y p l (if b then !inside else inside)

/-- `_point_in_polygon_xy`, geom_util.py:410-424 -/
def pointIn (poly : List (Pt K)) (pt : Pt K) : Option Bool :=
  match poly.getLast? with
  | none => some false
  | some q => flips pt.1 pt.2 q poly false

/-- the test used by `_assemble_components` (an exception counts as no) -/
def insPoly (poly : List (Pt K)) (pt : Pt K) : Bool := pointIn poly pt == some true

/-! ## specification: the even-odd rule -/

/-- the sides of a polygon, the last point joined to the first -/
def polySides (poly : List (Pt K)) : List (Pt K × Pt K) :=
  match poly.getLast? with
  | none => []
  | some q => (q :: poly).zip poly

/-- a side has one end above the height `y` and one not above it -/
def Spans (y : K) (s : Pt K × Pt K) : Prop := (s.1.2 ≤ y ∧ y < s.2.2) ∨ (s.2.2 ≤ y ∧ y < s.1.2)

instance (y : K) (s : Pt K × Pt K) : Decidable (Spans y s) := inferInstanceAs (Decidable (_ ∨ _))

/-- where the line through a side is at height `y` -/
def crossingAt (y : K) (s : Pt K × Pt K) : K := s.1.1 + (s.2.1 - s.1.1) * (y - s.1.2) / (s.2.2 - s.1.2)

/-- how many sides are crossed to the right of a point -/
def crossings (poly : List (Pt K)) (p : Pt K) : Nat := (polySides poly).countP fun s => decide (Spans p.2 s ∧ p.1 < crossingAt p.2 s)

variable [IsStrictOrderedRing K]

theorem tiny_pos : (0 : K) < tiny := by unfold tiny; positivity

omit [IsStrictOrderedRing K] in
theorem spans_iff {y : K} {p q : Pt K} : (decide (p.2 > y) = decide (q.2 > y)) ↔ ¬ Spans y (q, p) := by
  unfold Spans
  by_cases h1 : y < p.2 <;> by_cases h2 : y < q.2 <;> simp [h1, h2, not_lt.1] <;> first | exact not_lt.1 ‹_› | skip

/-- one side, away from the boundary -/
theorem intersects_eq {x y : K} {p q : Pt K} (hd : Spans y (q, p) → tiny < |p.2 - q.2|)
    (hx : Spans y (q, p) → |p.1 - q.1| * tiny / (|p.2 - q.2| - tiny) < |x - crossingAt y (q, p)|) :
    intersects x y p q = some (decide (Spans y (q, p) ∧ x < crossingAt y (q, p))) := by
  unfold intersects
  by_cases hs : Spans y (q, p)
  · have ht := tiny_pos (K := K)
    rw [if_neg (fun h => spans_iff.1 h hs)]
    have h1 := hd hs
    have h2 := hx hs
    have hpq : p.2 - q.2 ≠ 0 := by intro h; rw [h, abs_zero] at h1; exact lt_asymm h1 ht
    have hden : q.2 - p.2 + tiny ≠ 0 := by
      intro h
      have : p.2 - q.2 = tiny := by linarith
      rw [this, abs_of_pos ht] at h1; exact lt_irrefl _ h1
    rw [if_neg hden]
    congr 1
    have hdiff : |(q.1 - p.1) * (y - p.2) / (q.2 - p.2 + tiny) + p.1 - crossingAt y (q, p)| ≤ |p.1 - q.1| * tiny / (|p.2 - q.2| - tiny) := by
      have e : (q.1 - p.1) * (y - p.2) / (q.2 - p.2 + tiny) + p.1 - crossingAt y (q, p) = (q.1 - p.1) * tiny * ((y - p.2) / (p.2 - q.2)) / (q.2 - p.2 + tiny) := by
        unfold crossingAt
        dsimp only
        have hq : q.2 - p.2 ≠ 0 := fun h => hpq (by linarith)
        have e1 : q.1 + (p.1 - q.1) * (y - q.2) / (p.2 - q.2) = p.1 + (q.1 - p.1) * (y - p.2) / (q.2 - p.2) := by field_simp; ring
        have e2 : (y - p.2) / (p.2 - q.2) = -((y - p.2) / (q.2 - p.2)) := by rw [← neg_sub q.2 p.2, div_neg]
        rw [e1, e2]
        field_simp
        ring
      rw [e, abs_div, abs_mul, abs_mul, abs_of_pos ht]
      have h01 : |(y - p.2) / (p.2 - q.2)| ≤ 1 := by
        rw [abs_div, div_le_one (abs_pos.2 hpq)]
        rcases hs with ⟨a, b⟩ | ⟨a, b⟩ <;> simp only at a b
        · rw [abs_of_neg (by linarith), abs_of_pos (by linarith)]; linarith
        · rw [abs_of_nonneg (by linarith), abs_of_neg (by linarith)]; linarith
      have h3 : |p.2 - q.2| - tiny ≤ |q.2 - p.2 + tiny| := by
        have := abs_sub_abs_le_abs_sub (p.2 - q.2) tiny
        rw [abs_of_pos ht] at this
        calc |p.2 - q.2| - tiny ≤ |p.2 - q.2 - tiny| := this
          _ = |q.2 - p.2 + tiny| := by rw [← abs_neg]; congr 1; ring
      have h4 : 0 < |p.2 - q.2| - tiny := by linarith
      rw [abs_sub_comm q.1 p.1]
      refine div_le_div₀ (by positivity) ?_ h4 h3
      calc |p.1 - q.1| * tiny * |(y - p.2) / (p.2 - q.2)| ≤ |p.1 - q.1| * tiny * 1 := mul_le_mul_of_nonneg_left h01 (by positivity)
        _ = _ := mul_one _
    have h5 := lt_of_le_of_lt hdiff h2
    have : (x < (q.1 - p.1) * (y - p.2) / (q.2 - p.2 + tiny) + p.1) ↔ x < crossingAt y (q, p) := by
      rw [abs_lt] at *
      rcases le_total (x - crossingAt y (q, p)) 0 with h | h
      · rw [abs_of_nonpos h] at h5 h2
        constructor
        · intro _; by_contra hc; have : x = crossingAt y (q, p) := le_antisymm (by linarith) (not_lt.1 hc); rw [this] at h5; linarith [h5.1, h5.2]
        · intro _; linarith [h5.1]
      · rw [abs_of_nonneg h] at h5 h2
        constructor
        · intro h'; linarith [h5.2]
        · intro h'; linarith
    simp only [this, hs, true_and]
  · rw [if_pos (spans_iff.2 hs)]
    simp [hs]

theorem flips_eq {x y : K} : ∀ (l : List (Pt K)) (q : Pt K) (b : Bool),
    (∀ s ∈ (q :: l).zip l, Spans y s → tiny < |s.2.2 - s.1.2| ∧ |s.2.1 - s.1.1| * tiny / (|s.2.2 - s.1.2| - tiny) < |x - crossingAt y s|) →
    flips x y q l b = some (b != decide (((q :: l).zip l).countP (fun s => decide (Spans y s ∧ x < crossingAt y s)) % 2 = 1))
  | [], q, b, _ => by simp [flips]
  | p :: l, q, b, h => by
    have h0 : ∀ s ∈ (p :: l).zip l, Spans y s → tiny < |s.2.2 - s.1.2| ∧ |s.2.1 - s.1.1| * tiny / (|s.2.2 - s.1.2| - tiny) < |x - crossingAt y s| :=
      fun s hs => h s (by rw [List.zip_cons_cons]; exact .tail _ hs)
    have hh := h (q, p) (by rw [List.zip_cons_cons]; exact .head _)
    rw [flips, intersects_eq (fun hs => (hh hs).1) (fun hs => (hh hs).2)]
    dsimp only
    rw [flips_eq l p _ h0, List.zip_cons_cons, List.countP_cons]
    by_cases hc : Spans y (q, p) ∧ x < crossingAt y (q, p)
    · simp only [hc, and_self, decide_true, if_true]
      generalize List.countP _ _ = m
      rcases Nat.mod_two_eq_zero_or_one m with hm | hm
      · have : (m + 1) % 2 = 1 := by omega
        cases b <;> simp [hm, this]
      · have : (m + 1) % 2 = 0 := by omega
        cases b <;> simp [hm, this]
    · simp only [hc, decide_false, Bool.false_eq_true, if_false, Nat.add_zero]

/-- `_point_in_polygon_xy` is the even-odd rule for points not too close to the sides at their height (for a side of width `w` and height `h`: closer than `w` times 1e-16 over `h` minus
1e-16). -/
theorem C277_even_odd (poly : List (Pt K)) (p : Pt K)
    (h : ∀ s ∈ polySides poly, Spans p.2 s → tiny < |s.2.2 - s.1.2| ∧ |s.2.1 - s.1.1| * tiny / (|s.2.2 - s.1.2| - tiny) < |p.1 - crossingAt p.2 s|) :
    pointIn poly p = some (decide (Odd (crossings poly p))) := by
  unfold pointIn crossings
  unfold polySides at h ⊢
  cases hl : poly.getLast? with
  | none => simp
  | some q =>
    rw [hl] at h
    dsimp only at h ⊢
    rw [flips_eq poly q false h]
    simp [Nat.odd_iff]

omit [IsStrictOrderedRing K] in
/-- above and below the polygon every point is outside -/
theorem C277_above_below (poly : List (Pt K)) (p : Pt K) (h : (∀ v ∈ poly, p.2 < v.2) ∨ ∀ v ∈ poly, v.2 ≤ p.2) : pointIn poly p = some false := by
  have key : ∀ (l : List (Pt K)) (q : Pt K), ((∀ v ∈ q :: l, p.2 < v.2) ∨ ∀ v ∈ q :: l, v.2 ≤ p.2) → flips p.1 p.2 q l false = some false := by
    intro l
    induction l with
    | nil => intros; rfl
    | cons v l ih =>
      intro q h
      have hi : intersects p.1 p.2 v q = some false := by
        unfold intersects
        rw [if_pos]
        rcases h with h | h
        · have := h v (by simp); have := h q (by simp); simp [*]
        · have h1 := not_lt.2 (h v (by simp)); have h2 := not_lt.2 (h q (by simp)); simp [h1, h2]
      rw [flips, hi]
      exact ih v (h.imp (fun h w hw => h w (.tail _ hw)) fun h w hw => h w (.tail _ hw))
  unfold pointIn
  cases hl : poly.getLast? with
  | none => rfl
  | some q =>
    have hq : q ∈ poly := List.mem_of_getLast? hl
    refine key poly q (h.imp (fun h w hw => ?_) fun h w hw => ?_)
    · rcases List.mem_cons.1 hw with rfl | hw
      · exact h _ hq
      · exact h w hw
    · rcases List.mem_cons.1 hw with rfl | hw
      · exact h _ hq
      · exact h w hw

end field

/-! ## what goes wrong -/

/-- A side that falls by exactly 1e-16 ends in a `ZeroDivisionError`. -/
theorem C277_zero_division : pointIn [((0 : ℚ), 0), (1, 1 / 10 ^ 16), (0, 1), (0, 0)] (1 / 2, 0) = none := by decide +kernel

/-- a square -/
def square : List (Pt ℚ) := [(0, 0), (4, 0), (4, 4), (0, 4), (0, 0)]

/-- a thin bracket around three sides of the square, at a distance of 1 -/
def bracket : List (Pt ℚ) := [(-1, -1), (5, -1), (5, 5), (-1, 5), (-1, 49 / 10), (49 / 10, 49 / 10), (49 / 10, -9 / 10), (-1, -9 / 10), (-1, -1)]

set_option maxRecDepth 100000 in
/-- The bracket is nowhere in the square, nor the square in the bracket, but the centroid of its corners is in the square: it becomes a hole of the square. -/
theorem C276_bracket :
    (∀ v ∈ bracket, insPoly square v = false) ∧ (∀ v ∈ square, insPoly bracket v = false) ∧
      assemble insPoly [square, bracket] = [(square, [orientLoop bracket false])] := by
  refine ⟨?_, ?_, ?_⟩ <;> decide +kernel

/-! ## the hypotheses are met -/

/-- a square with a square hole and a square in the hole -/
def target : List (List (Pt ℚ)) :=
  [[(1, 1), (5, 1), (5, 5), (1, 5), (1, 1)], [(0, 0), (0, 6), (6, 6), (6, 0), (0, 0)], [(2, 2), (4, 2), (4, 4), (2, 4), (2, 2)]]

set_option maxRecDepth 100000 in
example : assemble insPoly target =
    [([(6, 0), (6, 6), (0, 6), (0, 0), (6, 0)], [[(1, 5), (5, 5), (5, 1), (1, 1), (1, 5)]]), ([(2, 2), (4, 2), (4, 4), (2, 4), (2, 2)], [])] := by decide +kernel

set_option maxRecDepth 100000 in
example : ∀ s ∈ polySides square, Spans (2 : ℚ) s → tiny < |s.2.2 - s.1.2| ∧ |s.2.1 - s.1.1| * tiny / (|s.2.2 - s.1.2| - tiny) < |1 - crossingAt 2 s| := by
  decide +kernel

end Verif.Loops
