import Verif.Geom.ArcProps
import Verif.Geom.Tight

/-!
# Random points, arcs and polygons, and spirals: geom_util.py:426-575

`random.random()` is an arbitrary stream `ρ` of numbers from 0 to below 1; every function is given the position in the stream.
-/

namespace Verif.Loops

open Verif.Geom Real

/-! ## the model -/

/-- the numbers `random.random()` can return -/
def Unit01 (ρ : ℕ → ℝ) : Prop := ∀ k, 0 ≤ ρ k ∧ ρ k < 1

/-- `random.random()*range+min`, geom_util.py:443-445, 463-465 -/
def between (t lo hi : ℝ) : ℝ := t * (hi - lo) + lo

/-- `randomPoints`, geom_util.py:426-445 -/
def randomPoints (ρ : ℕ → ℝ) (k : ℕ) (lo hi : V4) (n : ℕ) : List V4 :=
  (List.range n).map fun i => pt (between (ρ (k + 3 * i)) lo.x hi.x) (between (ρ (k + 3 * i + 1)) lo.y hi.y) (between (ρ (k + 3 * i + 2)) lo.z hi.z)

/-- `randomCenterInBox`, geom_util.py:447-466 -/
def randomCenter (ρ : ℕ → ℝ) (k : ℕ) (lo hi : V4) (r : ℝ) : V4 :=
  pt (between (ρ k) (lo.x + r) (hi.x - r)) (between (ρ (k + 1)) (lo.y + r) (hi.y - r)) (between (ρ (k + 2)) (lo.z + r) (hi.z - r))

/-- `randomArc`, geom_util.py:469-485; `arc` raises for a negative radius, geom.py:2311-2312 -/
noncomputable def randomArc (ρ : ℕ → ℝ) (k : ℕ) (lo hi : V4) (minr maxr : ℝ) (circle : Bool) : Except Err Arc :=
  let r := ρ k * (maxr - minr) + minr
  if r < 0 then .error .valueError
  else if circle then .ok ⟨randomCenter ρ (k + 1) lo hi r, r, 0, 360, false, none⟩
  else .ok ⟨randomCenter ρ (k + 3) lo hi r, r, ρ (k + 1) * 360, ρ (k + 1) * 360 + ρ (k + 2) * 360, false, none⟩

/-- the angle before number `i`, geom_util.py:498-501: the sum of the draws so far -/
def angleSum (ρ : ℕ → ℝ) (k : ℕ) : ℕ → ℝ
  | 0 => 0
  | i + 1 => angleSum ρ k i + ρ (k + 2 * i)

/-- one corner, geom_util.py:510-513; the radius from geom_util.py:503 -/
noncomputable def polyCorner (ρ : ℕ → ℝ) (k n : ℕ) (minr maxr : ℝ) (x : V4) (i : ℕ) : V4 :=
  let sf := 2 * π / angleSum ρ k n
  let rad := ρ (k + 2 * i + 1) * (maxr - minr) + minr
  add ⟨cos (angleSum ρ k i * sf) * rad, sin (angleSum ρ k i * sf) * rad, 0, 1⟩ x

/-- `randomPoly`, geom_util.py:487-515 -/
noncomputable def randomPoly (ρ : ℕ → ℝ) (k : ℕ) (lo hi : V4) (n : ℕ) (minr maxr : ℝ) : Except Err (List V4) :=
  if angleSum ρ k n = 0 then .error .zeroDivision
  else
    let x := randomCenter ρ (k + 2 * n) lo hi maxr
    .ok ((List.range n).map (polyCorner ρ k n minr maxr x) ++ [polyCorner ρ k n minr maxr x 0])

/-! ## points, centres and arcs -/

theorem between_mem {t lo hi : ℝ} (h : lo ≤ hi) (ht : 0 ≤ t ∧ t < 1) : lo ≤ between t lo hi ∧ between t lo hi ≤ hi := by
  unfold between
  constructor <;> nlinarith [ht.1, ht.2]

/-- `randomPoints` gives the number of points asked for, all in the box, whatever the random numbers are. -/
theorem C283_points (ρ : ℕ → ℝ) (hρ : Unit01 ρ) (k : ℕ) (lo hi : V4) (hx : lo.x ≤ hi.x) (hy : lo.y ≤ hi.y) (hz : lo.z ≤ hi.z) (n : ℕ) :
    (randomPoints ρ k lo hi n).length = n ∧ ∀ p ∈ randomPoints ρ k lo hi n, InBox lo hi p := by
  refine ⟨by simp [randomPoints], fun p hp => ?_⟩
  obtain ⟨i, -, rfl⟩ := List.mem_map.1 hp
  obtain ⟨a, b⟩ := between_mem hx (hρ (k + 3 * i))
  obtain ⟨c, d⟩ := between_mem hy (hρ (k + 3 * i + 1))
  obtain ⟨e, f⟩ := between_mem hz (hρ (k + 3 * i + 2))
  exact ⟨a, b, c, d, e, f⟩

theorem center_spec {ρ : ℕ → ℝ} (hρ : Unit01 ρ) (k : ℕ) {lo hi : V4} {r : ℝ} (hx : 2 * r ≤ hi.x - lo.x) (hy : 2 * r ≤ hi.y - lo.y) (hz : 2 * r ≤ hi.z - lo.z) :
    let c := randomCenter ρ k lo hi r
    (lo.x ≤ c.x - r ∧ c.x + r ≤ hi.x) ∧ (lo.y ≤ c.y - r ∧ c.y + r ≤ hi.y) ∧ (lo.z ≤ c.z - r ∧ c.z + r ≤ hi.z) := by
  intro c
  obtain ⟨a1, a2⟩ := between_mem (t := ρ k) (lo := lo.x + r) (hi := hi.x - r) (by linarith) (hρ k)
  obtain ⟨b1, b2⟩ := between_mem (t := ρ (k + 1)) (lo := lo.y + r) (hi := hi.y - r) (by linarith) (hρ _)
  obtain ⟨c1, c2⟩ := between_mem (t := ρ (k + 2)) (lo := lo.z + r) (hi := hi.z - r) (by linarith) (hρ _)
  refine ⟨⟨?_, ?_⟩, ⟨?_, ?_⟩, ?_, ?_⟩ <;> simp only [c, randomCenter, pt] <;> linarith

/-- In a box at least `2 * maxr` wide, deep and high, `randomArc` gives an arc or circle with a radius in the range, and every sample of it is in the box. -/
theorem C283_arc_partial (ρ : ℕ → ℝ) (hρ : Unit01 ρ) (k : ℕ) (lo hi : V4) (minr maxr : ℝ) (h0 : 0 ≤ minr) (hm : minr ≤ maxr)
    (hx : 2 * maxr ≤ hi.x - lo.x) (hy : 2 * maxr ≤ hi.y - lo.y) (hz : 2 * maxr ≤ hi.z - lo.z) (circle : Bool) :
    ∃ a, randomArc ρ k lo hi minr maxr circle = .ok a ∧ minr ≤ a.r ∧ a.r ≤ maxr ∧ (circle = true → iscircle a) ∧
      ∀ u, ∃ p, samplearc a u = .ok p ∧ InBox lo hi p := by
  obtain ⟨r1, r2⟩ := between_mem hm (hρ k)
  have key : ∀ (j : ℕ) (s e : ℝ) (u : ℝ), ∃ p, samplearc ⟨randomCenter ρ j lo hi (between (ρ k) minr maxr), between (ρ k) minr maxr, s, e, false, none⟩ u = .ok p ∧ InBox lo hi p := by
    intro j s e u
    refine ⟨_, by unfold samplearc; rw [if_pos (by unfold normalOk; simp)], ?_⟩
    obtain ⟨⟨a1, a2⟩, ⟨b1, b2⟩, c1, c2⟩ := center_spec hρ j (lo := lo) (hi := hi) (r := between (ρ k) minr maxr) (by linarith) (by linarith) (by linarith)
    obtain ⟨e1, e2, e3⟩ := circlePoint_spec (randomCenter ρ j lo hi (between (ρ k) minr maxr)) (between (ρ k) minr maxr)
      (sampleAngle ⟨randomCenter ρ j lo hi (between (ρ k) minr maxr), between (ρ k) minr maxr, s, e, false, none⟩ u)
    dsimp only
    generalize hC : circlePoint _ _ _ = q at *
    generalize sampleAngle _ _ = θ at *
    have hr : 0 ≤ between (ρ k) minr maxr := by linarith
    have c1' := cos_le_one (deg θ)
    have c2' := neg_one_le_cos (deg θ)
    have s1' := sin_le_one (deg θ)
    have s2' := neg_one_le_sin (deg θ)
    unfold InBox
    rw [e1, e2, e3]
    refine ⟨?_, ?_, ?_, ?_, ?_, ?_⟩ <;> nlinarith
  have hn : ¬ ρ k * (maxr - minr) + minr < 0 := not_lt.2 (le_trans h0 r1)
  unfold randomArc
  dsimp only
  rw [if_neg hn]
  cases circle with
  | true => exact ⟨_, rfl, r1, r2, fun _ => ⟨rfl, rfl⟩, key _ _ _⟩
  | false => exact ⟨_, rfl, r1, r2, by simp, key _ _ _⟩

/-- **C283 fails** in a flat box: unless the random number for z is exactly 1/2, the centre and every sample of the arc are off the plane of the box. -/
theorem C283_flat_box (ρ : ℕ → ℝ) (k : ℕ) (lo hi : V4) (r : ℝ) (hr : 0 < r) (hz : lo.z = hi.z) (h : ρ (k + 2) ≠ 1 / 2) :
    ¬ InBox lo hi (randomCenter ρ k lo hi r) := by
  rintro ⟨-, -, -, -, h1, h2⟩
  apply h
  simp only [randomCenter, pt, between] at h1 h2
  rw [hz] at h1 h2
  have : (1 - 2 * ρ (k + 2)) * r = 0 := by linarith
  rcases mul_eq_zero.1 this with h | h
  · linarith
  · linarith

/-! ## polygons -/

theorem angleSum_nonneg {ρ : ℕ → ℝ} (hρ : Unit01 ρ) (k : ℕ) : ∀ n, 0 ≤ angleSum ρ k n
  | 0 => le_rfl
  | n + 1 => add_nonneg (angleSum_nonneg hρ k n) (hρ _).1

theorem angleSum_pos {ρ : ℕ → ℝ} (hρ : Unit01 ρ) (k : ℕ) : ∀ n i, i < n → 0 < ρ (k + 2 * i) → 0 < angleSum ρ k n
  | n + 1, i, hi, h => by
    rcases Nat.lt_succ_iff_lt_or_eq.1 hi with h' | h'
    · exact add_pos_of_pos_of_nonneg (angleSum_pos hρ k n i h' h) (hρ _).1
    · subst h'; exact add_pos_of_nonneg_of_pos (angleSum_nonneg hρ k i) h

/-- In a box at least `2 * maxr` wide, deep and high, and unless all angles drawn are 0, `randomPoly` gives a closed polygon in the box; its corners have distances from a centre in the range
asked for; and seen from there each side turns counterclockwise if the angle drawn is positive and less than half of the sum. -/
theorem C284_poly_partial (ρ : ℕ → ℝ) (hρ : Unit01 ρ) (k : ℕ) (lo hi : V4) (n : ℕ) (hn : ∃ i < n, 0 < ρ (k + 2 * i)) (minr maxr : ℝ) (h0 : 0 ≤ minr) (hm : minr ≤ maxr)
    (hx : 2 * maxr ≤ hi.x - lo.x) (hy : 2 * maxr ≤ hi.y - lo.y) (hz : 2 * maxr ≤ hi.z - lo.z) :
    ∃ (x : V4) (ps : List V4), randomPoly ρ k lo hi n minr maxr = .ok ps ∧ ps.length = n + 1 ∧ ps.getLast? = ps.head? ∧ (∀ p ∈ ps, InBox lo hi p) ∧
      (∀ p ∈ ps, p.z = x.z ∧ minr ≤ Geom.dist p x ∧ Geom.dist p x ≤ maxr) ∧
      ∀ (i : ℕ) (p q : V4), i < n → ps[i]? = some p → ps[i + 1]? = some q → 0 < minr → 0 < ρ (k + 2 * i) → 2 * ρ (k + 2 * i) < angleSum ρ k n →
        0 < (p.x - x.x) * (q.y - x.y) - (q.x - x.x) * (p.y - x.y) := by
  obtain ⟨j, hj, hj'⟩ := hn
  have hS := angleSum_pos hρ k n j hj hj'
  set x := randomCenter ρ (k + 2 * n) lo hi maxr with hxdef
  set C := polyCorner ρ k n minr maxr x with hC
  have hn0 : 0 < n := by omega
  obtain ⟨⟨a1, a2⟩, ⟨b1, b2⟩, c1, c2⟩ := center_spec hρ (k + 2 * n) (lo := lo) (hi := hi) (r := maxr) hx hy hz
  rw [← hxdef] at a1 a2 b1 b2 c1 c2
  have hcorner : ∀ i, ∃ (R θ : ℝ), minr ≤ R ∧ R ≤ maxr ∧ θ = angleSum ρ k i * (2 * π / angleSum ρ k n) ∧ C i = ⟨cos θ * R + x.x, sin θ * R + x.y, 0 + x.z, 1⟩ := by
    intro i
    obtain ⟨r1, r2⟩ := between_mem hm (hρ (k + 2 * i + 1))
    exact ⟨_, _, r1, r2, rfl, rfl⟩
  have hmem : ∀ p ∈ (List.range n).map C ++ [C 0], ∃ i, p = C i := by
    intro p hp
    rcases List.mem_append.1 hp with hp | hp
    · obtain ⟨i, -, rfl⟩ := List.mem_map.1 hp; exact ⟨i, rfl⟩
    · exact ⟨0, List.mem_singleton.1 hp⟩
  refine ⟨x, (List.range n).map C ++ [C 0], ?_, by simp, ?_, ?_, ?_, ?_⟩
  · unfold randomPoly
    rw [if_neg hS.ne']
  · obtain ⟨m, rfl⟩ := Nat.exists_eq_succ_of_ne_zero hn0.ne'
    rw [List.getLast?_append, List.range_succ_eq_map]
    simp
  · intro p hp
    obtain ⟨i, rfl⟩ := hmem p hp
    obtain ⟨R, θ, r1, r2, -, hi⟩ := hcorner i
    rw [hi]
    have := cos_le_one θ
    have := neg_one_le_cos θ
    have := sin_le_one θ
    have := neg_one_le_sin θ
    unfold InBox
    refine ⟨?_, ?_, ?_, ?_, ?_, ?_⟩ <;> dsimp only <;> nlinarith
  · intro p hp
    obtain ⟨i, rfl⟩ := hmem p hp
    obtain ⟨R, θ, r1, r2, -, hi⟩ := hcorner i
    rw [hi]
    have hd : Geom.dist ⟨cos θ * R + x.x, sin θ * R + x.y, 0 + x.z, 1⟩ x = R := by
      unfold Geom.dist Geom.mag Geom.sub
      have : (cos θ * R + x.x - x.x) * (cos θ * R + x.x - x.x) + (sin θ * R + x.y - x.y) * (sin θ * R + x.y - x.y) + (0 + x.z - x.z) * (0 + x.z - x.z) = R ^ 2 := by
        linear_combination R ^ 2 * sin_sq_add_cos_sq θ
      dsimp only
      rw [this, sqrt_sq (by linarith)]
    rw [hd]
    exact ⟨by simp, r1, r2⟩
  · intro i p q hi hp hq hpos hρ1 hρ2
    rw [List.getElem?_append_left (by simpa using hi), List.getElem?_map, List.getElem?_range hi] at hp
    simp only [Option.map_some, Option.some.injEq] at hp
    have hq' : ∃ (R θ : ℝ), minr ≤ R ∧ R ≤ maxr ∧ q = ⟨cos θ * R + x.x, sin θ * R + x.y, 0 + x.z, 1⟩ ∧
        cos θ = cos (angleSum ρ k (i + 1) * (2 * π / angleSum ρ k n)) ∧ sin θ = sin (angleSum ρ k (i + 1) * (2 * π / angleSum ρ k n)) := by
      rcases Nat.lt_or_ge (i + 1) n with h | h
      · rw [List.getElem?_append_left (by simpa using h), List.getElem?_map, List.getElem?_range h] at hq
        simp only [Option.map_some, Option.some.injEq] at hq
        obtain ⟨R, θ, r1, r2, h1, h2⟩ := hcorner (i + 1)
        exact ⟨R, θ, r1, r2, by rw [← hq, h2], by rw [h1], by rw [h1]⟩
      · have hin : i + 1 = n := by omega
        rw [List.getElem?_append_right (by simp; omega)] at hq
        simp only [List.length_map, List.length_range, hin, Nat.sub_self, List.getElem?_cons_zero, Option.some.injEq] at hq
        obtain ⟨R, θ, r1, r2, h1, h2⟩ := hcorner 0
        have e : angleSum ρ k n * (2 * π / angleSum ρ k n) = 2 * π := by field_simp
        refine ⟨R, θ, r1, r2, by rw [← hq, h2], ?_, ?_⟩ <;> rw [h1, hin, e] <;> simp [angleSum]
    obtain ⟨R, θ, r1, r2, h1, h2⟩ := hcorner i
    obtain ⟨R', θ', s1, s2, t1, t2, t3⟩ := hq'
    rw [← hp, h2, t1]
    dsimp only
    rw [t2, t3, h1, angleSum]
    set A := angleSum ρ k i
    set S := angleSum ρ k n
    have hg : 0 < sin (ρ (k + 2 * i) * (2 * π / S)) := by
      apply sin_pos_of_pos_of_lt_pi
      · positivity
      · rw [mul_div_assoc', div_lt_iff₀ hS]
        nlinarith [pi_pos]
    have hs := sin_sub ((A + ρ (k + 2 * i)) * (2 * π / S)) (A * (2 * π / S))
    rw [show (A + ρ (k + 2 * i)) * (2 * π / S) - A * (2 * π / S) = ρ (k + 2 * i) * (2 * π / S) by ring] at hs
    have hRR : 0 < R * R' := mul_pos (by linarith) (by linarith)
    have : (cos (A * (2 * π / S)) * R + x.x - x.x) * (sin ((A + ρ (k + 2 * i)) * (2 * π / S)) * R' + x.y - x.y) -
        (cos ((A + ρ (k + 2 * i)) * (2 * π / S)) * R' + x.x - x.x) * (sin (A * (2 * π / S)) * R + x.y - x.y) =
        R * R' * sin (ρ (k + 2 * i) * (2 * π / S)) := by rw [hs]; ring
    rw [this]
    positivity

/-- **C284 fails** if all the angles drawn are 0, or without corners: `ZeroDivisionError` -/
theorem C284_zero_angles (ρ : ℕ → ℝ) (k : ℕ) (lo hi : V4) (n : ℕ) (minr maxr : ℝ) (h : ∀ i < n, ρ (k + 2 * i) = 0) :
    randomPoly ρ k lo hi n minr maxr = .error .zeroDivision := by
  have : ∀ m ≤ n, angleSum ρ k m = 0 := by
    intro m
    induction m with
    | zero => intro; rfl
    | succ m ih => intro hm; rw [angleSum, ih (by omega), h m (by omega), add_zero]
  unfold randomPoly
  rw [if_pos (this n le_rfl)]

/-- draws that make a polygon cross itself: angles 1/10, 1/10, 1/10, 9/10, radii 9, 9, 1, 9 -/
noncomputable def badDraws : ℕ → ℝ
  | 0 => 1 / 10
  | 1 => 8 / 9
  | 2 => 1 / 10
  | 3 => 8 / 9
  | 4 => 1 / 10
  | 5 => 0
  | 6 => 9 / 10
  | 7 => 8 / 9
  | _ => 0

/-- the point at `t` between `a` and `b` -/
def lerp (a b : V4) (t : ℝ) : ℝ × ℝ × ℝ := (a.x + t * (b.x - a.x), a.y + t * (b.y - a.y), a.z + t * (b.z - a.z))

/-- **C284 fails**: `randomPoly` does not always give a simple polygon. With these numbers, in a box from -10 to 10 with radii from 1 to 10, the second and the last side of a polygon with four
corners cross in their interiors. -/
theorem C284_crosses_itself : Unit01 badDraws ∧ ∃ p0 p1 p2 p3, randomPoly badDraws 0 ⟨-10, -10, -10, 1⟩ ⟨10, 10, 10, 1⟩ 4 1 10 = .ok [p0, p1, p2, p3, p0] ∧
    ∃ s t, 0 < s ∧ s < 1 ∧ 0 < t ∧ t < 1 ∧ lerp p1 p2 t = lerp p3 p0 s := by
  have hS : angleSum badDraws 0 4 = 6 / 5 := by simp [angleSum, badDraws]; norm_num
  have hx : randomCenter badDraws (0 + 2 * 4) ⟨-10, -10, -10, 1⟩ ⟨10, 10, 10, 1⟩ 10 = pt 0 0 := by
    simp [randomCenter, badDraws, between]
  have q0 : polyCorner badDraws 0 4 1 10 (pt 0 0) 0 = pt 9 0 := by
    simp [polyCorner, angleSum, badDraws, add, pt]; norm_num
  have q1 : polyCorner badDraws 0 4 1 10 (pt 0 0) 1 = pt (√3 / 2 * 9) (1 / 2 * 9) := by
    unfold polyCorner
    dsimp only
    rw [hS, show angleSum badDraws 0 1 * (2 * π / (6 / 5)) = π / 6 by simp [angleSum, badDraws]; ring, cos_pi_div_six, sin_pi_div_six]
    simp [badDraws, add, pt]; norm_num
  have q2 : polyCorner badDraws 0 4 1 10 (pt 0 0) 2 = pt (1 / 2) (√3 / 2) := by
    unfold polyCorner
    dsimp only
    rw [hS, show angleSum badDraws 0 2 * (2 * π / (6 / 5)) = π / 3 by simp [angleSum, badDraws]; ring, cos_pi_div_three, sin_pi_div_three]
    simp [badDraws, add, pt]
  have q3 : polyCorner badDraws 0 4 1 10 (pt 0 0) 3 = pt 0 9 := by
    unfold polyCorner
    dsimp only
    rw [hS, show angleSum badDraws 0 3 * (2 * π / (6 / 5)) = π / 2 by simp [angleSum, badDraws]; ring, cos_pi_div_two, sin_pi_div_two]
    simp [badDraws, add, pt]; norm_num
  have h3 : √3 * √3 = 3 := mul_self_sqrt (by norm_num)
  have hlo : (1.7 : ℝ) < √3 := by rw [lt_sqrt (by norm_num)]; norm_num
  have hhi : √3 < (1.8 : ℝ) := by rw [sqrt_lt' (by norm_num)]; norm_num
  refine ⟨?_, pt 9 0, pt (√3 / 2 * 9) (1 / 2 * 9), pt (1 / 2) (√3 / 2), pt 0 9, ?_, ?_⟩
  · intro k
    unfold badDraws
    split <;> norm_num
  · unfold randomPoly
    rw [if_neg (by rw [hS]; norm_num), hx]
    simp only [show List.range 4 = [0, 1, 2, 3] by decide, List.map_cons, List.map_nil, q0, q1, q2, q3, List.cons_append, List.nil_append]
  · refine ⟨(√3 / 2 * 9 + 9 * (2 - √3) / 8 * (1 / 2 - √3 / 2 * 9)) / 9, 9 * (2 - √3) / 8, ?_, ?_, ?_, ?_, ?_⟩
    · have : 0 < √3 / 2 * 9 + 9 * (2 - √3) / 8 * (1 / 2 - √3 / 2 * 9) := by nlinarith
      positivity
    · rw [div_lt_one (by norm_num)]; nlinarith
    · nlinarith
    · nlinarith
    · unfold lerp pt
      refine Prod.ext ?_ (Prod.ext ?_ ?_) <;> dsimp only
      · ring
      · linear_combination (9 / 2) * h3
      · ring

/-- a box and draws that meet the hypotheses -/
example : Unit01 badDraws ∧ (∃ i < 4, 0 < badDraws (0 + 2 * i)) ∧ (2 : ℝ) * 10 ≤ (⟨10, 10, 10, 1⟩ : V4).x - (⟨-10, -10, -10, 1⟩ : V4).x := by
  refine ⟨?_, ⟨0, by norm_num, by norm_num [badDraws]⟩, by norm_num⟩
  intro k
  unfold badDraws
  split <;> norm_num

end Verif.Loops
