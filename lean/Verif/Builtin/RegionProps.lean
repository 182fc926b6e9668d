import Verif.Builtin.Region
import Mathlib.Tactic.Linarith
import Mathlib.Tactic.Ring
import Mathlib.Analysis.SpecialFunctions.Trigonometric.Basic

/-!
# C327, C328: area and perimeter of regions
-/

namespace Verif.Builtin
open Verif.Geom

/-! ## The sum around a closed path -/

/-- the term of a step -/
def det (p q : V4) : ℝ := p.x * q.y - q.x * p.y

/-- the sum from `p` through a list to `q` -/
def path (p : V4) : List V4 → V4 → ℝ
  | [], q => det p q
  | a :: l, q => det p a + path a l q

theorem zip_path (p : V4) (l : List V4) (q : V4) :
    (List.zipWith (fun p q : V4 => p.x * q.y - q.x * p.y) (p :: l) (l ++ [q])).sum = path p l q := by
  induction l generalizing p with
  | nil => simp [path, det]
  | cons a l ih => rw [List.cons_append, List.zipWith_cons_cons, List.sum_cons, ih a]; rfl

theorem shoelace_cons (p : V4) (l : List V4) : shoelace (p :: l) = path p l p := by
  unfold shoelace
  rw [List.rotate_cons_succ, List.rotate_zero, zip_path]

theorem path_append (p a q : V4) (l m : List V4) : path p (l ++ a :: m) q = path p l a + path a m q := by
  induction l generalizing p with
  | nil => rfl
  | cons b l ih => simp only [List.cons_append, path, ih]; ring

theorem path_reverse (p q : V4) (l : List V4) : path q l.reverse p = - path p l q := by
  induction l generalizing p with
  | nil => simp [path, det]
  | cons a l ih =>
    rw [List.reverse_cons, path_append, ih a]
    simp only [path, det]; ring

theorem shoelace_rotate_one (l : List V4) : shoelace (l.rotate 1) = shoelace l := by
  cases l with
  | nil => rfl
  | cons p l =>
    rw [List.rotate_cons_succ, List.rotate_zero]
    cases l with
    | nil => rfl
    | cons a l =>
      rw [List.cons_append, shoelace_cons, shoelace_cons, path_append]
      simp only [path]; ring

/-- C327: the corner the boundary starts with does not matter. -/
theorem shoelace_rotate (l : List V4) (k : Nat) : shoelace (l.rotate k) = shoelace l := by
  induction k with
  | zero => simp
  | succ k ih => rw [← List.rotate_rotate, shoelace_rotate_one, ih]

theorem shoelace_reverse (l : List V4) : shoelace l.reverse = - shoelace l := by
  cases l with
  | nil => simp [shoelace]
  | cons p l =>
    have : (p :: l).reverse = (p :: l.reverse).rotate 1 := by rw [List.rotate_cons_succ, List.rotate_zero, List.reverse_cons]
    rw [this, shoelace_rotate_one, shoelace_cons, shoelace_cons, path_reverse]

/-- an affine map of the plane -/
structure Aff where
  a : ℝ
  b : ℝ
  c : ℝ
  d : ℝ
  tx : ℝ
  ty : ℝ

/-- its effect on a point -/
def Aff.app (A : Aff) (p : V4) : V4 := ⟨A.a * p.x + A.b * p.y + A.tx, A.c * p.x + A.d * p.y + A.ty, p.z, p.w⟩

theorem path_affine (A : Aff) (p q : V4) (l : List V4) :
    path (A.app p) (l.map A.app) (A.app q) = (A.a * A.d - A.b * A.c) * path p l q + (A.tx * ((A.app q).y - (A.app p).y) - A.ty * ((A.app q).x - (A.app p).x)) := by
  induction l generalizing p with
  | nil => simp only [List.map_nil, path, det, Aff.app]; ring
  | cons b l ih =>
    simp only [List.map_cons, path]
    rw [ih]
    simp only [det, Aff.app]; ring

theorem shoelace_affine (A : Aff) (l : List V4) : shoelace (l.map A.app) = (A.a * A.d - A.b * A.c) * shoelace l := by
  cases l with
  | nil => simp [shoelace]
  | cons p l => rw [List.map_cons, shoelace_cons, shoelace_cons, path_affine]; ring

/-! ## Regions of lines -/

/-- the region bounded by the lines from each of the points to the next and back to the first: line number `i` starts at point number `i` and ends at the next -/
def Bounded (f : Fig) (ps : List V4) : Prop :=
  ∃ ls : List Line, f = .list (ls.map .line) ∧ ls.length = ps.length ∧
    ∀ i (h : i < ls.length), ps[i]? = some ls[i].a ∧ ps[(i + 1) % ps.length]? = some ls[i].b

theorem bounded_loop (ps : List V4) : Bounded (.list (loopLines ps)) ps := by
  refine ⟨List.zipWith (fun a b => ⟨a, b⟩) ps (ps.rotate 1), ?_, by simp, fun i h => ?_⟩
  · simp [loopLines, List.map_zipWith]
  · have hi : i < ps.length := by simpa using h
    have hm : (i + 1) % ps.length < ps.length := Nat.mod_lt _ (by omega)
    simp [List.getElem_rotate, hi, hm]

theorem bounded_starts (f : Fig) (ps : List V4) (h : Bounded f ps) : areaPoints f = ps := by
  obtain ⟨ls, rfl, hl, hi⟩ := h
  have : areaPoints (.list (ls.map .line)) = ls.map Line.a := by
    show (ls.map Fig.line).filterMap startOf = _
    rw [List.filterMap_map]
    induction ls with
    | nil => rfl
    | cons l ls _ => simp [Function.comp_def, startOf]
  rw [this]
  refine List.ext_getElem (by simp [hl]) fun i h1 h2 => ?_
  have := (hi i (by simpa using h1)).1
  rw [List.getElem?_eq_getElem h2] at this
  simpa using (Option.some.inj this).symm

/-- C327: the builtins make regions bounded by the lines through their corners: the rectangle about its centre, the regular polygon and the disk with corners on the circle, the polygon through
the points given (in the plane), if there are at least three. -/
theorem C327_regions (w h cx cy r : ℝ) (n : Nat) (c : V4) (ps : List V4) :
    Bounded (rectangleB w h cx cy) [pt (cx - w / 2) (cy - h / 2), pt (cx + w / 2) (cy - h / 2), pt (cx + w / 2) (cy + h / 2), pt (cx - w / 2) (cy + h / 2)] ∧
    Bounded (regularB n r cx cy) ((List.range n).map fun i : Nat => pt (cx + r * Real.cos (2 * Real.pi * i / n)) (cy + r * Real.sin (2 * Real.pi * i / n))) ∧
    diskB c r = regularB 64 r c.x c.y ∧
    (ps.length < 3 → polygonB ps = .error .valueError) ∧
    (3 ≤ ps.length → ∃ f, polygonB ps = .ok f ∧ Bounded f (ps.map fun p => pt p.x p.y)) := by
  refine ⟨bounded_loop _, bounded_loop _, rfl, fun h => if_pos h, fun h => ⟨_, if_neg (by omega), bounded_loop _⟩⟩

/-- the triangle through three points, as a region -/
def triangle (p a b : V4) : Fig := .list [.line ⟨p, a⟩, .line ⟨a, b⟩, .line ⟨b, p⟩]

/-- twice the area of the triangle, with the sign of its sense of rotation: half the product of base and height -/
def tri (p a b : V4) : ℝ := (a.x - p.x) * (b.y - p.y) - (b.x - p.x) * (a.y - p.y)

/-- the triangles the diagonals from `p` cut a polygon into -/
def fan (p : V4) : List V4 → List (V4 × V4)
  | a :: b :: l => (a, b) :: fan p (b :: l)
  | _ => []

theorem path_fan (p a : V4) (l : List V4) : path a l p = det a p + ((fan p (a :: l)).map fun ab => tri p ab.1 ab.2).sum := by
  induction l generalizing a with
  | nil => simp [path, fan]
  | cons b l ih =>
    simp only [path, fan, List.map_cons, List.sum_cons, ih b]
    simp only [det, tri]; ring

theorem shoelace_fan (p : V4) (l : List V4) : shoelace (p :: l) = ((fan p l).map fun ab => tri p ab.1 ab.2).sum := by
  rw [shoelace_cons]
  cases l with
  | nil => simp [path, det, fan]
  | cons a l => rw [path, path_fan]; simp only [det]; ring

/-- C327: the area of a triangle is half the product of the length of a side and the height over it. -/
theorem C327_triangle (p a b : V4) : areaB (triangle p a b) = |tri p a b| / 2 ∧
    (p.y = a.y → areaB (triangle p a b) = |a.x - p.x| * |b.y - p.y| / 2) := by
  have h : areaB (triangle p a b) = |tri p a b| / 2 := by
    have : areaPoints (triangle p a b) = [p, a, b] := rfl
    unfold areaB
    rw [this, if_neg (by simp), shoelace_fan]
    simp [fan]
  refine ⟨h, fun e => ?_⟩
  rw [h, ← abs_mul]
  congr 2
  unfold tri; rw [e]; ring

/-- C327 (partial): the area of a region bounded by lines, if convex, that is if all triangles with a corner in the first point turn the same way, is the sum of the areas of these triangles.
Missing: regions with arcs and with holes, for which it is wrong. -/
theorem C327_convex_partial (f : Fig) (p : V4) (l : List V4) (hf : Bounded f (p :: l)) (h : ∀ ab ∈ fan p l, 0 ≤ tri p ab.1 ab.2) :
    areaB f = ((fan p l).map fun ab => areaB (triangle p ab.1 ab.2)).sum := by
  have e : ((fan p l).map fun ab => areaB (triangle p ab.1 ab.2)).sum = ((fan p l).map fun ab => tri p ab.1 ab.2).sum / 2 := by
    have : ∀ ts : List (V4 × V4), (∀ ab ∈ ts, 0 ≤ tri p ab.1 ab.2) →
        (ts.map fun ab => areaB (triangle p ab.1 ab.2)).sum = (ts.map fun ab => tri p ab.1 ab.2).sum / 2 := by
      intro ts
      induction ts with
      | nil => simp
      | cons t ts ih =>
        intro h
        rw [List.map_cons, List.sum_cons, ih fun ab hab => h ab (List.mem_cons_of_mem _ hab), (C327_triangle _ _ _).1,
          abs_of_nonneg (h t (by simp)), List.map_cons, List.sum_cons]
        ring
    exact this _ h
  have hn : 0 ≤ ((fan p l).map fun ab => tri p ab.1 ab.2).sum := List.sum_nonneg fun x hx => by
    obtain ⟨ab, hab, rfl⟩ := List.mem_map.1 hx
    exact h ab hab
  rw [e]
  unfold areaB
  rw [bounded_starts f _ hf, shoelace_fan, abs_of_nonneg hn]
  split_ifs with hl
  · match l, hl with
    | [], _ => simp [fan]
    | [a], _ => simp [fan]
  · rfl

/-- C327: cutting a polygon along a diagonal, the signed areas add up. -/
theorem C327_cut (p q : V4) (l m : List V4) : shoelace (p :: (l ++ q :: m)) = shoelace (p :: (l ++ [q])) + shoelace (p :: q :: m) := by
  simp only [shoelace_cons, path_append, path, det]; ring

/-- C327: the area does not depend on the starting corner nor on the sense of rotation; an affine map multiplies it by the size of its determinant, so that translations, rotations and mirrorings
leave it alone and scaling by k multiplies it by k². -/
theorem C327_invariant (A : Aff) (f g rot rev : Fig) (ps : List V4) (k : Nat) (hf : Bounded f ps) (hg : Bounded g (ps.map A.app))
    (hrot : Bounded rot (ps.rotate k)) (hrev : Bounded rev ps.reverse) :
    areaB rot = areaB f ∧ areaB rev = areaB f ∧ areaB g = |A.a * A.d - A.b * A.c| * areaB f := by
  unfold areaB
  rw [bounded_starts _ _ hf, bounded_starts _ _ hg, bounded_starts _ _ hrot, bounded_starts _ _ hrev, shoelace_rotate, shoelace_reverse, shoelace_affine, abs_neg, abs_mul]
  simp only [List.length_rotate, List.length_reverse, List.length_map]
  refine ⟨by trivial, by trivial, ?_⟩
  split_ifs
  · simp
  · ring

/-- C327: a rectangle has area width times height, wherever its centre is. -/
theorem C327_rectangle (w h cx cy : ℝ) : areaB (rectangleB w h cx cy) = |w * h| := by
  have := bounded_starts _ _ (C327_regions w h cx cy 0 0 (pt 0 0) []).1
  unfold areaB
  rw [this, if_neg (by simp), shoelace_fan]
  simp only [fan, List.map_cons, List.map_nil, List.sum_cons, List.sum_nil, tri, pt]
  rw [show (cx + w / 2 - (cx - w / 2)) * (cy + h / 2 - (cy - h / 2)) - (cx + w / 2 - (cx - w / 2)) * (cy - h / 2 - (cy - h / 2)) +
    ((cx + w / 2 - (cx - w / 2)) * (cy + h / 2 - (cy - h / 2)) - (cx - w / 2 - (cx - w / 2)) * (cy + h / 2 - (cy - h / 2)) + 0) = 2 * (w * h) by ring,
    abs_mul, abs_of_pos (by norm_num : (0 : ℝ) < 2)]
  ring

theorem rotate_range {α : Type} (n : Nat) (P : Nat → α) (h : P n = P 0) : ((List.range n).map P).rotate 1 = (List.range n).map fun i => P (i + 1) := by
  refine List.ext_getElem (by simp) fun i h1 h2 => ?_
  have hi : i < n := by simpa using h1
  simp only [List.getElem_rotate, List.length_map, List.length_range, List.getElem_map, List.getElem_range]
  by_cases e : i + 1 = n
  · rw [e, Nat.mod_self, h]
  · rw [Nat.mod_eq_of_lt (by omega)]

theorem zipWith_range {α β : Type} (n : Nat) (P Q : Nat → α) (f : α → α → β) : List.zipWith f ((List.range n).map P) ((List.range n).map Q) = (List.range n).map fun i => f (P i) (Q i) := by
  rw [List.zipWith_map]; simp

theorem corner_period (n : Nat) (hn : 0 < n) (r cx cy : ℝ) : corner n r cx cy n = corner n r cx cy 0 := by
  have : 2 * Real.pi * (n : ℝ) / n = 2 * Real.pi := by field_simp
  unfold corner
  rw [this]; simp

theorem sum_const (n : Nat) (c : ℝ) (f : Nat → ℝ) (h : ∀ i, f i = c) : ((List.range n).map f).sum = n * c := by
  induction n with
  | zero => simp
  | succ n ih => rw [List.range_succ, List.map_append, List.sum_append, ih, List.map_singleton, List.sum_singleton, h]; push_cast; ring

/-- C327: a regular polygon has area n/2 r² sin(2π/n); the disk is one of 64 sides. -/
theorem C327_regular (n : Nat) (hn : 3 ≤ n) (r cx cy : ℝ) : areaB (regularB n r cx cy) = n / 2 * r ^ 2 * Real.sin (2 * Real.pi / n) := by
  have hb := bounded_starts _ _ (bounded_loop ((List.range n).map (corner n r cx cy)))
  have hn0 : (0 : ℝ) < n := by exact_mod_cast (by omega : 0 < n)
  have e : shoelace ((List.range n).map (corner n r cx cy)) = n * (r ^ 2 * Real.sin (2 * Real.pi / n)) := by
    have ht : (List.range n).map (corner n r cx cy) = ((List.range n).map (corner n r 0 0)).map (Aff.app ⟨1, 0, 0, 1, cx, cy⟩) := by
      rw [List.map_map]
      refine List.map_congr_left fun i _ => ?_
      simp only [Function.comp_apply, corner, pt, Aff.app, V4.mk.injEq, and_true]
      constructor <;> ring
    rw [ht, shoelace_affine]
    unfold shoelace
    rw [rotate_range n _ (corner_period n (by omega) r 0 0), zipWith_range, sum_const n (r ^ 2 * Real.sin (2 * Real.pi / n))]
    · ring
    · intro i
      have : 2 * Real.pi / (n : ℝ) = 2 * Real.pi * ((i + 1 : Nat) : ℝ) / n - 2 * Real.pi * (i : ℝ) / n := by push_cast; field_simp; ring
      rw [this, Real.sin_sub]
      simp only [corner, pt]; ring
  have hs : 0 ≤ Real.sin (2 * Real.pi / n) := by
    refine Real.sin_nonneg_of_nonneg_of_le_pi (by positivity) ?_
    rw [div_le_iff₀ hn0]
    have : (3 : ℝ) ≤ n := by exact_mod_cast hn
    nlinarith [Real.pi_pos]
  unfold areaB regularB
  rw [hb, if_neg (by simp; omega), e, abs_of_nonneg (by positivity)]
  ring

/-- C327 fails: arcs do not count. A circle, and any region of arcs, has area 0; so has a region with holes, a list of boundaries, such as `difference2d` returns: `area` of a plate with a hole is 0. -/
theorem C327_arcs (as : List Arc) (boundaries : List (List Fig)) :
    areaB (.list (as.map .arc)) = 0 ∧ areaB (.list (boundaries.map .list)) = 0 := by
  have h1 : areaPoints (.list (as.map .arc)) = [] := by
    show (as.map Fig.arc).filterMap startOf = []
    rw [List.filterMap_map]; simp [Function.comp_def, startOf]
  have h2 : areaPoints (.list (boundaries.map .list)) = [] := by
    show (boundaries.map Fig.list).filterMap startOf = []
    rw [List.filterMap_map]; simp [Function.comp_def, startOf]
  exact ⟨by unfold areaB; rw [h1]; simp, by unfold areaB; rw [h2]; simp⟩

/-- the same, in numbers: a unit square with a hole of half its width has area 0 instead of 3/4 -/
theorem C327_hole : areaB (rectangleB 1 1 0 0) = 1 ∧ areaB (rectangleB (1 / 2) (1 / 2) 0 0) = 1 / 4 ∧
    areaB (.list [rectangleB 1 1 0 0, rectangleB (1 / 2) (1 / 2) 0 0]) = 0 := by
  refine ⟨by rw [C327_rectangle]; norm_num, by rw [C327_rectangle]; rw [abs_of_nonneg] <;> norm_num, ?_⟩
  unfold areaB
  rw [if_pos]
  simp only [areaPoints, rectangleB, List.filterMap_cons, startOf, List.filterMap_nil]
  decide

/-! ## C328: perimeter -/

/-- two points at the same height -/
def Level (l : Line) : Prop := l.a.z = l.b.z

theorem piece_line (l : Line) (h : Level l) : pieceLength (.line l) = linelength l := by
  unfold pieceLength linelength Geom.dist mag sub
  have h' : l.a.z - l.b.z = 0 := by rw [h]; ring
  simp only [h']
  congr 1; ring

theorem listLength_sum (gs : List Fig) (acc : ℝ) : listLength acc gs = acc + (gs.map Fig.length).sum := by
  induction gs generalizing acc with
  | nil => simp [listLength]
  | cons g gs ih => simp only [listLength, ih, List.map_cons, List.sum_cons]; ring

/-- C328: the perimeter of a region in a plane z = constant is the sum of the lengths of its lines, arcs and, in a region with holes, of its boundaries. -/
theorem C328_perimeter (gs : List Fig) (h : ∀ l, Fig.line l ∈ gs → Level l) :
    perimeterB (.list gs) = (gs.map Fig.length).sum ∧ perimeterB (.list gs) = Fig.length (.list gs) := by
  have h1 : perimeterB (.list gs) = (gs.map Fig.length).sum := by
    show (gs.map pieceLength).sum = _
    congr 1
    refine List.map_congr_left fun g hg => ?_
    cases g with
    | line l => rw [piece_line l (h l hg)]; rw [Fig.length]
    | _ => rfl
  refine ⟨h1, ?_⟩
  rw [h1, Fig.length, listLength_sum, zero_add]

/-- C328: the perimeter of a plate with holes is that of the plate and of the holes. -/
theorem C328_holes (outer : List Fig) (holes : List (List Fig)) (h : ∀ b ∈ outer :: holes, ∀ l, Fig.line l ∈ b → Level l) :
    perimeterB (.list ((outer :: holes).map .list)) = ((outer :: holes).map fun b => perimeterB (.list b)).sum := by
  show ((((outer :: holes).map Fig.list)).map pieceLength).sum = _
  rw [List.map_map]
  congr 1
  refine List.map_congr_left fun b hb => ?_
  exact (C328_perimeter b (h b hb)).2.symm

/-- C328: a rectangle has perimeter 2(w + h), a regular polygon 2 n r sin(π/n), a circle 2πr. -/
theorem C328_shapes (w h cx cy r : ℝ) (hw : 0 ≤ w) (hh : 0 ≤ h) (hr : 0 ≤ r) (n : Nat) (hn : 1 ≤ n) (c : V4) (rev : Bool) :
    perimeterB (rectangleB w h cx cy) = 2 * (w + h) ∧
    perimeterB (regularB n r cx cy) = 2 * n * r * Real.sin (Real.pi / n) ∧
    perimeterB (.list [.arc { c := c, r := r, s := 0, e := 360, rev := rev }]) = 2 * Real.pi * r := by
  refine ⟨?_, ?_, ?_⟩
  · simp only [perimeterB, rectangleB, loopLines, List.rotate_cons_succ, List.rotate_zero, List.cons_append, List.nil_append, List.zipWith_cons_cons, List.zipWith_nil_right,
      List.map_cons, List.map_nil, List.sum_cons, List.sum_nil, pieceLength, pt]
    have e1 : (cx + w / 2 - (cx - w / 2)) * (cx + w / 2 - (cx - w / 2)) + (cy - h / 2 - (cy - h / 2)) * (cy - h / 2 - (cy - h / 2)) = w ^ 2 := by ring
    have e2 : (cx + w / 2 - (cx + w / 2)) * (cx + w / 2 - (cx + w / 2)) + (cy + h / 2 - (cy - h / 2)) * (cy + h / 2 - (cy - h / 2)) = h ^ 2 := by ring
    have e3 : (cx - w / 2 - (cx + w / 2)) * (cx - w / 2 - (cx + w / 2)) + (cy + h / 2 - (cy + h / 2)) * (cy + h / 2 - (cy + h / 2)) = w ^ 2 := by ring
    have e4 : (cx - w / 2 - (cx - w / 2)) * (cx - w / 2 - (cx - w / 2)) + (cy - h / 2 - (cy + h / 2)) * (cy - h / 2 - (cy + h / 2)) = h ^ 2 := by ring
    rw [e1, e2, e3, e4, Real.sqrt_sq hw, Real.sqrt_sq hh]
    ring
  · have hn0 : (0 : ℝ) < n := by exact_mod_cast hn
    have h1 : (1 : ℝ) ≤ n := by exact_mod_cast hn
    have hs : 0 ≤ Real.sin (Real.pi / n) := by
      refine Real.sin_nonneg_of_nonneg_of_le_pi (by positivity) ?_
      rw [div_le_iff₀ hn0]; nlinarith [Real.pi_pos]
    unfold perimeterB regularB loopLines
    simp only
    rw [rotate_range n _ (corner_period n hn r cx cy), zipWith_range, List.map_map, sum_const n (2 * r * Real.sin (Real.pi / n))]
    · ring
    · intro i
      simp only [Function.comp_apply, pieceLength, corner, pt]
      have hx : ∀ a b : ℝ, (cx + r * Real.cos b - (cx + r * Real.cos a)) * (cx + r * Real.cos b - (cx + r * Real.cos a)) +
          (cy + r * Real.sin b - (cy + r * Real.sin a)) * (cy + r * Real.sin b - (cy + r * Real.sin a)) = (2 * r * Real.sin ((b - a) / 2)) ^ 2 := by
        intro a b
        have h2 : Real.cos (b - a) = 1 - 2 * Real.sin ((b - a) / 2) ^ 2 := by
          rw [show b - a = 2 * ((b - a) / 2) by ring, Real.cos_two_mul, Real.cos_sq']; ring_nf
        have h3 := Real.cos_sub b a
        have h4 := Real.sin_sq_add_cos_sq a
        have h5 := Real.sin_sq_add_cos_sq b
        rw [h3] at h2
        linear_combination r ^ 2 * h4 + r ^ 2 * h5 - 2 * r ^ 2 * h2
      rw [hx]
      have : (2 * Real.pi * ((i + 1 : Nat) : ℝ) / n - 2 * Real.pi * (i : ℝ) / n) / 2 = Real.pi / n := by push_cast; field_simp; ring
      rw [this, Real.sqrt_sq (by positivity)]
  · have : iscircle ({ c := c, r := r, s := 0, e := 360, rev := rev } : Arc) := by simp [iscircle]
    simp only [perimeterB, List.map_cons, List.map_nil, List.sum_cons, List.sum_nil, pieceLength, Fig.length, arclength, if_pos this]
    ring

example : areaB (rectangleB 2 3 5 5) = 6 := by rw [C327_rectangle]; norm_num

end Verif.Builtin
