import Verif.Geom.Vec
import Mathlib.Algebra.Order.Floor.Ring
import Mathlib.Algebra.Order.Archimedean.Real.Basic

/-!
# Model of the triangle, polyline and knot-vector part of `src/yapcad/geom.py`
-/

namespace Verif.Geom

/-! ## barycentric coordinates -/

/-- `denom`, geom.py:2978 -/
def baryDenom (p1 p2 p3 : V4) : ℝ :=
  (p2.y - p3.y) * (p1.x - p3.x) + (p3.x - p2.x) * (p1.y - p3.y)

open Classical in
/-- `_barycentricXY`, geom.py:2961-2989 -/
noncomputable def barycentric (a p1 p2 p3 : V4) : Except Err (ℝ × ℝ × ℝ) :=
  let denom := baryDenom p1 p2 p3
  if |denom| < eps then .error .valueError
  else
    let lam1 := ((p2.y - p3.y) * (a.x - p3.x) + (p3.x - p2.x) * (a.y - p3.y)) / denom
    let lam2 := ((p3.y - p1.y) * (a.x - p3.x) + (p1.x - p3.x) * (a.y - p3.y)) / denom
    let lam3 := 1 - (lam1 + lam2)
    .ok (lam1, lam2, lam3)

open Classical in
/-- `barycentricXY`, geom.py:2991-2999 -/
noncomputable def barycentricXY (a p1 p2 p3 : V4) : Except Err (ℝ × ℝ × ℝ) :=
  if isXYPlanar [a, p1, p2, p3] then barycentric a p1 p2 p3 else .error .valueError

open Classical in
/-- `_isInsideTriangleXY`, geom.py:3792-3802 -/
noncomputable def isInsideTriangle (a p1 p2 p3 : V4) : Except Err Bool :=
  match barycentric a p1 p2 p3 with
  | .error e => .error e
  | .ok (b0, b1, b2) =>
    .ok (if b0 ≥ 0 ∧ b0 ≤ 1 ∧ b1 ≥ 0 ∧ b1 ≤ 1 ∧ b2 ≥ 0 ∧ b2 ≤ 1 then true else false)

/-- `_isInsideConvexPolyXY`, geom.py:3817-3822; for lists of fewer than three points (excluded by
the caller, geom.py:3826) the recursion would not end and the model answers with an error -/
noncomputable def isInsideConvexPoly (a : V4) : List V4 → Except Err Bool
  | p1 :: p2 :: p3 :: rest =>
    match rest with
    | [] => isInsideTriangle a p1 p2 p3
    | _ :: _ =>
      match isInsideTriangle a p1 p2 p3 with
      | .error e => .error e
      | .ok true => .ok true
      | .ok false => isInsideConvexPoly a (p2 :: p3 :: rest)
  | _ => .error .valueError

open Classical in
/-- `isInsideConvexPolyXY`, geom.py:3825-3828 -/
noncomputable def isInsideConvexPolyXY (a : V4) (poly : List V4) : Except Err Bool :=
  if poly.length < 3 ∨ ¬ isXYPlanar (poly ++ [a]) then .error .valueError
  else isInsideConvexPoly a poly

/-! ## bounding boxes of point lists -/

open Classical in
/-- one coordinate of the loop body of `polybbox`, geom.py:3074-3085 -/
noncomputable def updMM (m : ℝ × ℝ) (v : ℝ) : ℝ × ℝ :=
  if v < m.1 then (v, m.2) else if v > m.2 then (m.1, v) else m

/-- the loop of `polybbox`, geom.py:3070-3085 -/
noncomputable def bboxLoop (s : (ℝ × ℝ) × (ℝ × ℝ) × (ℝ × ℝ)) (ps : List V4) :
    (ℝ × ℝ) × (ℝ × ℝ) × (ℝ × ℝ) :=
  ps.foldl (fun s p => (updMM s.1 p.x, updMM s.2.1 p.y, updMM s.2.2 p.z)) s

/-- `polybbox`, geom.py:3060-3087 -/
noncomputable def polybbox : List V4 → Option Box
  | [] => none
  | [p] => some (pointbbox p)
  | p :: q :: ps =>
    let s := bboxLoop ((p.x, p.x), (p.y, p.y), (p.z, p.z)) (q :: ps)
    some ⟨pt s.1.1 s.2.1.1 s.2.2.1, pt s.1.2 s.2.1.2 s.2.2.2⟩

/-! ## polylines -/

/-- `ispoly`, geom.py:3031-3034 -/
def ispoly (a : List V4) : Prop := a.length > 2 ∧ ∀ p ∈ a, ispoint p

/-- `len(a) > 2 and dist(a[0],a[-1]) < epsilon`, geom.py:3101, 3166, 3192, 3237, 3273 -/
def polyClosed : List V4 → Prop
  | [] => False
  | p :: ps => ps.length + 1 > 2 ∧ dist p ((p :: ps).getLast (by simp)) < eps

/-- the lines and lengths computed by `__lineslength`, geom.py:3132-3143 -/
noncomputable def segs : List V4 → List (Line × ℝ)
  | p :: q :: r => (⟨p, q⟩, dist p q) :: segs (q :: r)
  | _ => []

/-- the accumulated length computed by `__lineslength`, geom.py:3132-3143 -/
noncomputable def segsLength (a : List V4) : ℝ := ((segs a).map (·.2)).foldl (· + ·) 0

/-- `polylength`, geom.py:3355-3364 -/
noncomputable def polylength (a : List V4) : ℝ := if a.length < 2 then 0 else segsLength a

/-- Python's `x % 1.0` on reals -/
noncomputable def mod1 (u : ℝ) : ℝ := u - ⌊u⌋

open Classical in
/-- the loop of `samplepoly` for `u < 1`, geom.py:3171-3178; `ok none` = the loop ends without
returning and the function returns `None` -/
noncomputable def sampleLoop (dst : ℝ) : List (Line × ℝ) → ℝ → Except Err (Option V4)
  | [], _ => .ok none
  | (ln, l) :: r, d =>
    if dst ≤ d + l then
      if l = 0 then .error .zeroDivision
      else .ok (some (sampleline ln (1 - (d + l - dst) / l)))
    else sampleLoop dst r (d + l)

open Classical in
/-- the parameter after `if closed: u = u % 1.0`, geom.py:3169-3170 -/
noncomputable def polyParam (a : List V4) (u : ℝ) : ℝ := if polyClosed a then mod1 u else u

open Classical in
/-- `samplepoly`, geom.py:3148-3182 -/
noncomputable def samplepoly (a : List V4) (u : ℝ) : Except Err (Option V4) :=
  if ispoly a then
    let lines := segs a
    let length := segsLength a
    let u := polyParam a u
    let dst := u * length
    if u < 1 then sampleLoop dst lines 0
    else
      match lines.getLast? with
      | none => .error .valueError  -- unreachable: a poly has at least three points
      | some (ln, l) =>
        if l = 0 then .error .zeroDivision
        else .ok (some (sampleline ln ((dst - length + l) / l)))
  else .error .valueError

open Classical in
/-- does segment number `i` of `n` accept the parameter `t` along it, geom.py:3297-3301 -/
def segAccepts (closed : Prop) (i n : Nat) (t : ℝ) : Prop :=
  ((closed ∨ (i > 0 ∧ i < n - 1)) ∧ t ≥ 0 ∧ t ≤ 1) ∨ (¬ closed ∧ i = 0 ∧ t ≤ 1) ∨
    (¬ closed ∧ i = n - 1 ∧ t ≥ 0)

open Classical in
/-- the loop of `intersectSimplePolyXY` for a line `g` and `params=False`, geom.py:3293-3309 -/
noncomputable def polyIsectLoop (g : Line) (inside : Bool) (closed : Prop) (n : Nat) :
    List (Line × ℝ) → Nat → Except Err (List V4)
  | [], _ => .ok []
  | (ln, _) :: r, i =>
    match lineLineParams ln g with
    | .error e => .error e
    | .ok none => polyIsectLoop g inside closed n r (i + 1)
    | .ok (some (t, u)) =>
      match polyIsectLoop g inside closed n r (i + 1) with
      | .error e => .error e
      | .ok ps =>
        if segAccepts closed i n t ∧ (inside = false ∨ ((t ≥ 0 ∧ t ≤ 1) ∧ (u ≥ 0 ∧ u ≤ 1))) then
          .ok (sampleline g u :: ps)
        else .ok ps

open Classical in
/-- `intersectSimplePolyXY(g, a, inside)` for a line `g`, geom.py:3265-3337; `ok none` = `False`.
The branch `len(lines) == 1` (3287-3291) cannot be taken by a poly, which has three points. -/
noncomputable def intersectLinePoly (g : Line) (a : List V4) (inside : Bool := true) :
    Except Err (Option (List V4)) :=
  if ispoly a ∧ isXYPlanar a then
    let lines := segs a
    if lines.length > 2 then
      match polyIsectLoop g inside (polyClosed a) lines.length lines 0 with
      | .error e => .error e
      | .ok [] => .ok none
      | .ok (p :: ps) => .ok (some (p :: ps))
    else .ok none
  else .error .valueError

open Classical in
/-- `isinsidepolyXY` for a closed polygon, geom.py:3092-3123. The branch for polylines that are not
closed (3106-3110, `unsamplepoly`) is not modelled: the model answers `notImplemented` there. -/
noncomputable def isinsidepolyXY (a : List V4) (p : V4) : Except Err Bool :=
  if ¬ polyClosed a then .error .notImplemented
  else
    match polybbox a with
    | none => .error .typeError
    | some bb =>
      if ¬ isinsidebbox bb p then .ok false
      else
        let p2 := add ⟨0.01, 0.01, 0, 1⟩ bb.hi
        if vclose p2 p then .ok false
        else
          match intersectLinePoly ⟨p, p2⟩ a with
          | .error e => .error e
          | .ok none => .ok false
          | .ok (some pp) => .ok (pp.length % 2 == 1)

/-! ## knot vectors -/

/-- `_open_uniform_knot_vector(count, degree)`, geom.py:1580-1593, over the rationals (Python's
`j / denom` is the rounded quotient). `count`, `degree` are non-negative; `[0.0] * (degree + 1)`. -/
def knots (count degree : Nat) : List ℚ :=
  let length := count + degree + 1
  let k0 := List.replicate (degree + 1) (0 : ℚ)
  let interior : Int := (count : Int) - degree - 1
  let k1 :=
    if interior > 0 then
      k0 ++ (List.range interior.toNat).map (fun j : Nat => ((j : ℚ) + 1) / ((count : ℚ) - degree))
    else k0
  (k1 ++ List.replicate (degree + 1) (1 : ℚ)).take length

end Verif.Geom
