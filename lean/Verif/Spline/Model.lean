import Mathlib.Analysis.SpecialFunctions.Pow.Real
import Mathlib.Algebra.BigOperators.Intervals

/-! # Spline curves (`src/yapcad/spline.py`, definitions in `src/yapcad/geom.py`)

Numbers are reals: rounding is not modelled. A control point is its triple of coordinates, as `to_vec3`
(geometry_utils.py:23-28) returns it; the homogeneous coordinate, which `to_vec3` drops, is not represented, and the
points returned always have `w = 1`. -/

namespace Verif.Spline

/-- coordinates of a point -/
abbrev P3 := ℝ × ℝ × ℝ

inductive Err
  | valueError | indexError | zeroDivision
deriving DecidableEq

/-- `max(0.0, min(1.0, float(t)))`, spline.py:86, 336 -/
noncomputable def clamp01 (t : ℝ) : ℝ := max 0 (min 1 t)

/-! ## Bézier curves -/

/-- `_binomial`, spline.py:28-32 (`//` on naturals) -/
def binomial (n k : ℕ) : ℕ := if k > n then 0 else n.factorial / (k.factorial * (n - k).factorial)

/-- `_bernstein`, spline.py:35-55 -/
noncomputable def bernstein (n i : ℕ) (t : ℝ) : ℝ := binomial n i * t ^ i * (1 - t) ^ (n - i)

/-- one new point of De Casteljau's algorithm, spline.py:93-95 -/
def blend (t : ℝ) (a b : P3) : P3 :=
  ((1 - t) * a.1 + t * b.1, (1 - t) * a.2.1 + t * b.2.1, (1 - t) * a.2.2 + t * b.2.2)

/-- one round, spline.py:91-97 -/
def casteljauRound (t : ℝ) : List P3 → List P3
  | a :: b :: r => blend t a b :: casteljauRound t (b :: r)
  | _ => []

/-- the rounds, spline.py:89-97 -/
def casteljau (t : ℝ) : ℕ → List P3 → List P3
  | 0, w => w
  | k + 1, w => casteljau t k (casteljauRound t w)

/-- `bezier_point`, spline.py:58-99 -/
noncomputable def bezierPoint (pts : List P3) (t : ℝ) : Except Err P3 :=
  match pts with
  | [] => .error .valueError
  | [p] => .ok p
  | p :: q :: r =>
    match casteljau (clamp01 t) (r.length + 1) (p :: q :: r) with
    | x :: _ => .ok x
    | [] => .error .indexError   -- unreachable: the last round leaves one point

/-- `degree * (pts[i+1] - pts[i])`, spline.py:154-160 -/
def derivPoints (degree : ℝ) : List P3 → List P3
  | a :: b :: r =>
    (degree * (b.1 - a.1), degree * (b.2.1 - a.2.1), degree * (b.2.2 - a.2.2)) :: derivPoints degree (b :: r)
  | _ => []

/-- `bezier_tangent`, spline.py:123-165 (the direction; its `w` is 0) -/
noncomputable def bezierTangent (pts : List P3) (t : ℝ) : Except Err P3 :=
  if pts.length < 2 then .ok (0, 0, 0)
  else bezierPoint (derivPoints ((pts.length - 1 : ℕ) : ℝ) pts) t

/-- evaluate at each parameter of a list, stopping at the first error -/
def evalAll (f : ℝ → Except Err P3) : List ℝ → Except Err (List P3)
  | [] => .ok []
  | t :: ts => match f t with
    | .error e => .error e
    | .ok p => match evalAll f ts with
      | .error e => .error e
      | .ok ps => .ok (p :: ps)

/-- the parameters `i / segments` for `i in range(segments + 1)`, spline.py:194-195, 416-417 -/
noncomputable def params (segments : ℕ) : List ℝ := (List.range (segments + 1)).map fun i : ℕ => (i : ℝ) / segments

/-- `bezier_curve`, spline.py:168-197 (`segments` is a natural number) -/
noncomputable def bezierCurve (pts : List P3) (segments : ℕ) : Except Err (List P3) :=
  if segments < 1 then .error .valueError else evalAll (bezierPoint pts) (params segments)

/-! ## B-splines -/

/-- `_uniform_knot_vector(n, degree, closed=False)`, spline.py:252-264 -/
noncomputable def clampedKnots (n degree : ℕ) : List ℝ :=
  (List.range (n + degree + 1)).map fun i : ℕ =>
    if i < degree + 1 then 0
    else if i ≥ n + degree + 1 - degree - 1 then 1
    else ((i : ℝ) - degree) / ((n : ℝ) - degree)

/-- `_uniform_knot_vector(n, degree, closed=True)`, spline.py:248-251 -/
noncomputable def periodicKnots (n degree : ℕ) : List ℝ :=
  (List.range (n + degree + 1)).map fun i : ℕ => ((i : ℝ) - degree) / n

/-- `knots[i]` -/
def knotAt (k : List ℝ) (i : ℕ) : Except Err ℝ :=
  match k[i]? with
  | some x => .ok x
  | none => .error .indexError

open Classical in
/-- the base case of `_bspline_basis`, spline.py:286-295 -/
noncomputable def basis0 (i : ℕ) (u : ℝ) (k : List ℝ) : Except Err ℝ :=
  if i + 1 ≥ k.length then .ok 0
  else
    match knotAt k i, knotAt k (i + 1), knotAt k (k.length - 1) with
    | .ok a, .ok b, .ok z =>
      if a ≤ u ∧ u < b then .ok 1
      else if u = z ∧ a ≤ u ∧ u ≤ b then .ok 1
      else .ok 0
    | _, _, _ => .error .indexError

open Classical in
/-- one of the two terms: `c / d * N` if `d > 1e-12`, else zero -/
noncomputable def term (c d : ℝ) (N : Except Err ℝ) : Except Err ℝ :=
  if d > 1e-12 then
    match N with
    | .ok v => .ok (c / d * v)
    | .error e => .error e
  else .ok 0

/-- `_bspline_basis(i, p, u, knots)`, spline.py:267-309 -/
noncomputable def basis : ℕ → ℕ → ℝ → List ℝ → Except Err ℝ
  | 0, i, u, k => basis0 i u k
  | p + 1, i, u, k =>
    match knotAt k (i + (p + 1)), knotAt k i with
    | .ok kip, .ok ki =>
      match term (u - ki) (kip - ki) (basis p i u k) with
      | .error e => .error e
      | .ok left =>
        if i + (p + 1) + 1 < k.length then
          match knotAt k (i + (p + 1) + 1), knotAt k (i + 1) with
          | .ok kipp, .ok kis =>
            match term (kipp - u) (kipp - kis) (basis p (i + 1) u k) with
            | .error e => .error e
            | .ok right => .ok (left + right)
          | _, _ => .error .indexError
        else .ok (left + 0)
    | _, _ => .error .indexError

/-- the accumulating loop, spline.py:347-352, 359-364 -/
noncomputable def basisSum (degree : ℕ) (u : ℝ) (k : List ℝ) : ℕ → P3 → List P3 → Except Err P3
  | _, acc, [] => .ok acc
  | i, acc, p :: ps =>
    match basis degree i u k with
    | .error e => .error e
    | .ok b => basisSum degree u k (i + 1) (acc.1 + b * p.1, acc.2.1 + b * p.2.1, acc.2.2 + b * p.2.2) ps

/-- `bspline_point`, spline.py:312-366 -/
noncomputable def bsplinePoint (pts : List P3) (t : ℝ) (degree : ℕ) (closed : Bool) : Except Err P3 :=
  if pts.length < degree + 1 then .error .valueError
  else if closed then
    let k := periodicKnots pts.length degree
    match knotAt k degree, knotAt k pts.length with
    | .ok lo, .ok hi => basisSum degree (lo + clamp01 t * (hi - lo)) k 0 (0, 0, 0) (pts ++ pts.take degree)
    | _, _ => .error .indexError
  else basisSum degree (clamp01 t) (clampedKnots pts.length degree) 0 (0, 0, 0) pts

/-- `samples[-1] = samples[0]`, spline.py:420-422 -/
def closeLoop (ps : List P3) : List P3 :=
  match ps with
  | [] => []
  | p :: r => (p :: r).set r.length p

/-- `bspline_curve`, spline.py:392-424 -/
noncomputable def bsplineCurve (pts : List P3) (degree : ℕ) (closed : Bool) (segments : ℕ) : Except Err (List P3) :=
  if segments < 1 then .error .valueError
  else match evalAll (fun t => bsplinePoint pts t degree closed) (params segments) with
    | .error e => .error e
    | .ok ps => .ok (if closed then closeLoop ps else ps)

/-! ## NURBS -/

/-- a NURBS definition, geom.py:481-559 -/
structure Nurbs where
  pts : List P3
  degree : ℕ
  weights : List ℝ
  knots : List ℝ

/-- `_open_uniform_knot_vector(count, degree)`, geom.py:1580-1593, for `count ≥ degree + 1` -/
noncomputable def openKnots (count degree : ℕ) : List ℝ :=
  (List.replicate (degree + 1) 0 ++
    ((List.range (count - degree - 1)).map fun j : ℕ => ((j : ℝ) + 1) / ((count : ℝ) - degree)) ++
    List.replicate (degree + 1) 1).take (count + degree + 1)

/-- `nurbs(control_points, degree, weights, knots)`, geom.py:536-559 -/
noncomputable def nurbs (pts : List P3) (degree : ℕ) (weights knots : Option (List ℝ)) : Except Err Nurbs :=
  if pts.length = 0 then .error .valueError
  else if degree < 1 then .error .valueError
  else if pts.length < degree + 1 then .error .valueError
  else if (weights.map fun w => decide (w.length ≠ pts.length)).getD false then .error .valueError
  else if (knots.map fun k => decide (k.length ≠ pts.length + degree + 1)).getD false then .error .valueError
  else .ok ⟨pts, degree, weights.getD (List.replicate pts.length 1), knots.getD (openKnots pts.length degree)⟩

open Classical in
/-- the base case of `_nip`, spline.py:681-684 -/
noncomputable def nip0 (i : ℕ) (u : ℝ) (k : List ℝ) : Except Err ℝ :=
  match knotAt k i, knotAt k (i + 1), knotAt k (k.length - 1) with
  | .ok a, .ok b, .ok z => if (a ≤ u ∧ u < b) ∨ (u = z ∧ a < b) then .ok 1 else .ok 0
  | _, _, _ => .error .indexError

open Classical in
/-- one of the two terms of `_nip`: skipped if the denominator is zero -/
noncomputable def nterm (c d : ℝ) (N : Except Err ℝ) : Except Err ℝ :=
  if d ≠ 0 then
    match N with
    | .ok v => .ok (c / d * v)
    | .error e => .error e
  else .ok 0

/-- `_nip`, spline.py:680-696 -/
noncomputable def nip : ℕ → ℕ → ℝ → List ℝ → Except Err ℝ
  | 0, i, u, k => nip0 i u k
  | p + 1, i, u, k =>
    match knotAt k (i + (p + 1)), knotAt k i with
    | .ok kip, .ok ki =>
      match nterm (u - ki) (kip - ki) (nip p i u k) with
      | .error e => .error e
      | .ok left =>
        match knotAt k (i + (p + 1) + 1), knotAt k (i + 1) with
        | .ok kipp, .ok kis =>
          match nterm (kipp - u) (kipp - kis) (nip p (i + 1) u k) with
          | .error e => .error e
          | .ok right => .ok (left + right)
        | _, _ => .error .indexError
    | _, _ => .error .indexError

/-- the loop of `_nurbs_point`, spline.py:662-674: numerator and denominator. (`weights[i]` is in range: `nurbs` has
checked the length. Skipping a zero basis value adds nothing.) -/
noncomputable def nurbsSum (degree : ℕ) (u : ℝ) (k : List ℝ) : ℕ → P3 → ℝ → List (P3 × ℝ) → Except Err (P3 × ℝ)
  | _, num, den, [] => .ok (num, den)
  | i, num, den, (p, wt) :: r =>
    match nip degree i u k with
    | .error e => .error e
    | .ok b => nurbsSum degree u k (i + 1)
        (num.1 + wt * b * p.1, num.2.1 + wt * b * p.2.1, num.2.2 + wt * b * p.2.2) (den + wt * b) r

open Classical in
/-- `_nurbs_point`, spline.py:661-677 -/
noncomputable def nurbsPoint (c : Nurbs) (u : ℝ) : Except Err P3 :=
  match nurbsSum c.degree u c.knots 0 (0, 0, 0) 0 (c.pts.zip c.weights) with
  | .error e => .error e
  | .ok (num, den) =>
    if den = 0 then
      match c.pts with
      | p :: _ => .ok p
      | [] => .error .indexError
    else .ok (num.1 / den, num.2.1 / den, num.2.2 / den)

/-- `evaluate_nurbs`, spline.py:535-548; `knots[-degree - 1]` -/
noncomputable def evaluateNurbs (c : Nurbs) (u : ℝ) : Except Err P3 :=
  match knotAt c.knots c.degree, knotAt c.knots (c.knots.length - c.degree - 1) with
  | .ok lo, .ok hi => nurbsPoint c (lo + (hi - lo) * clamp01 u)
  | _, _ => .error .indexError

/-- `sample_nurbs`, spline.py:634-658 -/
noncomputable def sampleNurbs (c : Nurbs) (samples : ℕ) : Except Err (List P3) :=
  if samples < 2 then .error .valueError
  else
    match knotAt c.knots c.degree, knotAt c.knots (c.knots.length - c.degree - 1) with
    | .ok lo, .ok hi => evalAll (nurbsPoint c) ((List.range samples).map fun i : ℕ =>
        if i = samples - 1 then hi else lo + (hi - lo) * ((i : ℝ) / ((samples - 1 : ℕ) : ℝ)))
    | _, _ => .error .indexError

/-! ## Catmull-Rom splines -/

/-- Euclidean distance, spline.py:591 -/
noncomputable def dist (a b : P3) : ℝ := √((b.1 - a.1) ^ 2 + (b.2.1 - a.2.1) ^ 2 + (b.2.2 - a.2.2) ^ 2)

open Classical in
/-- `pow(delta, alpha)`, spline.py:592: `math.pow` raises `ValueError` for zero to a negative power -/
noncomputable def power (delta alpha : ℝ) : Except Err ℝ :=
  if delta = 0 ∧ alpha < 0 then .error .valueError else .ok (delta ^ alpha)

open Classical in
/-- `_catmull_blend`, spline.py:615-625 -/
noncomputable def catmullBlend (a b : P3) (t0 t1 t : ℝ) : P3 :=
  if |t1 - t0| < 1e-12 then b
  else
    let w0 := (t1 - t) / (t1 - t0)
    let w1 := (t - t0) / (t1 - t0)
    (a.1 * w0 + b.1 * w1, a.2.1 * w0 + b.2.1 * w1, a.2.2 * w0 + b.2.2 * w1)

open Classical in
/-- the pyramid, spline.py:594-612, for the knots `0, t1, t2, t3` -/
noncomputable def catmullAt (v0 v1 v2 v3 : P3) (t1 t2 t3 tau : ℝ) : P3 :=
  if t2 - t1 < 1e-12 then v2
  else
    let t := t1 + (t2 - t1) * tau
    let A1 := catmullBlend v0 v1 0 t1 t
    let A2 := catmullBlend v1 v2 t1 t2 t
    let A3 := catmullBlend v2 v3 t2 t3 t
    let B1 := catmullBlend A1 A2 0 t2 t
    let B2 := catmullBlend A2 A3 t1 t3 t
    catmullBlend B1 B2 t1 t2 t

/-- `_catmullrom_point`, spline.py:584-612 -/
noncomputable def catmullPoint (v0 v1 v2 v3 : P3) (alpha tau : ℝ) : Except Err P3 :=
  match power (dist v0 v1) alpha, power (dist v1 v2) alpha, power (dist v2 v3) alpha with
  | .ok d1, .ok d2, .ok d3 => .ok (catmullAt v0 v1 v2 v3 d1 (d1 + d2) (d1 + d2 + d3) tau)
  | _, _, _ => .error .valueError

/-- a Catmull-Rom spline, geom.py:420-466 -/
structure Catmull where
  pts : List P3
  closed : Bool
  alpha : ℝ

/-- `ctrl[i]` -/
def ctrl (c : Catmull) (i : ℕ) : P3 := c.pts.getD i (0, 0, 0)

/-- the four control points of span `i`, spline.py:526-529, 569-572. `(i - 1) % count` is `(i + count - 1) % count`,
`max(i - 1, 0)` is truncated subtraction. -/
noncomputable def spanPoint (c : Catmull) (i : ℕ) (tau : ℝ) : Except Err P3 :=
  let count := c.pts.length
  if c.closed then
    catmullPoint (ctrl c ((i + count - 1) % count)) (ctrl c (i % count)) (ctrl c ((i + 1) % count))
      (ctrl c ((i + 2) % count)) c.alpha tau
  else
    catmullPoint (ctrl c (i - 1)) (ctrl c (i % count)) (ctrl c (min (i + 1) (count - 1)))
      (ctrl c (min (i + 2) (count - 1))) c.alpha tau

/-- number of spans, spline.py:514, 567 -/
def spans (c : Catmull) : ℕ := if c.closed then c.pts.length else c.pts.length - 1

/-- `evaluate_catmullrom`, spline.py:500-532 -/
noncomputable def evaluateCatmull (c : Catmull) (u : ℝ) : Except Err P3 :=
  match c.pts with
  | [] => .error .valueError
  | [p] => .ok p
  | _ :: _ :: _ =>
    let span := clamp01 u * (spans c : ℝ)
    let idx := ⌊span⌋₊
    if idx ≥ spans c then spanPoint c (spans c - 1) 1
    else spanPoint c idx (span - (idx : ℝ))

/-- the samples of one span, spline.py:577-579 -/
noncomputable def spanSamples (c : Catmull) (segs i : ℕ) : Except Err (List P3) :=
  evalAll (spanPoint c i) ((List.range segs).map fun s : ℕ => ((s : ℝ) + 1) / (segs : ℝ))

/-- the loop over the spans, spline.py:568-579 -/
noncomputable def allSamples (c : Catmull) (segs : ℕ) : List ℕ → Except Err (List P3)
  | [] => .ok []
  | i :: is => match spanSamples c segs i with
    | .error e => .error e
    | .ok ps => match allSamples c segs is with
      | .error e => .error e
      | .ok qs => .ok (ps ++ qs)

/-- `sample_catmullrom`, spline.py:550-581 -/
noncomputable def sampleCatmull (c : Catmull) (segs : ℕ) : Except Err (List P3) :=
  if segs < 1 then .error .valueError
  else if c.pts.length < 2 then .error .valueError
  else match allSamples c segs (List.range (spans c)) with
    | .error e => .error e
    | .ok ps => .ok (ctrl c 0 :: ps)

end Verif.Spline
