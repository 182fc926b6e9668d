import Verif.Geom.Poly
import Mathlib.Analysis.SpecialFunctions.Complex.Arg
import Mathlib.Analysis.SpecialFunctions.Trigonometric.Basic

/-!
# Model of the arc part of `src/yapcad/geom.py` and of `linePointXY`

Angles are in degrees. `math.cos`, `math.sin`, `math.pi` are the real functions and number,
`math.atan2(y, x)` is the argument of the complex number `x + iy` (signed zeros are not modelled);
`mpmath` numbers are real numbers.
-/

namespace Verif.Geom

/-- an arc `[center, [r, start, end, w], normal]`, geom.py:2267-2285; `rev` is `w == -2`,
`normal` is `none` for a list of length 2 -/
structure Arc where
  c : V4
  r : ℝ
  s : ℝ
  e : ℝ
  rev : Bool
  normal : Option V4 := none

/-- `isarc` beyond the shape: centre is a point, radius not negative, unit normal,
geom.py:2335-2354 -/
def isarc (a : Arc) : Prop :=
  ispoint a.c ∧ ¬ a.r < 0 ∧ ∀ n, a.normal = some n → ispoint n ∧ ¬ |mag n - 1| > eps

/-- `iscircle` of an arc, geom.py:2363-2374 -/
def iscircle (a : Arc) : Prop := a.s = 0 ∧ a.e = 360

/-- Python's `x % 360.0` on reals -/
noncomputable def mod360 (x : ℝ) : ℝ := x - 360 * ⌊x / 360⌋

/-- Python's `x % pi2` on reals -/
noncomputable def modTau (x : ℝ) : ℝ := x - 2 * Real.pi * ⌊x / (2 * Real.pi)⌋

/-- `math.atan2(y, x)` -/
noncomputable def atan2 (y x : ℝ) : ℝ := Complex.arg ⟨x, y⟩

open Classical in
/-- start and end angle after the normalisation shared by `samplearc` and `unsamplearc`,
geom.py:2416-2420, 2468-2472 -/
noncomputable def span (c : Arc) : ℝ × ℝ :=
  if c.s ≠ 0 ∧ c.e ≠ 360 then
    let s := mod360 c.s
    let e := mod360 c.e
    if e < s then (s, e + 360) else (s, e)
  else (c.s, c.e)

/-- the test on the normal, geom.py:2421-2424 -/
def normalOk (c : Arc) : Prop := ∀ n, c.normal = some n → ¬ dist n (pt 0 0 1) > eps

/-- `samplearc(c, u, polar=True)[2]`: the sampled angle in degrees, geom.py:2413-2425 -/
noncomputable def sampleAngle (c : Arc) (u : ℝ) : ℝ :=
  let u := if c.rev then 1 - u else u
  let (s, e) := span c
  mod360 ((e - s) * u + s)

/-- the point of the circle at an angle in degrees, geom.py:2426-2431 -/
noncomputable def circlePoint (p : V4) (r angle : ℝ) : V4 :=
  let radians := angle * (2 * Real.pi) / 360
  let q := scale3 (pt (Real.cos radians) (Real.sin radians)) r
  add p q

open Classical in
/-- `samplearc(c,u)`, geom.py:2407-2431 -/
noncomputable def samplearc (c : Arc) (u : ℝ) : Except Err V4 :=
  if normalOk c then .ok (circlePoint c.c c.r (sampleAngle c u))
  else .error .notImplemented

open Classical in
/-- `segmentarc`, geom.py:2436-2449 -/
noncomputable def segmentarc (c : Arc) (u1 u2 : ℝ) : Except Err Arc :=
  if normalOk c then
    if c.rev then .ok ⟨c.c, c.r, sampleAngle c u2, sampleAngle c u1, true, none⟩
    else .ok ⟨c.c, c.r, sampleAngle c u1, sampleAngle c u2, false, none⟩
  else .error .notImplemented

open Classical in
/-- `arclength`, geom.py:2389-2403 -/
noncomputable def arclength (c : Arc) : ℝ :=
  if iscircle c then c.r * (2 * Real.pi)
  else
    let s := mod360 c.s
    let e := mod360 c.e
    let e := if s > e then e + 360 else e
    2 * Real.pi * c.r * (e - s) / 360

open Classical in
/-- `unsamplearc`, geom.py:2453-2487; `ok none` = `False` -/
noncomputable def unsamplearc (c : Arc) (p : V4) : Except Err (Option ℝ) :=
  let x := sub p c.c
  let (s, e) := span c
  if close s e then .ok none
  else if ¬ normalOk c then .error .notImplemented
  else if |mag x - c.r| > eps then .ok none
  else
    let ang := modTau (atan2 x.y x.x) * 360 / (2 * Real.pi)
    let ang := if e > 360 ∧ ang ≤ e - 360 then ang + 360 else ang
    let u := (ang - s) / (e - s)
    .ok (some (if c.rev then 1 - u else u))

open Classical in
/-- `arcbbox`, geom.py:2490-2499 -/
noncomputable def arcbbox (c : Arc) : Except Err (Option Box) :=
  if iscircle c then
    let rr := pt c.r c.r
    .ok (some ⟨sub c.c rr, add c.c rr⟩)
  else if normalOk c then
    .ok (polybbox ([0, 1, 2, 3, 4].map fun i : ℝ => circlePoint c.c c.r (sampleAngle c (i / 4))))
  else .error .notImplemented

/-! ## `linePointXY`, geom.py:2124-2242 -/

/-- `linedist`, geom.py:2164 -/
noncomputable def linedist (l : Line) (p : V4) : ℝ :=
  |((l.b.y - l.a.y) * p.x - (l.b.x - l.a.x) * p.y + l.b.x * l.a.y - l.b.y * l.a.x) / dist l.a l.b|

/-- `ordir1`, geom.py:2179-2183 -/
noncomputable def ordir1 (l : Line) (p : V4) : V4 :=
  let dir := sub l.b l.a
  let dir := scale3 dir (1 / mag dir)
  scale3 (orthoXY dir) (linedist l p)

/-- `pi1`, geom.py:2187 -/
noncomputable def pi1 (l : Line) (p : V4) : V4 := add p (ordir1 l p)
/-- `pi2`, geom.py:2184, 2188 -/
noncomputable def pi2 (l : Line) (p : V4) : V4 := add p (scale3 (ordir1 l p) (-1))

/-- what `linePointXY` is asked for: the flags `distance` and `params` (both together raise
`ValueError`, geom.py:2149-2150, and are not modelled) -/
inductive Want
  | point | distance | params

/-- results of `linePointXY` -/
inductive LPRes
  | none                  -- `False`
  | pt (p : V4)
  | num (d : ℝ)

/-- `d1`, geom.py:2191-2193 -/
noncomputable def lpSum1 (l : Line) (p : V4) : ℝ := dist l.a (pi1 l p) + dist (pi1 l p) l.b
/-- `d2`, geom.py:2195-2197 -/
noncomputable def lpSum2 (l : Line) (p : V4) : ℝ := dist l.a (pi2 l p) + dist (pi2 l p) l.b

open Classical in
/-- the point returned when `inside` is false, geom.py:2203-2219 -/
noncomputable def lpFree (l : Line) (p : V4) : V4 := if lpSum1 l p ≤ lpSum2 l p then pi1 l p else pi2 l p

open Classical in
/-- the number returned when `params` is true, geom.py:2203-2219 -/
noncomputable def lpParam (l : Line) (p : V4) : ℝ :=
  if lpSum1 l p ≤ lpSum2 l p then dist (pi1 l p) l.b / dist l.a l.b else dist (pi2 l p) l.b / dist l.a l.b

open Classical in
/-- the distance returned when `inside` is true, geom.py:2227-2256 -/
noncomputable def lpDist (l : Line) (p : V4) : ℝ :=
  if |lpSum1 l p - dist l.a l.b| < eps then linedist l p
  else if |lpSum2 l p - dist l.a l.b| < eps then linedist l p
  else if dist l.a p < dist l.b p then dist l.a p else dist l.b p

open Classical in
/-- the point returned when `inside` is true, geom.py:2227-2256 -/
noncomputable def lpPoint (l : Line) (p : V4) : V4 :=
  if |lpSum1 l p - dist l.a l.b| < eps then pi1 l p
  else if |lpSum2 l p - dist l.a l.b| < eps then pi2 l p
  else if dist l.a p < dist l.b p then l.a else l.b

/-- dispatch on the flags, geom.py:2167-2256 -/
noncomputable def lpResult (l : Line) (p : V4) : Bool → Want → LPRes
  | false, .distance => .num (linedist l p)
  | true, .distance => .num (lpDist l p)
  | _, .params => .num (lpParam l p)
  | false, .point => .pt (lpFree l p)
  | true, .point => .pt (lpPoint l p)

open Classical in
/-- `linePointXY(l,p,inside,...)`, geom.py:2124-2256 -/
noncomputable def linePointXY (l : Line) (p : V4) (inside : Bool) (want : Want) : Except Err LPRes :=
  if dist l.a l.b < eps then .ok .none
  else if ¬ isXYPlanar [p, l.a, l.b] then .error .valueError
  else .ok (lpResult l p inside want)

/-! ## lines and circles -/

/-- squared length `a` of the line, geom.py:2774 -/
def laA (l : Line) : ℝ := (l.a.x - l.b.x) * (l.a.x - l.b.x) + (l.a.y - l.b.y) * (l.a.y - l.b.y)
/-- linear coefficient `b`, geom.py:2781 (with `V = p0 - p1`, `P = p1`) -/
def laB (l : Line) (c : Arc) : ℝ :=
  2 * ((l.a.x - l.b.x) * (l.b.x - c.c.x) + (l.a.y - l.b.y) * (l.b.y - c.c.y))
/-- constant coefficient `cc`, geom.py:2783 -/
def laC (l : Line) (c : Arc) : ℝ :=
  (l.b.x - c.c.x) * (l.b.x - c.c.x) + (l.b.y - c.c.y) * (l.b.y - c.c.y) - c.r * c.r
/-- discriminant `d`, geom.py:2784 -/
def laD (l : Line) (c : Arc) : ℝ := laB l c * laB l c - 4 * laA l * laC l c

open Classical in
/-- the solutions `b0`, `b1` that are used, geom.py:2785-2800: `b1` is skipped when it is falsy,
i.e. `False` or zero -/
noncomputable def laRoots (l : Line) (c : Arc) : Except Err (List ℝ) :=
  let a := laA l
  let b := laB l c
  let d := laD l c
  if |d| < √a * 2 * eps then .ok [-b / (2 * a)]
  else if d < 0 then .error .valueError
  else
    let b0 := (-b + √d) / (2 * a)
    let b1 := (-b - √d) / (2 * a)
    if b1 = 0 then .ok [b0] else .ok [b0, b1]

/-- the point for a solution `b`, in world coordinates, geom.py:2797-2805: `add(scale3(V,b),p1)`
then `add(q,x)` -/
def laPoint (l : Line) (c : Arc) (b : ℝ) : V4 :=
  let p0 := sub l.a c.c
  let p1 := sub l.b c.c
  let V := sub p0 p1
  add (add (scale3 V b) p1) c.c

open Classical in
/-- `lineArcIntersectXY(l, c, inside)` (points, not parameters) when `c` is a full circle or
`inside=False`, geom.py:2725-2815, 2836-2848. The filtering by angle for partial arcs
(2817-2829) is not modelled: the model answers `notImplemented`. -/
noncomputable def lineArcIntersectXY (l : Line) (c : Arc) (inside : Bool := true) :
    Except Err (Option (List V4)) :=
  if ¬ normalOk c then .error .valueError
  else if ¬ isXYPlanar [l.a, l.b, c.c] then .error .valueError
  else
    match linePointXY l c.c inside .distance with
    | .error e => .error e
    | .ok .none => .error .notImplemented  -- `False > r + epsilon`: goes on with a degenerate line
    | .ok (.pt _) => .error .typeError     -- unreachable
    | .ok (.num dst) =>
      if dst > c.r + eps then .ok none
      else if |laA l| < eps * eps then .error .valueError
      else
        match laRoots l c with
        | .error e => .error e
        | .ok bs =>
          if inside = false ∨ iscircle c then .ok (some (bs.map (laPoint l c)))
          else .error .notImplemented

/-! ## tangents of two circles -/

open Classical in
/-- the part of `_circleCircleTangentsXY` after the circles have been ordered, geom.py:2886-2926:
`sm` the circle called small, `bg` the one called big. `none` = ValueError -/
noncomputable def tangentsOrdered (sm bg : Arc) : Option ((V4 × V4) × (V4 × V4)) :=
  let d := dist sm.c bg.c
  let dr := bg.r - sm.r
  if d ≤ dr then none
  else
    let beta := √(d * d - dr * dr)
    let theta := atan2 dr beta
    let dd := sub bg.c sm.c
    let phi := atan2 dd.y dd.x
    let gamma1 := phi + theta + Real.pi / 2
    let gamma2 := phi - theta - Real.pi / 2
    let n1 := pt (Real.cos gamma1) (Real.sin gamma1)
    let n2 := pt (Real.cos gamma2) (Real.sin gamma2)
    some ((add (scale3 n1 sm.r) sm.c, add (scale3 n1 bg.r) bg.c),
      (add (scale3 n2 sm.r) sm.c, add (scale3 n2 bg.r) bg.c))

open Classical in
/-- `_circleCircleTangentsXY`, geom.py:2857-2926; the lines go from the first circle to the second.
(`dist` is symmetric, the code computes `dist(c1[0],c2[0])`.) -/
noncomputable def circleTangents (c1 c2 : Arc) : Option (Line × Line) :=
  if c1.r > c2.r then
    (tangentsOrdered c2 c1).map fun t => (⟨t.1.2, t.1.1⟩, ⟨t.2.2, t.2.1⟩)
  else
    (tangentsOrdered c1 c2).map fun t => (⟨t.1.1, t.1.2⟩, ⟨t.2.1, t.2.2⟩)

end Verif.Geom
