import Mathlib.Analysis.SpecialFunctions.Trigonometric.Basic
import Mathlib.Analysis.SpecialFunctions.Sqrt

/-!
# Model of `src/yapcad/analytic_surfaces.py`

Numbers are real numbers; what needs no roots or angles is written over any field, so that it can be computed. The fourth component of points (1) and vectors (0) is left out.
A surface `[type, data, metadata]` is a value of `Surf`. The type tests `is_*_surface` are pattern matches.
-/

namespace Verif.Ana
open Real

/-- three numbers: a point or a vector -/
@[ext] structure V (K : Type) where
  x : K
  y : K
  z : K
  deriving DecidableEq

/-- exceptions -/
inductive Err
  | valueError
  | zeroDivision
  deriving DecidableEq

section field
variable {K : Type} [Field K]

/-- `ref` written out in analytic_surfaces.py:317-321: the cross product -/
def cross (a b : V K) : V K := ⟨a.y * b.z - a.z * b.y, a.z * b.x - a.x * b.z, a.x * b.y - a.y * b.x⟩

/-- `o + s a + t b`, component by component -/
def comb (o : V K) (s : K) (a : V K) (t : K) (b : V K) : V K := ⟨o.x + s * a.x + t * b.x, o.y + s * a.y + t * b.y, o.z + s * a.z + t * b.z⟩

end field

/-- `a b + c d`: the direction at an angle with cosine `c` and sine `s` in the plane of two vectors -/
def turn (a : V ℝ) (c : ℝ) (b : V ℝ) (s : ℝ) : V ℝ := ⟨a.x * c + b.x * s, a.y * c + b.y * s, a.z * c + b.z * s⟩

/-- `mag`, as written out in analytic_surfaces.py:62 -/
noncomputable def mag (a : V ℝ) : ℝ := √(a.x * a.x + a.y * a.y + a.z * a.z)

/-- division of the components by a number -/
noncomputable def over (a : V ℝ) (m : ℝ) : V ℝ := ⟨a.x / m, a.y / m, a.z / m⟩

/-- `epsilon`, geom.py:1604 -/
noncomputable def eps : ℝ := 0.000005

/-- The unit vector perpendicular to a given one, as in `plane_surface`, analytic_surfaces.py:69-74, and in the three other constructors -/
noncomputable def refDirection (n : V ℝ) : V ℝ :=
  let r : V ℝ := if |n.z| < 0.9 then ⟨n.y, -n.x, 0⟩ else ⟨0, n.z, -n.y⟩
  over r (mag r)

/-- a range of a parameter -/
abbrev Range := ℝ × ℝ

/-- the surfaces -/
inductive Surf
  | plane (origin normal uAxis vAxis : V ℝ) (u v : Range)
  | sphere (center : V ℝ) (radius : ℝ) (u v : Range)
  | cylinder (origin axis ref : V ℝ) (radius : ℝ) (u v : Range)
  | cone (apex axis ref : V ℝ) (half : ℝ) (u v : Range)
  | torus (center axis ref : V ℝ) (major minor : ℝ) (u v : Range)
  | bspline (points : List (List (V ℝ))) (weights : List (List ℝ)) (uKnots vKnots : List ℝ) (uDegree vDegree : ℕ) (u v : Range)
  | mesh (vertices normals : List (V ℝ)) (faces : List (ℕ × ℕ × ℕ)) (u v : Range)

/-- `plane_surface`, analytic_surfaces.py:35-91 -/
noncomputable def planeSurface (origin normal : V ℝ) (u v : Range) : Except Err Surf :=
  open Classical in
  if mag normal < eps then .error .valueError
  else
    let n := over normal (mag normal)
    let ua := refDirection n
    .ok (.plane origin n ua (cross n ua) u v)

/-- `sphere_surface`, analytic_surfaces.py:144-181 -/
noncomputable def sphereSurface (center : V ℝ) (radius : ℝ) (u v : Range) : Except Err Surf :=
  open Classical in if radius ≤ 0 then .error .valueError else .ok (.sphere center radius u v)

/-- `cylinder_surface`, analytic_surfaces.py:239-296 -/
noncomputable def cylinderSurface (point direction : V ℝ) (radius : ℝ) (u v : Range) : Except Err Surf :=
  open Classical in
  if mag direction < eps then .error .valueError
  else if radius ≤ 0 then .error .valueError
  else
    let a := over direction (mag direction)
    .ok (.cylinder point a (refDirection a) radius u v)

/-- `cone_surface`, analytic_surfaces.py:381-438 -/
noncomputable def coneSurface (apex direction : V ℝ) (half : ℝ) (u v : Range) : Except Err Surf :=
  open Classical in
  if mag direction < eps then .error .valueError
  else if half ≤ 0 ∨ half ≥ π / 2 then .error .valueError
  else
    let a := over direction (mag direction)
    .ok (.cone apex a (refDirection a) half u v)

/-- `torus_surface`, analytic_surfaces.py:528-590 -/
noncomputable def torusSurface (center direction : V ℝ) (major minor : ℝ) (u v : Range) : Except Err Surf :=
  open Classical in
  if mag direction < eps then .error .valueError
  else if major ≤ 0 ∨ minor ≤ 0 then .error .valueError
  else if minor ≥ major then .error .valueError
  else
    let a := over direction (mag direction)
    .ok (.torus center a (refDirection a) major minor u v)

/-- `bspline_surface`, analytic_surfaces.py:691-779. The weights, if given, have the rows and columns of the control points (an `IndexError` otherwise); here they are always given,
by default ones. The degrees are not negative. -/
noncomputable def bsplineSurface (points : List (List (V ℝ))) (uKnots vKnots : List ℝ) (uDegree vDegree : ℕ) (weights : Option (List (List ℝ))) (u v : Option Range) : Except Err Surf :=
  let nv := points.length
  let nu := (points.headD []).length
  if nv < 2 then .error .valueError
  else if nu < 2 then .error .valueError
  else if points.any (fun r => r.length ≠ nu) then .error .valueError
  else if uKnots.length ≠ nu + uDegree + 1 then .error .valueError
  else if vKnots.length ≠ nv + vDegree + 1 then .error .valueError
  else .ok (.bspline points (weights.getD (List.replicate nv (List.replicate nu 1))) uKnots vKnots uDegree vDegree
    (u.getD (uKnots.getD uDegree 0, uKnots.getD nu 0)) (v.getD (vKnots.getD vDegree 0, vKnots.getD nv 0)))

/-- `_bspline_basis`, analytic_surfaces.py:789-828 -/
noncomputable def basis (knots : List ℝ) (u : ℝ) : ℕ → ℕ → ℝ
  | 0, i => open Classical in
    if knots.getD i 0 ≤ u ∧ u < knots.getD (i + 1) 0 then 1
    else if i + 1 = knots.length - 1 ∧ u = knots.getD (i + 1) 0 then 1
    else 0
  | p + 1, i => open Classical in
    (if knots.getD (i + (p + 1)) 0 - knots.getD i 0 > 1e-12 then (u - knots.getD i 0) / (knots.getD (i + (p + 1)) 0 - knots.getD i 0) * basis knots u p i else 0) +
    (if knots.getD (i + (p + 1) + 1) 0 - knots.getD (i + 1) 0 > 1e-12 then
      (knots.getD (i + (p + 1) + 1) 0 - u) / (knots.getD (i + (p + 1) + 1) 0 - knots.getD (i + 1) 0) * basis knots u p (i + 1) else 0)

/-- the entry in row j and column i -/
def entry {α : Type} (rows : List (List α)) (d : α) (j i : ℕ) : α := (rows.getD j []).getD i d

/-- the factor of the control point in row j and column i, analytic_surfaces.py:860-872 -/
noncomputable def factor (weights : List (List ℝ)) (uKnots vKnots : List ℝ) (p q : ℕ) (u v : ℝ) (j i : ℕ) : ℝ :=
  basis uKnots u p i * basis vKnots v q j * entry weights 0 j i

/-- a sum over rows and columns, analytic_surfaces.py:860-876 (skipping a factor that is zero does not change the sum) -/
noncomputable def total (nv nu : ℕ) (f : ℕ → ℕ → ℝ) : ℝ := ((List.range nv).map fun j => ((List.range nu).map fun i => f j i).sum).sum

/-- `evaluate_bspline_surface`, analytic_surfaces.py:831-882 -/
noncomputable def evalBspline (points : List (List (V ℝ))) (weights : List (List ℝ)) (uKnots vKnots : List ℝ) (p q : ℕ) (u v : ℝ) : V ℝ :=
  let nv := points.length
  let nu := (points.headD []).length
  let w := factor weights uKnots vKnots p q u v
  let s := total nv nu w
  let cp := entry points ⟨0, 0, 0⟩
  open Classical in
  if s < 1e-12 then cp 0 0
  else ⟨total nv nu (fun j i => w j i * (cp j i).x) / s, total nv nu (fun j i => w j i * (cp j i).y) / s, total nv nu (fun j i => w j i * (cp j i).z) / s⟩

/-- the least and the greatest number of a list -/
noncomputable def least (l : List ℝ) : ℝ := l.foldr min (l.headD 0)
noncomputable def greatest (l : List ℝ) : ℝ := l.foldr max (l.headD 0)

/-- `evaluate_surface`, analytic_surfaces.py:1061-1081, with the evaluations of the single surfaces: 100-127, 190-219, 305-347, 447-490, 600-650, 831-882, 984-1019 -/
noncomputable def Surf.eval : Surf → ℝ → ℝ → Except Err (V ℝ)
  | .plane o _ ua va _ _, u, v => .ok (comb o u ua v va)
  | .sphere c r _ _, u, v => .ok ⟨c.x + r * cos v * cos u, c.y + r * cos v * sin u, c.z + r * sin v⟩
  | .cylinder o a ref r _ _, u, v => .ok (comb o v a r (turn ref (cos u) (cross a ref) (sin u)))
  | .cone ap a ref h _ _, u, v =>
    let d := turn ref (cos u) (cross a ref) (sin u)
    .ok ⟨ap.x + v * (cos h * a.x + sin h * d.x), ap.y + v * (cos h * a.y + sin h * d.y), ap.z + v * (cos h * a.z + sin h * d.z)⟩
  | .torus c a ref R r _ _, u, v =>
    let d := turn ref (cos u) (cross a ref) (sin u)
    .ok (comb c (R + r * cos v) d (r * sin v) a)
  | .bspline pts w uk vk p q _ _, u, v => .ok (evalBspline pts w uk vk p q u v)
  | .mesh vs _ _ ur vr, u, v =>
    open Classical in
    if vs = [] then .error .valueError
    else
      let tu := if ur.2 ≠ ur.1 then (u - ur.1) / (ur.2 - ur.1) else 0.5
      let tv := if vr.2 ≠ vr.1 then (v - vr.1) / (vr.2 - vr.1) else 0.5
      let xs := vs.map (·.x)
      let ys := vs.map (·.y)
      let zs := vs.map (·.z)
      .ok ⟨least xs + tu * (greatest xs - least xs), least ys + tv * (greatest ys - least ys), (least zs + greatest zs) / 2⟩

/-- a vector divided by its length, or (0, 0, 1) if it is shorter than 1e-12, analytic_surfaces.py:915-920, 1042-1046 -/
noncomputable def unitOrUp (n : V ℝ) : V ℝ := open Classical in if mag n < 1e-12 then ⟨0, 0, 1⟩ else over n (mag n)

/-- `surface_normal`, analytic_surfaces.py:1084-1104, with the normals of the single surfaces: 130-137, 222-232, 350-374, 493-521, 653-684, 885-920, 1022-1046.
Dividing by a difference 0 of parameters (`ZeroDivisionError`) is modelled, division itself by real division. -/
noncomputable def Surf.normal : Surf → ℝ → ℝ → Except Err (V ℝ)
  | .plane _ n _ _ _ _, _, _ => .ok n
  | .sphere _ _ _ _, u, v => .ok ⟨cos v * cos u, cos v * sin u, sin v⟩
  | .cylinder _ a ref _ _ _, u, _ => .ok (turn ref (cos u) (cross a ref) (sin u))
  | .cone _ a ref h _ _, u, _ =>
    let d := turn ref (cos u) (cross a ref) (sin u)
    .ok ⟨sin h * a.x - cos h * d.x, sin h * a.y - cos h * d.y, sin h * a.z - cos h * d.z⟩
  | .torus _ a ref _ _ _ _, u, v =>
    let d := turn ref (cos u) (cross a ref) (sin u)
    .ok ⟨cos v * d.x + sin v * a.x, cos v * d.y + sin v * a.y, cos v * d.z + sin v * a.z⟩
  | .bspline pts w uk vk p q ur vr, u, v =>
    let du := min 1e-6 ((ur.2 - ur.1) * 0.01)
    let dv := min 1e-6 ((vr.2 - vr.1) * 0.01)
    open Classical in
    if du = 0 ∨ dv = 0 then .error .zeroDivision
    else
      let e := evalBspline pts w uk vk p q
      let p0 := e u v
      let pu := e (min (u + du) ur.2) v
      let pv := e u (min (v + dv) vr.2)
      let tu : V ℝ := ⟨(pu.x - p0.x) / du, (pu.y - p0.y) / du, (pu.z - p0.z) / du⟩
      let tv : V ℝ := ⟨(pv.x - p0.x) / dv, (pv.y - p0.y) / dv, (pv.z - p0.z) / dv⟩
      .ok (unitOrUp (cross tu tv))
  | .mesh _ ns _ _ _, _, _ =>
    open Classical in
    if ns = [] then .ok ⟨0, 0, 1⟩
    else .ok (unitOrUp ⟨(ns.map (·.x)).sum, (ns.map (·.y)).sum, (ns.map (·.z)).sum⟩)

/-- the ranges of the parameters -/
def Surf.ranges : Surf → Range × Range
  | .plane _ _ _ _ u v => (u, v)
  | .sphere _ _ u v => (u, v)
  | .cylinder _ _ _ _ u v => (u, v)
  | .cone _ _ _ _ u v => (u, v)
  | .torus _ _ _ _ _ u v => (u, v)
  | .bspline _ _ _ _ _ _ u v => (u, v)
  | .mesh _ _ _ u v => (u, v)

/-- the i-th of the values of a parameter, analytic_surfaces.py:1144, 1146 -/
def param {K : Type} [Field K] (r : K × K) (m i : ℕ) : K := r.1 + (r.2 - r.1) * i / m

/-- the places of the grid, row by row, analytic_surfaces.py:1143-1146 -/
def places (m n : ℕ) : List (ℕ × ℕ) := (List.range (n + 1)).flatMap fun j => (List.range (m + 1)).map fun i => (i, j)

/-- the triangles of the grid, analytic_surfaces.py:1153-1164 -/
def gridFaces (m n : ℕ) : List (ℕ × ℕ × ℕ) :=
  (List.range n).flatMap fun j => (List.range m).flatMap fun i =>
    let i00 := j * (m + 1) + i
    let i10 := i00 + 1
    let i01 := i00 + (m + 1)
    let i11 := i01 + 1
    [(i00, i10, i11), (i00, i11, i01)]

/-- the boundary of the grid, analytic_surfaces.py:1166-1179 -/
def gridBoundary (m n : ℕ) : List ℕ :=
  List.range (m + 1) ++ ((List.range n).map fun j => (j + 1) * (m + 1) + m) ++ ((List.range m).reverse.map fun i => n * (m + 1) + i) ++
    ((List.range (n - 1)).reverse.map fun j => (j + 1) * (m + 1))

/-- what `tessellate_surface` returns: `['surface', vertices, normals, faces, boundary, []]` -/
structure Mesh (K : Type) where
  vertices : List (V K)
  normals : List (V K)
  faces : List (ℕ × ℕ × ℕ)
  boundary : List ℕ

/-- the first exception, or all the values -/
def collect {ε α : Type} : List (Except ε α) → Except ε (List α)
  | [] => .ok []
  | .error e :: _ => .error e
  | .ok a :: l => match collect l with
    | .error e => .error e
    | .ok r => .ok (a :: r)

/-- `tessellate_surface`, analytic_surfaces.py:1107-1181. All points are taken before all normals; the code takes them in turn, which matters only for which exception comes first. -/
noncomputable def tessellate (s : Surf) (m n : ℕ) : Except Err (Mesh ℝ) :=
  match s with
  | .mesh vs ns fs _ _ => .ok ⟨vs, ns, fs, []⟩
  | s =>
    if m = 0 ∨ n = 0 then .error .zeroDivision
    else
      let at' (f : ℝ → ℝ → Except Err (V ℝ)) := collect ((places m n).map fun ij => f (param s.ranges.1 m ij.1) (param s.ranges.2 n ij.2))
      match at' s.eval with
      | .error e => .error e
      | .ok vs => match at' s.normal with
        | .error e => .error e
        | .ok ns => .ok ⟨vs, ns, gridFaces m n, gridBoundary m n⟩

end Verif.Ana
