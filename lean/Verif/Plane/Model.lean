import Verif.Prim.Model
import Verif.Geom.Arc
import Verif.Geom.Poly
import Verif.Xform.Model

/-!
# Model of the plane and triangle functions of `src/yapcad/geom3d.py` (lines 196-458)

Numbers are real numbers. Triangles are lists of exactly three points (`istriangle` also accepts a closed list of four
points, whose last point plays no part except in `triTriIntersect(..., inside=False)` on coplanar triangles). The in-plane
boolean `combineglist` of two coplanar triangles, used by `triTriIntersect`, is a parameter.
-/

namespace Verif.Plane
open Verif.Geom Verif.Xform
open Verif.Prim (tri2p0n)

/-- a triangle `[p1, p2, p3]` -/
structure Tri where
  p1 : V4
  p2 : V4
  p3 : V4

/-- a planar basis `[p0, n, forward, inverse]`, geom3d.py:307-317 -/
structure Basis where
  p0 : V4
  n : V4
  fwd : Mat ℝ
  inv : Mat ℝ

/-- a vector as the argument of a matrix product -/
def toVec (v : V4) : Vec4 ℝ := ![v.x, v.y, v.z, v.w]

/-- the result of a matrix product as a vector -/
def ofVec (v : Vec4 ℝ) : V4 := ⟨v 0, v 1, v 2, v 3⟩

/-- `M.mul(p)` for a point, xform.py:186-190 -/
noncomputable def app (M : Mat ℝ) (p : V4) : V4 := ofVec (M.mulVec (toVec p))

/-- `signedPlaneDistance`, geom3d.py:196-200 -/
def signedPlaneDistance (p p0 n : V4) : ℝ := Geom.dot (Geom.sub p p0) n

/-- the matrix `rm` with the rows `x`, `y`, `z` (their `w` set to zero), geom3d.py:236-243 -/
def rotRows (x y z : V4) : Mat ℝ :=
  Mat.ofRows ![![x.x, x.y, x.z, 0], ![y.x, y.y, y.z, 0], ![z.x, z.y, z.z, 0], ![0, 0, 0, 1]]

/-- the x axis: the direction of the first edge, geom3d.py:233 -/
noncomputable def axisX (v1 : V4) : V4 := Geom.scale3 v1 (1 / Geom.mag v1)

/-- the y axis, geom3d.py:235 -/
noncomputable def axisY (v1 n : V4) : V4 := Geom.scale3 (Geom.cross (axisX v1) n) (-1)

/-- the basis with centre `p0`, normal `n` and first edge `v1`, geom3d.py:232-251 -/
noncomputable def basisOf (p0 n v1 : V4) : Basis :=
  let rm := rotRows (axisX v1) (axisY v1 n) n
  let tm := translation (toVec (Geom.scale3 p0 (-1)))
  ⟨p0, n, rm.mul tm, (translation (toVec p0)).mul { rm with trans := true }⟩

open Classical in
/-- `tri2p0n(face, basis=True)`, geom3d.py:202-251 -/
noncomputable def tri2basis (t : Tri) : Except Err Basis :=
  match tri2p0n t.p1 t.p2 t.p3 with
  | .error e => .error e
  | .ok (p0, n) =>
    let v1 := Geom.sub t.p2 t.p1
    if Geom.mag v1 = 0 then .error .zeroDivision else .ok (basisOf p0 n v1)

/-! ## lines and planes -/

/-- the coordinate planes `"xy"`, `"yz"`, `"xz"`, geom3d.py:338-346 -/
inductive Card
  | xy | yz | xz
deriving DecidableEq

/-- `p[idx]`, geom3d.py:338-346 -/
def Card.coord (c : Card) (p : V4) : ℝ :=
  match c with
  | .xy => p.z
  | .yz => p.x
  | .xz => p.y

open Classical in
/-- `lineCardinalPlaneIntersect`, geom3d.py:326-336; `none` is `False` -/
noncomputable def lineCardinal (l : Line) (c : Card) (inside : Bool) : Option V4 :=
  if close (c.coord l.a - c.coord l.b) 0 then none
  else
    let u := c.coord l.a / (c.coord l.a - c.coord l.b)
    if inside = true ∧ (u < 0 ∨ u > 1) then none else some (sampleline l u)

/-- the argument `plane` of `linePlaneIntersect` -/
inductive PlaneArg
  | card (c : Card)
  | tri (t : Tri)
  /-- `[p0, n, forward, reverse]` -/
  | basis (b : Basis)

open Classical in
/-- `isInsideTriangleXY`, geom.py:3805-3811 -/
noncomputable def isInsideTriangleXY (a p1 p2 p3 : V4) : Except Err Bool :=
  if isXYPlanar [p1, p2, p3, a] then isInsideTriangle a p1 p2 p3 else .error .valueError

/-- the triangle branch of `linePlaneIntersect`, geom3d.py:351-370 -/
noncomputable def linePlaneTri (l : Line) (t : Tri) (b : Basis) (inside : Bool) : Except Err (Option V4) :=
  match lineCardinal ⟨app b.fwd l.a, app b.fwd l.b⟩ .xy inside with
  | none => .ok none
  | some p =>
    match isInsideTriangleXY p (app b.fwd t.p1) (app b.fwd t.p2) (app b.fwd t.p3) with
    | .error e => .error e
    | .ok false => .ok none
    | .ok true => .ok (some (app b.inv p))

/-- `linePlaneIntersect`, geom3d.py:304-370: a planar basis is no triangle and is refused -/
noncomputable def linePlaneIntersect (l : Line) (plane : PlaneArg) (inside : Bool := true) : Except Err (Option V4) :=
  match plane with
  | .card c => .ok (lineCardinal l c inside)
  | .tri t =>
    match tri2basis t with
    | .error e => .error e
    | .ok b => linePlaneTri l t b inside
  | .basis _ => .error .valueError

/-! ## two triangles -/

/-- the answers of `triTriIntersect`, geom3d.py:373-458 -/
inductive TT
  | no                       -- `False`
  | seg (a b : V4)           -- a line
  | halfSeg (a b : Option V4) -- a list with `False` in place of a point (`inPlane=True`)
  | tri (t : Tri)            -- `t2`, coplanar, `inside=False`
  | area (g : List V4)       -- the combination of two coplanar triangles

/-- all three local heights satisfy `P` -/
def all3 (P : ℝ → Prop) (t : Tri) : Prop := P t.p1.z ∧ P t.p2.z ∧ P t.p3.z

/-- the triangle in the coordinates of a basis, geom3d.py:410-411 -/
noncomputable def mapTri (M : Mat ℝ) (t : Tri) : Tri := ⟨app M t.p1, app M t.p2, app M t.p3⟩

/-- `if not a: a = ip3`, geom3d.py:450-455 -/
def orElse (a c : Option V4) : Option V4 := match a with | some p => some p | none => c

/-- the last part of `triTriIntersect`, geom3d.py:444-458 -/
noncomputable def ttLine (t2p : Tri) (inv : Mat ℝ) (inPlane : Bool) : Except Err TT :=
  let ip1 := lineCardinal ⟨t2p.p1, t2p.p2⟩ .xy false
  let ip2 := lineCardinal ⟨t2p.p2, t2p.p3⟩ .xy false
  let ip3 := lineCardinal ⟨t2p.p3, t2p.p1⟩ .xy false
  match orElse ip1 ip3, orElse ip2 ip3 with
  | some a, some b => .ok (if inPlane then .seg a b else .seg (app inv a) (app inv b))
  | a, b => if inPlane then .ok (.halfSeg a b) else .error .valueError

/-- the coplanar answer: `combine` stands for `combineglist(t1p, t2p, 'intersection')`, `back` for
`transform(_, tinv)`, geom3d.py:414-429 -/
def ttFlat (combine : Tri → Tri → List V4) (back : Mat ℝ → List V4 → List V4) (t1p t2p t2 : Tri) (inv : Mat ℝ)
    (inside inPlane : Bool) : TT :=
  if inside = false then .tri (if inPlane then t2p else t2)
  else
    match combine t1p t2p with
    | [] => .no
    | g => .area (if inPlane then g else back inv g)

open Classical in
/-- `triTriIntersect(t1, t2, inside, inPlane, basis)`, geom3d.py:373-458 -/
noncomputable def triTriIntersect (combine : Tri → Tri → List V4) (back : Mat ℝ → List V4 → List V4) (t1 t2 : Tri)
    (inside : Bool := true) (inPlane : Bool := false) (basis : Option Basis := none) : Except Err TT :=
  match (match basis with | some b => .ok b | none => tri2basis t1 : Except Err Basis) with
  | .error e => .error e
  | .ok b =>
    match tri2p0n t2.p1 t2.p2 t2.p3 with
    | .error e => .error e
    | .ok (_, n2) =>
      let t1p := mapTri b.fwd t1
      let t2p := mapTri b.fwd t2
      if all3 (fun z => |z| ≤ eps) t2p then .ok (ttFlat combine back t1p t2p t2 b.inv inside inPlane)
      else if vclose b.n n2 then .ok .no
      else if inside = true ∧ (all3 (fun z => z > eps) t2p ∨ all3 (fun z => z < -eps) t2p) then .ok .no
      else ttLine t2p b.inv inPlane

/-! ## distance of a point from a triangle -/

/-- `min(d1, d2, d3)`, geom3d.py:290-294; an edge shorter than epsilon gives `False`, which counts as 0 in `min` -/
noncomputable def edgeDist (l : Line) (p : V4) : Except Err ℝ :=
  match linePointXY l p true .distance with
  | .error e => .error e
  | .ok (.num d) => .ok d
  | .ok _ => .ok 0

/-- the in-plane distance `ind` once the point is known to be outside, geom3d.py:290-294 -/
noncomputable def edgesDist (aa p1 p2 p3 : V4) : Except Err ℝ :=
  match edgeDist ⟨p1, p2⟩ aa, edgeDist ⟨p2, p3⟩ aa, edgeDist ⟨p3, p1⟩ aa with
  | .ok d1, .ok d2, .ok d3 => .ok (min d1 (min d2 d3))
  | .error e, _, _ => .error e
  | .ok _, .error e, _ => .error e
  | .ok _, .ok _, .error e => .error e

open Classical in
/-- `ind`, geom3d.py:283-294 -/
noncomputable def inPlaneDist (aa p1 p2 p3 : V4) : Except Err ℝ :=
  match barycentricXY aa p1 p2 p3 with
  | .error e => .error e
  | .ok (l1, l2, l3) =>
    if (l1 ≥ 0 ∧ l1 ≤ 1) ∧ (l2 ≥ 0 ∧ l2 ≤ 1) ∧ (l3 ≥ 0 ∧ l3 ≤ 1) then .ok 0 else edgesDist aa p1 p2 p3

open Classical in
/-- `math.copysign(d, s)` for `d ≥ 0`; the sign of a negative zero is not modelled -/
noncomputable def copysign (d s : ℝ) : ℝ := if s < 0 then -d else d

open Classical in
/-- the end of `signedFaceDistance`, geom3d.py:296-302 -/
noncomputable def faceTotal (m ind : ℝ) : ℝ :=
  if close m 0 then ind else copysign (√(m * m + ind * ind)) (-1 * m)

open Classical in
/-- `signedFaceDistance`, geom3d.py:254-302 -/
noncomputable def signedFaceDistance (p : V4) (t : Tri) : Except Err ℝ :=
  match tri2p0n t.p1 t.p2 t.p3 with
  | .error e => .error e
  | .ok (_, n) =>
    let d := Geom.sub p t.p1
    let m := -Geom.dot d n
    let a := Geom.add p (Geom.scale3 n m)
    let v1 := Geom.sub t.p2 t.p1
    let v2 := Geom.sub t.p3 t.p1
    if Geom.mag v1 = 0 then .error .zeroDivision
    else
      let vx := axisX v1
      let vy := axisY v1 n
      let q1 := pt 0 0
      let q2 := pt (Geom.mag v1) 0
      let q3 := pt (Geom.dot v2 vx) (Geom.dot v2 vy)
      let aa := Geom.sub a t.p1
      let aa := pt (Geom.dot aa vx) (Geom.dot aa vy)
      match inPlaneDist aa q1 q2 q3 with
      | .error e => .error e
      | .ok ind => .ok (faceTotal m ind)

end Verif.Plane
