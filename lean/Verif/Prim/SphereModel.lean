import Verif.Prim.Model
import Mathlib.Analysis.SpecialFunctions.Trigonometric.Arctan

/-!
# Model of `sphereSurface` and of the vertex table `addVertex` (`src/yapcad/geom3d_util.py`)

The vertex table is a global dictionary that survives between calls; it is emptied when the list of vertices is another
object than in the previous call (compared by `id`) or is empty. Python may give a new list the identity of one that was
discarded, so the model takes the identity of the list and the previous state of the table as arbitrary inputs.
-/

namespace Verif.Prim
open Verif.Geom Verif.Surf Real

/-- the global dictionary: keys to lists of vertex numbers -/
abbrev Hash := String → Option (List Nat)

/-- the global state of `addVertex`: the identity of the list it was last used with, and the dictionary,
geom3d_util.py:178-179 -/
structure Table where
  owner : Option Nat
  hash : Hash

/-- the vertices and normals under construction and the global table -/
structure Build where
  vs : List V4
  ns : List V4
  tab : Table

open Classical in
/-- tiny values are replaced by 0, geom3d_util.py:198-200 -/
noncomputable def snap (x : ℝ) : ℝ := if |x| < eps then 0 else x

/-- the key of a vertex, geom3d_util.py:198-201. The printing of a number with two digits is a parameter. -/
noncomputable def vkey (fmt : ℝ → String) (p : V4) : String := fmt (snap p.x) ++ fmt (snap p.y) ++ fmt (snap p.z)

open Classical in
/-- the search among the candidates, geom3d_util.py:206-211: numbers beyond the list are skipped -/
noncomputable def scan (p : V4) (vs : List V4) : List Nat → Option Nat
  | [] => none
  | i :: is => match vs[i]? with
    | none => scan p vs is
    | some v => if vclose p v then some i else scan p vs is

open Classical in
/-- the table is emptied for another or an empty list, geom3d_util.py:191-194 -/
noncomputable def claim (me : Nat) (b : Build) : Table :=
  if b.tab.owner ≠ some me ∨ b.vs.length = 0 then ⟨some me, fun _ => none⟩ else b.tab

/-- `addVertex`, geom3d_util.py:180-222; `me` is `id(verts)` -/
noncomputable def addVertex (fmt : ℝ → String) (me : Nat) (p n : V4) (b : Build) : Nat × Build :=
  let t := claim me b
  let k := vkey fmt p
  match t.hash k with
  | some is => match scan p b.vs is with
    | some i => (i, ⟨b.vs, b.ns, t⟩)
    | none => (b.vs.length, ⟨b.vs ++ [p], b.ns ++ [n],
        ⟨t.owner, Function.update t.hash k (some (is.filter (· < b.vs.length) ++ [b.vs.length]))⟩⟩)
  | none => (b.vs.length, ⟨b.vs ++ [p], b.ns ++ [n], ⟨t.owner, Function.update t.hash k (some [b.vs.length])⟩⟩)

/-- `add4`, geom.py:1713-1715 -/
def add4 (a b : V4) : V4 := ⟨a.x + b.x, a.y + b.y, a.z + b.z, a.w + b.w⟩

/-- the point half way between two vertices, on the sphere, geom3d_util.py:242-250 -/
noncomputable def midVertex (r : ℝ) (u v : V4) : Except Err V4 :=
  let s := add u v
  if mag s = 0 then .error .zeroDivision else .ok (scale3 s (r / mag s))

/-- the normal half way between two normals, geom3d_util.py:252-257 -/
noncomputable def midNormal (m n : V4) : Except Err V4 :=
  let s := add4 m n
  if mag s = 0 then .error .zeroDivision else .ok (scale4 s (1 / mag s))

/-- a triangle of vertex numbers. The code uses lists of three. -/
abbrev Face := Nat × Nat × Nat

/-- `subdivide`, geom3d_util.py:224-268 -/
noncomputable def subdivide (fmt : ℝ → String) (me : Nat) (r : ℝ) (b : Build) (f : Face) : Except Err (Build × List Face) :=
  match b.vs[f.1]?, b.vs[f.2.1]?, b.vs[f.2.2]?, b.ns[f.1]?, b.ns[f.2.1]?, b.ns[f.2.2]? with
  | some v1, some v2, some v3, some n1, some n2, some n3 =>
    match midVertex r v1 v2, midVertex r v2 v3, midVertex r v3 v1 with
    | .ok va, .ok vb, .ok vc =>
      match midNormal n1 n2, midNormal n2 n3, midNormal n3 n1 with
      | .ok na, .ok nb, .ok nc =>
        let ra := addVertex fmt me va na b
        let rb := addVertex fmt me vb nb ra.2
        let rc := addVertex fmt me vc nc rb.2
        .ok (rc.2, [(f.1, ra.1, rc.1), (ra.1, f.2.1, rb.1), (rb.1, f.2.2, rc.1), (ra.1, rb.1, rc.1)])
      | _, _, _ => .error .zeroDivision
    | _, _, _ => .error .zeroDivision
  | _, _, _, _, _, _ => .error .indexError

/-- one round over all faces, geom3d_util.py:279-282 -/
noncomputable def subdivideAll (fmt : ℝ → String) (me : Nat) (r : ℝ) (b : Build) : List Face → Except Err (Build × List Face)
  | [] => .ok (b, [])
  | f :: fs => match subdivide fmt me r b f with
    | .error e => .error e
    | .ok (b1, new) => match subdivideAll fmt me r b1 fs with
      | .error e => .error e
      | .ok (b2, rest) => .ok (b2, new ++ rest)

/-- the rounds, geom3d_util.py:278-283 -/
noncomputable def rounds (fmt : ℝ → String) (me : Nat) (r : ℝ) : Nat → Build → List Face → Except Err (Build × List Face)
  | 0, b, fs => .ok (b, fs)
  | d + 1, b, fs => match subdivideAll fmt me r b fs with
    | .error e => .error e
    | .ok (b1, fs1) => rounds fmt me r d b1 fs1

/-- the remainder of a division of real numbers, with the sign of the divisor -/
noncomputable def pymod (x m : ℝ) : ℝ := x - m * ⌊x / m⌋

open Classical in
/-- `sphere2cartesian`, geom3d_util.py:117-139 -/
noncomputable def sphere2cartesian (lat lon rad : ℝ) : V4 :=
  if lat = 90 then ⟨0, 0, rad, 1⟩
  else if lat = -90 then ⟨0, 0, -rad, 1⟩
  else
    let latr := (pymod (lat + 90) 180 - 90) * (2 * π) / 360
    let lonr := pymod lon 360 * (2 * π) / 360
    let small := cos latr * rad
    ⟨cos lonr * small, sin lonr * small, sin latr * rad, 1⟩

/-- the direction of a point, geom3d_util.py:150-151, 161-162, 167-168; the radius is not 0 (`sphereSurface` of diameter 0
raises `ZeroDivisionError`) -/
noncomputable def unitOf (p : V4) : V4 := let n := scale3 p (1 / mag p); ⟨n.x, n.y, n.z, 0⟩

/-- the points of `makeIcoPoints` around the origin, geom3d_util.py:142-170 -/
noncomputable def icoPoints (r : ℝ) : List V4 :=
  sphere2cartesian 90 0 r ::
    ((List.range 10).map fun i : ℕ => sphere2cartesian (arctan 0.5 * 360 * (if i % 2 = 0 then -1 else 1) / (2 * π)) (i * 36) r) ++
    [sphere2cartesian (-90) 0 r]

/-- `icaIndices`, geom3d_util.py:173-175 -/
def icoFaces : List Face :=
  [(1, 11, 3), (3, 11, 5), (5, 11, 7), (7, 11, 9), (9, 11, 1),
   (2, 1, 3), (2, 3, 4), (4, 3, 5), (4, 5, 6), (6, 5, 7), (6, 7, 8), (8, 7, 9), (8, 9, 10), (10, 9, 1), (10, 1, 2),
   (0, 2, 4), (0, 4, 6), (0, 6, 8), (0, 8, 10), (0, 10, 2)]

/-- a face as a list -/
def faceList (f : Face) : List Int := [(f.1 : Int), (f.2.1 : Int), (f.2.2 : Int)]

open Classical in
/-- `sphereSurface`, geom3d_util.py:270-293, in the state `t` of the global table; `me` is the identity of the new list of
vertices -/
noncomputable def sphereSurface (fmt : ℝ → String) (me : Nat) (t : Table) (diameter : ℝ) (center : V4) (depth : Nat) : Except Err Surface :=
  let r := diameter / 2
  if r = 0 then .error .zeroDivision
  else
    let ps := (icoPoints r).map fun p => add p (pt 0 0)
    match rounds fmt me r depth ⟨ps, (icoPoints r).map unitOf, t⟩ icoFaces with
    | .error e => .error e
    | .ok (b, fs) =>
      let vs := if vclose center (pt 0 0) then b.vs else b.vs.map fun p => add p center
      .ok ⟨vs, b.ns, fs.map faceList, [], []⟩

end Verif.Prim
